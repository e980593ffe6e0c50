import Verif.Model.Validity
import Verif.Proof.Bitmap

/-! # Nullable collections are lawful -/

namespace Narrow

variable {O : Type}

namespace Validity

/-- Values with validity flags. -/
def mask (xs : List O) (bs : List Bool) : List (Option O) :=
  List.zipWith (fun x b => if b then some x else none) xs bs

@[simp] theorem mask_nil (xs : List O) : mask xs [] = [] := by simp [mask]
@[simp] theorem nil_mask (bs : List Bool) : mask ([] : List O) bs = [] := by simp [mask]
@[simp] theorem mask_cons (x : O) (xs : List O) (b : Bool) (bs : List Bool) :
    mask (x :: xs) (b :: bs) = (if b then some x else none) :: mask xs bs := by simp [mask]

@[simp] theorem mask_length (xs : List O) (bs : List Bool) :
    (mask xs bs).length = min xs.length bs.length := by simp [mask]

theorem mask_append : ∀ {xs ys : List O} {bs cs : List Bool}, xs.length = bs.length →
    mask (xs ++ ys) (bs ++ cs) = mask xs bs ++ mask ys cs
  | [], ys, [], cs, _ => by simp
  | x :: xs, ys, b :: bs, cs, h => by
    simp only [List.cons_append, mask_cons, List.cons.injEq, true_and]
    exact mask_append (by simpa using h)

theorem mask_append_left {xs ys : List O} {bs : List Bool} (h : bs.length ≤ xs.length) :
    mask (xs ++ ys) bs = mask xs bs := by
  induction bs generalizing xs with
  | nil => simp
  | cons b bs ih =>
    cases xs with
    | nil => simp at h
    | cons x xs =>
      simp only [List.cons_append, mask_cons, List.cons.injEq, true_and]
      exact ih (by simpa using h)

theorem mask_take_length {xs : List O} {bs : List Bool} :
    mask (xs.take bs.length) bs = mask xs bs := by
  induction bs generalizing xs with
  | nil => simp
  | cons b bs ih =>
    cases xs with
    | nil => simp
    | cons x xs => simp [ih]

theorem mask_take (xs : List O) (bs : List Bool) (n : Nat) :
    mask (xs.take n) (bs.take n) = (mask xs bs).take n := by
  simp [mask, List.take_zipWith]

theorem mask_replicate : ∀ (xs : List O), mask xs (List.replicate xs.length true) = xs.map some
  | [] => by simp
  | x :: xs => by simp [List.replicate_succ, mask_replicate xs]

/-- Values and flags of nullable items give the items back. -/
theorem mask_items (d : O) : ∀ (l : List (Option O)),
    mask (l.map (·.getD d)) (l.map Option.isSome) = l
  | [] => by simp
  | none :: l => by simp [mask_items d l]
  | some x :: l => by simp [mask_items d l]

theorem mask_getElem {xs : List O} {bs : List Bool} {i : Nat} (h : i < (mask xs bs).length) :
    (mask xs bs)[i] = if bs[i]'(by simp at h; omega) then some (xs[i]'(by simp at h; omega)) else none := by
  simp [mask]

section
variable {K : Coll O} (L : LawfulColl K)

/-- The bitmap fits in the collection. -/
def Inv (v : Validity K.C) : Prop :=
  L.Inv v.coll ∧ ∀ b, v.bitmap = some b → b.Inv ∧ b.bits ≤ (L.abs v.coll).length

/-- The nullable items. -/
def abs (v : Validity K.C) : List (Option O) :=
  match v.bitmap with
  | none => (L.abs v.coll).map some
  | some b => mask (L.abs v.coll) b.abs

variable {L}

theorem inv_mk {c : K.C} {b : Bitmap} (hc : L.Inv c) (hb : b.Inv) (h : b.bits ≤ (L.abs c).length) :
    Inv L ⟨c, some b⟩ := ⟨hc, fun b' hb' => by simp at hb'; subst hb'; exact ⟨hb, h⟩⟩

theorem abs_some (c : K.C) (b : Bitmap) : abs L ⟨c, some b⟩ = mask (L.abs c) b.abs := rfl

theorem len_ok {v : Validity K.C} (h : Inv L v) : len K v = .ok (abs L v).length := by
  obtain ⟨c, ob⟩ := v
  cases ob with
  | none => simpa [len, abs] using L.len_ok h.1
  | some b =>
    have := (h.2 b rfl).2
    simp only [len, abs, mask_length, Bitmap.abs_length, Bitmap.len]
    congr 1; simp only at this; omega

theorem abs_le {v : Validity K.C} (h : Inv L v) : (abs L v).length ≤ (L.abs v.coll).length := by
  obtain ⟨c, ob⟩ := v
  cases ob with
  | none => simp [abs]
  | some b => simp [abs]; omega

theorem view_ok {v : Validity K.C} {i : Nat} (h : Inv L v) (hi : i < (abs L v).length) :
    ∃ x, K.view v.coll i = .ok (some x) ∧
      L.VRep x ((L.abs v.coll)[i]'(Nat.lt_of_lt_of_le hi (abs_le h))) ∧
      view K v i = .ok (some (if ((abs L v)[i]).isSome then some x else none)) ∧
      ((abs L v)[i]).isSome = (match v.bitmap with
        | none => true
        | some b => bitAt b.buffer.items (b.offset + i)) ∧
      (abs L v)[i] = if ((abs L v)[i]).isSome then
        some ((L.abs v.coll)[i]'(Nat.lt_of_lt_of_le hi (abs_le h))) else none := by
  obtain ⟨x, hx, hr⟩ := L.view_some h.1 (Nat.lt_of_lt_of_le hi (abs_le h))
  refine ⟨x, hx, hr, ?_⟩
  simp only [view, len_ok h, Res.bind, hi, if_true, hx, Res.expect]
  obtain ⟨c, ob⟩ := v
  cases ob with
  | none => simp [abs]
  | some b =>
    have h1 := h.2 b rfl
    have hib : i < b.bits := by simp [abs] at hi; omega
    simp only [abs] at hi ⊢
    simp only [Bitmap.view_some h1.1 hib, Res.map, mask_getElem hi, Bitmap.abs_getElem]
    split <;> simp_all

end

/-! ## Iteration -/

/-- Pairing a collection iterator with a bit iterator. -/
def IterRep {σ : Type} (P : σ → List O → Prop) (it : σ × Option BitIter) (l : List (Option O)) : Prop :=
  ∃ xs, P it.1 xs ∧
    match it.2 with
    | none => l = xs.map some
    | some bi => ∃ bs, bi.Rep bs ∧ bs.length ≤ xs.length ∧ l = mask xs bs

/-! ## Materialised bitmaps -/

section
variable {K : Coll O} {L : LawfulColl K}

theorem materialize_ok {v : Validity K.C} {b : Bitmap} (h : Inv L v)
    (hm : materialize K v = .ok b) :
    Inv L ⟨v.coll, some b⟩ ∧ abs L ⟨v.coll, some b⟩ = abs L v ∧ b.bits = (abs L v).length ∧
      (v.bitmap = some b ∨ (v.bitmap = none ∧ b.offset = 0 ∧
        b.buffer.items.length = bytesForBits (L.abs v.coll).length)) := by
  obtain ⟨c, ob⟩ := v
  cases ob with
  | some b' =>
    simp only [materialize, Res.ok.injEq] at hm
    subst hm
    have := (h.2 b' rfl).2
    refine ⟨h, rfl, ?_, .inl rfl⟩
    simp only [abs, mask_length, Bitmap.abs_length]; simp only at this; omega
  | none =>
    simp only [materialize, L.len_ok h.1] at hm
    split at hm
    · next b' heq =>
      simp only [Res.ok.injEq] at hm
      subst hm
      obtain ⟨h1, h2, h3, h4⟩ := Bitmap.allSet_ok heq
      have hbits : b'.bits = (L.abs c).length := by
        have := congrArg List.length h2; simpa using this
      refine ⟨inv_mk h.1 h1 (Nat.le_of_eq hbits), ?_, by simpa [abs] using hbits, .inr ⟨rfl, h3, h4⟩⟩
      simp [abs, h2, mask_replicate]
    · simp at hm

theorem materialize_live {v : Validity K.C} (h : Inv L v)
    (hl : (abs L v).length ≤ 8 * byteMax) : ∃ b, materialize K v = .ok b := by
  obtain ⟨c, ob⟩ := v
  cases ob with
  | some b' => exact ⟨b', rfl⟩
  | none =>
    obtain ⟨b, hb⟩ := Bitmap.allSet_live (n := (L.abs c).length) (by simpa [abs] using hl)
    exact ⟨b, by simp [materialize, L.len_ok h.1, hb]⟩

theorem tryMaterialize_ok {w w' : World} {v : Validity K.C} {b : Bitmap} (h : Inv L v)
    (hm : tryMaterialize K w v = (.ok b, w')) :
    Inv L ⟨v.coll, some b⟩ ∧ abs L ⟨v.coll, some b⟩ = abs L v ∧ b.bits = (abs L v).length ∧
      (v.bitmap = some b ∨ (v.bitmap = none ∧ b.offset = 0 ∧
        b.buffer.items.length = bytesForBits (L.abs v.coll).length)) := by
  obtain ⟨c, ob⟩ := v
  cases ob with
  | some b' =>
    simp only [tryMaterialize, Prod.mk.injEq, Try.ok.injEq] at hm
    obtain ⟨rfl, rfl⟩ := hm
    have := (h.2 b' rfl).2
    refine ⟨h, rfl, ?_, .inl rfl⟩
    simp only [abs, mask_length, Bitmap.abs_length]; simp only at this; omega
  | none =>
    simp only [tryMaterialize, L.len_ok h.1] at hm
    obtain ⟨h1, h2, h3, h4⟩ := Bitmap.tryAllSet_ok hm
    have hbits : b.bits = (L.abs c).length := by
      have := congrArg List.length h2; simpa using this
    refine ⟨inv_mk h.1 h1 (Nat.le_of_eq hbits), ?_, by simpa [abs] using hbits, .inr ⟨rfl, h3, h4⟩⟩
    simp [abs, h2, mask_replicate]

theorem tryMaterialize_np {w : World} {v : Validity K.C} (h : Inv L v) :
    (tryMaterialize K w v).1 ≠ .panic := by
  obtain ⟨c, ob⟩ := v
  cases ob with
  | some b' => simp [tryMaterialize]
  | none =>
    simp only [tryMaterialize, L.len_ok h.1]
    exact Bitmap.tryAllSet_np _ _

end

/-! ## Canonical states -/

/-- Bitmap part of a canonical state. -/
def BCanon (b : Bitmap) : Prop := b.offset = 0 ∧ b.buffer.items.length ≤ 2 ^ 59

section
variable {R : Realloc O} (L : LawfulR R)

/-- Canonical states: defaults in null slots, bounded hidden storage. -/
def Canon (v : Validity R.C) : Prop :=
  L.Canon v.coll ∧
  (match v.bitmap with
    | none => (L.abs v.coll).length ≤ 2 ^ 62
    | some b => BCanon b) ∧
  L.abs v.coll = (abs L.toLawfulColl v).map (·.getD R.dflt)

/-- Room for nullable items. -/
def Room (e : Nat) (l : List (Option O)) : Prop :=
  l.length + e ≤ 2 ^ 61 ∧ L.Room e (l.map (·.getD R.dflt))

variable {L}

theorem canon_mat {v : Validity R.C} {b : Bitmap} (hc : Canon L v)
    (ha : abs L.toLawfulColl ⟨v.coll, some b⟩ = abs L.toLawfulColl v)
    (hm : v.bitmap = some b ∨ (v.bitmap = none ∧ b.offset = 0 ∧
        b.buffer.items.length = bytesForBits (L.abs v.coll).length)) :
    Canon L ⟨v.coll, some b⟩ := by
  refine ⟨hc.1, ?_, by rw [ha]; exact hc.2.2⟩
  have h1 := hc.2.1
  rcases hm with h | ⟨h, h2, h3⟩
  · rw [h] at h1; exact h1
  · rw [h] at h1
    simp only at h1 ⊢
    refine ⟨by omega, ?_⟩
    rw [h3]; unfold bytesForBits; omega

/-! ## Truncation -/

theorem trunc_ok {v : Validity R.C} (n : Nat) (h : Inv L.toLawfulColl v) :
    ∃ v', truncate R v n = (v', .ok) ∧ Inv L.toLawfulColl v' ∧
      abs L.toLawfulColl v' = (abs L.toLawfulColl v).take n ∧ (Canon L v → Canon L v') := by
  obtain ⟨c, ob⟩ := v
  obtain ⟨c', h1, h2, h3, h4⟩ := L.trunc_ok n h.1
  have habs : abs L.toLawfulColl ⟨c', ob.map (·.truncate n)⟩ = (abs L.toLawfulColl ⟨c, ob⟩).take n := by
    cases ob with
    | none => simp [abs, h3]
    | some b => simp only [abs, Option.map_some, h3, Bitmap.truncate_abs, mask_take]
  refine ⟨⟨c', ob.map (·.truncate n)⟩, by simp [truncate, h1], ⟨h2, ?_⟩, habs, ?_⟩
  · intro b' hb'
    cases ob with
    | none => simp at hb'
    | some b =>
      simp only [Option.map_some, Option.some.injEq] at hb'
      subst hb'
      have := h.2 b rfl
      refine ⟨Bitmap.truncate_inv n this.1, ?_⟩
      rw [← Bitmap.abs_length, Bitmap.truncate_abs, h3]
      simp only [List.length_take, Bitmap.abs_length]; simp only at this; omega
  · intro hc
    refine ⟨h4 hc.1, ?_, ?_⟩
    · have hc2 := hc.2.1
      cases ob with
      | none => simp only [Option.map_none, h3, List.length_take] at hc2 ⊢; omega
      | some b =>
        simp only [Option.map_some] at hc2 ⊢
        unfold Bitmap.truncate; split <;> exact hc2
    · rw [habs, h3, List.map_take, ← hc.2.2]

/-! ## Extending -/

theorem values_items (d : O) (s : Src (Option O)) :
    (values d s).items = s.items.map (·.getD d) := by simp [values]

theorem values_panics (d : O) (s : Src (Option O)) : (values d s).panics = s.panics := by
  simp [values]

theorem room_chunk {e : Nat} {A l : List (Option O)} {n : Nat} (h : Room L e (A ++ l)) :
    Room L e (A ++ l.take n) := by
  have hsplit : A ++ l = (A ++ l.take n) ++ l.drop n := by simp
  rw [hsplit] at h
  refine ⟨?_, ?_⟩
  · have := h.1; simp at this ⊢; omega
  · have := h.2
    rw [List.map_append] at this
    exact L.room_mono (by omega) (L.room_prefix this)

/-- The state between two chunks. -/
structure Mid (c : R.C) (b : Bitmap) : Prop where
  inv : L.Inv c
  binv : b.Inv
  len : (L.abs c).length = b.bits

theorem Mid.mask_len {c : R.C} {b : Bitmap} (h : Mid (L := L) c b) :
    (mask (L.abs c) b.abs).length = b.bits := by
  simp [h.len]

/-- Contents of the collection are the defaults-filled items. -/
def Clean (L : LawfulR R) (c : R.C) (b : Bitmap) : Prop :=
  L.Canon c ∧ BCanon b ∧ L.abs c = (mask (L.abs c) b.abs).map (·.getD R.dflt)

theorem Clean.canon {c : R.C} {b : Bitmap} (hc : Clean L c b) :
    Canon L ⟨c, some b⟩ := by
  exact ⟨hc.1, hc.2.1, hc.2.2⟩

theorem Mid.of_trunc {v : Validity R.C} {b : Bitmap} {c : R.C}
    (hi : Inv L.toLawfulColl ⟨v.coll, some b⟩) (h2 : L.Inv c)
    (h3 : L.abs c = (L.abs v.coll).take b.bits) :
    Mid (L := L) c b ∧ mask (L.abs c) b.abs = abs L.toLawfulColl ⟨v.coll, some b⟩ := by
  have hb := hi.2 b rfl
  refine ⟨⟨h2, hb.1, ?_⟩, ?_⟩
  · rw [h3, List.length_take]; exact Nat.min_eq_left hb.2
  · rw [h3, abs_some, ← mask_take_length (xs := L.abs v.coll), Bitmap.abs_length]

theorem Mid.clean_of_trunc {v : Validity R.C} {b : Bitmap} {c : R.C}
    (hi : Inv L.toLawfulColl ⟨v.coll, some b⟩)
    (h3 : L.abs c = (L.abs v.coll).take b.bits) (h4 : L.Canon v.coll → L.Canon c)
    (hc : Canon L ⟨v.coll, some b⟩) : Clean L c b := by
  refine ⟨h4 hc.1, hc.2.1, ?_⟩
  have hb := (hi.2 b rfl).2
  have h5 := hc.2.2
  have h6 : (L.abs v.coll).length = b.bits := by
    have := congrArg List.length h5
    simp only [abs, List.length_map, mask_length, Bitmap.abs_length] at this
    simp only at hb; omega
  rw [h3]
  have : mask (List.take b.bits (L.abs v.coll)) b.abs = mask (L.abs v.coll) b.abs := by
    have := mask_take_length (xs := L.abs v.coll) (bs := b.abs)
    rwa [Bitmap.abs_length] at this
  rw [this, ← h6, List.take_length]
  exact h5

/-- One chunk appended to both parts. -/
theorem Mid.step {c c' : R.C} {b b' : Bitmap} {l : List (Option O)} (h : Mid (L := L) c b)
    (hc : L.Inv c') (hca : L.abs c' = L.abs c ++ l.map (·.getD R.dflt))
    (hb : b'.Inv) (hba : b'.abs = b.abs ++ l.map Option.isSome) :
    Mid (L := L) c' b' ∧ mask (L.abs c') b'.abs = mask (L.abs c) b.abs ++ l := by
  have hl : b'.bits = b.bits + l.length := by
    have := congrArg List.length hba; simpa using this
  refine ⟨⟨hc, hb, by rw [hca, hl]; simp [h.len]⟩, ?_⟩
  rw [hca, hba, mask_append (by simp [h.len]), mask_items]

theorem clean_step {c c' : R.C} {b b' : Bitmap} {l : List (Option O)} (h : Mid (L := L) c b)
    (hca : L.abs c' = L.abs c ++ l.map (·.getD R.dflt))
    (hba : b'.abs = b.abs ++ l.map Option.isSome) (hk : Clean L c b) (h1 : L.Canon c')
    (h2 : BCanon b') : Clean L c' b' := by
  refine ⟨h1, h2, ?_⟩
  rw [hca, hba, mask_append (by simp [h.len]), mask_items, List.map_append, ← hk.2.2]

theorem bcanon_ext {b b' : Bitmap} {n : Nat} (ho : b'.offset = b.offset)
    (hl : b'.buffer.items.length ≤ max b.buffer.items.length (bytesForBits (b.offset + b.bits + n)))
    (hb : BCanon b) (hn : b.bits + n ≤ 2 ^ 61) : BCanon b' := by
  unfold BCanon at *
  refine ⟨by omega, ?_⟩
  unfold bytesForBits at hl; omega

theorem extendLoop_spec (s : Src (Option O)) : ∀ (c : R.C) (b : Bitmap), Mid (L := L) c b →
    ∀ v' o, extendLoop R c b s = (v', o) →
      o ≠ .err ∧
      (o = .ok → Inv L.toLawfulColl v' ∧
        abs L.toLawfulColl v' = mask (L.abs c) b.abs ++ s.items ∧ s.panics = false) ∧
      (Clean L c b → Room L 0 (mask (L.abs c) b.abs ++ s.items) →
        (o = .ok → Canon L v') ∧ (s.panics = false → o = .ok)) := by
  intro c b hm v' o h
  rw [extendLoop] at h
  have htk := Src.takeChunk_items validityChunk s
  have htp := Src.takeChunk_panics validityChunk s
  have hA := hm.mask_len
  -- the child
  have hne := L.ext_ne (values R.dflt (Src.takeChunk validityChunk s).1) hm.inv
  have hroomC : Clean L c b → Room L 0 (mask (L.abs c) b.abs ++ s.items) →
      L.Room 0 (L.abs c ++ (values R.dflt (Src.takeChunk validityChunk s).1).items) := by
    intro hk hr
    have := (room_chunk (n := validityChunk) hr).2
    rwa [List.map_append, ← hk.2.2, ← htk, ← values_items] at this
  have hlive : Clean L c b → Room L 0 (mask (L.abs c) b.abs ++ s.items) →
      (Src.takeChunk validityChunk s).1.panics = false →
      (R.extend c (values R.dflt (Src.takeChunk validityChunk s).1)).2 = .ok := by
    intro hk hr hp
    exact L.ext_live hm.inv hk.1 (by rw [values_panics]; exact hp) (hroomC hk hr)
  generalize hE : R.extend c (values R.dflt (Src.takeChunk validityChunk s).1) = E at *
  obtain ⟨c1, o1⟩ := E
  simp only at hne hlive
  split at h
  · next c' heq =>
    simp only [Prod.mk.injEq] at heq
    obtain ⟨rfl, rfl⟩ := heq
    obtain ⟨e1, e2, e3⟩ := L.ext_ok hm.inv hE
    rw [values_items, htk] at e2
    rw [values_panics] at e3
    obtain ⟨b1, b2, b3, b4, b5, b6, b7⟩ := Bitmap.extend_spec
      (s := Src.ofList (flags (Src.takeChunk validityChunk s).1)) hm.binv
    have hfl : flags (Src.takeChunk validityChunk s).1 = (s.items.take validityChunk).map Option.isSome := by
      simp [flags, htk]
    simp only [Src.items_ofList, Src.panics_ofList, hfl] at b4 b5 b6 b7 h
    rw [hfl] at b1 b2 b3
    have hroomB : Room L 0 (mask (L.abs c) b.abs ++ s.items) →
        b.bits + (List.map Option.isSome (List.take validityChunk s.items)).length ≤ 2 ^ 61 := by
      intro hr
      have := (room_chunk (n := validityChunk) hr).1
      simp only [List.length_append, hA] at this
      simpa using this
    generalize hF : b.extend (Src.ofList (List.map Option.isSome (List.take validityChunk s.items))) = F at *
    obtain ⟨bb, o2⟩ := F
    simp only at b1 b2 b3 b4 b5 b6 b7 h
    cases o2 with
    | err => exact absurd rfl b3
    | panic =>
      simp only [Prod.mk.injEq] at h
      obtain ⟨rfl, rfl⟩ := h
      refine ⟨by simp, by simp, fun hk hr => ⟨by simp, fun hp => ?_⟩⟩
      have := b6 (by have := hroomB hr; have := hk.2.1.1; unfold byteMax; omega)
      simp at this
    | ok =>
      obtain ⟨b4, -⟩ := b4 rfl
      obtain ⟨m1, m2⟩ := hm.step e1 e2 b1 b4
      have hclean : Clean L c b → Room L 0 (mask (L.abs c) b.abs ++ s.items) → Clean L c1 bb := by
        intro hk hr
        exact clean_step hm e2 b4 hk (L.ext_canon hm.inv hk.1 (hroomC hk hr) hE)
          (bcanon_ext b2 b7 hk.2.1 (hroomB hr))
      simp only at h
      split at h
      · next hlt =>
        simp only [Prod.mk.injEq] at h
        obtain ⟨rfl, rfl⟩ := h
        have hlt' : s.items.length < validityChunk := by
          simp only [List.length_map, List.length_take] at hlt; omega
        have hall : s.items.take validityChunk = s.items := List.take_of_length_le (by omega)
        rw [hall] at m2
        have hp : s.panics = false := by
          rw [e3] at htp; simpa [hlt'] using htp.symm
        refine ⟨by simp, fun _ => ⟨inv_mk m1.inv m1.binv (by rw [m1.len]; exact Nat.le_refl _), m2, hp⟩,
          fun hk hr => ⟨fun _ => (hclean hk hr).canon, fun _ => rfl⟩⟩
      · next hge =>
        have hge' : validityChunk ≤ s.items.length := by
          simp only [List.length_map, List.length_take] at hge; omega
        obtain ⟨r1, r2⟩ := Src.takeChunk_rest_items validityChunk s hge'
        have hdec : (Src.takeChunk validityChunk s).2.length < List.length s := by
          have := takeChunk_length validityChunk s
          rw [htk, List.length_take, Nat.min_eq_left hge'] at this
          unfold validityChunk at this ⊢; omega
        obtain ⟨i1, i2, i3⟩ := extendLoop_spec (Src.takeChunk validityChunk s).2 c1 bb m1 v' o h
        rw [m2, r1, r2] at i2
        rw [m2, r1, r2] at i3
        simp only [List.append_assoc, List.take_append_drop] at i2 i3
        exact ⟨i1, i2, fun hk hr => i3 (hclean hk hr) hr⟩
  · next c' o' hno heq =>
    simp only [Prod.mk.injEq] at heq h
    obtain ⟨rfl, rfl⟩ := heq
    obtain ⟨rfl, rfl⟩ := h
    refine ⟨hne, fun ho => absurd ho (fun ho => hno (by rw [ho])), fun hk hr => ⟨fun ho => absurd ho (fun ho => hno (by rw [ho])), fun hp => ?_⟩⟩
    exact hlive hk hr (by rw [htp, hp]; rfl)
termination_by s.length

theorem Mid.inv_v {c : R.C} {b : Bitmap} (h : Mid (L := L) c b) :
    Inv L.toLawfulColl ⟨c, some b⟩ :=
  inv_mk h.inv h.binv (by rw [h.len]; exact Nat.le_refl _)

theorem extend_spec {v v' : Validity R.C} {s : Src (Option O)} {o : Out}
    (hv : Inv L.toLawfulColl v) (h : extend R v s = (v', o)) :
    o ≠ .err ∧
    (o = .ok → Inv L.toLawfulColl v' ∧
      abs L.toLawfulColl v' = abs L.toLawfulColl v ++ s.items ∧ s.panics = false) ∧
    (Canon L v → Room L 0 (abs L.toLawfulColl v ++ s.items) →
      (o = .ok → Canon L v') ∧ (s.panics = false → o = .ok)) := by
  unfold extend at h
  cases hm : materialize R.toColl v with
  | panic =>
    rw [hm] at h
    simp only [Prod.mk.injEq] at h
    obtain ⟨rfl, rfl⟩ := h
    refine ⟨by simp, by simp, fun hk hr => ⟨by simp, fun _ => ?_⟩⟩
    obtain ⟨b, hb⟩ := materialize_live hv (by have := hr.1; simp at this; unfold byteMax; omega)
    rw [hb] at hm; cases hm
  | ok b =>
    rw [hm] at h
    obtain ⟨m1, m2, m3, m4⟩ := materialize_ok hv hm
    obtain ⟨c, h1, h2, h3, h4⟩ := L.trunc_ok b.len hv.1
    simp only [h1] at h
    obtain ⟨d1, d2⟩ := Mid.of_trunc m1 h2 h3
    obtain ⟨e1, e2, e3⟩ := extendLoop_spec s c b d1 v' o h
    rw [d2, m2] at e2 e3
    exact ⟨e1, e2, fun hk => e3 (Mid.clean_of_trunc m1 h3 h4 (canon_mat hk m2 m4))⟩

theorem takeChunk_fuse {α : Type} : ∀ (n : Nat) (s : Src α),
    (Src.takeChunk n s.fuse).1.fuse = (Src.takeChunk n s).1.fuse ∧
    (n ≤ s.items.length → (Src.takeChunk n s.fuse).2 = (Src.takeChunk n s).2.fuse)
  | 0, s => by simp [Src.takeChunk]
  | n + 1, [] => by simp [Src.takeChunk, Src.fuse, Src.items]
  | n + 1, .none :: s => by simp [Src.takeChunk, Src.fuse, Src.items]
  | n + 1, .panic :: s => by simp [Src.takeChunk, Src.fuse, Src.items]
  | n + 1, .item a :: s => by
    have := takeChunk_fuse n s
    simp only [Src.takeChunk, Src.fuse, Src.items, List.length_cons]
    refine ⟨by rw [this.1], fun h => this.2 (by omega)⟩

theorem values_fuse (d : O) (s : Src (Option O)) : (values d s).fuse = values d s.fuse := by
  simp [values, Src.fuse_map]

theorem extendLoop_fuse (L : LawfulR R) (c : R.C) (b : Bitmap) (s : Src (Option O)) :
    extendLoop R c b s = extendLoop R c b s.fuse := by
  rw [extendLoop, extendLoop]
  have h1 := takeChunk_fuse validityChunk s
  have hc : R.extend c (values R.dflt (Src.takeChunk validityChunk s.fuse).1) =
      R.extend c (values R.dflt (Src.takeChunk validityChunk s).1) := by
    rw [L.ext_fuse, L.ext_fuse c (values R.dflt (Src.takeChunk validityChunk s).1), values_fuse,
      values_fuse, h1.1]
  have hf : flags (Src.takeChunk validityChunk s.fuse).1 =
      flags (Src.takeChunk validityChunk s).1 := by
    simp [flags, Src.takeChunk_items]
  simp only [hc, hf]
  split
  · next c' _ =>
    split
    · next b' _ =>
      split
      · rfl
      · next hge =>
        have hge' : validityChunk ≤ s.items.length := by
          simp only [flags, List.length_map, Src.takeChunk_items, List.length_take] at hge; omega
        have hdec : (Src.takeChunk validityChunk s).2.length < List.length s := by
          have := takeChunk_length validityChunk s
          rw [Src.takeChunk_items, List.length_take, Nat.min_eq_left hge'] at this
          unfold validityChunk at this ⊢; omega
        rw [h1.2 hge']
        exact extendLoop_fuse L c' b' _
    · rfl
  · rfl
termination_by s.length

theorem tryExtendLoop_fuse (L : LawfulR R) (len0 : Nat) (w : World) (c : R.C) (b : Bitmap) (s : Src (Option O)) :
    tryExtendLoop R len0 w c b s = tryExtendLoop R len0 w c b s.fuse := by
  rw [tryExtendLoop, tryExtendLoop]
  have h1 := takeChunk_fuse validityChunk s
  have hc : R.tryExtend w c (values R.dflt (Src.takeChunk validityChunk s.fuse).1) =
      R.tryExtend w c (values R.dflt (Src.takeChunk validityChunk s).1) := by
    rw [L.tryExt_fuse, L.tryExt_fuse w c (values R.dflt (Src.takeChunk validityChunk s).1),
      values_fuse, values_fuse, h1.1]
  have hf : flags (Src.takeChunk validityChunk s.fuse).1 =
      flags (Src.takeChunk validityChunk s).1 := by
    simp [flags, Src.takeChunk_items]
  simp only [hc, hf]
  split
  · next c' w' _ =>
    split
    · next b' w'' _ =>
      split
      · rfl
      · next hge =>
        have hge' : validityChunk ≤ s.items.length := by
          simp only [flags, List.length_map, Src.takeChunk_items, List.length_take] at hge; omega
        have hdec : (Src.takeChunk validityChunk s).2.length < List.length s := by
          have := takeChunk_length validityChunk s
          rw [Src.takeChunk_items, List.length_take, Nat.min_eq_left hge'] at this
          unfold validityChunk at this ⊢; omega
        rw [h1.2 hge']
        exact tryExtendLoop_fuse L len0 w'' c' b' _
    · rfl
    · rfl
  · rfl
  · rfl
termination_by s.length

theorem rollback_spec {v v' : Validity R.C} {n : Nat} {w w' : World} {o : Out}
    (hv : Inv L.toLawfulColl v) (h : rollback R v n w = (v', o, w')) :
    o = .err ∧ Inv L.toLawfulColl v' ∧ abs L.toLawfulColl v' = (abs L.toLawfulColl v).take n ∧
      (Canon L v → Canon L v') := by
  obtain ⟨v1, h1, h2, h3, h4⟩ := trunc_ok n hv
  simp only [rollback, h1, Prod.mk.injEq] at h
  obtain ⟨rfl, rfl, rfl⟩ := h
  exact ⟨rfl, h2, h3, h4⟩

theorem rollback_canon {v' : Validity R.C} {n : Nat} {w w' : World} {o : Out} {b : Bitmap} {c : R.C}
    (hv : Inv L.toLawfulColl ⟨c, some b⟩) (h : rollback R ⟨c, some b⟩ n w = (v', o, w'))
    (hn : n ≤ (abs L.toLawfulColl ⟨c, some b⟩).length) (hc : L.Canon c) (hb : BCanon b)
    (ha : (L.abs c).take (abs L.toLawfulColl ⟨c, some b⟩).length =
      (abs L.toLawfulColl ⟨c, some b⟩).map (·.getD R.dflt)) : Canon L v' := by
  obtain ⟨c', h1, h2, h3, h4⟩ := L.trunc_ok n hv.1
  obtain ⟨-, r2, r3, -⟩ := rollback_spec hv h
  simp only [rollback, truncate, h1, Prod.mk.injEq, Option.map_some] at h
  obtain ⟨rfl, -, -⟩ := h
  refine ⟨h4 hc, ?_, ?_⟩
  · simp only; unfold Bitmap.truncate; split <;> exact hb
  · rw [r3, List.map_take, ← ha, List.take_take, Nat.min_eq_left hn, h3]

theorem tryExtendLoop_spec (len0 : Nat) (s : Src (Option O)) : ∀ (w : World) (c : R.C) (b : Bitmap),
    Mid (L := L) c b → len0 ≤ b.bits →
    ∀ v' o w', tryExtendLoop R len0 w c b s = (v', o, w') →
      (o = .ok → Inv L.toLawfulColl v' ∧
        abs L.toLawfulColl v' = mask (L.abs c) b.abs ++ s.items ∧ s.panics = false) ∧
      (o = .err → Inv L.toLawfulColl v' ∧
        abs L.toLawfulColl v' = (mask (L.abs c) b.abs).take len0) ∧
      (s.panics = false → o ≠ .panic) ∧
      (Clean L c b → Room L 0 (mask (L.abs c) b.abs ++ s.items) → o ≠ .panic → Canon L v') := by
  intro w c b hm hlen v' o w' h
  rw [tryExtendLoop] at h
  have htk := Src.takeChunk_items validityChunk s
  have htp := Src.takeChunk_panics validityChunk s
  have hA := hm.mask_len
  have hnp := L.tryExt_np (w := w) (s := values R.dflt (Src.takeChunk validityChunk s).1) hm.inv
  have hroomC : Clean L c b → Room L 0 (mask (L.abs c) b.abs ++ s.items) →
      L.Room 0 (L.abs c ++ (values R.dflt (Src.takeChunk validityChunk s).1).items) := by
    intro hk hr
    have := (room_chunk (n := validityChunk) hr).2
    rwa [List.map_append, ← hk.2.2, ← htk, ← values_items] at this
  have hpan : s.panics = false → (values R.dflt (Src.takeChunk validityChunk s).1).panics = false := by
    intro hp; rw [values_panics, htp, hp]; rfl
  generalize hE : R.tryExtend w c (values R.dflt (Src.takeChunk validityChunk s).1) = E at *
  obtain ⟨c1, o1, w1⟩ := E
  simp only at hnp
  cases o1 with
  | panic =>
    simp only [Prod.mk.injEq] at h
    obtain ⟨rfl, rfl, rfl⟩ := h
    exact ⟨by simp, by simp, fun hp => absurd rfl (hnp (hpan hp)), fun _ _ h => absurd rfl h⟩
  | err =>
    simp only at h
    obtain ⟨e1, e2⟩ := L.tryExt_err hm.inv hE
    have hm1 : Mid (L := L) c1 b := ⟨e1, hm.binv, by rw [e2]; exact hm.len⟩
    obtain ⟨rfl, r2, r3, r4⟩ := rollback_spec hm1.inv_v h
    refine ⟨by simp, fun _ => ⟨r2, by rw [r3, abs_some, e2]⟩, fun _ => by simp, fun hk hr _ => r4 ?_⟩
    refine Clean.canon ⟨L.tryExt_canon hm.inv hk.1 (hroomC hk hr) hE (by simp), hk.2.1, ?_⟩
    rw [e2]; exact hk.2.2
  | ok =>
    obtain ⟨e1, e2, e3⟩ := L.tryExt_ok hm.inv hE
    rw [values_items, htk] at e2
    rw [values_panics] at e3
    have hfl : flags (Src.takeChunk validityChunk s).1 = (s.items.take validityChunk).map Option.isSome := by
      simp [flags, htk]
    simp only [hfl] at h
    have hroomB : Room L 0 (mask (L.abs c) b.abs ++ s.items) →
        b.bits + (List.map Option.isSome (List.take validityChunk s.items)).length ≤ 2 ^ 61 := by
      intro hr
      have := (room_chunk (n := validityChunk) hr).1
      simp only [List.length_append, hA] at this
      simpa using this
    generalize hF : b.tryExtend w1 (Src.ofList (List.map Option.isSome (List.take validityChunk s.items))) = F at *
    obtain ⟨bb, o2, w2⟩ := F
    obtain ⟨b1, b2, b3, b4, b5, b6, b7⟩ := Bitmap.tryExtend_spec hm.binv hF
    simp only [Src.items_ofList, Src.panics_ofList] at b4 b6 b7
    have hcan : Clean L c b → Room L 0 (mask (L.abs c) b.abs ++ s.items) → L.Canon c1 ∧ BCanon bb :=
      fun hk hr => ⟨L.tryExt_canon hm.inv hk.1 (hroomC hk hr) hE (by simp),
        bcanon_ext b2 b7 hk.2.1 (hroomB hr)⟩
    cases o2 with
    | panic => exact absurd (b6 rfl).1 (by simp)
    | err =>
      simp only at h
      obtain ⟨b5, b8⟩ := b5 rfl
      have hbits : bb.bits = b.bits := by
        have := congrArg List.length b5; simpa using this
      have hmask : mask (L.abs c1) bb.abs = mask (L.abs c) b.abs := by
        rw [e2, b5, mask_append_left (by simp [hm.len])]
      have hi1 : Inv L.toLawfulColl ⟨c1, some bb⟩ := inv_mk e1 b1 (by rw [e2, hbits]; simp [hm.len])
      obtain ⟨rfl, r2, r3, r4⟩ := rollback_spec hi1 h
      refine ⟨by simp, fun _ => ⟨r2, by rw [r3, abs_some, hmask]⟩, fun _ => by simp, fun hk hr _ => ?_⟩
      -- the rolled back state
      have hv := rollback_canon (L := L) hi1 h (by rw [abs_some, hmask, hA]; exact hlen) (hcan hk hr).1 (hcan hk hr).2
      refine hv ?_
      rw [abs_some, hmask, ← hk.2.2, hA, e2, ← hm.len]
      simp
    | ok =>
      obtain ⟨b4, -⟩ := b4 rfl
      obtain ⟨m1, m2⟩ := hm.step e1 e2 b1 b4
      have hclean : Clean L c b → Room L 0 (mask (L.abs c) b.abs ++ s.items) → Clean L c1 bb :=
        fun hk hr => clean_step hm e2 b4 hk (hcan hk hr).1 (hcan hk hr).2
      have hbits : bb.bits = b.bits + (s.items.take validityChunk).length := by
        have := congrArg List.length b4; simpa using this
      simp only at h
      split at h
      · next hlt =>
        simp only [Prod.mk.injEq] at h
        obtain ⟨rfl, rfl, rfl⟩ := h
        have hlt' : s.items.length < validityChunk := by
          simp only [List.length_map, List.length_take] at hlt; omega
        have hall : s.items.take validityChunk = s.items := List.take_of_length_le (by omega)
        rw [hall] at m2
        have hp : s.panics = false := by
          rw [e3] at htp; simpa [hlt'] using htp.symm
        exact ⟨fun _ => ⟨m1.inv_v, m2, hp⟩, by simp, fun _ => by simp,
          fun hk hr _ => (hclean hk hr).canon⟩
      · next hge =>
        have hge' : validityChunk ≤ s.items.length := by
          simp only [List.length_map, List.length_take] at hge; omega
        obtain ⟨r1, r2⟩ := Src.takeChunk_rest_items validityChunk s hge'
        have hdec : (Src.takeChunk validityChunk s).2.length < List.length s := by
          have := takeChunk_length validityChunk s
          rw [htk, List.length_take, Nat.min_eq_left hge'] at this
          unfold validityChunk at this ⊢; omega
        obtain ⟨i1, i2, i3, i4⟩ := tryExtendLoop_spec len0 (Src.takeChunk validityChunk s).2 w2 c1 bb m1
          (by omega) v' o w' h
        rw [m2] at i1 i2 i4
        rw [r2] at i1 i3
        rw [r1] at i1 i4
        simp only [List.append_assoc, List.take_append_drop] at i1 i4
        refine ⟨i1, fun ho => ?_, i3, fun hk hr => i4 (hclean hk hr) hr⟩
        obtain ⟨j1, j2⟩ := i2 ho
        exact ⟨j1, by rw [j2, List.take_append_of_le_length (by omega)]⟩
termination_by s.length

theorem tryExtend_spec {w w' : World} {v v' : Validity R.C} {s : Src (Option O)} {o : Out}
    (hv : Inv L.toLawfulColl v) (h : tryExtend R w v s = (v', o, w')) :
    (o = .ok → Inv L.toLawfulColl v' ∧
      abs L.toLawfulColl v' = abs L.toLawfulColl v ++ s.items ∧ s.panics = false) ∧
    (o = .err → Inv L.toLawfulColl v' ∧ abs L.toLawfulColl v' = abs L.toLawfulColl v) ∧
    (s.panics = false → o ≠ .panic) ∧
    (Canon L v → Room L 0 (abs L.toLawfulColl v ++ s.items) → o ≠ .panic → Canon L v') := by
  unfold tryExtend at h
  simp only [len_ok hv] at h
  have hnp := tryMaterialize_np (w := w) hv
  generalize hm : tryMaterialize R.toColl w v = M at *
  obtain ⟨t, w1⟩ := M
  cases t with
  | panic => exact absurd rfl hnp
  | err =>
    simp only [Prod.mk.injEq] at h
    obtain ⟨rfl, rfl, rfl⟩ := h
    exact ⟨by simp, fun _ => ⟨hv, rfl⟩, fun _ => by simp, fun hk _ _ => hk⟩
  | ok b =>
    obtain ⟨m1, m2, m3, m4⟩ := tryMaterialize_ok hv hm
    obtain ⟨c, h1, h2, h3, h4⟩ := L.trunc_ok (abs L.toLawfulColl v).length hv.1
    simp only [h1] at h
    rw [← m3] at h3
    obtain ⟨d1, d2⟩ := Mid.of_trunc m1 h2 h3
    obtain ⟨e1, e2, e3, e4⟩ := tryExtendLoop_spec _ s w1 c b d1 (by omega) v' o w' h
    rw [d2, m2] at e1 e2 e4
    refine ⟨e1, fun ho => ?_, e3, fun hk => e4 (Mid.clean_of_trunc m1 h3 h4 (canon_mat hk m2 m4))⟩
    obtain ⟨j1, j2⟩ := e2 ho
    exact ⟨j1, by rw [j2, List.take_length]⟩

/-! ## Reserving -/

theorem reserve_spec {v v' : Validity R.C} {n : Nat} {o : Out} (hv : Inv L.toLawfulColl v)
    (h : reserve R v n = (v', o)) :
    Inv L.toLawfulColl v' ∧ abs L.toLawfulColl v' = abs L.toLawfulColl v ∧ o ≠ .err ∧
      (Canon L v → Canon L v') ∧ (Canon L v → Room L n (abs L.toLawfulColl v) → o = .ok) := by
  unfold reserve at h
  cases hm : materialize R.toColl v with
  | panic =>
    rw [hm] at h
    simp only [Prod.mk.injEq] at h
    obtain ⟨rfl, rfl⟩ := h
    refine ⟨hv, rfl, by simp, id, fun _ hr => ?_⟩
    obtain ⟨b, hb⟩ := materialize_live hv (by have := hr.1; unfold byteMax; omega)
    rw [hb] at hm; cases hm
  | ok b =>
    rw [hm] at h
    obtain ⟨m1, m2, m3, m4⟩ := materialize_ok hv hm
    have hb := m1.2 b rfl
    simp only at h
    have hlive : Canon L v → Room L n (abs L.toLawfulColl v) → (b.reserve n).2 = .ok := by
      intro hk hr
      refine Bitmap.reserve_live hb.1 ?_
      have h1 := (canon_mat hk m2 m4).2.1.2
      have h2 := hr.1
      unfold bytesForBits byteMax; omega
    generalize hB : b.reserve n = B at *
    obtain ⟨b', o1⟩ := B
    obtain ⟨p1, p2, p3, p4, p5, p6⟩ := Bitmap.reserve_ok hb.1 hB
    have hbc : BCanon b → BCanon b' := fun h => by unfold BCanon at *; rw [p4, p6]; exact h
    cases o1 with
    | err => exact absurd rfl p3
    | panic =>
      simp only [Prod.mk.injEq] at h
      obtain ⟨rfl, rfl⟩ := h
      refine ⟨inv_mk hv.1 p1 (by rw [p5]; exact hb.2), by rw [← m2]; simp only [abs, p2], by simp,
        fun hk => ?_, fun hk hr => hlive hk hr⟩
      have := canon_mat hk m2 m4
      exact ⟨this.1, hbc this.2.1, by simpa only [abs, p2] using this.2.2⟩
    | ok =>
      simp only [Prod.mk.injEq] at h
      obtain ⟨rfl, rfl⟩ := h
      obtain ⟨c1, c2, c3, c4⟩ := L.reserve_ok (n := n) hv.1 (Prod.ext rfl rfl)
      refine ⟨inv_mk c1 p1 (by rw [p5, c2]; exact hb.2), by rw [← m2]; simp only [abs, p2, c2], c3,
        fun hk => ?_, fun hk hr => ?_⟩
      · have := canon_mat hk m2 m4
        exact ⟨c4 this.1, hbc this.2.1, by simpa only [abs, p2, c2] using this.2.2⟩
      · exact L.reserve_live hv.1 hk.1 (by rw [hk.2.2]; exact hr.2)

theorem tryReserve_spec {w w' : World} {v v' : Validity R.C} {n : Nat} {o : Out}
    (hv : Inv L.toLawfulColl v) (h : tryReserve R w v n = (v', o, w')) :
    Inv L.toLawfulColl v' ∧ abs L.toLawfulColl v' = abs L.toLawfulColl v ∧ o ≠ .panic ∧
      (Canon L v → Canon L v') := by
  unfold tryReserve at h
  have hnp := tryMaterialize_np (w := w) hv
  generalize hm : tryMaterialize R.toColl w v = M at *
  obtain ⟨t, w1⟩ := M
  cases t with
  | panic => exact absurd rfl hnp
  | err =>
    simp only [Prod.mk.injEq] at h
    obtain ⟨rfl, rfl, rfl⟩ := h
    exact ⟨hv, rfl, by simp, id⟩
  | ok b =>
    obtain ⟨m1, m2, m3, m4⟩ := tryMaterialize_ok hv hm
    have hb := m1.2 b rfl
    simp only at h
    generalize hC : R.tryReserve w1 v.coll n = C at *
    obtain ⟨c, o1, w2⟩ := C
    obtain ⟨c1, c2, c3, c4⟩ := L.tryReserve_ok hv.1 hC
    cases o1 with
    | panic => exact absurd rfl c3
    | err =>
      simp only [Prod.mk.injEq] at h
      obtain ⟨rfl, rfl, rfl⟩ := h
      refine ⟨inv_mk c1 hb.1 (by rw [c2]; exact hb.2), by rw [← m2]; simp only [abs, c2], by simp,
        fun hk => ?_⟩
      have := canon_mat hk m2 m4
      exact ⟨c4 this.1, this.2.1, by simpa only [abs, c2] using this.2.2⟩
    | ok =>
      simp only [Prod.mk.injEq] at h
      generalize hB : b.tryReserve w2 n = B at *
      obtain ⟨b', o2, w3⟩ := B
      obtain ⟨rfl, rfl, rfl⟩ := h
      obtain ⟨p1, p2, p3, p4, p5, p6, p7⟩ := Bitmap.tryReserve_ok hb.1 hB
      refine ⟨inv_mk c1 p1 (by rw [p5, c2]; exact hb.2), by rw [← m2]; simp only [abs, c2, p2], p3,
        fun hk => ?_⟩
      have := canon_mat hk m2 m4
      refine ⟨c4 this.1, ?_, by simpa only [abs, c2, p2] using this.2.2⟩
      have := this.2.1
      simp only [BCanon, p4, p6] at this ⊢
      exact this

/-! ## Constructors -/

theorem pushBits_spec : ∀ (l : List Bool) {b b' : Bitmap} {o : Out}, b.Inv → pushBits b l = (b', o) →
    o ≠ .err ∧ b'.offset = b.offset ∧
    (o = .ok → b'.Inv ∧ b'.abs = b.abs ++ l ∧ b'.buffer.items.length ≤
      max b.buffer.items.length (bytesForBits (b.offset + b.bits + l.length)))
  | [], b, b', o, hb, h => by
    simp only [pushBits, Prod.mk.injEq] at h
    obtain ⟨rfl, rfl⟩ := h
    exact ⟨by simp, rfl, fun _ => ⟨hb, by simp, Nat.le_max_left _ _⟩⟩
  | x :: l, b, b', o, hb, h => by
    obtain ⟨b1, b2, b3, b4, b5, b6, b7⟩ := Bitmap.extend_spec (s := [.item x]) hb
    simp only [pushBits] at h
    generalize hE : b.extend [.item x] = E at *
    obtain ⟨bb, o1⟩ := E
    simp only at b1 b2 b3 b4 b5 b6 b7
    cases o1 with
    | err => exact absurd rfl b3
    | panic =>
      simp only [Prod.mk.injEq] at h
      obtain ⟨rfl, rfl⟩ := h
      exact ⟨by simp, b2, by simp⟩
    | ok =>
      simp only at h
      obtain ⟨h1, h2, h3⟩ := pushBits_spec l b1 h
      have b4 := (b4 rfl).1
      have hbits : bb.bits = b.bits + 1 := by
        have := congrArg List.length b4; simpa [Src.items] using this
      refine ⟨h1, by omega, fun ho => ?_⟩
      obtain ⟨i1, i2, i3⟩ := h3 ho
      refine ⟨i1, by rw [i2, b4]; simp [Src.items], ?_⟩
      rw [b2, hbits] at i3
      simp only [Src.items, List.length_cons, List.length_nil] at b7
      simp only [List.length_cons]
      unfold bytesForBits at *
      omega

/-- A constructor of the collection that keeps the items of a source. -/
def MkOk (L : LawfulR R) (mk : World → Src O → Try R.C × World) : Prop :=
  ∀ {w w' s c}, s.Fused → mk w s = (.ok c, w') →
    L.Inv c ∧ L.abs c = s.items ∧ s.panics = false ∧ (L.Room 0 s.items → L.Canon c)

theorem fromIterWith_ok {mk : World → Src O → Try R.C × World} (hmk : MkOk L mk) {w w' : World}
    {s : Src (Option O)} {v : Validity R.C} (hs : s.Fused)
    (h : fromIterWith R mk w s = (.ok v, w')) :
    Inv L.toLawfulColl v ∧ abs L.toLawfulColl v = s.items ∧ s.panics = false ∧
      (Room L 0 s.items → Canon L v) := by
  unfold fromIterWith at h
  generalize hB : Bitmap.withCap (w.capHint s.items.length) = B at *
  cases B with
  | err => simp at h
  | panic => simp at h
  | ok b =>
    obtain ⟨q1, q2, q3, q4⟩ := Bitmap.withCap_ok hB
    have hbits0 : b.bits = 0 := by have := congrArg List.length q2; simpa using this
    simp only at h
    generalize hC : mk w.next (values R.dflt s) = C at *
    obtain ⟨t, w1⟩ := C
    cases t with
    | err => simp at h
    | panic => simp at h
    | ok c =>
      obtain ⟨c1, c2, c3, c4⟩ := hmk (by unfold values; exact hs.map) hC
      rw [values_items] at c2 c4
      rw [values_panics] at c3
      simp only at h
      rw [L.pulled_fused hs, show s.items.map Option.isSome = flags s from rfl] at h
      generalize hP : pushBits b (flags s) = P at *
      obtain ⟨b', o⟩ := P
      obtain ⟨p1, p2, p3⟩ := pushBits_spec _ q1 hP
      cases o with
      | err => simp at h
      | panic => simp at h
      | ok =>
        simp only [Prod.mk.injEq, Try.ok.injEq] at h
        obtain ⟨rfl, rfl⟩ := h
        obtain ⟨p3, p4, p5⟩ := p3 rfl
        rw [q2, List.nil_append] at p4
        have hbits : b'.bits = s.items.length := by
          have := congrArg List.length p4; simpa [flags] using this
        have habs : abs L.toLawfulColl ⟨c, some b'⟩ = s.items := by
          rw [abs_some, c2, p4, flags, mask_items]
        refine ⟨inv_mk c1 p3 (by rw [c2, hbits]; simp), habs, c3, fun hr => ⟨c4 hr.2, ?_, ?_⟩⟩
        · refine ⟨by omega, ?_⟩
          have := hr.1
          rw [q4, q3, hbits0] at p5
          simp only [flags, List.length_map, List.length_nil, bytesForBits] at p5
          omega
        · rw [habs, c2]

/-- Even a source that yields again after `None` gives a consistent collection. -/
theorem fromIterWith_any {mk : World → Src O → Try R.C × World}
    (hmk : ∀ {w w' s c}, mk w s = (.ok c, w') → L.Inv c ∧ (L.abs c).length = (R.pulled s).length)
    {w w' : World} {s : Src (Option O)} {v : Validity R.C}
    (h : fromIterWith R mk w s = (.ok v, w')) :
    Inv L.toLawfulColl v ∧ (abs L.toLawfulColl v).length = (R.pulled s).length := by
  unfold fromIterWith at h
  generalize hB : Bitmap.withCap (w.capHint s.items.length) = B at *
  cases B with
  | err => simp at h
  | panic => simp at h
  | ok b =>
    obtain ⟨q1, q2, q3, q4⟩ := Bitmap.withCap_ok hB
    simp only at h
    generalize hC : mk w.next (values R.dflt s) = C at *
    obtain ⟨t, w1⟩ := C
    cases t with
    | err => simp at h
    | panic => simp at h
    | ok c =>
      obtain ⟨c1, c2⟩ := hmk hC
      rw [values, L.pulled_map] at c2
      simp only at h
      generalize hP : pushBits b ((R.pulled s).map Option.isSome) = P at *
      obtain ⟨b', o⟩ := P
      obtain ⟨p1, p2, p3⟩ := pushBits_spec _ q1 hP
      cases o with
      | err => simp at h
      | panic => simp at h
      | ok =>
        simp only [Prod.mk.injEq, Try.ok.injEq] at h
        obtain ⟨rfl, rfl⟩ := h
        obtain ⟨p3, p4, p5⟩ := p3 rfl
        rw [q2, List.nil_append] at p4
        have hbits : b'.bits = (R.pulled s).length := by
          have := congrArg List.length p4; simpa using this
        refine ⟨inv_mk c1 p3 (by omega), ?_⟩
        rw [abs_some, mask_length, c2, Bitmap.abs_length, hbits, Nat.min_self]

theorem fromIterWith_ne {mk : World → Src O → Try R.C × World} (hmk : ∀ w s, (mk w s).1 ≠ .err)
    (w : World) (s : Src (Option O)) : (fromIterWith R mk w s).1 ≠ .err := by
  unfold fromIterWith
  split
  · next b hB =>
    have := hmk w.next (values R.dflt s)
    split
    · split <;> simp
    · next heq => rw [heq] at this; simp at this
    · simp
  · simp

theorem pair_empty {c : R.C} {b : Bitmap} (hc : L.Inv c ∧ L.abs c = [] ∧ L.Canon c)
    (hb : b.Inv ∧ b.abs = [] ∧ b.offset = 0 ∧ b.buffer.items = []) :
    Inv L.toLawfulColl ⟨c, some b⟩ ∧ abs L.toLawfulColl ⟨c, some b⟩ = [] ∧ Canon L ⟨c, some b⟩ := by
  have hbits0 : b.bits = 0 := by have := congrArg List.length hb.2.1; simpa using this
  have habs : abs L.toLawfulColl ⟨c, some b⟩ = [] := by simp [abs, hb.2.1]
  refine ⟨inv_mk hc.1 hb.1 (by omega), habs, hc.2.2, ⟨by omega, by simp [hb.2.2.2]⟩, ?_⟩
  rw [habs, hc.2.1]; rfl

theorem withCap_ok {n : Nat} {v : Validity R.C} (h : withCap R n = .ok v) :
    Inv L.toLawfulColl v ∧ abs L.toLawfulColl v = [] ∧ Canon L v := by
  unfold withCap at h
  split at h
  · next c hc =>
    split at h
    · next b hb =>
      simp only [Try.ok.injEq] at h
      subst h
      exact pair_empty (L.withCap_ok hc) (Bitmap.withCap_ok hb)
    · simp at h
    · simp at h
  · simp at h
  · simp at h

theorem withCap_ne (L : LawfulR R) (n : Nat) : withCap R n ≠ .err := by
  unfold withCap
  have := L.withCap_ne n
  have := Bitmap.withCap_ne n
  split
  · split <;> simp_all
  · simp_all
  · simp

theorem tryWithCap_ok {w w' : World} {n : Nat} {v : Validity R.C} (h : tryWithCap R w n = (.ok v, w')) :
    Inv L.toLawfulColl v ∧ abs L.toLawfulColl v = [] ∧ Canon L v := by
  unfold tryWithCap at h
  split at h
  · next c w1 hc =>
    split at h
    · next b w2 hb =>
      simp only [Prod.mk.injEq, Try.ok.injEq] at h
      obtain ⟨rfl, rfl⟩ := h
      exact pair_empty (L.tryWithCap_ok hc) (Bitmap.tryWithCap_ok hb)
    · simp at h
    · simp at h
  · simp at h
  · simp at h

theorem tryWithCap_np (L : LawfulR R) (w : World) (n : Nat) : (tryWithCap R w n).1 ≠ .panic := by
  unfold tryWithCap
  have h1 := L.tryWithCap_np w n
  split
  · next c w1 hc =>
    have h2 := Bitmap.tryWithCap_np w1 n
    split
    · simp
    · simp
    · next hb => rw [hb] at h2; simp at h2
  · simp
  · next hc => rw [hc] at h1; simp at h1

theorem tryFromIter_ok {w w' : World} {s : Src (Option O)} {v : Validity R.C}
    (h : tryFromIter R w s = (.ok v, w')) :
    Inv L.toLawfulColl v ∧ abs L.toLawfulColl v = s.items ∧ s.panics = false ∧
      (Room L 0 s.items → Canon L v) := by
  unfold tryFromIter at h
  split at h
  · next v0 w1 hv =>
    obtain ⟨h1, h2, h3⟩ := tryWithCap_ok (L := L) hv
    split at h
    · next v1 w2 he =>
      simp only [Prod.mk.injEq, Try.ok.injEq] at h
      obtain ⟨rfl, rfl⟩ := h
      obtain ⟨e1, e2, e3, e4⟩ := tryExtend_spec h1 he
      rw [h2, List.nil_append] at e1 e4
      obtain ⟨i1, i2, i3⟩ := e1 rfl
      exact ⟨i1, i2, i3, fun hr => e4 h3 hr (by simp)⟩
    · simp at h
    · simp at h
  · simp at h
  · simp at h

theorem tryFromIter_np {w : World} {s : Src (Option O)} (hp : s.panics = false) (L : LawfulR R) :
    (tryFromIter R w s).1 ≠ .panic := by
  unfold tryFromIter
  have h0 := tryWithCap_np L w.next (w.capHint s.items.length)
  split
  · next v0 w1 hv =>
    obtain ⟨h1, h2, h3⟩ := tryWithCap_ok (L := L) hv
    split
    · simp
    · simp
    · next he => exact absurd rfl ((tryExtend_spec h1 he).2.2.1 hp)
  · simp
  · next hv => rw [hv] at h0; simp at h0

end

/-! ## Iteration laws -/

theorem iterNext_nil {σ τ : Type} {P : σ → List O → Prop} {next : σ → Res (Option τ × σ)}
    (hnil : ∀ {it}, P it [] → ∃ it', next it = .ok (none, it') ∧ P it' [])
    {it : σ × Option BitIter} (h : IterRep P it []) :
    ∃ it', iterNext next it = .ok (none, it') ∧ IterRep P it' [] := by
  obtain ⟨i, ob⟩ := it
  obtain ⟨xs, hp, h⟩ := h
  cases ob with
  | none =>
    simp only at h hp
    have hx : xs = [] := by simpa using h.symm
    subst hx
    obtain ⟨i', h1, h2⟩ := hnil hp
    exact ⟨(i', none), by simp [iterNext, h1, Res.map], [], h2, rfl⟩
  | some bi =>
    simp only at h hp
    obtain ⟨bs, h1, h2, h3⟩ := h
    have hbs : bs = [] := by
      have := congrArg List.length h3
      simp only [List.length_nil, mask_length] at this
      exact List.length_eq_zero_iff.mp (by omega)
    subst hbs
    obtain ⟨bi', h4, h5⟩ := BitIter.next_nil h1
    refine ⟨(i, some bi'), by simp [iterNext, h4], xs, hp, [], h5, h2, h3⟩

theorem iterNext_cons {σ τ : Type} {P : σ → List O → Prop} {next : σ → Res (Option τ × σ)}
    {V : τ → O → Prop}
    (hcons : ∀ {it o l}, P it (o :: l) → ∃ v it', next it = .ok (some v, it') ∧ V v o ∧ P it' l)
    {it : σ × Option BitIter} {o : Option O} {l : List (Option O)} (h : IterRep P it (o :: l)) :
    ∃ v x it', iterNext next it = .ok (some (if o.isSome then some v else none), it') ∧ V v x ∧
      o = (if o.isSome then some x else none) ∧ IterRep P it' l := by
  obtain ⟨i, ob⟩ := it
  obtain ⟨xs, hp, h⟩ := h
  cases ob with
  | none =>
    simp only at h hp
    cases xs with
    | nil => simp at h
    | cons x xs =>
      simp only [List.map_cons, List.cons.injEq] at h
      obtain ⟨rfl, rfl⟩ := h
      obtain ⟨v, i', h1, h2, h3⟩ := hcons hp
      exact ⟨v, x, (i', none), by simp [iterNext, h1, Res.map], h2, by simp, xs, h3, rfl⟩
  | some bi =>
    simp only at h hp
    obtain ⟨bs, h1, h2, h3⟩ := h
    cases bs with
    | nil => simp at h3
    | cons b bs =>
      cases xs with
      | nil => simp at h2
      | cons x xs =>
        simp only [mask_cons, List.cons.injEq] at h3
        obtain ⟨rfl, rfl⟩ := h3
        obtain ⟨bi', h4, h5⟩ := BitIter.next_cons h1
        obtain ⟨v, i', h6, h7, h8⟩ := hcons hp
        refine ⟨v, x, (i', some bi'), ?_, h7, ?_, xs, h8, bs, h5, by simpa using h2, rfl⟩
        · cases b <;> simp [iterNext, h4, h6, Res.map]
        · cases b <;> simp

theorem iterLen_ok {σ : Type} {P : σ → List O → Prop} {len : σ → Res Nat}
    (hlen : ∀ {it l}, P it l → len it = .ok l.length)
    {it : σ × Option BitIter} {l : List (Option O)} (h : IterRep P it l) :
    iterLen len it = .ok l.length := by
  obtain ⟨i, ob⟩ := it
  obtain ⟨xs, hp, h⟩ := h
  cases ob with
  | none =>
    simp only at h hp
    simp [iterLen, hlen hp, h]
  | some bi =>
    simp only at h hp
    obtain ⟨bs, h1, h2, rfl⟩ := h
    simp [iterLen, hlen hp, Res.bind, BitIter.len_ok h1, Res.map]

end Validity

/-- `Validity` preserves the laws of reading. -/
@[reducible] def validityCL {K : Coll O} (L : LawfulColl K) : LawfulColl (validityC K) where
  Inv v := Validity.Inv L v
  abs v := Validity.abs L v
  VRep v o := match v, o with
    | none, none => True
    | some v, some o => L.VRep v o
    | _, _ => False
  IRep it l := Validity.IterRep L.IRep it l
  JRep it l := Validity.IterRep L.JRep it l
  len_ok h := Validity.len_ok h
  len_le h := Nat.le_trans (Validity.abs_le h) (L.len_le h.1)
  view_some {v i} h hi := by
    obtain ⟨x, h1, h2, h3, h4, h5⟩ := Validity.view_ok h hi
    refine ⟨_, h3, ?_⟩
    generalize (Validity.abs L v)[i] = o at *
    cases o with
    | none => simp
    | some y =>
      simp only [Option.isSome_some, if_true, Option.some.injEq] at h5 ⊢
      rw [h5]; exact h2
  owned_ok {v o} h := by
    cases v <;> cases o <;> simp only at h ⊢
    · rw [L.owned_ok h]; rfl
  iter_ok {v} h := by
    obtain ⟨it, h1, h2⟩ := L.iter_ok h.1
    refine ⟨(it, v.bitmap.map Bitmap.iter), by simp [h1, Res.map], L.abs v.coll, h2, ?_⟩
    obtain ⟨c, ob⟩ := v
    cases ob with
    | none => rfl
    | some b =>
      have := h.2 b rfl
      exact ⟨b.abs, Bitmap.iter_rep this.1, by simpa using this.2, rfl⟩
  inext_nil h := Validity.iterNext_nil L.inext_nil h
  inext_cons {it o l} h := by
    obtain ⟨v, x, it', h1, h2, h3, h4⟩ := Validity.iterNext_cons (V := L.VRep) L.inext_cons h
    refine ⟨_, it', h1, ?_, h4⟩
    cases o with
    | none => simp
    | some y =>
      simp only [Option.isSome_some, if_true, Option.some.injEq] at h3 ⊢
      rw [h3]; exact h2
  ilen_ok h := Validity.iterLen_ok L.ilen_ok h
  into_ok {v} h := by
    obtain ⟨it, h1, h2⟩ := L.into_ok h.1
    refine ⟨(it, v.bitmap.map Bitmap.iter), by simp [h1, Res.map], L.abs v.coll, h2, ?_⟩
    obtain ⟨c, ob⟩ := v
    cases ob with
    | none => rfl
    | some b =>
      have := h.2 b rfl
      exact ⟨b.abs, Bitmap.iter_rep this.1, by simpa using this.2, rfl⟩
  jnext_nil h := Validity.iterNext_nil L.jnext_nil h
  jnext_cons {it o l} h := by
    obtain ⟨v, x, it', h1, h2, h3, h4⟩ := Validity.iterNext_cons (V := fun a b => a = b)
      (fun {it o l} h => by
        obtain ⟨it', h1, h2⟩ := L.jnext_cons h
        exact ⟨o, it', h1, rfl, h2⟩) h
    subst h2
    exact ⟨it', h1.trans (by rw [← h3]), h4⟩
  jlen_ok h := Validity.iterLen_ok L.jlen_ok h

/-- `Validity` preserves the laws of growing. -/
@[reducible] def validityL {R : Realloc O} (L : LawfulR R) : LawfulR (validityR R) where
  toLawfulColl := validityCL L.toLawfulColl
  Canon v := Validity.Canon L v
  Room e l := Validity.Room L e l
  room_prefix {e l m} h := by
    refine ⟨by have := h.1; simp at this; omega, ?_⟩
    have := h.2
    rw [List.map_append] at this
    have := L.room_prefix this
    simpa using this
  room_mono h1 h2 := ⟨by have := h2.1; omega, L.room_mono h1 h2.2⟩
  room_len h := by have := h.1; unfold usizeMax; omega
  empty_ok := by
    obtain ⟨h1, h2, h3⟩ := L.empty_ok
    refine ⟨⟨h1, by simp⟩, by simp [Validity.abs, h2], h3, by simp [h2], by simp [Validity.abs, h2]⟩
  pulled_fused h := L.pulled_fused h
  pulled_map f s := L.pulled_map f s
  fromIter_any h := Validity.fromIterWith_any L.fromIter_any h
  fromIterIn_any h := Validity.fromIterWith_any L.fromIterIn_any h
  tryFromIter_any h := (Validity.tryFromIter_ok (L := L) h).1
  withCap_ok h := Validity.withCap_ok h
  withCap_ne n := Validity.withCap_ne L n
  fromIter_ok hs h := Validity.fromIterWith_ok L.fromIter_ok hs h
  fromIter_ne w s := Validity.fromIterWith_ne L.fromIter_ne w s
  fromIterIn_ok hs h := Validity.fromIterWith_ok L.fromIterIn_ok hs h
  fromIterIn_ne w s := Validity.fromIterWith_ne L.fromIterIn_ne w s
  tryWithCap_ok h := Validity.tryWithCap_ok h
  tryWithCap_np w n := Validity.tryWithCap_np L w n
  tryFromIter_ok _ h := Validity.tryFromIter_ok h
  tryFromIter_np _ hp := Validity.tryFromIter_np hp L
  ext_ok hc h := (Validity.extend_spec hc h).2.1 rfl
  ext_ne s hc := (Validity.extend_spec hc (s := s) (Prod.ext rfl rfl)).1
  ext_canon hc hk hr h := ((Validity.extend_spec hc h).2.2 hk hr).1 rfl
  ext_live hc hk hp hr := ((Validity.extend_spec hc (Prod.ext rfl rfl)).2.2 hk hr).2 hp
  ext_fuse v s := by
    show Validity.extend R v s = Validity.extend R v s.fuse
    unfold Validity.extend
    split
    · rfl
    · split
      · exact Validity.extendLoop_fuse L _ _ _
      · rfl
  reserve_ok hc h := by
    obtain ⟨h1, h2, h3, h4, -⟩ := Validity.reserve_spec hc h
    exact ⟨h1, h2, h3, h4⟩
  reserve_live hc hk hr := (Validity.reserve_spec hc (Prod.ext rfl rfl)).2.2.2.2 hk hr
  tryReserve_ok hc h := Validity.tryReserve_spec hc h
  tryExt_ok hc h := (Validity.tryExtend_spec hc h).1 rfl
  tryExt_canon hc hk hr h ho := (Validity.tryExtend_spec hc h).2.2.2 hk hr ho
  tryExt_err hc h := (Validity.tryExtend_spec hc h).2.1 rfl
  tryExt_np hc hp := (Validity.tryExtend_spec hc (Prod.ext rfl (Prod.ext rfl rfl))).2.2.1 hp
  tryExt_fuse w v s := by
    show Validity.tryExtend R w v s = Validity.tryExtend R w v s.fuse
    unfold Validity.tryExtend
    split
    · rfl
    · split
      · rfl
      · rfl
      · split
        · exact Validity.tryExtendLoop_fuse L _ _ _ _ _
        · rfl
  trunc_ok n hc := Validity.trunc_ok n hc

end Narrow
