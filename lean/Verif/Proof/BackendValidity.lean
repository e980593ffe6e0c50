import Verif.Proof.BackendBits

/-! # Nullable collections over any storage are lawful -/

namespace Narrow

open Validity (mask mask_append mask_append_left mask_take_length mask_take mask_replicate mask_items
  mask_length mask_getElem mask_cons takeChunk_fuse values values_items values_panics values_fuse
  flags takeChunk_length)

variable {O : Type}

namespace ValidityOf

/-! ## Reading -/

section
variable {M : Coll Bool} {K : Coll O} (LM : LawfulColl M) (L : LawfulColl K)

/-- The bitmap fits in the collection. -/
def Inv (v : ValidityOf K.C M.C) : Prop :=
  L.Inv v.coll ∧ ∀ b, v.bitmap = some b → LM.Inv b ∧ (LM.abs b).length ≤ (L.abs v.coll).length

/-- The nullable items. -/
def abs (v : ValidityOf K.C M.C) : List (Option O) :=
  match v.bitmap with
  | none => (L.abs v.coll).map some
  | some b => mask (L.abs v.coll) (LM.abs b)

variable {LM L}

theorem inv_mk {c : K.C} {b : M.C} (hc : L.Inv c) (hb : LM.Inv b)
    (h : (LM.abs b).length ≤ (L.abs c).length) : Inv LM L ⟨c, some b⟩ :=
  ⟨hc, fun b' hb' => by simp at hb'; subst hb'; exact ⟨hb, h⟩⟩

theorem abs_some (c : K.C) (b : M.C) : abs LM L ⟨c, some b⟩ = mask (L.abs c) (LM.abs b) := rfl

theorem len_ok {v : ValidityOf K.C M.C} (h : Inv LM L v) : len M K v = .ok (abs LM L v).length := by
  obtain ⟨c, ob⟩ := v
  cases ob with
  | none => simpa [len, abs] using L.len_ok h.1
  | some b =>
    have h1 := h.2 b rfl
    simp only [len, abs, mask_length, LM.len_ok h1.1]
    have := h1.2
    congr 1; simp only at this; omega

theorem abs_le {v : ValidityOf K.C M.C} (h : Inv LM L v) :
    (abs LM L v).length ≤ (L.abs v.coll).length := by
  obtain ⟨c, ob⟩ := v
  cases ob with
  | none => simp [abs]
  | some b => simp [abs]; omega

theorem view_ok {v : ValidityOf K.C M.C} {i : Nat} (h : Inv LM L v) (hi : i < (abs LM L v).length) :
    ∃ x, L.VRep x ((L.abs v.coll)[i]'(Nat.lt_of_lt_of_le hi (abs_le h))) ∧
      view M K v i = .ok (some (if ((abs LM L v)[i]).isSome then some x else none)) ∧
      (abs LM L v)[i] = if ((abs LM L v)[i]).isSome then
        some ((L.abs v.coll)[i]'(Nat.lt_of_lt_of_le hi (abs_le h))) else none := by
  obtain ⟨x, hx, hr⟩ := L.view_some h.1 (Nat.lt_of_lt_of_le hi (abs_le h))
  refine ⟨x, hr, ?_⟩
  simp only [view, len_ok h, Res.bind, hi, if_true, hx, Res.expect]
  obtain ⟨c, ob⟩ := v
  cases ob with
  | none => simp [abs]
  | some b =>
    have h1 := h.2 b rfl
    have hib : i < (LM.abs b).length := by simp [abs] at hi; omega
    simp only [abs] at hi ⊢
    obtain ⟨y, hy, hyr⟩ := LM.view_some h1.1 hib
    simp only [hy, LM.owned_ok hyr, Res.map, mask_getElem hi]
    split <;> simp_all

/-- Pairing a collection iterator with a bit iterator. -/
def IterRep {σ β : Type} (P : σ → List O → Prop) (Q : β → List Bool → Prop) (it : σ × Option β)
    (l : List (Option O)) : Prop :=
  ∃ xs, P it.1 xs ∧
    match it.2 with
    | none => l = xs.map some
    | some bi => ∃ bs, Q bi bs ∧ bs.length ≤ xs.length ∧ l = mask xs bs

theorem pair_ok {I J : Type} {values : K.C → Res I} {bits : M.C → Res J}
    {P : I → List O → Prop} {Q : J → List Bool → Prop}
    (h1 : ∀ {c}, L.Inv c → ∃ it, values c = .ok it ∧ P it (L.abs c))
    (h2 : ∀ {c}, LM.Inv c → ∃ it, bits c = .ok it ∧ Q it (LM.abs c))
    {v : ValidityOf K.C M.C} (h : Inv LM L v) :
    ∃ it, pair values bits v = .ok it ∧ IterRep P Q it (abs LM L v) := by
  obtain ⟨c, ob⟩ := v
  obtain ⟨it, e1, e2⟩ := h1 h.1
  cases ob with
  | none => exact ⟨(it, none), by simp [pair, e1, Res.bind], _, e2, rfl⟩
  | some b =>
    have := h.2 b rfl
    obtain ⟨bi, e3, e4⟩ := h2 this.1
    exact ⟨(it, some bi), by simp [pair, e1, Res.bind, e3, Res.map], _, e2, _, e4, this.2, rfl⟩

theorem next_nil {σ τ β : Type} {P : σ → List O → Prop} {Q : β → List Bool → Prop}
    {next : σ → Res (Option τ × σ)} {bnext : β → Res (Option Bool × β)}
    (hnil : ∀ {it}, P it [] → ∃ it', next it = .ok (none, it') ∧ P it' [])
    (bnil : ∀ {it}, Q it [] → ∃ it', bnext it = .ok (none, it') ∧ Q it' [])
    {it : σ × Option β} (h : IterRep P Q it []) :
    ∃ it', validityNext next bnext it = .ok (none, it') ∧ IterRep P Q it' [] := by
  obtain ⟨i, ob⟩ := it
  obtain ⟨xs, hp, h⟩ := h
  cases ob with
  | none =>
    simp only at h hp
    have hx : xs = [] := by simpa using h.symm
    subst hx
    obtain ⟨i', h1, h2⟩ := hnil hp
    exact ⟨(i', none), by simp [validityNext, h1, Res.map], [], h2, rfl⟩
  | some bi =>
    simp only at h hp
    obtain ⟨bs, h1, h2, h3⟩ := h
    have hbs : bs = [] := by
      have := congrArg List.length h3
      simp only [List.length_nil, mask_length] at this
      exact List.length_eq_zero_iff.mp (by omega)
    subst hbs
    obtain ⟨bi', h4, h5⟩ := bnil h1
    refine ⟨(i, some bi'), by simp [validityNext, h4, Res.bind], xs, hp, [], h5, h2, h3⟩

theorem next_cons {σ τ β : Type} {P : σ → List O → Prop} {Q : β → List Bool → Prop}
    {next : σ → Res (Option τ × σ)} {bnext : β → Res (Option Bool × β)} {V : τ → O → Prop}
    (hcons : ∀ {it o l}, P it (o :: l) → ∃ v it', next it = .ok (some v, it') ∧ V v o ∧ P it' l)
    (bcons : ∀ {it o l}, Q it (o :: l) → ∃ it', bnext it = .ok (some o, it') ∧ Q it' l)
    {it : σ × Option β} {o : Option O} {l : List (Option O)} (h : IterRep P Q it (o :: l)) :
    ∃ v x it', validityNext next bnext it = .ok (some (if o.isSome then some v else none), it') ∧
      V v x ∧ o = (if o.isSome then some x else none) ∧ IterRep P Q it' l := by
  obtain ⟨i, ob⟩ := it
  obtain ⟨xs, hp, h⟩ := h
  cases ob with
  | none =>
    simp only at h hp
    cases xs with
    | nil => simp at h
    | cons x xs =>
      simp only [List.map_cons, List.cons.injEq] at h
      obtain ⟨rfl, rfl⟩ := h
      obtain ⟨v, i', h1, h2, h3⟩ := hcons hp
      exact ⟨v, x, (i', none), by simp [validityNext, h1, Res.map], h2, by simp, xs, h3, rfl⟩
  | some bi =>
    simp only at h hp
    obtain ⟨bs, h1, h2, h3⟩ := h
    cases bs with
    | nil => simp at h3
    | cons b bs =>
      cases xs with
      | nil => simp at h2
      | cons x xs =>
        simp only [mask_cons, List.cons.injEq] at h3
        obtain ⟨rfl, rfl⟩ := h3
        obtain ⟨bi', h4, h5⟩ := bcons h1
        obtain ⟨v, i', h6, h7, h8⟩ := hcons hp
        refine ⟨v, x, (i', some bi'), ?_, h7, ?_, xs, h8, bs, h5, by simpa using h2, rfl⟩
        · cases b <;> simp [validityNext, h4, h6, Res.map, Res.bind]
        · cases b <;> simp

theorem pairLen_ok {σ β : Type} {P : σ → List O → Prop} {Q : β → List Bool → Prop}
    {len : σ → Res Nat} {blen : β → Res Nat}
    (hlen : ∀ {it l}, P it l → len it = .ok l.length)
    (hb : ∀ {it l}, Q it l → blen it = .ok l.length)
    {it : σ × Option β} {l : List (Option O)} (h : IterRep P Q it l) :
    pairLen len blen it = .ok l.length := by
  obtain ⟨i, ob⟩ := it
  obtain ⟨xs, hp, h⟩ := h
  cases ob with
  | none =>
    simp only at h hp
    simp [pairLen, hlen hp, h]
  | some bi =>
    simp only at h hp
    obtain ⟨bs, h1, h2, rfl⟩ := h
    simp [pairLen, hlen hp, Res.bind, hb h1, Res.map]

end

end ValidityOf

/-- Nullable collections are read lawfully. -/
def validityBL {M : Coll Bool} {K : Coll O} (LM : LawfulColl M) (L : LawfulColl K) :
    LawfulColl (validityBC M K) where
  Inv v := ValidityOf.Inv LM L v
  abs v := ValidityOf.abs LM L v
  VRep v o := match v, o with
    | none, none => True
    | some v, some o => L.VRep v o
    | _, _ => False
  IRep it l := ValidityOf.IterRep L.IRep LM.IRep it l
  JRep it l := ValidityOf.IterRep L.JRep LM.JRep it l
  len_ok h := ValidityOf.len_ok h
  len_le h := Nat.le_trans (ValidityOf.abs_le h) (L.len_le h.1)
  view_some {v i} h hi := by
    obtain ⟨x, h2, h3, h5⟩ := ValidityOf.view_ok h hi
    refine ⟨_, h3, ?_⟩
    generalize (ValidityOf.abs LM L v)[i] = o at *
    cases o with
    | none => simp
    | some y =>
      simp only [Option.isSome_some, if_true, Option.some.injEq] at h5 ⊢
      rw [h5]; exact h2
  owned_ok {v o} h := by
    cases v <;> cases o <;> simp only at h ⊢
    · rw [L.owned_ok h]; rfl
  iter_ok h := ValidityOf.pair_ok (fun h => L.iter_ok h) (fun h => LM.iter_ok h) h
  inext_nil h := ValidityOf.next_nil L.inext_nil
    (fun {it} h => by
      obtain ⟨it', h1, h2⟩ := LM.inext_nil h
      exact ⟨it', by simp [h1, Res.bind], h2⟩) h
  inext_cons {it o l} h := by
    obtain ⟨v, x, it', h1, h2, h3, h4⟩ := ValidityOf.next_cons (V := L.VRep) L.inext_cons
      (bnext := fun b => (M.inext b).bind fun r =>
        match r with
        | (none, b') => .ok (none, b')
        | (some x, b') => (M.toOwned x).map fun o => (some o, b'))
      (fun {it o l} h => by
        obtain ⟨v, it', h1, h2, h3⟩ := LM.inext_cons h
        exact ⟨it', by simp [h1, Res.bind, LM.owned_ok h2, Res.map], h3⟩) h
    refine ⟨_, it', h1, ?_, h4⟩
    cases o with
    | none => simp
    | some y =>
      simp only [Option.isSome_some, if_true, Option.some.injEq] at h3 ⊢
      rw [h3]; exact h2
  ilen_ok h := ValidityOf.pairLen_ok (fun h => L.ilen_ok h) (fun h => LM.ilen_ok h) h
  into_ok h := ValidityOf.pair_ok (fun h => L.into_ok h) (fun h => LM.into_ok h) h
  jnext_nil h := ValidityOf.next_nil L.jnext_nil LM.jnext_nil h
  jnext_cons {it o l} h := by
    obtain ⟨v, x, it', h1, h2, h3, h4⟩ := ValidityOf.next_cons (V := fun a b => a = b)
      (fun {it o l} h => by
        obtain ⟨it', h1, h2⟩ := L.jnext_cons h
        exact ⟨o, it', h1, rfl, h2⟩) LM.jnext_cons h
    subst h2
    exact ⟨it', h1.trans (by rw [← h3]), h4⟩
  jlen_ok h := ValidityOf.pairLen_ok (fun h => L.jlen_ok h) (fun h => LM.jlen_ok h) h

namespace ValidityOf

open BitmapOf (bitsAre bits_length)

/-! ## Growing -/

variable {B : Backing Byte} {R : Realloc O} {LB : LawfulB B} {L : LawfulR R}

variable (LB L) in
/-- Invariant of a nullable collection. -/
abbrev Ok (v : Of B R) : Prop := Inv (bitmapBL LB) L.toLawfulColl v

variable (LB L) in
/-- Its items. -/
abbrev holds (v : Of B R) : List (Option O) := abs (bitmapBL LB) L.toLawfulColl v

theorem holds_some (c : R.C) (b : BitmapOf B.C) :
    holds LB L ⟨c, some b⟩ = mask (L.abs c) (bitsAre b) := rfl

theorem ok_mk {c : R.C} {b : BitmapOf B.C} (hc : L.Inv c) (hb : b.Inv LB)
    (h : b.bits ≤ (L.abs c).length) : Ok LB L ⟨c, some b⟩ :=
  inv_mk (LM := bitmapBL LB) hc hb (by show (bitsAre b).length ≤ _; rw [bits_length]; exact h)

theorem Ok.bits {c : R.C} {b : BitmapOf B.C} (h : Ok LB L ⟨c, some b⟩) :
    b.Inv LB ∧ b.bits ≤ (L.abs c).length := by
  obtain ⟨h1, h2⟩ := h.2 b rfl
  refine ⟨h1, ?_⟩
  rw [← bits_length]; exact h2

theorem ones {c : R.C} {b : BitmapOf B.C} (hc : L.Inv c) (hb : b.Inv LB)
    (h : bitsAre b = List.replicate (L.abs c).length true) :
    Ok LB L ⟨c, some b⟩ ∧ holds LB L ⟨c, some b⟩ = (L.abs c).map some ∧
      b.bits = (L.abs c).length := by
  have hbits : b.bits = (L.abs c).length := by
    have := congrArg List.length h
    rw [bits_length] at this; simpa using this
  exact ⟨ok_mk hc hb (Nat.le_of_eq hbits), by rw [holds_some, h, mask_replicate], hbits⟩

theorem own_bits {c : R.C} {b : BitmapOf B.C} (h : Ok LB L ⟨c, some b⟩) :
    b.bits = (holds LB L ⟨c, some b⟩).length := by
  have := h.bits.2
  rw [holds_some, mask_length, bits_length]; omega

theorem materialize_ok {env : World} {v : Of B R} {b : BitmapOf B.C} (h : Ok LB L v)
    (hm : materialize B R env v = .ok b) :
    Ok LB L ⟨v.coll, some b⟩ ∧ holds LB L ⟨v.coll, some b⟩ = holds LB L v ∧
      b.bits = (holds LB L v).length := by
  obtain ⟨c, ob⟩ := v
  cases ob with
  | some b' =>
    simp only [materialize, Res.ok.injEq] at hm
    subst hm
    exact ⟨h, rfl, own_bits h⟩
  | none =>
    simp only [materialize, L.len_ok h.1] at hm
    split at hm
    · next b' heq =>
      simp only [Res.ok.injEq] at hm
      subst hm
      obtain ⟨h1, h2⟩ := BitmapOf.allSet_ok (L := LB) (w := env) (w' := (BitmapOf.allSet B env (L.abs c).length).2)
        (Prod.ext heq rfl)
      obtain ⟨h3, h4, h5⟩ := ones h.1 h1 h2
      exact ⟨h3, h4, by simpa [abs] using h5⟩
    · simp at hm

theorem tryMaterialize_ok {w w' : World} {v : Of B R} {b : BitmapOf B.C} (h : Ok LB L v)
    (hm : tryMaterialize B R w v = (.ok b, w')) :
    Ok LB L ⟨v.coll, some b⟩ ∧ holds LB L ⟨v.coll, some b⟩ = holds LB L v ∧
      b.bits = (holds LB L v).length := by
  obtain ⟨c, ob⟩ := v
  cases ob with
  | some b' =>
    simp only [tryMaterialize, Prod.mk.injEq, Try.ok.injEq] at hm
    obtain ⟨rfl, rfl⟩ := hm
    exact ⟨h, rfl, own_bits h⟩
  | none =>
    simp only [tryMaterialize, L.len_ok h.1] at hm
    obtain ⟨h1, h2⟩ := BitmapOf.tryAllSet_ok (L := LB) hm
    obtain ⟨h3, h4, h5⟩ := ones h.1 h1 h2
    exact ⟨h3, h4, by simpa [abs] using h5⟩

theorem tryMaterialize_np {w : World} {v : Of B R} (h : Ok LB L v) :
    (tryMaterialize B R w v).1 ≠ .panic := by
  obtain ⟨c, ob⟩ := v
  cases ob with
  | some b' => simp [tryMaterialize]
  | none =>
    simp only [tryMaterialize, L.len_ok h.1]
    exact BitmapOf.tryAllSet_np LB _ _

theorem trunc_ok {v : Of B R} (n : Nat) (h : Ok LB L v) :
    ∃ v', truncate B R v n = (v', .ok) ∧ Ok LB L v' ∧ holds LB L v' = (holds LB L v).take n := by
  obtain ⟨c, ob⟩ := v
  obtain ⟨c', h1, h2, h3, -⟩ := L.trunc_ok n h.1
  cases ob with
  | none =>
    refine ⟨⟨c', none⟩, by simp [truncate, h1], ⟨h2, by simp⟩, ?_⟩
    show (L.abs c').map some = ((L.abs c).map some).take n
    rw [h3, List.map_take]
  | some b =>
    have hb := Ok.bits h
    obtain ⟨t1, t2⟩ := BitmapOf.truncate_ok n hb.1
    refine ⟨⟨c', some (b.truncate n)⟩, by simp [truncate, h1], ok_mk h2 t1 ?_, ?_⟩
    · rw [← bits_length, t2, h3]
      simp only [List.length_take, bits_length]; omega
    · rw [holds_some, holds_some, h3, t2, mask_take]

/-- The state between two chunks. -/
structure Mid (LB : LawfulB B) (L : LawfulR R) (c : R.C) (b : BitmapOf B.C) : Prop where
  inv : L.Inv c
  binv : b.Inv LB
  len : (L.abs c).length = b.bits

theorem Mid.ok {c : R.C} {b : BitmapOf B.C} (h : Mid LB L c b) : Ok LB L ⟨c, some b⟩ :=
  ok_mk h.inv h.binv (by rw [h.len]; exact Nat.le_refl _)

theorem Mid.mask_len {c : R.C} {b : BitmapOf B.C} (h : Mid LB L c b) :
    (mask (L.abs c) (bitsAre b)).length = b.bits := by
  rw [mask_length, bits_length, h.len, Nat.min_self]

theorem Mid.of_trunc {v : Of B R} {b : BitmapOf B.C} {c : R.C} (hi : Ok LB L ⟨v.coll, some b⟩)
    (h2 : L.Inv c) (h3 : L.abs c = (L.abs v.coll).take b.bits) :
    Mid LB L c b ∧ mask (L.abs c) (bitsAre b) = holds LB L ⟨v.coll, some b⟩ := by
  have hb := hi.bits
  refine ⟨⟨h2, hb.1, ?_⟩, ?_⟩
  · rw [h3, List.length_take]; exact Nat.min_eq_left hb.2
  · rw [h3, holds_some, ← mask_take_length (xs := L.abs v.coll), bits_length]

/-- One chunk appended to both parts. -/
theorem Mid.step {c c' : R.C} {b b' : BitmapOf B.C} {l : List (Option O)} (h : Mid LB L c b)
    (hc : L.Inv c') (hca : L.abs c' = L.abs c ++ l.map (·.getD R.dflt))
    (hb : b'.Inv LB) (hba : bitsAre b' = bitsAre b ++ l.map Option.isSome) :
    Mid LB L c' b' ∧ mask (L.abs c') (bitsAre b') = mask (L.abs c) (bitsAre b) ++ l := by
  have hl : b'.bits = b.bits + l.length := by
    have := congrArg List.length hba
    rw [bits_length, List.length_append, bits_length] at this; simpa using this
  refine ⟨⟨hc, hb, by rw [hca, hl]; simp [h.len]⟩, ?_⟩
  rw [hca, hba, mask_append (by rw [bits_length]; exact h.len), mask_items]

theorem extendLoop_spec (s : Src (Option O)) : ∀ (c : R.C) (b : BitmapOf B.C), Mid LB L c b →
    ∀ v' o, extendLoop B R c b s = (v', o) →
      o ≠ .err ∧
      (o = .ok → Ok LB L v' ∧
        holds LB L v' = mask (L.abs c) (bitsAre b) ++ s.items ∧ s.panics = false) := by
  intro c b hm v' o h
  rw [extendLoop] at h
  have htk := Src.takeChunk_items validityChunk s
  have htp := Src.takeChunk_panics validityChunk s
  have hne := L.ext_ne (values R.dflt (Src.takeChunk validityChunk s).1) hm.inv
  generalize hE : R.extend c (values R.dflt (Src.takeChunk validityChunk s).1) = E at *
  obtain ⟨c1, o1⟩ := E
  simp only at hne
  split at h
  · next c' heq =>
    simp only [Prod.mk.injEq] at heq
    obtain ⟨rfl, rfl⟩ := heq
    obtain ⟨e1, e2, e3⟩ := L.ext_ok hm.inv hE
    rw [values_items, htk] at e2
    rw [values_panics] at e3
    have hfl : flags (Src.takeChunk validityChunk s).1 = (s.items.take validityChunk).map Option.isSome := by
      simp [flags, htk]
    rw [hfl] at h
    obtain ⟨b3, b4⟩ := BitmapOf.extend_spec
      (s := Src.ofList ((s.items.take validityChunk).map Option.isSome)) hm.binv
    simp only [Src.items_ofList, Src.panics_ofList] at b4
    generalize hF : BitmapOf.extend B b (Src.ofList (List.map Option.isSome (List.take validityChunk s.items))) = F at *
    obtain ⟨bb, o2⟩ := F
    simp only at b3 b4 h
    cases o2 with
    | err => exact absurd rfl b3
    | panic =>
      simp only [Prod.mk.injEq] at h
      obtain ⟨rfl, rfl⟩ := h
      exact ⟨by simp, by simp⟩
    | ok =>
      obtain ⟨b1, b4, -⟩ := b4 rfl
      obtain ⟨m1, m2⟩ := hm.step e1 e2 b1 b4
      simp only at h
      split at h
      · next hlt =>
        simp only [Prod.mk.injEq] at h
        obtain ⟨rfl, rfl⟩ := h
        have hlt' : s.items.length < validityChunk := by
          simp only [List.length_map, List.length_take] at hlt; omega
        have hall : s.items.take validityChunk = s.items := List.take_of_length_le (by omega)
        rw [hall] at m2
        have hp : s.panics = false := by
          rw [e3] at htp; simpa [hlt'] using htp.symm
        exact ⟨by simp, fun _ => ⟨m1.ok, m2, hp⟩⟩
      · next hge =>
        have hge' : validityChunk ≤ s.items.length := by
          simp only [List.length_map, List.length_take] at hge; omega
        obtain ⟨r1, r2⟩ := Src.takeChunk_rest_items validityChunk s hge'
        have hdec : (Src.takeChunk validityChunk s).2.length < List.length s := by
          have := takeChunk_length validityChunk s
          rw [htk, List.length_take, Nat.min_eq_left hge'] at this
          unfold validityChunk at this ⊢; omega
        obtain ⟨i1, i2⟩ := extendLoop_spec (Src.takeChunk validityChunk s).2 c1 bb m1 v' o h
        rw [m2, r1, r2] at i2
        simp only [List.append_assoc, List.take_append_drop] at i2
        exact ⟨i1, i2⟩
  · next c' o' hno heq =>
    simp only [Prod.mk.injEq] at heq h
    obtain ⟨rfl, rfl⟩ := heq
    obtain ⟨rfl, rfl⟩ := h
    exact ⟨hne, fun ho => absurd ho (fun ho => hno (by rw [ho]))⟩
termination_by s.length

theorem extend_spec {env : World} {v v' : Of B R} {s : Src (Option O)} {o : Out}
    (hv : Ok LB L v) (h : extend B R env v s = (v', o)) :
    o ≠ .err ∧
    (o = .ok → Ok LB L v' ∧ holds LB L v' = holds LB L v ++ s.items ∧ s.panics = false) := by
  unfold extend at h
  cases hm : materialize B R env v with
  | panic =>
    rw [hm] at h
    simp only [Prod.mk.injEq] at h
    obtain ⟨rfl, rfl⟩ := h
    exact ⟨by simp, by simp⟩
  | ok b =>
    rw [hm] at h
    obtain ⟨m1, m2, m3⟩ := materialize_ok hv hm
    obtain ⟨c, h1, h2, h3, -⟩ := L.trunc_ok b.bits hv.1
    simp only [h1] at h
    obtain ⟨d1, d2⟩ := Mid.of_trunc m1 h2 h3
    obtain ⟨e1, e2⟩ := extendLoop_spec s c b d1 v' o h
    rw [d2, m2] at e2
    exact ⟨e1, e2⟩

theorem extendLoop_fuse (L : LawfulR R) (c : R.C) (b : BitmapOf B.C) (s : Src (Option O)) :
    extendLoop B R c b s = extendLoop B R c b s.fuse := by
  rw [extendLoop, extendLoop]
  have h1 := takeChunk_fuse validityChunk s
  have hc : R.extend c (values R.dflt (Src.takeChunk validityChunk s.fuse).1) =
      R.extend c (values R.dflt (Src.takeChunk validityChunk s).1) := by
    rw [L.ext_fuse, L.ext_fuse c (values R.dflt (Src.takeChunk validityChunk s).1), values_fuse,
      values_fuse, h1.1]
  have hf : flags (Src.takeChunk validityChunk s.fuse).1 =
      flags (Src.takeChunk validityChunk s).1 := by
    simp [flags, Src.takeChunk_items]
  simp only [hc, hf]
  split
  · next c' _ =>
    split
    · next b' _ =>
      split
      · rfl
      · next hge =>
        have hge' : validityChunk ≤ s.items.length := by
          simp only [flags, List.length_map, Src.takeChunk_items, List.length_take] at hge; omega
        have hdec : (Src.takeChunk validityChunk s).2.length < List.length s := by
          have := takeChunk_length validityChunk s
          rw [Src.takeChunk_items, List.length_take, Nat.min_eq_left hge'] at this
          unfold validityChunk at this ⊢; omega
        rw [h1.2 hge']
        exact extendLoop_fuse L c' b' _
    · rfl
  · rfl
termination_by s.length

theorem tryExtendLoop_fuse (L : LawfulR R) (len0 : Nat) (w : World) (c : R.C) (b : BitmapOf B.C)
    (s : Src (Option O)) :
    tryExtendLoop B R len0 w c b s = tryExtendLoop B R len0 w c b s.fuse := by
  rw [tryExtendLoop, tryExtendLoop]
  have h1 := takeChunk_fuse validityChunk s
  have hc : R.tryExtend w c (values R.dflt (Src.takeChunk validityChunk s.fuse).1) =
      R.tryExtend w c (values R.dflt (Src.takeChunk validityChunk s).1) := by
    rw [L.tryExt_fuse, L.tryExt_fuse w c (values R.dflt (Src.takeChunk validityChunk s).1),
      values_fuse, values_fuse, h1.1]
  have hf : flags (Src.takeChunk validityChunk s.fuse).1 =
      flags (Src.takeChunk validityChunk s).1 := by
    simp [flags, Src.takeChunk_items]
  simp only [hc, hf]
  split
  · next c' w' _ =>
    split
    · next b' w'' _ =>
      split
      · rfl
      · next hge =>
        have hge' : validityChunk ≤ s.items.length := by
          simp only [flags, List.length_map, Src.takeChunk_items, List.length_take] at hge; omega
        have hdec : (Src.takeChunk validityChunk s).2.length < List.length s := by
          have := takeChunk_length validityChunk s
          rw [Src.takeChunk_items, List.length_take, Nat.min_eq_left hge'] at this
          unfold validityChunk at this ⊢; omega
        rw [h1.2 hge']
        exact tryExtendLoop_fuse L len0 w'' c' b' _
    · rfl
    · rfl
  · rfl
  · rfl
termination_by s.length

theorem rollback_spec {v v' : Of B R} {n : Nat} {w w' : World} {o : Out}
    (hv : Ok LB L v) (h : rollback B R v n w = (v', o, w')) :
    o = .err ∧ Ok LB L v' ∧ holds LB L v' = (holds LB L v).take n := by
  obtain ⟨v1, h1, h2, h3⟩ := trunc_ok n hv
  simp only [rollback, h1, Prod.mk.injEq] at h
  obtain ⟨rfl, rfl, rfl⟩ := h
  exact ⟨rfl, h2, h3⟩

theorem tryExtendLoop_spec (len0 : Nat) (s : Src (Option O)) :
    ∀ (w : World) (c : R.C) (b : BitmapOf B.C), Mid LB L c b → len0 ≤ b.bits →
    ∀ v' o w', tryExtendLoop B R len0 w c b s = (v', o, w') →
      (o = .ok → Ok LB L v' ∧
        holds LB L v' = mask (L.abs c) (bitsAre b) ++ s.items ∧ s.panics = false) ∧
      (o = .err → Ok LB L v' ∧ holds LB L v' = (mask (L.abs c) (bitsAre b)).take len0) ∧
      (s.panics = false → o ≠ .panic) := by
  intro w c b hm hlen v' o w' h
  rw [tryExtendLoop] at h
  have htk := Src.takeChunk_items validityChunk s
  have htp := Src.takeChunk_panics validityChunk s
  have hnp := L.tryExt_np (w := w) (s := values R.dflt (Src.takeChunk validityChunk s).1) hm.inv
  have hpan : s.panics = false → (values R.dflt (Src.takeChunk validityChunk s).1).panics = false := by
    intro hp; rw [values_panics, htp, hp]; rfl
  generalize hE : R.tryExtend w c (values R.dflt (Src.takeChunk validityChunk s).1) = E at *
  obtain ⟨c1, o1, w1⟩ := E
  simp only at hnp
  cases o1 with
  | panic =>
    simp only [Prod.mk.injEq] at h
    obtain ⟨rfl, rfl, rfl⟩ := h
    exact ⟨by simp, by simp, fun hp => absurd rfl (hnp (hpan hp))⟩
  | err =>
    simp only at h
    obtain ⟨e1, e2⟩ := L.tryExt_err hm.inv hE
    have hm1 : Mid LB L c1 b := ⟨e1, hm.binv, by rw [e2]; exact hm.len⟩
    obtain ⟨rfl, r2, r3⟩ := rollback_spec hm1.ok h
    exact ⟨by simp, fun _ => ⟨r2, by rw [r3, holds_some, e2]⟩, fun _ => by simp⟩
  | ok =>
    obtain ⟨e1, e2, e3⟩ := L.tryExt_ok hm.inv hE
    rw [values_items, htk] at e2
    rw [values_panics] at e3
    have hfl : flags (Src.takeChunk validityChunk s).1 = (s.items.take validityChunk).map Option.isSome := by
      simp [flags, htk]
    simp only [hfl] at h
    generalize hF : BitmapOf.tryExtend B w1 b (Src.ofList (List.map Option.isSome (List.take validityChunk s.items))) = F at *
    obtain ⟨bb, o2, w2⟩ := F
    obtain ⟨b4, b5, b6⟩ := BitmapOf.tryExtend_spec hm.binv hF
    simp only [Src.items_ofList, Src.panics_ofList] at b4 b6
    cases o2 with
    | panic => exact absurd (b6 rfl) (by simp)
    | err =>
      simp only at h
      obtain ⟨b1, b5⟩ := b5 rfl
      have hbits : bb.bits = b.bits := by
        have := congrArg List.length b5
        rwa [bits_length, bits_length] at this
      have hmask : mask (L.abs c1) (bitsAre bb) = mask (L.abs c) (bitsAre b) := by
        rw [e2, b5, mask_append_left (by rw [bits_length, hm.len]; exact Nat.le_refl _)]
      have hi1 : Ok LB L ⟨c1, some bb⟩ := ok_mk e1 b1 (by rw [e2, hbits]; simp [hm.len])
      obtain ⟨rfl, r2, r3⟩ := rollback_spec hi1 h
      exact ⟨by simp, fun _ => ⟨r2, by rw [r3, holds_some, hmask]⟩, fun _ => by simp⟩
    | ok =>
      obtain ⟨b1, b4, -⟩ := b4 rfl
      obtain ⟨m1, m2⟩ := hm.step e1 e2 b1 b4
      have hbits : bb.bits = b.bits + (s.items.take validityChunk).length := by
        have := congrArg List.length b4
        rw [bits_length, List.length_append, bits_length] at this; simpa using this
      simp only at h
      split at h
      · next hlt =>
        simp only [Prod.mk.injEq] at h
        obtain ⟨rfl, rfl, rfl⟩ := h
        have hlt' : s.items.length < validityChunk := by
          simp only [List.length_map, List.length_take] at hlt; omega
        have hall : s.items.take validityChunk = s.items := List.take_of_length_le (by omega)
        rw [hall] at m2
        have hp : s.panics = false := by
          rw [e3] at htp; simpa [hlt'] using htp.symm
        exact ⟨fun _ => ⟨m1.ok, m2, hp⟩, by simp, fun _ => by simp⟩
      · next hge =>
        have hge' : validityChunk ≤ s.items.length := by
          simp only [List.length_map, List.length_take] at hge; omega
        obtain ⟨r1, r2⟩ := Src.takeChunk_rest_items validityChunk s hge'
        have hdec : (Src.takeChunk validityChunk s).2.length < List.length s := by
          have := takeChunk_length validityChunk s
          rw [htk, List.length_take, Nat.min_eq_left hge'] at this
          unfold validityChunk at this ⊢; omega
        obtain ⟨i1, i2, i3⟩ := tryExtendLoop_spec len0 (Src.takeChunk validityChunk s).2 w2 c1 bb m1
          (by omega) v' o w' h
        rw [m2] at i1 i2
        rw [r2] at i1 i3
        rw [r1] at i1
        simp only [List.append_assoc, List.take_append_drop] at i1
        refine ⟨i1, fun ho => ?_, i3⟩
        obtain ⟨j1, j2⟩ := i2 ho
        exact ⟨j1, by rw [j2, List.take_append_of_le_length (by rw [hm.mask_len]; omega)]⟩
termination_by s.length

theorem tryExtend_spec {w w' : World} {v v' : Of B R} {s : Src (Option O)} {o : Out}
    (hv : Ok LB L v) (h : tryExtend B R w v s = (v', o, w')) :
    (o = .ok → Ok LB L v' ∧ holds LB L v' = holds LB L v ++ s.items ∧ s.panics = false) ∧
    (o = .err → Ok LB L v' ∧ holds LB L v' = holds LB L v) ∧
    (s.panics = false → o ≠ .panic) := by
  unfold tryExtend at h
  simp only [len_ok hv] at h
  have hnp := tryMaterialize_np (w := w) hv
  generalize hm : tryMaterialize B R w v = M at *
  obtain ⟨t, w1⟩ := M
  cases t with
  | panic => exact absurd rfl hnp
  | err =>
    simp only [Prod.mk.injEq] at h
    obtain ⟨rfl, rfl, rfl⟩ := h
    exact ⟨by simp, fun _ => ⟨hv, rfl⟩, fun _ => by simp⟩
  | ok b =>
    obtain ⟨m1, m2, m3⟩ := tryMaterialize_ok hv hm
    obtain ⟨c, h1, h2, h3, -⟩ := L.trunc_ok (holds LB L v).length hv.1
    simp only [h1] at h
    rw [← m3] at h3
    obtain ⟨d1, d2⟩ := Mid.of_trunc m1 h2 h3
    obtain ⟨e1, e2, e3⟩ := tryExtendLoop_spec _ s w1 c b d1 (by rw [m3]; exact Nat.le_refl _) v' o w' h
    rw [d2, m2] at e1 e2
    refine ⟨e1, fun ho => ?_, e3⟩
    obtain ⟨j1, j2⟩ := e2 ho
    exact ⟨j1, by rw [j2, List.take_length]⟩

theorem same {c c' : R.C} {b b' : BitmapOf B.C} (h : Ok LB L ⟨c, some b⟩) (hc : L.Inv c')
    (ha : L.abs c' = L.abs c) (hb : b'.Inv LB) (hba : bitsAre b' = bitsAre b) :
    Ok LB L ⟨c', some b'⟩ ∧ holds LB L ⟨c', some b'⟩ = holds LB L ⟨c, some b⟩ := by
  refine ⟨ok_mk hc hb ?_, by rw [holds_some, holds_some, ha, hba]⟩
  rw [ha, ← bits_length, hba, bits_length]; exact h.bits.2

theorem reserve_spec {env : World} {v v' : Of B R} {n : Nat} {o : Out} (hv : Ok LB L v)
    (h : reserve B R env v n = (v', o)) :
    Ok LB L v' ∧ holds LB L v' = holds LB L v ∧ o ≠ .err := by
  unfold reserve at h
  cases hm : materialize B R env v with
  | panic =>
    rw [hm] at h
    simp only [Prod.mk.injEq] at h
    obtain ⟨rfl, rfl⟩ := h
    exact ⟨hv, rfl, by simp⟩
  | ok b =>
    rw [hm] at h
    obtain ⟨m1, m2, m3⟩ := materialize_ok hv hm
    simp only at h
    generalize hB : BitmapOf.reserve B b n = F at *
    obtain ⟨b', o1⟩ := F
    obtain ⟨p1, p2, p3⟩ := BitmapOf.reserve_ok m1.bits.1 hB
    cases o1 with
    | err => exact absurd rfl p3
    | panic =>
      simp only [Prod.mk.injEq] at h
      obtain ⟨rfl, rfl⟩ := h
      obtain ⟨q1, q2⟩ := same m1 hv.1 rfl p1 p2
      exact ⟨q1, q2.trans m2, by simp⟩
    | ok =>
      simp only [Prod.mk.injEq] at h
      obtain ⟨rfl, rfl⟩ := h
      obtain ⟨c1, c2, c3, -⟩ := L.reserve_ok (n := n) hv.1 (Prod.ext rfl rfl)
      obtain ⟨q1, q2⟩ := same m1 c1 c2 p1 p2
      exact ⟨q1, q2.trans m2, c3⟩

theorem tryReserve_spec {w w' : World} {v v' : Of B R} {n : Nat} {o : Out} (hv : Ok LB L v)
    (h : tryReserve B R w v n = (v', o, w')) :
    Ok LB L v' ∧ holds LB L v' = holds LB L v ∧ o ≠ .panic := by
  unfold tryReserve at h
  have hnp := tryMaterialize_np (w := w) hv
  generalize hm : tryMaterialize B R w v = M at *
  obtain ⟨t, w1⟩ := M
  cases t with
  | panic => exact absurd rfl hnp
  | err =>
    simp only [Prod.mk.injEq] at h
    obtain ⟨rfl, rfl, rfl⟩ := h
    exact ⟨hv, rfl, by simp⟩
  | ok b =>
    obtain ⟨m1, m2, m3⟩ := tryMaterialize_ok hv hm
    simp only at h
    generalize hC : R.tryReserve w1 v.coll n = C at *
    obtain ⟨c, o1, w2⟩ := C
    obtain ⟨c1, c2, c3, -⟩ := L.tryReserve_ok hv.1 hC
    cases o1 with
    | panic => exact absurd rfl c3
    | err =>
      simp only [Prod.mk.injEq] at h
      obtain ⟨rfl, rfl, rfl⟩ := h
      obtain ⟨q1, q2⟩ := same m1 c1 c2 m1.bits.1 rfl
      exact ⟨q1, q2.trans m2, by simp⟩
    | ok =>
      simp only [Prod.mk.injEq] at h
      generalize hB : BitmapOf.tryReserve B w2 b n = F at *
      obtain ⟨b', o2, w3⟩ := F
      obtain ⟨rfl, rfl, rfl⟩ := h
      obtain ⟨p1, p2, p3⟩ := BitmapOf.tryReserve_ok m1.bits.1 hB
      obtain ⟨q1, q2⟩ := same m1 c1 c2 p1 p2
      exact ⟨q1, q2.trans m2, p3⟩

/-! ## Constructors -/

theorem pushBits_spec : ∀ (l : List Bool) {b b' : BitmapOf B.C} {o : Out}, b.Inv LB →
    pushBits B b l = (b', o) →
    o ≠ .err ∧ (o = .ok → b'.Inv LB ∧ bitsAre b' = bitsAre b ++ l)
  | [], b, b', o, hb, h => by
    simp only [pushBits, Prod.mk.injEq] at h
    obtain ⟨rfl, rfl⟩ := h
    exact ⟨by simp, fun _ => ⟨hb, by simp⟩⟩
  | x :: l, b, b', o, hb, h => by
    obtain ⟨b3, b4⟩ := BitmapOf.extend_spec (s := [.item x]) hb
    simp only [pushBits] at h
    generalize hE : BitmapOf.extend B b [.item x] = E at *
    obtain ⟨bb, o1⟩ := E
    simp only at b3 b4
    cases o1 with
    | err => exact absurd rfl b3
    | panic =>
      simp only [Prod.mk.injEq] at h
      obtain ⟨rfl, rfl⟩ := h
      exact ⟨by simp, by simp⟩
    | ok =>
      simp only at h
      obtain ⟨b1, b4, -⟩ := b4 rfl
      obtain ⟨h1, h3⟩ := pushBits_spec l b1 h
      refine ⟨h1, fun ho => ?_⟩
      obtain ⟨i1, i2⟩ := h3 ho
      exact ⟨i1, by rw [i2, b4]; simp [Src.items]⟩

theorem fromIterWith_cases {mk : World → Src O → Try R.C × World} {w w' : World}
    {s : Src (Option O)} {v : Of B R} (h : fromIterWith B R mk w s = (.ok v, w')) :
    ∃ c b, v = ⟨c, some b⟩ ∧ mk w.next (values R.dflt s) = (.ok c, w') ∧ b.Inv LB ∧
      bitsAre b = (R.pulled s).map Option.isSome := by
  unfold fromIterWith at h
  generalize hB : BitmapOf.withCap B (w.capHint s.items.length) = F at *
  cases F with
  | err => simp at h
  | panic => simp at h
  | ok b =>
    obtain ⟨q1, q2⟩ := BitmapOf.withCap_ok (L := LB) hB
    simp only at h
    generalize hC : mk w.next (values R.dflt s) = C at *
    obtain ⟨t, w1⟩ := C
    cases t with
    | err => simp at h
    | panic => simp at h
    | ok c =>
      simp only at h
      generalize hP : pushBits B b ((R.pulled s).map Option.isSome) = P at *
      obtain ⟨b', o⟩ := P
      obtain ⟨p1, p3⟩ := pushBits_spec _ q1 hP
      cases o with
      | err => simp at h
      | panic => simp at h
      | ok =>
        simp only [Prod.mk.injEq, Try.ok.injEq] at h
        obtain ⟨rfl, rfl⟩ := h
        obtain ⟨p3, p4⟩ := p3 rfl
        rw [q2, List.nil_append] at p4
        exact ⟨c, b', rfl, rfl, p3, p4⟩

theorem fromIterWith_ok {mk : World → Src O → Try R.C × World}
    (hmk : ∀ {w w' s c}, s.Fused → mk w s = (.ok c, w') →
      L.Inv c ∧ L.abs c = s.items ∧ s.panics = false) {w w' : World}
    {s : Src (Option O)} {v : Of B R} (hs : s.Fused) (h : fromIterWith B R mk w s = (.ok v, w')) :
    Ok LB L v ∧ holds LB L v = s.items ∧ s.panics = false := by
  obtain ⟨c, b, rfl, h1, h2, h3⟩ := fromIterWith_cases (LB := LB) h
  obtain ⟨c1, c2, c3⟩ := hmk (by unfold values; exact hs.map) h1
  rw [values_items] at c2
  rw [values_panics] at c3
  rw [L.pulled_fused hs] at h3
  refine ⟨ok_mk c1 h2 ?_, by rw [holds_some, c2, h3, mask_items], c3⟩
  rw [c2, ← bits_length, h3]; simp

theorem fromIterWith_any {mk : World → Src O → Try R.C × World}
    (hmk : ∀ {w w' s c}, mk w s = (.ok c, w') → L.Inv c ∧ (L.abs c).length = (R.pulled s).length)
    {w w' : World} {s : Src (Option O)} {v : Of B R} (h : fromIterWith B R mk w s = (.ok v, w')) :
    Ok LB L v ∧ (holds LB L v).length = (R.pulled s).length := by
  obtain ⟨c, b, rfl, h1, h2, h3⟩ := fromIterWith_cases (LB := LB) h
  obtain ⟨c1, c2⟩ := hmk h1
  rw [values, L.pulled_map] at c2
  have hbits : b.bits = (R.pulled s).length := by
    rw [← bits_length, h3, List.length_map]
  refine ⟨ok_mk c1 h2 (by omega), ?_⟩
  rw [holds_some, mask_length, c2, bits_length, hbits, Nat.min_self]

theorem fromIterWith_ne {mk : World → Src O → Try R.C × World} (hmk : ∀ w s, (mk w s).1 ≠ .err)
    (w : World) (s : Src (Option O)) : (fromIterWith B R mk w s).1 ≠ .err := by
  unfold fromIterWith
  split
  · next b hB =>
    have := hmk w.next (values R.dflt s)
    split
    · split <;> simp
    · next heq => rw [heq] at this; simp at this
    · simp
  · simp

theorem pair_empty {c : R.C} {b : BitmapOf B.C} (hc : L.Inv c) (hb : b.Inv LB ∧ bitsAre b = []) :
    Ok LB L ⟨c, some b⟩ ∧ holds LB L ⟨c, some b⟩ = [] := by
  have hbits0 : b.bits = 0 := by rw [← bits_length, hb.2]; rfl
  exact ⟨ok_mk hc hb.1 (by omega), by rw [holds_some, hb.2]; simp⟩

theorem withCap_ok {n : Nat} {v : Of B R} (h : withCap B R n = .ok v) :
    Ok LB L v ∧ holds LB L v = [] := by
  unfold withCap at h
  split at h
  · next c hc =>
    split at h
    · next b hb =>
      simp only [Try.ok.injEq] at h
      subst h
      exact pair_empty (L.withCap_ok hc).1 (BitmapOf.withCap_ok hb)
    · simp at h
    · simp at h
  · simp at h
  · simp at h

theorem withCap_ne (LB : LawfulB B) (L : LawfulR R) (n : Nat) : withCap B R n ≠ .err := by
  unfold withCap
  have := L.withCap_ne n
  have : BitmapOf.withCap B n ≠ .err := (bitmapBG LB).withCap_ne n
  split
  · split <;> simp_all
  · simp_all
  · simp

theorem tryWithCap_ok {w w' : World} {n : Nat} {v : Of B R} (h : tryWithCap B R w n = (.ok v, w')) :
    Ok LB L v ∧ holds LB L v = [] := by
  unfold tryWithCap at h
  split at h
  · next c w1 hc =>
    split at h
    · next b w2 hb =>
      simp only [Prod.mk.injEq, Try.ok.injEq] at h
      obtain ⟨rfl, rfl⟩ := h
      exact pair_empty (L.tryWithCap_ok hc).1 (BitmapOf.tryWithCap_ok hb)
    · simp at h
    · simp at h
  · simp at h
  · simp at h

theorem tryWithCap_np (LB : LawfulB B) (L : LawfulR R) (w : World) (n : Nat) :
    (tryWithCap B R w n).1 ≠ .panic := by
  unfold tryWithCap
  have h1 := L.tryWithCap_np w n
  split
  · next c w1 hc =>
    have h2 : (BitmapOf.tryWithCap B w1 n).1 ≠ .panic := (bitmapBG LB).tryWithCap_np w1 n
    split
    · simp
    · simp
    · next hb => rw [hb] at h2; simp at h2
  · simp
  · next hc => rw [hc] at h1; simp at h1

theorem tryFromIter_ok {w w' : World} {s : Src (Option O)} {v : Of B R}
    (h : tryFromIter B R w s = (.ok v, w')) :
    Ok LB L v ∧ holds LB L v = s.items ∧ s.panics = false := by
  unfold tryFromIter at h
  split at h
  · next v0 w1 hv =>
    obtain ⟨h1, h2⟩ := tryWithCap_ok (LB := LB) (L := L) hv
    split at h
    · next v1 w2 he =>
      simp only [Prod.mk.injEq, Try.ok.injEq] at h
      obtain ⟨rfl, rfl⟩ := h
      have e1 := (tryExtend_spec h1 he).1 rfl
      rwa [h2, List.nil_append] at e1
    · simp at h
    · simp at h
  · simp at h
  · simp at h

theorem tryFromIter_np {w : World} {s : Src (Option O)} (hp : s.panics = false) (LB : LawfulB B)
    (L : LawfulR R) : (tryFromIter B R w s).1 ≠ .panic := by
  unfold tryFromIter
  have h0 := tryWithCap_np LB L w.next (w.capHint s.items.length)
  split
  · next v0 w1 hv =>
    obtain ⟨h1, h2⟩ := tryWithCap_ok (LB := LB) (L := L) hv
    split
    · simp
    · simp
    · next he => exact absurd rfl ((tryExtend_spec h1 he).2.2 hp)
  · simp
  · next hv => rw [hv] at h0; simp at h0

end ValidityOf

open ValidityOf in
theorem validityBG {B : Backing Byte} {R : Realloc O} (env : World) (LB : LawfulB B) (L : LawfulR R) :
    Grows (validityBR env B R) (validityBL (bitmapBL LB) L.toLawfulColl) where
  empty_ok := by
    obtain ⟨h1, h2, -⟩ := L.empty_ok
    refine ⟨⟨h1, by simp⟩, ?_⟩
    show (L.abs R.empty).map some = []
    rw [h2]; rfl
  pulled_fused h := L.pulled_fused h
  pulled_map f s := L.pulled_map f s
  fromIter_any h := fromIterWith_any (LB := LB) (L := L) L.fromIter_any h
  fromIterIn_any h := fromIterWith_any (LB := LB) (L := L) L.fromIterIn_any h
  tryFromIter_any h := (tryFromIter_ok (LB := LB) (L := L) h).1
  withCap_ok h := withCap_ok (LB := LB) (L := L) h
  withCap_ne n := withCap_ne LB L n
  fromIter_ok hs h := fromIterWith_ok (LB := LB) (L := L)
    (fun hs h => let r := L.fromIter_ok hs h; ⟨r.1, r.2.1, r.2.2.1⟩) hs h
  fromIter_ne w s := fromIterWith_ne L.fromIter_ne w s
  fromIterIn_ok hs h := fromIterWith_ok (LB := LB) (L := L)
    (fun hs h => let r := L.fromIterIn_ok hs h; ⟨r.1, r.2.1, r.2.2.1⟩) hs h
  fromIterIn_ne w s := fromIterWith_ne L.fromIterIn_ne w s
  tryWithCap_ok h := tryWithCap_ok (LB := LB) (L := L) h
  tryWithCap_np w n := tryWithCap_np LB L w n
  tryFromIter_ok _ h := tryFromIter_ok (LB := LB) (L := L) h
  tryFromIter_np _ hp := tryFromIter_np hp LB L
  ext_ok hc h := (extend_spec (LB := LB) (L := L) hc h).2 rfl
  ext_ne s hc := (extend_spec (LB := LB) (L := L) hc (s := s) (Prod.ext rfl rfl)).1
  ext_fuse v s := by
    show ValidityOf.extend B R env v s = ValidityOf.extend B R env v s.fuse
    unfold ValidityOf.extend
    split
    · rfl
    · split
      · exact extendLoop_fuse L _ _ _
      · rfl
  reserve_ok hc h := reserve_spec (LB := LB) (L := L) hc h
  tryReserve_ok hc h := tryReserve_spec (LB := LB) (L := L) hc h
  tryExt_ok hc h := (tryExtend_spec (LB := LB) (L := L) hc h).1 rfl
  tryExt_err hc h := (tryExtend_spec (LB := LB) (L := L) hc h).2.1 rfl
  tryExt_np hc hp := (tryExtend_spec (LB := LB) (L := L) hc (Prod.ext rfl (Prod.ext rfl rfl))).2.2 hp
  tryExt_fuse w v s := by
    show ValidityOf.tryExtend B R w v s = ValidityOf.tryExtend B R w v s.fuse
    unfold ValidityOf.tryExtend
    split
    · rfl
    · split
      · rfl
      · rfl
      · split
        · exact tryExtendLoop_fuse L _ _ _ _ _
        · rfl
  trunc_ok n hc := ValidityOf.trunc_ok (LB := LB) (L := L) n hc

end Narrow
