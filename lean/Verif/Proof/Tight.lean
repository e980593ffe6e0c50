import Verif.Proof.Layout

/-!
# Storage without leftovers

Unless a panic interrupts it, every operation leaves nullable collections with
exactly as many values as validity bits, and no bitmap built by the library has a
bit offset.
-/

namespace Narrow

/-- `T` holds of every collection the operations produce from collections for
which it holds, panics excepted. -/
structure TightR {O : Type} {R : Realloc O} (L : LawfulR R) (T : R.C → Prop) : Prop where
  empty : T R.empty
  withCap : ∀ {n c}, R.withCap n = .ok c → T c
  fromIter : ∀ {w w' s c}, R.fromIter w s = (.ok c, w') → T c
  fromIterIn : ∀ {w w' s c}, R.fromIterIn w s = (.ok c, w') → T c
  tryWithCap : ∀ {w w' n c}, R.tryWithCap w n = (.ok c, w') → T c
  tryFromIter : ∀ {w w' s c}, R.tryFromIter w s = (.ok c, w') → T c
  extend : ∀ {c c' s}, L.Inv c → T c → R.extend c s = (c', .ok) → T c'
  tryExtend : ∀ {w w' c c' s o}, L.Inv c → T c → R.tryExtend w c s = (c', o, w') → o ≠ .panic → T c'
  reserve : ∀ {c c' n o}, L.Inv c → T c → R.reserve c n = (c', o) → T c'
  tryReserve : ∀ {w w' c c' n o}, L.Inv c → T c → R.tryReserve w c n = (c', o, w') → T c'
  truncate : ∀ {c c' n o}, L.Inv c → T c → R.truncate c n = (c', o) → T c'

theorem vec_tight {α : Type} {lim : Nat} (hlim : lim ≤ usizeMax) (d : α) :
    TightR (vecL lim hlim d) fun _ => True := by
  constructor <;> intros <;> trivial

/-- If `z`, the bitmap has no bit offset. -/
def bitsT (z : Bool) (b : Bitmap) : Prop := z = true → b.offset = 0

namespace Bitmap

theorem withCap_offset {n : Nat} {b : Bitmap} (h : withCap n = .ok b) : b.offset = 0 := by
  unfold withCap at h
  split at h <;> simp at h
  subst h; rfl

theorem fromIter_offset {s : Src Bool} {b : Bitmap} (h : fromIter s = .ok b) : b.offset = 0 := by
  unfold fromIter at h
  split at h <;> simp at h
  subst h; rfl

theorem tryWithCap_offset {w w' : World} {n : Nat} {b : Bitmap} (h : tryWithCap w n = (.ok b, w')) :
    b.offset = 0 := by
  unfold tryWithCap at h
  split at h <;> simp at h
  rw [← h.1]

theorem tryFromIter_offset {w w' : World} {s : Src Bool} {b : Bitmap}
    (h : tryFromIter w s = (.ok b, w')) : b.offset = 0 := by
  unfold tryFromIter at h
  split at h <;> simp at h
  rw [← h.1]

theorem extend_offset {b b' : Bitmap} {s : Src Bool} {o : Out} (hb : b.Inv)
    (h : extend b s = (b', o)) : b'.offset = b.offset := by
  have := (extend_spec (s := s) hb).2.1
  rwa [h] at this

theorem truncate_offset (b : Bitmap) (n : Nat) : (b.truncate n).offset = b.offset := by
  unfold truncate; split <;> rfl

theorem truncate_bits (b : Bitmap) (n : Nat) : (b.truncate n).bits = min n b.bits := by
  unfold truncate; split
  · simp only; omega
  · omega

theorem reserve_offset {b b' : Bitmap} {n : Nat} {o : Out} (h : reserve b n = (b', o)) :
    b'.offset = b.offset := by
  unfold reserve at h
  split at h
  · simp only [Prod.mk.injEq] at h; rw [← h.1]
  · split at h
    · simp only [Prod.mk.injEq] at h; rw [← h.1]
    · simp only [Prod.mk.injEq] at h; rw [← h.1]

theorem tryReserve_offset {w w' : World} {b b' : Bitmap} {n : Nat} {o : Out}
    (h : tryReserve w b n = (b', o, w')) : b'.offset = b.offset := by
  unfold tryReserve at h
  split at h
  · simp only [Prod.mk.injEq] at h; rw [← h.1]
  · split at h
    · simp only [Prod.mk.injEq] at h; rw [← h.1]
    · simp only [Prod.mk.injEq] at h; rw [← h.1]

end Bitmap

theorem bitmap_tight (z : Bool) : TightR bitmapL (bitsT z) where
  empty _ := rfl
  withCap h _ := Bitmap.withCap_offset h
  fromIter h _ := Bitmap.fromIter_offset (Prod.mk.inj h).1
  fromIterIn h _ := Bitmap.fromIter_offset (Prod.mk.inj h).1
  tryWithCap h _ := Bitmap.tryWithCap_offset h
  tryFromIter h _ := Bitmap.tryFromIter_offset h
  extend hc ht h hz := by rw [Bitmap.extend_offset hc h]; exact ht hz
  tryExtend hc ht h _ hz := by rw [(Bitmap.tryExtend_spec hc h).2.1]; exact ht hz
  reserve _ ht h hz := by rw [Bitmap.reserve_offset h]; exact ht hz
  tryReserve _ ht h hz := by rw [Bitmap.tryReserve_offset h]; exact ht hz
  truncate {c c' n o} _ ht h hz := by
    have h1 : c.truncate n = c' := (Prod.mk.inj h).1
    rw [← h1, Bitmap.truncate_offset]; exact ht hz

theorem flatten_tight {O : Type} {R : Realloc O} {L : LawfulR R} {T : R.C → Prop} {n : Nat}
    (hn : 0 < n) (ht : TightR L T) : TightR (flattenL L n hn) fun c => T c.child where
  empty := ht.empty
  withCap {k c} h := by
    replace h : (match strictMul k n with
      | .panic => .panic
      | .ok m => Flatten.wrapTry (R.withCap m)) = Try.ok c := h
    split at h
    · cases h
    · exact ht.withCap (wrapTry_ok h)
  fromIter {w w' s c} h := by
    obtain ⟨h1, h2⟩ := Prod.mk.inj h
    exact ht.fromIter (Prod.ext (wrapTry_ok h1) rfl)
  fromIterIn {w w' s c} h := by
    obtain ⟨h1, h2⟩ := Prod.mk.inj h
    exact ht.fromIterIn (Prod.ext (wrapTry_ok h1) rfl)
  tryWithCap {w w' k c} h := by
    replace h : (match checkedMul k n with
      | none => (.err, w)
      | some m => (Flatten.wrapTry (R.tryWithCap w m).1, (R.tryWithCap w m).2)) = (Try.ok c, w') := h
    split at h
    · cases h
    · obtain ⟨h1, h2⟩ := Prod.mk.inj h
      exact ht.tryWithCap (Prod.ext (wrapTry_ok h1) rfl)
  tryFromIter {w w' s c} h := by
    obtain ⟨h1, h2⟩ := Prod.mk.inj h
    exact ht.tryFromIter (Prod.ext (wrapTry_ok h1) rfl)
  extend {c c' s} hc hx h := by
    obtain ⟨h1, h2⟩ := Prod.mk.inj h
    rw [← h1]
    exact ht.extend hc.1 hx (Prod.ext rfl h2)
  tryExtend {w w' c c' s o} hc hx h ho := by
    obtain ⟨h1, h2⟩ := Prod.mk.inj h
    obtain ⟨h2, h3⟩ := Prod.mk.inj h2
    rw [← h1]
    exact ht.tryExtend hc.1 hx (Prod.ext rfl (Prod.ext rfl rfl)) (h2 ▸ ho)
  reserve {c c' k o} hc hx h := by
    replace h : (match strictMul k n with
      | .panic => (c, .panic)
      | .ok m => ((⟨(R.reserve c.child m).1⟩ : Flatten R.C), (R.reserve c.child m).2)) = (c', o) := h
    split at h
    · rw [← (Prod.mk.inj h).1]; exact hx
    · rw [← (Prod.mk.inj h).1]; exact ht.reserve hc.1 hx rfl
  tryReserve {w w' c c' k o} hc hx h := by
    replace h : (match checkedMul k n with
      | none => (c, .err, w)
      | some m => ((⟨(R.tryReserve w c.child m).1⟩ : Flatten R.C), (R.tryReserve w c.child m).2.1,
          (R.tryReserve w c.child m).2.2)) = (c', o, w') := h
    split at h
    · rw [← (Prod.mk.inj h).1]; exact hx
    · rw [← (Prod.mk.inj h).1]; exact ht.tryReserve hc.1 hx (Prod.ext rfl (Prod.ext rfl rfl))
  truncate {c c' k o} hc hx h := by
    replace h : (match Flatten.len R.toColl n c with
      | .panic => (c, .panic)
      | .ok l =>
        if k < l then
          match strictMul k n with
          | .panic => (c, .panic)
          | .ok m => ((⟨(R.truncate c.child m).1⟩ : Flatten R.C), (R.truncate c.child m).2)
        else (c, .ok)) = (c', o) := h
    split at h
    · rw [← (Prod.mk.inj h).1]; exact hx
    · split at h
      · split at h
        · rw [← (Prod.mk.inj h).1]; exact hx
        · rw [← (Prod.mk.inj h).1]; exact ht.truncate hc.1 hx rfl
      · rw [← (Prod.mk.inj h).1]; exact hx

/-! ## Nullable collections -/

namespace Validity

variable {O : Type} {R : Realloc O}

/-- As many values as validity bits; if `z`, no bit offset. -/
def Tight (L : LawfulR R) (z : Bool) (T : R.C → Prop) (v : Validity R.C) : Prop :=
  T v.coll ∧ ∀ b, v.bitmap = some b → bitsT z b ∧ (L.abs v.coll).length = b.bits

variable {L : LawfulR R} {T : R.C → Prop} {z : Bool}

theorem tight_mk {c : R.C} {b : Bitmap} (hc : T c) (hb : bitsT z b) (h : (L.abs c).length = b.bits) :
    Tight L z T ⟨c, some b⟩ := ⟨hc, fun b' hb' => by cases hb'; exact ⟨hb, h⟩⟩

theorem abs_len_bits {b : Bitmap} {l : List Bool} (h : b.abs = l) : b.bits = l.length := by
  rw [← h, Bitmap.abs_length]

theorem tight_materialize {v : Validity R.C} {b : Bitmap} (hv : Inv L.toLawfulColl v)
    (ht : Tight L z T v) (h : materialize R.toColl v = .ok b) :
    bitsT z b ∧ (L.abs v.coll).length = b.bits := by
  obtain ⟨h1, h2, h3, h4 | ⟨h4, h5, _⟩⟩ := materialize_ok hv h
  · exact ht.2 b h4
  · refine ⟨fun _ => h5, ?_⟩
    rw [h3]
    obtain ⟨c, ob⟩ := v
    cases h4
    simp [abs]

theorem tight_tryMaterialize {w w' : World} {v : Validity R.C} {b : Bitmap}
    (hv : Inv L.toLawfulColl v) (ht : Tight L z T v)
    (h : tryMaterialize R.toColl w v = (.ok b, w')) :
    bitsT z b ∧ (L.abs v.coll).length = b.bits := by
  obtain ⟨h1, h2, h3, h4 | ⟨h4, h5, _⟩⟩ := tryMaterialize_ok hv h
  · exact ht.2 b h4
  · refine ⟨fun _ => h5, ?_⟩
    rw [h3]
    obtain ⟨c, ob⟩ := v
    cases h4
    simp [abs]

theorem tight_truncate (hT : TightR L T) {v v' : Validity R.C} {n : Nat} {o : Out}
    (hv : Inv L.toLawfulColl v) (ht : Tight L z T v) (h : truncate R v n = (v', o)) :
    Tight L z T v' := by
  obtain ⟨c, ob⟩ := v
  obtain ⟨c1, h1, h2, h3, -⟩ := L.trunc_ok n hv.1
  simp only [truncate, h1, Prod.mk.injEq] at h
  obtain ⟨rfl, rfl⟩ := h
  refine ⟨hT.truncate hv.1 ht.1 h1, fun b hb => ?_⟩
  cases ob with
  | none => simp at hb
  | some b0 =>
    simp only [Option.map_some, Option.some.injEq] at hb
    subst hb
    obtain ⟨h4, h5⟩ := ht.2 b0 rfl
    refine ⟨fun hz => by rw [Bitmap.truncate_offset]; exact h4 hz, ?_⟩
    simp only at h5 ⊢
    rw [Bitmap.truncate_bits, h3, List.length_take, h5]

theorem tight_extendLoop (hT : TightR L T) (s : Src (Option O)) : ∀ (c : R.C) (b : Bitmap)
    {v' : Validity R.C}, Mid (L := L) c b → T c → bitsT z b → extendLoop R c b s = (v', .ok) →
    Tight L z T v' := by
  induction hn : s.length using Nat.strongRecOn generalizing s with
  | ind n ih =>
  intro c b v' hm hc hb h
  rw [extendLoop.eq_def] at h
  generalize hE : R.extend c (values R.dflt (Src.takeChunk validityChunk s).1) = E at h
  obtain ⟨c1, o1⟩ := E
  cases o1 with
  | err => simp at h
  | panic => simp at h
  | ok =>
    simp only at h
    obtain ⟨e1, e2, -⟩ := L.ext_ok hm.inv hE
    have e3 := hT.extend hm.inv hc hE
    obtain ⟨f1, f2, f3, f4, -⟩ := Bitmap.extend_spec
      (s := Src.ofList (flags (Src.takeChunk validityChunk s).1)) hm.binv
    generalize hB : b.extend (Src.ofList (flags (Src.takeChunk validityChunk s).1)) = B at *
    obtain ⟨b1, o2⟩ := B
    cases o2 with
    | err => simp at h
    | panic => simp at h
    | ok =>
      simp only at h f1 f2 f4
      have f5 := (f4 trivial).1
      have hz : bitsT z b1 := fun h => by rw [f2]; exact hb h
      have hlen : (L.abs c1).length = b1.bits := by
        rw [abs_len_bits f5, e2, values_items]
        simp [hm.len, flags]
      split at h
      · simp only [Prod.mk.injEq, and_true] at h
        rw [← h]
        exact tight_mk e3 hz hlen
      · next hlt =>
        have h1 := takeChunk_length validityChunk s
        have hlt' : (Src.takeChunk validityChunk s).2.length < n := by
          simp only [flags, List.length_map, validityChunk] at *
          omega
        exact ih _ hlt' _ rfl c1 b1 ⟨e1, f1, hlen⟩ e3 hz h

theorem tight_extend (hT : TightR L T) {v v' : Validity R.C} {s : Src (Option O)}
    (hv : Inv L.toLawfulColl v) (ht : Tight L z T v) (h : extend R v s = (v', .ok)) :
    Tight L z T v' := by
  unfold extend at h
  cases hm : materialize R.toColl v with
  | panic => rw [hm] at h; simp at h
  | ok b =>
    rw [hm] at h
    obtain ⟨m1, -, -, -⟩ := materialize_ok hv hm
    obtain ⟨k1, k2⟩ := tight_materialize hv ht hm
    obtain ⟨c1, h1, h2, h3, -⟩ := L.trunc_ok b.len hv.1
    simp only [h1] at h
    obtain ⟨hmid, -⟩ := Mid.of_trunc m1 h2 h3
    exact tight_extendLoop hT s c1 b hmid (hT.truncate hv.1 ht.1 h1) k1 h

/-- `tryExtend` leaves the bitmap's offset. -/
theorem bits_tryExtend {w w' : World} {b b' : Bitmap} {s : Src Bool} {o : Out} (hb : b.Inv)
    (hz : bitsT z b) (h : b.tryExtend w s = (b', o, w')) : bitsT z b' := fun h' => by
  rw [(Bitmap.tryExtend_spec hb h).2.1]; exact hz h'

theorem tight_rollback (hT : TightR L T) {c : R.C} {b : Bitmap} {v' : Validity R.C} {n : Nat}
    {w w' : World} {o : Out} (hc : L.Inv c) (hx : T c) (hz : bitsT z b) (h1 : n ≤ (L.abs c).length)
    (h2 : n ≤ b.bits) (h : rollback R ⟨c, some b⟩ n w = (v', o, w')) : Tight L z T v' := by
  obtain ⟨c1, t1, t2, t3, -⟩ := L.trunc_ok n hc
  simp only [rollback, truncate, t1, Option.map_some, Prod.mk.injEq] at h
  obtain ⟨rfl, rfl, rfl⟩ := h
  refine tight_mk (hT.truncate hc hx t1) (fun h => by rw [Bitmap.truncate_offset]; exact hz h) ?_
  rw [t3, Bitmap.truncate_bits, List.length_take]
  omega

theorem tight_tryExtendLoop (hT : TightR L T) (len0 : Nat) (s : Src (Option O)) :
    ∀ (w : World) (c : R.C) (b : Bitmap) {v' : Validity R.C} {o : Out} {w' : World},
    Mid (L := L) c b → T c → bitsT z b → len0 ≤ b.bits →
    tryExtendLoop R len0 w c b s = (v', o, w') → o ≠ .panic → Tight L z T v' := by
  induction hn : s.length using Nat.strongRecOn generalizing s with
  | ind n ih =>
  intro w c b v' o w' hm hc hb hlen0 h ho
  rw [tryExtendLoop.eq_def] at h
  generalize hE : R.tryExtend w c (values R.dflt (Src.takeChunk validityChunk s).1) = E at h
  obtain ⟨c1, o1, w1⟩ := E
  cases o1 with
  | panic =>
    simp only [Prod.mk.injEq] at h
    exact absurd h.2.1.symm ho
  | err =>
    simp only at h
    obtain ⟨e1, e2⟩ := L.tryExt_err hm.inv hE
    have e3 := hT.tryExtend hm.inv hc hE (by simp)
    exact tight_rollback hT e1 e3 hb (by rw [e2, hm.len]; exact hlen0) hlen0 h
  | ok =>
    simp only at h
    obtain ⟨e1, e2, -⟩ := L.tryExt_ok hm.inv hE
    have e3 := hT.tryExtend hm.inv hc hE (by simp)
    generalize hB : b.tryExtend w1 (Src.ofList (flags (Src.takeChunk validityChunk s).1)) = B at *
    obtain ⟨b1, o2, w2⟩ := B
    obtain ⟨f1, f2, -, f4, f5, -⟩ := Bitmap.tryExtend_spec hm.binv hB
    have hz : bitsT z b1 := bits_tryExtend hm.binv hb hB
    cases o2 with
    | panic =>
      simp only [Prod.mk.injEq] at h
      exact absurd h.2.1.symm ho
    | err =>
      simp only at h
      have f6 := (f5 rfl).1
      refine tight_rollback hT e1 e3 hz ?_ ?_ h
      · rw [e2, List.length_append, hm.len]; omega
      · rw [abs_len_bits f6, Bitmap.abs_length]; exact hlen0
    | ok =>
      simp only at h
      have f6 := (f4 rfl).1
      have hlen : (L.abs c1).length = b1.bits := by
        rw [abs_len_bits f6, e2, values_items]
        simp [hm.len, flags]
      split at h
      · simp only [Prod.mk.injEq] at h
        rw [← h.1]
        exact tight_mk e3 hz hlen
      · next hlt =>
        have h1 := takeChunk_length validityChunk s
        have hlt' : (Src.takeChunk validityChunk s).2.length < n := by
          simp only [flags, List.length_map, validityChunk] at *
          omega
        refine ih _ hlt' _ rfl w2 c1 b1 ⟨e1, f1, hlen⟩ e3 hz ?_ h ho
        rw [abs_len_bits f6, List.length_append, Bitmap.abs_length]; omega

theorem tight_tryExtend (hT : TightR L T) {w w' : World} {v v' : Validity R.C} {s : Src (Option O)}
    {o : Out} (hv : Inv L.toLawfulColl v) (ht : Tight L z T v)
    (h : tryExtend R w v s = (v', o, w')) (ho : o ≠ .panic) : Tight L z T v' := by
  unfold tryExtend at h
  rw [len_ok hv] at h
  simp only at h
  generalize hm : tryMaterialize R.toColl w v = M at *
  obtain ⟨t, w1⟩ := M
  cases t with
  | panic =>
    simp only [Prod.mk.injEq] at h
    exact absurd h.2.1.symm ho
  | err =>
    simp only [Prod.mk.injEq] at h
    rw [← h.1]; exact ht
  | ok b =>
    obtain ⟨m1, m2, m3, -⟩ := tryMaterialize_ok hv hm
    obtain ⟨k1, k2⟩ := tight_tryMaterialize hv ht hm
    obtain ⟨c1, h1, h2, h3, -⟩ := L.trunc_ok (abs L.toLawfulColl v).length hv.1
    simp only [h1] at h
    rw [← m3] at h3
    obtain ⟨hmid, -⟩ := Mid.of_trunc m1 h2 h3
    exact tight_tryExtendLoop hT _ s w1 c1 b hmid (hT.truncate hv.1 ht.1 h1) k1 (by rw [m3]; exact Nat.le_refl _) h ho

theorem tight_reserve (hT : TightR L T) {v v' : Validity R.C} {n : Nat} {o : Out}
    (hv : Inv L.toLawfulColl v) (ht : Tight L z T v) (h : reserve R v n = (v', o)) :
    Tight L z T v' := by
  unfold reserve at h
  cases hm : materialize R.toColl v with
  | panic =>
    rw [hm] at h
    simp only [Prod.mk.injEq] at h
    rw [← h.1]; exact ht
  | ok b =>
    rw [hm] at h
    obtain ⟨m1, -, -, -⟩ := materialize_ok hv hm
    obtain ⟨k1, k2⟩ := tight_materialize hv ht hm
    simp only at h
    generalize hB : b.reserve n = B at *
    obtain ⟨b', o1⟩ := B
    obtain ⟨-, -, -, -, p5, -⟩ := Bitmap.reserve_ok (m1.2 b rfl).1 hB
    have hz : bitsT z b' := fun h => by rw [Bitmap.reserve_offset hB]; exact k1 h
    cases o1 with
    | ok =>
      simp only [Prod.mk.injEq] at h
      obtain ⟨rfl, rfl⟩ := h
      obtain ⟨-, c2, -, -⟩ := L.reserve_ok (n := n) hv.1 (Prod.ext rfl rfl)
      exact tight_mk (hT.reserve hv.1 ht.1 rfl) hz (by rw [c2, p5]; exact k2)
    | err =>
      simp only [Prod.mk.injEq] at h
      rw [← h.1]
      exact tight_mk ht.1 hz (by rw [p5]; exact k2)
    | panic =>
      simp only [Prod.mk.injEq] at h
      rw [← h.1]
      exact tight_mk ht.1 hz (by rw [p5]; exact k2)

theorem tight_tryReserve (hT : TightR L T) {w w' : World} {v v' : Validity R.C} {n : Nat} {o : Out}
    (hv : Inv L.toLawfulColl v) (ht : Tight L z T v) (h : tryReserve R w v n = (v', o, w')) :
    Tight L z T v' := by
  unfold tryReserve at h
  generalize hm : tryMaterialize R.toColl w v = M at *
  obtain ⟨t, w1⟩ := M
  cases t with
  | panic =>
    simp only [Prod.mk.injEq] at h
    rw [← h.1]; exact ht
  | err =>
    simp only [Prod.mk.injEq] at h
    rw [← h.1]; exact ht
  | ok b =>
    obtain ⟨m1, -, -, -⟩ := tryMaterialize_ok hv hm
    obtain ⟨k1, k2⟩ := tight_tryMaterialize hv ht hm
    simp only at h
    generalize hC : R.tryReserve w1 v.coll n = C at *
    obtain ⟨c, o1, w2⟩ := C
    obtain ⟨-, c2, -, -⟩ := L.tryReserve_ok hv.1 hC
    have c3 := hT.tryReserve hv.1 ht.1 hC
    cases o1 with
    | ok =>
      simp only [Prod.mk.injEq] at h
      rw [← h.1]
      generalize hB : b.tryReserve w2 n = B at *
      obtain ⟨b', o2, w3⟩ := B
      obtain ⟨-, -, -, -, p5, -⟩ := Bitmap.tryReserve_ok (m1.2 b rfl).1 hB
      exact tight_mk c3 (fun h => by rw [Bitmap.tryReserve_offset hB]; exact k1 h)
        (by rw [c2, p5]; exact k2)
    | err =>
      simp only [Prod.mk.injEq] at h
      rw [← h.1]
      exact tight_mk c3 k1 (by rw [c2]; exact k2)
    | panic =>
      simp only [Prod.mk.injEq] at h
      rw [← h.1]
      exact tight_mk c3 k1 (by rw [c2]; exact k2)

theorem tight_fromIterWith {mk : World → Src O → Try R.C × World}
    (hmk : ∀ {w w' s c}, mk w s = (.ok c, w') → L.Inv c ∧ (L.abs c).length = (R.pulled s).length)
    (hT : ∀ {w w' s c}, mk w s = (.ok c, w') → T c)
    {w w' : World} {s : Src (Option O)} {v : Validity R.C}
    (h : fromIterWith R mk w s = (.ok v, w')) : Tight L z T v := by
  unfold fromIterWith at h
  generalize hB : Bitmap.withCap (w.capHint s.items.length) = B at *
  cases B with
  | err => simp at h
  | panic => simp at h
  | ok b =>
    obtain ⟨q1, q2, q3, q4⟩ := Bitmap.withCap_ok hB
    simp only at h
    generalize hC : mk w.next (values R.dflt s) = C at *
    obtain ⟨t, w1⟩ := C
    cases t with
    | err => simp at h
    | panic => simp at h
    | ok c =>
      obtain ⟨c1, c2⟩ := hmk hC
      rw [values, L.pulled_map] at c2
      simp only at h
      generalize hP : pushBits b ((R.pulled s).map Option.isSome) = P at *
      obtain ⟨b', o⟩ := P
      obtain ⟨p1, p2, p3⟩ := pushBits_spec _ q1 hP
      cases o with
      | err => simp at h
      | panic => simp at h
      | ok =>
        simp only [Prod.mk.injEq, Try.ok.injEq] at h
        obtain ⟨rfl, rfl⟩ := h
        obtain ⟨p3, p4, p5⟩ := p3 rfl
        rw [q2, List.nil_append] at p4
        refine tight_mk (hT hC) (fun _ => by rw [p2]; exact Bitmap.withCap_offset hB) ?_
        rw [abs_len_bits p4, c2, List.length_map]

theorem bits_zero {b : Bitmap} (h : b.abs = []) : b.bits = 0 := by rw [abs_len_bits h]; rfl

theorem tight_withCap (hT : TightR L T) {n : Nat} {v : Validity R.C} (h : withCap R n = .ok v) :
    Tight L z T v := by
  unfold withCap at h
  split at h
  · next c hc =>
    split at h
    · next b hb =>
      simp only [Try.ok.injEq] at h
      subst h
      obtain ⟨-, q2, -, -⟩ := Bitmap.withCap_ok hb
      exact tight_mk (hT.withCap hc) (fun _ => Bitmap.withCap_offset hb)
        (by rw [(L.withCap_ok hc).2.1, bits_zero q2]; rfl)
    · cases h
    · cases h
  · cases h
  · cases h

theorem tight_tryWithCap (hT : TightR L T) {w w' : World} {n : Nat} {v : Validity R.C}
    (h : tryWithCap R w n = (.ok v, w')) : Tight L z T v := by
  unfold tryWithCap at h
  split at h
  · next c w1 hc =>
    split at h
    · next b w2 hb =>
      simp only [Prod.mk.injEq, Try.ok.injEq] at h
      rw [← h.1]
      obtain ⟨-, q2, -⟩ := Bitmap.tryWithCap_ok hb
      exact tight_mk (hT.tryWithCap hc) (fun _ => Bitmap.tryWithCap_offset hb)
        (by rw [(L.tryWithCap_ok hc).2.1, bits_zero q2]; rfl)
    · simp at h
    · simp at h
  · simp at h
  · simp at h

theorem tight_tryFromIter (hT : TightR L T) {w w' : World} {s : Src (Option O)} {v : Validity R.C}
    (h : tryFromIter R w s = (.ok v, w')) : Tight L z T v := by
  unfold tryFromIter at h
  split at h
  · next v1 w1 hv =>
    split at h
    · next v2 w2 he =>
      simp only [Prod.mk.injEq, Try.ok.injEq] at h
      rw [← h.1]
      exact tight_tryExtend hT (tryWithCap_ok (L := L) hv).1 (tight_tryWithCap hT hv) he (by simp)
    · simp at h
    · simp at h
  · simp at h
  · simp at h

end Validity

theorem validity_tight {O : Type} {R : Realloc O} {L : LawfulR R} {T : R.C → Prop} (z : Bool)
    (hT : TightR L T) : TightR (validityL L) (Validity.Tight L z T) where
  empty := ⟨hT.empty, fun b hb => by cases hb⟩
  withCap h := Validity.tight_withCap hT h
  fromIter h := Validity.tight_fromIterWith L.fromIter_any hT.fromIter h
  fromIterIn h := Validity.tight_fromIterWith L.fromIterIn_any hT.fromIterIn h
  tryWithCap h := Validity.tight_tryWithCap hT h
  tryFromIter h := Validity.tight_tryFromIter hT h
  extend hc ht h := Validity.tight_extend hT hc ht h
  tryExtend hc ht h ho := Validity.tight_tryExtend hT hc ht h ho
  reserve hc ht h := Validity.tight_reserve hT hc ht h
  tryReserve hc ht h := Validity.tight_tryReserve hT hc ht h
  truncate hc ht h := Validity.tight_truncate hT hc ht h

/-! ## Lists -/

namespace Offsets

variable {O : Type} {R : Realloc O} {L : LawfulR R} {T : R.C → Prop} {ow : OffW}

theorem tight_extendLoop (hT : TightR L T) : ∀ (s : Src (List O)) (d : R.C) (of : RVec Int) (p : Int)
    {c' : Offsets R.C}, L.Inv d → T d → extendLoop ow R d of p s = (c', .ok) → T c'.data
  | [], d, of, p, c', _, ht, h => by
    simp only [extendLoop, Prod.mk.injEq] at h
    rw [← h.1]; exact ht
  | .none :: s, d, of, p, c', _, ht, h => by
    simp only [extendLoop, Prod.mk.injEq] at h
    rw [← h.1]; exact ht
  | .panic :: s, d, of, p, c', _, ht, h => by simp [extendLoop] at h
  | .item r :: s, d, of, p, c', hd, ht, h => by
    simp only [extendLoop] at h
    split at h
    · generalize hV : R.reserve d r.length = V at *
      obtain ⟨d1, o1⟩ := V
      obtain ⟨v1, -⟩ := L.reserve_ok hd hV
      have v2 := hT.reserve hd ht hV
      cases o1 with
      | err => simp at h
      | panic => simp at h
      | ok =>
        simp only at h
        generalize hE : R.extend d1 (Src.ofList r) = E at *
        obtain ⟨d2, o2⟩ := E
        cases o2 with
        | err => simp at h
        | panic => simp at h
        | ok =>
          simp only at h
          split at h
          · exact tight_extendLoop hT s d2 _ _ (L.ext_ok v1 hE).1 (hT.extend v1 v2 hE) h
          · next ho _ =>
            simp only [Prod.mk.injEq] at h
            exact absurd h.2 (by rintro rfl; exact ho rfl)
    · simp at h

theorem tight_extend (hT : TightR L T) {c c' : Offsets R.C} {s : Src (List O)}
    (hc : Inv L.toLawfulColl ow c) (ht : T c.data) (h : extend ow R c s = (c', .ok)) : T c'.data := by
  unfold extend at h
  rw [last_ok hc.2.items] at h
  simp only [asUsize_ofNat] at h
  obtain ⟨d, h1, h2, -⟩ := L.trunc_ok (abs L.toLawfulColl c).flatten.length hc.2.inv
  simp only [h1] at h
  exact tight_extendLoop hT s d _ _ h2 (hT.truncate hc.2.inv ht h1) h

theorem tight_rollback (hT : TightR L T) {d : R.C} {of : RVec Int} {n m : Nat} {w w' : World}
    {c' : Offsets R.C} {o : Out} (hd : L.Inv d) (ht : T d)
    (h : rollback R d of n m w = (c', o, w')) : T c'.data := by
  unfold rollback at h
  split at h
  · simp only [Prod.mk.injEq] at h
    rw [← h.1]; exact ht
  · split at h <;> next e => (simp only [Prod.mk.injEq] at h; rw [← h.1]; exact hT.truncate hd ht e)

theorem tight_tryExtendLoop (hT : TightR L T) (n m : Nat) : ∀ (s : Src (List O)) (w : World) (d : R.C)
    (of : RVec Int) (p : Int) {c' : Offsets R.C} {o : Out} {w' : World}, L.Inv d → T d →
    tryExtendLoop ow R n m w d of p s = (c', o, w') → o ≠ .panic → T c'.data
  | [], w, d, of, p, c', o, w', _, ht, h, _ => by
    simp only [tryExtendLoop, Prod.mk.injEq] at h
    rw [← h.1]; exact ht
  | .none :: s, w, d, of, p, c', o, w', _, ht, h, _ => by
    simp only [tryExtendLoop, Prod.mk.injEq] at h
    rw [← h.1]; exact ht
  | .panic :: s, w, d, of, p, c', o, w', _, ht, h, ho => by
    simp only [tryExtendLoop, Prod.mk.injEq] at h
    exact absurd h.2.1.symm ho
  | .item r :: s, w, d, of, p, c', o, w', hd, ht, h, ho => by
    simp only [tryExtendLoop] at h
    split at h
    · simp only [Prod.mk.injEq] at h
      rw [← h.1]; exact ht
    · split at h
      · generalize hE : R.tryExtend w d (Src.ofList r) = E at *
        obtain ⟨d1, o1, w1⟩ := E
        cases o1 with
        | panic =>
          simp only [Prod.mk.injEq] at h
          exact absurd h.2.1.symm ho
        | err => exact tight_rollback hT (L.tryExt_err hd hE).1 (hT.tryExtend hd ht hE (by simp)) h
        | ok =>
          have i1 := (L.tryExt_ok hd hE).1
          have i2 := hT.tryExtend hd ht hE (by simp)
          simp only at h
          split at h
          · exact tight_tryExtendLoop hT n m s _ d1 _ _ i1 i2 h ho
          · exact tight_rollback hT i1 i2 h
          · simp only [Prod.mk.injEq] at h
            exact absurd h.2.1.symm ho
      · exact tight_rollback hT hd ht h

theorem tight_tryExtend (hT : TightR L T) {w w' : World} {c c' : Offsets R.C} {s : Src (List O)}
    {o : Out} (hc : Inv L.toLawfulColl ow c) (ht : T c.data)
    (h : tryExtend ow R w c s = (c', o, w')) (ho : o ≠ .panic) : T c'.data := by
  unfold tryExtend at h
  rw [last_ok hc.2.items, hc.len_ok] at h
  simp only [asUsize_ofNat] at h
  obtain ⟨d, h1, h2, -⟩ := L.trunc_ok (abs L.toLawfulColl c).flatten.length hc.2.inv
  simp only [h1] at h
  exact tight_tryExtendLoop hT _ _ s w d _ _ h2 (hT.truncate hc.2.inv ht h1) h ho

theorem tight_withCap (hT : TightR L T) {n : Nat} {c : Offsets R.C} (h : withCap ow R n = .ok c) :
    T c.data := by
  unfold withCap at h
  split at h
  · cases h
  · cases h
  · next d hd =>
    repeat' split at h
    all_goals cases h
    exact hT.withCap hd

theorem tight_tryWithCap (hT : TightR L T) {w w' : World} {n : Nat} {c : Offsets R.C}
    (h : tryWithCap ow R w n = (.ok c, w')) : T c.data := by
  unfold tryWithCap at h
  split at h
  · cases h
  · split at h
    · cases h
    · cases h
    · next d _ hd =>
      repeat' split at h
      all_goals cases h
      exact hT.tryWithCap hd

theorem tight_fromIter (hT : TightR L T) {s : Src (List O)} {c : Offsets R.C}
    (h : fromIter ow R s = .ok c) : T c.data := by
  unfold fromIter at h
  split at h
  · next e =>
    cases h
    exact tight_extend hT (empty_mid (L := L)).1.toInv.1 hT.empty e
  · cases h

theorem tight_fromIterIn (hT : TightR L T) {w w' : World} {s : Src (List O)} {c : Offsets R.C}
    (h : fromIterIn ow R w s = (.ok c, w')) : T c.data := by
  unfold fromIterIn at h
  split at h
  · next c0 h0 =>
    split at h
    · next e =>
      cases h
      exact tight_extend hT (withCap_ok (L := L) h0).1.toInv.1 (tight_withCap hT h0) e
    · cases h
  · cases h
  · cases h

theorem tight_tryFromIter (hT : TightR L T) {w w' : World} {s : Src (List O)} {c : Offsets R.C}
    (h : tryFromIter ow R w s = (.ok c, w')) : T c.data := by
  unfold tryFromIter at h
  split at h
  · next c0 w0 h0 =>
    split at h
    · next e =>
      cases h
      exact tight_tryExtend hT (tryWithCap_ok (L := L) h0).1.toInv.1 (tight_tryWithCap hT h0) e (by simp)
    · cases h
    · cases h
  · cases h
  · cases h

theorem tight_reserve (hT : TightR L T) {c c' : Offsets R.C} {n : Nat} {o : Out}
    (hc : Inv L.toLawfulColl ow c) (ht : T c.data) (h : reserve ow R c n = (c', o)) : T c'.data := by
  unfold reserve at h
  split at h <;> next e => (simp only [Prod.mk.injEq] at h; rw [← h.1]; exact hT.reserve hc.2.inv ht e)

theorem tight_tryReserve (hT : TightR L T) {w w' : World} {c c' : Offsets R.C} {n : Nat} {o : Out}
    (hc : Inv L.toLawfulColl ow c) (ht : T c.data) (h : tryReserve ow R w c n = (c', o, w')) :
    T c'.data := by
  unfold tryReserve at h
  split at h <;>
    next e => (simp only [Prod.mk.injEq] at h; rw [← h.1]; exact hT.tryReserve hc.2.inv ht e)

theorem tight_truncate (hT : TightR L T) {c c' : Offsets R.C} {n : Nat} {o : Out}
    (hc : Inv L.toLawfulColl ow c) (ht : T c.data) (h : truncate R c n = (c', o)) : T c'.data := by
  unfold truncate at h
  repeat' split at h
  all_goals (simp only [Prod.mk.injEq] at h; rw [← h.1])
  all_goals first | exact ht | exact hT.truncate hc.2.inv ht rfl

end Offsets

open Offsets in
theorem offsets_tight {O : Type} {R : Realloc O} {L : LawfulR R} {T : R.C → Prop} (ow : OffW)
    (hT : TightR L T) : TightR (offsetsL ow L) fun c => T c.data where
  empty := hT.empty
  withCap h := tight_withCap hT h
  fromIter h := tight_fromIter hT (Prod.mk.inj h).1
  fromIterIn h := tight_fromIterIn hT h
  tryWithCap h := tight_tryWithCap hT h
  tryFromIter h := tight_tryFromIter hT h
  extend hc ht h := tight_extend hT hc ht h
  tryExtend hc ht h ho := tight_tryExtend hT hc ht h ho
  reserve hc ht h := tight_reserve hT hc ht h
  tryReserve hc ht h := tight_tryReserve hT hc ht h
  truncate hc ht h := tight_truncate hT hc ht h

/-! ## Arrays -/

/-- Nullable or not. -/
def nullT {O : Type} {R : Realloc O} (L : LawfulR R) (z : Bool) (T : R.C → Prop) :
    (nl : Bool) → (nullR nl R).C → Prop
  | false => T
  | true => Validity.Tight L z T

theorem null_tight {O : Type} (nl : Bool) {R : Realloc O} {L : LawfulR R} {T : R.C → Prop} (z : Bool)
    (hT : TightR L T) : TightR (nullL nl L) (nullT L z T nl) :=
  match nl with
  | false => hT
  | true => validity_tight z hT

/-- No leftovers at any depth. -/
def baseT (z : Bool) : (t : Ty) → (h : t.WF) → (baseR t).C → Prop
  | .bool, _ => bitsT z
  | .prim _, _ => fun _ => True
  | .fsl _ nl t, h => fun (c : Flatten (nullR nl (baseR t)).C) =>
    nullT (baseL t h.2) z (baseT z t h.2) nl c.child
  | .vsl _ nl t, h => fun (c : Offsets (nullR nl (baseR t)).C) =>
    nullT (baseL t h) z (baseT z t h) nl c.data

theorem base_tight (z : Bool) : (t : Ty) → (h : t.WF) → TightR (baseL t h) (baseT z t h)
  | .bool, _ => bitmap_tight z
  | .prim p, _ => vec_tight p.lim_le 0#(8 * p.size)
  | .fsl _ nl t, h => flatten_tight h.1 (null_tight nl z (base_tight z t h.2))
  | .vsl ow nl t, h => offsets_tight ow (null_tight nl z (base_tight z t h))

/-- No leftovers at any depth. -/
def arrayT (z nl : Bool) (t : Ty) (h : t.WF) : (arrayR nl t).C → Prop :=
  nullT (baseL t h) z (baseT z t h) nl

theorem array_tight (z nl : Bool) (t : Ty) (h : t.WF) : TightR (arrayL nl t h) (arrayT z nl t h) :=
  null_tight nl z (base_tight z t h)

end Narrow
