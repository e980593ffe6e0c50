import Verif.Model.Raw
import Verif.Spec.Raw
import Verif.Proof.ImportInv

/-!
# Importing from memory is importing from the tree of structures it holds
-/

namespace Narrow.Ffi.Raw

open Narrow.Ffi Narrow.Ffi.Spec

variable {m : Mem}

/-! ## Fields -/

theorem word_of_holds {p v : Nat} (h : Holds m p v) : word m p = some (BitVec.ofNat 64 v) := by
  obtain ⟨hv, h⟩ := h
  have h0 : m.byte p = _ := h 0 (by omega)
  have h1 : m.byte (p + 1) = _ := h 1 (by omega)
  have h2 : m.byte (p + 1 + 1) = _ := h 2 (by omega)
  have h3 : m.byte (p + 1 + 1 + 1) = _ := h 3 (by omega)
  have h4 : m.byte (p + 1 + 1 + 1 + 1) = _ := h 4 (by omega)
  have h5 : m.byte (p + 1 + 1 + 1 + 1 + 1) = _ := h 5 (by omega)
  have h6 : m.byte (p + 1 + 1 + 1 + 1 + 1 + 1) = _ := h 6 (by omega)
  have h7 : m.byte (p + 1 + 1 + 1 + 1 + 1 + 1 + 1) = _ := h 7 (by omega)
  simp only [word, Mem.read, h0, h1, h2, h3, h4, h5, h6, h7, Option.bind_some, Option.map_some,
    fromBytes, List.foldr, Option.some.injEq]
  apply BitVec.eq_of_toNat_eq
  simp only [BitVec.toNat_ofNat]
  omega

theorem word_toNat {p : Nat} {v : BitVec 64} (h : Holds m p v.toNat) : word m p = some v := by
  rw [word_of_holds h, BitVec.ofNat_toNat, BitVec.setWidth_eq]

theorem word_addr {p v : Nat} (h : Holds m p v) : ∃ w, word m p = some w ∧ w.toNat = v :=
  ⟨_, word_of_holds h, by rw [BitVec.toNat_ofNat, Nat.mod_eq_of_lt h.1]⟩

/-- What is read of a structure described by `a`. -/
structure RepA (m : Mem) (r : RawArray) (a : CArray) : Prop where
  length : r.length = a.length
  nullCount : r.nullCount = a.nullCount
  offset : r.offset = a.offset
  nBuffers : r.nBuffers = a.nBuffers
  nChildren : r.nChildren = a.nChildren
  buffers0 : r.buffers = 0 ↔ a.buffers = none
  buffers : ∀ l, a.buffers = some l → ∀ i (h : i < l.length), Holds m (r.buffers + 8 * i) l[i]
  children0 : r.children = 0 ↔ a.children = none
  dictionary : r.dictionary ≠ 0 ↔ a.dictionary = true
  release : r.release = 0 ↔ a.release = none

theorem holds_inj {p v v' : Nat} (h : Holds m p v) (h' : Holds m p v') : v = v' := by
  have := (word_of_holds h).symm.trans (word_of_holds h')
  have := congrArg BitVec.toNat (Option.some.inj this)
  simpa only [BitVec.toNat_ofNat, Nat.mod_eq_of_lt h.1, Nat.mod_eq_of_lt h'.1] using this

theorem arrayAt_fields {d p : Nat} {a : CArray} (h : ArrayAt m d p a) : ArrayFields m p a := by
  cases d with
  | zero => exact h
  | succ d => exact h.1

theorem schemaAt_fields {d p : Nat} {s : CSchema} (h : SchemaAt m d p s) : SchemaFields m p s := by
  cases d with
  | zero => exact h
  | succ d => exact h.1

theorem readArray_of {p : Nat} {a : CArray} (h : ArrayFields m p a) :
    ∃ r, readArray m p = some r ∧ RepA m r a ∧ Holds m (p + 48) r.children := by
  obtain ⟨h1, h2, h3, h4, h5, h6, ⟨q7, h7, e7⟩, ⟨q8, h8, e8⟩, ⟨q9, h9, e9⟩, ⟨q10, h10⟩⟩ := h
  have hb : ∃ q6, Holds m (p + 40) q6 ∧ (q6 = 0 ↔ a.buffers = none) ∧
      ∀ l, a.buffers = some l → ∀ i (h : i < l.length), Holds m (q6 + 8 * i) l[i] := by
    cases hb : a.buffers with
    | none => rw [hb] at h6; exact ⟨0, h6, by simp, by simp⟩
    | some l =>
      rw [hb] at h6
      obtain ⟨q, hq, h, h'⟩ := h6
      exact ⟨q, h, by simp [hq], by rintro l' ⟨⟩; exact h'⟩
  obtain ⟨q6, h6, e6, f6⟩ := hb
  obtain ⟨w6, k6, l6⟩ := word_addr h6
  obtain ⟨w7, k7, l7⟩ := word_addr h7
  obtain ⟨w8, k8, l8⟩ := word_addr h8
  obtain ⟨w9, k9, l9⟩ := word_addr h9
  obtain ⟨w10, k10, l10⟩ := word_addr h10
  refine ⟨⟨a.length, a.nullCount, a.offset, a.nBuffers, a.nChildren, q6, q7, q8, q9, q10⟩, ?_, ?_, h7⟩
  · simp only [readArray, word_toNat h1, word_toNat h2, word_toNat h3, word_toNat h4, word_toNat h5,
      k6, k7, k8, k9, k10, l6, l7, l8, l9, l10, Option.bind_some]
  · refine ⟨rfl, rfl, rfl, rfl, rfl, e6, f6, ?_, e8, ?_⟩
    · show q7 = 0 ↔ _
      constructor
      · intro h
        cases hc : a.children with
        | none => rfl
        | some l => exact absurd h (e7.2 (by simp [hc]))
      · intro h
        cases q7 with
        | zero => rfl
        | succ n => exact absurd h (e7.1 (by omega))
    · show q9 = 0 ↔ _
      constructor
      · intro h
        cases hc : a.release with
        | none => rfl
        | some l => exact absurd h (e9.2 (by simp [hc]))
      · intro h
        cases q9 with
        | zero => rfl
        | succ n => exact absurd h (e9.1 (by omega))

theorem cstrIn_of {s : List Byte} : ∀ {p fuel : Nat}, StringAt m p s → s.length < fuel →
    cstrIn m fuel p = some s := by
  induction s with
  | nil =>
    intro p fuel h hf
    obtain ⟨fuel, rfl⟩ : ∃ k, fuel = k + 1 := ⟨fuel - 1, by simp at hf; omega⟩
    have : m.byte p = some 0#8 := h.2
    simp [cstrIn, this]
  | cons b s ih =>
    intro p fuel h hf
    obtain ⟨fuel, rfl⟩ : ∃ k, fuel = k + 1 := ⟨fuel - 1, by simp at hf; omega⟩
    obtain ⟨h0, h1⟩ := h.1 0 (by simp)
    have h1 : m.byte p = some b := h1
    have h0 : b ≠ 0#8 := h0
    have hs : StringAt m (p + 1) s := by
      refine ⟨fun i hi => ?_, ?_⟩
      · have := h.1 (i + 1) (by simp; omega)
        simpa [Nat.add_assoc, Nat.add_comm 1 i] using this
      · have := h.2
        rw [List.length_cons] at this
        rw [Nat.add_assoc, Nat.add_comm 1]
        exact this
    simp [cstrIn, h1, h0, ih hs (by simp at hf; omega)]

theorem cstr_of {p : Nat} {s : List Byte} (h : StringAt m p s) : cstr m p = some s := by
  refine cstrIn_of h ?_
  have := h.2
  rcases Nat.lt_or_ge s.length byteMax with h' | h'
  · exact h'
  · rw [m.high (p + s.length) (by omega)] at this
    cases this

/-- What is read of a schema described by `s`. -/
structure RepS (m : Mem) (r : RawSchema) (s : CSchema) : Prop where
  format0 : r.format = 0 ↔ s.format = none
  format : ∀ f, s.format = some f → cstr m r.format = some f
  flags : r.flags = s.flags
  nChildren : r.nChildren = s.nChildren
  children0 : r.children = 0 ↔ s.children = none
  dictionary : r.dictionary ≠ 0 ↔ s.dictionary = true
  release : r.release = 0 ↔ s.release = none

theorem optString_of {p : Nat} {s : Option (List Byte)} (h : OptString m p s) :
    ∃ q, Holds m p q ∧ (q = 0 ↔ s = none) ∧ ∀ f, s = some f → StringAt m q f := by
  cases s with
  | none => exact ⟨0, h, by simp, by simp⟩
  | some f =>
    obtain ⟨q, hq, h, h'⟩ := h
    exact ⟨q, h, by simp [hq], by rintro f' ⟨⟩; exact h'⟩

theorem readSchema_of {p : Nat} {s : CSchema} (h : SchemaFields m p s) :
    ∃ r, readSchema m p = some r ∧ RepS m r s ∧ Holds m (p + 40) r.children := by
  obtain ⟨h1, h2, ⟨q3, h3, _⟩, h4, h5, ⟨q6, h6, e6⟩, ⟨q7, h7, e7⟩, ⟨q8, h8, e8⟩, ⟨q9, h9⟩⟩ := h
  obtain ⟨q1, h1, e1, f1⟩ := optString_of h1
  obtain ⟨q2, h2, _, _⟩ := optString_of h2
  obtain ⟨w1, k1, l1⟩ := word_addr h1
  obtain ⟨w2, k2, l2⟩ := word_addr h2
  obtain ⟨w3, k3, l3⟩ := word_addr h3
  obtain ⟨w6, k6, l6⟩ := word_addr h6
  obtain ⟨w7, k7, l7⟩ := word_addr h7
  obtain ⟨w8, k8, l8⟩ := word_addr h8
  obtain ⟨w9, k9, l9⟩ := word_addr h9
  refine ⟨⟨q1, q2, q3, s.flags, s.nChildren, q6, q7, q8, q9⟩, ?_, ?_, h6⟩
  · simp only [readSchema, word_toNat h4, word_toNat h5, k1, k2, k3, k6, k7, k8, k9, l1, l2, l3, l6,
      l7, l8, l9, Option.bind_some]
  · refine ⟨e1, fun f hf => cstr_of (f1 f hf), rfl, rfl, ?_, e7, ?_⟩
    · show q6 = 0 ↔ _
      constructor
      · intro h
        cases hc : s.children with
        | none => rfl
        | some l => exact absurd h (e6.2 (by simp [hc]))
      · intro h
        cases q6 with
        | zero => rfl
        | succ n => exact absurd h (e6.1 (by omega))
    · show q8 = 0 ↔ _
      constructor
      · intro h
        cases hc : s.release with
        | none => rfl
        | some l => exact absurd h (e8.2 (by simp [hc]))
      · intro h
        cases q8 with
        | zero => rfl
        | succ n => exact absurd h (e8.1 (by omega))

/-! ## The first entries of tables -/

theorem table_of {l : List Nat} {k : Nat} : ∀ {p : Nat}, k ≤ l.length →
    (∀ i (h : i < l.length), Holds m (p + 8 * i) l[i]) → table m p k = some (l.take k) := by
  induction k generalizing l with
  | zero => intros; simp [table]
  | succ k ih =>
    intro p hk h
    cases l with
    | nil => simp at hk
    | cons a l =>
      have h0 : Holds m p a := h 0 (by simp)
      obtain ⟨w, hw, e⟩ := word_addr h0
      have ht := ih (l := l) (p := p + 8) (by simpa using hk) (fun i hi => by
        have := h (i + 1) (by simp; omega)
        rw [Nat.mul_add, Nat.mul_one, Nat.add_comm (8 * i) 8, ← Nat.add_assoc] at this
        exact this)
      simp [table, hw, ht, e]

/-! ## Refinement: equal unless the tree of structures lacks something -/

/-- `x` is `y`, unless `y` is undefined. -/
def Refines {α : Type} (x y : Imp α) : Prop := y = .ub ∨ x = y

theorem Refines.refl {α : Type} (x : Imp α) : Refines x x := .inr rfl

theorem Refines.bind {α β : Type} {x y : Imp α} {f g : α → Imp β} (h : Refines x y)
    (hf : ∀ a, y = .ok a → Refines (f a) (g a)) : Refines (x.bind f) (y.bind g) := by
  rcases h with rfl | rfl
  · exact .inl rfl
  · cases x with
    | ok a => exact hf a rfl
    | err e => exact .inr rfl
    | panic => exact .inr rfl
    | ub => exact .inr rfl

theorem entry_cases {α : Type} (tb : Option (List α)) (i : Nat) :
    entry tb i = .ub ∨ ∃ l, ∃ h : i < l.length, tb = some l ∧ entry tb i = .ok l[i] := by
  cases tb with
  | none => exact .inl rfl
  | some l =>
    rcases Nat.lt_or_ge i l.length with h | h
    · refine .inr ⟨l, h, rfl, ?_⟩
      simp [entry, h, Imp.ofMem]
    · refine .inl ?_
      simp [entry, h, Imp.ofMem]

/-- What `validate` says, with a format that is a string. -/
theorem validate_eq {nl : Bool} {t : Ty} {r : RawArray} {rs : RawSchema} {a : CArray} {s : CSchema}
    (ha : RepA m r a) (hs : RepS m rs s) :
    validate m nl t r rs =
      match Narrow.Ffi.validate nl t a s with
      | .ok n => .ok n
      | .error e => .err e := by
  unfold validate Narrow.Ffi.validate
  rw [ha.length, ha.nullCount, ha.offset, ha.nBuffers, ha.nChildren, hs.flags, hs.nChildren]
  simp only [CArray.isReleased, CSchema.isReleased, Option.isNone_iff_eq_none, ← ha.release,
    ← hs.release, ← ha.buffers0, ← ha.children0, ← hs.children0, ← ha.dictionary, ← hs.dictionary]
  by_cases h1 : r.release = 0
  · simp only [h1, if_true]
  simp only [h1, if_false]
  by_cases h2 : rs.release = 0
  · simp only [h2, if_true]
  simp only [h2, if_false]
  cases hf : s.format with
  | none => simp only [hs.format0.2 hf, if_true]
  | some f =>
    have : rs.format ≠ 0 := fun e => by rw [hs.format0.1 e] at hf; cases hf
    simp only [this, if_false, hs.format f hf, Imp.ofMem, Imp.bind]
    by_cases h3 : (!matchesFormat t f) = true
    · rw [if_pos h3, if_pos h3]
    rw [if_neg h3, if_neg h3]
    by_cases h4 : s.flags &&& flagNullable ≠ expectedFlags nl
    · rw [if_pos h4, if_pos h4]
    rw [if_neg h4, if_neg h4]
    cases toUsize a.length with
    | none => rfl
    | some n =>
      dsimp only
      by_cases h5 : a.offset ≠ 0#64
      · rw [if_pos h5, if_pos h5]
      rw [if_neg h5, if_neg h5]
      by_cases h6 : a.nullCount.toInt < -1 ∨ a.nullCount.toInt > a.length.toInt ∨
          (expectedFlags nl = 0#64 ∧ a.nullCount.toInt > 0)
      · rw [if_pos h6, if_pos h6]
      rw [if_neg h6, if_neg h6]
      by_cases h7 : a.nBuffers ≠ bufferCount t
      · rw [if_pos h7, if_pos h7]
      rw [if_neg h7, if_neg h7]
      by_cases h8 : a.nChildren ≠ childCount t ∨ s.nChildren ≠ childCount t
      · rw [if_pos h8, if_pos h8]
      rw [if_neg h8, if_neg h8]
      by_cases h9 : r.dictionary ≠ 0 ∨ rs.dictionary ≠ 0
      · rw [if_pos h9, if_pos h9]
      rw [if_neg h9, if_neg h9]
      by_cases h10 : bufferCount t ≠ 0#64 ∧ r.buffers = 0
      · rw [if_pos h10, if_pos h10]
      rw [if_neg h10, if_neg h10]
      by_cases h11 : childCount t ≠ 0#64 ∧ r.children = 0
      · rw [if_pos h11, if_pos h11]
      rw [if_neg h11, if_neg h11]
      by_cases h12 : childCount t ≠ 0#64 ∧ rs.children = 0
      · rw [if_pos h12, if_pos h12]
      rw [if_neg h12, if_neg h12]

/-! ## The parts of the importer -/

theorem take_get {l : List Nat} {i k : Nat} (hi : i < l.length) (hk : i < k) :
    (l.take k)[i]? = some l[i] := by
  rw [List.getElem?_take, if_pos hk, List.getElem?_eq_getElem hi]

theorem wrap_refines {r : RawArray} {a : CArray} (ha : RepA m r a) {O : Type} {R : Realloc O} {P : Type}
    {c : R.C} {x : P} (nl : Bool) {k : Nat} (hk : toUsize a.nBuffers = some k) (h0 : k ≠ 0)
    (hl : ∀ l, a.buffers = some l → 0 < l.length → k ≤ l.length) :
    Refines (wrap m r R c x nl) (Narrow.Ffi.wrap m a R c x nl) := by
  cases nl with
  | false => exact .refl _
  | true =>
    unfold wrap Narrow.Ffi.wrap
    rcases entry_cases a.buffers 0 with he | ⟨l, h, hb, he⟩
    · exact .inl (by rw [he]; rfl)
    · right
      rw [he, ha.nBuffers, hk, ha.nullCount]
      dsimp only
      rw [if_neg h0, table_of (hl l hb h) (ha.buffers l hb)]
      dsimp only [Imp.ofMem, Imp.bind]
      rw [take_get h (Nat.pos_of_ne_zero h0)]

theorem bool_refines {r : RawArray} {a : CArray} (ha : RepA m r a) {n : Nat} (nl : Bool)
    (hn : a.nBuffers = 2#64) :
    Refines (importBool m r n nl) (Narrow.Ffi.importBool m a n nl) := by
  unfold importBool Narrow.Ffi.importBool
  rcases entry_cases a.buffers 1 with he | ⟨l, h, hb, he⟩
  · exact .inl (by rw [he]; rfl)
  · rw [he, table_of (k := 2) h (ha.buffers l hb)]
    have hw : ∀ (b : Bitmap) (q : Nat), Refines (wrap m r bitmapR (P := Nat) b q nl)
        (Narrow.Ffi.wrap m a bitmapR (P := Nat) b q nl) := fun b q =>
      wrap_refines ha nl (k := 2) (by rw [hn]; rfl) (by decide)
        (fun l' hl' _ => by rw [hb] at hl'; cases hl'; exact h)
    dsimp only [Imp.ofMem, Imp.bind]
    rw [take_get h (by decide)]
    refine Refines.bind (.inr ?_) (fun p _ => Refines.bind (.refl _) fun b _ => hw _ _)
    rfl

theorem prim_refines {r : RawArray} {a : CArray} (ha : RepA m r a) {n : Nat} (nl : Bool) {p : Prim}
    (hn : a.nBuffers = 2#64) :
    Refines (importPrim m r n nl p) (Narrow.Ffi.importPrim m a n nl p) := by
  unfold importPrim Narrow.Ffi.importPrim
  rcases entry_cases a.buffers 1 with he | ⟨l, h, hb, he⟩
  · exact .inl (by rw [he]; rfl)
  · rw [he, table_of (k := 2) h (ha.buffers l hb)]
    dsimp only [Imp.ofMem, Imp.bind]
    rw [take_get h (by decide)]
    refine Refines.bind (.inr rfl) (fun q _ => ?_)
    exact wrap_refines ha nl (k := 2) (by rw [hn]; rfl) (by decide)
        (fun l' hl' _ => by rw [hb] at hl'; cases hl'; exact h)

theorem fsl_refines {r : RawArray} {a : CArray} (ha : RepA m r a) {n : Nat} (nl : Bool) {w : Nat}
    {nl' : Bool} {t : Ty} (hn : a.nBuffers = 1#64) {x y : Imp ((arrayR nl' t).C × APlace nl' t)}
    (h : Refines x y) :
    Refines (importFsl m r n nl w nl' t x) (Narrow.Ffi.importFsl m a n nl w nl' t y) := by
  unfold importFsl Narrow.Ffi.importFsl
  by_cases hw : w = 0
  · rw [if_pos hw, if_pos hw]; exact .refl _
  rw [if_neg hw, if_neg hw]
  refine Refines.bind h fun c _ => Refines.bind (.refl _) fun k _ => ?_
  by_cases hc : checkedMul n w ≠ some k
  · rw [if_pos hc, if_pos hc]; exact .refl _
  rw [if_neg hc, if_neg hc]
  refine Refines.bind (.refl _) fun q _ => Refines.bind (.refl _) fun f _ => ?_
  exact wrap_refines ha nl (k := 1) (by rw [hn]; rfl) (by decide) (fun l' _ h => h)

theorem vsl_refines {r : RawArray} {a : CArray} (ha : RepA m r a) {n : Nat} (nl : Bool) {ow : OffW}
    {nl' : Bool} {t : Ty} (hn : a.nBuffers = 2#64) {x y : Imp ((arrayR nl' t).C × APlace nl' t)}
    (h : Refines x y) :
    Refines (importVsl m r n nl ow nl' t x) (Narrow.Ffi.importVsl m a n nl ow nl' t y) := by
  unfold importVsl Narrow.Ffi.importVsl
  rw [ha.length]
  cases checkedAdd n 1 with
  | none => exact .refl _
  | some k =>
    dsimp only
    rcases entry_cases a.buffers 1 with he | ⟨l, hl, hb, he⟩
    · exact .inl (by rw [he]; rfl)
    · rw [he, table_of (k := 2) hl (ha.buffers l hb)]
      dsimp only [Imp.ofMem, Imp.bind]
      rw [take_get hl (by decide)]
      dsimp only
      by_cases h0 : l[1] = 0
      · rw [if_pos h0, if_pos h0]; exact .refl _
      rw [if_neg h0, if_neg h0]
      by_cases h1 : l[1] % offAlign ow ≠ 0
      · rw [if_pos h1, if_pos h1]; exact .refl _
      rw [if_neg h1, if_neg h1]
      refine Refines.bind (.refl _) fun v _ => Refines.bind h fun c _ =>
        Refines.bind (.refl _) fun q _ => ?_
      cases q with
      | error e => exact .refl _
      | ok o =>
        exact wrap_refines ha nl (k := 2) (by rw [hn]; rfl) (by decide)
          (fun l' hl' _ => by rw [hb] at hl'; cases hl'; exact hl)

theorem table_one {p q : Nat} (h : Holds m p q) : table m p 1 = some [q] := by
  obtain ⟨w, hw, e⟩ := word_addr h
  simp [table, hw, e]

theorem child_refines {d p ps : Nat} {a : CArray} {s : CSchema} {r : RawArray} {rs : RawSchema}
    {α : Type} {f : RawArray → RawSchema → Imp α} {g : CArray → CSchema → Imp α}
    (hp : Holds m (p + 48) r.children) (hps : Holds m (ps + 40) rs.children)
    (ha : ArrayAt m (d + 1) p a) (hs : SchemaAt m (d + 1) ps s)
    (hf : ∀ p ps a s r rs, ArrayAt m d p a → SchemaAt m d ps s → readArray m p = some r →
      readSchema m ps = some rs → Refines (f r rs) (g a s)) :
    Refines (importChild m r rs 1#64 f) (Narrow.Ffi.importChild a s g) := by
  unfold importChild Narrow.Ffi.importChild
  rcases entry_cases a.children 0 with he | ⟨l, hl, hb, he⟩
  · exact .inl (by rw [he]; rfl)
  have h1 : toUsize 1#64 = some 1 := rfl
  rw [he, h1]
  have ha2 := ha.2
  rw [hb] at ha2
  obtain ⟨q, _, hq, hc⟩ := ha2
  obtain rfl := holds_inj hp hq
  have hc := hc 0 hl
  rw [Nat.mul_zero, Nat.add_zero] at hc
  dsimp only
  rw [if_neg (by decide)]
  revert hc
  cases l[0] with
  | none =>
    intro hc
    rw [table_one hc]
    exact .refl _
  | some child =>
    rintro ⟨u, hu, hc, hchild⟩
    obtain ⟨cr, hcr, _, _⟩ := readArray_of (arrayAt_fields hchild)
    rw [table_one hc]
    dsimp only [Imp.ofMem, Imp.bind]
    rw [List.getElem?_cons_zero]
    dsimp only
    rw [if_neg hu, hcr]
    dsimp only
    rcases entry_cases s.children 0 with he | ⟨l, hl, hb, he⟩
    · exact .inl (by rw [he])
    rw [he]
    have hs2 := hs.2
    rw [hb] at hs2
    obtain ⟨q, _, hq, hc⟩ := hs2
    obtain rfl := holds_inj hps hq
    have hc := hc 0 hl
    rw [Nat.mul_zero, Nat.add_zero] at hc
    revert hc
    cases l[0] with
    | none =>
      intro hc
      rw [table_one hc]
      exact .refl _
    | some childS =>
      rintro ⟨v, hv, hc, hchildS⟩
      obtain ⟨cs, hcs, _, _⟩ := readSchema_of (schemaAt_fields hchildS)
      rw [table_one hc]
      dsimp only
      rw [List.getElem?_cons_zero]
      dsimp only
      rw [if_neg hv, hcs]
      exact hf _ _ _ _ _ _ hchild hchildS hcr hcs

theorem validate_buffers {nl : Bool} {t : Ty} {a : CArray} {s : CSchema} {n : Nat}
    (h : Narrow.Ffi.validate nl t a s = .ok n) : a.nBuffers = bufferCount t := by
  unfold Narrow.Ffi.validate at h
  rcases Decidable.em (a.nBuffers = bufferCount t) with h' | h'
  · exact h'
  · exfalso
    simp only [h', ne_eq, not_false_eq_true, if_true] at h
    repeat' (first | (split at h) | (cases h))

theorem import_refines : ∀ (t : Ty) (nl : Bool) {p ps : Nat} {a : CArray} {s : CSchema}
    {r : RawArray} {rs : RawSchema}, ArrayAt m (nesting t) p a → SchemaAt m (nesting t) ps s →
    readArray m p = some r → readSchema m ps = some rs →
    Refines (importLayout m t nl r rs) (Narrow.Ffi.importLayout m t nl a s) := by
  intro t
  induction t with
  | bool =>
    intro nl p ps a s r rs ha hs hr hrs
    obtain ⟨r', hr', hra, hp⟩ := readArray_of (arrayAt_fields ha)
    obtain ⟨rs', hrs', hrss, hps⟩ := readSchema_of (schemaAt_fields hs)
    obtain rfl := Option.some.inj (hr.symm.trans hr')
    obtain rfl := Option.some.inj (hrs.symm.trans hrs')
    unfold importLayout Narrow.Ffi.importLayout
    rw [validate_eq hra hrss]
    cases hv : Narrow.Ffi.validate nl .bool a s with
    | error e => exact .refl _
    | ok n => exact bool_refines hra nl (validate_buffers hv)
  | prim q =>
    intro nl p ps a s r rs ha hs hr hrs
    obtain ⟨r', hr', hra, hp⟩ := readArray_of (arrayAt_fields ha)
    obtain ⟨rs', hrs', hrss, hps⟩ := readSchema_of (schemaAt_fields hs)
    obtain rfl := Option.some.inj (hr.symm.trans hr')
    obtain rfl := Option.some.inj (hrs.symm.trans hrs')
    unfold importLayout Narrow.Ffi.importLayout
    rw [validate_eq hra hrss]
    cases hv : Narrow.Ffi.validate nl (.prim q) a s with
    | error e => exact .refl _
    | ok n => exact prim_refines hra nl (validate_buffers hv)
  | fsl w nl' t ih =>
    intro nl p ps a s r rs ha hs hr hrs
    obtain ⟨r', hr', hra, hp⟩ := readArray_of (arrayAt_fields ha)
    obtain ⟨rs', hrs', hrss, hps⟩ := readSchema_of (schemaAt_fields hs)
    obtain rfl := Option.some.inj (hr.symm.trans hr')
    obtain rfl := Option.some.inj (hrs.symm.trans hrs')
    unfold importLayout Narrow.Ffi.importLayout
    rw [validate_eq hra hrss]
    cases hv : Narrow.Ffi.validate nl (.fsl w nl' t) a s with
    | error e => exact .refl _
    | ok n =>
      exact fsl_refines hra nl (validate_buffers hv)
        (child_refines hp hps ha hs fun p ps a s r rs h1 h2 h3 h4 => ih nl' h1 h2 h3 h4)
  | vsl ow nl' t ih =>
    intro nl p ps a s r rs ha hs hr hrs
    obtain ⟨r', hr', hra, hp⟩ := readArray_of (arrayAt_fields ha)
    obtain ⟨rs', hrs', hrss, hps⟩ := readSchema_of (schemaAt_fields hs)
    obtain rfl := Option.some.inj (hr.symm.trans hr')
    obtain rfl := Option.some.inj (hrs.symm.trans hrs')
    unfold importLayout Narrow.Ffi.importLayout
    rw [validate_eq hra hrss]
    cases hv : Narrow.Ffi.validate nl (.vsl ow nl' t) a s with
    | error e => exact .refl _
    | ok n =>
      exact vsl_refines hra nl (validate_buffers hv)
        (child_refines hp hps ha hs fun p ps a s r rs h1 h2 h3 h4 => ih nl' h1 h2 h3 h4)

theorem importAt_eq {t : Ty} {nl : Bool} {p ps : Nat} {a : CArray} {s : CSchema}
    (ha : ArrayAt m (nesting t) p a) (hs : SchemaAt m (nesting t) ps s)
    (hu : Narrow.Ffi.importLayout m t nl a s ≠ .ub) :
    importAt m t nl p ps = Narrow.Ffi.importLayout m t nl a s := by
  obtain ⟨r, hr, _, _⟩ := readArray_of (arrayAt_fields ha)
  obtain ⟨rs, hrs, _, _⟩ := readSchema_of (schemaAt_fields hs)
  rcases import_refines t nl ha hs hr hrs with h | h
  · exact absurd h hu
  · unfold importAt
    rw [hr, hrs]
    exact h

/-! ## The path of first children -/

theorem bind_ok {α β : Type} {x : Imp α} {f : α → Imp β} {b : β} (h : x.bind f = .ok b) :
    ∃ a, x = .ok a ∧ f a = .ok b := by
  cases x with
  | ok a => exact ⟨a, rfl, h⟩
  | err e => cases h
  | panic => cases h
  | ub => cases h

theorem ofMem_ok {α : Type} {x : Option α} {a : α} (h : Imp.ofMem x = .ok a) : x = some a := by
  cases x with
  | none => cases h
  | some b => cases h; rfl

theorem validate_nChildren {nl : Bool} {t : Ty} {r : RawArray} {rs : RawSchema} {n : Nat}
    (h : validate m nl t r rs = .ok n) : r.nChildren = childCount t := by
  unfold validate at h
  rcases Decidable.em (r.nChildren = childCount t) with h' | h'
  · exact h'
  · exfalso
    simp only [h', ne_eq, not_false_eq_true, true_or, if_true] at h
    cases hc : cstr m rs.format with
    | none => rw [hc] at h; simp only [Imp.ofMem, Imp.bind] at h; repeat' (first | (split at h) | (cases h))
    | some f => rw [hc] at h; simp only [Imp.ofMem, Imp.bind] at h; repeat' (first | (split at h) | (cases h))

theorem table_head {p k : Nat} {l : List Nat} {q : Nat} (h : table m p k = some l)
    (hq : l[0]? = some q) : ∃ w, word m p = some w ∧ w.toNat = q := by
  cases k with
  | zero => cases h; cases hq
  | succ k =>
    simp only [table] at h
    cases hw : word m p with
    | none => rw [hw] at h; cases h
    | some w =>
      rw [hw] at h
      simp only [Option.bind_some] at h
      cases ht : table m (p + 8) k with
      | none => rw [ht] at h; cases h
      | some l' =>
        rw [ht] at h
        cases h
        exact ⟨w, rfl, Option.some.inj hq⟩

theorem readArray_word {p : Nat} {r : RawArray} (h : readArray m p = some r) :
    word m (p + 32) = some r.nChildren ∧ ∃ w, word m (p + 48) = some w ∧ w.toNat = r.children := by
  simp only [readArray, Option.bind_eq_some_iff] at h
  obtain ⟨_, _, _, _, _, _, _, _, w5, h5, _, _, w7, h7, _, _, _, _, _, _, h⟩ := h
  cases h
  exact ⟨h5, w7, h7, rfl⟩

theorem importChild_ok {α : Type} {r : RawArray} {rs : RawSchema} {k : I64}
    {f : RawArray → RawSchema → Imp α} {x : α} (h : importChild m r rs k f = .ok x) :
    ∃ w r' rs', word m r.children = some w ∧ readArray m w.toNat = some r' ∧ f r' rs' = .ok x := by
  unfold importChild at h
  split at h
  · cases h
  · split at h
    · cases h
    · obtain ⟨l, hl, h⟩ := bind_ok h
      obtain ⟨q, hq, h⟩ := bind_ok h
      split at h
      · cases h
      · obtain ⟨r', hr', h⟩ := bind_ok h
        obtain ⟨l', _, h⟩ := bind_ok h
        obtain ⟨q', _, h⟩ := bind_ok h
        split at h
        · cases h
        · obtain ⟨rs', _, h⟩ := bind_ok h
          obtain ⟨w, hw, e⟩ := table_head (ofMem_ok hl) (ofMem_ok hq)
          exact ⟨w, r', rs', hw, by rw [e]; exact ofMem_ok hr', h⟩

theorem fsl_child_ok {r : RawArray} {n : Nat} {nl : Bool} {w : Nat} {nl' : Bool} {t : Ty}
    {x : Imp ((arrayR nl' t).C × APlace nl' t)} {y}
    (h : importFsl m r n nl w nl' t x = .ok y) : ∃ z, x = .ok z := by
  unfold importFsl at h
  split at h
  · cases h
  · obtain ⟨z, hz, _⟩ := bind_ok h
    exact ⟨z, hz⟩

theorem vsl_child_ok {r : RawArray} {n : Nat} {nl : Bool} {ow : OffW} {nl' : Bool} {t : Ty}
    {x : Imp ((arrayR nl' t).C × APlace nl' t)} {y}
    (h : importVsl m r n nl ow nl' t x = .ok y) : ∃ z, x = .ok z := by
  unfold importVsl at h
  split at h
  · cases h
  · obtain ⟨_, _, h⟩ := bind_ok h
    obtain ⟨_, _, h⟩ := bind_ok h
    split at h
    · cases h
    · split at h
      · cases h
      · obtain ⟨_, _, h⟩ := bind_ok h
        obtain ⟨z, hz, _⟩ := bind_ok h
        exact ⟨z, hz⟩

/-- The number of children declared along the path of first children. -/
theorem path_children : ∀ (t : Ty) (nl : Bool) {r : RawArray} {rs : RawSchema} {x},
    importLayout m t nl r rs = .ok x → ∀ (f : Nat → Nat), readArray m (f 0) = some r →
    (∀ i, i < nesting t → ChildAt m (f i) (f (i + 1))) →
    ∀ i, i ≤ nesting t → word m (f i + 32) = some (if i < nesting t then 1#64 else 0#64) := by
  intro t
  have step : ∀ {r : RawArray} {f : Nat → Nat}, readArray m (f 0) = some r → ChildAt m (f 0) (f 1) →
      ∀ w, word m r.children = some w → w.toNat = f 1 := by
    intro r f hr ⟨q, hq, hc⟩ w hw
    obtain ⟨_, v, hv, e⟩ := readArray_word hr
    obtain ⟨v', hv', e'⟩ := word_addr hq
    obtain rfl := Option.some.inj (hv.symm.trans hv')
    rw [← e, e'] at hw
    obtain ⟨u, hu, e''⟩ := word_addr hc
    obtain rfl := Option.some.inj (hw.symm.trans hu)
    exact e''
  induction t with
  | bool =>
    intro nl r rs x h f hr hf i hi
    obtain ⟨n, hn, _⟩ := bind_ok h
    obtain rfl : i = 0 := Nat.le_zero.1 hi
    rw [(readArray_word hr).1, validate_nChildren hn]
    rfl
  | prim p =>
    intro nl r rs x h f hr hf i hi
    obtain ⟨n, hn, _⟩ := bind_ok h
    obtain rfl : i = 0 := Nat.le_zero.1 hi
    rw [(readArray_word hr).1, validate_nChildren hn]
    rfl
  | fsl w nl' t ih =>
    intro nl r rs x h f hr hf i hi
    obtain ⟨n, hn, h⟩ := bind_ok h
    obtain ⟨z, hz⟩ := fsl_child_ok h
    obtain ⟨v, r', rs', hv, hr', h'⟩ := importChild_ok hz
    have hlt : 0 < nesting (.fsl w nl' t) := Nat.succ_pos _
    cases i with
    | zero => rw [(readArray_word hr).1, validate_nChildren hn, if_pos hlt]; rfl
    | succ i =>
      rw [step hr (hf 0 hlt) v hv] at hr'
      have := ih nl' h' (fun i => f (i + 1)) hr'
        (fun i hi => hf (i + 1) (Nat.succ_lt_succ hi)) i (Nat.le_of_succ_le_succ hi)
      rw [this]
      have : i + 1 < nesting (.fsl w nl' t) ↔ i < nesting t := Nat.succ_lt_succ_iff
      simp only [this]
  | vsl ow nl' t ih =>
    intro nl r rs x h f hr hf i hi
    obtain ⟨n, hn, h⟩ := bind_ok h
    obtain ⟨z, hz⟩ := vsl_child_ok h
    obtain ⟨v, r', rs', hv, hr', h'⟩ := importChild_ok hz
    have hlt : 0 < nesting (.vsl ow nl' t) := Nat.succ_pos _
    cases i with
    | zero => rw [(readArray_word hr).1, validate_nChildren hn, if_pos hlt]; rfl
    | succ i =>
      rw [step hr (hf 0 hlt) v hv] at hr'
      have := ih nl' h' (fun i => f (i + 1)) hr'
        (fun i hi => hf (i + 1) (Nat.succ_lt_succ hi)) i (Nat.le_of_succ_le_succ hi)
      rw [this]
      have : i + 1 < nesting (.vsl ow nl' t) ↔ i < nesting t := Nat.succ_lt_succ_iff
      simp only [this]

theorem childAt_inj {p q q' : Nat} (h : ChildAt m p q) (h' : ChildAt m p q') : q = q' := by
  obtain ⟨r, h1, h2⟩ := h
  obtain ⟨r', h1', h2'⟩ := h'
  obtain rfl := holds_inj h1 h1'
  exact holds_inj h2 h2'

theorem path_distinct {t : Ty} {nl : Bool} {p ps : Nat} {x} (h : importAt m t nl p ps = .ok x)
    (f : Nat → Nat) (h0 : f 0 = p) (hf : ∀ i, i < nesting t → ChildAt m (f i) (f (i + 1)))
    {i j : Nat} (hij : i < j) (hj : j ≤ nesting t) : f i ≠ f j := by
  intro he
  obtain ⟨r, hr, h⟩ := bind_ok h
  obtain ⟨rs, _, h⟩ := bind_ok h
  have hp := path_children t nl h f (by rw [h0]; exact ofMem_ok hr) hf
  have hs : ∀ x, j + x ≤ nesting t → f (i + x) = f (j + x) := by
    intro x
    induction x with
    | zero => intro _; exact he
    | succ x ih =>
      intro hx
      have h1 := hf (i + x) (by omega)
      have h2 := hf (j + x) (by omega)
      rw [ih (by omega)] at h1
      exact childAt_inj h1 h2
  have h1 := hs (nesting t - j) (by omega)
  have h2 := hp (i + (nesting t - j)) (by omega)
  have h3 := hp (j + (nesting t - j)) (by omega)
  rw [if_pos (by omega)] at h2
  rw [if_neg (by omega), ← h1, h2] at h3
  exact absurd (Option.some.inj h3) (by decide)

end Narrow.Ffi.Raw
