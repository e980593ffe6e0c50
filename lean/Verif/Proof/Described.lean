import Verif.Proof.ImportOk
import Verif.Props.Nulls

/-! # Importing structures that describe an array in memory -/

namespace Narrow.Ffi

open Narrow.Ffi.Spec Narrow.Spec

theorem bytesFor_mono {i n : Nat} (h : i < n) : i < 8 * bytesFor n := by unfold bytesFor; omega

theorem bits_read {m : Mem} {b : Bitmap} {p n : Nat} (hb : b.Inv) (h0 : b.offset = 0)
    (hm : BitsAt m b p) (hn : n ≤ b.bits) :
    ∃ bytes, m.read p (bytesFor n) = some bytes ∧ (List.range n).map (bitAt bytes) = b.abs.take n := by
  have hle := hb.le
  have hk : bytesFor n ≤ b.buffer.items.length := by unfold bytesFor; omega
  refine ⟨_, m.read_take hm.2 hk, ?_⟩
  simp only [Bitmap.abs, ← List.map_take, List.take_range, Nat.min_eq_left hn, h0, Nat.zero_add]
  apply List.map_congr_left
  intro i hi
  exact bitAt_take (bytesFor_mono (List.mem_range.1 hi))

theorem unset_count {bytes : List Byte} {n : Nat} {bs : List Bool}
    (h : (List.range n).map (bitAt bytes) = bs) : unsetBits bytes n = bs.countP (! ·) := by
  subst h
  simp [unsetBits, List.countP_map, Function.comp_def, bit_eq]

theorem mask_nulls {α : Type} {xs : List α} {bs : List Bool} (h : bs.length ≤ xs.length) :
    (Validity.mask xs bs).countP Option.isNone = bs.countP (! ·) := by
  have : bs.countP (! ·) = ((Validity.mask xs bs).map Option.isSome).countP (! ·) := by
    rw [Props.mask_isSome h]
  rw [this, List.countP_map]
  apply List.countP_congr
  intro x _
  cases x <;> simp

theorem length_of_mask {α : Type} {l : List (Option α)} {xs : List α} {bs : List Bool}
    (h : l = Validity.mask xs bs) (hl : bs.length ≤ xs.length) : l.length = bs.length := by
  rw [h, Validity.mask_length]; omega

theorem length_of_map {α : Type} {l : List (Option α)} {xs : List α} (h : l = xs.map some) :
    l.length = xs.length := by rw [h, List.length_map]

theorem nulls_of_map {α : Type} {l : List (Option α)} {xs : List α} (h : l = xs.map some) :
    nulls true l = 0 := by
  subst h; simp [nulls, List.countP_map, Function.comp_def]

theorem nulls_of_mask {α : Type} {l : List (Option α)} {xs : List α} {bs : List Bool}
    (h : l = Validity.mask xs bs) (hl : bs.length ≤ xs.length) : nulls true l = bs.countP (! ·) := by
  subst h; exact mask_nulls hl

section
variable {m : Mem} {t : Ty} {array : CArray} {schema : CSchema}

/-- The items of a described array. -/
theorem Spec.Header.eqs {nl : Bool} {c : (arrayR nl t).C} (h : Header nl t c array schema) (ht : t.WF)
    (hc : (arrayL nl t ht).Inv c) :
    array.length.toInt = ((arrayL nl t ht).abs c).length ∧
    array.nullCount.toInt = nulls nl ((arrayL nl t ht).abs c) := by
  obtain ⟨l, h1, h2, h3⟩ := h.items
  rw [Spec.Reads.abs_eq (L := (arrayL nl t ht).toLawfulColl) h1 hc]
  exact ⟨h2, h3⟩

theorem nulls_le {O : Type} : ∀ {nl : Bool} (l : List (ItemVal nl O)), nulls nl l ≤ l.length
  | false, _ => Nat.zero_le _
  | true, (l : List (Option O)) => List.countP_le_length

theorem node_valid {nl : Bool} {c : (arrayR nl t).C} (h : Header nl t c array schema) (ht : t.WF)
    (hc : (arrayL nl t ht).Inv c) : Valid nl t array schema ((arrayL nl t ht).abs c).length := by
  obtain ⟨h1, h2⟩ := h.eqs ht hc
  have h3 := nulls_le (nl := nl) ((arrayL nl t ht).abs c)
  refine ⟨h.live, h.schemaLive, h.format, ?_, h1, h.offset, by rw [h2]; omega, ?_, h.nBuffers,
    h.nChildren, h.nSchemas, h.dictionary, h.schemaDictionary, ?_, ?_, ?_⟩
  · rw [h.flags]; cases nl <;> decide
  · intro hn; subst hn; rw [h2]; exact Int.le_refl _
  · intro hb
    have := h.buffers
    rw [hb] at this
    cases t <;> cases this
  · intro hct hb
    have := h.children
    rw [hb] at this
    cases t <;> first | exact hct rfl | cases this
  · intro hct hb
    have := h.schemas
    rw [hb] at this
    cases t <;> first | exact hct rfl | cases this

/-- The validity bitmap of a described array. -/
theorem node_bitmap {v : (arrayR true t).C} {a : APlace true t}
    {b : Bitmap} (hb : (v : Validity (baseR t).C).bitmap = some b) (ht : t.WF)
    (hc : (arrayL true t ht).Inv v)
    (hm : InMemory m true t v a) (hz : ∀ o ∈ bitOffsets true t v, o = 0)
    (hp : PointsValidity (baseR t) true v a array) :
    ∃ p, bufferAt array 0 = some p ∧ p ≠ 0 ∧ b.Inv ∧ b.offset = 0 ∧ BitsAt m b p ∧
      b.bits ≤ ((baseL t ht).abs (v : Validity (baseR t).C).coll).length ∧
      (arrayL true t ht).abs v = Validity.mask ((baseL t ht).abs (v : Validity (baseR t).C).coll) b.abs := by
  obtain ⟨coll, bitmap⟩ := v
  obtain ⟨pl, ap⟩ := a
  change bitmap = some b at hb
  subst hb
  change bufferAt array 0 = ap at hp
  have h1 : ValidityAt m (some b) ap := hm.2
  cases ap with
  | none => exact h1.elim
  | some p =>
    have h2 := hc.2 b rfl
    exact ⟨p, hp, h1.1, h2.1, hz b.offset (List.mem_append_left _ (List.mem_singleton.2 rfl)), h1, h2.2, rfl⟩

theorem node_length_bitmap {v : (arrayR true t).C} {b : Bitmap} (ht : t.WF)
    (h1 : b.bits ≤ ((baseL t ht).abs (v : Validity (baseR t).C).coll).length)
    (h2 : (arrayL true t ht).abs v = Validity.mask ((baseL t ht).abs (v : Validity (baseR t).C).coll) b.abs) :
    ((arrayL true t ht).abs v).length = b.bits := by
  have h3 : ((arrayL true t ht).abs v).length = b.abs.length :=
    length_of_mask h2 (by rw [Bitmap.abs_length]; exact h1)
  rw [h3, Bitmap.abs_length]

theorem node_abs_none {v : (arrayR true t).C} (hb : (v : Validity (baseR t).C).bitmap = none) (ht : t.WF) :
    (arrayL true t ht).abs v = ((baseL t ht).abs (v : Validity (baseR t).C).coll).map some := by
  obtain ⟨coll, bitmap⟩ := v
  change bitmap = none at hb
  subst hb; rfl

theorem node_safe {nl : Bool} {c : (arrayR nl t).C} {a : APlace nl t}
    (h : Header nl t c array schema) (ht : t.WF)
    (hc : (arrayL nl t ht).Inv c) (hm : InMemory m nl t c a) (hz : ∀ o ∈ bitOffsets nl t c, o = 0)
    (hp : PointsValidity (baseR t) nl c a array) : SafeHeader m nl array schema := by
  have hv := node_valid h ht hc
  refine ⟨?_, ?_, ?_, ?_⟩
  · intro l hl
    have := h.buffers; rw [hl] at this
    rw [h.nBuffers, ← this]; exact Int.le_refl _
  · intro l hl
    have := h.children; rw [hl] at this
    rw [h.nChildren, ← this]; exact Int.le_refl _
  · intro l hl
    have := h.schemas; rw [hl] at this
    rw [h.nSchemas, ← this]; exact Int.le_refl _
  · intro p hnl hp0 hpn _
    subst hnl
    rw [hv.toNat]
    cases hb : (c : Validity (baseR t).C).bitmap with
    | none =>
      obtain ⟨coll, bitmap⟩ := c
      change bitmap = none at hb
      subst hb
      have : bufferAt array 0 = some 0 := hp
      rw [this] at hp0; cases hp0; exact absurd rfl hpn
    | some b =>
      obtain ⟨q, h1, h2, h3, h4, h5, h6, h7⟩ := node_bitmap hb ht hc hm hz hp
      rw [hp0] at h1; cases h1
      obtain ⟨bytes, h8, _⟩ := bits_read h3 h4 h5 (Nat.le_of_eq (node_length_bitmap ht h6 h7))
      rw [h8]; simp

theorem node_null {nl : Bool} {c : (arrayR nl t).C} {a : APlace nl t}
    (h : Header nl t c array schema) (ht : t.WF)
    (hc : (arrayL nl t ht).Inv c) (hm : InMemory m nl t c a) (hz : ∀ o ∈ bitOffsets nl t c, o = 0)
    (hp : PointsValidity (baseR t) nl c a array) :
    ¬ NullDefect m nl array ((arrayL nl t ht).abs c).length := by
  rintro ⟨hnl, hd⟩
  subst hnl
  obtain ⟨_, hnc⟩ := h.eqs ht hc
  cases hb : (c : Validity (baseR t).C).bitmap with
  | none =>
    have h1 := node_abs_none hb ht
    have h2 : nulls true ((arrayL true t ht).abs c) = 0 := nulls_of_map h1
    rw [h2] at hnc
    obtain ⟨coll, bitmap⟩ := c
    change bitmap = none at hb
    subst hb
    have h3 : bufferAt array 0 = some 0 := hp
    rcases hd with ⟨_, _, h4⟩ | ⟨p, bytes, h4, h5, _⟩
    · exact h4 hnc
    · rw [h3] at h4; cases h4; exact h5 rfl
  | some b =>
    obtain ⟨q, h1, h2, h3, h4, h5, h6, h7⟩ := node_bitmap hb ht hc hm hz hp
    have h8 := node_length_bitmap ht h6 h7
    rcases hd with ⟨h9, _⟩ | ⟨p, bytes, h9, _, h10, _, h11⟩
    · rw [h1] at h9; cases h9; exact h2 rfl
    · rw [h1] at h9; cases h9
      obtain ⟨bytes', h12, h13⟩ := bits_read h3 h4 h5 (Nat.le_of_eq h8)
      rw [h12] at h10; cases h10
      apply h11
      have h14 : nulls true ((arrayL true t ht).abs c) = b.abs.countP (! ·) :=
        nulls_of_mask h7 (by rw [Bitmap.abs_length]; exact h6)
      rw [hnc, unset_count h13, h8, h14, List.take_of_length_le (by rw [Bitmap.abs_length]; exact Nat.le_refl _)]

end

/-! ## The values are those of the array -/

theorem length_values {t : Ty} {nl : Bool} {c : (arrayR nl t).C} (ht : t.WF) (hc : (arrayL nl t ht).Inv c) :
    ((arrayL nl t ht).abs c).length ≤ ((baseL t ht).abs (valuesOf (baseR t) nl c)).length := by
  cases nl with
  | false => exact Nat.le_refl _
  | true =>
    cases hb : (c : Validity (baseR t).C).bitmap with
    | none =>
      exact Nat.le_of_eq (length_of_map (node_abs_none hb ht))
    | some b =>
      obtain ⟨coll, bitmap⟩ := c
      change bitmap = some b at hb
      subst hb
      show (Validity.mask ((baseL t ht).abs coll) b.abs).length ≤ _
      rw [Validity.mask_length]
      exact Nat.min_le_left _ _

theorem inv_values {t : Ty} {nl : Bool} {c : (arrayR nl t).C} (ht : t.WF) (hc : (arrayL nl t ht).Inv c) :
    (baseL t ht).Inv (valuesOf (baseR t) nl c) := by
  cases nl with
  | false => exact hc
  | true => exact hc.1

theorem null_content {m : Mem} {t : Ty} {array : CArray} {schema : CSchema} {nl : Bool}
    {c c' : (arrayR nl t).C} {a a' : APlace nl t}
    (h : Header nl t c array schema) (ht : t.WF)
    (hc : (arrayL nl t ht).Inv c) (hm : InMemory m nl t c a) (hz : ∀ o ∈ bitOffsets nl t c, o = 0)
    (hp : PointsValidity (baseR t) nl c a array) (hb : BorrowsValidity m (baseR t) nl c' a' array)
    (he : array.length.toNat ≤ ((baseL t ht).abs (valuesOf (baseR t) nl c)).length →
      (baseL t ht).abs (valuesOf (baseR t) nl c') = (baseL t ht).abs (valuesOf (baseR t) nl c) ∨
      (baseL t ht).abs (valuesOf (baseR t) nl c') =
        ((baseL t ht).abs (valuesOf (baseR t) nl c)).take array.length.toNat) :
    (arrayL nl t ht).abs c' = (arrayL nl t ht).abs c := by
  have hv := node_valid h ht hc
  have hl := length_values ht hc
  rw [hv.toNat] at he
  have he := he hl
  cases nl with
  | false =>
    rcases he with he | he
    · exact he
    · refine Eq.trans he ?_
      exact List.take_of_length_le (Nat.le_refl _)
  | true =>
    cases hbm : (c : Validity (baseR t).C).bitmap with
    | none =>
      have h1 := node_abs_none hbm ht
      have h0 : ((arrayL true t ht).abs c).length = ((baseL t ht).abs (valuesOf (baseR t) true c)).length :=
        length_of_map h1
      rw [h0] at he
      have h2 : (baseL t ht).abs (valuesOf (baseR t) true c') = (baseL t ht).abs (valuesOf (baseR t) true c) := by
        rcases he with he | he
        · exact he
        · refine Eq.trans he ?_
          exact List.take_of_length_le (Nat.le_refl _)
      obtain ⟨coll, bitmap⟩ := c
      change bitmap = none at hbm
      subst hbm
      have h3 : bufferAt array 0 = some 0 := hp
      obtain ⟨coll', bitmap'⟩ := c'
      cases bitmap' with
      | none =>
        rw [h1]
        exact congrArg (List.map some) h2
      | some b' =>
        obtain ⟨p, h4, h5, _⟩ := hb
        rw [h3] at h5; cases h5; exact absurd rfl h4
    | some b =>
      obtain ⟨p, h1, h2, h3, h4, h5, h6, h7⟩ := node_bitmap hbm ht hc hm hz hp
      have h8 := node_length_bitmap ht h6 h7
      rw [h8] at he
      obtain ⟨coll', bitmap'⟩ := c'
      cases bitmap' with
      | none =>
        have h9 : bufferAt array 0 = some 0 := hb
        rw [h1] at h9; cases h9; exact absurd rfl h2
      | some b' =>
        obtain ⟨q, _, h9, _, h10, h11, h12⟩ := hb
        rw [h1] at h9; cases h9
        obtain ⟨bytes, h13, h14⟩ := bits_read h3 h4 h5 (Nat.le_refl _)
        rw [hv.toNat, h8] at h10 h12
        rw [h13] at h12; cases h12
        have h15 : b'.abs = b.abs := by
          rw [List.take_of_length_le (by rw [Bitmap.abs_length]; exact Nat.le_refl _)] at h14
          rw [← h14]
          simp only [Bitmap.abs, h10, h11, Nat.zero_add]
        rw [h7]
        show Validity.mask ((baseL t ht).abs coll') b'.abs = _
        rw [h15]
        rcases he with he | he
        · rw [show (baseL t ht).abs coll' = _ from he]; rfl
        · rw [show (baseL t ht).abs coll' = _ from he]
          have : b.bits = b.abs.length := (Bitmap.abs_length b).symm
          rw [this, Validity.mask_take_length]; rfl

theorem offsets_zero_base {t : Ty} {nl : Bool} {c : (arrayR nl t).C} (hz : ∀ o ∈ bitOffsets nl t c, o = 0) :
    ∀ o ∈ baseOffsets t (valuesOf (baseR t) nl c), o = 0 := by
  cases nl with
  | false => exact hz
  | true => exact fun o ho => hz o (List.mem_append_right _ ho)

theorem memory_base {m : Mem} {t : Ty} {nl : Bool} {c : (arrayR nl t).C} {a : APlace nl t}
    (hm : InMemory m nl t c a) : BaseAt m t (valuesOf (baseR t) nl c) (valuesPlace nl a) := by
  cases nl with
  | false => exact hm
  | true => exact hm.1

theorem committed_base {t : Ty} {nl : Bool} {c : (arrayR nl t).C}
    (hm : Committed nl t c) : baseCommitted t (valuesOf (baseR t) nl c) := by
  cases nl with
  | false => exact hm
  | true => exact hm.1

theorem bool_content {m : Mem} {b b' : Bitmap} {a a' n : Nat} {q : Option Nat} (hc : b.Inv)
    (hm : BitsAt m b a) (hz : b.offset = 0) (hp : q = some a) (hn : n ≤ b.abs.length)
    (h1 : b'.bits = n) (h2 : b'.offset = 0)
    (h3 : (n = 0 ∧ b'.buffer.items = []) ∨
      (q = some a' ∧ m.read a' (bytesFor n) = some b'.buffer.items)) :
    b'.abs = b.abs.take n := by
  rw [Bitmap.abs_length] at hn
  obtain ⟨bytes, h4, h5⟩ := bits_read hc hz hm hn
  rw [← h5]
  simp only [Bitmap.abs, h1, h2]
  rcases h3 with ⟨h3, _⟩ | ⟨h3, h6⟩
  · subst h3; rfl
  · rw [hp] at h3; cases h3
    rw [h4] at h6
    rw [← Option.some.inj h6]
    simp only [Nat.zero_add]

theorem prim_content {m : Mem} {k a a' n : Nat} {l l' : List (BitVec (8 * k))} {q : Option Nat}
    (hm : m.slice k a l.length = some l) (hp : q = some a) (hn : n ≤ l.length)
    (hb : (n = 0 ∧ l' = []) ∨ (q = some a' ∧ m.slice k a' n = some l')) : l' = l.take n := by
  rcases hb with ⟨rfl, rfl⟩ | ⟨h1, h2⟩
  · rfl
  · rw [hp] at h1; cases h1
    rw [m.slice_take hm hn] at h2
    exact (Option.some.inj h2).symm

theorem rows_content {O : Type} {K : Coll O} {L : LawfulColl K} {m : Mem} {k a n : Nat}
    {c c' : Offsets K.C} (hr : Offsets.Rep L c (Offsets.abs L c)) (hn : n ≤ (Offsets.abs L c).length)
    (hdata : L.abs c'.data = L.abs c.data)
    (hoff : (m.slice k a c.offsets.items.length).map (·.map BitVec.toInt) = some c.offsets.items)
    (hb : (m.slice k a (n + 1)).map (·.map BitVec.toInt) = some c'.offsets.items) :
    Offsets.abs L c' = (Offsets.abs L c).take n := by
  have hitems := hr.items
  have hpre := hr.pre
  generalize hrows : Offsets.abs L c = rows at *
  obtain ⟨vals, hv1, hv2⟩ := Option.map_eq_some_iff.1 hoff
  have h11 : n + 1 ≤ c.offsets.items.length := by rw [hitems, Offsets.totals_length]; omega
  have hoff' : c'.offsets.items = c.offsets.items.take (n + 1) := by
    rw [m.slice_take hv1 h11] at hb
    rw [← hv2, ← List.map_take]
    exact (Option.some.inj hb).symm
  unfold Offsets.abs
  rw [hoff', hitems, Offsets.totals_take _ _ _ hn, hdata]
  apply Offsets.slices_totals
  rw [List.drop_zero]
  refine List.IsPrefix.trans ?_ hpre
  conv => rhs; rw [← List.take_append_drop n rows, List.flatten_append]
  exact List.prefix_append _ _

theorem base_content {m : Mem} : (t : Ty) → (ht : t.WF) → (c c' : (baseR t).C) → (a a' : Place t) →
    (array : CArray) → (schema : CSchema) →
    (baseL t ht).Inv c → (baseL t ht).Inv c' → BaseAt m t c a → (∀ o ∈ baseOffsets t c, o = 0) →
    DescribesChild t c array schema → PointsValues t c a array → BorrowsValues m t c' a' array →
    array.length.toNat ≤ ((baseL t ht).abs c).length →
    (baseL t ht).abs c' = (baseL t ht).abs c ∨
    (baseL t ht).abs c' = ((baseL t ht).abs c).take array.length.toNat
  | .bool, ht, c, c', a, a', array, schema, hc, hc', hm, hz, hd, hp, hb, hn =>
    .inr (bool_content hc hm (hz (c : Bitmap).offset (List.mem_singleton.2 rfl)) hp hn hb.1 hb.2.1 hb.2.2)
  | .prim p, ht, c, c', a, a', array, schema, hc, hc', hm, hz, hd, hp, hb, hn =>
    .inr (prim_content hm.2.2 hp hn hb)
  | .fsl w nl t, ht, c, c', a, a', array, schema, hc, hc', hm, hz, hd, hp, hb, hn => by
    left
    obtain ⟨array', schema', h1, h2, h3, h4⟩ := hd
    obtain ⟨array2, h5, h6, h7⟩ := hp
    rw [h1] at h5; cases h5
    obtain ⟨array2, h8, h9, h10⟩ := hb
    rw [h1] at h8; cases h8
    have hm' : InMemory m nl t (c : Flatten (arrayR nl t).C).child a := hm
    have hi : (arrayL nl t ht.2).Inv (c : Flatten (arrayR nl t).C).child := hc.1
    have hi' : (arrayL nl t ht.2).Inv (c' : Flatten (arrayR nl t).C).child := hc'.1
    have hz' : ∀ o ∈ bitOffsets nl t (c : Flatten (arrayR nl t).C).child, o = 0 := hz
    have ih := base_content t ht.2 _ (valuesOf (baseR t) nl (c' : Flatten (arrayR nl t).C).child) _
      (valuesPlace nl a') array' schema' (inv_values (t := t) ht.2 hi) (inv_values (t := t) ht.2 hi')
      (memory_base hm') (offsets_zero_base hz') h4 h7 h10
    have := null_content h3 ht.2 hi hm' hz' h6 h9 ih
    exact congrArg (Flatten.group w) this
  | .vsl ow nl t, ht, c, c', a, a', array, schema, hc, hc', hm, hz, hd, hp, hb, hn => by
    right
    obtain ⟨array', schema', h1, h2, h3, h4⟩ := hd
    obtain ⟨hp1, array2, h5, h6, h7⟩ := hp
    rw [h1] at h5; cases h5
    obtain ⟨hb1, hb2, array2, h8, h9, h10⟩ := hb
    rw [h1] at h8; cases h8
    have hm' : InMemory m nl t (c : Offsets (arrayR nl t).C).data (a : Nat × APlace nl t).2 := hm.2
    have hi : (arrayL nl t ht).Inv (c : Offsets (arrayR nl t).C).data := hc.2.inv
    have hi' : (arrayL nl t ht).Inv (c' : Offsets (arrayR nl t).C).data := hc'.2.inv
    have hz' : ∀ o ∈ bitOffsets nl t (c : Offsets (arrayR nl t).C).data, o = 0 := hz
    have ih := base_content t ht _ (valuesOf (baseR t) nl (c' : Offsets (arrayR nl t).C).data) _
      (valuesPlace nl (a' : Nat × APlace nl t).2) array' schema' (inv_values (t := t) ht hi)
      (inv_values (t := t) ht hi') (memory_base hm') (offsets_zero_base hz') h4 h7 h10
    have hdata := null_content (t := t) h3 ht hi hm' hz' h6 h9 ih
    rw [hp1] at hb1
    rw [← Option.some.inj hb1] at hb2
    exact rows_content (L := (arrayL nl t ht).toLawfulColl) hc.2 hn hdata hm.1.2.2 hb2

theorem content {m : Mem} {t : Ty} {nl : Bool} {c c' : (arrayR nl t).C} {a a' : APlace nl t}
    {array : CArray} {schema : CSchema} (ht : t.WF) (hc : (arrayL nl t ht).Inv c)
    (hc' : (arrayL nl t ht).Inv c') (hm : InMemory m nl t c a) (hz : ∀ o ∈ bitOffsets nl t c, o = 0)
    (hd : Describes nl t c array schema) (hp : PointsTo nl t c a array) (hb : Borrows m nl t c' a' array) :
    (arrayL nl t ht).abs c' = (arrayL nl t ht).abs c :=
  null_content hd.1 ht hc hm hz hp.1 hb.1 fun hn =>
    base_content t ht _ _ _ _ array schema (inv_values ht hc) (inv_values ht hc') (memory_base hm)
      (offsets_zero_base hz) hd.2 hp.2 hb.2 hn

/-! ## Nothing is wrong with the structures -/

theorem rep_valid {O : Type} {K : Coll O} {L : LawfulColl K} {c : Offsets K.C} {rows : List (List O)}
    (hr : Offsets.Rep L c rows) {n : Nat} (hn : n ≤ rows.length) :
    ValidOffsets (c.offsets.items.take (n + 1)) (L.abs c.data).length := by
  rw [hr.items, Offsets.totals_take _ _ _ hn]
  have hpre : (rows.take n).flatten <+: L.abs c.data := by
    refine List.IsPrefix.trans ?_ hr.pre
    conv => rhs; rw [← List.take_append_drop n rows, List.flatten_append]
    exact List.prefix_append _ _
  generalize rows.take n = rs at *
  have hne : Offsets.totals 0 rs ≠ [] := by
    intro h; have := congrArg List.length h; simp at this
  have hget : ∀ (i : Nat) (h : i < (Offsets.totals 0 rs).length),
      (Offsets.totals 0 rs)[i] = (((rs.take i).flatten).length : Int) := by
    intro i h
    have h1 := Offsets.totals_get 0 rs i (by rw [Offsets.totals_length] at h; omega)
    rw [List.getElem?_eq_getElem h] at h1
    simpa using Option.some.inj h1
  refine ⟨hne, ⟨?_, ?_, ?_⟩, ?_⟩
  · intro x hx
    rw [List.head?_eq_getElem?, Offsets.totals_get 0 rs 0 (Nat.zero_le _)] at hx
    simpa using (Option.some.inj hx).symm
  · intro x hx
    obtain ⟨i, h, rfl⟩ := List.getElem_of_mem hx
    rw [hget]; omega
  · intro i j hi hj hij
    rw [hget, hget]
    have : (rs.take i).flatten <+: (rs.take j).flatten := by
      conv => rhs; rw [← List.take_append_drop i (rs.take j), List.flatten_append, List.take_take,
        Nat.min_eq_left hij]
      exact List.prefix_append _ _
    have := this.length_le
    omega
  · have h1 := Offsets.totals_getLast 0 rs
    rw [List.getLast?_eq_some_getLast hne] at h1
    rw [Option.some.inj h1]
    have := hpre.length_le
    omega

/-- Everything about a described array and its place in memory. -/
structure Held (m : Mem) (nl : Bool) (t : Ty) (ht : t.WF) (c : (arrayR nl t).C) (a : APlace nl t) : Prop where
  exportable : Exportable t
  inv : (arrayL nl t ht).Inv c
  memory : InMemory m nl t c a
  zero : ∀ o ∈ bitOffsets nl t c, o = 0
  committed : Committed nl t c

theorem Held.fsl {m : Mem} {nl nl' : Bool} {w : Nat} {t : Ty} {ht : (Ty.fsl w nl' t).WF}
    {c : (arrayR nl (.fsl w nl' t)).C} {a : APlace nl (.fsl w nl' t)} (h : Held m nl (.fsl w nl' t) ht c a) :
    Held m nl' t ht.2 (valuesOf (baseR (.fsl w nl' t)) nl c : Flatten (arrayR nl' t).C).child
      (valuesPlace nl a) :=
  ⟨h.exportable.2, (inv_values (t := .fsl w nl' t) ht h.inv).1, memory_base h.memory,
    offsets_zero_base h.zero, committed_base h.committed⟩

theorem Held.vsl {m : Mem} {nl nl' : Bool} {ow : OffW} {t : Ty} {ht : (Ty.vsl ow nl' t).WF}
    {c : (arrayR nl (.vsl ow nl' t)).C} {a : APlace nl (.vsl ow nl' t)} (h : Held m nl (.vsl ow nl' t) ht c a) :
    Held m nl' t ht (valuesOf (baseR (.vsl ow nl' t)) nl c : Offsets (arrayR nl' t).C).data
      (valuesPlace nl a : Nat × APlace nl' t).2 :=
  ⟨h.exportable, (inv_values (t := .vsl ow nl' t) ht h.inv).2.inv, (memory_base h.memory).2,
    offsets_zero_base h.zero, committed_base h.committed⟩

/-- Nullable fixed-size lists of committed arrays are complete. -/
theorem committed_exact {nl nl' : Bool} {w : Nat} {t : Ty} (ht : (Ty.fsl w nl' t).WF)
    {c : (arrayR nl (.fsl w nl' t)).C} (hc : (arrayL nl (.fsl w nl' t) ht).Inv c)
    (h : Committed nl (.fsl w nl' t) c) :
    ((arrayL nl (.fsl w nl' t) ht).abs c).length * w = ((arrayL nl' t ht.2).abs
      (valuesOf (baseR (.fsl w nl' t)) nl c : Flatten (arrayR nl' t).C).child).length := by
  have hv := inv_values (t := .fsl w nl' t) ht hc
  have hfl : ((baseL (.fsl w nl' t) ht).abs (valuesOf (baseR (.fsl w nl' t)) nl c)).length * w =
      ((arrayL nl' t ht.2).abs
        (valuesOf (baseR (.fsl w nl' t)) nl c : Flatten (arrayR nl' t).C).child).length :=
    (flat_abs_length (L := (nullL nl' (baseL t ht.2)).toLawfulColl) ht.1 hv).symm
  cases nl with
  | false => exact hfl
  | true =>
    cases hb : (c : Validity (baseR (.fsl w nl' t)).C).bitmap with
    | none =>
      have h1 : ((arrayL true (.fsl w nl' t) ht).abs c).length = _ :=
        length_of_map (node_abs_none hb ht)
      rw [h1]; exact hfl
    | some b =>
      obtain ⟨coll, bitmap⟩ := c
      change bitmap = some b at hb
      subst hb
      have h1 := hc.2 b rfl
      have h2 : ((arrayL true (.fsl w nl' t) ht).abs ⟨coll, some b⟩).length = b.abs.length :=
        length_of_mask rfl (by rw [Bitmap.abs_length]; exact h1.2)
      rw [h2, Bitmap.abs_length]
      have h3 := h.2 b rfl
      have h4 := (arrayL nl' t ht.2).len_ok (c := (coll : Flatten (arrayR nl' t).C).child) hv.1
      have h5 : (arrayR nl' t).len (coll : Flatten (arrayR nl' t).C).child = .ok (b.bits * w) := h3
      rw [h4] at h5
      exact (Res.ok.inj h5).symm

theorem bool_clean {m : Mem} {nl : Bool} {ht : Ty.bool.WF} {c : (arrayR nl .bool).C}
    {a : APlace nl .bool} {array : CArray} {schema : CSchema} (h : Held m nl .bool ht c a)
    (hd : Describes nl .bool c array schema) (hp : PointsTo nl .bool c a array) :
    Safe m .bool nl array schema ∧ ∀ e, ¬ Defect m .bool nl array schema e := by
  have hv := node_valid hd.1 ht h.inv
  have hb := inv_values (t := .bool) ht h.inv
  have hm := memory_base h.memory
  have hz := offsets_zero_base h.zero
  have hp1 : bufferAt array 1 = some (valuesPlace nl a : Nat) := hp.2
  have hl := length_values ht h.inv
  refine ⟨⟨node_safe hd.1 ht h.inv h.memory h.zero hp.1, ?_⟩, ?_⟩
  · intro p h1 h2 _
    rw [hp1] at h1
    rw [← Option.some.inj h1, hv.toNat]
    have hl' : ((arrayL nl .bool ht).abs c).length ≤ (valuesOf (baseR .bool) nl c : Bitmap).bits := by
      exact Nat.le_trans hl (Nat.le_of_eq (Bitmap.abs_length _))
    obtain ⟨bytes, h3, _⟩ := bits_read (b := (valuesOf (baseR .bool) nl c : Bitmap)) hb
      (hz (valuesOf (baseR .bool) nl c : Bitmap).offset (List.mem_singleton.2 rfl)) hm hl'
    exact fun h => nomatch h3.symm.trans h
  · intro e he
    rcases defect_bool he hv with h1 | h1
    · rw [hp1] at h1
      exact hm.1 (Option.some.inj h1.1)
    · exact node_null hd.1 ht h.inv h.memory h.zero hp.1 h1

theorem prim_clean {m : Mem} {nl : Bool} {pr : Prim} {ht : (Ty.prim pr).WF} {c : (arrayR nl (.prim pr)).C}
    {a : APlace nl (.prim pr)} {array : CArray} {schema : CSchema} (h : Held m nl (.prim pr) ht c a)
    (hd : Describes nl (.prim pr) c array schema) (hp : PointsTo nl (.prim pr) c a array) :
    Safe m (.prim pr) nl array schema ∧ ∀ e, ¬ Defect m (.prim pr) nl array schema e := by
  have hv := node_valid hd.1 ht h.inv
  have hm := memory_base h.memory
  have hp1 : bufferAt array 1 = some (valuesPlace nl a : Nat) := hp.2
  have hl := length_values ht h.inv
  refine ⟨⟨node_safe hd.1 ht h.inv h.memory h.zero hp.1, ?_⟩, ?_⟩
  · intro p h1 h2 _ _
    rw [hp1] at h1
    rw [← Option.some.inj h1, hv.toNat]
    have h3 := m.slice_take hm.2.2 hl
    exact fun h => nomatch h3.symm.trans h
  · intro e he
    rcases defect_prim he hv with ⟨_, h1 | ⟨q, h1, h2⟩⟩ | h1
    · rw [hp1] at h1
      exact hm.1 (Option.some.inj h1)
    · rw [hp1] at h1
      rw [← Option.some.inj h1] at h2
      exact h2 hm.2.1
    · exact node_null hd.1 ht h.inv h.memory h.zero hp.1 h1

/-- Structures that describe an array in memory, and point to it, meet the
contract of the importer, and nothing is wrong with them. -/
theorem clean {m : Mem} : (t : Ty) → (nl : Bool) → (ht : t.WF) → (c : (arrayR nl t).C) →
    (a : APlace nl t) → (array : CArray) → (schema : CSchema) → Held m nl t ht c a →
    Describes nl t c array schema → PointsTo nl t c a array →
    Safe m t nl array schema ∧ ∀ e, ¬ Defect m t nl array schema e
  | .bool, _, _, _, _, _, _, h, hd, hp => bool_clean h hd hp
  | .prim _, _, _, _, _, _, _, h, hd, hp => prim_clean h hd hp
  | .fsl w nl' t, nl, ht, c, a, array, schema, h, hd, hp => by
    have hv := node_valid hd.1 ht h.inv
    obtain ⟨array', schema', h1, h2, h3, h4⟩ := hd.2
    obtain ⟨array2, h5, h6, h7⟩ := hp.2
    rw [h1] at h5; cases h5
    have hk := h.fsl
    have ih := clean t nl' ht.2 _ _ array' schema' hk ⟨h3, h4⟩ ⟨h6, h7⟩
    have hv' := node_valid h3 ht.2 hk.inv
    refine ⟨⟨node_safe hd.1 ht h.inv h.memory h.zero hp.1, ?_⟩, ?_⟩
    · intro x y hx hy
      rw [h1] at hx; cases hx; rw [h2] at hy; cases hy
      exact ih.1
    · intro e he
      rcases defect_fsl he hv with h8 | h8 | h8 | ⟨x, h8, h9⟩ | ⟨x, y, h8, h9, h10⟩ | h8
      · have := ht.1; omega
      · rw [h1] at h8; cases h8
      · rw [h2] at h8; cases h8
      · rw [h1] at h8; cases h8
        rw [hv'.toNat] at h9
        exact h9 (committed_exact ht h.inv h.committed)
      · rw [h1] at h8; cases h8; rw [h2] at h9; cases h9
        exact ih.2 e h10
      · exact node_null hd.1 ht h.inv h.memory h.zero hp.1 h8
  | .vsl ow nl' t, nl, ht, c, a, array, schema, h, hd, hp => by
    have hv := node_valid hd.1 ht h.inv
    obtain ⟨array', schema', h1, h2, h3, h4⟩ := hd.2
    obtain ⟨hp1, array2, h5, h6, h7⟩ := hp.2
    rw [h1] at h5; cases h5
    have hk := h.vsl
    have ih := clean t nl' ht _ _ array' schema' hk ⟨h3, h4⟩ ⟨h6, h7⟩
    have hv' := node_valid (t := t) h3 ht hk.inv
    have hb := inv_values (t := .vsl ow nl' t) ht h.inv
    have hm := (memory_base h.memory).1
    have hl := length_values ht h.inv
    have hl' : ((arrayL nl (.vsl ow nl' t) ht).abs c).length ≤ (Offsets.abs (arrayL nl' t ht).toLawfulColl
        (valuesOf (baseR (.vsl ow nl' t)) nl c : Offsets (arrayR nl' t).C)).length := hl
    have hrep : Offsets.Rep (arrayL nl' t ht).toLawfulColl
      (valuesOf (baseR (.vsl ow nl' t)) nl c : Offsets (arrayR nl' t).C)
      (Offsets.abs (arrayL nl' t ht).toLawfulColl
        (valuesOf (baseR (.vsl ow nl' t)) nl c : Offsets (arrayR nl' t).C)) := hb.2
    have hval := rep_valid hrep hl'
    obtain ⟨vals, hs1, hs2⟩ := Option.map_eq_some_iff.1 hm.2.2
    have hlen : ((arrayL nl (.vsl ow nl' t) ht).abs c).length + 1 ≤
        (valuesOf (baseR (.vsl ow nl' t)) nl c : Offsets (arrayR nl' t).C).offsets.items.length := by
      have h8 := congrArg List.length hrep.items
      rw [Offsets.totals_length] at h8
      omega
    have hs3 := m.slice_take hs1 hlen
    refine ⟨⟨node_safe hd.1 ht h.inv h.memory h.zero hp.1, ?_, ?_⟩, ?_⟩
    · intro p h8 h9 _ _
      rw [hp1] at h8
      rw [← Option.some.inj h8, hv.toNat]
      exact fun h => nomatch hs3.symm.trans h
    · intro x y hx hy
      rw [h1] at hx; cases hx; rw [h2] at hy; cases hy
      exact ih.1
    · intro e he
      rcases defect_vsl he hv with h8 | h8 | h8 | ⟨x, y, z, v, h8, h9, h10, h11⟩ | ⟨x, y, h8, h9, h10⟩ | h8
      · rw [h1] at h8; cases h8
      · rw [h2] at h8; cases h8
      · rcases h8 with h8 | ⟨x, h8, h9⟩
        · rw [hp1] at h8; exact hm.1 (Option.some.inj h8)
        · rw [hp1] at h8; rw [← Option.some.inj h8] at h9; exact h9 hm.2.1
      · rw [hp1] at h8
        rw [← Option.some.inj h8] at h9
        rw [h1] at h10; cases h10
        rw [hv'.toNat, ← Option.some.inj (hs3.symm.trans h9), List.map_take, hs2] at h11
        exact valid_excl hval h11
      · rw [h1] at h8; cases h8; rw [h2] at h9; cases h9
        exact ih.2 e h10
      · exact node_null hd.1 ht h.inv h.memory h.zero hp.1 h8

end Narrow.Ffi
