import Verif.Proof.Described
import Verif.Spec.Arrow

/-! # Decoding C arrays by the Arrow format -/

namespace Narrow.Ffi

open Narrow.Ffi.Spec Narrow.Spec

/-! ## Memory -/

theorem Mem.read_byte (m : Mem) : ∀ {n p : Nat} {l : List Byte}, m.read p n = some l →
    ∀ i (h : i < l.length), m.byte (p + i) = some l[i]
  | 0, p, l, h, i, hi => by simp [Mem.read] at h; subst h; simp at hi
  | n + 1, p, l, h, i, hi => by
    simp only [Mem.read, Option.bind_eq_some_iff, Option.map_eq_some_iff] at h
    obtain ⟨b, hb, l', hl, rfl⟩ := h
    cases i with
    | zero => simpa using hb
    | succ i =>
      have := m.read_byte hl i (by simpa using hi)
      rw [Nat.add_assoc, Nat.add_comm 1 i] at this
      simpa using this

theorem Mem.slice_elem (m : Mem) {k : Nat} : ∀ {n p : Nat} {l}, m.slice k p n = some l →
    ∀ i (h : i < l.length), memElem m k p i = some l[i]
  | 0, p, l, h, i, hi => by simp [Mem.slice] at h; subst h; simp at hi
  | n + 1, p, l, h, i, hi => by
    simp only [Mem.slice, Option.bind_eq_some_iff, Option.map_eq_some_iff] at h
    obtain ⟨b, hb, l', hl, rfl⟩ := h
    cases i with
    | zero => simp [memElem, hb]
    | succ i =>
      have := m.slice_elem hl i (by simpa using hi)
      simp only [memElem, Nat.add_assoc] at this ⊢
      rw [Nat.mul_succ, Nat.add_comm (k * i) k]
      simpa using this

theorem memBit_read {m : Mem} {n p i : Nat} {l : List Byte} (h : m.read p n = some l)
    (hi : i < 8 * l.length) : memBit m p i = some (bitAt l i) := by
  have hd : i / 8 < l.length := by omega
  unfold memBit bitAt
  rw [m.read_byte h _ hd, List.getD_eq_getElem?_getD, List.getElem?_eq_getElem hd]
  rfl

theorem memBit_bitmap {m : Mem} {b : Bitmap} {n p : Nat} (hb : b.Inv) (h0 : b.offset = 0)
    (h : m.read p n = some b.buffer.items) (i : Nat) (hi : i < b.abs.length) :
    memBit m p i = some b.abs[i] := by
  have hle := hb.le
  have hi' := hi
  rw [Bitmap.abs_length] at hi'
  rw [memBit_read h (by omega), Bitmap.abs_getElem, h0, Nat.zero_add]

/-! ## Structures that reflect an array -/

/-- The validity bits are in memory where the structure says. -/
def ReflValidity (m : Mem) {O : Type} (R : Realloc O) : (nl : Bool) → (nullR nl R).C → CArray → Prop
  | false, _, _ => True
  | true, (v : Validity R.C), array =>
    match v.bitmap with
    | none => bufferAt array 0 = some 0
    | some b => ∃ p, p ≠ 0 ∧ bufferAt array 0 = some p ∧
      ∀ i (h : i < b.abs.length), memBit m p i = some b.abs[i]

/-- The elements are in memory where the structure says. -/
def ReflValues (m : Mem) : (t : Ty) → (baseR t).C → CArray → Prop
  | .bool, (b : Bitmap), array => ∀ i (h : i < b.abs.length),
    ∃ p, bufferAt array 1 = some p ∧ memBit m p i = some b.abs[i]
  | .prim pr, (v : RVec (PrimVal pr)), array => ∀ i (h : i < v.items.length),
    ∃ p, bufferAt array 1 = some p ∧ memElem m pr.size p i = some v.items[i]
  | .fsl _ nl t, (c : Flatten (nullR nl (baseR t)).C), array =>
    ∃ array', firstChild array = some array' ∧ array'.offset.toNat = 0 ∧
      ReflValidity m (baseR t) nl c.child array' ∧ ReflValues m t (valuesOf (baseR t) nl c.child) array'
  | .vsl ow nl t, (c : Offsets (nullR nl (baseR t)).C), array =>
    (∃ p, bufferAt array 1 = some p ∧ ∀ i (h : i < c.offsets.items.length),
      (memElem m (offBytes ow) p i).map BitVec.toInt = some c.offsets.items[i]) ∧
    ∃ array', firstChild array = some array' ∧ array'.offset.toNat = 0 ∧
      ReflValidity m (baseR t) nl c.data array' ∧ ReflValues m t (valuesOf (baseR t) nl c.data) array'

/-! ## Decoding -/

theorem den_map {m : Mem} {O : Type} {base : Nat → O → Prop} {array : CArray} {l : List (Option O)}
    {xs : List O} (h : l = xs.map some) (hz : bufferAt array 0 = some 0)
    (hb : ∀ i (h : i < xs.length), base i xs[i]) (i : Nat) (hi : i < l.length) :
    DenotesNullable m (base i) array i true (l[i] : Option O) := by
  subst h
  simp only [List.getElem_map, DenotesNullable]
  exact ⟨.inl hz, hb _ _⟩

theorem den_mask {m : Mem} {O : Type} {base : Nat → O → Prop} {array : CArray} {l : List (Option O)}
    {xs : List O} {bs : List Bool} (h : l = Validity.mask xs bs) (ho : array.offset.toNat = 0)
    {p : Nat} (hp : p ≠ 0) (hz : bufferAt array 0 = some p)
    (hm : ∀ i (h : i < bs.length), memBit m p i = some bs[i])
    (hb : ∀ i (h : i < xs.length), base i xs[i]) (i : Nat) (hi : i < l.length) :
    DenotesNullable m (base i) array i true (l[i] : Option O) := by
  subst h
  have hi' := hi
  rw [Validity.mask_length] at hi'
  have hx := hb i (by omega)
  have hy := hm i (by omega)
  rw [Validity.mask_getElem hi]
  cases hbit : bs[i]'(by omega) with
  | false =>
    rw [hbit] at hy
    refine (?_ : ItemNull m array i)
    exact ⟨p, hp, hz, by rw [position, ho, Nat.zero_add]; exact hy⟩
  | true =>
    rw [hbit] at hy
    refine (⟨.inr ?_, hx⟩ : ItemValid m array i ∧ base i _)
    exact ⟨p, hp, hz, by rw [position, ho, Nat.zero_add]; exact hy⟩

theorem decode_null {m : Mem} {t : Ty} {nl : Bool} {c : (arrayR nl t).C} {array : CArray} (ht : t.WF)
    (ho : array.offset.toNat = 0) (hv : ReflValidity m (baseR t) nl c array)
    (hb : ∀ i (h : i < ((baseL t ht).abs (valuesOf (baseR t) nl c)).length),
      DenotesValue m t array i ((baseL t ht).abs (valuesOf (baseR t) nl c))[i])
    (i : Nat) (hi : i < ((arrayL nl t ht).abs c).length) :
    Denotes m nl t array i ((arrayL nl t ht).abs c)[i] := by
  cases nl with
  | false => exact hb i hi
  | true =>
    obtain ⟨coll, bitmap⟩ := c
    cases bitmap with
    | none =>
      exact den_map (base := fun i v => DenotesValue m t array i v)
        (l := (arrayL true t ht).abs (⟨coll, none⟩ : Validity (baseR t).C))
        (xs := (baseL t ht).abs coll) rfl hv hb i hi
    | some b =>
      obtain ⟨p, hp, hz, hm⟩ := hv
      exact den_mask (base := fun i v => DenotesValue m t array i v)
        (l := (arrayL true t ht).abs (⟨coll, some b⟩ : Validity (baseR t).C))
        (xs := (baseL t ht).abs coll) (bs := b.abs) rfl ho hp hz hm hb i hi

theorem row_elem {O : Type} {rows : List (List O)} {data : List O} (hp : rows.flatten <+: data)
    {i j : Nat} (hi : i < rows.length) (hj : j < rows[i].length) :
    ∃ h : (rows.take i).flatten.length + j < data.length,
      rows[i][j] = data[(rows.take i).flatten.length + j] := by
  have h1 := Offsets.flatten_take_succ rows i hi
  have h2 : (rows.take (i + 1)).flatten <+: data := by
    refine List.IsPrefix.trans ?_ hp
    conv => rhs; rw [← List.take_append_drop (i + 1) rows, List.flatten_append]
    exact List.prefix_append _ _
  obtain ⟨rest, hr⟩ := h2
  rw [h1] at hr
  subst hr
  refine ⟨by simp; omega, ?_⟩
  rw [List.getElem_append_left (by simp; omega), List.getElem_append_right (by simp)]
  simp

theorem den_row {O : Type} {n : Nat} {child : List O} {rows : List (FixArr O n)}
    (hf : Flatten.flat rows = child) {P : Nat → O → Prop}
    (hd : ∀ k (h : k < child.length), P k child[k]) (i : Nat) (hi : i < rows.length) (j : Nat)
    (hj : j < rows[i].1.length) : P (i * n + j) rows[i].1[j] := by
  subst hf
  have hj' : j < n := by rw [← rows[i].2]; exact hj
  have hlt : i * n + j < (Flatten.flat rows).length := by
    rw [Flatten.flat_length]
    have := Nat.mul_le_mul_right n hi
    rw [Nat.succ_mul] at this
    omega
  have := hd _ hlt
  rwa [Flatten.flat_getElem rows i j hi hj' hlt] at this

theorem den_slice {O : Type} {data : List O} {rows : List (List O)} {offs : List Int}
    (ho : offs = Offsets.totals 0 rows) (hp : rows.flatten <+: data) {P : Nat → O → Prop}
    (hd : ∀ k (h : k < data.length), P k data[k]) (i : Nat) (hi : i < rows.length) :
    ∃ start stop, offs[i]? = some (Int.ofNat start) ∧ offs[i + 1]? = some (Int.ofNat stop) ∧
      stop = start + rows[i].length ∧ ∀ j (hj : j < rows[i].length), P (start + j) rows[i][j] := by
  subst ho
  refine ⟨(rows.take i).flatten.length, (rows.take (i + 1)).flatten.length, ?_, ?_, ?_, fun j hj => ?_⟩
  · rw [Offsets.totals_get _ _ _ (by omega)]; simp
  · rw [Offsets.totals_get _ _ _ (by omega)]; simp
  · rw [Offsets.flatten_take_succ rows i hi]; simp
  · obtain ⟨h, he⟩ := row_elem hp hi hj
    rw [he]; exact hd _ h

theorem elem_some {m : Mem} {k p i : Nat} {offs : List Int} {x : Int}
    (hm : ∀ i (h : i < offs.length), (memElem m k p i).map BitVec.toInt = some offs[i])
    (h : offs[i]? = some x) : (memElem m k p i).map BitVec.toInt = some x := by
  obtain ⟨hi, he⟩ := List.getElem?_eq_some_iff.1 h
  rw [hm i hi, he]

theorem decode (m : Mem) : (t : Ty) → (ht : t.WF) → (c : (baseR t).C) → (array : CArray) →
    (baseL t ht).Inv c → array.offset.toNat = 0 → ReflValues m t c array →
    ∀ i (h : i < ((baseL t ht).abs c).length), DenotesValue m t array i ((baseL t ht).abs c)[i]
  | .bool, _, (b : Bitmap), array, hc, ho, hr, i, hi => by
    obtain ⟨p, hp, hm⟩ := hr i hi
    exact ⟨p, hp, by rw [position, ho, Nat.zero_add]; exact hm⟩
  | .prim pr, _, (v : RVec (PrimVal pr)), array, hc, ho, hr, i, hi => by
    obtain ⟨p, hp, hm⟩ := hr i hi
    exact ⟨p, hp, by rw [position, ho, Nat.zero_add]; exact hm⟩
  | .fsl n nl t, ht, (c : Flatten (nullR nl (baseR t)).C), array, hc, ho, hr, i, hi => by
    obtain ⟨array', hf, ho', hv, hr'⟩ := hr
    have hc' : (arrayL nl t ht.2).Inv c.child := hc.1
    have ih := decode m t ht.2 _ array' (inv_values ht.2 hc') ho' hr'
    have hd := decode_null ht.2 ho' hv ih
    refine ⟨array', hf, fun j hj => ?_⟩
    rw [position, ho, Nat.zero_add]
    have hflat : Flatten.flat ((baseL (.fsl n nl t) ht).abs c) = (arrayL nl t ht.2).abs c.child :=
      flat_abs (L := (arrayL nl t ht.2).toLawfulColl) ht.1 hc
    exact den_row hflat (P := fun k x => Denotes m nl t array' k x) hd i hi j hj
  | .vsl ow nl t, ht, (c : Offsets (nullR nl (baseR t)).C), array, hc, ho, hr, i, hi => by
    obtain ⟨⟨p, hp, hm⟩, array', hf, ho', hv, hr'⟩ := hr
    have ht' : t.WF := ht
    have hrep := hc.2
    have hc' : (arrayL nl t ht').Inv c.data := hrep.inv
    have ih := decode m t ht' _ array' (inv_values ht' hc') ho' hr'
    have hd := decode_null ht' ho' hv ih
    obtain ⟨start, stop, h1, h2, h3, h4⟩ := den_slice hrep.items hrep.pre
      (P := fun k x => Denotes m nl t array' k x) hd i hi
    refine ⟨array', p, start, stop, hf, hp, ?_, ?_, h3, h4⟩
    · rw [position, ho, Nat.zero_add]; exact elem_some hm h1
    · rw [position, ho, Nat.zero_add]; exact elem_some hm h2

/-! ## Exported and imported structures reflect the array -/

theorem toInt_zero {i : I64} (h : i.toInt = 0) : i.toNat = 0 := by
  have := i64_ext (i := i) (j := 0#64)
  rw [this.2 (by rw [h]; rfl)]
  rfl

theorem reflect_validity {m : Mem} {t : Ty} {nl : Bool} {c : (arrayR nl t).C} {a : APlace nl t}
    {array : CArray} (ht : t.WF) (hc : (arrayL nl t ht).Inv c) (hm : InMemory m nl t c a)
    (hz : ∀ o ∈ bitOffsets nl t c, o = 0) (hp : PointsValidity (baseR t) nl c a array) :
    ReflValidity m (baseR t) nl c array := by
  cases nl with
  | false => trivial
  | true =>
    cases hb : (c : Validity (baseR t).C).bitmap with
    | none =>
      obtain ⟨coll, bitmap⟩ := c
      change bitmap = none at hb
      subst hb
      exact hp
    | some b =>
      obtain ⟨p, h1, h2, h3, h4, h5, _⟩ := node_bitmap hb ht hc hm hz hp
      obtain ⟨coll, bitmap⟩ := c
      change bitmap = some b at hb
      subst hb
      exact ⟨p, h2, h1, memBit_bitmap h3 h4 h5.2⟩

theorem map_elem {m : Mem} {k p n : Nat} {offs : List Int}
    (h : (m.slice k p n).map (·.map BitVec.toInt) = some offs) (i : Nat) (hi : i < offs.length) :
    (memElem m k p i).map BitVec.toInt = some offs[i] := by
  obtain ⟨l, hl, rfl⟩ := Option.map_eq_some_iff.1 h
  rw [m.slice_elem hl i (by simpa using hi)]
  simp

theorem reflect_exported (m : Mem) : (t : Ty) → (ht : t.WF) → (c : (baseR t).C) → (a : Place t) →
    (array : CArray) → (schema : CSchema) → (baseL t ht).Inv c → BaseAt m t c a →
    (∀ o ∈ baseOffsets t c, o = 0) → PointsValues t c a array → DescribesChild t c array schema →
    ReflValues m t c array
  | .bool, _, (b : Bitmap), (a : Nat), array, _, hc, hm, hz, hp, _ => fun i hi =>
    ⟨a, hp, memBit_bitmap hc (hz _ (List.mem_singleton.2 rfl)) hm.2 i hi⟩
  | .prim pr, _, (v : RVec (PrimVal pr)), (a : Nat), array, _, hc, hm, hz, hp, _ => fun i hi =>
    ⟨a, hp, m.slice_elem hm.2.2 i hi⟩
  | .fsl n nl t, ht, (c : Flatten (nullR nl (baseR t)).C), (a : NPlace nl (Place t)), array, schema,
      hc, hm, hz, hp, hd => by
    obtain ⟨array', hf, hp1, hp2⟩ := hp
    obtain ⟨array'', schema', hf', hs, hh, hd'⟩ := hd
    rw [hf] at hf'; cases hf'
    have hc' : (arrayL nl t ht.2).Inv c.child := hc.1
    exact ⟨array', hf, toInt_zero hh.offset, reflect_validity ht.2 hc' hm hz hp1,
      reflect_exported m t ht.2 _ _ array' schema' (inv_values ht.2 hc') (memory_base hm)
        (offsets_zero_base hz) hp2 hd'⟩
  | .vsl ow nl t, ht, (c : Offsets (nullR nl (baseR t)).C), (a : Nat × NPlace nl (Place t)), array,
      schema, hc, hm, hz, hp, hd => by
    obtain ⟨hp0, array', hf, hp1, hp2⟩ := hp
    obtain ⟨array'', schema', hf', hs, hh, hd'⟩ := hd
    rw [hf] at hf'; cases hf'
    have ht' : t.WF := ht
    have hc' : (arrayL nl t ht').Inv c.data := hc.2.inv
    exact ⟨⟨a.1, hp0, map_elem hm.1.2.2⟩, array', hf, toInt_zero hh.offset,
      reflect_validity ht' hc' hm.2 hz hp1,
      reflect_exported m t ht' _ _ array' schema' (inv_values ht' hc') (memory_base hm.2)
        (offsets_zero_base hz) hp2 hd'⟩

theorem reflect_borrowed_validity {m : Mem} {t : Ty} {nl : Bool} {c : (arrayR nl t).C}
    {a : APlace nl t} {array : CArray} (ht : t.WF) (hc : (arrayL nl t ht).Inv c)
    (hb : BorrowsValidity m (baseR t) nl c a array) : ReflValidity m (baseR t) nl c array := by
  cases nl with
  | false => trivial
  | true =>
    obtain ⟨coll, bitmap⟩ := c
    cases bitmap with
    | none => exact hb
    | some b =>
      obtain ⟨p, h1, h2, _, _, h5, h6⟩ := hb
      have hi : b.Inv := (hc.2 b rfl).1
      exact ⟨p, h1, h2, memBit_bitmap hi h5 h6⟩

theorem reflect_imported (m : Mem) : (t : Ty) → (ht : t.WF) → (nl : Bool) → (c : (baseR t).C) →
    (a : Place t) → (array : CArray) → (schema : CSchema) → (baseL t ht).Inv c →
    BorrowsValues m t c a array → (∀ e, ¬ Defect m t nl array schema e) → ReflValues m t c array
  | .bool, _, _, (b : Bitmap), (a : Nat), array, _, hc, hb, _ => fun i hi => by
    obtain ⟨h1, h2, h3 | ⟨h3, h4⟩⟩ := hb
    · rw [Bitmap.abs_length] at hi; omega
    · exact ⟨a, h3, memBit_bitmap hc h2 h4 i hi⟩
  | .prim pr, _, _, (v : RVec (PrimVal pr)), (a : Nat), array, _, hc, hb, _ => fun i hi => by
    rcases hb with ⟨_, h3⟩ | ⟨h3, h4⟩
    · rw [h3] at hi; simp at hi
    · exact ⟨a, h3, m.slice_elem h4 i hi⟩
  | .fsl n nl' t, ht, nl, (c : Flatten (nullR nl' (baseR t)).C), (a : NPlace nl' (Place t)), array,
      schema, hc, hb, hd => by
    obtain ⟨array', hf, hb1, hb2⟩ := hb
    have hc' : (arrayL nl' t ht.2).Inv c.child := hc.1
    cases hs : firstSchema schema with
    | none => exact absurd (.missingSchemaChildren (by simp [childTy]) hs) (hd _)
    | some schema' =>
      have hd' : ∀ e, ¬ Defect m t nl' array' schema' e := fun e he =>
        hd e (.child rfl hf hs he)
      refine ⟨array', hf, toInt_zero (Decidable.byContradiction fun h => hd' _ (.nonZeroOffset h)),
        reflect_borrowed_validity ht.2 hc' hb1,
        reflect_imported m t ht.2 nl' _ _ array' schema' (inv_values ht.2 hc') hb2 hd'⟩
  | .vsl ow nl' t, ht, nl, (c : Offsets (nullR nl' (baseR t)).C), (a : Nat × NPlace nl' (Place t)),
      array, schema, hc, hb, hd => by
    obtain ⟨hb0, hbo, array', hf, hb1, hb2⟩ := hb
    have ht' : t.WF := ht
    have hc' : (arrayL nl' t ht').Inv c.data := hc.2.inv
    cases hs : firstSchema schema with
    | none => exact absurd (.missingSchemaChildren (by simp [childTy]) hs) (hd _)
    | some schema' =>
      have hd' : ∀ e, ¬ Defect m t nl' array' schema' e := fun e he =>
        hd e (.child rfl hf hs he)
      exact ⟨⟨a.1, hb0, map_elem hbo⟩, array', hf,
        toInt_zero (Decidable.byContradiction fun h => hd' _ (.nonZeroOffset h)),
        reflect_borrowed_validity ht' hc' hb1,
        reflect_imported m t ht' nl' _ _ array' schema' (inv_values ht' hc') hb2 hd'⟩

/-! ## An item denotes at most one value -/

theorem denotes_null_unique {m : Mem} {O : Type} {base : O → Prop} {array : CArray} {i : Nat}
    (hb : ∀ x y, base x → base y → x = y) : (nl : Bool) → (x y : ItemVal nl O) →
    DenotesNullable m base array i nl x → DenotesNullable m base array i nl y → x = y
  | false, x, y, hx, hy => hb x y hx hy
  | true, none, none, _, _ => rfl
  | true, some x, some y, hx, hy => congrArg some (hb x y hx.2 hy.2)
  | true, none, some y, hx, hy => (valid_not_null hy.1 hx).elim
  | true, some x, none, hx, hy => (valid_not_null hx.1 hy).elim
where
  valid_not_null {m : Mem} {array : CArray} {i : Nat} (h : ItemValid m array i)
      (h' : ItemNull m array i) : False := by
    obtain ⟨p, hp, h1, h2⟩ := h'
    rcases h with h | ⟨q, hq, h3, h4⟩
    · rw [h] at h1; cases h1; exact hp rfl
    · rw [h1] at h3; cases h3; rw [h2] at h4; cases h4

theorem denotes_unique (m : Mem) : (t : Ty) → (array : CArray) → (i : Nat) → (x y : Val t) →
    DenotesValue m t array i x → DenotesValue m t array i y → x = y
  | .bool, array, i, x, y, ⟨p, h1, h2⟩, ⟨q, h3, h4⟩ => by
    rw [h1] at h3; cases h3; rw [h2] at h4; cases h4; rfl
  | .prim pr, array, i, x, y, ⟨p, h1, h2⟩, ⟨q, h3, h4⟩ => by
    rw [h1] at h3; cases h3; rw [h2] at h4; cases h4; rfl
  | .fsl n nl t, array, i, (x : FixArr (ItemVal nl (Val t)) n), (y : FixArr (ItemVal nl (Val t)) n),
      ⟨k, h1, h2⟩, ⟨k', h3, h4⟩ => by
    rw [h1] at h3; cases h3
    refine Subtype.ext (List.ext_getElem (x.2.trans y.2.symm) fun j hx hy => ?_)
    exact denotes_null_unique (denotes_unique m t k _) nl _ _ (h2 j hx) (h4 j hy)
  | .vsl ow nl t, array, i, (x : List (ItemVal nl (Val t))), (y : List (ItemVal nl (Val t))),
      ⟨k, p, s, e, h1, h2, h3, h4, h5, h6⟩, ⟨k', p', s', e', g1, g2, g3, g4, g5, g6⟩ => by
    rw [h1] at g1; cases g1
    rw [h2] at g2; cases g2
    rw [h3] at g3
    rw [h4] at g4
    have hs : s = s' := by injection g3 with g; exact Int.ofNat.inj g
    have he : e = e' := by injection g4 with g; exact Int.ofNat.inj g
    subst hs he
    refine List.ext_getElem (by omega) fun j hx hy => ?_
    exact denotes_null_unique (denotes_unique m t k _) nl _ _ (h6 j hx) (g6 j hy)

end Narrow.Ffi
