import Verif.Proof.Conforms
import Verif.Proof.Described

/-! # Exported structures follow the Arrow format -/

namespace Narrow.Ffi

open Narrow.Spec Narrow.Ffi.Spec

variable {m : Mem}

theorem physical_eq {array : CArray} (h : array.offset.toInt = 0) : physical array = array.length.toNat := by
  rw [physical, toInt_zero h, Nat.zero_add]

theorem bits_there {b : Bitmap} {a n : Nat} (hi : b.Inv) (h0 : b.offset = 0) (hb : BitsAt m b a)
    (hn : n ≤ b.abs.length) : m.read a (bytesFor n) ≠ none := by
  rw [Bitmap.abs_length] at hn
  obtain ⟨bytes, h1, _⟩ := bits_read hi h0 hb hn
  rw [h1]; simp

theorem slice_there {k a n : Nat} {l : List (BitVec (8 * k))} (h : m.slice k a l.length = some l)
    (hn : n ≤ l.length) : m.slice k a n ≠ none := slice_less (by rw [h]; simp) hn

theorem offsets_there {O : Type} {K : Coll O} {L : LawfulColl K} {c : Offsets K.C} {rows : List (List O)}
    (hr : Offsets.Rep L c rows) {k a n : Nat} (hn : n ≤ rows.length)
    (h : (m.slice k a c.offsets.items.length).map (·.map BitVec.toInt) = some c.offsets.items) :
    ∃ values, m.slice k a (n + 1) = some values ∧
      (∀ i (h : i < values.length), 0 ≤ values[i].toInt ∧ values[i].toInt ≤ (L.abs c.data).length) ∧
      ∀ i (h : i + 1 < values.length), values[i].toInt ≤ values[i + 1].toInt := by
  obtain ⟨vals, h1, h2⟩ := Option.map_eq_some_iff.1 h
  have h3 : n + 1 ≤ c.offsets.items.length := by rw [hr.items, Offsets.totals_length]; omega
  have hv := rep_valid hr hn
  rw [← h2, ← List.map_take] at hv
  refine ⟨_, m.slice_take h1 h3, ?_⟩
  generalize vals.take (n + 1) = values at *
  obtain ⟨hne, ⟨_, hnonneg, hsorted⟩, hlast⟩ := hv
  have hle : ∀ i j (hi : i < values.length) (hj : j < values.length), i ≤ j →
      values[i].toInt ≤ values[j].toInt := by
    intro i j hi hj hij
    have := hsorted i j (by rw [List.length_map]; exact hi) (by rw [List.length_map]; exact hj) hij
    rwa [List.getElem_map, List.getElem_map] at this
  refine ⟨fun i hi => ⟨hnonneg _ (List.mem_map_of_mem (List.getElem_mem hi)), ?_⟩, fun i hi =>
    hle i (i + 1) (by omega) hi (by omega)⟩
  have h4 := hle i (values.length - 1) hi (by omega) (by omega)
  rw [List.getLast_eq_getElem, List.getElem_map] at hlast
  simp only [List.length_map] at hlast
  omega

theorem header_conforms {t : Ty} {nl : Bool} {c : (arrayR nl t).C} {a : APlace nl t} {array : CArray}
    {schema : CSchema} (h : Header nl t c array schema) (ht : t.WF) (hc : (arrayL nl t ht).Inv c)
    (hm : InMemory m nl t c a) (hz : ∀ o ∈ bitOffsets nl t c, o = 0)
    (hp : PointsValidity (baseR t) nl c a array) : ConformsHeader m t nl array schema := by
  have hv := node_valid h ht hc
  obtain ⟨hl, hn⟩ := h.eqs ht hc
  refine ⟨⟨h.live, h.schemaLive⟩, h.format, by rw [h.flags]; cases nl <;> decide,
    ⟨h.dictionary, h.schemaDictionary⟩, by omega, by have := h.offset; omega, ⟨h.nBuffers, ?_⟩,
    ⟨h.nChildren, h.children⟩, ⟨h.nSchemas, h.schemas⟩, fun h0 => ?_, fun p h0 hp0 => ?_⟩
  · have := h.buffers
    cases hb : array.buffers with
    | none => rw [hb] at this; cases t <;> cases this
    | some l => rw [hb] at this; exact ⟨l, rfl, this⟩
  · left
    cases nl with
    | false => exact hn
    | true =>
      cases hb : (c : Validity (baseR t).C).bitmap with
      | none =>
        rw [hn, nulls_of_map (node_abs_none hb ht)]; rfl
      | some b =>
        obtain ⟨q, h1, h2, _⟩ := node_bitmap hb ht hc hm hz hp
        rw [h0] at h1; cases h1; exact absurd rfl h2
  · cases nl with
    | false =>
      have : bufferAt array 0 = some 0 := hp
      rw [h0] at this; cases this; exact absurd rfl hp0
    | true =>
      cases hb : (c : Validity (baseR t).C).bitmap with
      | none =>
        obtain ⟨coll, bitmap⟩ := c
        change bitmap = none at hb
        subst hb
        have : bufferAt array 0 = some 0 := hp
        rw [h0] at this; cases this; exact absurd rfl hp0
      | some b =>
        obtain ⟨q, h1, h2, h3, h4, h5, h6, h7⟩ := node_bitmap hb ht hc hm hz hp
        rw [h0] at h1; cases h1
        have h8 := node_length_bitmap ht h6 h7
        obtain ⟨bytes, h9, h10⟩ := bits_read h3 h4 h5 (Nat.le_of_eq h8)
        rw [← hv.toNat] at h9
        have h14 : nulls true ((arrayL true t ht).abs c) = b.abs.countP (! ·) :=
          nulls_of_mask h7 (by rw [Bitmap.abs_length]; exact h6)
        rw [physical_eq h.offset, nullBits_eq h.offset h9]
        refine ⟨by rw [h9]; simp, .inl ?_, fun h => by cases h⟩
        rw [hn, hv.toNat, unset_count h10, h8, h14,
          List.take_of_length_le (by rw [Bitmap.abs_length]; exact Nat.le_refl _)]

theorem exported_conforms : (t : Ty) → (nl : Bool) → (ht : t.WF) → (c : (arrayR nl t).C) →
    (a : APlace nl t) → (array : CArray) → (schema : CSchema) → (arrayL nl t ht).Inv c →
    InMemory m nl t c a → (∀ o ∈ bitOffsets nl t c, o = 0) → Describes nl t c array schema →
    PointsTo nl t c a array → Conforms m t nl array schema
  | .bool, nl, ht, c, a, array, schema, hc, hm, hz, hd, hp => by
    refine ⟨header_conforms hd.1 ht hc hm hz hp.1, fun p h _ => ?_⟩
    have hv := node_valid hd.1 ht hc
    have hp2 : bufferAt array 1 = some (valuesPlace nl a) := hp.2
    rw [h] at hp2; cases hp2
    have hb : BaseAt m .bool (valuesOf (baseR .bool) nl c) (valuesPlace nl a) := memory_base hm
    refine ⟨hb.1, ?_⟩
    rw [physical_eq hd.1.offset, hv.toNat]
    exact bits_there (inv_values ht hc) (offsets_zero_base hz _ (List.mem_singleton.2 rfl)) hb
      (length_values ht hc)
  | .prim pr, nl, ht, c, a, array, schema, hc, hm, hz, hd, hp => by
    refine ⟨header_conforms hd.1 ht hc hm hz hp.1, fun p h _ => ?_⟩
    have hv := node_valid hd.1 ht hc
    have hp2 : bufferAt array 1 = some (valuesPlace nl a) := hp.2
    rw [h] at hp2; cases hp2
    obtain ⟨h1, _, h2⟩ := (memory_base hm : BaseAt m (.prim pr) (valuesOf (baseR (.prim pr)) nl c) _)
    refine ⟨h1, ?_⟩
    rw [physical_eq hd.1.offset, hv.toNat]
    exact slice_there h2 (length_values ht hc)
  | .fsl n nl' t, nl, ht, c, a, array, schema, hc, hm, hz, hd, hp => by
    have hh := header_conforms hd.1 ht hc hm hz hp.1
    have hv := node_valid hd.1 ht hc
    obtain ⟨array', schema', h1, h2, h3, h4⟩ := hd.2
    obtain ⟨array2, h5, h6, h7⟩ := hp.2
    rw [h1] at h5; cases h5
    have hi := inv_values ht hc
    have hi' : (arrayL nl' t ht.2).Inv (valuesOf (baseR (.fsl n nl' t)) nl c : Flatten _).child := hi.1
    refine ⟨hh, array', schema', h1, h2, ?_, exported_conforms t nl' ht.2 _ _ array' schema' hi'
      (memory_base hm) (offsets_zero_base hz) ⟨h3, h4⟩ ⟨h6, h7⟩⟩
    have hv' := node_valid h3 ht.2 hi'
    have hl := length_values ht hc
    have hf := flat_abs (L := (arrayL nl' t ht.2).toLawfulColl) ht.1 hi
    rw [physical_eq hd.1.offset, hv.toNat, hv'.toNat, ← hf, Flatten.flat_length]
    exact Nat.mul_le_mul_right n hl
  | .vsl ow nl' t, nl, ht, c, a, array, schema, hc, hm, hz, hd, hp => by
    have hh := header_conforms hd.1 ht hc hm hz hp.1
    have hv := node_valid hd.1 ht hc
    obtain ⟨array', schema', h1, h2, h3, h4⟩ := hd.2
    obtain ⟨h8, array2, h5, h6, h7⟩ := hp.2
    rw [h1] at h5; cases h5
    have ht' : t.WF := ht
    have hi := inv_values ht hc
    have hi' : (arrayL nl' t ht').Inv (valuesOf (baseR (.vsl ow nl' t)) nl c : Offsets _).data := hi.2.inv
    have hb := memory_base hm
    refine ⟨hh, array', schema', h1, h2, fun p h9 => .inr ?_, exported_conforms t nl' ht' _ _ array'
      schema' hi' hb.2 (offsets_zero_base hz) ⟨h3, h4⟩ ⟨h6, h7⟩⟩
    rw [h8] at h9; cases h9
    have hv' := node_valid h3 ht' hi'
    have hl := length_values ht hc
    obtain ⟨g1, _, g2⟩ := hb.1
    obtain ⟨values, g3, g4, g5⟩ := offsets_there hi.2 hl g2
    refine ⟨g1, values, ?_, fun i h _ => ⟨(g4 i h).1, ?_⟩, fun i h _ => g5 i h⟩
    · rw [physical_eq hd.1.offset, hv.toNat]; exact g3
    · rw [hv'.length]; exact (g4 i h).2

end Narrow.Ffi
