import Verif.Props.Arrow
import Verif.Props.Uninterrupted

/-!
# Exporting imported arrays (C47)
-/

namespace Narrow.Props

open Spec Narrow.Ffi Narrow.Ffi.Spec

variable {m : Mem} {t : Ty} {nl : Bool} {c : (arrayR nl t).C} {a : APlace nl t}
  {array : CArray} {schema : CSchema}

/-- C47. An imported array is one that safe constructors build from borrowed
buffers, without bit offsets, and its buffers are in memory. -/
theorem C47_imported (he : Exportable t) (hs : Safe m t nl array schema)
    (h : importLayout m t nl array schema = .ok (c, a)) :
    t.WF ∧ Uninterrupted true nl t c ∧ InMemory m nl t c a := by
  have hg := import_good m t nl array schema he hs
  rw [h] at hg
  obtain ⟨n, ht, hi⟩ := hg
  exact ⟨ht, hi.whole, hi.inMemory⟩

/-- C47. Whatever structures an array was imported from, exporting it succeeds.
The new structures declare the same length and the exact null count, their buffer
pointers are the addresses of the borrowed buffers, and by the Arrow format they
denote the items of the array. Importing them gives an array with the same items. -/
theorem C47_reexport (he : Exportable t) (hs : Safe m t nl array schema)
    (h : importLayout m t nl array schema = .ok (c, a)) (next : Nat) :
    ∃ l array' schema', Shows nl t c l ∧
      (exportArray nl t c a next).result = .ok (.ok (array', schema')) ∧
      array'.length = array.length ∧ array'.nullCount.toInt = nulls nl l ∧
      Describes nl t c array' schema' ∧ PointsTo nl t c a array' ∧
      (∀ i (hi : i < l.length) x, Denotes m nl t array' i x ↔ x = l[i]) ∧
      ∃ c' a', importLayout m t nl array' schema' = .ok (c', a') ∧ Reach nl t c' ∧ Shows nl t c' l := by
  obtain ⟨ht, hu, hm⟩ := C47_imported he hs h
  obtain ⟨-, hr, l, hl, hn⟩ := C35_imported_is_valid he hs h
  obtain ⟨array', schema', c', a', h1, h2, h3, l', h4, h5⟩ := C44_round_trip ht he next hu hm
  have hd := C33_describes ht he hr hm h1
  have hx := C42_export_denotes ht he hr hm h1 hl
  have hc := reach_inv hr ht
  cases Reads.abs_eq (L := (arrayL nl t ht).toLawfulColl) hl hc
  cases Reads.abs_eq (L := (arrayL nl t ht).toLawfulColl) h4 hc
  obtain ⟨l', h6, h7, h8⟩ := hd.1.items
  cases Reads.abs_eq (L := (arrayL nl t ht).toLawfulColl) h6 hc
  exact ⟨_, array', schema', hl, h1, BitVec.eq_of_toInt_eq (by rw [hx.1, hn]), h8, hd,
    C34_export_points ht he hr hm h1, hx.2, c', a', h2, h3, h5⟩

/-- The sample is imported and exported again. -/
example : ∃ array' schema', (exportArray true Sample.ty FfiSample.coll FfiSample.place 7).result =
    .ok (.ok (array', schema')) ∧ array'.length = FfiSample.array.length := by
  obtain ⟨l, array', schema', -, h, h', -⟩ := C47_reexport FfiSample.exportable FfiSample.safe
    (c := FfiSample.coll) (a := FfiSample.place) rfl 7
  exact ⟨array', schema', h, h'⟩

end Narrow.Props
