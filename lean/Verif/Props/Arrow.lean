import Verif.Proof.Arrow
import Verif.Props.Export

/-!
# C42, C43: agreement with the Arrow format

`Denotes m nl t array i x` (Verif/Spec/Arrow.lean): by the Arrow columnar format,
item `i` of the C structure `array` in memory `m` is `x`.
-/

namespace Narrow.Props

open Spec Narrow.Ffi Narrow.Ffi.Spec

variable {m : Mem} {nl : Bool} {t : Ty}

/-- By the Arrow format an item is at most one value. -/
theorem C42_denotes_unique {array : CArray} {i : Nat} {x y : ItemVal nl (Val t)}
    (hx : Denotes m nl t array i x) (hy : Denotes m nl t array i y) : x = y :=
  denotes_null_unique (denotes_unique m t array i) nl x y hx hy

/-- C42. Whatever array is exported, a consumer that decodes the structures by the
Arrow format finds exactly its items. -/
theorem C42_export_denotes {c : (arrayR nl t).C} {a : APlace nl t} (ht : t.WF) (he : Exportable t)
    {next : Nat} (hr : Reach nl t c) (hm : InMemory m nl t c a) {array : CArray} {schema : CSchema}
    (h : (exportArray nl t c a next).result = .ok (.ok (array, schema)))
    {l : List (ItemVal nl (Val t))} (hl : Shows nl t c l) :
    array.length.toInt = l.length ∧
      ∀ i (hi : i < l.length) x, Denotes m nl t array i x ↔ x = l[i] := by
  have hc := reach_inv hr ht
  have hz : ∀ o ∈ bitOffsets nl t c, o = 0 := fun o ho => Decidable.byContradiction fun hn => by
    obtain ⟨o', h'⟩ := (C32_iff ht he next hr hm).2 ⟨o, ho, hn⟩
    rw [h] at h'; simp at h'
  have hd := C33_describes ht he hr hm h
  have hp := C34_export_points ht he hr hm h
  obtain ⟨l', h1, h2, -⟩ := hd.1.items
  cases Reads.abs_eq (L := (arrayL nl t ht).toLawfulColl) hl hc
  cases Reads.abs_eq (L := (arrayL nl t ht).toLawfulColl) h1 hc
  have ho := toInt_zero hd.1.offset
  have hv := reflect_validity ht hc hm hz hp.1
  have hx := reflect_exported m t ht _ _ array schema (inv_values ht hc) (memory_base hm)
    (offsets_zero_base hz) hp.2 hd.2
  have hall := decode_null ht ho hv (decode m t ht _ array (inv_values ht hc) ho hx)
  refine ⟨h2, fun i hi x => ⟨fun h => C42_denotes_unique h (hall i hi), fun h => ?_⟩⟩
  rw [h]; exact hall i hi

/-- The reader of `Denotes` at work: in the sample, item 1 is null, item 3 is the
list of one pair `[true, true]`. -/
example : Denotes FfiSample.mem true Sample.ty FfiSample.array 1 (none : Option _) ∧
    Denotes FfiSample.mem true Sample.ty FfiSample.array 3
      (some [some (Sample.pair true true)] : Option (List (Option (FixArr Bool 2)))) := by
  refine ⟨⟨8, by decide, rfl, by decide⟩, .inr ⟨8, by decide, rfl, by decide⟩,
    FfiSample.pairsArray, 16, 2, 3, rfl, rfl, by decide, by decide, rfl, fun j hj => ?_⟩
  match j, hj with
  | 0, _ =>
    refine ⟨.inr ⟨9, by decide, rfl, by decide⟩, FfiSample.bitsArray, rfl, fun k hk => ?_⟩
    match k, hk with
    | 0, _ => exact ⟨10, rfl, rfl⟩
    | 1, _ => exact ⟨10, rfl, rfl⟩

/-- The hypotheses of C42 are met by the sample. -/
example : ∃ array schema l,
    (exportArray true Sample.ty FfiSample.coll FfiSample.place 0).result = .ok (.ok (array, schema)) ∧
      Shows true Sample.ty FfiSample.coll l ∧ array.length.toInt = l.length ∧
      ∀ i (hi : i < l.length) x, Denotes FfiSample.mem true Sample.ty array i x ↔ x = l[i] := by
  obtain ⟨array, schema, c', a', h, _, _, l, hl, _⟩ := C31_round_trip FfiSample.wf FfiSample.exportable 0
    FfiSample.reach FfiSample.inMemory FfiSample.zero FfiSample.committed
  exact ⟨array, schema, l, h, hl, C42_export_denotes FfiSample.wf FfiSample.exportable FfiSample.reach
    FfiSample.inMemory h hl⟩

/-- C43. Whatever structures are imported, the array shows exactly the items the
structures denote by the Arrow format. -/
theorem C43_import_denotes {array : CArray} {schema : CSchema} (he : Exportable t)
    (hs : Safe m t nl array schema) {c : (arrayR nl t).C} {a : APlace nl t}
    (h : importLayout m t nl array schema = .ok (c, a)) {l : List (ItemVal nl (Val t))}
    (hl : Shows nl t c l) :
    array.length.toInt = l.length ∧
      ∀ i (hi : i < l.length) x, Denotes m nl t array i x ↔ x = l[i] := by
  have hg := import_good m t nl array schema he hs
  rw [h] at hg
  obtain ⟨n, ht, hi⟩ := hg
  have hc := reach_inv hi.reach ht
  cases Reads.abs_eq (L := (arrayL nl t ht).toLawfulColl) hl hc
  have ho : array.offset.toNat = 0 :=
    toInt_zero (Decidable.byContradiction fun h => hi.clean _ (.nonZeroOffset h))
  have hv := reflect_borrowed_validity ht hc hi.borrows.1
  have hx := reflect_imported m t ht nl _ _ array schema (inv_values ht hc) hi.borrows.2 hi.clean
  have hall := decode_null ht ho hv (decode m t ht _ array (inv_values ht hc) ho hx)
  refine ⟨by rw [hi.len, hi.valid.length], fun i hi x => ⟨fun h => C42_denotes_unique h (hall i hi), fun h => ?_⟩⟩
  rw [h]; exact hall i hi

/-- The hypotheses of C43 are met by the sample. -/
example : ∃ l, Shows true Sample.ty FfiSample.coll l ∧ FfiSample.array.length.toInt = l.length ∧
    ∀ i (hi : i < l.length) x, Denotes FfiSample.mem true Sample.ty FfiSample.array i x ↔ x = l[i] := by
  obtain ⟨_, _, l, hl, _⟩ := C35_imported_is_valid FfiSample.exportable FfiSample.safe
    (c := FfiSample.coll) (a := FfiSample.place) rfl
  exact ⟨l, hl, C43_import_denotes FfiSample.exportable FfiSample.safe rfl hl⟩

end Narrow.Props
