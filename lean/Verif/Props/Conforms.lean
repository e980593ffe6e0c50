import Verif.Proof.Exported
import Verif.Props.Import
import Verif.Props.Arrow

/-!
# C77: the importer and the Arrow format

`Conforms m t nl array schema` (Verif/Spec/Conforms.lean): the structures follow the
Arrow format for items of type `t` (of `Option<t>` if `nl`). `Unsupported`: they use
something the format allows and the importer does not support.
-/

namespace Narrow.Props

open Spec Narrow.Ffi Narrow.Ffi.Spec

variable {m : Mem} {nl : Bool} {t : Ty} {array : CArray} {schema : CSchema}

/-- C77. Of the structures that follow the Arrow format, whoever made them, exactly
those that use something unsupported are rejected. -/
theorem C77_accepts_iff (he : Exportable t) (hc : Conforms m t nl array schema) :
    (∃ r, importLayout m t nl array schema = .ok r) ↔ ∀ e, ¬ Unsupported m t nl array schema e := by
  rw [C36_accepts_iff he (conforms_safe t hc)]
  exact ⟨fun h e hu => h e (unsupported_defect hu hc), fun hu e hd => conforms_clean hd hc hu⟩

/-- C77. The import of structures that follow the Arrow format returns an array or an
error: it does not panic and reads nothing it may not read. An error is not given
without something unsupported. -/
theorem C77_returns (he : Exportable t) (hc : Conforms m t nl array schema) :
    (∃ r, importLayout m t nl array schema = .ok r) ∨
      (∃ e, importLayout m t nl array schema = .err e) ∧ ∃ e, Unsupported m t nl array schema e := by
  rcases C35_import_returns he (conforms_safe t hc) with h | ⟨e, h⟩
  · exact .inl h
  · refine .inr ⟨⟨e, h⟩, Classical.byContradiction fun hn => ?_⟩
    obtain ⟨r, h'⟩ := (C77_accepts_iff he hc).2 fun e hu => hn ⟨e, hu⟩
    rw [h] at h'
    cases h'

/-- C77. Structures that follow the Arrow format and use nothing unsupported are
imported as an array of exactly the items they denote. -/
theorem C77_items (he : Exportable t) (hc : Conforms m t nl array schema)
    (hu : ∀ e, ¬ Unsupported m t nl array schema e) :
    ∃ c a l, importLayout m t nl array schema = .ok (c, a) ∧ Reach nl t c ∧ Shows nl t c l ∧
      array.length.toInt = l.length ∧
      ∀ i (hi : i < l.length) x, Denotes m nl t array i x ↔ x = l[i] := by
  obtain ⟨⟨c, a⟩, h⟩ := (C77_accepts_iff he hc).2 hu
  have hs := conforms_safe t hc
  obtain ⟨_, hr, l, hl, _⟩ := C35_imported_is_valid he hs h
  exact ⟨c, a, l, h, hr, hl, C43_import_denotes he hs h hl⟩

/-- C77. What is exported follows the Arrow format, in all its parts. -/
theorem C77_exported (ht : t.WF) (he : Exportable t) {c : (arrayR nl t).C} {a : APlace nl t} {next : Nat}
    (hr : Reach nl t c) (hm : InMemory m nl t c a)
    (h : (exportArray nl t c a next).result = .ok (.ok (array, schema))) :
    Conforms m t nl array schema :=
  exported_conforms t nl ht c a array schema (reach_inv hr ht) hm
    (fun o ho => Decidable.byContradiction fun hn => by
      obtain ⟨o', h'⟩ := (C32_iff ht he next hr hm).2 ⟨o, ho, hn⟩
      rw [h] at h'; simp at h')
    (C33_describes ht he hr hm h) (C34_export_points ht he hr hm h)

/-- The sample can be exported. -/
example : ∃ array schema, Conforms FfiSample.mem Sample.ty true array schema := by
  obtain ⟨array, schema, h⟩ := C32_succeeds FfiSample.wf FfiSample.exportable 0 FfiSample.reach
    FfiSample.inMemory FfiSample.zero
  exact ⟨array, schema, C77_exported FfiSample.wf FfiSample.exportable FfiSample.reach FfiSample.inMemory h⟩

/-- The offsets of the sample do not decrease. -/
theorem offsets_rise : ∀ i (h : i < 4), ([0#32, 2#32, 2#32, 2#32, 3#32][i]'(Nat.lt_succ_of_lt h)).toInt ≤
    ([0#32, 2#32, 2#32, 2#32, 3#32][i + 1]'(Nat.succ_lt_succ h)).toInt := by decide

/-- The booleans of the sample follow the format, as do the pairs. -/
theorem FfiSample.pairs_conform :
    Conforms FfiSample.mem (.fsl 2 false .bool) true FfiSample.pairsArray FfiSample.pairsSchema := by
  refine ⟨⟨by decide, ⟨_, rfl, ?_⟩, rfl, ⟨rfl, rfl⟩, by decide, by decide, ⟨rfl, _, rfl, rfl⟩, ⟨rfl, rfl⟩,
    ⟨rfl, rfl⟩, fun h => ?_, fun p h _ => ?_⟩, FfiSample.bitsArray, FfiSample.bitsSchema, rfl, rfl, by decide,
    ⟨by decide, ⟨_, rfl, ?_⟩, rfl, ⟨rfl, rfl⟩, by decide, by decide, ⟨rfl, _, rfl, rfl⟩, ⟨rfl, rfl⟩,
    ⟨rfl, rfl⟩, fun _ => .inl rfl, fun p h h0 => ?_⟩, fun p h _ => ?_⟩
  · exact ⟨[50#8], rfl, by unfold IsNumeral; decide, rfl⟩
  · cases h
  · cases h; exact ⟨by decide, .inl (by decide), fun h => by cases h⟩
  · rfl
  · cases h; exact absurd rfl h0
  · cases h; exact ⟨by decide, by decide⟩

/-- The sample follows the format and uses nothing unsupported. -/
example : Exportable Sample.ty ∧ Conforms FfiSample.mem Sample.ty true FfiSample.array FfiSample.schema ∧
    ∀ e, ¬ Unsupported FfiSample.mem Sample.ty true FfiSample.array FfiSample.schema e := by
  have hc : Conforms FfiSample.mem Sample.ty true FfiSample.array FfiSample.schema := by
    refine ⟨⟨by decide, ⟨_, rfl, ?_⟩, rfl, ⟨rfl, rfl⟩, by decide, by decide, ⟨rfl, _, rfl, rfl⟩, ⟨rfl, rfl⟩,
      ⟨rfl, rfl⟩, fun h => ?_, fun p h _ => ?_⟩, FfiSample.pairsArray, FfiSample.pairsSchema, rfl, rfl,
      fun p h => ?_, FfiSample.pairs_conform⟩
    · rfl
    · cases h
    · cases h; exact ⟨by decide, .inl (by decide), fun h => by cases h⟩
    · cases h; exact .inr ⟨by decide, [0#32, 2#32, 2#32, 2#32, 3#32], rfl, by decide, fun i h _ => offsets_rise i (Nat.lt_of_succ_lt_succ h)⟩
  exact ⟨FfiSample.exportable, hc,
    (C77_accepts_iff FfiSample.exportable hc).1 ⟨(FfiSample.coll, FfiSample.place), rfl⟩⟩

/-- The last three lists of the sample, as a slice: they follow the format, and are
rejected for their offset. -/
example : let sliced := { FfiSample.array with length := 3#64, offset := 1#64 }
    Conforms FfiSample.mem Sample.ty true sliced FfiSample.schema ∧
      Unsupported FfiSample.mem Sample.ty true sliced FfiSample.schema (.nonZeroOffset 1#64) ∧
      importLayout FfiSample.mem Sample.ty true sliced FfiSample.schema = .err (.nonZeroOffset 1#64) := by
  refine ⟨⟨⟨by decide, ⟨_, rfl, ?_⟩, rfl, ⟨rfl, rfl⟩, by decide, by decide, ⟨rfl, _, rfl, rfl⟩, ⟨rfl, rfl⟩,
      ⟨rfl, rfl⟩, fun h => ?_, fun p h _ => ?_⟩, FfiSample.pairsArray, FfiSample.pairsSchema, rfl, rfl,
      fun p h => ?_, FfiSample.pairs_conform⟩, .offset (by decide), rfl⟩
  · rfl
  · cases h
  · cases h; exact ⟨by decide, .inl (by decide), fun h => by cases h⟩
  · cases h; exact .inr ⟨by decide, [0#32, 2#32, 2#32, 2#32, 3#32], rfl, by decide, fun i h _ => offsets_rise i (Nat.lt_of_succ_lt_succ h)⟩

end Narrow.Props
