import Verif.Proof.Uninterrupted
import Verif.Props.Export

/-!
# Arrays that no panic interrupted (C44, C45)
-/

namespace Narrow.Props

open Spec Narrow.Ffi Narrow.Ffi.Spec

variable {m : Mem} {t : Ty} {nl z : Bool} {c : (arrayR nl t).C} {a : APlace nl t}

/-! ## C44 -/

/-- C44. An array built without an interrupting panic stores nothing that would
keep it from being imported again. -/
theorem C44_committed (ht : t.WF) (hu : Uninterrupted z nl t c) : Committed nl t c :=
  array_committed ht (reach_inv hu.reach ht) (uninterrupted_tight hu ht)

/-- C44. Bitmaps with a bit offset come only from bitmaps made of parts that have
one. -/
theorem C44_zero_offsets (ht : t.WF) (hu : Uninterrupted true nl t c) :
    ∀ o ∈ bitOffsets nl t c, o = 0 :=
  array_zero ht (uninterrupted_tight hu ht)

/-- C44. Such an array is always exported, and importing it as the same item type
gives an array with the same items. -/
theorem C44_round_trip (ht : t.WF) (he : Exportable t) (next : Nat) (hu : Uninterrupted true nl t c)
    (hm : InMemory m nl t c a) :
    ∃ array schema c' a', (exportArray nl t c a next).result = .ok (.ok (array, schema)) ∧
      importLayout m t nl array schema = .ok (c', a') ∧ Reach nl t c' ∧
      ∃ l, Shows nl t c l ∧ Shows nl t c' l :=
  C31_round_trip ht he next hu.reach hm (C44_zero_offsets ht hu) (C44_committed ht hu)

/-- C44. With bitmaps made of any parts, exporting can only fail because of a bit
offset, and what is exported can be imported. -/
theorem C44_exported_imports (ht : t.WF) (he : Exportable t) {next : Nat}
    (hu : Uninterrupted z nl t c) (hm : InMemory m nl t c a) {array : CArray} {schema : CSchema}
    (h : (exportArray nl t c a next).result = .ok (.ok (array, schema))) :
    ∃ c' a', importLayout m t nl array schema = .ok (c', a') ∧ Reach nl t c' ∧
      ∃ l, Shows nl t c l ∧ Shows nl t c' l := by
  have hz : ∀ o ∈ bitOffsets nl t c, o = 0 := by
    intro o ho
    refine Decidable.byContradiction fun hne => ?_
    obtain ⟨o', h'⟩ := (C32_iff ht he next hu.reach hm).2 ⟨o, ho, hne⟩
    rw [h] at h'
    cases h'
  obtain ⟨array', schema', c', a', h1, h2, h3, h4⟩ :=
    C31_round_trip ht he next hu.reach hm hz (C44_committed ht hu)
  rw [h] at h1
  cases h1
  exact ⟨c', a', h2, h3, h4⟩

/-- The array of the sample is built without interruption. -/
theorem sample_uninterrupted : Uninterrupted true true Sample.ty FfiSample.coll :=
  .validityParts (b := ⟨⟨[13#8], 1⟩, 4, 0⟩)
    (.offsetsParts (ow := .i32) (offsets := ⟨[0, 2, 2, 2, 3], 5⟩)
      (.validityParts (b := ⟨⟨[5#8], 1⟩, 3, 0⟩)
        (.flattenParts (.bitmapParts (buffer := ⟨[49#8], 1⟩) (bits := 6) (offset := 0)
          ⟨Nat.le_refl _, Nat.le_of_ble_eq_true rfl⟩ (fun _ => rfl) rfl) rfl)
        (.bitmapParts (buffer := ⟨[5#8], 1⟩) (bits := 3) (offset := 0)
          ⟨Nat.le_refl _, Nat.le_of_ble_eq_true rfl⟩ (fun _ => rfl) rfl) rfl)
      ⟨Nat.le_refl _, Nat.le_of_ble_eq_true rfl⟩ (by decide) rfl)
    (.bitmapParts (buffer := ⟨[13#8], 1⟩) (bits := 4) (offset := 0)
      ⟨Nat.le_refl _, Nat.le_of_ble_eq_true rfl⟩ (fun _ => rfl) rfl) rfl

example : ∃ array schema c' a',
    (exportArray true Sample.ty FfiSample.coll FfiSample.place 0).result = .ok (.ok (array, schema)) ∧
      importLayout FfiSample.mem Sample.ty true array schema = .ok (c', a') ∧ Reach true Sample.ty c' ∧
      ∃ l, Shows true Sample.ty FfiSample.coll l ∧ Shows true Sample.ty c' l :=
  C44_round_trip FfiSample.wf FfiSample.exportable 0 sample_uninterrupted FfiSample.inMemory

/-- Collecting and extending are uninterrupted, too. -/
example : ∃ c c' w', (arrayR true Sample.ty).fromIter Sample.world (Src.ofList Sample.items) = (.ok c, w') ∧
    (arrayR true Sample.ty).extend c (Src.ofList Sample.more) = (c', .ok) ∧
    Uninterrupted true true Sample.ty c' := by
  obtain ⟨c, w', h, hg, hs⟩ := Sample.built
  obtain ⟨c', h', -⟩ := C10_extend_returns (s := Src.ofList Sample.more) Sample.ty_wf hg hs
    (by simpa using Sample.fits_more) (by simp)
  exact ⟨c, c', w', h, h', .extend (.fromIter h) h'⟩

/-- C44. Without the restriction the claim is false: a caught panic leaves an
array that is exported but cannot be imported. -/
theorem C44_interrupted_fails : ∃ (c : (arrayR true pairTy).C), Reach true pairTy c ∧
    ¬ Uninterrupted true true pairTy c :=
  ⟨interrupted, interrupted_reach, fun hu => by
    have h := (C44_committed pairTy_wf hu).2 ⟨⟨[], 0⟩, 0, 0⟩ rfl
    replace h : (Res.ok 2 : Res Nat) = .ok (0 * 2) := h
    cases h⟩

/-! ## C45 -/

/-- C45. A bitmap taken apart can be put together again. -/
theorem C45_bitmap {b : Bitmap} (hr : Reach false .bool b) :
    Bitmap.tryFromParts b.intoParts.1 b.intoParts.2.1 b.intoParts.2.2 = .ok b := by
  have hb : b.Inv := reach_inv hr trivial
  exact Bitmap.tryFromParts_ok hb.wf hb.le

/-- C45. A fixed-size grouping taken apart can be put together again. -/
theorem C45_fixed_size_list {n : Nat} {c : Flatten (arrayR nl t).C} (ht : t.WF) (hn : 0 < n)
    (hr : Reach false (.fsl n nl t) c) :
    Flatten.tryFromParts (arrayR nl t).toColl n c.intoParts = .ok (.ok c) := by
  have hc : flatInv (arrayL nl t ht).toLawfulColl n c := reach_inv hr ⟨hn, ht⟩
  rw [Flatten.intoParts, Flatten.tryFromParts_eq (L := (arrayL nl t ht).toLawfulColl) n hc.1,
    if_neg (by omega), if_pos hc.2]

/-- C45. A variable-size grouping taken apart can be put together again. -/
theorem C45_list {ow : OffW} {c : Offsets (arrayR nl t).C} (ht : t.WF)
    (hr : Reach false (.vsl ow nl t) c) :
    Offsets.tryFromParts (arrayR nl t).toColl c.intoParts.1 c.intoParts.2 = .ok (.ok c) := by
  have ht' : t.WF := ht
  have hc : Offsets.Inv (arrayL nl t ht').toLawfulColl ow c := reach_inv hr ht
  have h := rep_valid hc.2 (Nat.le_refl _)
  rw [List.take_of_length_le (by rw [hc.2.items, Offsets.totals_length]; exact Nat.le_refl _)] at h
  exact Offsets.tryFromParts_valid (L := (arrayL nl t ht').toLawfulColl) hc.2.inv h

/-- C45. A nullable collection without a bitmap is its values; one with a bitmap
can be put together again. -/
theorem C45_nullable {v : Validity (arrayR false t).C} (ht : t.WF) (hu : Uninterrupted z true t v) :
    match v.intoParts with
    | (values, none) => Validity.fromCollection values = v
    | (values, some b) => Validity.tryFromParts (arrayR false t).toColl values b = .ok (.ok v) := by
  have hv := reach_inv hu.reach ht
  have hT := uninterrupted_tight hu ht
  obtain ⟨c, ob⟩ := v
  cases ob with
  | none => rfl
  | some b =>
    have h : ((arrayL false t ht).abs c).length = b.bits := (hT.2 b rfl).2
    refine (Validity.tryFromParts_eq (L := (arrayL false t ht).toLawfulColl) (c := c) b hv.1).trans ?_
    rw [if_pos h]

/-- C45. After a caught panic this can fail: one list, no validity bit. -/
theorem C45_interrupted_fails : Reach true pairTy interrupted ∧
    ∃ values b, (interrupted : Validity (arrayR false pairTy).C).intoParts = (values, some b) ∧
      Validity.tryFromParts (arrayR false pairTy).toColl values b = .ok (.error ⟨1, 0⟩) :=
  ⟨interrupted_reach, _, _, rfl, rfl⟩

example : Reach false .bool FfiSample.bits ∧ Reach false (.fsl 2 false .bool) (⟨FfiSample.bits⟩ : Flatten Bitmap) ∧
    Uninterrupted true true Sample.ty FfiSample.coll :=
  ⟨FfiSample.bits_reach, .flattenParts FfiSample.bits_reach rfl, sample_uninterrupted⟩

example : Validity.tryFromParts (arrayR false Sample.ty).toColl
    (FfiSample.coll : Validity (arrayR false Sample.ty).C).coll ⟨⟨[13#8], 1⟩, 4, 0⟩ =
      .ok (.ok FfiSample.coll) :=
  C45_nullable (t := Sample.ty) (v := FfiSample.coll) Sample.ty_wf sample_uninterrupted

example : Offsets.tryFromParts (arrayR true (.fsl 2 false .bool)).toColl FfiSample.pairs
    ⟨[0, 2, 2, 2, 3], 5⟩ = .ok (.ok ⟨FfiSample.pairs, ⟨[0, 2, 2, 2, 3], 5⟩⟩) :=
  C45_list (ow := .i32) (c := ⟨FfiSample.pairs, ⟨[0, 2, 2, 2, 3], 5⟩⟩) ⟨by decide, trivial⟩
    (.validityColl FfiSample.reach)

end Narrow.Props
