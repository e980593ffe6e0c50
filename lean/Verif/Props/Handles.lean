import Verif.Proof.Handles
import Verif.Props.Export

/-!
# Releasing and moving parts of exported structures (C57)
-/

namespace Narrow.Props

open Spec Ffi Ffi.Spec

variable {m : Mem} {nl : Bool} {t : Ty} {c : (arrayR nl t).C} {a : APlace nl t}

open Classical in
/-- Whatever a consumer does with the array structure: each of the boxes
`lo, ..., hi - 1` is freed exactly once, when the last held structure that keeps it
is released, and the storage is dropped exactly once, when the exported structure
itself is released, wherever it was moved to. Nothing else is freed. -/
structure ArrayMemory (array : CArray) (buffers : List Nat) (lo hi : Nat) : Prop where
  boxes : ∀ acts box, lo ≤ box → box < hi →
    ((Arrays.mk [array] []).run acts).events.count (.free box) =
      if ∃ x ∈ ((Arrays.mk [array] []).run acts).held, ∃ p, Keeps x p ∧ p.box = box then 0 else 1
  storage : ∀ acts, ((Arrays.mk [array] []).run acts).events.count (.dropOwner buffers) =
    if ∃ x ∈ ((Arrays.mk [array] []).run acts).held, ∃ p, x.release = some p ∧ p.owner = some buffers
      then 0 else 1
  nothingElse : ∀ acts, ∀ e ∈ ((Arrays.mk [array] []).run acts).events,
    e = .dropOwner buffers ∨ ∃ box, lo ≤ box ∧ box < hi ∧ e = .free box
  /-- Structures point only into the storage, so moved children can be read as long as
  the exported structure is not released. -/
  pointers : ∀ acts, ∀ x ∈ ((Arrays.mk [array] []).run acts).held, ∀ p, Points x p → p ∈ buffers
  /-- No structure ever has a dictionary. -/
  plain : ∀ acts, ∀ x ∈ ((Arrays.mk [array] []).run acts).held, ¬Encoded x

open Classical in
/-- The same for the schema structure. -/
structure SchemaMemory (schema : CSchema) (lo hi : Nat) : Prop where
  boxes : ∀ acts box, lo ≤ box → box < hi →
    ((Schemas.mk [schema] []).run acts).events.count (.free box) =
      if ∃ x ∈ ((Schemas.mk [schema] []).run acts).held, KeepsBox x box then 0 else 1
  nothingElse : ∀ acts, ∀ e ∈ ((Schemas.mk [schema] []).run acts).events,
    ∃ box, lo ≤ box ∧ box < hi ∧ e = .free box
  plain : ∀ acts, ∀ x ∈ ((Schemas.mk [schema] []).run acts).held, ¬EncodedSchema x

theorem count_one {n k : Nat} {P : Prop} [Decidable P] (h : n + k = 1) (hp : 0 < k ↔ P) :
    n = if P then 0 else 1 := by
  split
  · next h1 => have := hp.2 h1; omega
  · next h1 => have := mt hp.1 h1; omega

theorem array_memory {next mid : Nat} {kids : List CArray} {length nullCount : I64}
    (hk : Kids t (valuesOf (baseR t) nl c) (valuesPlace nl a) kids (next + 1) mid) :
    ArrayMemory (intoArray next (some (allBuffers t nl a)) (buffersOf nl t c a) kids length nullCount)
      (allBuffers t nl a) next mid := by
  classical
  have hle := kids_le t hk
  have hA : heldEvents [intoArray next (some (allBuffers t nl a)) (buffersOf nl t c a) kids length
      nullCount] = frees (next + 1) mid ++ [.dropOwner (allBuffers t nl a), .free next] := by
    rw [heldEvents, List.flatMap_cons, List.flatMap_nil, List.append_nil, into_events,
      kids_events t hk]; rfl
  have hrun := fun acts e => run_counts acts ⟨[intoArray next (some (allBuffers t nl a))
    (buffersOf nl t c a) kids length nullCount], []⟩ e
  simp only [hA, List.count_nil, Nat.zero_add] at hrun
  refine ⟨fun acts box h1 h2 => ?_, fun acts => ?_, fun acts e h => ?_,
    fun acts => run_points acts _ fun x hx p hp => ?_, fun acts => run_encoded acts _ fun x hx h => ?_⟩
  · refine count_one (k := (heldEvents _).count (.free box)) ((hrun acts _).trans ?_)
      (List.count_pos_iff.trans held_free)
    rw [List.count_append, count_frees]
    by_cases hb : next = box
    · subst hb
      rw [if_neg (by omega)]
      simp
    · rw [if_pos (by omega)]
      simp [hb]
  · refine count_one (k := (heldEvents _).count (.dropOwner _)) ((hrun acts _).trans ?_)
      (List.count_pos_iff.trans (held_root (run_rootOnly acts _ fun x hx b => ?_)))
    · rw [List.count_append, count_frees_other (e := .dropOwner _) (fun _ h => by cases h)]
      simp
    · rw [List.mem_singleton.1 hx]
      have : tableEvents (intoArray next (some (allBuffers t nl a)) (buffersOf nl t c a) kids length
          nullCount).children = frees (next + 1) mid := by
        rw [← kids_events t hk]
        cases kids <;> rfl
      rw [this, count_frees_other (e := .dropOwner _) (fun _ h => by cases h)]
  · have h1 := hrun acts e
    have h2 := List.count_pos_iff.2 h
    have h3 : e ∈ frees (next + 1) mid ++ [.dropOwner (allBuffers t nl a), .free next] :=
      List.count_pos_iff.1 (by omega)
    rcases List.mem_append.1 h3 with h3 | h3
    · obtain ⟨b, hb, rfl⟩ := List.mem_map.1 h3
      rw [List.mem_range'_1] at hb
      exact .inr ⟨b, by omega, by omega, rfl⟩
    · simp only [List.mem_cons, List.not_mem_nil, or_false] at h3
      rcases h3 with h3 | h3
      · exact .inl h3
      · exact .inr ⟨next, Nat.le_refl _, by omega, h3⟩
  · rw [List.mem_singleton.1 hx] at hp
    exact node_points t nl c a kids _ _ hk hp
  · rw [List.mem_singleton.1 hx] at h
    obtain ⟨kid, h1, h2⟩ := encoded_into h
    exact kids_plain t _ _ _ _ _ hk kid h1 h2

theorem schema_memory (t : Ty) (nl : Bool) (lo : Nat) :
    SchemaMemory (schemaOf t nl lo).1 lo (schemaOf t nl lo).2 := by
  classical
  have hrun := fun acts e => schema_run_counts acts ⟨[(schemaOf t nl lo).1], []⟩
    (fun x hx => by rw [List.mem_singleton.1 hx]; exact schema_tidy t nl lo) e
  simp only [heldSchemaEvents, List.flatMap_cons, List.flatMap_nil, List.append_nil, schema_events,
    List.count_nil, Nat.zero_add] at hrun
  refine ⟨fun acts box h1 h2 => ?_, fun acts e h => ?_, fun acts => run_encodedSchema acts _ fun x hx h => ?_⟩
  · refine count_one (k := (heldSchemaEvents _).count (.free box)) ((hrun acts _).trans ?_)
      (List.count_pos_iff.trans held_schema_free)
    rw [count_frees, if_pos ⟨h1, h2⟩]
  · have h1 := hrun acts e
    have h2 := List.count_pos_iff.2 h
    have h3 : e ∈ frees lo (schemaOf t nl lo).2 := List.count_pos_iff.1 (by omega)
    obtain ⟨b, hb, rfl⟩ := List.mem_map.1 h3
    rw [List.mem_range'_1] at hb
    exact ⟨b, by omega, by omega, rfl⟩
  · rw [List.mem_singleton.1 hx] at h
    exact schema_plain t nl lo h

/-- C57. A successful export gives the array structure and the schema structure boxes
of their own, and the array structure the storage of the array. Whatever sequence of
releases and moves follows, of the structures and of their children, memory is freed
exactly when no held structure keeps it any more, and only once. -/
theorem C57_memory (ht : t.WF) (he : Exportable t) {next : Nat} (hr : Reach nl t c)
    (hm : InMemory m nl t c a) {array : CArray} {schema : CSchema}
    (h : (exportArray nl t c a next).result = .ok (.ok (array, schema))) :
    ∃ mid, next < mid ∧ ArrayMemory array (allBuffers t nl a) next mid ∧
      SchemaMemory schema mid (exportArray nl t c a next).next := by
  have hi := reach_inv hr ht
  have h1 := export_ok ht he next hi hm
  cases hf : firstNonZero (bitOffsets nl t c) with
  | some k => rw [(h1.1 k hf).1] at h; simp at h
  | none =>
    obtain ⟨kids, mid, hk, h3⟩ := h1.2 hf
    rw [h3] at h ⊢; simp at h
    obtain ⟨rfl, rfl⟩ := h
    have := kids_le t hk
    exact ⟨mid, by omega, array_memory hk, schema_memory t nl mid⟩

/-- The sample can be exported. -/
example {array : CArray} {schema : CSchema}
    (h : (exportArray true Sample.ty FfiSample.coll FfiSample.place 0).result = .ok (.ok (array, schema))) :
    ∃ mid, ArrayMemory array [8, 16, 9, 10] 0 mid := by
  obtain ⟨mid, -, h1, -⟩ := C57_memory FfiSample.wf FfiSample.exportable FfiSample.reach
    FfiSample.inMemory h
  exact ⟨mid, h1⟩

/-- The child of the exported sample is released first, then the structure is moved,
and what is left of the original is released, to no effect: the storage is not
dropped. It is dropped when the moved structure is released. -/
example : ((Arrays.mk [FfiSample.array] []).run
      [.release 0 [0], .moveOut 0 [], .release 0 []]).events = [.free 1, .free 2] ∧
    ((Arrays.mk [FfiSample.array] []).run
      [.release 0 [0], .moveOut 0 [], .release 0 [], .release 1 []]).events =
      [.free 1, .free 2, .dropOwner [8, 16, 9, 10], .free 0] := by
  constructor <;> simp [Arrays.run, Arrays.act, arrayAt, arraySet, FfiSample.array,
    FfiSample.pairsArray, FfiSample.bitsArray, CArray.isReleased, CArray.afterRelease,
    CArray.dropEvents, tableEvents, listEvents, optEvents]

/-- A child schema moved out of its parent outlives it. -/
example : ((Schemas.mk [FfiSample.schema] []).run [.moveOut 0 [0], .release 0 []]).events = [.free 4] ∧
    ((Schemas.mk [FfiSample.schema] []).run
      [.moveOut 0 [0], .release 0 [], .release 1 [], .release 1 []]).events = [.free 4, .free 3] := by
  constructor <;> simp [Schemas.run, Schemas.act, schemaAt, schemaSet, FfiSample.schema,
    FfiSample.pairsSchema, FfiSample.bitsSchema, CSchema.isReleased, CSchema.afterRelease,
    CSchema.dropEvents, schemaTableEvents, schemaListEvents, schemaOptEvents]

end Narrow.Props
