import Verif.Proof.Release
import Verif.Props.Import

/-!
# Properties of export (C31 to C34, C40)

`exportArray nl t c a next` is the export of the array `c`, whose buffers are at
the addresses `a`; `next` is the first unused number of a box of private data.
-/

namespace Narrow.Props

open Spec Narrow.Ffi Narrow.Ffi.Spec

variable {m : Mem} {t : Ty} {nl : Bool} {c : (arrayR nl t).C} {a : APlace nl t}

/-! ## C32 -/

/-- C32. Exporting succeeds if all bit offsets are zero. -/
theorem C32_succeeds (ht : t.WF) (he : Exportable t) (next : Nat) (hr : Reach nl t c)
    (hm : InMemory m nl t c a) (hz : ∀ o ∈ bitOffsets nl t c, o = 0) :
    ∃ array schema, (exportArray nl t c a next).result = .ok (.ok (array, schema)) := by
  obtain ⟨kids, mid, _, h⟩ := (export_ok ht he next (reach_inv hr ht) hm).2 (firstNonZero_none.2 hz)
  rw [h]
  exact ⟨_, _, rfl⟩

/-- C32. Otherwise it returns `NonZeroOffset` with the first non-zero bit offset,
going from the outside in. -/
theorem C32_fails (ht : t.WF) (he : Exportable t) (next : Nat) (hr : Reach nl t c)
    (hm : InMemory m nl t c a) {before after : List Nat} {o : Nat}
    (hb : ∀ o ∈ before, o = 0) (ho : o ≠ 0) (h : bitOffsets nl t c = before ++ o :: after) :
    (exportArray nl t c a next).result = .ok (.error (.nonZeroOffset o)) := by
  refine ((export_ok ht he next (reach_inv hr ht) hm).1 o ?_).1
  rw [h]
  unfold firstNonZero
  rw [List.find?_append, List.find?_eq_none.2 (fun x hx => by simp [hb x hx])]
  simp [ho]

/-- C32. `NonZeroOffset` is returned exactly if some bit offset is not zero. -/
theorem C32_iff (ht : t.WF) (he : Exportable t) (next : Nat) (hr : Reach nl t c)
    (hm : InMemory m nl t c a) :
    (∃ o, (exportArray nl t c a next).result = .ok (.error (.nonZeroOffset o))) ↔
      ∃ o ∈ bitOffsets nl t c, o ≠ 0 := by
  have h := export_ok ht he next (reach_inv hr ht) hm
  constructor
  · rintro ⟨o, ho⟩
    refine Classical.byContradiction fun hn => ?_
    obtain ⟨array, schema, h'⟩ := C32_succeeds ht he next hr hm (fun o ho => Decidable.byContradiction
      fun hne => hn ⟨o, ho, hne⟩)
    rw [ho] at h'; simp at h'
  · rintro ⟨o, ho, hne⟩
    cases hf : firstNonZero (bitOffsets nl t c) with
    | none => exact absurd (firstNonZero_none.1 hf o ho) hne
    | some k => exact ⟨k, (h.1 k hf).1⟩

example : ∃ array schema,
    (exportArray true Sample.ty FfiSample.coll FfiSample.place 0).result = .ok (.ok (array, schema)) :=
  C32_succeeds FfiSample.wf FfiSample.exportable 0 FfiSample.reach FfiSample.inMemory FfiSample.zero

/-- The second bit of a byte, as a bitmap. -/
def shifted : Bitmap := ⟨⟨[5#8], 1⟩, 1, 1⟩

theorem shifted_reach : Reach false .bool shifted :=
  .bitmapParts (buffer := ⟨[5#8], 1⟩) (bits := 1) (offset := 1)
    ⟨Nat.le_refl _, Nat.le_of_ble_eq_true rfl⟩ rfl

example : (exportArray false .bool shifted (9 : Nat) 0).result = .ok (.error (.nonZeroOffset 1)) :=
  C32_fails (m := FfiSample.mem) (t := .bool) (nl := false) (before := []) (after := []) trivial trivial 0 shifted_reach
    ⟨(by decide : (9 : Nat) ≠ 0), by decide⟩ (fun _ h => nomatch h) (by decide) rfl

/-! ## C33, C34 -/

/-- The bytes per value of an Arrow format, or per offset of a list format, from the table
in the specification of the C Data Interface. -/
def arrowWidth (format : List Byte) : Option Nat :=
  if format ∈ [[99#8], [67#8]] then some 1 -- c, C
  else if format ∈ [[115#8], [83#8]] then some 2 -- s, S
  else if format ∈ [[105#8], [73#8], [102#8]] then some 4 -- i, I, f
  else if format ∈ [[108#8], [76#8], [103#8]] then some 8 -- l, L, g
  else if format = [43#8, 108#8] then some 4 -- +l
  else if format = [43#8, 76#8] then some 8 -- +L
  else none

/-- C33. The format an array is exported with states the width of its values or offsets. -/
theorem C33_widths :
    (∀ p f, primFormat p = some f → arrowWidth f = some p.size) ∧
    (∀ ow, arrowWidth (offsetFormat ow) = some (offBytes ow)) := by
  refine ⟨fun p f h => ?_, fun ow => by cases ow <;> decide⟩
  cases p <;> first | (cases h; done) | (cases h; decide)

example : primFormat .u16 = some [83#8] := by decide

/-- C33. The exported structures describe the array and all its descendants. -/
theorem C33_describes (ht : t.WF) (he : Exportable t) {next : Nat} (hr : Reach nl t c)
    (hm : InMemory m nl t c a) {array : CArray} {schema : CSchema}
    (h : (exportArray nl t c a next).result = .ok (.ok (array, schema))) :
    Describes nl t c array schema := by
  have hi := reach_inv hr ht
  have h1 := export_ok ht he next hi hm
  cases hf : firstNonZero (bitOffsets nl t c) with
  | some k => rw [(h1.1 k hf).1] at h; simp at h
  | none =>
    obtain ⟨kids, mid, h2, h3⟩ := h1.2 hf
    rw [h3] at h; simp at h
    rw [← h.1, ← h.2]
    exact (node_ok t nl c a kids _ _ _ _ _ mid he h2 hm (reads_abs (arrayL nl t ht).toLawfulColl hi)
      (len_le ht he hi hm)).1

/-- C34. Every buffer pointer of the exported structures is the address of the
corresponding buffer of the array. -/
theorem C34_export_points (ht : t.WF) (he : Exportable t) {next : Nat} (hr : Reach nl t c)
    (hm : InMemory m nl t c a) {array : CArray} {schema : CSchema}
    (h : (exportArray nl t c a next).result = .ok (.ok (array, schema))) :
    PointsTo nl t c a array := by
  have hi := reach_inv hr ht
  have h1 := export_ok ht he next hi hm
  cases hf : firstNonZero (bitOffsets nl t c) with
  | some k => rw [(h1.1 k hf).1] at h; simp at h
  | none =>
    obtain ⟨kids, mid, h2, h3⟩ := h1.2 hf
    rw [h3] at h; simp at h
    rw [← h.1]
    exact (node_ok t nl c a kids _ _ _ _ _ mid he h2 hm (reads_abs (arrayL nl t ht).toLawfulColl hi)
      (len_le ht he hi hm)).2

/-! ## C31 -/

/-- C31. Exporting and importing as the same item type gives an array with the
same items. -/
theorem C31_round_trip (ht : t.WF) (he : Exportable t) (next : Nat) (hr : Reach nl t c)
    (hm : InMemory m nl t c a) (hz : ∀ o ∈ bitOffsets nl t c, o = 0) (hc : Committed nl t c) :
    ∃ array schema c' a', (exportArray nl t c a next).result = .ok (.ok (array, schema)) ∧
      importLayout m t nl array schema = .ok (c', a') ∧ Reach nl t c' ∧
      ∃ l, Shows nl t c l ∧ Shows nl t c' l := by
  have hi := reach_inv hr ht
  obtain ⟨array, schema, h⟩ := C32_succeeds ht he next hr hm hz
  have hd := C33_describes ht he hr hm h
  have hp := C34_export_points ht he hr hm h
  obtain ⟨hs, hcl⟩ := clean t nl ht c a array schema ⟨he, hi, hm, hz, hc⟩ hd hp
  obtain ⟨⟨c', a'⟩, h'⟩ := (C36_accepts_iff he hs).2 hcl
  obtain ⟨_, hr', _⟩ := C35_imported_is_valid he hs h'
  have hi' := reach_inv hr' ht
  refine ⟨array, schema, c', a', h, h', hr', (arrayL nl t ht).abs c, shows_of_inv ht hi rfl, ?_⟩
  exact shows_of_inv ht hi' (content ht hi hi' hm hz hd hp (C34_import_borrows he hs h'))

/-- C31. What was exported meets the contract of `import`, whatever type it is
imported as at the same type. -/
theorem C31_meets_contract (ht : t.WF) (he : Exportable t) {next : Nat} (hr : Reach nl t c)
    (hm : InMemory m nl t c a) (hz : ∀ o ∈ bitOffsets nl t c, o = 0) (hc : Committed nl t c)
    {array : CArray} {schema : CSchema}
    (h : (exportArray nl t c a next).result = .ok (.ok (array, schema))) : Safe m t nl array schema :=
  (clean t nl ht c a array schema ⟨he, reach_inv hr ht, hm, hz, hc⟩ (C33_describes ht he hr hm h)
    (C34_export_points ht he hr hm h)).1

example : ∃ array schema c' a',
    (exportArray true Sample.ty FfiSample.coll FfiSample.place 0).result = .ok (.ok (array, schema)) ∧
      importLayout FfiSample.mem Sample.ty true array schema = .ok (c', a') ∧ Reach true Sample.ty c' ∧
      ∃ l, Shows true Sample.ty FfiSample.coll l ∧ Shows true Sample.ty c' l :=
  C31_round_trip FfiSample.wf FfiSample.exportable 0 FfiSample.reach FfiSample.inMemory FfiSample.zero
    FfiSample.committed

/-- The hypotheses of C37 are met by the sample. -/
example : ∃ array schema r,
    (exportArray true Sample.ty FfiSample.coll FfiSample.place 0).result = .ok (.ok (array, schema)) ∧
      importLayout FfiSample.mem Sample.ty true array schema = .ok r := by
  obtain ⟨array, schema, c', a', h, h', _⟩ := C31_round_trip FfiSample.wf FfiSample.exportable 0
    FfiSample.reach FfiSample.inMemory FfiSample.zero FfiSample.committed
  exact ⟨array, schema, _, h, h'⟩

/-! ### Storage that is not committed -/

/-- `Option<[u8; 2]>` -/
abbrev pairTy : Ty := .fsl 2 false (.prim .u8)

theorem pairTy_wf : pairTy.WF := ⟨by decide, trivial⟩

/-- A source that yields one item and then panics. -/
def pairSource : Src (ItemVal true (Val pairTy)) :=
  [.item (some (⟨[1#8, 2#8], rfl⟩ : FixArr (PrimVal .u8) 2)), .panic]

/-- What `extend` leaves of an empty array when its source panics after its first
item and the panic is caught: two values, no validity bit. -/
def interrupted : (arrayR true pairTy).C :=
  (⟨(⟨⟨[1#8, 2#8], 2⟩⟩ : Flatten (RVec (PrimVal .u8))), some ⟨⟨[], 0⟩, 0, 0⟩⟩ :
    Validity (Flatten (RVec (PrimVal .u8))))

theorem interrupted_eq :
    (arrayR true pairTy).extend (arrayR true pairTy).empty pairSource = (interrupted, .panic) := by
  have h : Validity.extendLoop (baseR pairTy) (baseR pairTy).empty ⟨⟨[], 0⟩, 0, 0⟩ pairSource =
      (interrupted, .panic) :=
    (Validity.extendLoop.eq_def (baseR pairTy) _ _ pairSource).trans rfl
  exact h

theorem interrupted_reach : Reach true pairTy interrupted :=
  .extendSourcePanic (l := []) (c := (arrayR true pairTy).empty) (s := pairSource)
    (by simp [GrowSafe, Whole]) .empty
    (shows_of_inv pairTy_wf (arrayL true pairTy pairTy_wf).empty_ok.1
      (arrayL true pairTy pairTy_wf).empty_ok.2.1)
    ⟨Nat.le_of_ble_eq_true rfl, Nat.le_of_ble_eq_true rfl⟩ interrupted_eq

/-- Where its buffers are: two bytes at 8, no validity byte. -/
def interruptedPlace : APlace true pairTy := (((8 : Nat), some 1) : Nat × Option Nat)

/-- A memory that holds them. -/
def pairMem : Mem where
  byte p := [(8, 1#8), (9, 2#8)].lookup p
  null := by decide
  high p hp := FfiSample.lookup_high _ _ fun x hx => Nat.lt_of_lt_of_le
    ((by decide : ∀ x ∈ [(8, 1#8), (9, 2#8)], x.1 < 36) x hx) (Nat.le_trans (Nat.le_of_ble_eq_true rfl) hp)

theorem interrupted_memory : InMemory pairMem true pairTy interrupted interruptedPlace :=
  ⟨⟨(by decide : (8 : Nat) ≠ 0), rfl, by decide⟩, by decide, rfl⟩

theorem width_two : widthFormat 2 = bytesOf "+w:2" := by
  rw [widthFormat, decimal]; rfl

/-- C31 needs committed storage: this array is empty, has no bit offset, and is
exported, but cannot be imported. -/
theorem C31_uncommitted_fails :
    Reach true pairTy interrupted ∧ Shows true pairTy interrupted [] ∧
    (∀ o ∈ bitOffsets true pairTy interrupted, o = 0) ∧
    InMemory pairMem true pairTy interrupted interruptedPlace ∧
    ∃ array schema, (exportArray true pairTy interrupted interruptedPlace 0).result =
        .ok (.ok (array, schema)) ∧
      importLayout pairMem pairTy true array schema =
        .err (.fixedSizeListLengthMismatch 0 2 2) := by
  obtain ⟨l, hl, -⟩ := reach_reads pairTy_wf interrupted_reach
  have h0 : l.length = 0 := by
    have := hl.len.symm.trans (show (arrayR true pairTy).len interrupted = .ok 0 from rfl)
    injection this
  rw [List.length_eq_zero_iff] at h0
  subst h0
  refine ⟨interrupted_reach, hl, by decide, interrupted_memory, ?_⟩
  refine ⟨_, ⟨some (widthFormat 2), _, _, _, _, _, _, _⟩, rfl, ?_⟩
  rw [width_two]
  rfl

/-! ## C40 -/

/-- Is an operation on the array among these? -/
def touchesArray (ops : List Op) : Prop := .releaseArray ∈ ops ∨ .dropArray ∈ ops

/-- Is an operation on the schema among these? -/
def touchesSchema (ops : List Op) : Prop := .releaseSchema ∈ ops ∨ .dropSchema ∈ ops

theorem touchesArray_iff (ops : List Op) : touchesArray ops ↔ ops.any Op.onArray = true := by
  rw [List.any_eq_true]
  constructor
  · rintro (h | h)
    · exact ⟨_, h, rfl⟩
    · exact ⟨_, h, rfl⟩
  · rintro ⟨op, h, h'⟩
    cases op
    · exact .inl h
    · exact .inr h
    · exact nomatch h'
    · exact nomatch h'

theorem touchesSchema_iff (ops : List Op) : touchesSchema ops ↔ ops.any (! ·.onArray) = true := by
  rw [List.any_eq_true]
  constructor
  · rintro (h | h)
    · exact ⟨_, h, rfl⟩
    · exact ⟨_, h, rfl⟩
  · rintro ⟨op, h, h'⟩
    cases op
    · exact nomatch h'
    · exact nomatch h'
    · exact .inl h
    · exact .inr h

open Classical in
/-- What is known about the memory of a pair of structures: the boxes
`lo, ..., mid - 1` and the storage `buffers` belong to the array, the boxes
`mid, ..., hi - 1` to the schema. In any sequence of releases and drops each of
them is freed once if the structure it belongs to is released or dropped, and
not at all otherwise; nothing else is freed. -/
structure OwnedBy (array : CArray) (schema : CSchema) (buffers : List Nat) (lo mid hi : Nat) : Prop where
  boxes : ∀ ops box, ((Pair.mk array schema []).run ops).events.count (.free box) =
    if lo ≤ box ∧ box < mid ∧ touchesArray ops ∨ mid ≤ box ∧ box < hi ∧ touchesSchema ops then 1 else 0
  storage : ∀ ops other, ((Pair.mk array schema []).run ops).events.count (.dropOwner other) =
    if other = buffers ∧ touchesArray ops then 1 else 0
  allocates : ∀ ops box, Event.alloc box ∉ ((Pair.mk array schema []).run ops).events
  arrayReleased : ∀ ops, ((Pair.mk array schema []).run ops).array.isReleased = true ↔ touchesArray ops
  schemaReleased : ∀ ops, ((Pair.mk array schema []).run ops).schema.isReleased = true ↔ touchesSchema ops

theorem exported_owned {next mid : Nat} {kids : List CArray} {length nullCount : I64}
    (hk : Kids t (valuesOf (baseR t) nl c) (valuesPlace nl a) kids (next + 1) mid) :
    OwnedBy (intoArray next (some (allBuffers t nl a)) (buffersOf nl t c a) kids length nullCount)
      (schemaOf t nl mid).1 (allBuffers t nl a) next mid (schemaOf t nl mid).2 := by
  have hle := kids_le t hk
  have hA : (intoArray next (some (allBuffers t nl a)) (buffersOf nl t c a) kids length nullCount).dropEvents =
      frees (next + 1) mid ++ [.dropOwner (allBuffers t nl a), .free next] := by
    rw [into_events, kids_events t hk]; rfl
  have hS := schema_events t nl mid
  have hSl := schema_le t nl mid
  refine ⟨?_, ?_, ?_, ?_, ?_⟩
  · intro ops box
    rw [run_count]
    simp only [hA, hS, List.count_append, count_frees, List.count_cons, List.count_nil,
      touchesArray_iff, touchesSchema_iff]
    have e1 : (Event.dropOwner (allBuffers t nl a) == Event.free box) = false := rfl
    have e2 : (Event.free next == Event.free box) = decide (next = box) := by
      by_cases h : next = box
      · simp [h]
      · simp [h]
    simp only [e1, e2]
    generalize ops.any Op.onArray = x
    generalize (ops.any fun x => !x.onArray) = y
    generalize (schemaOf t nl mid).2 = hi at *
    cases x <;> cases y <;>
      simp only [if_true, if_false, Bool.false_eq_true, and_false, and_true, or_false, false_or, decide_eq_true_eq,
        Nat.zero_add, Nat.add_zero, or_self] <;> (repeat' split) <;> omega
  · intro ops other
    rw [run_count]
    have e3 : ∀ lo hi, (frees lo hi).count (.dropOwner other) = 0 :=
      fun lo hi => count_frees_other (fun _ h => nomatch h)
    simp only [hA, hS, List.count_append, e3, List.count_cons, List.count_nil,
      touchesArray_iff, touchesSchema_iff]
    have e1 : (Event.free next == Event.dropOwner other) = false := rfl
    have e2 : (Event.dropOwner (allBuffers t nl a) == Event.dropOwner other) =
        decide (other = allBuffers t nl a) := by
      by_cases h : other = allBuffers t nl a
      · simp [h]
      · simp [h, Ne.symm h]
    simp only [e1, e2]
    generalize ops.any Op.onArray = x
    generalize (ops.any fun x => !x.onArray) = y
    cases x <;> cases y <;> simp
  · intro ops box
    rw [← List.count_eq_zero, run_count]
    have e3 : ∀ lo hi, (frees lo hi).count (.alloc box) = 0 :=
      fun lo hi => count_frees_other (fun _ h => nomatch h)
    simp [hA, hS, List.count_append, e3]
  · intro ops
    constructor
    · intro h
      refine Classical.byContradiction fun hn => ?_
      rw [touchesArray_iff] at hn
      rw [(run_kept ops _).1 (by simpa using hn)] at h
      exact nomatch h
    · intro h
      have := (run_released ops ⟨intoArray next (some (allBuffers t nl a)) (buffersOf nl t c a) kids length nullCount,
        (schemaOf t nl mid).1, []⟩).1 (.inr ((touchesArray_iff _).1 h))
      simp [CArray.isReleased, this]
  · intro ops
    constructor
    · intro h
      refine Classical.byContradiction fun hn => ?_
      rw [touchesSchema_iff] at hn
      rw [(run_kept ops _).2 (by simpa using hn)] at h
      cases t <;> exact nomatch h
    · intro h
      have := (run_released ops ⟨intoArray next (some (allBuffers t nl a)) (buffersOf nl t c a) kids length nullCount,
        (schemaOf t nl mid).1, []⟩).2 (.inr ((touchesSchema_iff _).1 h))
      simp [CSchema.isReleased, this]

open Classical in
/-- C40. A successful export allocates a number of boxes, once each, and frees
nothing; the structures own these boxes and the storage of the array, and every
buffer reachable from the structures belongs to this storage. -/
theorem C40_owned (ht : t.WF) (he : Exportable t) {next : Nat} (hr : Reach nl t c)
    (hm : InMemory m nl t c a) {array : CArray} {schema : CSchema}
    (h : (exportArray nl t c a next).result = .ok (.ok (array, schema))) :
    ∃ mid, next < mid ∧ mid ≤ (exportArray nl t c a next).next ∧
      (∀ e, (exportArray nl t c a next).events.count e =
        if ∃ box, e = .alloc box ∧ next ≤ box ∧ box < (exportArray nl t c a next).next then 1 else 0) ∧
      OwnedBy array schema (allBuffers t nl a) next mid (exportArray nl t c a next).next ∧
      ∀ p, Reaches array p → p ∈ allBuffers t nl a := by
  have hi := reach_inv hr ht
  have h1 := export_ok ht he next hi hm
  cases hf : firstNonZero (bitOffsets nl t c) with
  | some k => rw [(h1.1 k hf).1] at h; simp at h
  | none =>
    obtain ⟨kids, mid, h2, h3⟩ := h1.2 hf
    rw [h3] at h ⊢; simp at h
    rw [← h.1, ← h.2]
    have := kids_le t h2
    refine ⟨mid, by omega, schema_le t nl mid, ?_, exported_owned h2, fun p => node_reaches t nl c a kids _ _ h2⟩
    intro e
    by_cases hb : ∃ box, e = .alloc box
    · obtain ⟨box, rfl⟩ := hb
      rw [count_allocs]
      simp
    · rw [if_neg (fun ⟨box, hx, _⟩ => hb ⟨box, hx⟩)]
      exact count_allocs_other (fun b hx => hb ⟨b, hx⟩)

/-- Releasing the array of the sample, then dropping both, in some order: each box
is freed once. -/
example {array : CArray} {schema : CSchema}
    (h : (exportArray true Sample.ty FfiSample.coll FfiSample.place 0).result = .ok (.ok (array, schema))) :
    ((Pair.mk array schema []).run [.releaseArray, .dropSchema, .dropArray]).events.count
      (.dropOwner (allBuffers Sample.ty true FfiSample.place)) = 1 := by
  obtain ⟨mid, _, _, _, h1, _⟩ := C40_owned FfiSample.wf FfiSample.exportable FfiSample.reach
    FfiSample.inMemory h
  rw [h1.storage]
  simp [touchesArray]

/-- C40. A failed export frees every box it allocated and drops the array, once. -/
theorem C40_failed (ht : t.WF) (he : Exportable t) {next : Nat} (hr : Reach nl t c)
    (hm : InMemory m nl t c a) {e : ExportError}
    (h : (exportArray nl t c a next).result = .ok (.error e)) :
    (exportArray nl t c a next).events.filter (fun e => match e with | .dropOwner _ => true | _ => false) =
      [.dropOwner (allBuffers t nl a)] ∧
    ∀ box, (exportArray nl t c a next).events.count (.alloc box) =
        (exportArray nl t c a next).events.count (.free box) ∧
      (exportArray nl t c a next).events.count (.free box) ≤ 1 := by
  have hi := reach_inv hr ht
  have h1 := export_ok ht he next hi hm
  cases hf : firstNonZero (bitOffsets nl t c) with
  | some k =>
    rw [(h1.1 k hf).2]
    split
    · exact ⟨rfl, fun box => ⟨rfl, Nat.zero_le _⟩⟩
    · refine ⟨rfl, fun box => ?_⟩
      by_cases hb : next = box
      · subst hb; simp [List.count_cons]
      · simp [List.count_cons, hb]
  | none =>
    obtain ⟨kids, mid, h2, h3⟩ := h1.2 hf
    rw [h3] at h; simp at h

/-! ### Children moved out of a structure -/

/-- A consumer may move a child out of a structure (Arrow C Data Interface,
"Moving child arrays"): the child is copied, and the original marked released. -/
def moveChild (array : CArray) : Option (CArray × CArray) :=
  (firstChild array).map fun kid =>
    ({ array with children := array.children.map fun l => l.set 0 (some { kid with release := none }) }, kid)

/-- C40 does not extend to moved children: a child that is moved out of an exported
structure still points to the storage of the whole array, and releasing the
parent frees this storage while the child is not released. The Arrow
specification asks for the opposite. -/
theorem C40_moved_child_dangles {array' : CArray} {schema' : CSchema}
    (h : (exportArray true Sample.ty FfiSample.coll FfiSample.place 0).result = .ok (.ok (array', schema'))) :
    ∃ parent kid p buffers, moveChild array' = some (parent, kid) ∧ kid.isReleased = false ∧
      Reaches kid p ∧ Event.dropOwner buffers ∈ parent.dropEvents ∧ p ∈ buffers := by
  have h1 := export_ok FfiSample.wf FfiSample.exportable 0 (reach_inv FfiSample.reach FfiSample.wf)
    FfiSample.inMemory
  obtain ⟨kids, mid, h2, h3⟩ := h1.2 (firstNonZero_none.2 FfiSample.zero)
  obtain ⟨kids', mid', l, h4, h5, h6, h7, h8⟩ := h2
  rw [h3] at h; simp at h
  rw [← h.1]
  subst h7
  refine ⟨_, _, 9, [8, 16, 9, 10], rfl, rfl, .own (i := 0) rfl (by decide), ?_, by decide⟩
  simp only [intoArray, CArray.dropEvents]
  exact List.mem_append_right _ (List.mem_append_left _ (List.mem_singleton.2 rfl))

end Narrow.Props
