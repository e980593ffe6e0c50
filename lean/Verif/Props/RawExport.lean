import Verif.Proof.RawExport
import Verif.Props.Raw
import Verif.Model.Nullability

/-!
# Exporting to structures in memory, and releasing them (C74)

`Raw.exportAt env nl t c owner origin a h` is the export of an array in memory `h`: the
array is the bytes `owner`, comes from `origin`, and its buffers are at `a q` when it
is at `q`. It gives
an `ArrowArray` and an `ArrowSchema`, which the consumer stores where it likes, and
the memory after. `Raw.releaseArray` and `Raw.releaseSchema` are the release
callbacks, called with the address of a structure. `Provided`, `Owned`, `Handed` and
`Released` are in Spec/RawExport.lean; which structures memory holds is said by the C
declarations (`ArrayAt`, `SchemaAt`, Spec/Raw.lean).
-/

namespace Narrow.Props

open Spec Narrow.Ffi Narrow.Ffi.Spec Narrow.Ffi.Raw

section

variable {env : Env} {nl : Bool} {t : Ty} {c : (arrayR nl t).C} {owner : List Byte} {align : Nat}
  {a : Nat → APlace nl t} {h h' H : Heap} {array : RawArray} {schema : RawSchema} {p s origin : Nat}

/-- An array whose storage is not held inline can be exported from any memory that
holds it. -/
theorem owned_of_inMemory {m : Mem} {place : APlace nl t} (hm : InMemory m nl t c place)
    (hb : ∀ p ∈ allBuffers t nl place, p < 2 ^ 64) : Owned m nl t c owner align fun _ => place :=
  fun _ _ he _ _ _ _ => ⟨inMemory_mono he hm, hb⟩

/-- C74. If an export succeeds, the array is at some address `q` in memory, nothing
that was in memory has changed, and wherever the consumer stores the two structures,
memory holds there the trees of structures of the export (those of C31 to C34), down
to any depth. -/
theorem C74_structures (hP : Provided env h.mem nl t owner.length align)
    (hO : Owned h.mem nl t c owner align a) (ht : Tidy h) (next : Nat)
    (he : exportAt env nl t c owner origin a h = .ok ((array, schema), h')) :
    Extends h.mem h'.mem ∧ ∃ q arrayTree schemaTree, BytesAt h'.mem q owner ∧ q % align = 0 ∧
      InMemory h'.mem nl t c (a q) ∧
      (exportArray nl t c (a q) next).result = .ok (.ok (arrayTree, schemaTree)) ∧
      ∀ m p s, Extends h'.mem m → ArrayStored m p array → SchemaStored m s schema →
        ∀ d, ArrayAt m d p arrayTree ∧ SchemaAt m d s schemaTree := by
  obtain ⟨q, x, y, h3, hx, hr⟩ := exported_root hP hO ht next he
  have hext := hr.grew.ext.trans hr.schema.grew.ext
  have hown := hr.ownerAt.mono hr.schema.grew.ext
  refine ⟨hext, q, x, y, hown, hr.qA, (hO _ q hext hr.q0 hr.qA hr.qM hown).1, hx, fun m p s hm hp hs d => ⟨?_, ?_⟩⟩
  · refine hr.structure_ m (fun q hq => ?_) p hp d
    obtain ⟨b, hb⟩ := Option.ne_none_iff_exists'.1 hq.2
    rw [hb, hm q b (hr.schema.grew.ext q b hb)]
  · refine hr.schema.structure_ m (fun x hx => (hP.literal x hx).2.2.mono (hext.trans hm)) (fun q hq => ?_) s hs d
    obtain ⟨b, hb⟩ := Option.ne_none_iff_exists'.1 hq.2
    rw [hb, hm q b hb]

/-- C74. The structures, their tables and their descendants are aligned, if the
consumer aligns the two it stores. -/
theorem C74_aligned (hP : Provided env h.mem nl t owner.length align)
    (hO : Owned h.mem nl t c owner align a) (ht : Tidy h)
    (he : exportAt env nl t c owner origin a h = .ok ((array, schema), h')) {m : Mem} (hm : Extends h'.mem m)
    (hp : ArrayStored m p array) (hs : SchemaStored m s schema) (hp8 : p % 8 = 0) (hs8 : s % 8 = 0) (d : Nat) :
    AlignedArray m d p ∧ AlignedSchema m d s := by
  obtain ⟨q, x, y, h3, hx, hr⟩ := exported_root hP hO ht 0 he
  refine ⟨hr.aligned m (fun q hq => ?_) p hp hp8 d, hr.schema.aligned m (fun q hq => ?_) s hs hs8 d⟩
  · obtain ⟨b, hb⟩ := Option.ne_none_iff_exists'.1 hq.2
    rw [hb, hm q b (hr.schema.grew.ext q b hb)]
  · obtain ⟨b, hb⟩ := Option.ne_none_iff_exists'.1 hq.2
    rw [hb, hm q b hb]

/-- C74. An export in memory succeeds or returns `NonZeroOffset` with the first
non-zero bit offset, unless the allocator refuses: it does not panic and is not
undefined behaviour. (`hm`: the array is in some memory before it is exported.) -/
theorem C74_outcome (hwf : t.WF) (hexp : Exportable t) (hr : Reach nl t c) {m : Mem} {place : APlace nl t}
    (hm : InMemory m nl t c place) (hP : Provided env h.mem nl t owner.length align)
    (hO : Owned h.mem nl t c owner align a) (ht : Tidy h) :
    exportAt env nl t c owner origin a h = .abort ∨
    ((∀ o ∈ bitOffsets nl t c, o = 0) ∧ ∃ r, exportAt env nl t c owner origin a h = .ok r) ∨
    ∃ before o after, bitOffsets nl t c = before ++ o :: after ∧ (∀ o ∈ before, o = 0) ∧ o ≠ 0 ∧
      ∃ h', exportAt env nl t c owner origin a h = .err (.nonZeroOffset o) h' := by
  rcases root_ok hP hO ht origin 0 with e | ⟨q, e⟩
  · exact .inl e
  right
  have hk := kind_export nl t c (a q) place 0 0
  have h1 := export_ok hwf hexp 0 (reach_inv hr hwf) hm
  cases hf : firstNonZero (bitOffsets nl t c) with
  | some o =>
    right
    obtain ⟨ho, before, after, hb, hbz⟩ := List.find?_eq_some_iff_append.1 hf
    have ho : o ≠ 0 := by simpa using ho
    refine ⟨before, o, after, hb, fun x hx => by simpa using hbz x hx, ho, ?_⟩
    rw [(h1.1 o hf).1] at hk
    unfold Exported at e
    split at e
    · next hx => rw [hx] at hk; cases hk
    · next e' hx =>
      rw [hx] at hk; cases hk
      obtain ⟨h', e, _⟩ := e
      exact ⟨h', e⟩
    · next hx => rw [hx] at hk; cases hk
  | none =>
    left
    refine ⟨firstNonZero_none.1 hf, ?_⟩
    obtain ⟨kids, mid, _, h3⟩ := h1.2 hf
    rw [h3] at hk
    unfold Exported at e
    split at e
    · next hx => rw [hx] at hk; cases hk
    · next e' hx => rw [hx] at hk; cases hk
    · obtain ⟨ra, rs, _, h'', e, _⟩ := e
      exact ⟨_, e⟩

/-- C74. An export that fails leaves memory and the allocated blocks as they were, and
drops the array exactly once, its bytes intact, where it came from or at an aligned
address that it was moved to. -/
theorem C74_failed (hP : Provided env h.mem nl t owner.length align)
    (hO : Owned h.mem nl t c owner align a) (ht : Tidy h) {e : ExportError}
    (he : exportAt env nl t c owner origin a h = .err e h') :
    (∀ q, h'.mem.byte q = h.mem.byte q ∧ h'.blocks q = h.blocks q) ∧
      ∃ q, (q = origin ∨ q % align = 0) ∧ h'.dropped = h.dropped ++ [(q, owner)] := exported_failed hP hO ht he

/-- C74. From the exported structures, wherever they are stored, an import reads the
items of the array back from memory. -/
theorem C74_round_trip (hwf : t.WF) (hexp : Exportable t) (hr : Reach nl t c)
    (hz : ∀ o ∈ bitOffsets nl t c, o = 0) (hc : Committed nl t c)
    (hP : Provided env h.mem nl t owner.length align) (hO : Owned h.mem nl t c owner align a) (ht : Tidy h)
    (he : exportAt env nl t c owner origin a h = .ok ((array, schema), h')) {m : Mem} (hm : Extends h'.mem m)
    (hp : ArrayStored m p array) (hs : SchemaStored m s schema) :
    ∃ c' a' l, importAt m t nl p s = .ok (c', a') ∧ Reach nl t c' ∧ Shows nl t c l ∧ Shows nl t c' l := by
  obtain ⟨hext, q, x, y, hown, hqa, him, hx, hst⟩ := C74_structures hP hO ht 0 he
  obtain ⟨h1, h2⟩ := hst m p s hm hp hs (nesting t)
  exact C73_round_trip hwf hexp hr (inMemory_mono hm him) hz hc hx h1 h2

/-- C74. Releasing both structures, in either order, frees every block that the
export allocated and nothing else, touches no other memory but the structures, marks
both as released, and drops the array exactly once, its bytes intact at `q`, aligned. -/
theorem C74_release (hP : Provided env h.mem nl t owner.length align)
    (hO : Owned h.mem nl t c owner align a) (ht : Tidy h)
    (he : exportAt env nl t c owner origin a h = .ok ((array, schema), h')) :
    ∃ q, q % align = 0 ∧ BytesAt h'.mem q owner ∧ ∀ H p s, Handed h h' H p s array schema →
      (∃ H1 H2, releaseArray env t true nl p H = .ok H1 ∧ releaseSchema env t s H1 = .ok H2 ∧
        Released h h' p s H H2 ∧ H2.dropped = H.dropped ++ [(q, owner)]) ∧
      ∃ H1 H2, releaseSchema env t s H = .ok H1 ∧ releaseArray env t true nl p H1 = .ok H2 ∧
        Released h h' p s H H2 ∧ H2.dropped = H.dropped ++ [(q, owner)] := by
  obtain ⟨q, x, y, h3, hx, hr⟩ := exported_root hP hO ht 0 he
  refine ⟨q, hr.qA, hr.ownerAt.mono hr.schema.grew.ext, fun H p s hh => ⟨?_, ?_⟩⟩
  · obtain ⟨H1, H2, w1, w2, r, d, _⟩ := hr.array_first hh
    exact ⟨H1, H2, w1, w2, r, d⟩
  · obtain ⟨H1, H2, w1, w2, r, d, _⟩ := hr.schema_first hh
    exact ⟨H1, H2, w1, w2, r, d⟩

/-- C74. Dropping a structure that was released does nothing: no callback is called a
second time. -/
theorem C74_release_once (hr : Released h h' p s H H') (address : Nat) (callback : Nat → Heap → Ex Heap) :
    dropArray address callback p H' = .ok H' ∧ dropSchema address callback s H' = .ok H' := by
  constructor
  · rw [dropArray, readWord_ok hr.array]; rfl
  · rw [dropSchema, readWord_ok hr.schema]; rfl

/-- C74. Where the children of a box go later, default structures are stored, and
dropping those does nothing. -/
theorem C74_default {m : Mem} (hp : ArrayStored m p defaultArray) (d : Nat) (address : Nat)
    (callback : Nat → Heap → Ex Heap) : ArrayAt m d p CArray.default ∧
      (m = h.mem → dropArray address callback p h = .ok h) := by
  obtain ⟨h0, h1, h2, h3, h4, h5, h6, h7, h8, h9⟩ := hp
  have hf : ArrayFields m p CArray.default :=
    ⟨h0, h1, h2, h3, h4, h5, h6.pointer (by simp [defaultArray, CArray.default]),
      h7.pointer (by simp [defaultArray, CArray.default]), h8.pointer (by simp [defaultArray, CArray.default]), _, h9⟩
  refine ⟨?_, ?_⟩
  · cases d with
    | zero => exact hf
    | succ d => exact ⟨hf, h6⟩
  · rintro rfl
    rw [dropArray, readWord_ok h8]; rfl

/-- Dropping such a structure twice does nothing either. -/
example (hp : ArrayStored h.mem p defaultArray) (callback : Nat → Heap → Ex Heap) :
    (dropArray 7 callback p h).bind (dropArray 7 callback p) = .ok h := by
  rw [(C74_default hp 0 7 callback).2 rfl]
  exact (C74_default hp 0 7 callback).2 rfl

/-- C74. The callbacks in the two structures are the release functions of the layout,
and while a structure is not released, dropping it calls its callback. -/
theorem C74_drop_releases (hP : Provided env h.mem nl t owner.length align)
    (hO : Owned h.mem nl t c owner align a) (ht : Tidy h)
    (he : exportAt env nl t c owner origin a h = .ok ((array, schema), h')) (callback : Nat → Heap → Ex Heap) :
    (array.release = env.releaseArray true nl t ∧ schema.release = env.releaseSchema t) ∧
      (ArrayStored H.mem p array → dropArray array.release callback p H = callback p H) ∧
      (SchemaStored H.mem s schema → dropSchema schema.release callback s H = callback s H) := by
  obtain ⟨q, x, y, h3, hx, hr⟩ := exported_root hP hO ht 0 he
  refine ⟨⟨hr.release.2, hr.schema.release.2⟩, ?_, ?_⟩
  · intro hp
    rw [dropArray, readWord_ok hp.2.2.2.2.2.2.2.2.1, Ex.bind_ok, if_neg hr.release.1, if_pos rfl]
  · intro hs
    rw [dropSchema, readWord_ok hs.2.2.2.2.2.2.2.1, Ex.bind_ok, if_neg hr.schema.release.1, if_pos rfl]

/-- C74. The array outlives the schema: when only the schema is released, memory
still holds the array and its structures, and the array is not dropped. -/
theorem C74_array_outlives_schema (hP : Provided env h.mem nl t owner.length align)
    (hO : Owned h.mem nl t c owner align a) (ht : Tidy h) (next : Nat)
    (he : exportAt env nl t c owner origin a h = .ok ((array, schema), h'))
    (hh : Handed h h' H p s array schema) :
    ∃ q arrayTree schemaTree H1, (exportArray nl t c (a q) next).result = .ok (.ok (arrayTree, schemaTree)) ∧
      releaseSchema env t s H = .ok H1 ∧ H1.dropped = H.dropped ∧ BytesAt H1.mem q owner ∧
      ∀ d, ArrayAt H1.mem d p arrayTree := by
  obtain ⟨q, x, y, h3, hx, hr⟩ := exported_root hP hO ht next he
  have g := hr.grew
  have g' := hr.schema.grew
  obtain ⟨H1, w1, f1, _, d1⟩ := hr.schema.free H s (carries_right g g' hh.carries) hh.schema
    fun q hq => hh.schemaApart q ((new_split g g' q).2 (.inr hq))
  obtain ⟨H1', _, w1', _, _, _, _, c1, s1⟩ := hr.schema_first hh
  rw [w1] at w1'
  cases w1'
  refine ⟨q, x, y, H1, hx, w1, d1, ?_, hr.structure_ _ (fun q hq => (c1 q hq).1) p s1⟩
  intro i hi
  have hb := hr.ownerAt i hi
  refine (c1 _ ⟨?_, by rw [hb]; nofun⟩).1.trans hb
  exact hr.ownerNew _ ⟨by omega, by omega⟩

/-- C74. The schema outlives the array: when only the array is released, memory still
holds the schema. (The string literals are not in the consumer's `ArrowArray`.) -/
theorem C74_schema_outlives_array (hP : Provided env h.mem nl t owner.length align)
    (hO : Owned h.mem nl t c owner align a) (ht : Tidy h) (next : Nat)
    (he : exportAt env nl t c owner origin a h = .ok ((array, schema), h'))
    (hh : Handed h h' H p s array schema) (hH : Extends h.mem H.mem)
    (hl : ∀ x ∈ literals, ∀ i, i ≤ x.length → ¬ InBlock p 80 (env.literal x + i)) :
    ∃ q arrayTree schemaTree H1, (exportArray nl t c (a q) next).result = .ok (.ok (arrayTree, schemaTree)) ∧
      releaseArray env t true nl p H = .ok H1 ∧ ∀ d, SchemaAt H1.mem d s schemaTree := by
  obtain ⟨q, x, y, h3, hx, hr⟩ := exported_root hP hO ht next he
  obtain ⟨H1, _, w1, _, _, _, f1, c1, s1⟩ := hr.array_first hh
  refine ⟨q, x, y, H1, hx, w1, hr.schema.structure_ _ (fun x hx => ?_) (fun q hq => (c1 q hq).1) s s1⟩
  have h0 := (hP.literal x hx).2.2
  refine ⟨fun i hi => ⟨(h0.1 i hi).1, ?_⟩, ?_⟩
  · rw [f1.mem _ (fun hn => by have := hn.1; rw [(h0.1 i hi).2] at this; cases this) (hl x hx i (by omega))]
    exact hH _ _ (h0.1 i hi).2
  · rw [f1.mem _ (fun hn => by have := hn.1; rw [h0.2] at this; cases this) (hl x hx _ (Nat.le_refl _))]
    exact hH _ _ h0.2

/-- A consumer may store the structures anywhere in free memory. -/
theorem handed_of_free (hP : Provided env h.mem nl t owner.length align)
    (hO : Owned h.mem nl t c owner align a) (ht : Tidy h)
    (he : exportAt env nl t c owner origin a h = .ok ((array, schema), h')) (hp : p ≠ 0) (hs : p + 80 ≤ s)
    (hM : s + 72 ≤ byteMax) (hfree : ∀ q, p ≤ q → q < s + 72 → h'.mem.byte q = none) :
    ∃ H, Handed h h' H p s array schema ∧ Extends h'.mem H.mem := by
  obtain ⟨q, x, y, h3, hx, hr⟩ := exported_root hP hO ht 0 he
  have ea := arrayBytes_length array
  have es := schemaBytes_length schema
  refine ⟨⟨put (put h'.mem p (arrayBytes array) fun _ => ⟨hp, by omega⟩) s (schemaBytes schema)
    fun _ => ⟨by omega, by omega⟩, h'.blocks, h'.count, h'.dropped⟩, ⟨?_, ?_, ?_, ?_, ?_, ?_⟩, ?_⟩
  · intro q hq
    have : ¬ (p ≤ q ∧ q < s + 72) := fun h => hq.2 (hfree q h.1 h.2)
    refine ⟨?_, rfl⟩
    exact (put_out (h := fun _ => ⟨by omega, by omega⟩) (by omega)).trans
      (put_out (h := fun _ => ⟨hp, by omega⟩) (by omega))
  · refine stored_of_bytes (fun i hi => ?_) hr.small
    exact (put_out (h := fun _ => ⟨by omega, by omega⟩) (by omega)).trans
      (put_in (h := fun _ => ⟨hp, by omega⟩) hi)
  · exact schemaStored_of_bytes (put_bytes (h := fun _ => ⟨by omega, by omega⟩)) hr.schema.small
  · intro q hq hin
    exact hq.2 (hfree q hin.1 (by have := hin.2; omega))
  · intro q hq hin
    exact hq.2 (hfree q (by have := hin.1; omega) hin.2)
  · intro q h1 h2
    have := h1.2
    have := h2.1
    omega
  · intro q b hq
    have : ¬ (p ≤ q ∧ q < s + 72) := fun h => by rw [hfree q h.1 h.2] at hq; cases hq
    exact ((put_out (h := fun _ => ⟨by omega, by omega⟩) (by omega)).trans
      (put_out (h := fun _ => ⟨hp, by omega⟩) (by omega))).trans hq

end

/-! ## Concrete cases -/

namespace RawExportSample

open RawSample

/-- The buffers of `FfiSample`, and the string literals from address 300. -/
def blocks : List (Nat × List Byte) :=
  [(8, [13#8, 5#8, 49#8]),
   (16, [0#8, 0#8, 0#8, 0#8, 2#8, 0#8, 0#8, 0#8, 2#8, 0#8, 0#8, 0#8, 2#8, 0#8, 0#8, 0#8,
     3#8, 0#8, 0#8, 0#8]),
   (300, literals.flatMap fun x => x ++ List.replicate (4 - x.length) 0#8)]

/-- The memory before. -/
def mem : Mem where
  byte := find blocks
  null := by decide +kernel
  high p hp := find_high _ p (by decide +kernel) (Nat.le_trans (Nat.le_of_ble_eq_true rfl) hp)

def heap : Heap := ⟨mem, fun _ => none, 0, []⟩

/-- Blocks of at most 128 bytes, from address 1024. -/
def env : Env where
  place n := 1024 + 128 * n
  literal x := 300 + 4 * literals.idxOf x
  data root _ _ := ⟨if root then 128 else 120, 8, 0, 16, 96, 120, if root then 8 else 0⟩
  schema _ := ⟨96, 8, 0, 16, 88⟩
  releaseArray _ _ _ := 4096
  releaseSchema _ := 4104

/-- The bytes of the array itself: its vectors, say. -/
def owner : List Byte := [1#8, 2#8, 3#8, 4#8, 5#8, 6#8, 7#8, 8#8]

theorem provided (nl : Bool) (t : Ty) : Provided env mem nl t 8 8 where
  literal := by
    have : (literals.all fun x => env.literal x != 0 && env.literal x < 2 ^ 64 &&
      string mem (env.literal x) x) = true := by decide +kernel
    intro x hx
    have := List.all_eq_true.1 this x hx
    simp only [Bool.and_eq_true, bne_iff_ne, ne_eq, decide_eq_true_eq] at this
    exact ⟨this.1.1, this.1.2, string_of this.2⟩
  releaseArray _ _ _ := (by decide : 4096 ≠ 0 ∧ 4096 < 2 ^ 64)
  releaseSchema _ := (by decide : 4104 ≠ 0 ∧ 4104 < 2 ^ 64)
  root := by cases t <;> (constructor <;> simp [env, buffersIn, childrenIn, childTy, Apart])
  rootAligned := (by decide : 8 % 8 = 0 ∧ 120 % 8 = 0)
  child nl t := by cases t <;> (constructor <;> simp [env, buffersIn, childrenIn, childTy, Apart])
  schema t := by cases t <;> (constructor <;> simp [env, Apart])

theorem tidy : Tidy heap := fun _ _ => rfl

theorem inMemory : InMemory mem true Sample.ty FfiSample.coll FfiSample.place :=
  ⟨⟨⟨by decide, by decide, by decide +kernel⟩, ⟨(by decide : (10 : Nat) ≠ 0), by decide +kernel⟩,
    by decide, by decide +kernel⟩, by decide, by decide +kernel⟩

theorem owned : Owned mem true Sample.ty FfiSample.coll owner 8 fun _ => FfiSample.place :=
  owned_of_inMemory inMemory (by decide)

/-- The result of a call. -/
def result {α : Type} : Ex α → Option α
  | .ok a => some a
  | _ => none

/-- Six booleans held inline: the array is the byte with its bits. -/
theorem inline : Owned mem false .bool FfiSample.bits [49#8, 0#8, 0#8, 0#8, 0#8, 0#8, 0#8, 0#8] 8 fun q => q := by
  intro m' q _ hq _ hM hb
  refine ⟨⟨hq, ?_⟩, ?_⟩
  · have : BytesAt m' q [49#8] := BytesAt.left (l' := [0#8, 0#8, 0#8, 0#8, 0#8, 0#8, 0#8]) hb
    exact read_bytes this
  · intro p hp
    rw [List.mem_singleton.1 hp]
    exact Nat.lt_of_le_of_lt (Nat.le_trans (Nat.le_add_right q _) hM) byteMax_lt

end RawExportSample

/-- The sample is exported, in eight blocks. -/
theorem RawExportSample.exports : ∃ array schema h', exportAt RawExportSample.env true Sample.ty FfiSample.coll
    RawExportSample.owner 7000 (fun _ => FfiSample.place) RawExportSample.heap = .ok ((array, schema), h') ∧
    h'.count = 8 ∧ ∀ q, 4096 ≤ q → q < 4248 → h'.mem.byte q = none := by
  have h : (RawExportSample.result (exportAt RawExportSample.env true Sample.ty FfiSample.coll
      RawExportSample.owner 7000 (fun _ => FfiSample.place) RawExportSample.heap)).any (fun r => r.2.count == 8 &&
        (List.range 152).all fun i => (r.2.mem.byte (4096 + i)).isNone) = true := by decide +kernel
  cases he : exportAt RawExportSample.env true Sample.ty FfiSample.coll
      RawExportSample.owner 7000 (fun _ => FfiSample.place) RawExportSample.heap with
  | ok r =>
    rw [he] at h
    simp only [RawExportSample.result, Option.any_some, Bool.and_eq_true, beq_iff_eq, List.all_eq_true,
      List.mem_range, Option.isNone_iff_eq_none] at h
    obtain ⟨⟨array, schema⟩, h'⟩ := r
    refine ⟨array, schema, h', rfl, h.1, fun q h1 h2 => ?_⟩
    have := h.2 (q - 4096) (by omega)
    rwa [Nat.add_sub_cancel' h1] at this
  | err e _ => rw [he] at h; cases h
  | panic => rw [he] at h; cases h
  | abort => rw [he] at h; cases h
  | ub => rw [he] at h; cases h

/-- A consumer stores its structures at 4096 and 4176, imports them, and releases
them. -/
example : ∃ array schema h' H H1 H2, exportAt RawExportSample.env true Sample.ty FfiSample.coll
      RawExportSample.owner 7000 (fun _ => FfiSample.place) RawExportSample.heap = .ok ((array, schema), h') ∧
    Handed RawExportSample.heap h' H 4096 4176 array schema ∧
    (∃ c' a' l, importAt H.mem Sample.ty true 4096 4176 = .ok (c', a') ∧ Reach true Sample.ty c' ∧
      Shows true Sample.ty FfiSample.coll l ∧ Shows true Sample.ty c' l) ∧
    releaseArray RawExportSample.env Sample.ty true true 4096 H = .ok H1 ∧
    releaseSchema RawExportSample.env Sample.ty 4176 H1 = .ok H2 ∧
    Released RawExportSample.heap h' 4096 4176 H H2 := by
  obtain ⟨array, schema, h', he, _, hfree⟩ := RawExportSample.exports
  have hP := RawExportSample.provided true Sample.ty
  obtain ⟨H, hh, hx⟩ := handed_of_free (h := RawExportSample.heap) hP RawExportSample.owned RawExportSample.tidy he
    (p := 4096) (s := 4176) (by decide) (by decide) (Nat.le_of_ble_eq_true rfl) hfree
  obtain ⟨q, _, _, hr⟩ := C74_release (h := RawExportSample.heap) hP RawExportSample.owned RawExportSample.tidy he
  obtain ⟨⟨H1, H2, w1, w2, r, _⟩, _⟩ := hr H 4096 4176 hh
  exact ⟨array, schema, h', H, H1, H2, he, hh, C74_round_trip (h := RawExportSample.heap) FfiSample.wf
    FfiSample.exportable FfiSample.reach FfiSample.zero FfiSample.committed hP RawExportSample.owned
    RawExportSample.tidy he hx hh.array hh.schema, w1, w2, r⟩

/-- The inline array is exported from where its box is. -/
example : (RawExportSample.result (exportAt RawExportSample.env false .bool FfiSample.bits
    [49#8, 0#8, 0#8, 0#8, 0#8, 0#8, 0#8, 0#8] 7000 (fun q => q) RawExportSample.heap)).map
      (fun r => (r.1.1.buffers, RawSample.holds r.2.mem 1032 1144, r.2.mem.byte 1144)) =
    some (1024, true, some 49#8) := by decide +kernel

example := C74_outcome (h := RawExportSample.heap) (t := .bool) trivial trivial FfiSample.bits_reach
  (origin := 7000) (owner := [49#8, 0#8, 0#8, 0#8, 0#8, 0#8, 0#8, 0#8])
  (m := FfiSample.mem) (place := (10 : Nat)) ⟨by decide, by decide⟩ (RawExportSample.provided false .bool)
  RawExportSample.inline RawExportSample.tidy

/-- A pair of booleans that do not start at the first bit of their byte. -/
def RawExportSample.pair : (arrayR false (.fsl 2 false .bool)).C := (⟨⟨⟨[49#8], 1⟩, 2, 4⟩⟩ : Flatten Bitmap)

theorem RawExportSample.pair_owned : Owned RawExportSample.mem false (.fsl 2 false .bool) RawExportSample.pair
    RawExportSample.owner 8 fun _ => (10 : Nat) :=
  owned_of_inMemory ⟨(by decide : (10 : Nat) ≠ 0), by decide +kernel⟩ (by decide)

/-- It is moved into a box at 1024, its child is not exported, and it is dropped there. -/
theorem RawExportSample.pair_fails : ∃ h', exportAt RawExportSample.env false (.fsl 2 false .bool) RawExportSample.pair
    RawExportSample.owner 7000 (fun _ => (10 : Nat)) RawExportSample.heap = .err (.nonZeroOffset 4) h' ∧
    h'.dropped = [(1144, RawExportSample.owner)] := by
  have h : (match exportAt RawExportSample.env false (.fsl 2 false .bool) RawExportSample.pair
      RawExportSample.owner 7000 (fun _ => (10 : Nat)) RawExportSample.heap with
    | .err (.nonZeroOffset o) h' => o == 4 && h'.dropped == [(1144, RawExportSample.owner)]
    | _ => false) = true := by decide +kernel
  cases he : exportAt RawExportSample.env false (.fsl 2 false .bool) RawExportSample.pair
      RawExportSample.owner 7000 (fun _ => (10 : Nat)) RawExportSample.heap with
  | err e h' =>
    rw [he] at h
    cases e
    simp only [Bool.and_eq_true, beq_iff_eq] at h
    exact ⟨h', by rw [h.1], h.2⟩
  | ok r => rw [he] at h; cases h
  | panic => rw [he] at h; cases h
  | abort => rw [he] at h; cases h
  | ub => rw [he] at h; cases h

example : ∃ h', exportAt RawExportSample.env false (.fsl 2 false .bool) RawExportSample.pair
    RawExportSample.owner 7000 (fun _ => (10 : Nat)) RawExportSample.heap = .err (.nonZeroOffset 4) h' ∧
    ∀ q, h'.mem.byte q = RawExportSample.mem.byte q ∧ h'.blocks q = none := by
  obtain ⟨h', he, _⟩ := RawExportSample.pair_fails
  exact ⟨h', he, (C74_failed (h := RawExportSample.heap) (RawExportSample.provided false _)
    RawExportSample.pair_owned RawExportSample.tidy he).1⟩

end Narrow.Props
