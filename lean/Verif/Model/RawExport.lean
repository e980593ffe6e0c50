import Verif.Model.Raw
import Verif.Model.Export

/-!
# Exporting to structures in memory

narrow-ffi/src/export, with every box, table and string a block of memory.
`Model/Export.lean` builds trees of structures; here pointers are addresses, and
blocks are where the allocator puts them. 64-bit little-endian target. After a
panic the memory is not described; what is freed then is in `Model/Export.lean`.
-/

namespace Narrow.Ffi.Raw

/-- The fields of `ArrayData` in its box (narrow-ffi/src/export/mod.rs:216-227): the
compiler chooses their order. -/
structure DataLayout where
  size : Nat
  align : Nat
  buffers : Nat
  children : Nat
  pointers : Nat
  owner : Nat
  ownerSize : Nat

/-- The fields of `FixedSizeListSchemaData` and `VariableSizeListSchemaData` in
their box (narrow-ffi/src/export/fixed_size_list.rs:111-119,
variable_size_list.rs:117-123; the latter has no format). -/
structure SchemaLayout where
  size : Nat
  align : Nat
  format : Nat
  children : Nat
  pointers : Nat

/-- What the program runs in (for narrow-ffi/src/export/mod.rs:163-213). -/
structure Env where
  /-- the address of each allocation, in order -/
  place : Nat → Nat
  /-- the addresses of string literals -/
  literal : List Byte → Nat
  /-- the layout of `ArrayData` of the array itself, or of a child -/
  data : (root nl : Bool) → Ty → DataLayout
  schema : Ty → SchemaLayout
  /-- the addresses of the release callbacks -/
  releaseArray : (root nl : Bool) → Ty → Nat
  releaseSchema : Ty → Nat

/-- Memory, the sizes of the allocated blocks by their addresses, the number of
allocations so far, and the arrays dropped: where they were and their bytes (for
narrow-ffi/src/export/mod.rs:163-213). -/
structure Heap where
  mem : Mem
  blocks : Nat → Option Nat
  count : Nat
  dropped : List (Nat × List Byte)

/-- How a call ends. An error comes with the memory after; `abort`: the allocator
refused (of narrow-ffi/src/export/mod.rs:163-213). -/
inductive Ex (α : Type) where
  | ok (a : α)
  | err (e : ExportError) (h : Heap)
  | panic
  | abort
  | ub

/-- Sequencing (the calls of narrow-ffi/src/export/mod.rs:163-213 one after the other).
-/
def Ex.bind {α β : Type} : Ex α → (α → Ex β) → Ex β
  | .ok a, f => f a
  | .err e h, _ => .err e h
  | .panic, _ => .panic
  | .abort, _ => .abort
  | .ub, _ => .ub

/-- A computation that may panic (e.g. narrow-ffi/src/export/mod.rs:172). -/
def Ex.ofRes {α : Type} : Res α → Ex α
  | .ok a => .ok a
  | .panic => .panic

/-- The bytes `l` at address `p`, the other bytes as they are (e.g.
narrow-ffi/src/export/mod.rs:202). -/
def put (m : Mem) (p : Nat) (l : List Byte) (h : l ≠ [] → p ≠ 0 ∧ p + l.length ≤ byteMax) : Mem where
  byte q := if p ≤ q ∧ q < p + l.length then l[q - p]? else m.byte q
  null := by
    split
    · next h' =>
      cases l with
      | nil => exact absurd h'.2 (by simpa using h'.1)
      | cons b l => exact absurd (Nat.le_zero.1 h'.1) (h nofun).1
    · exact m.null
  high q hq := by
    split
    · next h' =>
      cases l with
      | nil => exact absurd h'.2 (by simpa using h'.1)
      | cons b l => exact absurd hq (Nat.not_le.2 (Nat.lt_of_lt_of_le h'.2 (h nofun).2))
    · exact m.high q hq

/-- A block holding `l`, at an aligned address of the allocator's choice where there is
nothing else; the process aborts if it has no such address to give
(narrow-ffi/src/export/mod.rs:175, 196 and 241-246). -/
def Heap.alloc (env : Env) (h : Heap) (align : Nat) (l : List Byte) : Ex (Nat × Heap) :=
  if hp : (env.place h.count ≠ 0 ∧ env.place h.count + l.length ≤ byteMax) ∧
      env.place h.count % align = 0 ∧
      ∀ i, i < l.length → h.mem.byte (env.place h.count + i) = none then
    .ok (env.place h.count, ⟨put h.mem (env.place h.count) l fun _ => hp.1,
      fun p => if p = env.place h.count then some l.length else h.blocks p, h.count + 1, h.dropped⟩)
  else .abort

theorem writable {m : Mem} {p : Nat} {l : List Byte}
    (h : ∀ i, i < l.length → (m.byte (p + i)).isSome = true) :
    l ≠ [] → p ≠ 0 ∧ p + l.length ≤ byteMax := by
  intro hl
  have hpos := List.length_pos_iff.2 hl
  constructor
  · rintro rfl
    have := h 0 hpos
    rw [Nat.add_zero, m.null] at this
    exact Bool.noConfusion this
  · apply Nat.le_of_not_lt
    intro hlt
    have := h (l.length - 1) (by omega)
    rw [m.high _ (by omega)] at this
    exact Bool.noConfusion this

/-- Writing `l` at address `p`; there must be memory there (e.g.
narrow-ffi/src/export/mod.rs:202-204). -/
def Heap.write (h : Heap) (p : Nat) (l : List Byte) : Ex Heap :=
  if hp : ∀ i, i < l.length → (h.mem.byte (p + i)).isSome = true then
    .ok { h with mem := put h.mem p l (writable hp) }
  else .ub

/-- A word in memory (the fields of narrow-ffi/src/lib.rs:102-121 and 160-181). -/
def wordBytes (v : Nat) : List Byte := (List.range 8).map fun i => BitVec.ofNat 8 (v / 256 ^ i)

/-- Words one after the other (the tables of narrow-ffi/src/export/mod.rs:219-224). -/
def words (l : List Nat) : List Byte := l.flatMap wordBytes

/-- An `ArrowArray` in memory (narrow-ffi/src/lib.rs:156-181). -/
def arrayBytes (r : RawArray) : List Byte :=
  words [r.length.toNat, r.nullCount.toNat, r.offset.toNat, r.nBuffers.toNat, r.nChildren.toNat,
    r.buffers, r.children, r.dictionary, r.release, r.privateData]

/-- An `ArrowSchema` in memory (narrow-ffi/src/lib.rs:98-121). -/
def schemaBytes (r : RawSchema) : List Byte :=
  words [r.format, r.name, r.metadata, r.flags.toNat, r.nChildren.toNat, r.children, r.dictionary,
    r.release, r.privateData]

/-- `ArrowArray::default` (narrow-ffi/src/lib.rs:191-206). -/
def defaultArray : RawArray :=
  { length := 0#64, nullCount := 0#64, offset := 0#64, nBuffers := 0#64, nChildren := 0#64,
    buffers := 0, children := 0, dictionary := 0, release := 0, privateData := 0 }

/-- `Box::new(ArrayData { .. })` (narrow-ffi/src/export/mod.rs:174-178, 195-201,
229-238); the table of child pointers is empty and set later. A `Vec` is taken to be
its capacity, address and length. -/
def newData (env : Env) (lay : DataLayout) (owner : List Byte) (buffers : List Nat)
    (children : List RawArray) (h : Heap) : Ex (Nat × Heap) :=
  (h.alloc env lay.align (List.replicate lay.size 0#8)).bind fun r =>
  (r.2.write (r.1 + lay.buffers) (words buffers)).bind fun h =>
  (h.write (r.1 + lay.children) (children.flatMap arrayBytes)).bind fun h =>
  (h.write (r.1 + lay.pointers) (words [0, 8, 0])).bind fun h =>
  (h.write (r.1 + lay.owner) owner).bind fun h => .ok (r.1, h)

/-- `ArrayData::set_child_pointers` (narrow-ffi/src/export/mod.rs:240-248) with `n`
children; returns the address of the table. A table without entries is not
allocated. -/
def setChildPointers (env : Env) (lay : DataLayout) (box n : Nat) (h : Heap) : Ex (Nat × Heap) :=
  (if n = 0 then .ok (8, h)
    else h.alloc env 8 (words ((List.range n).map fun i => box + lay.children + 80 * i))).bind
  fun r => (r.2.write (box + lay.pointers) (words [n, r.1, n])).bind fun h => .ok (r.1, h)

/-- `ArrayData::into_array` (narrow-ffi/src/export/mod.rs:250-285), with a null
dictionary (narrow-ffi/src/export/mod.rs:158-160). -/
def intoRaw (lay : DataLayout) (release box table nBuffers nChildren : Nat) (length nullCount : I64) :
    RawArray where
  length := length
  nullCount := nullCount
  offset := 0#64
  nBuffers := BitVec.ofNat 64 nBuffers
  nChildren := BitVec.ofNat 64 nChildren
  buffers := if nBuffers = 0 then 0 else box + lay.buffers
  children := if nChildren = 0 then 0 else table
  dictionary := 0
  release := release
  privateData := box

/-- `ArrowArrayLayout::child_array` (narrow-ffi/src/export/mod.rs:163-183), given
`children`. -/
def childArrayAt (env : Env) (nl : Bool) (t : Ty) (c : (arrayR nl t).C) (a : APlace nl t)
    (children : Heap → Ex (List RawArray × Heap)) (h : Heap) : Ex (RawArray × Heap) :=
  if offsetOf nl t c ≠ 0 then .err (.nonZeroOffset (offsetOf nl t c)) h
  else
    (Ex.ofRes (((arrayR nl t).len c).bind toI64)).bind fun length =>
    (Ex.ofRes (nullCountOf nl t c)).bind fun nullCount =>
    (children h).bind fun k =>
    (newData env (env.data false nl t) [] (buffersOf nl t c a) k.1 k.2).bind fun r =>
    (setChildPointers env (env.data false nl t) r.1 k.1.length r.2).bind fun r' =>
      .ok (intoRaw (env.data false nl t) (env.releaseArray false nl t) r.1 r'.1
        (buffersOf nl t c a).length k.1.length length nullCount, r'.2)

/-- `ArrowArrayLayout::children` (narrow-ffi/src/export/mod.rs:151-154,
fixed_size_list.rs:37-39, 74-76, variable_size_list.rs:40-42, 83-85). -/
def childrenAt (env : Env) : (t : Ty) → (nl : Bool) → (arrayR nl t).C → APlace nl t → Heap →
    Ex (List RawArray × Heap)
  | .bool, _, _, _, h => .ok ([], h)
  | .prim _, _, _, _, h => .ok ([], h)
  | .fsl _ nl' t, nl, c, a, h =>
    (childArrayAt env nl' t (fslChild nl c) (fslPlace nl a)
      (childrenAt env t nl' (fslChild nl c) (fslPlace nl a)) h).bind fun r => .ok ([r.1], r.2)
  | .vsl _ nl' t, nl, c, a, h =>
    (childArrayAt env nl' t (vslChild nl c) (vslPlace nl a)
      (childrenAt env t nl' (vslChild nl c) (vslPlace nl a)) h).bind fun r => .ok ([r.1], r.2)

/-- `ArrowSchema::flat` (narrow-ffi/src/export/mod.rs:299-314). -/
def flatSchema (env : Env) (t : Ty) (nl : Bool) : RawSchema where
  format := env.literal (formatOf t)
  name := env.literal []
  metadata := 0
  flags := flagsOf nl
  nChildren := 0#64
  children := 0
  dictionary := 0
  release := env.releaseSchema t
  privateData := 0

/-- The box of a list schema, with the child in it and the table of one child pointer
(narrow-ffi/src/export/fixed_size_list.rs:83-90, variable_size_list.rs:91-96). `format`
is the pointer and the length of the format string, if it is in the box. -/
def newSchemaData (env : Env) (lay : SchemaLayout) (format : List Nat) (child : RawSchema)
    (h : Heap) : Ex (Nat × Heap) :=
  (h.alloc env lay.align (List.replicate lay.size 0#8)).bind fun r =>
  (r.2.write (r.1 + lay.format) (words format)).bind fun h =>
  (h.write (r.1 + lay.children) (schemaBytes child)).bind fun h =>
  (h.write (r.1 + lay.pointers) (words [0])).bind fun h =>
  (h.write (r.1 + lay.pointers) (words [r.1 + lay.children])).bind fun h => .ok (r.1, h)

/-- The structure of a list schema (narrow-ffi/src/export/fixed_size_list.rs:92-107,
variable_size_list.rs:98-114). -/
def listSchema (env : Env) (t : Ty) (nl : Bool) (format box : Nat) : RawSchema where
  format := format
  name := env.literal []
  metadata := 0
  flags := flagsOf nl
  nChildren := 1#64
  children := box + (env.schema t).pointers
  dictionary := 0
  release := env.releaseSchema t
  privateData := box

/-- `ArrowArrayLayout::schema` (narrow-ffi/src/export/boolean.rs:21-23, 39-41,
fixed_size_primitive.rs:26-28, 44-46, fixed_size_list.rs:29-31, 51-53, 79-109,
variable_size_list.rs:31-33, 55-57, 88-115). The child is built first; the format string
of a fixed-size list is a `CString` with a block of its own. -/
def schemaIn (env : Env) : (t : Ty) → (nl : Bool) → Heap → Ex (RawSchema × Heap)
  | .bool, nl, h => .ok (flatSchema env .bool nl, h)
  | .prim p, nl, h => .ok (flatSchema env (.prim p) nl, h)
  | .fsl n nl' t, nl, h =>
    (schemaIn env t nl' h).bind fun child =>
    (child.2.alloc env 1 (widthFormat n ++ [0#8])).bind fun format =>
    (newSchemaData env (env.schema (.fsl n nl' t)) [format.1, (widthFormat n).length + 1] child.1
      format.2).bind fun r => .ok (listSchema env (.fsl n nl' t) nl format.1 r.1, r.2)
  | .vsl ow nl' t, nl, h =>
    (schemaIn env t nl' h).bind fun child =>
    (newSchemaData env (env.schema (.vsl ow nl' t)) [] child.1 child.2).bind fun r =>
      .ok (listSchema env (.vsl ow nl' t) nl (env.literal (offsetFormat ow)) r.1, r.2)

/-- The number of children of a layout (`Children`)
(narrow-ffi/src/export/boolean.rs:19, fixed_size_primitive.rs:24, fixed_size_list.rs:27,
variable_size_list.rs:29). -/
def childSlots : Ty → Nat
  | .bool => 0
  | .prim _ => 0
  | .fsl _ _ _ => 1
  | .vsl _ _ _ => 1

/-! ## Releasing -/

/-- The word at address `p` (narrow-ffi/src/export/mod.rs:321). -/
def readWord (h : Heap) (p : Nat) : Ex Nat :=
  match word h.mem p with
  | none => .ub
  | some w => .ok w.toNat

/-- Memory without the `n` bytes at address `p` (the boxes freed in
narrow-ffi/src/export/mod.rs:330 and 353). -/
def erase (m : Mem) (p n : Nat) : Mem where
  byte q := if p ≤ q ∧ q < p + n then none else m.byte q
  null := by split; · rfl
             · exact m.null
  high q hq := by split; · rfl
                  · exact m.high q hq

/-- Freeing the block of `n` bytes at address `p`; it must be allocated (the boxes freed
in narrow-ffi/src/export/mod.rs:330 and 353). -/
def Heap.free (h : Heap) (p n : Nat) : Ex Heap :=
  if h.blocks p = some n then
    .ok ⟨erase h.mem p n, fun q => if q = p then none else h.blocks q, h.count, h.dropped⟩
  else .ub

/-- Dropping a `Vec` of pointers (the field of narrow-ffi/src/export/mod.rs:223). -/
def dropPointers (h : Heap) (p : Nat) : Ex Heap :=
  (readWord h p).bind fun capacity =>
  if capacity = 0 then .ok h
  else (readWord h (p + 8)).bind fun table => h.free table (8 * capacity)

/-- `Drop for ArrowArray` (narrow-ffi/src/lib.rs:208-216), for a structure whose
callback should be `callback`, which is at `address`; a structure with anything else
in the place of its callback is not dropped in this model. -/
def dropArray (address : Nat) (callback : Nat → Heap → Ex Heap) (p : Nat) (h : Heap) : Ex Heap :=
  (readWord h (p + 64)).bind fun release =>
    if release = 0 then .ok h else if release = address then callback p h else .ub

/-- Clearing the fields of the structure at address `p`
(narrow-ffi/src/export/mod.rs:321-325). -/
def clearArray (p : Nat) (h : Heap) : Ex Heap :=
  (h.write (p + 64) (wordBytes 0)).bind fun h =>
  (h.write (p + 72) (wordBytes 0)).bind fun h =>
  (h.write (p + 40) (wordBytes 0)).bind fun h =>
  (h.write (p + 48) (wordBytes 0)).bind fun h => h.write (p + 56) (wordBytes 0)

/-- Dropping the owner, an exported array or nothing (the field of
narrow-ffi/src/export/mod.rs:226). -/
def dropOwner (lay : DataLayout) (root : Bool) (box : Nat) (h : Heap) : Ex Heap :=
  if root then
    match h.mem.read (box + lay.owner) lay.ownerSize with
    | none => .ub
    | some owner => .ok ⟨h.mem, h.blocks, h.count, h.dropped ++ [(box + lay.owner, owner)]⟩
  else .ok h

/-- Dropping a `Box<ArrayData<..>>`, field by field
(narrow-ffi/src/export/mod.rs:216-227). `children` drops the children in the box. -/
def dropData (lay : DataLayout) (root : Bool) (children : Nat → Heap → Ex Heap) (box : Nat) (h : Heap) :
    Ex Heap :=
  (children (box + lay.children) h).bind fun h =>
  (dropPointers h (box + lay.pointers)).bind fun h =>
  (dropOwner lay root box h).bind fun h => h.free box lay.size

/-- `release_array` (narrow-ffi/src/export/mod.rs:316-331) of the structure at
address `p`: its fields are cleared and its private data is dropped. -/
def releaseData (lay : DataLayout) (root : Bool) (children : Nat → Heap → Ex Heap) (p : Nat) (h : Heap) :
    Ex Heap :=
  (readWord h (p + 72)).bind fun box =>
  (clearArray p h).bind fun h => dropData lay root children box h

/-- `release_array::<ArrayData<..>>` for each layout: that of an exported array, or of a
child (narrow-ffi/src/export/mod.rs:317-331). -/
def releaseArray (env : Env) : (t : Ty) → (root nl : Bool) → Nat → Heap → Ex Heap
  | .bool, root, nl => releaseData (env.data root nl .bool) root fun _ h => .ok h
  | .prim p, root, nl => releaseData (env.data root nl (.prim p)) root fun _ h => .ok h
  | .fsl n nl' t, root, nl =>
    releaseData (env.data root nl (.fsl n nl' t)) root
      (dropArray (env.releaseArray false nl' t) (releaseArray env t false nl'))
  | .vsl ow nl' t, root, nl =>
    releaseData (env.data root nl (.vsl ow nl' t)) root
      (dropArray (env.releaseArray false nl' t) (releaseArray env t false nl'))

/-- `Drop for ArrowSchema` (narrow-ffi/src/lib.rs:147-155), likewise. -/
def dropSchema (address : Nat) (callback : Nat → Heap → Ex Heap) (p : Nat) (h : Heap) : Ex Heap :=
  (readWord h (p + 56)).bind fun release =>
    if release = 0 then .ok h else if release = address then callback p h else .ub

/-- `release_flat_schema` (narrow-ffi/src/export/mod.rs:333-338). -/
def releaseFlat (p : Nat) (h : Heap) : Ex Heap := h.write (p + 56) (wordBytes 0)

/-- Dropping a `CString`: its first byte is cleared and its block freed (the field of
narrow-ffi/src/export/fixed_size_list.rs:114). -/
def dropString (h : Heap) (p : Nat) : Ex Heap :=
  (readWord h p).bind fun address =>
  (readWord h (p + 8)).bind fun length =>
  (h.write address [0#8]).bind fun h => h.free address length

/-- Clearing the fields of the schema at address `p`
(narrow-ffi/src/export/mod.rs:346-349). -/
def clearSchema (p : Nat) (h : Heap) : Ex Heap :=
  (h.write (p + 56) (wordBytes 0)).bind fun h =>
  (h.write (p + 64) (wordBytes 0)).bind fun h =>
  (h.write (p + 40) (wordBytes 0)).bind fun h => h.write (p + 48) (wordBytes 0)

/-- `release_schema` (narrow-ffi/src/export/mod.rs:340-354). The fields of the
private data are dropped in order (fixed_size_list.rs:111-119,
variable_size_list.rs:117-123). -/
def releaseSchemaData (lay : SchemaLayout) (string : Bool) (child : Nat → Heap → Ex Heap) (p : Nat)
    (h : Heap) : Ex Heap :=
  (readWord h (p + 64)).bind fun box =>
  (clearSchema p h).bind fun h =>
  (if string then dropString h (box + lay.format) else .ok h).bind fun h =>
  (child (box + lay.children) h).bind fun h => h.free box lay.size

/-- The release callback of each schema (narrow-ffi/src/export/mod.rs:334-354). -/
def releaseSchema (env : Env) : Ty → Nat → Heap → Ex Heap
  | .bool => releaseFlat
  | .prim _ => releaseFlat
  | .fsl n nl t =>
    releaseSchemaData (env.schema (.fsl n nl t)) true (dropSchema (env.releaseSchema t) (releaseSchema env t))
  | .vsl ow nl t =>
    releaseSchemaData (env.schema (.vsl ow nl t)) false (dropSchema (env.releaseSchema t) (releaseSchema env t))

/-! ## Exporting an array -/

/-- Dropping the children in a box (`Children`) (the field of
narrow-ffi/src/export/mod.rs:221). -/
def dropChildren (env : Env) : Ty → Nat → Heap → Ex Heap
  | .bool => fun _ h => .ok h
  | .prim _ => fun _ h => .ok h
  | .fsl _ nl' t => dropArray (env.releaseArray false nl' t) (releaseArray env t false nl')
  | .vsl _ nl' t => dropArray (env.releaseArray false nl' t) (releaseArray env t false nl')

/-- What is in scope when `?` returns an error is dropped
(narrow-ffi/src/export/mod.rs:178 and 203). -/
def Ex.orDrop {α : Type} (r : Ex α) (drop : Heap → Ex Heap) : Ex α :=
  match r with
  | .err e h => (drop h).bind fun h => .err e h
  | r => r

/-- `Export::export` (narrow-ffi/src/export/mod.rs:185-213, 287-297). The array is
the bytes `owner`; if it is at address `q` then its buffers are at `a q` (only
storage held inline is affected by where the array itself is). It comes from
`origin`, which need not be in memory. The box with the array is allocated before
pointers into the array are taken, and dropped if a child cannot be exported. -/
def exportAt (env : Env) (nl : Bool) (t : Ty) (c : (arrayR nl t).C) (owner : List Byte)
    (origin : Nat) (a : Nat → APlace nl t) (h : Heap) : Ex ((RawArray × RawSchema) × Heap) :=
  if offsetOf nl t c ≠ 0 then .err (.nonZeroOffset (offsetOf nl t c))
    ⟨h.mem, h.blocks, h.count, h.dropped ++ [(origin, owner)]⟩
  else
    (newData env (env.data true nl t) owner
      (List.replicate (buffersOf nl t c (a 0)).length 0) (List.replicate (childSlots t) defaultArray) h).bind
    fun r =>
    (r.2.write (r.1 + (env.data true nl t).buffers)
      (words (buffersOf nl t c (a (r.1 + (env.data true nl t).owner))))).bind fun h =>
    ((childrenAt env t nl c (a (r.1 + (env.data true nl t).owner)) h).orDrop
      (dropData (env.data true nl t) true (dropChildren env t) r.1)).bind fun k =>
    (k.2.write (r.1 + (env.data true nl t).children) (k.1.flatMap arrayBytes)).bind fun h =>
    (setChildPointers env (env.data true nl t) r.1 k.1.length h).bind fun r' =>
    (Ex.ofRes (((arrayR nl t).len c).bind toI64)).bind fun length =>
    (Ex.ofRes (nullCountOf nl t c)).bind fun nullCount =>
    (schemaIn env t nl r'.2).bind fun s =>
      .ok ((intoRaw (env.data true nl t) (env.releaseArray true nl t) r.1 r'.1
        (buffersOf nl t c (a (r.1 + (env.data true nl t).owner))).length k.1.length length nullCount,
        s.1), s.2)

end Narrow.Ffi.Raw
