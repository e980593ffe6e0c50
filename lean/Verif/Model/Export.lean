import Verif.Model.Release

/-!
# Exporting arrays

narrow-ffi/src/export. An array to export is its content `c` together with the
addresses `a` of its buffers. Boxes of private data are numbered; `next` is the
first unused number.
-/

namespace Narrow.Ffi

/-- `bitmap_ref().map_or(0, Bitmap::bit_offset)`
(narrow-ffi/src/export/boolean.rs:51-53, fixed_size_primitive.rs:53-57). -/
def bitmapOffset : Option Bitmap → Nat
  | none => 0
  | some b => b.bitOffset

/-- `ArrowArrayLayout::offset` (narrow-ffi/src/export/mod.rs:143-146, boolean.rs:25-27,
48-58, fixed_size_primitive.rs:53-57, fixed_size_list.rs:60-64,
variable_size_list.rs:64-68). -/
def offsetOf : (nl : Bool) → (t : Ty) → (arrayR nl t).C → Nat
  | false, .bool, (b : Bitmap) => b.bitOffset
  | true, .bool, (v : Validity Bitmap) =>
    if bitmapOffset v.bitmap ≠ 0 then bitmapOffset v.bitmap else v.coll.bitOffset
  | false, .prim _, _ => 0
  | true, .prim p, (v : Validity (RVec (PrimVal p))) => bitmapOffset v.bitmap
  | false, .fsl _ _ _, _ => 0
  | true, .fsl _ nl t, (v : Validity (Flatten (arrayR nl t).C)) => bitmapOffset v.bitmap
  | false, .vsl _ _ _, _ => 0
  | true, .vsl _ nl t, (v : Validity (Offsets (arrayR nl t).C)) => bitmapOffset v.bitmap

/-- `validity.unwrap_or(ptr::null())`: the address of the validity bytes
(narrow-ffi/src/export/boolean.rs:62-68, fixed_size_primitive.rs:61-67). -/
def validityPointer (bitmap : Option Bitmap) (address : Option Nat) : Nat :=
  match bitmap with
  | none => 0
  | some _ => address.getD 0

/-- `ArrowArrayLayout::buffers` (narrow-ffi/src/export/boolean.rs:29-32, 60-71,
fixed_size_primitive.rs:30-33, 59-70, fixed_size_list.rs:33-35, 66-72,
variable_size_list.rs:35-38, 70-81). -/
def buffersOf : (nl : Bool) → (t : Ty) → (arrayR nl t).C → APlace nl t → List Nat
  | false, .bool, _, (a : Nat) => [0, a]
  | true, .bool, (v : Validity Bitmap), (a : Nat × Option Nat) => [validityPointer v.bitmap a.2, a.1]
  | false, .prim _, _, (a : Nat) => [0, a]
  | true, .prim p, (v : Validity (RVec (PrimVal p))), (a : Nat × Option Nat) =>
    [validityPointer v.bitmap a.2, a.1]
  | false, .fsl _ _ _, _, _ => [0]
  | true, .fsl _ nl t, (v : Validity (Flatten (arrayR nl t).C)), (a : APlace nl t × Option Nat) =>
    [validityPointer v.bitmap a.2]
  | false, .vsl _ nl t, _, (a : Nat × APlace nl t) => [0, a.1]
  | true, .vsl _ nl t, (v : Validity (Offsets (arrayR nl t).C)),
      (a : (Nat × APlace nl t) × Option Nat) =>
    [validityPointer v.bitmap a.2, a.1.1]

/-- `ArrowArrayLayout::null_count` (narrow-ffi/src/export/mod.rs:138-141; nullable
layouts: boolean.rs:43-46, fixed_size_primitive.rs:48-51, fixed_size_list.rs:55-58,
variable_size_list.rs:59-62). -/
def nullCountOf : (nl : Bool) → (t : Ty) → (arrayR nl t).C → Res I64
  | false, _, _ => .ok 0#64
  | true, t, (v : Validity (arrayR false t).C) => v.nullCount.bind toI64

/-- The child of a fixed-size list (`child_ref`)
(narrow-ffi/src/export/fixed_size_list.rs:38 and 75). -/
def fslChild {n : Nat} {nl' : Bool} {t : Ty} :
    (nl : Bool) → (arrayR nl (.fsl n nl' t)).C → (arrayR nl' t).C
  | false, (c : Flatten (arrayR nl' t).C) => c.child
  | true, (v : Validity (Flatten (arrayR nl' t).C)) => v.coll.child

/-- The place of the child of a fixed-size list
(narrow-ffi/src/export/fixed_size_list.rs:38 and 75). -/
def fslPlace {n : Nat} {nl' : Bool} {t : Ty} :
    (nl : Bool) → APlace nl (.fsl n nl' t) → APlace nl' t
  | false, (a : APlace nl' t) => a
  | true, (a : APlace nl' t × Option Nat) => a.1

/-- The child of a variable-size list (`child_ref`)
(narrow-ffi/src/export/variable_size_list.rs:41 and 84). -/
def vslChild {ow : OffW} {nl' : Bool} {t : Ty} :
    (nl : Bool) → (arrayR nl (.vsl ow nl' t)).C → (arrayR nl' t).C
  | false, (c : Offsets (arrayR nl' t).C) => c.data
  | true, (v : Validity (Offsets (arrayR nl' t).C)) => v.coll.data

/-- The place of the child of a variable-size list
(narrow-ffi/src/export/variable_size_list.rs:41 and 84). -/
def vslPlace {ow : OffW} {nl' : Bool} {t : Ty} :
    (nl : Bool) → APlace nl (.vsl ow nl' t) → APlace nl' t
  | false, (a : Nat × APlace nl' t) => a.2
  | true, (a : (Nat × APlace nl' t) × Option Nat) => a.1.2

/-- All buffers of an array: what is freed with it (the field `owner`,
narrow-ffi/src/export/mod.rs:225-226). -/
def allBuffers : (t : Ty) → (nl : Bool) → APlace nl t → List Nat
  | .bool, false, (a : Nat) => [a]
  | .bool, true, (a : Nat × Option Nat) => a.2.toList ++ [a.1]
  | .prim _, false, (a : Nat) => [a]
  | .prim _, true, (a : Nat × Option Nat) => a.2.toList ++ [a.1]
  | .fsl _ nl t, false, a => allBuffers t nl a
  | .fsl _ nl t, true, (a : APlace nl t × Option Nat) => a.2.toList ++ allBuffers t nl a.1
  | .vsl _ nl t, false, (a : Nat × APlace nl t) => a.1 :: allBuffers t nl a.2
  | .vsl _ nl t, true, (a : (Nat × APlace nl t) × Option Nat) =>
    a.2.toList ++ (a.1.1 :: allBuffers t nl a.1.2)

/-- `ArrayData::new`, `set_child_pointers` and `into_array`
(narrow-ffi/src/export/mod.rs:230-285), with the default `dictionary`, null
(narrow-ffi/src/export/mod.rs:158-160). Tables with no entries are null; buffer and
child counts are at most two. -/
def intoArray (box : Nat) (owner : Option (List Nat)) (buffers : List Nat) (children : List CArray)
    (length nullCount : I64) : CArray where
  length := length
  nullCount := nullCount
  offset := 0#64
  nBuffers := BitVec.ofNat 64 buffers.length
  nChildren := BitVec.ofNat 64 children.length
  buffers := if buffers.isEmpty then none else some buffers
  children := if children.isEmpty then none else some (children.map some)
  dictionary := false
  release := some ⟨box, owner⟩

/-- The result of building children: the structures and the next unused box number. A
failure in here happens before any box is allocated, because every layout has at most
one child and allocates its box after its children
(narrow-ffi/src/export/mod.rs:153-155). -/
abbrev Built (α : Type) := Res (Except ExportError (α × Nat))

/-- `ArrowArrayLayout::child_array` (narrow-ffi/src/export/mod.rs:163-183), given the
children. -/
def childArray (nl : Bool) (t : Ty) (c : (arrayR nl t).C) (a : APlace nl t)
    (children : Built (List CArray)) : Built CArray :=
  if offsetOf nl t c ≠ 0 then .ok (.error (.nonZeroOffset (offsetOf nl t c)))
  else
    (((arrayR nl t).len c).bind toI64).bind fun length =>
    (nullCountOf nl t c).bind fun nullCount =>
    children.map fun r =>
      match r with
      | .error e => .error e
      | .ok (kids, next) => .ok (intoArray next none (buffersOf nl t c a) kids length nullCount, next + 1)

/-- `ArrowArrayLayout::children` (narrow-ffi/src/export/mod.rs:151-154,
fixed_size_list.rs:37-39, 74-76, variable_size_list.rs:40-42, 83-85). -/
def childrenOf : (t : Ty) → (nl : Bool) → (arrayR nl t).C → APlace nl t → Nat → Built (List CArray)
  | .bool, _, _, _, next => .ok (.ok ([], next))
  | .prim _, _, _, _, next => .ok (.ok ([], next))
  | .fsl _ nl' t, nl, c, a, next =>
    (childArray nl' t (fslChild nl c) (fslPlace nl a)
      (childrenOf t nl' (fslChild nl c) (fslPlace nl a) next)).map fun r =>
        match r with
        | .error e => .error e
        | .ok (kid, next') => .ok ([kid], next')
  | .vsl _ nl' t, nl, c, a, next =>
    (childArray nl' t (vslChild nl c) (vslPlace nl a)
      (childrenOf t nl' (vslChild nl c) (vslPlace nl a) next)).map fun r =>
        match r with
        | .error e => .error e
        | .ok (kid, next') => .ok ([kid], next')

/-- The format string of a layout (`ArrowType::FORMAT`,
narrow-ffi/src/export/boolean.rs:74-76, fixed_size_primitive.rs:73-111,
fixed_size_list.rs:82, variable_size_list.rs:100). Types without a format cannot be
exported: the Rust code does not compile. -/
def formatOf : Ty → List Byte
  | .bool => ascii "b"
  | .prim p => (primFormat p).getD []
  | .fsl n _ _ => widthFormat n
  | .vsl ow _ _ => offsetFormat ow

/-- The nullable flag (narrow-ffi/src/export/mod.rs:47-50, fixed_size_list.rs:98-102,
variable_size_list.rs:103-107). -/
def flagsOf (nl : Bool) : I64 := if nl then flagNullable else 0#64

/-- `ArrowArrayLayout::schema` (narrow-ffi/src/export/boolean.rs:21-23, 39-41,
fixed_size_primitive.rs:26-28, 44-46, fixed_size_list.rs:29-31, 51-53,
variable_size_list.rs:31-33, 55-57), with `ArrowSchema::flat`
(narrow-ffi/src/export/mod.rs:301-313), fixed_size_list.rs:79-109 and
variable_size_list.rs:88-115. The child schema is built first. -/
def schemaOf : (t : Ty) → (nl : Bool) → Nat → CSchema × Nat
  | .bool, nl, next =>
    (⟨some (formatOf .bool), some [], false, flagsOf nl, 0#64, none, false, some none⟩, next)
  | .prim p, nl, next =>
    (⟨some (formatOf (.prim p)), some [], false, flagsOf nl, 0#64, none, false, some none⟩, next)
  | .fsl n nl' t, nl, next =>
    (⟨some (formatOf (.fsl n nl' t)), some [], false, flagsOf nl, 1#64,
      some [some (schemaOf t nl' next).1], false, some (some (schemaOf t nl' next).2)⟩,
      (schemaOf t nl' next).2 + 1)
  | .vsl ow nl' t, nl, next =>
    (⟨some (formatOf (.vsl ow nl' t)), some [], false, flagsOf nl, 1#64,
      some [some (schemaOf t nl' next).1], false, some (some (schemaOf t nl' next).2)⟩,
      (schemaOf t nl' next).2 + 1)

/-- The allocation of boxes `lo, ..., hi - 1` (narrow-ffi/src/export/mod.rs:175 and
196). -/
def allocs (lo hi : Nat) : List Event := (List.range' lo (hi - lo)).map Event.alloc

/-- What a call of `export` does: its result, and the memory events
(narrow-ffi/src/export/mod.rs:186-213). -/
structure Export where
  result : Res (Except ExportError (CArray × CSchema))
  events : List Event
  next : Nat

/-- `Export::export` (narrow-ffi/src/export/mod.rs:186-213, 288-297). The array is moved
into a box before its pointers are taken; on failure the box is dropped and the array
with it. -/
def exportArray (nl : Bool) (t : Ty) (c : (arrayR nl t).C) (a : APlace nl t) (next : Nat) : Export :=
  if offsetOf nl t c ≠ 0 then
    ⟨.ok (.error (.nonZeroOffset (offsetOf nl t c))), [.dropOwner (allBuffers t nl a)], next⟩
  else
    match childrenOf t nl c a (next + 1) with
    | .panic => ⟨.panic, [.alloc next, .dropOwner (allBuffers t nl a), .free next], next + 1⟩
    | .ok (.error e) =>
      ⟨.ok (.error e), [.alloc next, .dropOwner (allBuffers t nl a), .free next], next + 1⟩
    | .ok (.ok (kids, next')) =>
      match ((arrayR nl t).len c).bind toI64, nullCountOf nl t c with
      | .ok length, .ok nullCount =>
        let schema := schemaOf t nl next'
        ⟨.ok (.ok (intoArray next (some (allBuffers t nl a)) (buffersOf nl t c a) kids length nullCount,
            schema.1)),
          allocs next schema.2, schema.2⟩
      | _, _ =>
        ⟨.panic, allocs next next' ++ (listEvents (kids.map some) ++
          [.dropOwner (allBuffers t nl a), .free next]), next'⟩

end Narrow.Ffi
