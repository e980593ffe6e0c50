import Verif.Model.Access
import Verif.Model.Layout
import Verif.Model.Messages

/-!
# `Debug` output

What `{:?}` prints. The builders of `core::fmt` write names, fields and separators;
`{:#?}` and the other flags of a formatter are not modelled. A type that contains values of
another type takes the text of these as an argument.
-/

namespace Narrow

open Ffi (ascii decimal)

/-! ## The builders of `core::fmt` -/

/-- Entries separated by `", "`, as the builders do (standard library, used at
src/bitmap/mod.rs:126-130). -/
def commas : List (List Byte) → List Byte
  | [] => []
  | [x] => x
  | x :: xs => x ++ ascii ", " ++ commas xs

/-- `Formatter::debug_list`, also `Debug` of slices, arrays and `Vec` (standard library,
used at src/bitmap/mod.rs:127 and src/fixed_size.rs:60-61). -/
def debugList (entries : List (List Byte)) : List Byte := ascii "[" ++ commas entries ++ ascii "]"

/-- `name: value`, in structs (standard library, used at src/bitmap/mod.rs:127-129). -/
def debugField (field : String × List Byte) : List Byte := ascii field.1 ++ ascii ": " ++ field.2

/-- `Formatter::debug_struct` and `finish`, with at least one field (standard
library, used at src/bitmap/mod.rs:126-130). -/
def debugStruct (name : String) (fields : List (String × List Byte)) : List Byte :=
  ascii name ++ ascii " { " ++ commas (fields.map debugField) ++ ascii " }"

/-- `Formatter::debug_struct` and `finish_non_exhaustive`, with at least one
field (standard library, used at src/offset.rs:643-645). -/
def debugOpenStruct (name : String) (fields : List (String × List Byte)) : List Byte :=
  ascii name ++ ascii " { " ++ commas (fields.map debugField) ++ ascii ", .. }"

/-- `Formatter::debug_tuple` with one field (standard library, used at src/array.rs:94). -/
def debugTuple (name : String) (field : List Byte) : List Byte :=
  ascii name ++ ascii "(" ++ field ++ ascii ")"

/-- `Debug for Option` (standard library, used at src/validity.rs:192). -/
def debugOption : Option (List Byte) → List Byte
  | none => ascii "None"
  | some x => debugTuple "Some" x

/-- `Debug for bool` (standard library), for collections of `bool` written by users
(items of src/bitmap/mod.rs:420). -/
def debugBool : Bool → List Byte
  | false => ascii "false"
  | true => ascii "true"

/-- `Debug for Vec` (standard library), the buffer of src/buffer.rs
(src/buffer.rs:94-97). -/
def RVec.debug {α : Type} (item : α → List Byte) (v : RVec α) : List Byte :=
  debugList (v.items.map item)

/-! ## Collections -/

/-- `Debug for Bitmap` (src/bitmap/mod.rs:124-132). -/
def BitmapOf.debug {C : Type} (buffer : C → List Byte) (b : BitmapOf C) : List Byte :=
  debugStruct "Bitmap"
    [("buffer", buffer b.buffer), ("bits", decimal b.bits), ("offset", decimal b.offset)]

/-- `Debug for Flatten`, derived (src/collection/flatten.rs:32-33). -/
def Flatten.debug {C : Type} (child : C → List Byte) (c : Flatten C) : List Byte :=
  debugTuple "Flatten" (child c.child)

/-- `Debug for Validity` (src/validity.rs:185-195). -/
def ValidityOf.debug {C M : Type} (collection : C → List Byte) (bitmap : M → List Byte)
    (v : ValidityOf C M) : List Byte :=
  debugStruct "Validity"
    [("collection", collection v.coll), ("bitmap", debugOption (v.bitmap.map bitmap))]

/-- `Debug for Offsets`; the struct calls itself `Offset` (src/offset.rs:295-304). -/
def OffsetsIn.debug {C D : Type} (data : C → List Byte) (offsets : D → List Byte)
    (c : OffsetsIn C D) : List Byte :=
  debugStruct "Offset" [("data", data c.data), ("offsets", offsets c.offsets)]

/-- `Debug for OffsetView`: the range of the view (src/offset.rs:639-647). -/
def RowView.debug {C : Type} (v : RowView C) : List Byte :=
  debugOpenStruct "OffsetView" [("offset", decimal v.start ++ ascii ".." ++ decimal v.stop)]

/-! ## Arrays -/

/-- `Debug` of the floating-point types of src/fixed_size.rs, which the standard library
prints: not modelled, a parameter (src/fixed_size.rs:37-38). -/
structure FloatText where
  f32 : BitVec 32 → List Byte
  f64 : BitVec 64 → List Byte

/-- `Debug` of the `FixedSize` types; for `FixedSizeArray` it is derived
(src/fixed_size.rs:60-61). Element `i` of an array lies behind the elements before it. -/
def Prim.debug (f : FloatText) : (p : Prim) → PrimVal p → List Byte
  | .u8, v | .u16, v | .u32, v | .u64, v | .u128, v | .usize, v => decimal v.toNat
  | .i8, v | .i16, v | .i32, v | .i64, v | .i128, v | .isize, v => decimalInt v.toInt
  | .f32, v => f.f32 v
  | .f64, v => f.f64 v
  | .array n p, v => debugTuple "FixedSizeArray"
      (debugList ((List.range n).map fun i => p.debug f (v.extractLsb' (8 * p.size * i) (8 * p.size))))

/-- `Debug for Bitmap` with a `Vec` of bytes (src/bitmap/mod.rs:124-132). -/
def Bitmap.debug (b : Bitmap) : List Byte :=
  BitmapOf.debug (RVec.debug fun byte => decimal byte.toNat) ⟨b.buffer, b.bits, b.offset⟩

/-- The wrapped collection of a layout: `Nulls::Collection` (src/nullability.rs:123, 161), printed. -/
def nullDebug {O : Type} (R : Realloc O) (collection : R.C → List Byte) :
    (nl : Bool) → (nullR nl R).C → List Byte
  | false, c => collection c
  | true, c =>
    let v : Validity R.C := c
    ValidityOf.debug collection Bitmap.debug ⟨v.coll, v.bitmap⟩

/-- `Debug` of the layouts of an item type: `Boolean` (src/layout/boolean.rs:84-91),
`FixedSizePrimitive` (src/layout/fixed_size_primitive.rs:85-93), `FixedSizeList`
(src/layout/fixed_size_list.rs:92-100) and `VariableSizeList`
(src/layout/variable_size_list.rs:95-103) around the collections they wrap. -/
def memoryDebug (f : FloatText) : (nl : Bool) → (t : Ty) → (arrayR nl t).C → List Byte
  | nl, .bool, c => debugTuple "Boolean" (nullDebug bitmapR Bitmap.debug nl c)
  | nl, .prim p, c => debugTuple "FixedSizePrimitive"
      (nullDebug (vecR p.lim 0#(8 * p.size)) (RVec.debug (p.debug f)) nl c)
  | nl, .fsl n nl' t, c => debugTuple "FixedSizeList"
      (nullDebug (flattenR n (arrayR nl' t)) (Flatten.debug (memoryDebug f nl' t)) nl c)
  | nl, .vsl ow nl' t, c => debugTuple "VariableSizeList"
      (nullDebug (offsetsR ow (arrayR nl' t))
        (fun c : Offsets (arrayR nl' t).C =>
          OffsetsIn.debug (memoryDebug f nl' t) (RVec.debug decimalInt) ⟨c.data, c.offsets⟩) nl c)

/-- `Debug for Array` (src/array.rs:89-96). -/
def arrayDebug (f : FloatText) (nl : Bool) (t : Ty) (c : (arrayR nl t).C) : List Byte :=
  debugTuple "Array" (memoryDebug f nl t c)

end Narrow
