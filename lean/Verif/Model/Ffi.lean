import Verif.Model.Layout

/-!
# The Arrow C Data Interface structures

narrow-ffi/src/lib.rs, on a 64-bit little-endian target.

Memory is a partial map from addresses to bytes: `none` where a read would be
undefined behaviour. `ArrowArray` and `ArrowSchema` are trees: a pointer to a
table of child pointers is `none` (null) or the table, whose entries are `none`
(null) or the child structure. The strings are the bytes before the terminating
NUL. Structures in memory, which may be shared or cyclic, are in `Model/Raw.lean`.
-/

namespace Narrow.Ffi

/-- Readable memory. All addresses are below `2^60`, as on every 64-bit target (the
limit on the size of an allocation in this model is `2^60` too); address zero is null
and not readable (what the pointers of narrow-ffi/src/lib.rs:160-181 point into). -/
structure Mem where
  byte : Nat → Option Byte
  null : byte 0 = none
  high : ∀ p, byteMax ≤ p → byte p = none

/-- The `n` bytes at address `p`; `none` when one of them is not readable
(narrow-ffi/src/import/fixed_size_primitive.rs:47). -/
def Mem.read (m : Mem) (p : Nat) : Nat → Option (List Byte)
  | 0 => some []
  | n + 1 => (m.byte p).bind fun b => (m.read (p + 1) n).map (b :: ·)

/-- A value of `k` bytes, least significant byte first
(narrow-ffi/src/import/fixed_size_primitive.rs:47). -/
def fromBytes : (k : Nat) → List Byte → BitVec (8 * k)
  | _, l => BitVec.ofNat _ (l.foldr (fun b acc => b.toNat + 256 * acc) 0)

/-- `slice::from_raw_parts(p, n)` for elements of `k` bytes: the elements
(narrow-ffi/src/import/boolean.rs:40, fixed_size_primitive.rs:47,
variable_size_list.rs:52). -/
def Mem.slice (m : Mem) (k : Nat) (p : Nat) : Nat → Option (List (BitVec (8 * k)))
  | 0 => some []
  | n + 1 => (m.read p k).bind fun b => (m.slice k (p + k) n).map (fromBytes k b :: ·)

/-- Size in bytes of the offset types (`i32` and `i64`, src/offset.rs:83-92). -/
def offBytes : OffW → Nat
  | .i32 => 4
  | .i64 => 8

/-- An `i64` field (narrow-ffi/src/lib.rs:110-112 and 162-170). -/
abbrev I64 := BitVec 64

/-- `i64::MAX` (narrow-ffi/src/export/mod.rs:207). -/
def i64Max : Nat := 2 ^ 63 - 1

/-- `i64::try_from(usize).expect(..)` (narrow-ffi/src/export/mod.rs:207). -/
def toI64 (n : Nat) : Res I64 := if n ≤ i64Max then .ok (BitVec.ofNat 64 n) else .panic

/-- `usize::try_from(i64).ok()` (narrow-ffi/src/import/mod.rs:80, 106 and 170). -/
def toUsize (i : I64) : Option Nat := if i.toInt < 0 then none else some i.toNat

/-- What the producer's private data keeps alive until release: the box it is held in,
and the buffers of the array retained as owner (`none` for the children, which borrow
from the root: their owner is `()`) (narrow-ffi/src/export/mod.rs:216-227). -/
structure Private where
  box : Nat
  owner : Option (List Nat)
  deriving DecidableEq, Repr

/-- `ArrowArray` (narrow-ffi/src/lib.rs:158-181). `release` is `none` when the
structure is released, and otherwise what its callback frees. Buffer pointers are
addresses, null being zero. -/
structure CArray where
  length : I64
  nullCount : I64
  offset : I64
  nBuffers : I64
  nChildren : I64
  buffers : Option (List Nat)
  children : Option (List (Option CArray))
  /-- is the dictionary pointer non-null? -/
  dictionary : Bool
  release : Option Private

/-- `ArrowSchema` (narrow-ffi/src/lib.rs:100-121). `release` is `none` when the
structure is released, and otherwise the box its callback frees, if any. -/
structure CSchema where
  format : Option (List Byte)
  name : Option (List Byte)
  /-- is the metadata pointer non-null? -/
  metadata : Bool
  flags : I64
  nChildren : I64
  children : Option (List (Option CSchema))
  dictionary : Bool
  release : Option (Option Nat)

/-- `ARROW_FLAG_NULLABLE` (narrow-ffi/src/lib.rs:93-94). -/
def flagNullable : I64 := 2#64

/-- `ArrowArray::is_released` (narrow-ffi/src/lib.rs:183-189). -/
def CArray.isReleased (a : CArray) : Bool := a.release.isNone

/-- `ArrowSchema::is_released` (narrow-ffi/src/lib.rs:123-129). -/
def CSchema.isReleased (s : CSchema) : Bool := s.release.isNone

/-- A string literal as bytes (e.g. narrow-ffi/src/export/fixed_size_primitive.rs:74).
-/
def ascii (s : String) : List Byte := s.toList.map fun c => BitVec.ofNat 8 c.toNat

/-- `ArrowType::FORMAT` of the primitive types
(narrow-ffi/src/export/fixed_size_primitive.rs:73-111); the other fixed-size
types have none and cannot be exported. -/
def primFormat : Prim → Option (List Byte)
  | .i8 => some (ascii "c")
  | .u8 => some (ascii "C")
  | .i16 => some (ascii "s")
  | .u16 => some (ascii "S")
  | .i32 => some (ascii "i")
  | .u32 => some (ascii "I")
  | .i64 => some (ascii "l")
  | .u64 => some (ascii "L")
  | .f32 => some (ascii "f")
  | .f64 => some (ascii "g")
  | _ => none

/-- `ArrowListOffset::FORMAT` (narrow-ffi/src/lib.rs:77-88). -/
def offsetFormat : OffW → List Byte
  | .i32 => ascii "+l"
  | .i64 => ascii "+L"

/-- The decimal digits of a number, most significant first (`format!("{N}")`)
(narrow-ffi/src/export/fixed_size_list.rs:82). -/
def decimal (n : Nat) : List Byte :=
  if n < 10 then [BitVec.ofNat 8 (48 + n)]
  else decimal (n / 10) ++ [BitVec.ofNat 8 (48 + n % 10)]

/-- `format!("+w:{N}")` (narrow-ffi/src/export/fixed_size_list.rs:82). -/
def widthFormat (n : Nat) : List Byte := ascii "+w:" ++ decimal n

/-- Item types that can be exported and imported: their primitive types have an Arrow
format, and the widths of their arrays are of type `usize`
(narrow-ffi/src/export/fixed_size_primitive.rs:73-111, src/layout/mod.rs:114-136). -/
def Exportable : Ty → Prop
  | .bool => True
  | .prim p => (primFormat p).isSome
  | .fsl n _ t => n ≤ usizeMax ∧ Exportable t
  | .vsl _ _ t => Exportable t

/-- `ExportError` (narrow-ffi/src/export/mod.rs:70-76). -/
inductive ExportError where
  | nonZeroOffset (offset : Nat)
  deriving DecidableEq, Repr

/-- `ImportError` (narrow-ffi/src/import/mod.rs:280-371). -/
inductive ImportError where
  | releasedArray
  | releasedSchema
  | missingFormat
  | unexpectedFormat
  | unexpectedFlags (flags : I64)
  | invalidLength (length : I64)
  | nonZeroOffset (offset : I64)
  | unexpectedNullCount (nullCount : I64)
  | missingValidityBuffer
  | nullCountMismatch (declared : I64) (actual : Nat)
  | unexpectedBufferCount (count : I64)
  | unexpectedChildCount (array schema : I64)
  | unexpectedDictionary
  | missingBufferPointers
  | missingArrayChildren
  | missingSchemaChildren
  | unsupportedFixedSizeListSize (size : Nat)
  | fixedSizeListLengthMismatch (length childLength size : Nat)
  | missingOffsetsBuffer
  | misalignedOffsetsBuffer (alignment : Nat)
  | invalidOffsets (error : OffsetsError)
  | missingValuesBuffer
  | misalignedValuesBuffer (alignment : Nat)
  deriving DecidableEq, Repr

/-- Where the buffers of an array are: one address per buffer
(narrow-ffi/src/export/boolean.rs:60-71). -/
def NPlace (nl : Bool) (P : Type) : Type :=
  match nl with
  | false => P
  | true => P × Option Nat

/-- Addresses of the buffers of a non-nullable layout: values or bits, offsets, and
those of the child (the pointers of narrow-ffi/src/export/boolean.rs:29-32,
fixed_size_primitive.rs:30-33, variable_size_list.rs:35-38). -/
def Place : Ty → Type
  | .bool => Nat
  | .prim _ => Nat
  | .fsl _ nl t => NPlace nl (Place t)
  | .vsl _ nl t => Nat × NPlace nl (Place t)

/-- Addresses of the buffers of an array; the validity bitmap is optional (the pointers
of narrow-ffi/src/export/boolean.rs:60-71). -/
abbrev APlace (nl : Bool) (t : Ty) := NPlace nl (Place t)

end Narrow.Ffi
