import Verif.Model.Ffi
import Verif.Model.Flatten

/-!
# Messages of errors

`Display` of the error types. A `write!` is a list of literal pieces and numbers.
-/

namespace Narrow

/-- A piece of a format string or one of its arguments (e.g.
src/collection/flatten.rs:69). -/
inductive Piece where
  | text (s : String)
  | number (i : Int)
  deriving DecidableEq, Repr

/-- `Display` of integers: the decimal digits after a minus sign for negative ones (e.g.
src/collection/flatten.rs:69). -/
def decimalInt (i : Int) : List Byte :=
  if i < 0 then Ffi.ascii "-" ++ Ffi.decimal i.natAbs else Ffi.decimal i.toNat

/-- `write!(f, …)` (e.g. src/collection/flatten.rs:67-69). -/
def write : List Piece → List Byte
  | [] => []
  | .text s :: ps => Ffi.ascii s ++ write ps
  | .number i :: ps => decimalInt i ++ write ps

/-- `Display for AllocError` (src/collection/mod.rs:160-164). -/
def allocErrorMessage : List Byte := write [.text "collection capacity could not be reserved"]

/-- `Display for BitmapError` (src/bitmap/mod.rs:60-73). -/
def BitmapError.message (e : BitmapError) : List Byte :=
  write [.text "offset (", .number e.offset, .text ") + bits (", .number e.bits,
    .text ") exceeds buffer capacity (", .number e.bytes, .text " bytes)"]

/-- `Display for ValidityError` (src/validity.rs:79-88). -/
def ValidityError.message (e : ValidityError) : List Byte :=
  write [.text "collection length (", .number e.collection,
    .text ") does not match bitmap length (", .number e.bitmap, .text ")"]

/-- `Display for FlattenError` (src/collection/flatten.rs:64-73). -/
def FlattenError.message : FlattenError → List Byte
  | .zeroChunkSize => write [.text "chunk size N must be non-zero"]
  | .notMultiple len n => write [.text "child length (", .number len,
      .text ") is not a multiple of N (", .number n, .text ")"]

/-- `Display for OffsetsError` (src/offset.rs:184-199). -/
def OffsetsError.pieces : OffsetsError → List Piece
  | .empty => [.text "offsets buffer must contain at least one offset"]
  | .nonZeroFirst first => [.text "first offset (", .number first, .text ") is not zero"]
  | .negative index => [.text "offset at index ", .number index, .text " is negative"]
  | .nonMonotonic index =>
      [.text "offset at index ", .number index, .text " is not monotonically increasing"]
  | .outOfBounds last data => [.text "last offset (", .number last,
      .text ") exceeds the length of the data (", .number data, .text ")"]

/-- `Display for OffsetsError` (src/offset.rs:184-199). -/
def OffsetsError.message (e : OffsetsError) : List Byte := write e.pieces

namespace Ffi

/-- `Display for ExportError` (narrow-ffi/src/export/mod.rs:78-86). -/
def ExportError.message : ExportError → List Byte
  | .nonZeroOffset offset =>
      write [.text "array offset (", .number offset, .text ") is not supported"]

/-- `Display for ImportError` (narrow-ffi/src/import/mod.rs:373-442). The arguments of
type `i64` are signed. -/
def ImportError.pieces : ImportError → List Piece
  | .releasedArray => [.text "Arrow array is already released"]
  | .releasedSchema => [.text "Arrow schema is already released"]
  | .missingFormat => [.text "Arrow schema format is missing"]
  | .unexpectedFormat => [.text "Arrow schema format does not match"]
  | .unexpectedFlags flags =>
      [.text "Arrow schema nullable flag in flags (", .number flags.toInt, .text ") does not match"]
  | .invalidLength length =>
      [.text "Arrow array length (", .number length.toInt, .text ") is invalid"]
  | .nonZeroOffset offset =>
      [.text "Arrow array offset (", .number offset.toInt, .text ") is not supported"]
  | .unexpectedNullCount nullCount => [.text "Arrow array null count (", .number nullCount.toInt,
      .text ") does not match the imported layout"]
  | .missingValidityBuffer => [.text "nullable Arrow array validity buffer is missing"]
  | .nullCountMismatch declared actual => [.text "Arrow array null count (", .number declared.toInt,
      .text ") does not match validity bitmap (", .number actual, .text ")"]
  | .unexpectedBufferCount count =>
      [.text "Arrow array buffer count (", .number count.toInt, .text ") does not match"]
  | .unexpectedChildCount array schema =>
      [.text "Arrow child counts do not match the imported layout: array ", .number array.toInt,
        .text ", schema ", .number schema.toInt]
  | .unexpectedDictionary => [.text "Arrow dictionary is not supported for this array"]
  | .missingBufferPointers => [.text "Arrow buffer pointers are missing"]
  | .missingArrayChildren => [.text "Arrow array child pointers are missing"]
  | .missingSchemaChildren => [.text "Arrow schema child pointers are missing"]
  | .unsupportedFixedSizeListSize size =>
      [.text "fixed-size-list width (", .number size, .text ") is not supported"]
  | .fixedSizeListLengthMismatch length childLength size =>
      [.text "fixed-size-list length (", .number length, .text ") with width (", .number size,
        .text ") does not match child length (", .number childLength, .text ")"]
  | .missingOffsetsBuffer => [.text "Arrow offsets buffer is missing"]
  | .misalignedOffsetsBuffer alignment =>
      [.text "Arrow offsets buffer does not have the required alignment (", .number alignment,
        .text ")"]
  | .invalidOffsets error => .text "invalid Arrow offsets: " :: error.pieces
  | .missingValuesBuffer => [.text "Arrow value buffer is missing"]
  | .misalignedValuesBuffer alignment =>
      [.text "Arrow value buffer does not have the required alignment (", .number alignment,
        .text ")"]

/-- `Display for ImportError` (narrow-ffi/src/import/mod.rs:373-442). -/
def ImportError.message (e : ImportError) : List Byte := write e.pieces

/-- `Error::source for ImportError` (narrow-ffi/src/import/mod.rs:444-451). -/
def ImportError.source : ImportError → Option OffsetsError
  | .invalidOffsets error => some error
  | _ => none

end Ffi

end Narrow
