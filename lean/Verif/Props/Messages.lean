import Verif.Proof.Messages

/-!
# Messages identify errors (C66)

Two errors of one type with the same message are the same error. The message names
every number that the error carries.
-/

namespace Narrow.Props

open Ffi.Spec

/-- C66. The message of a bitmap error determines it. -/
theorem C66_bitmap_errors {e e' : BitmapError} (h : e.message = e'.message) : e = e' := by
  have := alike_inj rfl h
  simp only [List.cons.injEq, true_and, and_true, Piece.number.injEq, Int.natCast_inj] at this
  cases e; cases e'; simp_all

/-- C66. The message of a validity error determines it. -/
theorem C66_validity_errors {e e' : ValidityError} (h : e.message = e'.message) : e = e' := by
  have := alike_inj rfl h
  simp only [List.cons.injEq, true_and, and_true, Piece.number.injEq, Int.natCast_inj] at this
  cases e; cases e'; simp_all

/-- C66. The message of a fixed-size list error determines it. -/
theorem C66_flatten_errors {e e' : FlattenError} (h : e.message = e'.message) : e = e' := by
  have h0 := congrArg letters h
  cases e <;> cases e'
  · rfl
  · simp only [FlattenError.message, letters_write] at h0
    simp only [stem] at h0
    exact absurd h0 (by decide)
  · simp only [FlattenError.message, letters_write] at h0
    simp only [stem] at h0
    exact absurd h0 (by decide)
  · have := alike_inj rfl h
    simp only [List.cons.injEq, true_and, and_true, Piece.number.injEq, Int.natCast_inj] at this
    simp [this]

/-- C66. The message of an offsets error determines it. -/
theorem C66_offsets_errors {e e' : OffsetsError} (h : e.message = e'.message) : e = e' :=
  offsets_inj (alike_inj (offsets_alike (kind_of_letters offsets_nodup (offsets_letters e)
    (by rw [h]; exact offsets_letters e'))) h)

/-- C66. The message of an export error determines it. -/
theorem C66_export_errors {e e' : Ffi.ExportError} (h : e.message = e'.message) : e = e' := by
  cases e; cases e'
  have := alike_inj rfl h
  simp only [List.cons.injEq, true_and, and_true, Piece.number.injEq, Int.natCast_inj] at this
  rw [this]

/-- C66. The message of an import error determines it. -/
theorem C66_import_errors {e e' : Ffi.ImportError} (h : e.message = e'.message) : e = e' :=
  have hk : e.kind = e'.kind := kind_of_letters import_nodup (import_letters e)
    (by rw [h]; exact import_letters e')
  import_inj hk (alike_inj (import_alike hk) h)

/-- C66. The numbers of errors of collections are in the message, next to what they are. -/
theorem C66_numbers (offset bits bytes collection bitmap len n first index last data : Nat) :
    (Says (BitmapError.mk offset bits bytes).message "offset (" offset ∧
      Says (BitmapError.mk offset bits bytes).message "bits (" bits ∧
      Says (BitmapError.mk offset bits bytes).message "buffer capacity (" bytes) ∧
    (Says (ValidityError.mk collection bitmap).message "collection length (" collection ∧
      Says (ValidityError.mk collection bitmap).message "bitmap length (" bitmap) ∧
    (Says (FlattenError.notMultiple len n).message "child length (" len ∧
      Says (FlattenError.notMultiple len n).message "multiple of N (" n) ∧
    (Says (OffsetsError.nonZeroFirst first).message "first offset (" first ∧
      Says (OffsetsError.negative index).message "offset at index " index ∧
      Says (OffsetsError.nonMonotonic index).message "offset at index " index ∧
      Says (OffsetsError.outOfBounds last data).message "last offset (" last ∧
      Says (OffsetsError.outOfBounds last data).message "length of the data (" data) := by
  refine ⟨⟨?_, ?_, ?_⟩, ⟨?_, ?_⟩, ⟨?_, ?_⟩, ?_, ?_, ?_, ?_, ?_⟩ <;>
    repeat' first | exact says_here (by decide +kernel) rfl | apply says_later

open Ffi.ImportError in
/-- C66. The numbers of export and import errors are in the message, next to what they
are. -/
theorem C66_ffi_numbers (offset length childLength size actual alignment : Nat)
    (flags a b : Ffi.I64) :
    Says (Ffi.ExportError.nonZeroOffset offset).message "array offset (" offset ∧
    Says (unexpectedFlags flags).message "flags (" flags.toInt ∧
    Says (invalidLength a).message "array length (" a.toInt ∧
    Says (nonZeroOffset a).message "array offset (" a.toInt ∧
    Says (unexpectedNullCount a).message "null count (" a.toInt ∧
    (Says (nullCountMismatch a actual).message "array null count (" a.toInt ∧
      Says (nullCountMismatch a actual).message "validity bitmap (" actual) ∧
    Says (unexpectedBufferCount a).message "buffer count (" a.toInt ∧
    (Says (unexpectedChildCount a b).message "array " a.toInt ∧
      Says (unexpectedChildCount a b).message "schema " b.toInt) ∧
    Says (unsupportedFixedSizeListSize size).message "width (" size ∧
    (Says (fixedSizeListLengthMismatch length childLength size).message "list length (" length ∧
      Says (fixedSizeListLengthMismatch length childLength size).message "child length (" childLength ∧
      Says (fixedSizeListLengthMismatch length childLength size).message "width (" size) ∧
    Says (misalignedOffsetsBuffer alignment).message "alignment (" alignment ∧
    Says (misalignedValuesBuffer alignment).message "alignment (" alignment := by
  refine ⟨?_, ?_, ?_, ?_, ?_, ⟨?_, ?_⟩, ?_, ⟨?_, ?_⟩, ?_, ⟨?_, ?_, ?_⟩, ?_, ?_⟩ <;>
    repeat' first | exact says_here (by decide +kernel) rfl | apply says_later

/-- C66. `source` is the error about offsets inside of an import error; the message ends
with that error's message. -/
theorem C66_source (e : Ffi.ImportError) (o : OffsetsError) :
    (e.source = some o ↔ e = .invalidOffsets o) ∧
    (e.source = some o → ∃ pre, e.message = pre ++ o.message) := by
  have h : e.source = some o ↔ e = .invalidOffsets o := by
    cases e <;> simp [Ffi.ImportError.source]
  exact ⟨h, fun h' => ⟨Ffi.ascii "invalid Arrow offsets: ", by rw [h.mp h']; rfl⟩⟩

/-- C66. Messages are one line of printable ASCII characters. -/
theorem C66_printable :
    Printable allocErrorMessage ∧ (∀ e : BitmapError, Printable e.message) ∧
    (∀ e : ValidityError, Printable e.message) ∧ (∀ e : FlattenError, Printable e.message) ∧
    (∀ e : OffsetsError, Printable e.message) ∧ (∀ e : Ffi.ExportError, Printable e.message) ∧
    (∀ e : Ffi.ImportError, Printable e.message) := by
  have key : ∀ s ps, Clean (.text s :: ps) = true → Ffi.ascii s ≠ [] → Printable (write (.text s :: ps)) :=
    fun s ps h1 h2 => ⟨by simp [write, h2], clean_bytes h1⟩
  have ho : ∀ o : OffsetsError, Clean o.pieces = true := fun o => by cases o <;> rfl
  refine ⟨key _ _ (by decide) (by decide), fun e => key _ _ rfl (by decide), fun e => key _ _ rfl (by decide),
    fun e => ?_, fun e => ?_, fun e => ?_, fun e => ?_⟩
  · cases e <;> exact key _ _ rfl (by decide)
  · cases e <;> exact key _ _ rfl (by decide)
  · cases e; exact key _ _ rfl (by decide)
  · cases e with
    | invalidOffsets o =>
      refine key _ _ ?_ (by decide)
      simp only [Clean, ho o, Bool.and_true]
      decide
    | _ => exact key _ _ rfl (by decide)

/-- Numbers in the same place of the same text: the texts differ. -/
example : (BitmapError.mk 7 2 1).message ≠ (BitmapError.mk 72 1 1).message :=
  fun h => absurd (C66_bitmap_errors h) (by decide)

example : (ValidityError.mk 2 1).message ≠ (ValidityError.mk 1 2).message :=
  fun h => absurd (C66_validity_errors h) (by decide)

example : (FlattenError.notMultiple 3 2).message ≠ (FlattenError.notMultiple 2 3).message :=
  fun h => absurd (C66_flatten_errors h) (by decide)

example : (OffsetsError.negative 1).message ≠ (OffsetsError.nonMonotonic 1).message :=
  fun h => absurd (C66_offsets_errors h) (by decide)

example : (Ffi.ExportError.nonZeroOffset 1).message ≠ (Ffi.ExportError.nonZeroOffset 11).message :=
  fun h => absurd (C66_export_errors h) (by decide)

/-- A negative length and a positive one. -/
example : (Ffi.ImportError.invalidLength (-1)).message ≠ (Ffi.ImportError.invalidLength 1).message :=
  fun h => absurd (C66_import_errors h) (by decide)

/-- The message of the documentation's example. -/
example : (BitmapError.mk 7 2 1).message =
    bytesOf "offset (7) + bits (2) exceeds buffer capacity (1 bytes)" := by
  simp only [BitmapError.message, write, decimalInt]
  simp [Ffi.decimal, Ffi.ascii, bytesOf]

/-- A negative number. -/
example : (Ffi.ImportError.invalidLength (-12)).message =
    bytesOf "Arrow array length (-12) is invalid" := by
  have : (BitVec.toInt (-12 : Ffi.I64)) = -12 := by decide
  simp only [Ffi.ImportError.message, Ffi.ImportError.pieces, write, decimalInt, this]
  simp [Ffi.decimal, Ffi.ascii, bytesOf]

example : Says (Ffi.ImportError.unexpectedChildCount 2 (-3)).message "schema " (-3) := by
  have : (BitVec.toInt (-3 : Ffi.I64)) = -3 := by decide
  rw [← this]
  exact (C66_ffi_numbers 0 0 0 0 0 0 0 2 (-3)).2.2.2.2.2.2.2.1.2

example : (Ffi.ImportError.invalidOffsets (.negative 4)).source = some (.negative 4) :=
  (C66_source _ _).1.mpr rfl

end Narrow.Props
