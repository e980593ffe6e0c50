import Verif.Model.Ffi
import Verif.Spec.Bits
import Verif.Spec.Parts
import Verif.Spec.Reads

/-!
# The Arrow C Data Interface, as a consumer or producer sees it

Independent of the exporter and the importer: only the structures
(`CArray`, `CSchema`), memory, the arrays and the error type are used.
-/

namespace Narrow.Ffi.Spec

open Narrow.Spec Narrow.Ffi

/-! ## Reading the structures -/

/-- The pointer in entry `i` of the buffer table. -/
def bufferAt (array : CArray) (i : Nat) : Option Nat := array.buffers.bind (·[i]?)

/-- The first child structure. -/
def firstChild (array : CArray) : Option CArray := (array.children.bind (·[0]?)).join

/-- The first child schema. -/
def firstSchema (schema : CSchema) : Option CSchema := (schema.children.bind (·[0]?)).join

/-- Bytes needed for `n` bits. -/
def bytesFor (n : Nat) : Nat := (n + 7) / 8

/-- Number of unset bits among the first `n`. -/
def unsetBits (bytes : List Byte) (n : Nat) : Nat := (List.range n).countP fun i => !bit bytes i

/-! ## Formats (Arrow C Data Interface, "Data type description -- format strings") -/

/-- The Arrow format of a primitive type. -/
def primName : Prim → Option String
  | .i8 => some "c" | .u8 => some "C"
  | .i16 => some "s" | .u16 => some "S"
  | .i32 => some "i" | .u32 => some "I"
  | .i64 => some "l" | .u64 => some "L"
  | .f32 => some "f" | .f64 => some "g"
  | _ => none

/-- The bytes of an ASCII string. -/
def bytesOf (s : String) : List Byte := s.toList.map fun c => BitVec.ofNat 8 c.toNat

/-- The value of a decimal numeral, most significant digit first. -/
def numeral : List Byte → Nat
  | [] => 0
  | d :: l => (d.toNat - 48) * 10 ^ l.length + numeral l

/-- A non-empty string of the digits `0` to `9`. -/
def IsNumeral (l : List Byte) : Prop := l ≠ [] ∧ ∀ d ∈ l, 48 ≤ d.toNat ∧ d.toNat ≤ 57

/-- `f` describes the item type (ignoring its children). -/
def FormatOf : Ty → List Byte → Prop
  | .bool, f => f = bytesOf "b"
  | .prim p, f => ∃ s, primName p = some s ∧ f = bytesOf s
  | .fsl n _ _, f => ∃ digits, f = bytesOf "+w:" ++ digits ∧ IsNumeral digits ∧ numeral digits = n
  | .vsl .i32 _ _, f => f = bytesOf "+l"
  | .vsl .i64 _ _, f => f = bytesOf "+L"

/-- Number of buffers of the layout, including the validity bitmap. -/
def buffersIn : Ty → Nat
  | .bool => 2
  | .prim _ => 2
  | .fsl _ _ _ => 1
  | .vsl _ _ _ => 2

/-- The item type of the child of a list, and whether it is nullable. -/
def childTy : Ty → Option (Bool × Ty)
  | .bool => none
  | .prim _ => none
  | .fsl _ nl t => some (nl, t)
  | .vsl _ nl t => some (nl, t)

/-- Number of children of the layout. -/
def childrenIn (t : Ty) : Nat := (childTy t).toList.length

/-- Bytes of an offset; also its alignment. -/
def offsetBytes : OffW → Nat
  | .i32 => 4
  | .i64 => 8

/-! ## Arrays in memory -/

/-- The bytes of a bitmap are at address `a`. -/
def BitsAt (m : Mem) (b : Bitmap) (a : Nat) : Prop :=
  a ≠ 0 ∧ m.read a b.buffer.items.length = some b.buffer.items

/-- The validity bitmap, if there is one, is in memory. -/
def ValidityAt (m : Mem) : Option Bitmap → Option Nat → Prop
  | none, _ => True
  | some b, some a => BitsAt m b a
  | some _, none => False

/-- `Option` adds a validity bitmap. -/
def NullableAt (m : Mem) {O : Type} (R : Realloc O) {P : Type} (base : R.C → P → Prop) :
    (nl : Bool) → (nullR nl R).C → NPlace nl P → Prop
  | false, (c : R.C), (a : P) => base c a
  | true, (v : Validity R.C), (a : P × Option Nat) => base v.coll a.1 ∧ ValidityAt m v.bitmap a.2

/-- The buffers of an array of non-null items are at the given addresses. -/
def BaseAt (m : Mem) : (t : Ty) → (baseR t).C → Place t → Prop
  | .bool, (b : Bitmap), (a : Nat) => BitsAt m b a
  | .prim p, (v : RVec (PrimVal p)), (a : Nat) =>
    a ≠ 0 ∧ a % p.size = 0 ∧ m.slice p.size a v.items.length = some v.items
  | .fsl _ nl t, (c : Flatten (nullR nl (baseR t)).C), (a : NPlace nl (Place t)) =>
    NullableAt m (baseR t) (BaseAt m t) nl c.child a
  | .vsl ow nl t, (c : Offsets (nullR nl (baseR t)).C), (a : Nat × NPlace nl (Place t)) =>
    (a.1 ≠ 0 ∧ a.1 % offsetBytes ow = 0 ∧
      (m.slice (offBytes ow) a.1 c.offsets.items.length).map (·.map BitVec.toInt) =
        some c.offsets.items) ∧
    NullableAt m (baseR t) (BaseAt m t) nl c.data a.2

/-- Memory `m` holds the array: every buffer is at its address, which is non-null
and aligned. -/
def InMemory (m : Mem) (nl : Bool) (t : Ty) (c : (arrayR nl t).C) (a : APlace nl t) : Prop :=
  NullableAt m (baseR t) (BaseAt m t) nl c a

/-! ## Bit offsets, and storage beyond the last item -/

/-- Bit offsets with that of the validity bitmap. -/
def nullableOffsets {O : Type} (R : Realloc O) (base : R.C → List Nat) :
    (nl : Bool) → (nullR nl R).C → List Nat
  | false, (c : R.C) => base c
  | true, (v : Validity R.C) => v.bitmap.toList.map Bitmap.offset ++ base v.coll

/-- Bit offsets of an array of non-null items. -/
def baseOffsets : (t : Ty) → (baseR t).C → List Nat
  | .bool, (b : Bitmap) => [b.offset]
  | .prim _, _ => []
  | .fsl _ nl t, (c : Flatten (nullR nl (baseR t)).C) =>
    nullableOffsets (baseR t) (baseOffsets t) nl c.child
  | .vsl _ nl t, (c : Offsets (nullR nl (baseR t)).C) =>
    nullableOffsets (baseR t) (baseOffsets t) nl c.data

/-- The bit offsets of all bitmaps of the array, outermost first, a validity
bitmap before what it covers. -/
def bitOffsets (nl : Bool) (t : Ty) (c : (arrayR nl t).C) : List Nat :=
  nullableOffsets (baseR t) (baseOffsets t) nl c

/-- The fixed-size lists hold exactly `bits` items. -/
def ExactLists : (t : Ty) → (baseR t).C → Nat → Prop
  | .fsl n nl t, (c : Flatten (nullR nl (baseR t)).C), bits =>
    (arrayR nl t).len c.child = .ok (bits * n)
  | _, _, _ => True

/-- The nullable lists hold as many items as they have validity bits. -/
def nullableCommitted {O : Type} (R : Realloc O) (base : R.C → Prop) (exact : R.C → Nat → Prop) :
    (nl : Bool) → (nullR nl R).C → Prop
  | false, (c : R.C) => base c
  | true, (v : Validity R.C) => base v.coll ∧ ∀ b, v.bitmap = some b → exact v.coll b.bits

/-- `Committed` for arrays of non-null items. -/
def baseCommitted : (t : Ty) → (baseR t).C → Prop
  | .bool, _ => True
  | .prim _, _ => True
  | .fsl _ nl t, (c : Flatten (nullR nl (baseR t)).C) =>
    nullableCommitted (baseR t) (baseCommitted t) (ExactLists t) nl c.child
  | .vsl _ nl t, (c : Offsets (nullR nl (baseR t)).C) =>
    nullableCommitted (baseR t) (baseCommitted t) (ExactLists t) nl c.data

/-- Fully committed storage: no nullable fixed-size list anywhere in the array
stores items beyond its last validity bit (an interrupted `extend` can leave
some). -/
def Committed (nl : Bool) (t : Ty) (c : (arrayR nl t).C) : Prop :=
  nullableCommitted (baseR t) (baseCommitted t) (ExactLists t) nl c

/-! ## What exported structures say -/

/-- Number of null items. -/
def nulls {O : Type} : (nl : Bool) → List (ItemVal nl O) → Nat
  | false, _ => 0
  | true, (l : List (Option O)) => l.countP Option.isNone

/-- The collection of values of an array. -/
def valuesOf {O : Type} (R : Realloc O) : (nl : Bool) → (nullR nl R).C → R.C
  | false, (c : R.C) => c
  | true, (v : Validity R.C) => v.coll

/-- The pair of structures describes the array `c`, apart from its children:
length, exact null count, offset zero, buffer and child counts, no dictionary, the
format, the nullable flag exactly for `Option`, no name, not released. -/
structure Header (nl : Bool) (t : Ty) (c : (arrayR nl t).C) (array : CArray) (schema : CSchema) :
    Prop where
  items : ∃ l : List (ItemVal nl (Val t)), Reads (arrayR nl t).toColl c l ∧
    array.length.toInt = l.length ∧ array.nullCount.toInt = nulls nl l
  offset : array.offset.toInt = 0
  nBuffers : array.nBuffers.toInt = buffersIn t
  buffers : (array.buffers.elim 0 List.length) = buffersIn t
  nChildren : array.nChildren.toInt = childrenIn t
  children : (array.children.elim 0 List.length) = childrenIn t
  dictionary : array.dictionary = false
  live : array.release ≠ none
  format : ∃ f, schema.format = some f ∧ FormatOf t f
  flags : schema.flags = if nl then 2#64 else 0#64
  nSchemas : schema.nChildren.toInt = childrenIn t
  schemas : (schema.children.elim 0 List.length) = childrenIn t
  schemaDictionary : schema.dictionary = false
  metadata : schema.metadata = false
  name : schema.name = some []
  schemaLive : schema.release ≠ none

/-- The structures describe the child of a list: all its stored items. -/
def DescribesChild : (t : Ty) → (baseR t).C → CArray → CSchema → Prop
  | .bool, _, _, _ => True
  | .prim _, _, _, _ => True
  | .fsl _ nl t, (c : Flatten (nullR nl (baseR t)).C), array, schema =>
    ∃ array' schema', firstChild array = some array' ∧ firstSchema schema = some schema' ∧
      Header nl t c.child array' schema' ∧
      DescribesChild t (valuesOf (baseR t) nl c.child) array' schema'
  | .vsl _ nl t, (c : Offsets (nullR nl (baseR t)).C), array, schema =>
    ∃ array' schema', firstChild array = some array' ∧ firstSchema schema = some schema' ∧
      Header nl t c.data array' schema' ∧
      DescribesChild t (valuesOf (baseR t) nl c.data) array' schema'

/-- The pair of structures describes the array `c`, with all its descendants. -/
def Describes (nl : Bool) (t : Ty) (c : (arrayR nl t).C) (array : CArray) (schema : CSchema) : Prop :=
  Header nl t c array schema ∧ DescribesChild t (valuesOf (baseR t) nl c) array schema

/-! ## Where exported structures point -/

/-- The first buffer is the validity bitmap: null if there is none. -/
def PointsValidity {O : Type} (R : Realloc O) {P : Type} :
    (nl : Bool) → (nullR nl R).C → NPlace nl P → CArray → Prop
  | false, _, _, array => bufferAt array 0 = some 0
  | true, (v : Validity R.C), (a : P × Option Nat), array =>
    match v.bitmap with
    | none => bufferAt array 0 = some 0
    | some _ => bufferAt array 0 = a.2

/-- The place of the values of an array. -/
def valuesPlace {P : Type} : (nl : Bool) → NPlace nl P → P
  | false, (a : P) => a
  | true, (a : P × Option Nat) => a.1

/-- The other buffers are those of the array at place `a`; so are those of the
child. -/
def PointsValues : (t : Ty) → (baseR t).C → Place t → CArray → Prop
  | .bool, _, (a : Nat), array => bufferAt array 1 = some a
  | .prim _, _, (a : Nat), array => bufferAt array 1 = some a
  | .fsl _ nl t, (c : Flatten (nullR nl (baseR t)).C), (a : NPlace nl (Place t)), array =>
    ∃ array', firstChild array = some array' ∧ PointsValidity (baseR t) nl c.child a array' ∧
      PointsValues t (valuesOf (baseR t) nl c.child) (valuesPlace nl a) array'
  | .vsl _ nl t, (c : Offsets (nullR nl (baseR t)).C), (a : Nat × NPlace nl (Place t)), array =>
    bufferAt array 1 = some a.1 ∧
    ∃ array', firstChild array = some array' ∧ PointsValidity (baseR t) nl c.data a.2 array' ∧
      PointsValues t (valuesOf (baseR t) nl c.data) (valuesPlace nl a.2) array'

/-- Every buffer pointer of the structure is the address of the corresponding
buffer of the array `c` at place `a`. -/
def PointsTo (nl : Bool) (t : Ty) (c : (arrayR nl t).C) (a : APlace nl t) (array : CArray) : Prop :=
  PointsValidity (baseR t) nl c a array ∧
    PointsValues t (valuesOf (baseR t) nl c) (valuesPlace nl a) array

/-! ## What an imported array borrows -/

/-- The validity bitmap is the producer's: as many bits as declared items, read at
the producer's address. Without a producer's bitmap there is none. -/
def BorrowsValidity (m : Mem) {O : Type} (R : Realloc O) {P : Type} :
    (nl : Bool) → (nullR nl R).C → NPlace nl P → CArray → Prop
  | false, _, _, _ => True
  | true, (v : Validity R.C), (a : P × Option Nat), array =>
    match v.bitmap with
    | none => bufferAt array 0 = some 0
    | some b => ∃ p, p ≠ 0 ∧ bufferAt array 0 = some p ∧ a.2 = some p ∧
      b.bits = array.length.toNat ∧ b.offset = 0 ∧
      m.read p (bytesFor array.length.toNat) = some b.buffer.items

/-- The values and offsets are the producer's, exactly the declared number of
elements at the producer's address; buffers of no elements are not read. -/
def BorrowsValues (m : Mem) : (t : Ty) → (baseR t).C → Place t → CArray → Prop
  | .bool, (b : Bitmap), (a : Nat), array =>
    b.bits = array.length.toNat ∧ b.offset = 0 ∧
    ((array.length.toNat = 0 ∧ b.buffer.items = []) ∨
      (bufferAt array 1 = some a ∧
        m.read a (bytesFor array.length.toNat) = some b.buffer.items))
  | .prim p, (v : RVec (PrimVal p)), (a : Nat), array =>
    (array.length.toNat = 0 ∧ v.items = []) ∨
      (bufferAt array 1 = some a ∧ m.slice p.size a array.length.toNat = some v.items)
  | .fsl _ nl t, (c : Flatten (nullR nl (baseR t)).C), (a : NPlace nl (Place t)), array =>
    ∃ array', firstChild array = some array' ∧ BorrowsValidity m (baseR t) nl c.child a array' ∧
      BorrowsValues m t (valuesOf (baseR t) nl c.child) (valuesPlace nl a) array'
  | .vsl ow nl t, (c : Offsets (nullR nl (baseR t)).C), (a : Nat × NPlace nl (Place t)), array =>
    bufferAt array 1 = some a.1 ∧
    (m.slice (offBytes ow) a.1 (array.length.toNat + 1)).map (·.map BitVec.toInt) =
      some c.offsets.items ∧
    ∃ array', firstChild array = some array' ∧ BorrowsValidity m (baseR t) nl c.data a.2 array' ∧
      BorrowsValues m t (valuesOf (baseR t) nl c.data) (valuesPlace nl a.2) array'

/-- Every buffer of the array `c` at place `a` is the producer's buffer. -/
def Borrows (m : Mem) (nl : Bool) (t : Ty) (c : (arrayR nl t).C) (a : APlace nl t) (array : CArray) :
    Prop :=
  BorrowsValidity m (baseR t) nl c a array ∧
    BorrowsValues m t (valuesOf (baseR t) nl c) (valuesPlace nl a) array

/-! ## The contract of `import`, and what is malformed -/

/-- The part of the contract of `import` (narrow-ffi/src/import/mod.rs:28-34) about
one structure: tables have as many entries as declared, and a validity bitmap has
as many bits as declared items. -/
structure SafeHeader (m : Mem) (nl : Bool) (array : CArray) (schema : CSchema) : Prop where
  buffers : ∀ l, array.buffers = some l → array.nBuffers.toInt ≤ l.length
  children : ∀ l, array.children = some l → array.nChildren.toInt ≤ l.length
  schemas : ∀ l, schema.children = some l → schema.nChildren.toInt ≤ l.length
  validity : ∀ p, nl = true → bufferAt array 0 = some p → p ≠ 0 → 0 ≤ array.length.toInt →
    m.read p (bytesFor array.length.toNat) ≠ none

/-- The contract of `import`: every non-null, aligned buffer the type calls for can
be read for the declared number of elements, and so for the children. Nothing is
assumed about lengths, counts, flags, formats, null counts and the values of
offsets. -/
def Safe (m : Mem) : (t : Ty) → (nl : Bool) → CArray → CSchema → Prop
  | .bool, nl, array, schema => SafeHeader m nl array schema ∧
    ∀ p, bufferAt array 1 = some p → p ≠ 0 → 0 ≤ array.length.toInt →
      m.read p (bytesFor array.length.toNat) ≠ none
  | .prim pr, nl, array, schema => SafeHeader m nl array schema ∧
    ∀ p, bufferAt array 1 = some p → p ≠ 0 → p % pr.size = 0 → 0 ≤ array.length.toInt →
      m.slice pr.size p array.length.toNat ≠ none
  | .fsl _ nl' t, nl, array, schema => SafeHeader m nl array schema ∧
    ∀ array' schema', firstChild array = some array' → firstSchema schema = some schema' →
      Safe m t nl' array' schema'
  | .vsl ow nl' t, nl, array, schema => SafeHeader m nl array schema ∧
    (∀ p, bufferAt array 1 = some p → p ≠ 0 → p % offsetBytes ow = 0 → 0 ≤ array.length.toInt →
      m.slice (offBytes ow) p (array.length.toNat + 1) ≠ none) ∧
    ∀ array' schema', firstChild array = some array' → firstSchema schema = some schema' →
      Safe m t nl' array' schema'

/-- What is wrong with a pair of structures, as a description of items of type `t`,
and the error documented for it (narrow-ffi/src/import/mod.rs:280-371). -/
inductive Defect (m : Mem) : (t : Ty) → (nl : Bool) → CArray → CSchema → ImportError → Prop
  | releasedArray {t nl array schema} : array.release = none → Defect m t nl array schema .releasedArray
  | releasedSchema {t nl array schema} : schema.release = none →
      Defect m t nl array schema .releasedSchema
  | missingFormat {t nl array schema} : schema.format = none → Defect m t nl array schema .missingFormat
  | unexpectedFormat {t nl array schema f} : schema.format = some f → ¬ FormatOf t f →
      Defect m t nl array schema .unexpectedFormat
  /-- bit 1 of the flags is the nullable flag -/
  | unexpectedFlags {t nl array schema} : schema.flags.getLsbD 1 ≠ nl →
      Defect m t nl array schema (.unexpectedFlags schema.flags)
  | invalidLength {t nl array schema} : array.length.toInt < 0 →
      Defect m t nl array schema (.invalidLength array.length)
  | nonZeroOffset {t nl array schema} : array.offset.toInt ≠ 0 →
      Defect m t nl array schema (.nonZeroOffset array.offset)
  | unexpectedNullCount {t nl array schema} :
      array.nullCount.toInt < -1 ∨ array.length.toInt < array.nullCount.toInt ∨
        (nl = false ∧ 0 < array.nullCount.toInt) →
      Defect m t nl array schema (.unexpectedNullCount array.nullCount)
  | unexpectedBufferCount {t nl array schema} : array.nBuffers.toInt ≠ (buffersIn t : Int) →
      Defect m t nl array schema (.unexpectedBufferCount array.nBuffers)
  | unexpectedChildCount {t nl array schema} :
      array.nChildren.toInt ≠ (childrenIn t : Int) ∨ schema.nChildren.toInt ≠ (childrenIn t : Int) →
      Defect m t nl array schema (.unexpectedChildCount array.nChildren schema.nChildren)
  | unexpectedDictionary {t nl array schema} : array.dictionary = true ∨ schema.dictionary = true →
      Defect m t nl array schema .unexpectedDictionary
  | missingBufferPointers {t nl array schema} : array.buffers = none →
      Defect m t nl array schema .missingBufferPointers
  | missingArrayChildren {t nl array schema} : childTy t ≠ none → firstChild array = none →
      Defect m t nl array schema .missingArrayChildren
  | missingSchemaChildren {t nl array schema} : childTy t ≠ none → firstSchema schema = none →
      Defect m t nl array schema .missingSchemaChildren
  | missingValidityBuffer {t array schema} : bufferAt array 0 = some 0 → array.length.toInt ≠ 0 →
      array.nullCount.toInt ≠ 0 → Defect m t true array schema .missingValidityBuffer
  | nullCountMismatch {t array schema p bytes} : bufferAt array 0 = some p → p ≠ 0 →
      m.read p (bytesFor array.length.toNat) = some bytes → 0 ≤ array.nullCount.toInt →
      array.nullCount.toInt ≠ (unsetBits bytes array.length.toNat : Int) →
      Defect m t true array schema
        (.nullCountMismatch array.nullCount (unsetBits bytes array.length.toNat))
  | unsupportedFixedSizeListSize {nl nl' t array schema} :
      Defect m (.fsl 0 nl' t) nl array schema (.unsupportedFixedSizeListSize 0)
  | fixedSizeListLengthMismatch {n nl nl' t array schema array'} : firstChild array = some array' →
      array.length.toNat * n ≠ array'.length.toNat →
      Defect m (.fsl n nl' t) nl array schema
        (.fixedSizeListLengthMismatch array.length.toNat array'.length.toNat n)
  | missingOffsetsBuffer {ow nl nl' t array schema} : bufferAt array 1 = some 0 →
      Defect m (.vsl ow nl' t) nl array schema .missingOffsetsBuffer
  | misalignedOffsetsBuffer {ow nl nl' t array schema p} : bufferAt array 1 = some p →
      p % offsetBytes ow ≠ 0 →
      Defect m (.vsl ow nl' t) nl array schema (.misalignedOffsetsBuffer (offsetBytes ow))
  | invalidOffsets {ow nl nl' t array schema p values array' e} : bufferAt array 1 = some p →
      m.slice (offBytes ow) p (array.length.toNat + 1) = some values →
      firstChild array = some array' →
      FirstViolation (values.map BitVec.toInt) array'.length.toNat e →
      Defect m (.vsl ow nl' t) nl array schema (.invalidOffsets e)
  | missingBits {nl array schema} : bufferAt array 1 = some 0 → array.length.toInt ≠ 0 →
      Defect m .bool nl array schema .missingValuesBuffer
  | missingValues {p nl array schema} : bufferAt array 1 = some 0 → array.length.toInt ≠ 0 →
      Defect m (.prim p) nl array schema .missingValuesBuffer
  | misalignedValuesBuffer {pr nl array schema p} : bufferAt array 1 = some p →
      p % pr.size ≠ 0 → array.length.toInt ≠ 0 →
      Defect m (.prim pr) nl array schema (.misalignedValuesBuffer pr.size)
  /-- a defect of the child of a list -/
  | child {t nl array schema nl' t' array' schema' e} : childTy t = some (nl', t') →
      firstChild array = some array' → firstSchema schema = some schema' →
      Defect m t' nl' array' schema' e → Defect m t nl array schema e

/-! ## Reachable memory -/

/-- A consumer of the structure can reach the buffer at address `p`. -/
inductive Reaches : CArray → Nat → Prop
  | own {array i p} : bufferAt array i = some p → p ≠ 0 → Reaches array p
  | child {array array' p} : firstChild array = some array' → Reaches array' p → Reaches array p

end Narrow.Ffi.Spec
