import Verif.Model.Ffi

/-!
# Importing arrays

narrow-ffi/src/import. Imported arrays borrow their buffers: the result is the
content of the array together with the addresses of its buffers.
-/

namespace Narrow.Ffi

/-- Outcome of a call of the importer: `ub` when it reads memory that is not readable
(of narrow-ffi/src/import/mod.rs:147-150). -/
inductive Imp (α : Type) where
  | ok (a : α)
  | err (e : ImportError)
  | panic
  | ub

namespace Imp

/-- Sequencing: the calls of narrow-ffi/src/import/mod.rs:147-216 one after the other. -/
def bind {α β : Type} : Imp α → (α → Imp β) → Imp β
  | .ok a, f => f a
  | .err e, _ => .err e
  | .panic, _ => .panic
  | .ub, _ => .ub

/-- A call that may panic (e.g. narrow-ffi/src/import/mod.rs:105). -/
def ofRes {α : Type} : Res α → Imp α
  | .ok a => .ok a
  | .panic => .panic

/-- `.expect(..)` on a result (narrow-ffi/src/import/boolean.rs:43,
fixed_size_list.rs:68, mod.rs:100-101). -/
def expectOk {α ε : Type} : Except ε α → Imp α
  | .ok a => .ok a
  | .error _ => .panic

/-- Reading through a pointer (the unsafe blocks of narrow-ffi/src/import/mod.rs:85 and
98). -/
def ofMem {α : Type} : Option α → Imp α
  | some a => .ok a
  | none => .ub

end Imp

/-- `alignof` of the offset types (narrow-ffi/src/import/variable_size_list.rs:45). -/
def offAlign (ow : OffW) : Nat := offBytes ow

/-- `align_of::<T>()` of the primitive types that can be imported: their size
(narrow-ffi/src/import/fixed_size_primitive.rs:40). -/
def primAlign (p : Prim) : Nat := p.size

/-- `length.div_ceil(8)` (narrow-ffi/src/import/boolean.rs:30, mod.rs:95). -/
def divCeil8 (n : Nat) : Nat := (n + 7) / 8

/-- A borrowed slice as a buffer: it has no spare capacity (`SliceBuffer`,
src/buffer.rs:173-176). -/
def borrowed {α : Type} (l : List α) : RVec α := ⟨l, l.length⟩

/-- Entry `i` of a table the structure points to; reading past the table is undefined
behaviour (e.g. narrow-ffi/src/import/boolean.rs:29 and 34, mod.rs:85-86). -/
def entry {α : Type} (table : Option (List α)) (i : Nat) : Imp α :=
  Imp.ofMem (table.bind (·[i]?))

/-- One step of parsing the width: `checked_sub(b'0')?`, `digit > 9`,
`checked_mul(10)?.checked_add(digit)`
(narrow-ffi/src/import/fixed_size_list.rs:37-43). -/
def parseDigit (size : Nat) (byte : Byte) : Option Nat :=
  if byte.toNat < 48 then none
  else if byte.toNat - 48 > 9 then none
  else (checkedMul size 10).bind fun x => checkedAdd x (byte.toNat - 48)

/-- `try_fold` over the digits (narrow-ffi/src/import/fixed_size_list.rs:37-43). -/
def parseDigits : Nat → List Byte → Option Nat
  | size, [] => some size
  | size, b :: l => (parseDigit size b).bind fun size' => parseDigits size' l

/-- `matches_format` of the fixed-size list
(narrow-ffi/src/import/fixed_size_list.rs:27-44). -/
def matchesWidth (n : Nat) (format : List Byte) : Bool :=
  match format with
  | b0 :: b1 :: b2 :: digits =>
    if [b0, b1, b2] = ascii "+w:" then
      if digits.isEmpty then false else parseDigits 0 digits == some n
    else false
  | _ => false

/-- `ImportLayout::matches_format` (narrow-ffi/src/import/boolean.rs:19-21,
fixed_size_primitive.rs:22-24, fixed_size_list.rs:27-44, variable_size_list.rs:27-29).
-/
def matchesFormat : Ty → List Byte → Bool
  | .bool, f => f == ascii "b"
  | .prim p, f => primFormat p == some f
  | .fsl n _ _, f => matchesWidth n f
  | .vsl ow _ _, f => f == offsetFormat ow

/-- `ImportLayout::BUFFERS` (narrow-ffi/src/import/boolean.rs:16,
fixed_size_primitive.rs:19, fixed_size_list.rs:24, variable_size_list.rs:24). -/
def bufferCount : Ty → I64
  | .bool => 2#64
  | .prim _ => 2#64
  | .fsl _ _ _ => 1#64
  | .vsl _ _ _ => 2#64

/-- `ImportLayout::CHILDREN` (narrow-ffi/src/import/boolean.rs:17,
fixed_size_primitive.rs:20, fixed_size_list.rs:25, variable_size_list.rs:25). -/
def childCount : Ty → I64
  | .bool => 0#64
  | .prim _ => 0#64
  | .fsl _ _ _ => 1#64
  | .vsl _ _ _ => 1#64

/-- `ImportNullability::FLAGS` (narrow-ffi/src/import/mod.rs:56 and 69). -/
def expectedFlags (nl : Bool) : I64 := if nl then flagNullable else 0#64

/-- The common validation of `import_layout`
(narrow-ffi/src/import/mod.rs:147-211), which returns the length. -/
def validate (nl : Bool) (t : Ty) (array : CArray) (schema : CSchema) : Except ImportError Nat :=
  if array.isReleased then .error .releasedArray
  else if schema.isReleased then .error .releasedSchema
  else
    match schema.format with
    | none => .error .missingFormat
    | some format =>
      if !matchesFormat t format then .error .unexpectedFormat
      else if schema.flags &&& flagNullable ≠ expectedFlags nl then
        .error (.unexpectedFlags schema.flags)
      else
        match toUsize array.length with
        | none => .error (.invalidLength array.length)
        | some length =>
          if array.offset ≠ 0#64 then .error (.nonZeroOffset array.offset)
          else if array.nullCount.toInt < -1 ∨ array.nullCount.toInt > array.length.toInt ∨
              (expectedFlags nl = 0#64 ∧ array.nullCount.toInt > 0) then
            .error (.unexpectedNullCount array.nullCount)
          else if array.nBuffers ≠ bufferCount t then
            .error (.unexpectedBufferCount array.nBuffers)
          else if array.nChildren ≠ childCount t ∨ schema.nChildren ≠ childCount t then
            .error (.unexpectedChildCount array.nChildren schema.nChildren)
          else if array.dictionary ∨ schema.dictionary then .error .unexpectedDictionary
          else if bufferCount t ≠ 0#64 ∧ array.buffers.isNone then .error .missingBufferPointers
          else if childCount t ≠ 0#64 ∧ array.children.isNone then .error .missingArrayChildren
          else if childCount t ≠ 0#64 ∧ schema.children.isNone then .error .missingSchemaChildren
          else .ok length

/-- `ImportNullability::wrap` (narrow-ffi/src/import/mod.rs:55-116). The number of
buffers has been validated, so neither the conversion nor the assertion at its
start fails. -/
def wrap (m : Mem) (array : CArray) {O : Type} (R : Realloc O) {P : Type} (c : R.C) (a : P) :
    (nl : Bool) → Imp ((nullR nl R).C × NPlace nl P)
  | false => .ok ((c, a) : R.C × P)
  | true =>
    (entry array.buffers 0).bind fun pointer =>
    (Imp.ofRes (R.len c)).bind fun length =>
    (if pointer = 0 then
      (if array.nullCount = 0#64 ∨ length = 0 then
        Imp.ok (Validity.fromCollection c, none)
      else .err .missingValidityBuffer)
    else
      (Imp.ofMem (m.read pointer (divCeil8 length))).bind fun values =>
      (Imp.expectOk (Bitmap.tryFromParts (borrowed values) length 0)).bind fun bitmap =>
      (Imp.ofRes (Validity.tryFromParts R.toColl c bitmap)).bind fun r =>
      (Imp.expectOk r).bind fun v => .ok (v, some pointer)).bind
    fun (r : Validity R.C × Option Nat) =>
      if array.nullCount.toInt ≥ 0 then
        (Imp.ofRes r.1.nullCount).bind fun actual =>
          if toUsize array.nullCount ≠ some actual then
            .err (.nullCountMismatch array.nullCount actual)
          else .ok ((r.1, (a, r.2)) : Validity R.C × (P × Option Nat))
      else .ok ((r.1, (a, r.2)) : Validity R.C × (P × Option Nat))

/-- `import_validated` of the boolean layout
(narrow-ffi/src/import/boolean.rs:23-49). An empty slice is at address 1. -/
def importBool (m : Mem) (array : CArray) (length : Nat) (nl : Bool) :
    Imp ((arrayR nl .bool).C × APlace nl .bool) :=
  ((entry array.buffers 1).bind fun pointer =>
    if divCeil8 length = 0 then Imp.ok ([], 1)
    else if pointer = 0 then .err .missingValuesBuffer
    else (Imp.ofMem (m.read pointer (divCeil8 length))).bind fun values => .ok (values, pointer)).bind
  fun (r : List Byte × Nat) =>
    (Imp.expectOk (Bitmap.tryFromParts (borrowed r.1) length 0)).bind fun bitmap =>
      wrap m array bitmapR (P := Nat) bitmap r.2 nl

/-- `import_validated` of the primitive layout
(narrow-ffi/src/import/fixed_size_primitive.rs:26-54). An empty slice is at the
address equal to its alignment. -/
def importPrim (m : Mem) (array : CArray) (length : Nat) (nl : Bool) (p : Prim) :
    Imp ((arrayR nl (.prim p)).C × APlace nl (.prim p)) :=
  ((entry array.buffers 1).bind fun pointer =>
    if length = 0 then Imp.ok ([], primAlign p)
    else if pointer = 0 then .err .missingValuesBuffer
    else if pointer % primAlign p ≠ 0 then .err (.misalignedValuesBuffer (primAlign p))
    else (Imp.ofMem (m.slice p.size pointer length)).bind fun values => .ok (values, pointer)).bind
  fun (r : List (PrimVal p) × Nat) =>
    wrap m array (vecR p.lim 0#(8 * p.size)) (P := Nat) (borrowed r.1) r.2 nl

/-- `import_child(array, schema, 0)` (narrow-ffi/src/import/mod.rs:224-260), given
`import_layout` of the child. -/
def importChild {α : Type} (array : CArray) (schema : CSchema) (importLayout : CArray → CSchema → Imp α) :
    Imp α :=
  (entry array.children 0).bind fun childArray =>
  match childArray with
  | none => .err .missingArrayChildren
  | some childArray =>
    (entry schema.children 0).bind fun childSchema =>
    match childSchema with
    | none => .err .missingSchemaChildren
    | some childSchema => importLayout childArray childSchema

/-- `import_validated` of the fixed-size list
(narrow-ffi/src/import/fixed_size_list.rs:46-73), given the import of the child. -/
def importFsl (m : Mem) (array : CArray) (length : Nat) (nl : Bool) (n : Nat) (nl' : Bool) (t : Ty)
    (child : Imp ((arrayR nl' t).C × APlace nl' t)) :
    Imp ((arrayR nl (.fsl n nl' t)).C × APlace nl (.fsl n nl' t)) :=
  if n = 0 then .err (.unsupportedFixedSizeListSize n)
  else
    child.bind fun child =>
    (Imp.ofRes ((arrayR nl' t).len child.1)).bind fun childLength =>
    if checkedMul length n ≠ some childLength then
      .err (.fixedSizeListLengthMismatch length childLength n)
    else
      (Imp.ofRes (Flatten.tryFromParts (arrayR nl' t).toColl n child.1)).bind fun r =>
      (Imp.expectOk r).bind fun flattened =>
        wrap m array (flattenR n (nullR nl' (baseR t))) (P := APlace nl' t) flattened child.2 nl

/-- `import_validated` of the variable-size list
(narrow-ffi/src/import/variable_size_list.rs:31-64), given the import of the
child. -/
def importVsl (m : Mem) (array : CArray) (length : Nat) (nl : Bool) (ow : OffW) (nl' : Bool) (t : Ty)
    (child : Imp ((arrayR nl' t).C × APlace nl' t)) :
    Imp ((arrayR nl (.vsl ow nl' t)).C × APlace nl (.vsl ow nl' t)) :=
  match checkedAdd length 1 with
  | none => .err (.invalidLength array.length)
  | some offsetsLength =>
    (entry array.buffers 1).bind fun pointer =>
    if pointer = 0 then .err .missingOffsetsBuffer
    else if pointer % offAlign ow ≠ 0 then .err (.misalignedOffsetsBuffer (offAlign ow))
    else
      (Imp.ofMem (m.slice (offBytes ow) pointer offsetsLength)).bind fun values =>
      child.bind fun child =>
      (Imp.ofRes (Offsets.tryFromParts (arrayR nl' t).toColl child.1
        (borrowed (values.map BitVec.toInt)))).bind fun r =>
      match r with
      | .error e => .err (.invalidOffsets e)
      | .ok offsets =>
        wrap m array (offsetsR ow (nullR nl' (baseR t))) (P := Nat × APlace nl' t)
          offsets (pointer, child.2) nl

/-- `Import::import`, `ImportLayout::import_layout`
(narrow-ffi/src/import/mod.rs:147-216, 263-275). -/
def importLayout (m : Mem) : (t : Ty) → (nl : Bool) → CArray → CSchema →
    Imp ((arrayR nl t).C × APlace nl t)
  | .bool, nl, array, schema =>
    match validate nl .bool array schema with
    | .error e => .err e
    | .ok length => importBool m array length nl
  | .prim p, nl, array, schema =>
    match validate nl (.prim p) array schema with
    | .error e => .err e
    | .ok length => importPrim m array length nl p
  | .fsl n nl' t, nl, array, schema =>
    match validate nl (.fsl n nl' t) array schema with
    | .error e => .err e
    | .ok length =>
      importFsl m array length nl n nl' t (importChild array schema (importLayout m t nl'))
  | .vsl ow nl' t, nl, array, schema =>
    match validate nl (.vsl ow nl' t) array schema with
    | .error e => .err e
    | .ok length =>
      importVsl m array length nl ow nl' t (importChild array schema (importLayout m t nl'))

end Narrow.Ffi
