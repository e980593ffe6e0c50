import Verif.Model.Import

/-!
# Importing from structures in memory

narrow-ffi/src/import and the layout of the structures of narrow-ffi/src/lib.rs.
`Model/Import.lean` imports from trees of structures; here the structures, the
tables of pointers and the format strings are bytes of memory, found through
pointers. A structure may be reachable in several ways, or from itself. 64-bit
little-endian target.
-/

namespace Narrow.Ffi.Raw

/-- An eight-byte field at address `p` (narrow-ffi/src/lib.rs:102-121 and 160-181). -/
def word (m : Mem) (p : Nat) : Option (BitVec 64) := (m.read p 8).map (fromBytes 8)

/-- `ArrowArray` (narrow-ffi/src/lib.rs:158-181), pointers as addresses. -/
structure RawArray where
  length : I64
  nullCount : I64
  offset : I64
  nBuffers : I64
  nChildren : I64
  buffers : Nat
  children : Nat
  dictionary : Nat
  release : Nat
  privateData : Nat
  deriving DecidableEq, Repr

/-- `ArrowSchema` (narrow-ffi/src/lib.rs:100-121). -/
structure RawSchema where
  format : Nat
  name : Nat
  metadata : Nat
  flags : I64
  nChildren : I64
  children : Nat
  dictionary : Nat
  release : Nat
  privateData : Nat
  deriving DecidableEq, Repr

/-- The `ArrowArray` at address `p`: `repr(C)`, so the fields are in the order of
their declaration, each of eight bytes (narrow-ffi/src/lib.rs:156-181). -/
def readArray (m : Mem) (p : Nat) : Option RawArray :=
  (word m p).bind fun length =>
  (word m (p + 8)).bind fun nullCount =>
  (word m (p + 16)).bind fun offset =>
  (word m (p + 24)).bind fun nBuffers =>
  (word m (p + 32)).bind fun nChildren =>
  (word m (p + 40)).bind fun buffers =>
  (word m (p + 48)).bind fun children =>
  (word m (p + 56)).bind fun dictionary =>
  (word m (p + 64)).bind fun release =>
  (word m (p + 72)).bind fun privateData =>
  some { length, nullCount, offset, nBuffers, nChildren, buffers := buffers.toNat,
         children := children.toNat, dictionary := dictionary.toNat, release := release.toNat,
         privateData := privateData.toNat }

/-- The `ArrowSchema` at address `p` (narrow-ffi/src/lib.rs:98-121). -/
def readSchema (m : Mem) (p : Nat) : Option RawSchema :=
  (word m p).bind fun format =>
  (word m (p + 8)).bind fun name =>
  (word m (p + 16)).bind fun metadata =>
  (word m (p + 24)).bind fun flags =>
  (word m (p + 32)).bind fun nChildren =>
  (word m (p + 40)).bind fun children =>
  (word m (p + 48)).bind fun dictionary =>
  (word m (p + 56)).bind fun release =>
  (word m (p + 64)).bind fun privateData =>
  some { format := format.toNat, name := name.toNat, metadata := metadata.toNat, flags, nChildren,
         children := children.toNat, dictionary := dictionary.toNat, release := release.toNat,
         privateData := privateData.toNat }

/-- `slice::from_raw_parts(p, n)` for a table of `n` pointers
(narrow-ffi/src/import/mod.rs:85, boolean.rs:29). -/
def table (m : Mem) (p : Nat) : Nat → Option (List Nat)
  | 0 => some []
  | n + 1 => (word m p).bind fun q => (table m (p + 8) n).map (q.toNat :: ·)

/-- `CStr::from_ptr(p)`: the bytes before the first NUL, looking at no more than `fuel`
of them (narrow-ffi/src/import/mod.rs:161). -/
def cstrIn (m : Mem) : (fuel : Nat) → (p : Nat) → Option (List Byte)
  | 0, _ => none
  | fuel + 1, p =>
    (m.byte p).bind fun b => if b = 0#8 then some [] else (cstrIn m fuel (p + 1)).map (b :: ·)

/-- `CStr::from_ptr(p)`; there are no addresses from `byteMax` on
(narrow-ffi/src/import/mod.rs:161). -/
def cstr (m : Mem) (p : Nat) : Option (List Byte) := cstrIn m byteMax p

/-- The common validation of `import_layout`
(narrow-ffi/src/import/mod.rs:147-211). -/
def validate (m : Mem) (nl : Bool) (t : Ty) (array : RawArray) (schema : RawSchema) : Imp Nat :=
  if array.release = 0 then .err .releasedArray
  else if schema.release = 0 then .err .releasedSchema
  else if schema.format = 0 then .err .missingFormat
  else
    (Imp.ofMem (cstr m schema.format)).bind fun format =>
    if !matchesFormat t format then .err .unexpectedFormat
    else if schema.flags &&& flagNullable ≠ expectedFlags nl then
      .err (.unexpectedFlags schema.flags)
    else
      match toUsize array.length with
      | none => .err (.invalidLength array.length)
      | some length =>
        if array.offset ≠ 0#64 then .err (.nonZeroOffset array.offset)
        else if array.nullCount.toInt < -1 ∨ array.nullCount.toInt > array.length.toInt ∨
            (expectedFlags nl = 0#64 ∧ array.nullCount.toInt > 0) then
          .err (.unexpectedNullCount array.nullCount)
        else if array.nBuffers ≠ bufferCount t then
          .err (.unexpectedBufferCount array.nBuffers)
        else if array.nChildren ≠ childCount t ∨ schema.nChildren ≠ childCount t then
          .err (.unexpectedChildCount array.nChildren schema.nChildren)
        else if array.dictionary ≠ 0 ∨ schema.dictionary ≠ 0 then .err .unexpectedDictionary
        else if bufferCount t ≠ 0#64 ∧ array.buffers = 0 then .err .missingBufferPointers
        else if childCount t ≠ 0#64 ∧ array.children = 0 then .err .missingArrayChildren
        else if childCount t ≠ 0#64 ∧ schema.children = 0 then .err .missingSchemaChildren
        else .ok length

/-- `ImportNullability::wrap` (narrow-ffi/src/import/mod.rs:55-116), with the
conversion and the assertion at its start. -/
def wrap (m : Mem) (array : RawArray) {O : Type} (R : Realloc O) {P : Type} (c : R.C) (a : P) :
    (nl : Bool) → Imp ((nullR nl R).C × NPlace nl P)
  | false => .ok ((c, a) : R.C × P)
  | true =>
    match toUsize array.nBuffers with
    | none => .panic
    | some buffers =>
      if buffers = 0 then .panic
      else
        (Imp.ofMem (table m array.buffers buffers)).bind fun pointers =>
        (Imp.ofMem pointers[0]?).bind fun pointer =>
        (Imp.ofRes (R.len c)).bind fun length =>
        (if pointer = 0 then
          (if array.nullCount = 0#64 ∨ length = 0 then
            Imp.ok (Validity.fromCollection c, none)
          else .err .missingValidityBuffer)
        else
          (Imp.ofMem (m.read pointer (divCeil8 length))).bind fun values =>
          (Imp.expectOk (Bitmap.tryFromParts (borrowed values) length 0)).bind fun bitmap =>
          (Imp.ofRes (Validity.tryFromParts R.toColl c bitmap)).bind fun r =>
          (Imp.expectOk r).bind fun v => .ok (v, some pointer)).bind
        fun (r : Validity R.C × Option Nat) =>
          if array.nullCount.toInt ≥ 0 then
            (Imp.ofRes r.1.nullCount).bind fun actual =>
              if toUsize array.nullCount ≠ some actual then
                .err (.nullCountMismatch array.nullCount actual)
              else .ok ((r.1, (a, r.2)) : Validity R.C × (P × Option Nat))
          else .ok ((r.1, (a, r.2)) : Validity R.C × (P × Option Nat))

/-- `import_validated` of the boolean layout
(narrow-ffi/src/import/boolean.rs:23-49). -/
def importBool (m : Mem) (array : RawArray) (length : Nat) (nl : Bool) :
    Imp ((arrayR nl .bool).C × APlace nl .bool) :=
  (Imp.ofMem (table m array.buffers 2)).bind fun buffers =>
  ((if divCeil8 length = 0 then Imp.ok ([], 1)
    else
      (Imp.ofMem buffers[1]?).bind fun pointer =>
      if pointer = 0 then .err .missingValuesBuffer
      else (Imp.ofMem (m.read pointer (divCeil8 length))).bind fun values => .ok (values, pointer))).bind
  fun (r : List Byte × Nat) =>
    (Imp.expectOk (Bitmap.tryFromParts (borrowed r.1) length 0)).bind fun bitmap =>
      wrap m array bitmapR (P := Nat) bitmap r.2 nl

/-- `import_validated` of the primitive layout
(narrow-ffi/src/import/fixed_size_primitive.rs:26-54). -/
def importPrim (m : Mem) (array : RawArray) (length : Nat) (nl : Bool) (p : Prim) :
    Imp ((arrayR nl (.prim p)).C × APlace nl (.prim p)) :=
  (Imp.ofMem (table m array.buffers 2)).bind fun buffers =>
  ((if length = 0 then Imp.ok ([], primAlign p)
    else
      (Imp.ofMem buffers[1]?).bind fun pointer =>
      if pointer = 0 then .err .missingValuesBuffer
      else if pointer % primAlign p ≠ 0 then .err (.misalignedValuesBuffer (primAlign p))
      else (Imp.ofMem (m.slice p.size pointer length)).bind fun values => .ok (values, pointer))).bind
  fun (r : List (PrimVal p) × Nat) =>
    wrap m array (vecR p.lim 0#(8 * p.size)) (P := Nat) (borrowed r.1) r.2 nl

/-- `import_child(array, schema, 0)` (narrow-ffi/src/import/mod.rs:224-260) for a
layout with `children` children, given `import_layout` of the child. Making a
reference to a structure that is not in memory is undefined behaviour. -/
def importChild {α : Type} (m : Mem) (array : RawArray) (schema : RawSchema) (children : I64)
    (importLayout : RawArray → RawSchema → Imp α) : Imp α :=
  match toUsize children with
  | none => .panic
  | some children =>
    if ¬ 0 < children then .panic
    else
      (Imp.ofMem (table m array.children children)).bind fun arrayChildren =>
      (Imp.ofMem arrayChildren[0]?).bind fun childArray =>
      if childArray = 0 then .err .missingArrayChildren
      else
        (Imp.ofMem (readArray m childArray)).bind fun childArray =>
        (Imp.ofMem (table m schema.children children)).bind fun schemaChildren =>
        (Imp.ofMem schemaChildren[0]?).bind fun childSchema =>
        if childSchema = 0 then .err .missingSchemaChildren
        else (Imp.ofMem (readSchema m childSchema)).bind fun childSchema =>
          importLayout childArray childSchema

/-- `import_validated` of the fixed-size list
(narrow-ffi/src/import/fixed_size_list.rs:46-73), given the import of the child. -/
def importFsl (m : Mem) (array : RawArray) (length : Nat) (nl : Bool) (n : Nat) (nl' : Bool) (t : Ty)
    (child : Imp ((arrayR nl' t).C × APlace nl' t)) :
    Imp ((arrayR nl (.fsl n nl' t)).C × APlace nl (.fsl n nl' t)) :=
  if n = 0 then .err (.unsupportedFixedSizeListSize n)
  else
    child.bind fun child =>
    (Imp.ofRes ((arrayR nl' t).len child.1)).bind fun childLength =>
    if checkedMul length n ≠ some childLength then
      .err (.fixedSizeListLengthMismatch length childLength n)
    else
      (Imp.ofRes (Flatten.tryFromParts (arrayR nl' t).toColl n child.1)).bind fun r =>
      (Imp.expectOk r).bind fun flattened =>
        wrap m array (flattenR n (nullR nl' (baseR t))) (P := APlace nl' t) flattened child.2 nl

/-- `import_validated` of the variable-size list
(narrow-ffi/src/import/variable_size_list.rs:31-64), given the import of the
child. -/
def importVsl (m : Mem) (array : RawArray) (length : Nat) (nl : Bool) (ow : OffW) (nl' : Bool) (t : Ty)
    (child : Imp ((arrayR nl' t).C × APlace nl' t)) :
    Imp ((arrayR nl (.vsl ow nl' t)).C × APlace nl (.vsl ow nl' t)) :=
  match checkedAdd length 1 with
  | none => .err (.invalidLength array.length)
  | some offsetsLength =>
    (Imp.ofMem (table m array.buffers 2)).bind fun buffers =>
    (Imp.ofMem buffers[1]?).bind fun pointer =>
    if pointer = 0 then .err .missingOffsetsBuffer
    else if pointer % offAlign ow ≠ 0 then .err (.misalignedOffsetsBuffer (offAlign ow))
    else
      (Imp.ofMem (m.slice (offBytes ow) pointer offsetsLength)).bind fun values =>
      child.bind fun child =>
      (Imp.ofRes (Offsets.tryFromParts (arrayR nl' t).toColl child.1
        (borrowed (values.map BitVec.toInt)))).bind fun r =>
      match r with
      | .error e => .err (.invalidOffsets e)
      | .ok offsets =>
        wrap m array (offsetsR ow (nullR nl' (baseR t))) (P := Nat × APlace nl' t)
          offsets (pointer, child.2) nl

/-- `ImportLayout::import_layout` (narrow-ffi/src/import/mod.rs:147-216). -/
def importLayout (m : Mem) : (t : Ty) → (nl : Bool) → RawArray → RawSchema →
    Imp ((arrayR nl t).C × APlace nl t)
  | .bool, nl, array, schema =>
    (validate m nl .bool array schema).bind fun length => importBool m array length nl
  | .prim p, nl, array, schema =>
    (validate m nl (.prim p) array schema).bind fun length => importPrim m array length nl p
  | .fsl n nl' t, nl, array, schema =>
    (validate m nl (.fsl n nl' t) array schema).bind fun length =>
      importFsl m array length nl n nl' t
        (importChild m array schema (childCount (.fsl n nl' t)) (importLayout m t nl'))
  | .vsl ow nl' t, nl, array, schema =>
    (validate m nl (.vsl ow nl' t) array schema).bind fun length =>
      importVsl m array length nl ow nl' t
        (importChild m array schema (childCount (.vsl ow nl' t)) (importLayout m t nl'))

/-- `Import::import` (narrow-ffi/src/import/mod.rs:263-275) of the structures at
addresses `array` and `schema`. -/
def importAt (m : Mem) (t : Ty) (nl : Bool) (array schema : Nat) :
    Imp ((arrayR nl t).C × APlace nl t) :=
  (Imp.ofMem (readArray m array)).bind fun array =>
  (Imp.ofMem (readSchema m schema)).bind fun schema => importLayout m t nl array schema

end Narrow.Ffi.Raw
