import Verif.Spec.Arrow
import Verif.Spec.Parts

/-!
# Arrays that follow the Arrow format, and what the importer does not support

Written from the Arrow specification ("Arrow Columnar Format", physical layouts, and
"The Arrow C data interface"), independent of the exporter and of the importer. It
allows more than the importer supports: offsets into the buffers, buffers at any
address, omitted bitmaps with an unknown number of nulls, omitted offsets of empty
lists, children that are longer than needed, and offsets that do not start at zero.
-/

namespace Narrow.Ffi.Spec

open Narrow.Spec Narrow.Ffi

/-- The number of items the buffers have to hold: those before the offset count. -/
def physical (array : CArray) : Nat := array.offset.toNat + array.length.toNat

/-- The number of items that are null by the bitmap at address `p`. -/
def nullBits (m : Mem) (p : Nat) (array : CArray) : Nat :=
  (List.range array.length.toNat).countP fun i => memBit m p (position array i) == some false

/-- What the Arrow C data interface demands of each structure. -/
structure ConformsHeader (m : Mem) (t : Ty) (nl : Bool) (array : CArray) (schema : CSchema) : Prop where
  /-- not released -/
  live : array.release ≠ none ∧ schema.release ≠ none
  /-- the schema is that of the type -/
  format : ∃ f, schema.format = some f ∧ FormatOf t f
  flag : schema.flags.getLsbD 1 = nl
  dictionary : array.dictionary = false ∧ schema.dictionary = false
  length : 0 ≤ array.length.toInt
  offset : 0 ≤ array.offset.toInt
  /-- tables of the size that belongs to the type -/
  buffers : array.nBuffers.toInt = buffersIn t ∧
    ∃ l, array.buffers = some l ∧ l.length = buffersIn t
  children : array.nChildren.toInt = childrenIn t ∧ array.children.elim 0 List.length = childrenIn t
  schemas : schema.nChildren.toInt = childrenIn t ∧ schema.children.elim 0 List.length = childrenIn t
  /-- without a bitmap nothing is null -/
  omitted : bufferAt array 0 = some 0 → array.nullCount.toInt = 0 ∨ array.nullCount.toInt = -1
  /-- a bitmap has a bit for each item, and the null count is right or unknown -/
  bitmap : ∀ p, bufferAt array 0 = some p → p ≠ 0 → m.read p (bytesFor (physical array)) ≠ none ∧
    (array.nullCount.toInt = nullBits m p array ∨ array.nullCount.toInt = -1) ∧
    (nl = false → nullBits m p array = 0)

/-- The structures follow the Arrow format for items of type `t`. -/
def Conforms (m : Mem) : (t : Ty) → (nl : Bool) → CArray → CSchema → Prop
  | .bool, nl, array, schema => ConformsHeader m .bool nl array schema ∧
    ∀ p, bufferAt array 1 = some p → physical array ≠ 0 →
      p ≠ 0 ∧ m.read p (bytesFor (physical array)) ≠ none
  | .prim pr, nl, array, schema => ConformsHeader m (.prim pr) nl array schema ∧
    ∀ p, bufferAt array 1 = some p → physical array ≠ 0 →
      p ≠ 0 ∧ m.slice pr.size p (physical array) ≠ none
  | .fsl n nl' t, nl, array, schema => ConformsHeader m (.fsl n nl' t) nl array schema ∧
    ∃ array' schema', firstChild array = some array' ∧ firstSchema schema = some schema' ∧
      physical array * n ≤ array'.length.toNat ∧ Conforms m t nl' array' schema'
  | .vsl ow nl' t, nl, array, schema => ConformsHeader m (.vsl ow nl' t) nl array schema ∧
    ∃ array' schema', firstChild array = some array' ∧ firstSchema schema = some schema' ∧
      (∀ p, bufferAt array 1 = some p → p = 0 ∧ physical array = 0 ∨
        p ≠ 0 ∧ ∃ values, m.slice (offBytes ow) p (physical array + 1) = some values ∧
          (∀ i (h : i < values.length), array.offset.toNat ≤ i →
            0 ≤ values[i].toInt ∧ values[i].toInt ≤ array'.length.toInt) ∧
          ∀ i (h : i + 1 < values.length), array.offset.toNat ≤ i →
            values[i].toInt ≤ values[i + 1].toInt) ∧
      Conforms m t nl' array' schema'

/-- What the Arrow format allows and the importer does not support, and its error. -/
inductive Unsupported (m : Mem) : (t : Ty) → (nl : Bool) → CArray → CSchema → ImportError → Prop
  /-- an offset into the buffers -/
  | offset {t nl array schema} : array.offset.toInt ≠ 0 →
      Unsupported m t nl array schema (.nonZeroOffset array.offset)
  /-- no bitmap, and the number of nulls is not said to be zero -/
  | unknownNulls {t array schema} : bufferAt array 0 = some 0 → array.length.toInt ≠ 0 →
      array.nullCount.toInt = -1 → Unsupported m t true array schema .missingValidityBuffer
  /-- values at an address that is not aligned -/
  | misalignedValues {pr nl array schema p} : bufferAt array 1 = some p → p % pr.size ≠ 0 →
      array.length.toInt ≠ 0 →
      Unsupported m (.prim pr) nl array schema (.misalignedValuesBuffer pr.size)
  /-- fixed-size lists of no items -/
  | zeroWidth {nl nl' t array schema} :
      Unsupported m (.fsl 0 nl' t) nl array schema (.unsupportedFixedSizeListSize 0)
  /-- a child with more items than the fixed-size lists have -/
  | longChild {n nl nl' t array schema array'} : firstChild array = some array' →
      array.length.toNat * n < array'.length.toNat →
      Unsupported m (.fsl n nl' t) nl array schema
        (.fixedSizeListLengthMismatch array.length.toNat array'.length.toNat n)
  /-- no offsets of no lists -/
  | noOffsets {ow nl nl' t array schema} : bufferAt array 1 = some 0 →
      Unsupported m (.vsl ow nl' t) nl array schema .missingOffsetsBuffer
  /-- offsets at an address that is not aligned -/
  | misalignedOffsets {ow nl nl' t array schema p} : bufferAt array 1 = some p →
      p % offsetBytes ow ≠ 0 →
      Unsupported m (.vsl ow nl' t) nl array schema (.misalignedOffsetsBuffer (offsetBytes ow))
  /-- items of the child before those of the first list -/
  | firstOffset {ow nl nl' t array schema p v} : bufferAt array 1 = some p → p ≠ 0 →
      memElem m (offBytes ow) p 0 = some v → 0 < v.toInt →
      Unsupported m (.vsl ow nl' t) nl array schema (.invalidOffsets (.nonZeroFirst v.toInt.toNat))
  /-- any of these in a child -/
  | child {t nl array schema nl' t' array' schema' e} : childTy t = some (nl', t') →
      firstChild array = some array' → firstSchema schema = some schema' →
      Unsupported m t' nl' array' schema' e → Unsupported m t nl array schema e

end Narrow.Ffi.Spec
