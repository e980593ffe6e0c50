import Verif.Spec.Ffi

/-!
# What a C array denotes, by the Arrow columnar format

A reader of `ArrowArray` structures written from the Arrow specification
("Arrow Columnar Format", physical layouts, and "The Arrow C data interface"),
independent of the exporter and of the importer: it uses the structures, memory,
and the item types, and no collection of the library. Item `i` of a structure is
at physical position `offset + i` of its buffers.
-/

namespace Narrow.Ffi.Spec

open Narrow.Spec Narrow.Ffi

/-- Bit `i` of the buffer at address `p`: least-significant-bit numbering. -/
def memBit (m : Mem) (p i : Nat) : Option Bool := (m.byte (p + i / 8)).map (·.getLsbD (i % 8))

/-- Element `i`, of `k` bytes, of the buffer at address `p`: little-endian. -/
def memElem (m : Mem) (k p i : Nat) : Option (BitVec (8 * k)) := (m.read (p + k * i) k).map (fromBytes k)

/-- Physical position of item `i`. -/
def position (array : CArray) (i : Nat) : Nat := array.offset.toNat + i

/-- Item `i` is valid: there is no validity bitmap, or its bit is set. -/
def ItemValid (m : Mem) (array : CArray) (i : Nat) : Prop :=
  bufferAt array 0 = some 0 ∨
    ∃ p, p ≠ 0 ∧ bufferAt array 0 = some p ∧ memBit m p (position array i) = some true

/-- Item `i` is null: there is a validity bitmap, and its bit is unset. -/
def ItemNull (m : Mem) (array : CArray) (i : Nat) : Prop :=
  ∃ p, p ≠ 0 ∧ bufferAt array 0 = some p ∧ memBit m p (position array i) = some false

/-- Item `i` of a nullable or non-nullable array; `base v` says that the value at
`i` is `v`. A null item has no value. Of a non-nullable array the bitmap is not
consulted. -/
def DenotesNullable (m : Mem) {O : Type} (base : O → Prop) (array : CArray) (i : Nat) :
    (nl : Bool) → ItemVal nl O → Prop
  | false, (v : O) => base v
  | true, (x : Option O) =>
    match x with
    | none => ItemNull m array i
    | some v => ItemValid m array i ∧ base v

/-- The value at item `i`, by layout:
* booleans: a bit of the second buffer;
* primitives: an element of the second buffer;
* fixed-size lists: `n` consecutive items of the child;
* variable-size lists: the items of the child from one offset of the second buffer
  up to the next. -/
def DenotesValue (m : Mem) : (t : Ty) → CArray → Nat → Val t → Prop
  | .bool, array, i, (x : Bool) =>
    ∃ p, bufferAt array 1 = some p ∧ memBit m p (position array i) = some x
  | .prim pr, array, i, (x : PrimVal pr) =>
    ∃ p, bufferAt array 1 = some p ∧ memElem m pr.size p (position array i) = some x
  | .fsl n nl t, array, i, (x : FixArr (ItemVal nl (Val t)) n) =>
    ∃ child, firstChild array = some child ∧ ∀ j (h : j < x.1.length),
      DenotesNullable m (DenotesValue m t child (position array i * n + j)) child
        (position array i * n + j) nl x.1[j]
  | .vsl ow nl t, array, i, (x : List (ItemVal nl (Val t))) =>
    ∃ child p start stop, firstChild array = some child ∧ bufferAt array 1 = some p ∧
      (memElem m (offBytes ow) p (position array i)).map BitVec.toInt = some (Int.ofNat start) ∧
      (memElem m (offBytes ow) p (position array i + 1)).map BitVec.toInt = some (Int.ofNat stop) ∧
      stop = start + x.length ∧ ∀ j (h : j < x.length),
        DenotesNullable m (DenotesValue m t child (start + j)) child (start + j) nl x[j]

/-- Item `i` of the structure is `x`. -/
def Denotes (m : Mem) (nl : Bool) (t : Ty) (array : CArray) (i : Nat) (x : ItemVal nl (Val t)) : Prop :=
  DenotesNullable m (DenotesValue m t array i) array i nl x

end Narrow.Ffi.Spec
