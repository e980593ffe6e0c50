import Verif.Model.Bitmap
import Verif.Model.Flatten
import Verif.Model.Validity
import Verif.Model.Offsets

/-!
# Item types, layouts and arrays

src/layout/mod.rs, src/layout/{boolean,fixed_size_primitive,fixed_size_list,
variable_size_list}.rs, src/nullability.rs, src/array.rs, src/fixed_size.rs.

The layout structs and `Array` are newtypes whose trait implementations
delegate every call to the wrapped collection (src/layout/boolean.rs:103-209,
src/layout/fixed_size_primitive.rs:108-220, src/layout/fixed_size_list.rs,
src/layout/variable_size_list.rs, src/array.rs:111-210); this file identifies a
newtype with the collection it wraps. Model/Newtypes.lean writes the delegation
out and C53 proves the two equal.
-/

namespace Narrow

/-- The sealed `FixedSize` types (src/fixed_size.rs:23-38, 86). -/
inductive Prim where
  | u8 | u16 | u32 | u64 | u128 | usize
  | i8 | i16 | i32 | i64 | i128 | isize
  | f32 | f64
  | array (n : Nat) (p : Prim)
  deriving DecidableEq, Repr

/-- `FixedSize::SIZE` in bytes (src/fixed_size.rs:20) on a 64-bit target. -/
def Prim.size : Prim → Nat
  | .u8 | .i8 => 1
  | .u16 | .i16 => 2
  | .u32 | .i32 | .f32 => 4
  | .u64 | .i64 | .f64 | .usize | .isize => 8
  | .u128 | .i128 => 16
  | .array n p => n * p.size

/-- Values of a `FixedSize` type, as their bit pattern (src/fixed_size.rs:18-38). -/
abbrev PrimVal (p : Prim) := BitVec (8 * p.size)

/-- Most elements a `Vec` of the type can hold: zero-sized elements need no memory (of
`For<T>`, src/buffer.rs:94-97). -/
def Prim.lim (p : Prim) : Nat := if p.size = 0 then usizeMax else byteMax / p.size

/-- Item types with a layout (src/layout/mod.rs:114-136): `bool`, `FixedSize`
types, `[T; N]` and `Vec<T>`, where `T` is again an item type or, with the flag
set, `Option` of one (src/layout/mod.rs:101-112). Lists carry their offset type,
`i32` for `Vec<T>` (src/layout/mod.rs:132-136). -/
inductive Ty where
  | bool
  | prim (p : Prim)
  | fsl (n : Nat) (nullable : Bool) (t : Ty)
  | vsl (ow : OffW) (nullable : Bool) (t : Ty)
  deriving DecidableEq, Repr

/-- Item types whose fixed-size lists all have a positive width (the widths of
src/layout/mod.rs:126-130 that src/collection/flatten.rs:93-96 accepts). -/
def Ty.WF : Ty → Prop
  | .bool => True
  | .prim _ => True
  | .fsl n _ t => 0 < n ∧ t.WF
  | .vsl _ _ t => t.WF

/-- `T` or `Option<T>` (src/layout/mod.rs:106-112). -/
def ItemVal (nullable : Bool) (α : Type) : Type :=
  match nullable with
  | false => α
  | true => Option α

/-- Rust values of an item type (src/layout/mod.rs:114-136). -/
def Val : Ty → Type
  | .bool => Bool
  | .prim p => PrimVal p
  | .fsl n nl t => FixArr (ItemVal nl (Val t)) n
  | .vsl _ nl t => List (ItemVal nl (Val t))

/-- `NonNullable::Collection<T> = T`, `Nullable::Collection<T> = Validity<T>`
(src/nullability.rs:123, 161). -/
def nullR {O : Type} (nullable : Bool) (R : Realloc O) : Realloc (ItemVal nullable O) :=
  match nullable with
  | false => R
  | true => validityR R

/-- The memory of the non-nullable layout of an item type
(src/layout/mod.rs:114-136 and the layout structs: boolean.rs:35,
fixed_size_primitive.rs:30, fixed_size_list.rs:33-38,
variable_size_list.rs:32-37). -/
def baseR : (t : Ty) → Realloc (Val t)
  | .bool => bitmapR
  | .prim p => vecR p.lim 0#(8 * p.size)
  | .fsl n nl t => flattenR n (nullR nl (baseR t))
  | .vsl ow nl t => offsetsR ow (nullR nl (baseR t))

/-- `Array<T>` (nullable = false) and `Array<Option<T>>` (nullable = true)
(src/array.rs:20-210, src/layout/mod.rs:101-112). -/
def arrayR (nullable : Bool) (t : Ty) : Realloc (ItemVal nullable (Val t)) :=
  nullR nullable (baseR t)

end Narrow
