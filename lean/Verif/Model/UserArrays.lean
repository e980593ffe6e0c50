import Verif.Model.Backend
import Verif.Model.Newtypes

/-!
# Arrays in storages written by users

`Array<T, Storage>` for any implementation of `Buffer`.
-/

namespace Narrow

/-- An implementation of `Buffer` (src/buffer.rs:24-28) whose `For<T>` can grow. The model
treats bytes as `BitVec 8` and offsets as integers, so `For<u8>` below bitmaps and
`For<i32>`, `For<i64>` below lists have fields of their own. -/
structure Stores where
  /-- `For<u8>`, below bitmaps -/
  bytes : Backing Byte
  /-- `For<i32>` and `For<i64>`, below lists -/
  offsets : OffW → Backing Int
  /-- `For<T>`, the values of fixed-size types -/
  values : (p : Prim) → Backing (PrimVal p)

/-- `Nulls::Collection<C, Storage>` (src/nullability.rs:123, 161). -/
def nullInR {O : Type} (env : World) (S : Stores) (nullable : Bool) (R : Realloc O) :
    Realloc (ItemVal nullable O) :=
  match nullable with
  | false => R
  | true => validityBR env S.bytes R

/-- `ArrayItem::Memory<Storage>` (src/layout/mod.rs:101-136), through the layout structs
(src/layout/boolean.rs:35, fixed_size_primitive.rs:30, fixed_size_list.rs:33-38,
variable_size_list.rs:32-37). -/
def memoryInR (env : World) (S : Stores) :
    (nullable : Bool) → (t : Ty) → Realloc (ItemVal nullable (Val t))
  | nl, .bool => booleanR (nullInR env S nl (bitmapBR S.bytes))
  | nl, .prim p => fixedSizePrimitiveR (nullInR env S nl (S.values p).toRealloc)
  | nl, .fsl n nl' t => fixedSizeListR (nullInR env S nl (flattenR n (memoryInR env S nl' t)))
  | nl, .vsl ow nl' t =>
      variableSizeListR (nullInR env S nl (offsetsBR ow (S.offsets ow) (memoryInR env S nl' t)))

/-- `Array<T, Storage>` and `Array<Option<T>, Storage>` (src/array.rs:38). -/
def arrayInR (env : World) (S : Stores) (nullable : Bool) (t : Ty) :
    Realloc (ItemVal nullable (Val t)) :=
  arrayNewtypeR (memoryInR env S nullable t)

/-- `VecBuffer`, whose `For<T>` is `Vec<T>` (src/buffer.rs:94-97). -/
def Stores.vec : Stores where
  bytes := vecB byteMax 0#8
  offsets ow := vecB ow.lim 0
  values p := vecB p.lim 0#(8 * p.size)

end Narrow
