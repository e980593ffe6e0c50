import Verif.Spec.Backend
import Verif.Spec.Compose
import Verif.Model.Boxed

/-!
# One collection type doing what another does

`Same R R' f`: with `f` turning collections of the first type into the second, all
calls of `R'` do what those of `R` do. `asStored k` is the composition `k` with every
`Vec` buffer written as a storage of the user.
-/

namespace Narrow.Spec

/-- Every growing call does the same on both sides, panics, errors, capacities and
requests to the allocator included. -/
structure Same {O : Type} (R R' : Realloc O) (f : R.C → R'.C) : Prop where
  len : ∀ c, R'.len (f c) = R.len c
  dflt : R'.dflt = R.dflt
  empty : R'.empty = f R.empty
  pulled : ∀ {α : Type} (s : Src α), R'.pulled s = R.pulled s
  withCap : ∀ n, R'.withCap n = (R.withCap n).mapOk f
  tryWithCap : ∀ w n, R'.tryWithCap w n = ((R.tryWithCap w n).1.mapOk f, (R.tryWithCap w n).2)
  fromIter : ∀ w s, R'.fromIter w s = ((R.fromIter w s).1.mapOk f, (R.fromIter w s).2)
  fromIterIn : ∀ w s, R'.fromIterIn w s = ((R.fromIterIn w s).1.mapOk f, (R.fromIterIn w s).2)
  tryFromIter : ∀ w s, R'.tryFromIter w s = ((R.tryFromIter w s).1.mapOk f, (R.tryFromIter w s).2)
  extend : ∀ c s, R'.extend (f c) s = (f (R.extend c s).1, (R.extend c s).2)
  reserve : ∀ c n, R'.reserve (f c) n = (f (R.reserve c n).1, (R.reserve c n).2)
  tryReserve : ∀ w c n, R'.tryReserve w (f c) n = (f (R.tryReserve w c n).1, (R.tryReserve w c n).2)
  tryExtend : ∀ w c s, R'.tryExtend w (f c) s = (f (R.tryExtend w c s).1, (R.tryExtend w c s).2)
  truncate : ∀ c n, R'.truncate (f c) n = (f (R.truncate c n).1, (R.truncate c n).2)

/-- The composition with its buffers as storages. -/
@[reducible] def asStored (env : World) : {O : Type} → Comp O → SComp O
  | _, .vec lim _ d => .leaf (vecR lim d) (RVec.WF lim) RVec.items
  | _, .bitmap => .bitmap (vecB byteMax 0#8) (RVec.WF byteMax)
  | _, .flatten n h k => .flatten n h (asStored env k)
  | _, .validity k => .validity env (vecB byteMax 0#8) (RVec.WF byteMax) (asStored env k)
  | _, .offsets ow k => .offsets ow (vecB ow.lim 0) (RVec.WF ow.lim) (asStored env k)

/-- The same bitmap. -/
@[reducible] def storeBits (b : Bitmap) : BitmapOf (RVec Byte) := ⟨b.buffer, b.bits, b.offset⟩

/-- The same collection. -/
def store (env : World) : {O : Type} → (k : Comp O) → (compR k).C → (scompR (asStored env k)).C
  | _, .vec _ _ _, c => c
  | _, .bitmap, b => storeBits b
  | _, .flatten _ _ k, c => ⟨store env k c.child⟩
  | _, .validity k, v => ⟨store env k v.coll, v.bitmap.map storeBits⟩
  | _, .offsets _ k, c => ⟨store env k c.data, c.offsets⟩

end Narrow.Spec
