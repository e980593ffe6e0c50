import Verif.Model.UserArrays
import Verif.Spec.Backend

/-!
# Histories of arrays in storages written by users
-/

namespace Narrow.Spec

/-- What is true of the good states of the storages. -/
structure Goods (S : Stores) where
  bytes : S.bytes.C → Prop
  offsets : (ow : OffW) → (S.offsets ow).C → Prop
  values : (p : Prim) → (S.values p).C → Prop

/-- Every storage keeps the contract of C56; a new one for offsets accepts one offset. -/
structure Kept (S : Stores) (G : Goods S) : Prop where
  bytes : HonoursBuf S.bytes G.bytes
  offsets : ∀ ow, HonoursBuf (S.offsets ow) (G.offsets ow)
  first : ∀ ow, ((S.offsets ow).extend (S.offsets ow).empty [.item 0]).2 = .ok
  values : ∀ p, Honours (S.values p).toRealloc (G.values p) (S.values p).borrow

/-- The collection `c` was built by calls which on a plain list build `l`. -/
inductive BuiltBy {O : Type} (R : Realloc O) : R.C → List O → Prop
  /-- `Default::default()` -/
  | empty : BuiltBy R R.empty []
  /-- `with_capacity` -/
  | withCap {n c} : R.withCap n = .ok c → BuiltBy R c []
  /-- `try_with_capacity_in` -/
  | tryWithCap {w w' n c} : R.tryWithCap w n = (.ok c, w') → BuiltBy R c []
  /-- `collect` -/
  | fromIter {w w' c} {s : Src O} : s.Fused → R.fromIter w s = (.ok c, w') → BuiltBy R c s.items
  /-- `from_iter_in` -/
  | fromIterIn {w w' c} {s : Src O} : s.Fused → R.fromIterIn w s = (.ok c, w') → BuiltBy R c s.items
  /-- `try_from_iter_in` -/
  | tryFromIter {w w' c} {s : Src O} : s.Fused → R.tryFromIter w s = (.ok c, w') → BuiltBy R c s.items
  /-- `extend` -/
  | extend {c c' l} {s : Src O} : BuiltBy R c l → R.extend c s = (c', .ok) → BuiltBy R c' (l ++ s.items)
  /-- `try_extend` returning `Ok` -/
  | tryExtend {w w' c c' l} {s : Src O} : BuiltBy R c l → R.tryExtend w c s = (c', .ok, w') →
      BuiltBy R c' (l ++ s.items)
  /-- `try_extend` returning `Err` -/
  | tryExtendErr {w w' c c' l} {s : Src O} : BuiltBy R c l → R.tryExtend w c s = (c', .err, w') →
      BuiltBy R c' l
  /-- `reserve`, whether it returns or panics -/
  | reserve {c c' l n o} : BuiltBy R c l → R.reserve c n = (c', o) → BuiltBy R c' l
  /-- `try_reserve` -/
  | tryReserve {w w' c c' l n o} : BuiltBy R c l → R.tryReserve w c n = (c', o, w') → BuiltBy R c' l
  /-- `truncate` -/
  | truncate {c c' l n o} : BuiltBy R c l → R.truncate c n = (c', o) → BuiltBy R c' (l.take n)

/-- The composition of collections an array of item type `t` consists of. -/
def arrayComp (env : World) (S : Stores) (G : Goods S) :
    (nl : Bool) → (t : Ty) → t.WF → SComp (ItemVal nl (Val t)) :=
  fun nl t ht => opt nl (base t ht)
where
  /-- nullable or not -/
  opt {O : Type} (nl : Bool) (k : SComp O) : SComp (ItemVal nl O) :=
    match nl with
    | false => k
    | true => .validity env S.bytes G.bytes k
  /-- items that cannot be null -/
  base : (t : Ty) → t.WF → SComp (Val t)
    | .bool, _ => .bitmap S.bytes G.bytes
    | .prim p, _ => .leaf (S.values p).toRealloc (G.values p) (S.values p).borrow
    | .fsl n nl t, h => .flatten n h.1 (opt nl (base t h.2))
    | .vsl ow nl t, h => .offsets ow (S.offsets ow) (G.offsets ow) (opt nl (base t h))

end Narrow.Spec
