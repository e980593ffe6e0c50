import Verif.Model.Backend
import Verif.Spec.Reads
import Verif.Spec.Visible
import Verif.Spec.Rows
import Verif.Spec.Bits

/-!
# Collections and storages written by users

`Honours`: the contract of the traits `Collection`, `CollectionAllocIn` and
`CollectionRealloc`, which an implementation written outside of the library has to
keep. `HonoursBuf`: the contract of a storage with `Borrow` and `BorrowMut`.
`Survives`: what such an implementation promises if a caught panic is to leave it
usable. `SComp O` describes every composition of the library's layouts over such
collections and storages; `SBuilt k c l` says that calls produced the collection
`c`, and that the same calls on a plain list produce `l`.
-/

namespace Narrow.Spec

/-- The collection type `R` keeps the contract of the collection traits: values in
the states `Good` are what its safe functions produce, and `held c` are the items
of `c`. It may panic or report errors whenever it likes, as far as the signatures
allow it: fallible calls do not panic unless their source does. -/
structure Honours {α : Type} (R : Realloc α) (Good : R.C → Prop) (held : R.C → List α) : Prop where
  /-- every way of reading shows the items -/
  reads : ∀ {c}, Good c → Reads R.toColl c (held c)
  /-- lengths are `usize` -/
  size : ∀ {c}, Good c → (held c).length ≤ usizeMax
  empty : Good R.empty ∧ held R.empty = []
  withCap : ∀ {n c}, R.withCap n = .ok c → Good c ∧ held c = []
  /-- functions without a `Result` return no error -/
  withCapOnly : ∀ n, R.withCap n ≠ .err
  tryWithCap : ∀ {w w' n c}, R.tryWithCap w n = (.ok c, w') → Good c ∧ held c = []
  tryWithCapCalm : ∀ w n, (R.tryWithCap w n).1 ≠ .panic
  /-- constructors read their source up to the first `None` -/
  pulled : ∀ {β : Type} (s : Src β), R.pulled s = s.items
  fromIter : ∀ {w w' c} {s : Src α}, R.fromIter w s = (.ok c, w') →
    Good c ∧ held c = s.items ∧ s.panics = false
  fromIterOnly : ∀ w s, (R.fromIter w s).1 ≠ .err
  fromIterIn : ∀ {w w' c} {s : Src α}, R.fromIterIn w s = (.ok c, w') →
    Good c ∧ held c = s.items ∧ s.panics = false
  fromIterInOnly : ∀ w s, (R.fromIterIn w s).1 ≠ .err
  tryFromIter : ∀ {w w' c} {s : Src α}, R.tryFromIter w s = (.ok c, w') →
    Good c ∧ held c = s.items ∧ s.panics = false
  tryFromIterCalm : ∀ {w} {s : Src α}, s.panics = false → (R.tryFromIter w s).1 ≠ .panic
  extend : ∀ {c c'} {s : Src α}, Good c → R.extend c s = (c', .ok) →
    Good c' ∧ held c' = held c ++ s.items ∧ s.panics = false
  extendOnly : ∀ {c} (s : Src α), Good c → (R.extend c s).2 ≠ .err
  /-- growing reads its source up to the first `None` -/
  extendStops : ∀ c (s : Src α), R.extend c s = R.extend c s.fuse
  reserve : ∀ {c c' n o}, Good c → R.reserve c n = (c', o) →
    Good c' ∧ held c' = held c ∧ o ≠ .err
  tryReserve : ∀ {w w' c c' n o}, Good c → R.tryReserve w c n = (c', o, w') →
    Good c' ∧ held c' = held c ∧ o ≠ .panic
  tryExtend : ∀ {w w' c c'} {s : Src α}, Good c → R.tryExtend w c s = (c', .ok, w') →
    Good c' ∧ held c' = held c ++ s.items ∧ s.panics = false
  /-- a failed `try_extend` adds nothing -/
  tryExtendErr : ∀ {w w' c c'} {s : Src α}, Good c → R.tryExtend w c s = (c', .err, w') →
    Good c' ∧ held c' = held c
  tryExtendCalm : ∀ {w c} {s : Src α}, Good c → s.panics = false →
    (R.tryExtend w c s).2.1 ≠ .panic
  tryExtendStops : ∀ w c (s : Src α), R.tryExtend w c s = R.tryExtend w c s.fuse
  truncate : ∀ {c} n, Good c → ∃ c', R.truncate c n = (c', .ok) ∧ Good c' ∧
    held c' = (held c).take n

/-- The storage `B` keeps the contract of `Borrow` and `BorrowMut` as well: the
slice holds the items, it is at most `2^60` elements long, and values written into
the slice become the items. -/
structure HonoursBuf {α : Type} (B : Backing α) (Good : B.C → Prop) : Prop
    extends Honours B.toRealloc Good B.borrow where
  memory : ∀ {c}, Good c → (B.borrow c).length ≤ byteMax
  write : ∀ {c l}, Good c → l.length = (B.borrow c).length → Good (B.write c l) ∧
    B.borrow (B.write c l) = l

/-- A panic of a growing call leaves a collection of this type with its items and the
first few of the new ones, as `Vec` does. `Honours` says nothing about this. -/
structure Survives {α : Type} (R : Realloc α) (Good : R.C → Prop) (held : R.C → List α) : Prop where
  extend : ∀ {c c'} {s : Src α}, Good c → R.extend c s = (c', .panic) →
    Good c' ∧ ∃ n, held c' = held c ++ s.items.take n
  tryExtend : ∀ {w w' c c'} {s : Src α}, Good c → R.tryExtend w c s = (c', .panic, w') →
    Good c' ∧ ∃ n, held c' = held c ++ s.items.take n

/-- A composition of collection types, with items `O`. -/
inductive SComp : Type → Type 1
  /-- a collection type written by the user -/
  | leaf {α : Type} (R : Realloc α) (Good : R.C → Prop) (held : R.C → List α) : SComp α
  /-- `Bitmap<Storage>` -/
  | bitmap (B : Backing Byte) (Good : B.C → Prop) : SComp Bool
  /-- `Flatten<C, N>` for a positive `N` -/
  | flatten {O : Type} (n : Nat) (h : 0 < n) (k : SComp O) : SComp (FixArr O n)
  /-- `Validity<C, Storage>`; `env` is the allocator's answer to implicit
  allocations of a bitmap -/
  | validity {O : Type} (env : World) (B : Backing Byte) (Good : B.C → Prop) (k : SComp O) :
      SComp (Option O)
  /-- `Offsets<C, i32, Storage>` or `Offsets<C, i64, Storage>` -/
  | offsets {O : Type} (ow : OffW) (D : Backing Int) (Good : D.C → Prop) (k : SComp O) :
      SComp (List O)

/-- The operations of a composition. -/
@[reducible] def scompR : {O : Type} → SComp O → Realloc O
  | _, .leaf R _ _ => R
  | _, .bitmap B _ => bitmapBR B
  | _, .flatten n _ k => flattenR n (scompR k)
  | _, .validity env B _ k => validityBR env B (scompR k)
  | _, .offsets ow D _ k => offsetsBR ow D (scompR k)

/-- Every collection and storage of the composition keeps its contract. A new
storage for offsets also has to accept one offset. -/
def Sound : {O : Type} → SComp O → Prop
  | _, .leaf R Good held => Honours R Good held
  | _, .bitmap B Good => HonoursBuf B Good
  | _, .flatten _ _ k => Sound k
  | _, .validity _ B Good k => HonoursBuf B Good ∧ Sound k
  | _, .offsets _ D Good k =>
      HonoursBuf D Good ∧ (D.extend D.empty [.item 0]).2 = .ok ∧ Sound k

/-- Every collection and storage of the composition survives panics. -/
def Surviving : {O : Type} → SComp O → Prop
  | _, .leaf R Good held => Survives R Good held
  | _, .bitmap B Good => Survives B.toRealloc Good B.borrow
  | _, .flatten _ _ k => Surviving k
  | _, .validity _ B Good k => Survives B.toRealloc Good B.borrow ∧ Surviving k
  | _, .offsets _ D Good k => Survives D.toRealloc Good D.borrow ∧ Surviving k

/-- There is no `Flatten` in the composition. -/
def NoFlatten : {O : Type} → SComp O → Prop
  | _, .leaf _ _ _ => True
  | _, .bitmap _ _ => True
  | _, .flatten _ _ _ => False
  | _, .validity _ _ _ k => NoFlatten k
  | _, .offsets _ _ _ k => NoFlatten k

/-- The composition is a `Flatten`: its items are fixed-size lists that cannot be null. -/
def SGrouped {O : Type} : SComp O → Prop
  | .flatten _ _ _ => True
  | _ => False

/-- A `Flatten` occurs only inside of lists, if at all. -/
def FlattenInLists : {O : Type} → SComp O → Prop
  | _, .leaf _ _ _ => True
  | _, .bitmap _ _ => True
  | _, .flatten _ _ _ => False
  | _, .validity _ _ _ k => FlattenInLists k
  | _, .offsets _ _ _ _ => True

/-- A `Flatten` does not occur inside of lists. -/
def NoFlattenInLists : {O : Type} → SComp O → Prop
  | _, .leaf _ _ _ => True
  | _, .bitmap _ _ => True
  | _, .flatten _ _ k => NoFlattenInLists k
  | _, .validity _ _ _ k => NoFlattenInLists k
  | _, .offsets _ _ _ k => NoFlatten k

/-- Dropping the item `x` drops an item of every `Flatten` in the composition of which
a panic may have left a part. A null item may hide any item. -/
def SClears : {O : Type} → SComp O → O → Prop
  | _, .leaf _ _ _, _ => True
  | _, .bitmap _ _, _ => True
  | _, .flatten _ _ k, x => ∃ y ∈ x.val, SClears k y
  | _, .validity _ _ _ k, none => NoFlattenInLists k
  | _, .validity _ _ _ k, some x => SClears k x
  | _, .offsets _ _ _ k, x => NoFlatten k ∨ ∃ y ∈ x, SClears k y

/-- The collection `c` was built by calls which on a plain list build `l`. -/
inductive SBuilt : {O : Type} → (k : SComp O) → (scompR k).C → List O → Prop
  /-- `Default::default()` -/
  | empty {O} {k : SComp O} : SBuilt k (scompR k).empty []
  /-- `with_capacity` -/
  | withCap {O} {k : SComp O} {n c} : (scompR k).withCap n = .ok c → SBuilt k c []
  /-- `try_with_capacity_in` -/
  | tryWithCap {O} {k : SComp O} {w w' n c} : (scompR k).tryWithCap w n = (.ok c, w') → SBuilt k c []
  /-- `collect` -/
  | fromIter {O} {k : SComp O} {w w' c} {s : Src O} : s.Fused →
      (scompR k).fromIter w s = (.ok c, w') → SBuilt k c s.items
  /-- `from_iter_in` -/
  | fromIterIn {O} {k : SComp O} {w w' c} {s : Src O} : s.Fused →
      (scompR k).fromIterIn w s = (.ok c, w') → SBuilt k c s.items
  /-- `try_from_iter_in` -/
  | tryFromIter {O} {k : SComp O} {w w' c} {s : Src O} : s.Fused →
      (scompR k).tryFromIter w s = (.ok c, w') → SBuilt k c s.items
  /-- `extend` -/
  | extend {O} {k : SComp O} {c c' l} {s : Src O} : SBuilt k c l →
      (scompR k).extend c s = (c', .ok) → SBuilt k c' (l ++ s.items)
  /-- `try_extend` returning `Ok` -/
  | tryExtend {O} {k : SComp O} {w w' c c' l} {s : Src O} : SBuilt k c l →
      (scompR k).tryExtend w c s = (c', .ok, w') → SBuilt k c' (l ++ s.items)
  /-- `try_extend` returning `Err` -/
  | tryExtendErr {O} {k : SComp O} {w w' c c' l} {s : Src O} : SBuilt k c l →
      (scompR k).tryExtend w c s = (c', .err, w') → SBuilt k c' l
  /-- `reserve`, whether it returns or panics -/
  | reserve {O} {k : SComp O} {c c' l n o} : SBuilt k c l →
      (scompR k).reserve c n = (c', o) → SBuilt k c' l
  /-- `try_reserve` -/
  | tryReserve {O} {k : SComp O} {w w' c c' l n o} : SBuilt k c l →
      (scompR k).tryReserve w c n = (c', o, w') → SBuilt k c' l
  /-- `truncate` -/
  | truncate {O} {k : SComp O} {c c' l n o} : SBuilt k c l →
      (scompR k).truncate c n = (c', o) → SBuilt k c' (l.take n)
  /-- `extend` panicking: whatever `n` is such that the collection shows its items and
  the first `n` new ones -/
  | extendPanic {O} {k : SComp O} {c c' l n} {s : Src O} : NoFlatten k → Surviving k → SBuilt k c l →
      (scompR k).extend c s = (c', .panic) → Sees (scompR k).toColl c' (l ++ s.items.take n) →
      SBuilt k c' (l ++ s.items.take n)
  /-- `try_extend` panicking -/
  | tryExtendPanic {O} {k : SComp O} {w w' c c' l n} {s : Src O} : FlattenInLists k → Surviving k →
      SBuilt k c l → (scompR k).tryExtend w c s = (c', .panic, w') →
      Sees (scompR k).toColl c' (l ++ s.items.take n) → SBuilt k c' (l ++ s.items.take n)
  /-- `truncate` that drops a suitable item, after `extend` panicked -/
  | extendMend {O} {k : SComp O} {c c' c'' l n m o} {s : Src O} : Surviving k →
      SBuilt k c l → (scompR k).extend c s = (c', .panic) →
      Sees (scompR k).toColl c' (l ++ s.items.take n) →
      (∃ x ∈ (l ++ s.items.take n).drop m, SClears k x) →
      (scompR k).truncate c' m = (c'', o) → SBuilt k c'' ((l ++ s.items.take n).take m)
  /-- `truncate` to less than the length, after `try_extend` panicked -/
  | tryExtendMend {O} {k : SComp O} {w w' c c' c'' l n m o} {s : Src O} : Surviving k →
      SBuilt k c l → (scompR k).tryExtend w c s = (c', .panic, w') →
      Sees (scompR k).toColl c' (l ++ s.items.take n) → m < (l ++ s.items.take n).length →
      (scompR k).truncate c' m = (c'', o) → SBuilt k c'' ((l ++ s.items.take n).take m)
  /-- any value of the user's collection type -/
  | leaf {α} {R : Realloc α} {Good held c} : Good c → SBuilt (.leaf R Good held) c (held c)
  /-- `Bitmap::try_from_parts`, from any storage -/
  | bitmapParts {B : Backing Byte} {Good} {buffer : B.C} {bits offset b} : Good buffer →
      BitmapOf.tryFromParts B.toBuf buffer bits offset = .ok b →
      SBuilt (.bitmap B Good) b ((List.range bits).map fun i => bit (B.borrow buffer) (offset + i))
  /-- `Flatten::try_from_parts` -/
  | flattenParts {O} {k : SComp O} {n h c l f} {g : List (FixArr O n)} : SBuilt k c l →
      Flatten.tryFromParts (scompR k).toColl n c = .ok (.ok f) → Groups l g →
      SBuilt (.flatten n h k) f g
  /-- `Flatten::into_parts` -/
  | flattenChild {O} {k : SComp O} {n h} {f : Flatten (scompR k).C} {g : List (FixArr O n)} :
      SBuilt (.flatten n h k) f g → SBuilt k f.intoParts (g.flatMap Subtype.val)
  /-- `Validity::try_from_parts` -/
  | validityParts {O} {k : SComp O} {env : World} {B : Backing Byte} {Good} {c l}
      {b : BitmapOf B.C} {bs v} : SBuilt k c l → SBuilt (.bitmap B Good) b bs →
      ValidityOf.tryFromParts (bitmapBC B.toBuf) (scompR k).toColl c b = .ok (.ok v) →
      SBuilt (.validity env B Good k) v
        (List.zipWith (fun x valid => if valid then some x else none) l bs)
  /-- `Validity::from_collection` -/
  | fromCollection {O} {k : SComp O} {env : World} {B : Backing Byte} {Good} {c l} : SBuilt k c l →
      SBuilt (.validity env B Good k) (ValidityOf.fromCollection c) (l.map some)
  /-- `Offsets::try_from_parts`, from any storage of offsets -/
  | offsetsParts {O} {k : SComp O} {ow : OffW} {D : Backing Int} {Good} {c l f} {offsets : D.C} :
      SBuilt k c l → Good offsets →
      OffsetsIn.tryFromParts D.toBuf (scompR k).toColl c offsets = .ok (.ok f) →
      SBuilt (.offsets ow D Good k) f (rowsOf l (D.borrow offsets))

end Narrow.Spec
