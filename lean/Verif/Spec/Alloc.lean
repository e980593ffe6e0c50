import Verif.Model.Alloc
import Verif.Spec.Backend

/-!
# Allocators

`Keeps d R`: the collection type `R` allocates where it is told to. `AComp` are the
compositions of `SComp` over collections and storages with allocators of type `A`.
`places d k c` are the allocators of the storages and user collections in `c`.
`AMade` and `ABuilt` are the histories of calls: `AMade d P k c` says that calls
produced `c`, whatever their outcomes, and that every allocator handed to them, and
every allocator of a storage handed to them, satisfies `P`; `ABuilt d k c l` says
that calls that returned produced `c`, and produce `l` on a plain list. Throughout,
`d` is the default allocator.
-/

namespace Narrow.Spec

variable {A : Type}

/-- What a constructor returns is in the allocator that it was given, in the default
one if it was given none, and no other call changes that. -/
structure Keeps {α : Type} (d : A) (R : AllocR A α) : Prop where
  empty : R.allocator R.empty = d
  fromIter : ∀ {w w' s c}, R.fromIter w s = (.ok c, w') → R.allocator c = d
  withCapIn : ∀ {a n c}, R.withCapIn a n = .ok c → R.allocator c = a
  fromIterIn : ∀ {a w w' s c}, R.fromIterIn a w s = (.ok c, w') → R.allocator c = a
  tryWithCapIn : ∀ {a w w' n c}, R.tryWithCapIn a w n = (.ok c, w') → R.allocator c = a
  tryFromIterIn : ∀ {a w w' s c}, R.tryFromIterIn a w s = (.ok c, w') → R.allocator c = a
  extend : ∀ c s, R.allocator (R.extend c s).1 = R.allocator c
  reserve : ∀ c n, R.allocator (R.reserve c n).1 = R.allocator c
  tryReserve : ∀ w c n, R.allocator (R.tryReserve w c n).1 = R.allocator c
  tryExtend : ∀ w c s, R.allocator (R.tryExtend w c s).1 = R.allocator c
  truncate : ∀ c n, R.allocator (R.truncate c n).1 = R.allocator c

/-- Neither does writing into the slice. -/
structure KeepsBuf {α : Type} (d : A) (B : AllocB A α) : Prop extends Keeps d B.toAllocR where
  write : ∀ c l, B.allocator (B.write c l) = B.allocator c

/-- A composition of collection types with allocators in `A` and items `O`. -/
inductive AComp (A : Type) : Type → Type 1
  /-- a collection type written by the user -/
  | leaf {α : Type} (R : AllocR A α) (Good : R.C → Prop) (held : R.C → List α) : AComp A α
  /-- `Bitmap<Storage>` -/
  | bitmap (B : AllocB A Byte) (Good : B.C → Prop) : AComp A Bool
  /-- `Flatten<C, N>` for a positive `N` -/
  | flatten {O : Type} (n : Nat) (h : 0 < n) (k : AComp A O) : AComp A (FixArr O n)
  /-- `Validity<C, Storage>` -/
  | validity {O : Type} (env : World) (B : AllocB A Byte) (Good : B.C → Prop) (k : AComp A O) :
      AComp A (Option O)
  /-- `Offsets<C, i32, Storage>` or `Offsets<C, i64, Storage>` -/
  | offsets {O : Type} (ow : OffW) (D : AllocB A Int) (Good : D.C → Prop) (k : AComp A O) :
      AComp A (List O)
  /-- `Array` or a layout around a collection -/
  | newtype {O : Type} (k : AComp A O) : AComp A O

/-- The operations of a composition. -/
@[reducible] def acompR (d : A) : {O : Type} → AComp A O → AllocR A O
  | _, .leaf R _ _ => R
  | _, .bitmap B _ => bitmapA d B
  | _, .flatten n _ k => flattenA d n (acompR d k)
  | _, .validity env B _ k => validityA d env B (acompR d k)
  | _, .offsets ow D _ k => offsetsA d ow D (acompR d k)
  | _, .newtype k => newtypeA (acompR d k)

/-- Every collection and storage of the composition keeps its contract, in every
allocator, and stays in its allocator. -/
def ASound (d : A) : {O : Type} → AComp A O → Prop
  | _, .leaf R Good held => (∀ a, Honours (R.given a) Good held) ∧ Keeps d R
  | _, .bitmap B Good => (∀ a, HonoursBuf (B.given a) Good) ∧ KeepsBuf d B
  | _, .flatten _ _ k => ASound d k
  | _, .validity _ B Good k => (∀ a, HonoursBuf (B.given a) Good) ∧ KeepsBuf d B ∧ ASound d k
  | _, .offsets _ D Good k => (∀ a, HonoursBuf (D.given a) Good) ∧ KeepsBuf d D ∧
      (D.extend D.empty [.item 0]).2 = .ok ∧ ASound d k
  | _, .newtype k => ASound d k

/-- The allocators of the user collections and storages in `c`, from the inside out. A
bitmap that does not exist yet counts as if it were next to the first of them. -/
def places (d : A) : {O : Type} → (k : AComp A O) → (acompR d k).C → List A
  | _, .leaf R _ _, c => [R.allocator c]
  | _, .bitmap B _, b => [B.allocator b.buffer]
  | _, .flatten _ _ k, c => places d k c.child
  | _, .validity _ B _ k, v => places d k v.coll ++
      match v.bitmap with
      | some b => [B.allocator b.buffer]
      | none => (places d k v.coll).take 1
  | _, .offsets _ D _ k, c => places d k c.data ++ [D.allocator c.offsets]
  | _, .newtype k, c => places d k c

/-- Calls produced the collection `c`. They were given allocators satisfying `P`, and
storages with such allocators. -/
inductive AMade (d : A) (P : A → Prop) : {O : Type} → (k : AComp A O) → (acompR d k).C → Prop
  /-- `Default::default()` -/
  | empty {O} {k : AComp A O} : P d → AMade d P k (acompR d k).empty
  /-- `collect` -/
  | fromIter {O} {k : AComp A O} {w w' c} {s : Src O} : P d →
      (acompR d k).fromIter w s = (.ok c, w') → AMade d P k c
  /-- `with_capacity` -/
  | withCapacity {O} {k : AComp A O} {n c} : P d →
      (acompR d k).withCapacity d n = .ok c → AMade d P k c
  /-- `with_capacity_in` -/
  | withCapIn {O} {k : AComp A O} {a n c} : P a → (acompR d k).withCapIn a n = .ok c → AMade d P k c
  /-- `from_iter_in` -/
  | fromIterIn {O} {k : AComp A O} {a w w' c} {s : Src O} : P a →
      (acompR d k).fromIterIn a w s = (.ok c, w') → AMade d P k c
  /-- `try_with_capacity_in` -/
  | tryWithCapIn {O} {k : AComp A O} {a w w' n c} : P a →
      (acompR d k).tryWithCapIn a w n = (.ok c, w') → AMade d P k c
  /-- `try_from_iter_in` -/
  | tryFromIterIn {O} {k : AComp A O} {a w w' c} {s : Src O} : P a →
      (acompR d k).tryFromIterIn a w s = (.ok c, w') → AMade d P k c
  /-- `extend`, whether it returns or panics -/
  | extend {O} {k : AComp A O} {c c' o} {s : Src O} : AMade d P k c →
      (acompR d k).extend c s = (c', o) → AMade d P k c'
  /-- `reserve`, whether it returns or panics -/
  | reserve {O} {k : AComp A O} {c c' n o} : AMade d P k c →
      (acompR d k).reserve c n = (c', o) → AMade d P k c'
  /-- `try_reserve` -/
  | tryReserve {O} {k : AComp A O} {w w' c c' n o} : AMade d P k c →
      (acompR d k).tryReserve w c n = (c', o, w') → AMade d P k c'
  /-- `try_extend`, whatever its outcome -/
  | tryExtend {O} {k : AComp A O} {w w' c c' o} {s : Src O} : AMade d P k c →
      (acompR d k).tryExtend w c s = (c', o, w') → AMade d P k c'
  /-- `truncate` -/
  | truncate {O} {k : AComp A O} {c c' n o} : AMade d P k c →
      (acompR d k).truncate c n = (c', o) → AMade d P k c'
  /-- any value of the user's collection type -/
  | leaf {α} {R : AllocR A α} {Good held c} : P (R.allocator c) → AMade d P (.leaf R Good held) c
  /-- `Bitmap::try_from_parts` -/
  | bitmapParts {B : AllocB A Byte} {Good} {buffer : B.C} {bits offset b} : P (B.allocator buffer) →
      BitmapOf.tryFromParts B.toBuf buffer bits offset = .ok b → AMade d P (.bitmap B Good) b
  /-- `Flatten::try_from_parts` -/
  | flattenParts {O} {k : AComp A O} {n h c f} : AMade d P k c →
      Flatten.tryFromParts (acompR d k).toColl n c = .ok (.ok f) → AMade d P (.flatten n h k) f
  /-- `Flatten::into_parts` -/
  | flattenChild {O} {k : AComp A O} {n h} {f : Flatten (acompR d k).C} :
      AMade d P (.flatten n h k) f → AMade d P k f.intoParts
  /-- `Validity::try_from_parts` -/
  | validityParts {O} {k : AComp A O} {env : World} {B : AllocB A Byte} {Good} {c}
      {b : BitmapOf B.C} {v} : AMade d P k c → AMade d P (.bitmap B Good) b →
      ValidityOf.tryFromParts (bitmapBC B.toBuf) (acompR d k).toColl c b = .ok (.ok v) →
      AMade d P (.validity env B Good k) v
  /-- `Validity::from_collection` -/
  | fromCollection {O} {k : AComp A O} {env : World} {B : AllocB A Byte} {Good} {c} : AMade d P k c →
      AMade d P (.validity env B Good k) (ValidityOf.fromCollection c)
  /-- `Offsets::try_from_parts` -/
  | offsetsParts {O} {k : AComp A O} {ow : OffW} {D : AllocB A Int} {Good} {c f} {offsets : D.C} :
      AMade d P k c → P (D.allocator offsets) →
      OffsetsIn.tryFromParts D.toBuf (acompR d k).toColl c offsets = .ok (.ok f) →
      AMade d P (.offsets ow D Good k) f
  /-- `from_buffer` of a newtype -/
  | fromBuffer {O} {k : AComp A O} {c : (acompR d k).C} : AMade d P k c →
      AMade d P (.newtype k) (Array.fromBuffer c)
  /-- `into_buffer` of a newtype -/
  | intoBuffer {O} {k : AComp A O} {c : (acompR d k).C} : AMade d P (.newtype k) c →
      AMade d P k (Array.intoBuffer c)

/-- The collection `c` was built by calls which on a plain list build `l`. -/
inductive ABuilt (d : A) : {O : Type} → (k : AComp A O) → (acompR d k).C → List O → Prop
  /-- `Default::default()` -/
  | empty {O} {k : AComp A O} : ABuilt d k (acompR d k).empty []
  /-- `collect` -/
  | fromIter {O} {k : AComp A O} {w w' c} {s : Src O} : s.Fused →
      (acompR d k).fromIter w s = (.ok c, w') → ABuilt d k c s.items
  /-- `with_capacity_in` -/
  | withCapIn {O} {k : AComp A O} {a n c} : (acompR d k).withCapIn a n = .ok c → ABuilt d k c []
  /-- `from_iter_in` -/
  | fromIterIn {O} {k : AComp A O} {a w w' c} {s : Src O} : s.Fused →
      (acompR d k).fromIterIn a w s = (.ok c, w') → ABuilt d k c s.items
  /-- `try_with_capacity_in` -/
  | tryWithCapIn {O} {k : AComp A O} {a w w' n c} :
      (acompR d k).tryWithCapIn a w n = (.ok c, w') → ABuilt d k c []
  /-- `try_from_iter_in` -/
  | tryFromIterIn {O} {k : AComp A O} {a w w' c} {s : Src O} : s.Fused →
      (acompR d k).tryFromIterIn a w s = (.ok c, w') → ABuilt d k c s.items
  /-- `extend` -/
  | extend {O} {k : AComp A O} {c c' l} {s : Src O} : ABuilt d k c l →
      (acompR d k).extend c s = (c', .ok) → ABuilt d k c' (l ++ s.items)
  /-- `try_extend` returning `Ok` -/
  | tryExtend {O} {k : AComp A O} {w w' c c' l} {s : Src O} : ABuilt d k c l →
      (acompR d k).tryExtend w c s = (c', .ok, w') → ABuilt d k c' (l ++ s.items)
  /-- `try_extend` returning `Err` -/
  | tryExtendErr {O} {k : AComp A O} {w w' c c' l} {s : Src O} : ABuilt d k c l →
      (acompR d k).tryExtend w c s = (c', .err, w') → ABuilt d k c' l
  /-- `reserve`, whether it returns or panics -/
  | reserve {O} {k : AComp A O} {c c' l n o} : ABuilt d k c l →
      (acompR d k).reserve c n = (c', o) → ABuilt d k c' l
  /-- `try_reserve` -/
  | tryReserve {O} {k : AComp A O} {w w' c c' l n o} : ABuilt d k c l →
      (acompR d k).tryReserve w c n = (c', o, w') → ABuilt d k c' l
  /-- `truncate` -/
  | truncate {O} {k : AComp A O} {c c' l n o} : ABuilt d k c l →
      (acompR d k).truncate c n = (c', o) → ABuilt d k c' (l.take n)
  /-- any value of the user's collection type -/
  | leaf {α} {R : AllocR A α} {Good held c} : Good c → ABuilt d (.leaf R Good held) c (held c)
  /-- `Bitmap::try_from_parts`, from any storage -/
  | bitmapParts {B : AllocB A Byte} {Good} {buffer : B.C} {bits offset b} : Good buffer →
      BitmapOf.tryFromParts B.toBuf buffer bits offset = .ok b →
      ABuilt d (.bitmap B Good) b ((List.range bits).map fun i => bit (B.borrow buffer) (offset + i))
  /-- `Flatten::try_from_parts` -/
  | flattenParts {O} {k : AComp A O} {n h c l f} {g : List (FixArr O n)} : ABuilt d k c l →
      Flatten.tryFromParts (acompR d k).toColl n c = .ok (.ok f) → Groups l g →
      ABuilt d (.flatten n h k) f g
  /-- `Flatten::into_parts` -/
  | flattenChild {O} {k : AComp A O} {n h} {f : Flatten (acompR d k).C} {g : List (FixArr O n)} :
      ABuilt d (.flatten n h k) f g → ABuilt d k f.intoParts (g.flatMap Subtype.val)
  /-- `Validity::try_from_parts` -/
  | validityParts {O} {k : AComp A O} {env : World} {B : AllocB A Byte} {Good} {c l}
      {b : BitmapOf B.C} {bs v} : ABuilt d k c l → ABuilt d (.bitmap B Good) b bs →
      ValidityOf.tryFromParts (bitmapBC B.toBuf) (acompR d k).toColl c b = .ok (.ok v) →
      ABuilt d (.validity env B Good k) v
        (List.zipWith (fun x valid => if valid then some x else none) l bs)
  /-- `Validity::from_collection` -/
  | fromCollection {O} {k : AComp A O} {env : World} {B : AllocB A Byte} {Good} {c l} : ABuilt d k c l →
      ABuilt d (.validity env B Good k) (ValidityOf.fromCollection c) (l.map some)
  /-- `Offsets::try_from_parts`, from any storage of offsets -/
  | offsetsParts {O} {k : AComp A O} {ow : OffW} {D : AllocB A Int} {Good} {c l f} {offsets : D.C} :
      ABuilt d k c l → Good offsets →
      OffsetsIn.tryFromParts D.toBuf (acompR d k).toColl c offsets = .ok (.ok f) →
      ABuilt d (.offsets ow D Good k) f (rowsOf l (D.borrow offsets))
  /-- `from_buffer` of a newtype -/
  | fromBuffer {O} {k : AComp A O} {c : (acompR d k).C} {l} : ABuilt d k c l →
      ABuilt d (.newtype k) (Array.fromBuffer c) l
  /-- `into_buffer` of a newtype -/
  | intoBuffer {O} {k : AComp A O} {c : (acompR d k).C} {l} : ABuilt d (.newtype k) c l →
      ABuilt d k (Array.intoBuffer c) l

/-- The composition of `Spec/Backend` without allocators, if `()` is the only
one. -/
def AComp.erase : {O : Type} → AComp Unit O → SComp O
  | _, .leaf R Good held => .leaf (R.given ()) Good held
  | _, .bitmap B Good => .bitmap (B.given ()) Good
  | _, .flatten n h k => .flatten n h k.erase
  | _, .validity env B Good k => .validity env (B.given ()) Good k.erase
  | _, .offsets ow D Good k => .offsets ow (D.given ()) Good k.erase
  | _, .newtype k => k.erase

end Narrow.Spec
