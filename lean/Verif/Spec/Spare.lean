import Verif.Spec.Backend
import Verif.Spec.Env

/-!
# Room in collections and storages written by users

`Holds R Good held cap`: the collection type `R` takes up to `cap` items, whatever
they are. `Vec` does with its allocation limit, an array of `N` slots with `N`.
`Caps k` is such a number for every collection and storage of the composition `k`.
`Room k caps l` says that the items `l` fit into these numbers, `Spare k caps n l`
that a reservation for `n` more items fits beside the items `l`. `SGrown k c l` says
that `c` was built by calls that only add items, or drop them where no bitmap is
involved.
-/

namespace Narrow.Spec

/-- The allocator refuses nothing, and size hints do not exaggerate. -/
def Kind (w : World) : Prop := Generous w.oracle ∧ TightHints w.oracle

/-- The collection type `R` takes up to `cap` items: as long as there are no more,
infallible calls return and fallible calls succeed if the allocator does not refuse. -/
structure Holds {α : Type} (R : Realloc α) (Good : R.C → Prop) (held : R.C → List α) (cap : Nat) :
    Prop where
  /-- capacities are `usize` -/
  size : cap ≤ usizeMax
  withCap : ∀ {n}, n ≤ cap → R.withCap n ≠ .panic
  fromIter : ∀ {w} {s : Src α}, TightHints w.oracle → s.Fused → s.panics = false →
    s.items.length ≤ cap → (R.fromIter w s).1 ≠ .panic
  fromIterIn : ∀ {w} {s : Src α}, TightHints w.oracle → s.Fused → s.panics = false →
    s.items.length ≤ cap → (R.fromIterIn w s).1 ≠ .panic
  extend : ∀ {c} {s : Src α}, Good c → s.panics = false →
    (held c).length + s.items.length ≤ cap → (R.extend c s).2 = .ok
  reserve : ∀ {c n}, Good c → (held c).length + n ≤ cap → (R.reserve c n).2 = .ok
  tryWithCap : ∀ {w n}, Kind w → n ≤ cap → ∃ c w', R.tryWithCap w n = (.ok c, w') ∧ Kind w'
  tryFromIter : ∀ {w} {s : Src α}, Kind w → s.Fused → s.panics = false → s.items.length ≤ cap →
    ∃ c w', R.tryFromIter w s = (.ok c, w') ∧ Kind w'
  tryExtend : ∀ {w c} {s : Src α}, Kind w → Good c → s.panics = false →
    (held c).length + s.items.length ≤ cap → ∃ c' w', R.tryExtend w c s = (c', .ok, w') ∧ Kind w'
  tryReserve : ∀ {w c n}, Kind w → Good c → (held c).length + n ≤ cap →
    ∃ c' w', R.tryReserve w c n = (c', .ok, w') ∧ Kind w'

/-- A number of items for every collection and storage of a composition. -/
@[reducible] def Caps : {O : Type} → SComp O → Type
  | _, .leaf _ _ _ => Nat
  | _, .bitmap _ _ => Nat
  | _, .flatten _ _ k => Caps k
  | _, .validity _ _ _ k => Nat × Caps k
  | _, .offsets _ _ _ k => Nat × Caps k

/-- Every collection and storage takes its number of items. Implicit allocations of a
bitmap see size hints that do not exaggerate. -/
def Accepts : {O : Type} → (k : SComp O) → Caps k → Prop
  | _, .leaf R Good held, cap => Holds R Good held cap
  | _, .bitmap B Good, cap => Holds B.toRealloc Good B.borrow cap
  | _, .flatten _ _ k, caps => Accepts k caps
  | _, .validity env B Good k, caps =>
      Holds B.toRealloc Good B.borrow caps.1 ∧ TightHints env.oracle ∧ Accepts k caps.2
  | _, .offsets _ D Good k, caps => Holds D.toRealloc Good D.borrow caps.1 ∧ Accepts k caps.2

/-- Space for `n` more items can be reserved beside the items `l`. A bitmap takes
eight items per byte. Reserving for lists reserves as many child items. -/
def Spare : {O : Type} → (k : SComp O) → Caps k → Nat → List O → Prop
  | _, .leaf _ _ _, cap, n, l => l.length + n ≤ cap
  | _, .bitmap _ _, cap, n, l => l.length + n ≤ 8 * cap
  | _, .flatten m _ k, caps, n, l => Spare k caps (n * m) (l.flatMap Subtype.val)
  | _, .validity _ _ _ k, caps, n, l =>
      l.length + n ≤ 8 * caps.1 ∧ Spare k caps.2 n (l.map (·.getD (scompR k).dflt))
  | _, .offsets _ _ _ k, caps, n, l =>
      l.length + 1 + n ≤ caps.1 ∧ Spare k caps.2 n l.flatten

/-- The items `l` fit. Null items take the space of a default item. Lists need one
offset more than there are lists, and the total length of the lists has to fit the
offset type. Before a list is added, space for its items is reserved. -/
def Room : {O : Type} → (k : SComp O) → Caps k → List O → Prop
  | _, .leaf _ _ _, cap, l => l.length ≤ cap
  | _, .bitmap _ _, cap, l => l.length ≤ 8 * cap
  | _, .flatten _ _ k, caps, l => Room k caps (l.flatMap Subtype.val)
  | _, .validity _ _ _ k, caps, l =>
      l.length ≤ 8 * caps.1 ∧ Room k caps.2 (l.map (·.getD (scompR k).dflt))
  | _, .offsets ow _ _ k, caps, l =>
      l.length + 1 ≤ caps.1 ∧ l.flatten.length ≤ ow.max ∧ Room k caps.2 l.flatten ∧
        ∀ (before : List (List _)) (x : List _) (after : List (List _)), l = before ++ x :: after →
          Spare k caps.2 x.length before.flatten

/-- There is neither a bitmap nor a `Validity` in the composition. -/
def NoBits : {O : Type} → SComp O → Prop
  | _, .leaf _ _ _ => True
  | _, .bitmap _ _ => False
  | _, .flatten _ _ k => NoBits k
  | _, .validity _ _ _ _ => False
  | _, .offsets _ _ _ k => NoBits k

/-- There are no lists in the composition. -/
def NoLists : {O : Type} → SComp O → Prop
  | _, .leaf _ _ _ => True
  | _, .bitmap _ _ => True
  | _, .flatten _ _ k => NoLists k
  | _, .validity _ _ _ k => NoLists k
  | _, .offsets _ _ _ _ => False

/-- The collection `c` was built by calls which on a plain list build `l`. They add
items; they drop items only if there is no bitmap, because a bitmap keeps the bytes
of items that are dropped. -/
inductive SGrown : {O : Type} → (k : SComp O) → (scompR k).C → List O → Prop
  /-- `Default::default()` -/
  | empty {O} {k : SComp O} : SGrown k (scompR k).empty []
  /-- `with_capacity` -/
  | withCap {O} {k : SComp O} {n c} : (scompR k).withCap n = .ok c → SGrown k c []
  /-- `try_with_capacity_in` -/
  | tryWithCap {O} {k : SComp O} {w w' n c} : (scompR k).tryWithCap w n = (.ok c, w') → SGrown k c []
  /-- `collect` -/
  | fromIter {O} {k : SComp O} {w w' c} {s : Src O} : s.Fused →
      (scompR k).fromIter w s = (.ok c, w') → SGrown k c s.items
  /-- `from_iter_in` -/
  | fromIterIn {O} {k : SComp O} {w w' c} {s : Src O} : s.Fused →
      (scompR k).fromIterIn w s = (.ok c, w') → SGrown k c s.items
  /-- `try_from_iter_in` -/
  | tryFromIter {O} {k : SComp O} {w w' c} {s : Src O} : s.Fused →
      (scompR k).tryFromIter w s = (.ok c, w') → SGrown k c s.items
  /-- `extend` -/
  | extend {O} {k : SComp O} {c c' l} {s : Src O} : SGrown k c l →
      (scompR k).extend c s = (c', .ok) → SGrown k c' (l ++ s.items)
  /-- `try_extend` -/
  | tryExtend {O} {k : SComp O} {w w' c c' l} {s : Src O} : SGrown k c l →
      (scompR k).tryExtend w c s = (c', .ok, w') → SGrown k c' (l ++ s.items)
  /-- `reserve`, whether it returns or panics -/
  | reserve {O} {k : SComp O} {c c' l n o} : SGrown k c l →
      (scompR k).reserve c n = (c', o) → SGrown k c' l
  /-- `try_reserve` -/
  | tryReserve {O} {k : SComp O} {w w' c c' l n o} : SGrown k c l →
      (scompR k).tryReserve w c n = (c', o, w') → SGrown k c' l
  /-- `truncate` -/
  | truncate {O} {k : SComp O} {c c' l n o} : NoBits k → SGrown k c l →
      (scompR k).truncate c n = (c', o) → SGrown k c' (l.take n)
  /-- `try_extend` returning `Err` -/
  | tryExtendErr {O} {k : SComp O} {w w' c c' l} {s : Src O} : NoBits k → SGrown k c l →
      (scompR k).tryExtend w c s = (c', .err, w') → SGrown k c' l
  /-- any value of the user's collection type -/
  | leaf {α} {R : Realloc α} {Good held c} : Good c → SGrown (.leaf R Good held) c (held c)
  /-- `Flatten::try_from_parts` -/
  | flattenParts {O} {k : SComp O} {n h c l f} {g : List (FixArr O n)} : SGrown k c l →
      Flatten.tryFromParts (scompR k).toColl n c = .ok (.ok f) → Groups l g →
      SGrown (.flatten n h k) f g
  /-- `Flatten::into_parts` -/
  | flattenChild {O} {k : SComp O} {n h} {f : Flatten (scompR k).C} {g : List (FixArr O n)} :
      SGrown (.flatten n h k) f g → SGrown k f.intoParts (g.flatMap Subtype.val)
  /-- `Validity::from_collection` -/
  | fromCollection {O} {k : SComp O} {env : World} {B : Backing Byte} {Good} {c l} : SGrown k c l →
      SGrown (.validity env B Good k) (ValidityOf.fromCollection c) (l.map some)

end Narrow.Spec
