import Verif.Spec.Spare

/-!
# Refilling collections in storages written by users

`Fitting k caps l` says that the items `l` fit into the numbers `caps` of the collections
and storages of the composition `k`, if nothing is reserved beforehand. `Limits k caps`
says that they never hold more than these numbers.
`SReused k c l` says that `c` was built by calls that add or drop items and returned.
-/

namespace Narrow.Spec

/-- The items `l` fit. Null items take the space of a default item, a bitmap takes
eight items per byte. Lists need one offset more than there are lists, and the total
length of the lists has to fit the offset type. -/
def Fitting : {O : Type} → (k : SComp O) → Caps k → List O → Prop
  | _, .leaf _ _ _, cap, l => l.length ≤ cap
  | _, .bitmap _ _, cap, l => l.length ≤ 8 * cap
  | _, .flatten _ _ k, caps, l => Fitting k caps (l.flatMap Subtype.val)
  | _, .validity _ _ _ k, caps, l =>
      l.length ≤ 8 * caps.1 ∧ Fitting k caps.2 (l.map (·.getD (scompR k).dflt))
  | _, .offsets ow _ _ k, caps, l =>
      l.length + 1 ≤ caps.1 ∧ l.flatten.length ≤ ow.max ∧ Fitting k caps.2 l.flatten

/-- No collection or storage holds more than its number of items or bytes. -/
def Limits : {O : Type} → (k : SComp O) → Caps k → Prop
  | _, .leaf _ Good held, cap => ∀ c, Good c → (held c).length ≤ cap
  | _, .bitmap B Good, cap => ∀ c, Good c → (B.borrow c).length ≤ cap
  | _, .flatten _ _ k, caps => Limits k caps
  | _, .validity _ B Good k, caps =>
      (∀ c, Good c → (B.borrow c).length ≤ caps.1) ∧ Limits k caps.2
  | _, .offsets _ D Good k, caps =>
      (∀ c, Good c → (D.borrow c).length ≤ caps.1) ∧ Limits k caps.2

/-- The collection `c` was built by calls which on a plain list build `l`: calls that
returned, and reservations whether they returned or panicked. Items may have been dropped,
and calls may have failed. Bitmaps begin at the first bit of their storage. -/
inductive SReused : {O : Type} → (k : SComp O) → (scompR k).C → List O → Prop
  /-- `Default::default()` -/
  | empty {O} {k : SComp O} : SReused k (scompR k).empty []
  /-- `with_capacity` -/
  | withCap {O} {k : SComp O} {n c} : (scompR k).withCap n = .ok c → SReused k c []
  /-- `try_with_capacity_in` -/
  | tryWithCap {O} {k : SComp O} {w w' n c} :
      (scompR k).tryWithCap w n = (.ok c, w') → SReused k c []
  /-- `collect` -/
  | fromIter {O} {k : SComp O} {w w' c} {s : Src O} : s.Fused →
      (scompR k).fromIter w s = (.ok c, w') → SReused k c s.items
  /-- `from_iter_in` -/
  | fromIterIn {O} {k : SComp O} {w w' c} {s : Src O} : s.Fused →
      (scompR k).fromIterIn w s = (.ok c, w') → SReused k c s.items
  /-- `try_from_iter_in` -/
  | tryFromIter {O} {k : SComp O} {w w' c} {s : Src O} : s.Fused →
      (scompR k).tryFromIter w s = (.ok c, w') → SReused k c s.items
  /-- `extend` -/
  | extend {O} {k : SComp O} {c c' l} {s : Src O} : SReused k c l →
      (scompR k).extend c s = (c', .ok) → SReused k c' (l ++ s.items)
  /-- `try_extend` returning `Ok` -/
  | tryExtend {O} {k : SComp O} {w w' c c' l} {s : Src O} : SReused k c l →
      (scompR k).tryExtend w c s = (c', .ok, w') → SReused k c' (l ++ s.items)
  /-- `try_extend` returning `Err` -/
  | tryExtendErr {O} {k : SComp O} {w w' c c' l} {s : Src O} : SReused k c l →
      (scompR k).tryExtend w c s = (c', .err, w') → SReused k c' l
  /-- `reserve`, whether it returns or panics -/
  | reserve {O} {k : SComp O} {c c' l n o} : SReused k c l →
      (scompR k).reserve c n = (c', o) → SReused k c' l
  /-- `try_reserve` -/
  | tryReserve {O} {k : SComp O} {w w' c c' l n o} : SReused k c l →
      (scompR k).tryReserve w c n = (c', o, w') → SReused k c' l
  /-- `truncate` -/
  | truncate {O} {k : SComp O} {c c' l n o} : SReused k c l →
      (scompR k).truncate c n = (c', o) → SReused k c' (l.take n)
  /-- any value of the user's collection type -/
  | leaf {α} {R : Realloc α} {Good held c} : Good c → SReused (.leaf R Good held) c (held c)
  /-- `Bitmap::try_from_parts` without an offset, from any storage -/
  | bitmapParts {B : Backing Byte} {Good} {buffer : B.C} {bits b} : Good buffer →
      BitmapOf.tryFromParts B.toBuf buffer bits 0 = .ok b →
      SReused (.bitmap B Good) b ((List.range bits).map fun i => bit (B.borrow buffer) i)
  /-- `Flatten::try_from_parts` -/
  | flattenParts {O} {k : SComp O} {n h c l f} {g : List (FixArr O n)} : SReused k c l →
      Flatten.tryFromParts (scompR k).toColl n c = .ok (.ok f) → Groups l g →
      SReused (.flatten n h k) f g
  /-- `Flatten::into_parts` -/
  | flattenChild {O} {k : SComp O} {n h} {f : Flatten (scompR k).C} {g : List (FixArr O n)} :
      SReused (.flatten n h k) f g → SReused k f.intoParts (g.flatMap Subtype.val)
  /-- `Validity::from_collection` -/
  | fromCollection {O} {k : SComp O} {env : World} {B : Backing Byte} {Good} {c l} :
      SReused k c l →
      SReused (.validity env B Good k) (ValidityOf.fromCollection c) (l.map some)

end Narrow.Spec
