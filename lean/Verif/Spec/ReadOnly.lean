import Verif.Model.Backend
import Verif.Spec.Reads
import Verif.Spec.Rows
import Verif.Spec.Bits

/-!
# Collections that are only read

Compositions need not be able to grow: their buffers may be borrowed slices, arrays,
shared or boxed slices, memory imported from C, or any type of the user that
implements `Collection`, and every layer may use another one. `RComp O` describes
every such composition of the library's layouts, `RBuilt k c l` says that `c` was put
together by calls which on plain lists produce `l`.
-/

namespace Narrow.Spec

/-- The collection type `K` keeps the contract of `Collection`: values in the states
`Good` read as the items `held c`. -/
structure HonoursReads {α : Type} (K : Coll α) (Good : K.C → Prop) (held : K.C → List α) : Prop where
  /-- every way of reading shows the items -/
  reads : ∀ {c}, Good c → Reads K c (held c)
  /-- lengths are `usize` -/
  size : ∀ {c}, Good c → (held c).length ≤ usizeMax

/-- The storage `B` keeps the contract of `Collection` and `Borrow`: the slice holds
the items, and is at most `2^60` elements long. -/
structure HonoursSlice {α : Type} (B : Buf α) (Good : B.C → Prop) : Prop
    extends HonoursReads B.toColl Good B.borrow where
  memory : ∀ {c}, Good c → (B.borrow c).length ≤ byteMax

/-- A composition of collection types that can be read, with items `O`. -/
inductive RComp : Type → Type 1
  /-- a collection type of the user, or one of the storages of the library -/
  | leaf {α : Type} (K : Coll α) (Good : K.C → Prop) (held : K.C → List α) : RComp α
  /-- `Bitmap<Storage>` -/
  | bitmap (B : Buf Byte) (Good : B.C → Prop) : RComp Bool
  /-- `Flatten<C, N>` for a positive `N` -/
  | flatten {O : Type} (n : Nat) (h : 0 < n) (k : RComp O) : RComp (FixArr O n)
  /-- `Validity<C, Storage>` -/
  | validity {O : Type} (B : Buf Byte) (Good : B.C → Prop) (k : RComp O) : RComp (Option O)
  /-- `Offsets<C, OffsetItem, Storage>` -/
  | offsets {O : Type} (D : Buf Int) (Good : D.C → Prop) (k : RComp O) : RComp (List O)
  /-- `OffsetView`, one list of an `Offsets` -/
  | row {O : Type} (k : RComp O) : RComp O

/-- The operations of a composition. -/
@[reducible] def rcompC : {O : Type} → RComp O → Coll O
  | _, .leaf K _ _ => K
  | _, .bitmap B _ => bitmapBC B
  | _, .flatten n _ k => flattenC n (rcompC k)
  | _, .validity B _ k => validityBC (bitmapBC B) (rcompC k)
  | _, .offsets D _ k => offsetsBC D (rcompC k)
  | _, .row k => rowViewC (rcompC k)

/-- Every collection and storage of the composition keeps its contract. -/
def RSound : {O : Type} → RComp O → Prop
  | _, .leaf K Good held => HonoursReads K Good held
  | _, .bitmap B Good => HonoursSlice B Good
  | _, .flatten _ _ k => RSound k
  | _, .validity B Good k => HonoursSlice B Good ∧ RSound k
  | _, .offsets D Good k => HonoursSlice D Good ∧ RSound k
  | _, .row k => RSound k

/-- The collection `c` was put together by calls which on plain lists give `l`. -/
inductive RBuilt : {O : Type} → (k : RComp O) → (rcompC k).C → List O → Prop
  /-- any value of the user's collection type -/
  | leaf {α} {K : Coll α} {Good held c} : Good c → RBuilt (.leaf K Good held) c (held c)
  /-- `Bitmap::try_from_parts` -/
  | bitmapParts {B : Buf Byte} {Good} {buffer : B.C} {bits offset b} : Good buffer →
      BitmapOf.tryFromParts B buffer bits offset = .ok b →
      RBuilt (.bitmap B Good) b ((List.range bits).map fun i => bit (B.borrow buffer) (offset + i))
  /-- `Flatten::try_from_parts` -/
  | flattenParts {O} {k : RComp O} {n h c l f} {g : List (FixArr O n)} : RBuilt k c l →
      Flatten.tryFromParts (rcompC k) n c = .ok (.ok f) → Groups l g →
      RBuilt (.flatten n h k) f g
  /-- `Flatten::into_parts` -/
  | flattenChild {O} {k : RComp O} {n h} {f : Flatten (rcompC k).C} {g : List (FixArr O n)} :
      RBuilt (.flatten n h k) f g → RBuilt k f.intoParts (g.flatMap Subtype.val)
  /-- `Validity::try_from_parts` -/
  | validityParts {O} {k : RComp O} {B : Buf Byte} {Good} {c l}
      {b : BitmapOf B.C} {bs v} : RBuilt k c l → RBuilt (.bitmap B Good) b bs →
      ValidityOf.tryFromParts (bitmapBC B) (rcompC k) c b = .ok (.ok v) →
      RBuilt (.validity B Good k) v
        (List.zipWith (fun x valid => if valid then some x else none) l bs)
  /-- `Validity::from_collection` -/
  | fromCollection {O} {k : RComp O} {B : Buf Byte} {Good} {c l} : RBuilt k c l →
      RBuilt (.validity B Good k) (ValidityOf.fromCollection c) (l.map some)
  /-- `Offsets::try_from_parts` -/
  | offsetsParts {O} {k : RComp O} {D : Buf Int} {Good} {c l f} {offsets : D.C} :
      RBuilt k c l → Good offsets →
      OffsetsIn.tryFromParts D (rcompC k) c offsets = .ok (.ok f) →
      RBuilt (.offsets D Good k) f (rowsOf l (D.borrow offsets))
  /-- `Collection::view` of an `Offsets` -/
  | row {O} {k : RComp O} {D : Buf Int} {Good} {c : OffsetsIn (rcompC k).C D.C} {rows i v}
      (h : i < rows.length) : HonoursSlice D Good →
      RBuilt (.offsets D Good k) c rows → (rcompC (.offsets D Good k)).view c i = .ok (some v) →
      RBuilt (.row k) v rows[i]

end Narrow.Spec
