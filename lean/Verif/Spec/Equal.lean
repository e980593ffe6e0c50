import Verif.Model.Layout

/-!
# When two items are equal

Items compare element by element; `primEq` is the comparison of primitive values.
-/

namespace Narrow.Spec

/-- Lists are equal when their lengths are and their elements are, pairwise. -/
def sameList {α β : Type} (eq : α → β → Bool) (xs : List α) (ys : List β) : Bool :=
  xs.length == ys.length && (xs.zip ys).all fun p => eq p.1 p.2

/-- Optional items are equal when both are null or both are valid and equal. -/
def sameOpt {α : Type} (eq : α → α → Bool) : Option α → Option α → Bool
  | none, none => true
  | some x, some y => eq x y
  | _, _ => false

/-- Nullable or non-nullable items. -/
def sameItem {α : Type} (nl : Bool) (eq : α → α → Bool) : ItemVal nl α → ItemVal nl α → Bool :=
  match nl with
  | false => eq
  | true => sameOpt eq

/-- Equality of the values of an item type. -/
def same (primEq : (p : Prim) → PrimVal p → PrimVal p → Bool) : (t : Ty) → Val t → Val t → Bool
  | .bool => fun (x y : Bool) => x == y
  | .prim p => primEq p
  | .fsl n nl t => fun (x y : FixArr (ItemVal nl (Val t)) n) => sameList (sameItem nl (same primEq t)) x.1 y.1
  | .vsl _ nl t => fun (x y : List (ItemVal nl (Val t))) => sameList (sameItem nl (same primEq t)) x y

end Narrow.Spec
