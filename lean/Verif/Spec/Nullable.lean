import Verif.Model.Layout

/-!
# Possibly null items

`T` and `Option<T>` seen alike: the value of an item, if it has one.
-/

namespace Narrow.Spec

/-- The value of an item, `none` when the item is null. -/
def valueOf (nl : Bool) {α : Type} (item : ItemVal nl α) : Option α :=
  match nl, item with
  | false, (a : α) => some a
  | true, (o : Option α) => o

end Narrow.Spec
