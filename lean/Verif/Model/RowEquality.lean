import Verif.Model.Backend
import Verif.Model.Equality

/-!
# Comparing list views with any collection

`PartialEq<C> for OffsetView` (src/offset.rs:662-676) for arbitrary collections on both
sides.
-/

namespace Narrow

/-- `<OffsetView<T> as PartialEq<C>>::eq` (src/offset.rs:662-676), given the comparison of
the element views, which may panic. There are as many rounds as elements, plus the one
that finds the end. -/
def RowView.eq {O O' : Type} (K : Coll O) (K' : Coll O') (eq : K.V → K'.V → Res Bool)
    (v : RowView K.C) (other : K'.C) : Res Bool :=
  v.len.bind fun n => (K'.len other).bind fun m =>
    if n = m then
      ((rowViewC K).iter v).bind fun a => (K'.iter other).bind fun b =>
        zipAll (rowViewC K).inext K'.inext eq (n + 1) a b
    else .ok false

/-- `Option<V> == Option<V>`, for views of two collections of nullable items (views of
src/validity.rs:304-311, compared in src/offset.rs:672). -/
def optEq₂ {α β : Type} (eq : α → β → Res Bool) : Option α → Option β → Res Bool
  | none, none => .ok true
  | some x, some y => eq x y
  | _, _ => .ok false

end Narrow
