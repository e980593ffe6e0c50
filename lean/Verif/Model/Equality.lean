import Verif.Model.Layout

/-!
# Comparing views

`PartialEq` of list views (src/offset.rs:662-676) and of the views of every item
type: `bool` and primitives compare by value, `[V; N]` and `Option<V>` by the
standard library's implementations, list views by length and elements.
-/

namespace Narrow

/-- `a.zip(b).all(|(x, y)| x == y)` (src/offset.rs:670-674): `Zip::next` reads
from `a` first and stops at the first `None`; `all` stops at the first `false`.
`fuel` bounds the number of rounds. -/
def zipAll {α β σ τ : Type} (na : σ → Res (Option α × σ)) (nb : τ → Res (Option β × τ))
    (eq : α → β → Res Bool) : Nat → σ → τ → Res Bool
  | 0, _, _ => .ok true
  | fuel + 1, a, b =>
    match na a with
    | .panic => .panic
    | .ok (none, _) => .ok true
    | .ok (some x, a') =>
      match nb b with
      | .panic => .panic
      | .ok (none, _) => .ok true
      | .ok (some y, b') =>
        match eq x y with
        | .panic => .panic
        | .ok false => .ok false
        | .ok true => zipAll na nb eq fuel a' b'

/-- `<OffsetView<T> as PartialEq<C>>::eq` (src/offset.rs:662-676), given the
comparison of the element views. There are as many rounds as elements, plus the
one that finds the end. -/
def OffsetView.eq {O O' : Type} (K : Coll O) (K' : Coll O') (eq : K.V → K'.V → Res Bool)
    (v : OffsetView K.C) (other : K'.C) : Res Bool :=
  v.len.bind fun n => (K'.len other).bind fun m =>
    if n = m then
      ((offsetViewC K).iter v).bind fun a => (K'.iter other).bind fun b =>
        zipAll (offsetViewC K).inext K'.inext eq (n + 1) a b
    else .ok false

/-- `[V; N] == [V; N]`: all elements in order, stopping at the first difference (items
of src/collection/flatten.rs:252-254, compared in src/offset.rs:672). -/
def listEq {α : Type} (eq : α → α → Res Bool) : List α → List α → Res Bool
  | x :: xs, y :: ys =>
    match eq x y with
    | .panic => .panic
    | .ok false => .ok false
    | .ok true => listEq eq xs ys
  | _, _ => .ok true

/-- `Option<V> == Option<V>` (views of src/validity.rs:304-311, compared in
src/offset.rs:672). -/
def optEq {α : Type} (eq : α → α → Res Bool) : Option α → Option α → Res Bool
  | none, none => .ok true
  | some x, some y => eq x y
  | _, _ => .ok false

/-- Comparing views of nullable or non-nullable items (`Nulls::Item`,
src/nullability.rs:37). -/
def nullEq {O : Type} (nullable : Bool) (R : Realloc O) (eq : R.V → R.V → Res Bool) :
    (nullR nullable R).V → (nullR nullable R).V → Res Bool :=
  match nullable with
  | false => eq
  | true => optEq eq

/-- Comparing views of an item type; `primEq` is `==` of the primitive types, for
floating point not the comparison of bit patterns. `FlattenView`
(src/collection/flatten.rs:251) has no `==` of its own: for fixed-size lists this compares
the arrays of views it dereferences to. -/
def baseEq (primEq : (p : Prim) → PrimVal p → PrimVal p → Bool) :
    (t : Ty) → (baseR t).V → (baseR t).V → Res Bool
  | .bool => fun (x y : Bool) => .ok (x == y)
  | .prim p => fun (x y : PrimVal p) => .ok (primEq p x y)
  | .fsl n nl t => fun (x y : FixArr (nullR nl (baseR t)).V n) =>
      listEq (nullEq nl (baseR t) (baseEq primEq t)) x.1 y.1
  | .vsl _ nl t => fun (x y : OffsetView (nullR nl (baseR t)).C) =>
      OffsetView.eq (nullR nl (baseR t)).toColl (offsetViewC (nullR nl (baseR t)).toColl)
        (nullEq nl (baseR t) (baseEq primEq t)) x y

end Narrow
