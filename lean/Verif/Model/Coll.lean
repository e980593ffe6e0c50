import Verif.Model.Base

/-!
# Collection dictionaries

The traits `Collection` (src/collection/mod.rs), `CollectionAllocIn` and
`CollectionRealloc` as records of operations. An implementation of the traits
for a Rust type is a value of the record; a generic implementation such as
`impl<C: Collection> Collection for Flatten<C, N>` is a function on records.
-/

namespace Narrow

/-- `[T; N]`: a list of exactly `n` values (items of src/collection/flatten.rs:154). -/
abbrev FixArr (α : Type) (n : Nat) := { l : List α // l.length = n }

namespace FixArr

/-- Prepend a value (items of src/collection/flatten.rs:154). -/
def cons {α : Type} {n : Nat} (a : α) (l : FixArr α n) : FixArr α (n + 1) :=
  ⟨a :: l.1, by simp [l.2]⟩

/-- `core::array::from_fn` with a function that may panic
(src/collection/flatten.rs:157). -/
def fromFn {α : Type} : (n : Nat) → (Nat → Res α) → Res (FixArr α n)
  | 0, _ => .ok ⟨[], rfl⟩
  | n + 1, f =>
    match f 0 with
    | .panic => .panic
    | .ok a => (fromFn n fun i => f (i + 1)).map (cons a)

/-- `array::map` with a function that may panic, over the underlying list
(src/collection/flatten.rs:280-282). -/
def mapList {α β : Type} (f : α → Res β) : (l : List α) → Res (FixArr β l.length)
  | [] => .ok ⟨[], rfl⟩
  | a :: l =>
    match f a with
    | .panic => .panic
    | .ok b => (mapList f l).map (cons b)

/-- `array::map` with a function that may panic (src/collection/flatten.rs:280-282). -/
def map {α β : Type} {n : Nat} (f : α → Res β) (l : FixArr α n) : Res (FixArr β n) :=
  match n, l with
  | _, ⟨l, rfl⟩ => mapList f l

/-- `[T; N]::default()` (used for null items, src/validity.rs:381 and 426). -/
def replicate {α : Type} (n : Nat) (a : α) : FixArr α n := ⟨List.replicate n a, by simp⟩

end FixArr

/-- Trait `Collection` with `Length` (src/collection/mod.rs, src/length.rs) for
a collection with owned items `O`.

`C` is the collection, `V` its borrowed view of an item, `I` the state of the
iterator returned by `iter_views`, `J` the state of the iterator returned by
`into_iter_owned`.
(src/collection/mod.rs:40-106, src/length.rs:21-45). -/
structure Coll (O : Type) where
  C : Type
  V : Type
  I : Type
  J : Type
  /-- `Length::len` -/
  len : C → Res Nat
  /-- `Collection::view` -/
  view : C → Nat → Res (Option V)
  /-- `IntoOwned::into_owned` on a view -/
  toOwned : V → Res O
  /-- `Collection::iter_views` -/
  iter : C → Res I
  /-- `next` of the view iterator -/
  inext : I → Res (Option V × I)
  /-- `ExactSizeIterator::len` of the view iterator -/
  ilen : I → Res Nat
  /-- `Collection::into_iter_owned` -/
  into : C → Res J
  /-- `next` of the owned iterator -/
  jnext : J → Res (Option O × J)
  /-- `ExactSizeIterator::len` of the owned iterator -/
  jlen : J → Res Nat

namespace Coll

/-- Provided method `Collection::owned` (src/collection/mod.rs:72-74):
`self.view(index).map(IntoOwned::into_owned)`. -/
def owned {O : Type} (K : Coll O) (c : K.C) (i : Nat) : Res (Option O) :=
  match K.view c i with
  | .panic => .panic
  | .ok none => .ok none
  | .ok (some v) => (K.toOwned v).map some

/-- Reading the view iterator to its end, at most `fuel` items, converting each view
into its owned item (`iter_views().map(into_owned).collect()`) (src/collection/mod.rs:72
and 90, which callers of `iter_views` do). -/
def drainViews {O : Type} (K : Coll O) : Nat → K.I → Res (List O)
  | 0, _ => .ok []
  | fuel + 1, it =>
    match K.inext it with
    | .panic => .panic
    | .ok (none, _) => .ok []
    | .ok (some v, it') =>
      match K.toOwned v with
      | .panic => .panic
      | .ok o => (drainViews K fuel it').map (o :: ·)

/-- Reading the owned iterator to its end, at most `fuel` items
(src/collection/mod.rs:105, which callers of `into_iter_owned` do). -/
def drainOwned {O : Type} (K : Coll O) : Nat → K.J → Res (List O)
  | 0, _ => .ok []
  | fuel + 1, it =>
    match K.jnext it with
    | .panic => .panic
    | .ok (none, _) => .ok []
    | .ok (some o, it') => (drainOwned K fuel it').map (o :: ·)

end Coll

/-- Traits `Default`, `FromIterator`, `CollectionAllocIn`, `Extend` and
`CollectionRealloc` (src/collection/mod.rs) on top of `Collection`.

Constructors take the environment because they read size hints; functions on
`&mut self` return the state they leave behind together with their outcome.
(src/collection/mod.rs:183-407). -/
structure Realloc (O : Type) extends Coll O where
  /-- `Default::default()` of the owned item, stored in null slots -/
  dflt : O
  /-- `Default::default()` of the collection -/
  empty : C
  /-- The items the constructors `from_iter` and `from_iter_in` pull from a
  source that does not panic. Closures mapped over the source see exactly these. -/
  pulled : {α : Type} → Src α → List α
  /-- `with_capacity_in` -/
  withCap : Nat → Try C
  /-- `FromIterator::from_iter` -/
  fromIter : World → Src O → Try C × World
  /-- `from_iter_in` -/
  fromIterIn : World → Src O → Try C × World
  /-- `try_with_capacity_in` -/
  tryWithCap : World → Nat → Try C × World
  /-- `try_from_iter_in` -/
  tryFromIter : World → Src O → Try C × World
  /-- `Extend::extend` -/
  extend : C → Src O → C × Out
  /-- `reserve` -/
  reserve : C → Nat → C × Out
  /-- `try_reserve` -/
  tryReserve : World → C → Nat → C × Out × World
  /-- `try_extend` -/
  tryExtend : World → C → Src O → C × Out × World
  /-- `truncate` -/
  truncate : C → Nat → C × Out

/-! ## Range-based iterators -/

/-- State of `(0..len).zip(repeat_n(self, len)).map(|(i, c)| c.view(i).expect(..))`
(src/collection/flatten.rs:172-176, src/offset.rs:462-467, 719-731). -/
structure RangeIter (C : Type) where
  start : Nat
  stop : Nat
  c : C

namespace RangeIter

/-- `next`: the range yields its start and advances; the mapped view must exist
(src/collection/flatten.rs:172-176, src/offset.rs:719-723). -/
def next {C V : Type} (view : C → Nat → Res (Option V)) (it : RangeIter C) :
    Res (Option V × RangeIter C) :=
  if it.start < it.stop then
    (view it.c it.start).expect.map fun v => (some v, { it with start := it.start + 1 })
  else .ok (none, it)

/-- `len`: both zipped iterators have the same number of items left
(src/collection/flatten.rs:172-176, src/offset.rs:719-723). -/
def len {C : Type} (it : RangeIter C) : Res Nat := .ok (it.stop - it.start)

end RangeIter

/-! ## `Vec` as a collection -/

/-- `impl Collection, CollectionAllocIn, CollectionRealloc for Vec<T>`
(src/collection/vec.rs:10-111) for a copyable element type. `view` is
`get(index).map(as_view)`, the views of fixed-size values are the values; both
iterators are the remaining elements (`slice::Iter`, `vec::IntoIter`). -/
@[reducible] def vecR {α : Type} (lim : Nat) (dflt : α) : Realloc α where
  C := RVec α
  V := α
  I := List α
  J := List α
  len v := .ok v.items.length
  view v i := .ok v.items[i]?
  toOwned v := .ok v
  iter v := .ok v.items
  inext
    | [] => .ok (none, [])
    | a :: l => .ok (some a, l)
  ilen l := .ok l.length
  into v := .ok v.items
  jnext
    | [] => .ok (none, [])
    | a :: l => .ok (some a, l)
  jlen l := .ok l.length
  dflt := dflt
  empty := RVec.empty
  pulled s := Src.items s
  withCap n := RVec.withCap lim n
  fromIter w s := (RVec.fromIter lim s, w)
  fromIterIn w s := (RVec.fromIter lim s, w)
  tryWithCap w n := RVec.tryWithCap lim w n
  tryFromIter w s := RVec.tryFromIter lim w s
  extend v s := RVec.extend lim v s
  reserve v n := RVec.reserve lim v n
  tryReserve w v n := RVec.tryReserve lim w v n
  tryExtend w v s := RVec.tryExtend lim w v s
  truncate v n := (v.truncate n, .ok)

end Narrow
