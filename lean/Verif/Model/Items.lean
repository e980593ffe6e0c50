import Verif.Model.Storage

/-!
# Memory holding items of any type

`Vec<T>`, `&[T]`, `[T; N]`, `Box<[T]>`, `Rc<[T]>` and `Arc<[T]>` are collections for every
`T: AsView`, not only for copyable values: src/collection/{view,owned,vec,slice,array,box,rc,arc}.rs.
`AsView`, `IntoOwned` and `Clone` may be implemented by users, so they may panic and need
not give back what they were given.
-/

namespace Narrow

/-- An item type with its `AsView` (src/collection/view.rs:21-36) and the `IntoOwned` of its
views (src/collection/owned.rs:20-31). -/
structure Item (T : Type) where
  /-- `AsView::View` -/
  V : Type
  /-- `AsView::as_view` -/
  asView : T → Res V
  /-- `IntoOwned::into_owned` -/
  intoOwned : V → Res T

/-- Cloning the elements of a slice or array, in order (src/collection/owned.rs:46-56).
-/
def cloneAll {T : Type} (clone : T → Res T) : List T → Res (List T)
  | [] => .ok []
  | x :: l => (clone x).bind fun y => (cloneAll clone l).map (y :: ·)

theorem cloneAll_length {T : Type} {clone : T → Res T} : ∀ {l m : List T},
    cloneAll clone l = .ok m → m.length = l.length
  | [], _, h => by cases h; rfl
  | x :: l, m, h => by
    unfold cloneAll at h
    cases hx : clone x with
    | panic => rw [hx] at h; cases h
    | ok y =>
      rw [hx] at h
      simp only [Res.bind] at h
      cases hl : cloneAll clone l with
      | panic => rw [hl] at h; cases h
      | ok n => rw [hl] at h; cases h; simp [cloneAll_length hl]

namespace Item

/-- `bool` (src/collection/view.rs:38-44, owned.rs:33-37). -/
@[reducible] def bool : Item Bool := ⟨Bool, .ok, .ok⟩

/-- `T: FixedSize` (src/collection/view.rs:46-53, owned.rs:39-44). -/
@[reducible] def fixed (T : Type) : Item T := ⟨T, .ok, .ok⟩

/-- `[T; N]` (src/collection/view.rs:55-62, owned.rs:46-50). -/
@[reducible] def array {T : Type} (clone : T → Res T) (n : Nat) : Item (FixArr T n) where
  V := FixArr T n
  asView := .ok
  intoOwned x :=
    match h : cloneAll clone x.1 with
    | .panic => .panic
    | .ok l => .ok ⟨l, (cloneAll_length h).trans x.2⟩

/-- `Vec<T>` (src/collection/view.rs:64-70, owned.rs:52-56). -/
@[reducible] def vec {T : Type} (clone : T → Res T) : Item (List T) where
  V := List T
  asView := .ok
  intoOwned := cloneAll clone

/-- `Option<T>` (src/validity.rs:206-211, src/collection/owned.rs:58-62). -/
@[reducible] def option {T : Type} (A : Item T) : Item (Option T) where
  V := Option A.V
  asView
    | none => .ok none
    | some x => (A.asView x).map some
  intoOwned
    | none => .ok none
    | some v => (A.intoOwned v).map some

end Item

/-- `SliceIntoIter` for any item type (src/collection/slice.rs:58-79): an item is handed out
as the owned value of its view. -/
@[reducible] def OwnIt.converted {T : Type} (A : Item T) : OwnIt (List T) T where
  J := SliceIntoIter T
  into l := .ok (.new l)
  next it :=
    match it.slice[it.index]? with
    | none => .ok (none, it)
    | some a => (strictAdd it.index 1).bind fun i =>
        (A.asView a).bind fun v => (A.intoOwned v).map fun o => (some o, ⟨it.slice, i⟩)
  len it := it.len

namespace Store

/-- `Collection::into_iter_owned` of the storages, for any item type
(src/collection/vec.rs:33-35, box.rs:31-33, array.rs:28-30, arc.rs:31-33, rc.rs:31-33,
slice.rs:28-30). -/
def ownOf (st : Store) {T : Type} (A : Item T) : OwnIt (List T) T :=
  match st with
  -- src/collection/vec.rs:33-35
  | .vec => OwnIt.list T
  -- src/collection/box.rs:31-33
  | .box => OwnIt.list T
  -- src/collection/rc.rs:31-33
  | .rc => OwnIt.converted A
  -- src/collection/arc.rs:31-33
  | .arc => OwnIt.converted A
  -- src/collection/slice.rs:28-30
  | .slice => OwnIt.converted A
  -- src/collection/array.rs:28-30
  | .array => OwnIt.list T

/-- `view`: `self.get(index).map(AsView::as_view)` (src/collection/vec.rs:18-20,
box.rs:16-18, rc.rs:16-18, arc.rs:16-18, slice.rs:13-15, array.rs:13-15). -/
def viewOf {T : Type} (A : Item T) (l : List T) (i : Nat) : Res (Option A.V) :=
  match l[i]? with
  | none => .ok none
  | some x => (A.asView x).map some

/-- `next` of `slice::Iter` mapped with `AsView::as_view` (src/collection/vec.rs:27-29,
box.rs:25-27, rc.rs:25-27, arc.rs:25-27, slice.rs:22-24, array.rs:22-24). -/
def nextOf {T : Type} (A : Item T) : List T → Res (Option A.V × List T)
  | [] => .ok (none, [])
  | x :: l => (A.asView x).map fun v => (some v, l)

/-- `impl Collection` for the storages, for any item type (src/collection/vec.rs:10-36,
and likewise box.rs, array.rs, arc.rs, rc.rs, slice.rs). -/
@[reducible] def collOf (st : Store) {T : Type} (A : Item T) : Coll T where
  C := List T
  V := A.V
  I := List T
  J := (st.ownOf A).J
  len l := .ok (st.len l)
  view l i := viewOf A l i
  toOwned v := A.intoOwned v
  iter l := .ok l
  inext := nextOf A
  ilen l := .ok l.length
  into l := (st.ownOf A).into l
  jnext it := (st.ownOf A).next it
  jlen it := (st.ownOf A).len it

end Store

/-- `Vec<T>` for any item type (src/collection/vec.rs:10-111): items are moved in and out. -/
@[reducible] def vecOf {T : Type} (A : Item T) (lim : Nat) (dflt : T) : Realloc T where
  C := RVec T
  V := A.V
  I := List T
  J := List T
  len v := .ok v.items.length
  view v i := Store.viewOf A v.items i
  toOwned v := A.intoOwned v
  iter v := .ok v.items
  inext := Store.nextOf A
  ilen l := .ok l.length
  into v := .ok v.items
  jnext
    | [] => .ok (none, [])
    | a :: l => .ok (some a, l)
  jlen l := .ok l.length
  dflt := dflt
  empty := RVec.empty
  pulled s := Src.items s
  withCap n := RVec.withCap lim n
  fromIter w s := (RVec.fromIter lim s, w)
  fromIterIn w s := (RVec.fromIter lim s, w)
  tryWithCap w n := RVec.tryWithCap lim w n
  tryFromIter w s := RVec.tryFromIter lim w s
  extend v s := RVec.extend lim v s
  reserve v n := RVec.reserve lim v n
  tryReserve w v n := RVec.tryReserve lim w v n
  tryExtend w v s := RVec.tryExtend lim w v s
  truncate v n := (v.truncate n, .ok)

end Narrow
