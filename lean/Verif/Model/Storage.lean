import Verif.Model.Layout

/-!
# Storage backends

src/buffer.rs:76-176, src/collection/{slice,vec,box,rc,arc,array}.rs: the
contiguous collections behind a layout. An array reads its buffers as borrowed
slices (`Borrow<[T]>`), whatever the storage, except when it is consumed:
`into_iter_owned` uses the owned iterator of the storage. `OwnIt` are owned
iterators, and the combinators below are the owned iterators of the layouts over
them.
-/

namespace Narrow

/-- `Buffer` implementations (src/buffer.rs:76-176). -/
inductive Store where
  | vec | box | rc | arc | slice | array
  deriving DecidableEq, Repr

/-- `SliceIntoIter` (src/collection/slice.rs:49-57). -/
structure SliceIntoIter (α : Type) where
  slice : List α
  index : Nat
  deriving DecidableEq, Repr

namespace SliceIntoIter

variable {α : Type}

/-- `From<T>` (src/collection/slice.rs:83-91). -/
def new (l : List α) : SliceIntoIter α := ⟨l, 0⟩

/-- `next` (src/collection/slice.rs:63-71). Views of fixed-size values are the
values, `into_owned` is the identity (src/collection/{view,owned}.rs). -/
def next (it : SliceIntoIter α) : Res (Option α × SliceIntoIter α) :=
  match it.slice[it.index]? with
  | none => .ok (none, it)
  | some a => (strictAdd it.index 1).map fun i => (some a, ⟨it.slice, i⟩)

/-- `size_hint` (src/collection/slice.rs:73-76) and the provided
`ExactSizeIterator::len`, which asserts that both bounds agree. -/
def len (it : SliceIntoIter α) : Res Nat :=
  (strictSub it.slice.length it.index).bind fun r => Unpacked.exactLen (r, some r)

end SliceIntoIter

/-- An owned iterator: its states, how it is made from a collection, `next` and
`ExactSizeIterator::len` (src/collection/mod.rs:92-105). -/
structure OwnIt (C O : Type) where
  J : Type
  into : C → Res J
  next : J → Res (Option O × J)
  len : J → Res Nat

namespace OwnIt

/-- `vec::IntoIter` and the owned iterators of boxed slices and arrays: the remaining
elements (src/collection/vec.rs:33-35, box.rs:31-33, array.rs:28-30). -/
@[reducible] def list (α : Type) : OwnIt (List α) α where
  J := List α
  into l := .ok l
  next
    | [] => .ok (none, [])
    | a :: l => .ok (some a, l)
  len l := .ok l.length

/-- `SliceIntoIter` (src/collection/slice.rs:49-90). -/
@[reducible] def indexed (α : Type) : OwnIt (List α) α where
  J := SliceIntoIter α
  into l := .ok (.new l)
  next it := it.next
  len it := it.len

end OwnIt

namespace Store

/-- `Collection::into_iter_owned` of the storages (src/collection/vec.rs:33-35,
box.rs:31-33, array.rs:28-30, arc.rs:31-33, rc.rs:31-33, slice.rs:28-30). -/
def own (st : Store) (α : Type) : OwnIt (List α) α :=
  match st with
  -- src/collection/vec.rs:33-35
  | .vec => OwnIt.list α
  -- src/collection/box.rs:31-33
  | .box => OwnIt.list α
  -- src/collection/rc.rs:31-33
  | .rc => OwnIt.indexed α
  -- src/collection/arc.rs:31-33
  | .arc => OwnIt.indexed α
  -- src/collection/slice.rs:28-30
  | .slice => OwnIt.indexed α
  -- src/collection/array.rs:28-30
  | .array => OwnIt.list α

/-- `Length::len` of the storages (src/length.rs:47-93). -/
def len (st : Store) {α : Type} (l : List α) : Nat :=
  match st with
  | .vec | .box | .rc | .arc | .slice | .array => l.length

/-- `Collection::view` of the storages: `self.get(index).map(AsView::as_view)`
(src/collection/vec.rs:18-20, box.rs:16-18, rc.rs:16-18, arc.rs:16-18, slice.rs:13-15,
array.rs:13-15). -/
def view (st : Store) {α : Type} (l : List α) (i : Nat) : Option α :=
  match st with
  | .vec | .box | .rc | .arc | .slice | .array => l[i]?

/-- `impl Collection` for the storages, holding the elements `l`. `iter_views` is the
slice iterator for all of them (src/collection/vec.rs:27-29, box.rs:25-27, rc.rs:25-27,
arc.rs:25-27, slice.rs:22-24, array.rs:22-24). -/
@[reducible] def coll (st : Store) (α : Type) : Coll α where
  C := List α
  V := α
  I := List α
  J := (st.own α).J
  len l := .ok (st.len l)
  view l i := .ok (st.view l i)
  toOwned v := .ok v
  iter l := .ok l
  inext
    | [] => .ok (none, [])
    | a :: l => .ok (some a, l)
  ilen l := .ok l.length
  into l := (st.own α).into l
  jnext it := (st.own α).next it
  jlen it := (st.own α).len it

end Store

/-! ## Owned iterators of the layouts -/

/-- The elements of a buffer (src/buffer.rs:24-28). -/
def OwnIt.ofVec {α : Type} (A : OwnIt (List α) α) : OwnIt (RVec α) α :=
  { A with into := fun v => A.into v.items }

/-- `BitUnpacked` over an owned byte iterator (src/bitmap/unpacked.rs:13-24). -/
structure UnpackedOf (σ : Type) where
  rest : σ
  byte : Option Byte
  mask : Byte

namespace UnpackedOf

variable {C : Type} (A : OwnIt C Byte)

/-- The fetch at src/bitmap/unpacked.rs:36-38. -/
def fetch (u : UnpackedOf A.J) : Res (UnpackedOf A.J) :=
  if u.mask = 1#8 then (A.next u.rest).map fun r => { u with rest := r.2, byte := r.1 }
  else .ok u

/-- `BitUnpacked::next` (src/bitmap/unpacked.rs:34-46). -/
def next (u : UnpackedOf A.J) : Res (Option Bool × UnpackedOf A.J) :=
  (fetch A u).map fun v =>
    match v.byte with
    | none => (none, v)
    | some b => (some (b &&& v.mask != 0#8), { v with mask := v.mask.rotateLeft 1 })

/-- `BitUnpacked::size_hint` (src/bitmap/unpacked.rs:49-74), the inner iterator
reporting `(len, Some(len))`. -/
def sizeHint (u : UnpackedOf A.J) : Res (Nat × Option Nat) :=
  (A.len u.rest).map fun n =>
    let buffered := if u.mask = 1#8 then 0 else 8 - Unpacked.trailingZeros u.mask
    (satAdd (satMul n 8) buffered, (checkedMul n 8).bind fun b => checkedAdd b buffered)

/-- Calling `next` `n` times, stopping at the first `None` (on the iterator of
src/bitmap/unpacked.rs:26-46). -/
def advance : Nat → UnpackedOf A.J → Res (Bool × UnpackedOf A.J)
  | 0, u => .ok (true, u)
  | n + 1, u =>
    (next A u).bind fun r =>
      match r with
      | (none, u') => .ok (false, u')
      | (some _, u') => advance n u'

end UnpackedOf

/-- `Take<Skip<BitUnpacked<..>>>` over an owned byte iterator
(src/bitmap/mod.rs:311-323). -/
structure BitIterOf (σ : Type) where
  un : UnpackedOf σ
  skip : Nat
  take : Nat

namespace BitIterOf

variable {C : Type} (A : OwnIt C Byte)

/-- `Skip::next` (of the iterator src/bitmap/mod.rs:314-321). -/
def skipNext (un : UnpackedOf A.J) (n : Nat) : Res (Option Bool × UnpackedOf A.J) :=
  if n = 0 then un.next A
  else
    (un.advance A n).bind fun r =>
      match r with
      | (true, u) => u.next A
      | (false, u) => .ok (none, u)

/-- `Take::next` over `Skip::next` (of the iterator src/bitmap/mod.rs:314-321). -/
def next (it : BitIterOf A.J) : Res (Option Bool × BitIterOf A.J) :=
  if it.take = 0 then .ok (none, it)
  else (skipNext A it.un it.skip).map fun r => (r.1, ⟨r.2, 0, it.take - 1⟩)

/-- `Take::size_hint` over `Skip::size_hint`, and `ExactSizeIterator::len` (of the
iterator src/bitmap/mod.rs:314-321). -/
def len (it : BitIterOf A.J) : Res Nat :=
  if it.take = 0 then Unpacked.exactLen (0, some 0)
  else
    (it.un.sizeHint A).bind fun h =>
      let lo := h.1 - it.skip
      let hi := h.2.map (· - it.skip)
      Unpacked.exactLen
        ( min lo it.take,
          match hi with
          | some x => if x < it.take then some x else some it.take
          | none => some it.take )

end BitIterOf

/-- `IntoIterator for Bitmap<Storage>` (src/bitmap/mod.rs:311-323). -/
@[reducible] def bitmapOwn (A : OwnIt (RVec Byte) Byte) : OwnIt Bitmap Bool where
  J := BitIterOf A.J
  into b := (A.into b.buffer).map fun it => ⟨⟨it, none, 1#8⟩, b.offset, b.bits⟩
  next it := it.next A
  len it := it.len A

/-- `ValidityIter::next` (src/validity.rs:237-243). -/
def validityNext {σ τ β : Type} (next : σ → Res (Option τ × σ)) (bnext : β → Res (Option Bool × β))
    (it : σ × Option β) : Res (Option (Option τ) × (σ × Option β)) :=
  match it.2 with
  | none => (next it.1).map fun r => (r.1.map some, (r.2, none))
  | some bits =>
    (bnext bits).bind fun b =>
      match b with
      | (none, bits') => .ok (none, (it.1, some bits'))
      | (some valid, bits') =>
        (next it.1).map fun r =>
          (r.1.map fun v => if valid then some v else none, (r.2, some bits'))

/-- `IntoIterator for Validity<T, Storage>` (src/validity.rs:289-301): the owned
iterators of the collection and of the bitmap. -/
@[reducible] def validityOwn {C O : Type} (A : OwnIt C O) (B : OwnIt Bitmap Bool) :
    OwnIt (Validity C) (Option O) where
  J := A.J × Option B.J
  into v :=
    (A.into v.coll).bind fun it =>
      match v.bitmap with
      | none => .ok (it, none)
      | some b => (B.into b).map fun bits => (it, some bits)
  next it := validityNext A.next B.next it
  -- src/validity.rs:265-270
  len it :=
    match it.2 with
    | none => A.len it.1
    | some bits => (A.len it.1).bind fun n => (B.len bits).map fun m => min n m

/-- A collection consumed through another owned iterator (`IntoIter`,
src/collection/mod.rs:92-105). -/
@[reducible] def Coll.withOwn {O : Type} (K : Coll O) (A : OwnIt K.C O) : Coll O :=
  { K with J := A.J, into := A.into, jnext := A.next, jlen := A.len }

/-- `Flatten::into_iter_owned` and `ArrayChunks`
(src/collection/flatten.rs:178-182, 298-325). -/
@[reducible] def flattenOwn {O : Type} (n : Nat) (K : Coll O) (A : OwnIt K.C O) :
    OwnIt (Flatten K.C) (FixArr O n) where
  J := A.J
  into c := A.into c.child
  next it := Flatten.chunksNext (K.withOwn A) n it
  len it := Flatten.chunksLen (K.withOwn A) n it

/-- `OffsetIntoIter` (src/offset.rs:577-582) over an owned iterator of offsets. -/
structure OffsetIntoIterOf (C σ : Type) where
  data : C
  offsets : σ
  position : Int

/-- `Offsets::into_iter_owned` (src/offset.rs:471-483) and `OffsetIntoIter`
(src/offset.rs:584-612). -/
@[reducible] def offsetsOwn {O : Type} (K : Coll O) (A : OwnIt (RVec Int) Int) :
    OwnIt (Offsets K.C) (List O) where
  J := OffsetIntoIterOf K.C A.J
  into c :=
    (A.into c.offsets).bind fun it =>
      (A.next it).bind fun r =>
        match r with
        | (none, _) => .panic
        | (some p, it') => .ok ⟨c.data, it', p⟩
  next it :=
    (A.next it.offsets).bind fun r =>
      match r with
      | (none, o) => .ok (none, ⟨it.data, o, it.position⟩)
      | (some e, o) =>
        (asUsize it.position).bind fun s => (asUsize e).bind fun e' =>
          (collectRange (fun i => (K.view it.data i).expect.bind K.toOwned) s (e' - s)).map
            fun l => (some l, ⟨it.data, o, e⟩)
  len it := A.len it.offsets

/-- The owned iterator of a possibly nullable collection (src/validity.rs:290-302, or
that of the items where src/nullability.rs:123 adds no bitmap). -/
def nullOwn {O : Type} (nl : Bool) (R : Realloc O) (A : OwnIt R.C O)
    (B : OwnIt Bitmap Bool) : OwnIt (nullR nl R).C (ItemVal nl O) :=
  match nl with
  | false => A
  | true => validityOwn A B

/-- The owned iterator of an array whose buffers are held in storage `st`
(src/layout/boolean.rs:150-152, fixed_size_primitive.rs:158-160,
fixed_size_list.rs:180-182, variable_size_list.rs:168-170). -/
def baseOwn (st : Store) : (t : Ty) → OwnIt (baseR t).C (Val t)
  | .bool => bitmapOwn (st.own Byte).ofVec
  | .prim p => (st.own (PrimVal p)).ofVec
  | .fsl n nl t =>
    flattenOwn n (nullR nl (baseR t)).toColl
      (nullOwn nl (baseR t) (baseOwn st t) (bitmapOwn (st.own Byte).ofVec))
  | .vsl _ nl t => offsetsOwn (nullR nl (baseR t)).toColl (st.own Int).ofVec

/-- `Array::into_iter_owned` for storage `st` (src/array.rs:154-156, newtype). -/
def arrayOwn (st : Store) (nl : Bool) (t : Ty) : OwnIt (arrayR nl t).C (ItemVal nl (Val t)) :=
  nullOwn nl (baseR t) (baseOwn st t) (bitmapOwn (st.own Byte).ofVec)

/-- `Array<T, S>` for storage `S` (src/array.rs:38-158): a view, the length and the
borrowing iterator go through `Borrow<[T]>` of the buffers, so they are those of
the slices held; the owned iterator is the storage's. -/
def arrayS (st : Store) (nl : Bool) (t : Ty) : Coll (ItemVal nl (Val t)) :=
  (arrayR nl t).toColl.withOwn (arrayOwn st nl t)

end Narrow
