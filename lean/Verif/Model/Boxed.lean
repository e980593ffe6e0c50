import Verif.Model.Layout

/-!
# Constructors of arrays in boxed storage

src/collection/box.rs:36-58 (`CollectionAllocIn for Box<[T]>`) and std's
`FromIterator for Box<[T]>`, under the bitmap and grouping layouts. A boxed slice
is a buffer without spare capacity. Layouts with a validity bitmap or offsets
need `CollectionRealloc`, which `Box<[T]>` does not have, so they cannot be
constructed in boxed storage from items.
-/

namespace Narrow

/-- The constructors of `FromIterator` and `CollectionAllocIn` (src/collection/mod.rs)
(src/collection/mod.rs:183-256). -/
structure Ctor (C O : Type) where
  /-- `with_capacity_in` -/
  withCap : Nat → Try C
  /-- `FromIterator::from_iter` -/
  fromIter : World → Src O → Try C × World
  /-- `from_iter_in` -/
  fromIterIn : World → Src O → Try C × World
  /-- `try_with_capacity_in` -/
  tryWithCap : World → Nat → Try C × World
  /-- `try_from_iter_in` -/
  tryFromIter : World → Src O → Try C × World

/-- Apply a function to the value of a constructor (src/collection/box.rs:48 and 55). -/
def Try.mapOk {α β : Type} (f : α → β) : Try α → Try β
  | .ok a => .ok (f a)
  | .err => .err
  | .panic => .panic

namespace RVec

variable {α : Type}

/-- `Vec::into_boxed_slice` with the allocator granting the smaller block. As elsewhere,
allocations of infallible functions are assumed to be granted (src/collection/box.rs:40
and 44). -/
def boxed (v : RVec α) : RVec α := ⟨v.items, v.items.length⟩

/-- `Vec::into_boxed_slice` in a fallible constructor: `shrink_to_fit` asks the
allocator for a block of the exact size if there is spare capacity, unless the elements
take no memory (`lim = usizeMax`) or there are none. std handles a refusal with
`handle_alloc_error`, which ends the process or panics (src/collection/box.rs:48 and
55). -/
def intoBoxed (lim : Nat) (w : World) (v : RVec α) : Try (RVec α) × World :=
  if lim = usizeMax ∨ v.items.length = v.cap ∨ v.items.length = 0 then (.ok v.boxed, w)
  else
    match w.oracle.grant w.tick v.items.length with
    | none => (.panic, w.next)
    | some _ => (.ok v.boxed, w.next)

/-- `.map(Vec::into_boxed_slice)` on the result of a fallible constructor
(src/collection/box.rs:48 and 55). -/
def mapBoxed (lim : Nat) (r : Try (RVec α) × World) : Try (RVec α) × World :=
  match r with
  | (.ok v, w) => v.intoBoxed lim w
  | (.err, w) => (.err, w)
  | (.panic, w) => (.panic, w)

end RVec

/-- `CollectionAllocIn for Box<[T]>` (src/collection/box.rs:36-58) and
`FromIterator for Box<[T]>` of std, which collects a `Vec` first. -/
def boxCtor {α : Type} (lim : Nat) : Ctor (RVec α) α where
  -- src/collection/box.rs:39-41
  withCap n := (RVec.withCap lim n).mapOk RVec.boxed
  fromIter w s := ((RVec.fromIter lim s).mapOk RVec.boxed, w)
  -- src/collection/box.rs:43-45
  fromIterIn w s := ((RVec.fromIter lim s).mapOk RVec.boxed, w)
  -- src/collection/box.rs:47-49
  tryWithCap w n := RVec.mapBoxed lim (RVec.tryWithCap lim w n)
  -- src/collection/box.rs:51-57
  tryFromIter w s := RVec.mapBoxed lim (RVec.tryFromIter lim w s)

/-- The constructors of `Bitmap<Storage>` from those of `Storage::For<u8>`
(src/bitmap/mod.rs:394-412, 445-498). -/
def bitmapCtor (A : Ctor (RVec Byte) Byte) : Ctor Bitmap Bool where
  -- src/bitmap/mod.rs:448-454
  withCap n := (A.withCap (bytesForBits n)).mapOk fun buf => ⟨buf, 0, 0⟩
  -- src/bitmap/mod.rs:397-411
  fromIter w s :=
    let r := A.fromIter w (pack s).1
    (r.1.mapOk fun buf => ⟨buf, (pack s).2, 0⟩, r.2)
  -- src/bitmap/mod.rs:456-469
  fromIterIn w s :=
    let r := A.fromIterIn w (pack s).1
    (r.1.mapOk fun buf => ⟨buf, (pack s).2, 0⟩, r.2)
  -- src/bitmap/mod.rs:471-479
  tryWithCap w n :=
    let r := A.tryWithCap w (bytesForBits n)
    (r.1.mapOk fun buf => ⟨buf, 0, 0⟩, r.2)
  -- src/bitmap/mod.rs:481-497
  tryFromIter w s :=
    let r := A.tryFromIter w (pack s).1
    (r.1.mapOk fun buf => ⟨buf, (pack s).2, 0⟩, r.2)

/-- The constructors of `Flatten<C, N>` from those of `C`
(src/collection/flatten.rs:142-146, 185-207). -/
def flattenCtor {C O : Type} (n : Nat) (A : Ctor C O) : Ctor (Flatten C) (FixArr O n) where
  -- src/collection/flatten.rs:188-190
  withCap k :=
    match strictMul k n with
    | .panic => .panic
    | .ok m => (A.withCap m).mapOk Flatten.mk
  -- src/collection/flatten.rs:142-146
  fromIter w s :=
    let r := A.fromIter w (Flatten.flatSrc s)
    (r.1.mapOk Flatten.mk, r.2)
  -- src/collection/flatten.rs:192-194
  fromIterIn w s :=
    let r := A.fromIterIn w (Flatten.flatSrc s)
    (r.1.mapOk Flatten.mk, r.2)
  -- src/collection/flatten.rs:196-199
  tryWithCap w k :=
    match checkedMul k n with
    | none => (.err, w)
    | some m =>
      let r := A.tryWithCap w m
      (r.1.mapOk Flatten.mk, r.2)
  -- src/collection/flatten.rs:201-206
  tryFromIter w s :=
    let r := A.tryFromIter w (Flatten.flatSrc s)
    (r.1.mapOk Flatten.mk, r.2)

/-- The constructors of `Array<T, BoxBuffer>` (src/array.rs:122-129, 159-188 and
the layouts, which delegate), where there are any: nullable items and lists need
storage that can grow. -/
def boxedCtor : (t : Ty) → Option (Ctor (baseR t).C (Val t))
  | .bool => some (bitmapCtor (boxCtor byteMax))
  | .prim p => some (boxCtor p.lim)
  | .fsl n false t => (boxedCtor t).map (flattenCtor n)
  | .fsl _ true _ => none
  | .vsl _ _ _ => none

end Narrow
