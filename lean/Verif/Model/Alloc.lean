import Verif.Model.Backend
import Verif.Model.Newtypes

/-!
# Collections with an allocator

`CollectionAllocIn` and `CollectionRealloc` (src/collection/mod.rs:184-256, 318-407)
hand an allocator to every constructor and give it back with `allocator()`. The
records below are those of `Model/Coll` and `Model/Backend` with the allocator as an
argument. Each function of a layout is the one of `Model/Backend`, called with the
storages and the wrapped collection allocating where the code says.

Simplification: an allocator is a value, and its clone is the same value.
-/

namespace Narrow

/-- The traits of `Realloc` with the associated type `Alloc = A`
(src/collection/mod.rs:183-407). -/
structure AllocR (A O : Type) extends Coll O where
  /-- `Default::default()` of the owned item -/
  dflt : O
  /-- `Default::default()` of the collection -/
  empty : C
  /-- The items the constructors pull from a source. -/
  pulled : {α : Type} → Src α → List α
  /-- `FromIterator::from_iter` -/
  fromIter : World → Src O → Try C × World
  /-- `Extend::extend` -/
  extend : C → Src O → C × Out
  /-- `reserve` -/
  reserve : C → Nat → C × Out
  /-- `try_reserve` -/
  tryReserve : World → C → Nat → C × Out × World
  /-- `try_extend` -/
  tryExtend : World → C → Src O → C × Out × World
  /-- `truncate` -/
  truncate : C → Nat → C × Out
  /-- `allocator` -/
  allocator : C → A
  /-- `with_capacity_in` -/
  withCapIn : A → Nat → Try C
  /-- `from_iter_in` -/
  fromIterIn : A → World → Src O → Try C × World
  /-- `try_with_capacity_in` -/
  tryWithCapIn : A → World → Nat → Try C × World
  /-- `try_from_iter_in` -/
  tryFromIterIn : A → World → Src O → Try C × World

/-- The operations with `a` passed to every constructor (src/collection/mod.rs:183-256,
where `alloc` is an argument). -/
@[reducible] def AllocR.given {A O : Type} (R : AllocR A O) (a : A) : Realloc O where
  toColl := R.toColl
  dflt := R.dflt
  empty := R.empty
  pulled s := R.pulled s
  withCap := R.withCapIn a
  fromIter := R.fromIter
  fromIterIn := R.fromIterIn a
  tryWithCap := R.tryWithCapIn a
  tryFromIter := R.tryFromIterIn a
  extend := R.extend
  reserve := R.reserve
  tryReserve := R.tryReserve
  tryExtend := R.tryExtend
  truncate := R.truncate

/-- A storage with an allocator, and with `Borrow` and `BorrowMut` (`Backing`)
(src/buffer.rs:24-28). -/
structure AllocB (A α : Type) extends AllocR A α where
  /-- `Borrow<[T]>::borrow` -/
  borrow : C → List α
  /-- The storage after its slice was overwritten by one of the same length. -/
  write : C → List α → C

/-- The storage with `a` passed to every constructor (src/collection/mod.rs:183-256,
where `alloc` is an argument). -/
@[reducible] def AllocB.given {A α : Type} (B : AllocB A α) (a : A) : Backing α :=
  { B.toAllocR.given a with
    borrow := B.borrow
    write := B.write }

/-- The reading side of a storage (src/buffer.rs:24-28). -/
@[reducible] def AllocB.toBuf {A α : Type} (B : AllocB A α) : Buf α :=
  { B.toColl with borrow := B.borrow }

/-- Provided method `CollectionAlloc::with_capacity` (src/collection/mod.rs:290-292):
`with_capacity_in(capacity, Default::default())`, where `d` is the default allocator. -/
def AllocR.withCapacity {A O : Type} (d : A) (R : AllocR A O) (n : Nat) : Try R.C := R.withCapIn d n

section
variable {A O : Type} (d : A)

/-- `Bitmap<Storage>` (src/bitmap/mod.rs:339-412, 445-609). Only the constructors
allocate; the functions on `&mut self` call those of the buffer. -/
@[reducible] def bitmapA (B : AllocB A Byte) : AllocR A Bool where
  toColl := bitmapBC B.toBuf
  dflt := false
  empty := ⟨B.empty, 0, 0⟩
  pulled s := Bitmap.pulled s
  -- src/bitmap/mod.rs:394-412: `collect` of the buffer
  fromIter w s := BitmapOf.fromIter (B.given d) w s
  extend b s := BitmapOf.extend (B.given (B.allocator b.buffer)) b s
  reserve b n := BitmapOf.reserve (B.given (B.allocator b.buffer)) b n
  tryReserve w b n := BitmapOf.tryReserve (B.given (B.allocator b.buffer)) w b n
  tryExtend w b s := BitmapOf.tryExtend (B.given (B.allocator b.buffer)) w b s
  truncate b n := (b.truncate n, .ok)
  -- src/bitmap/mod.rs:538-540
  allocator b := B.allocator b.buffer
  -- src/bitmap/mod.rs:448-454
  withCapIn a n := BitmapOf.withCap (B.given a) n
  -- src/bitmap/mod.rs:456-469
  fromIterIn a w s := BitmapOf.fromIterIn (B.given a) w s
  -- src/bitmap/mod.rs:471-479
  tryWithCapIn a w n := BitmapOf.tryWithCap (B.given a) w n
  -- src/bitmap/mod.rs:481-497
  tryFromIterIn a w s := BitmapOf.tryFromIter (B.given a) w s

/-- `Flatten<C, N>` (src/collection/flatten.rs:136-146, 185-235). -/
@[reducible] def flattenA (n : Nat) (R : AllocR A O) : AllocR A (FixArr O n) where
  toColl := flattenC n R.toColl
  dflt := (flattenR n (R.given d)).dflt
  empty := ⟨R.empty⟩
  pulled s := Src.items s
  fromIter w s := (flattenR n (R.given d)).fromIter w s
  extend c s := (flattenR n (R.given (R.allocator c.child))).extend c s
  reserve c k := (flattenR n (R.given (R.allocator c.child))).reserve c k
  tryReserve w c k := (flattenR n (R.given (R.allocator c.child))).tryReserve w c k
  tryExtend w c s := (flattenR n (R.given (R.allocator c.child))).tryExtend w c s
  truncate c k := (flattenR n (R.given (R.allocator c.child))).truncate c k
  -- src/collection/flatten.rs:210-212
  allocator c := R.allocator c.child
  -- src/collection/flatten.rs:188-190
  withCapIn a k := (flattenR n (R.given a)).withCap k
  -- src/collection/flatten.rs:192-194
  fromIterIn a w s := (flattenR n (R.given a)).fromIterIn w s
  -- src/collection/flatten.rs:196-199
  tryWithCapIn a w k := (flattenR n (R.given a)).tryWithCap w k
  -- src/collection/flatten.rs:201-206
  tryFromIterIn a w s := (flattenR n (R.given a)).tryFromIter w s

/-- `Validity<T, Storage>` (src/validity.rs:340-566). The functions on `&mut self`
may create the bitmap (`materialize_bitmap`, `try_materialize_bitmap`,
src/validity.rs:347-366): with `self.collection.allocator()`. -/
@[reducible] def validityA (env : World) (B : AllocB A Byte) (R : AllocR A O) : AllocR A (Option O) where
  toColl := validityBC (bitmapBC B.toBuf) R.toColl
  dflt := none
  empty := ⟨R.empty, none⟩
  pulled s := R.pulled s
  -- src/validity.rs:375-387: `Bitmap::with_capacity`, and `collect` of the collection
  fromIter w s := ValidityOf.fromIterWith (B.given d) (R.given d) R.fromIter w s
  extend v s :=
    ValidityOf.extend (B.given (R.allocator v.coll)) (R.given (R.allocator v.coll)) env v s
  reserve v n :=
    ValidityOf.reserve (B.given (R.allocator v.coll)) (R.given (R.allocator v.coll)) env v n
  tryReserve w v n :=
    ValidityOf.tryReserve (B.given (R.allocator v.coll)) (R.given (R.allocator v.coll)) w v n
  tryExtend w v s :=
    ValidityOf.tryExtend (B.given (R.allocator v.coll)) (R.given (R.allocator v.coll)) w v s
  truncate v n :=
    ValidityOf.truncate (B.given (R.allocator v.coll)) (R.given (R.allocator v.coll)) v n
  -- src/validity.rs:498-500
  allocator v := R.allocator v.coll
  -- src/validity.rs:446-453
  withCapIn a n := ValidityOf.withCap (B.given a) (R.given a) n
  -- src/validity.rs:455-470
  fromIterIn a w s := ValidityOf.fromIterWith (B.given a) (R.given a) (R.fromIterIn a) w s
  -- src/validity.rs:472-479
  tryWithCapIn a w n := ValidityOf.tryWithCap (B.given a) (R.given a) w n
  -- src/validity.rs:481-490
  tryFromIterIn a w s := ValidityOf.tryFromIter (B.given a) (R.given a) w s

/-- `Offsets<T, OffsetItem, Storage>` (src/offset.rs:306-424, 486-559). -/
@[reducible] def offsetsA (ow : OffW) (D : AllocB A Int) (R : AllocR A O) : AllocR A (List O) where
  toColl := offsetsBC D.toBuf R.toColl
  dflt := []
  -- src/offset.rs:312-320
  empty := OffsetsIn.empty (D.given d) (R.given d)
  pulled s := Src.items s
  -- src/offset.rs:419-423
  fromIter w s := (OffsetsIn.fromIter ow (D.given d) (R.given d) s, w)
  extend c s := OffsetsIn.extend ow (D.given (D.allocator c.offsets)) (R.given (R.allocator c.data)) c s
  reserve c n := OffsetsIn.reserve (D.given (D.allocator c.offsets)) (R.given (R.allocator c.data)) c n
  tryReserve w c n :=
    OffsetsIn.tryReserve (D.given (D.allocator c.offsets)) (R.given (R.allocator c.data)) w c n
  tryExtend w c s :=
    OffsetsIn.tryExtend ow (D.given (D.allocator c.offsets)) (R.given (R.allocator c.data)) w c s
  truncate c n := OffsetsIn.truncate (D.given (D.allocator c.offsets)) (R.given (R.allocator c.data)) c n
  -- src/offset.rs:495-497
  allocator c := R.allocator c.data
  -- src/offset.rs:334-344
  withCapIn a n := OffsetsIn.withCap (D.given a) (R.given a) n
  -- src/offset.rs:346-352
  fromIterIn a w s := OffsetsIn.fromIterIn ow (D.given a) (R.given a) w s
  -- src/offset.rs:354-364
  tryWithCapIn a w n := OffsetsIn.tryWithCap (D.given a) (R.given a) w n
  -- src/offset.rs:366-375
  tryFromIterIn a w s := OffsetsIn.tryFromIter ow (D.given a) (R.given a) w s

/-- The newtypes `Array` and the layouts around a collection: `allocator` and the
constructors forward to it, `self.0.allocator()` and `C::with_capacity_in(capacity,
alloc)` (src/array.rs:165-191, src/layout/boolean.rs:161-187,
src/layout/fixed_size_primitive.rs:170-197, src/layout/fixed_size_list.rs:193-230,
src/layout/variable_size_list.rs:180-221). `Model/Newtypes` writes the others out; a
newtype is a synonym here as there. -/
@[reducible] def newtypeA (R : AllocR A O) : AllocR A O where
  toColl := R.toColl
  dflt := R.dflt
  empty := Array.fromBuffer R.empty
  pulled s := R.pulled s
  fromIter w s := ((R.fromIter w s).1.mapOk Array.fromBuffer, (R.fromIter w s).2)
  extend self s :=
    let r := R.extend (Array.intoBuffer self) s
    (Array.fromBuffer r.1, r.2)
  reserve self n :=
    let r := R.reserve (Array.intoBuffer self) n
    (Array.fromBuffer r.1, r.2)
  tryReserve w self n :=
    let r := R.tryReserve w (Array.intoBuffer self) n
    (Array.fromBuffer r.1, r.2)
  tryExtend w self s :=
    let r := R.tryExtend w (Array.intoBuffer self) s
    (Array.fromBuffer r.1, r.2)
  truncate self n :=
    let r := R.truncate (Array.intoBuffer self) n
    (Array.fromBuffer r.1, r.2)
  allocator self := R.allocator (Array.intoBuffer self)
  withCapIn a n := (R.withCapIn a n).mapOk Array.fromBuffer
  fromIterIn a w s := ((R.fromIterIn a w s).1.mapOk Array.fromBuffer, (R.fromIterIn a w s).2)
  tryWithCapIn a w n := ((R.tryWithCapIn a w n).1.mapOk Array.fromBuffer, (R.tryWithCapIn a w n).2)
  tryFromIterIn a w s :=
    ((R.tryFromIterIn a w s).1.mapOk Array.fromBuffer, (R.tryFromIterIn a w s).2)

end

/-- A storage whose allocator is `()` (`type Alloc = ()`, src/collection/vec.rs:43). -/
@[reducible] def Backing.unit {α : Type} (B : Backing α) : AllocB Unit α where
  toColl := B.toColl
  dflt := B.dflt
  empty := B.empty
  pulled s := B.pulled s
  fromIter := B.fromIter
  extend := B.extend
  reserve := B.reserve
  tryReserve := B.tryReserve
  tryExtend := B.tryExtend
  truncate := B.truncate
  allocator _ := ()
  withCapIn _ := B.withCap
  fromIterIn _ := B.fromIterIn
  tryWithCapIn _ := B.tryWithCap
  tryFromIterIn _ := B.tryFromIter
  borrow := B.borrow
  write := B.write

/-- `Vec<T>`, `type Alloc = ()` (src/collection/vec.rs:42-77). -/
@[reducible] def vecA {α : Type} (lim : Nat) (dflt : α) : AllocB Unit α := (vecB lim dflt).unit

end Narrow
