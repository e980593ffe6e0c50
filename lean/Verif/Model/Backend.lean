import Verif.Model.Storage

/-!
# Storages written by users

`Buffer` (src/buffer.rs:27-31) is a public trait: `Bitmap`, `Validity` and `Offsets`
work over any type that can be borrowed as a slice and implements the collection
traits. The definitions below are the same functions as in `Model/Bitmap`,
`Model/Validity` and `Model/Offsets`, but every access to a buffer goes through the
operations of a given storage: `borrow()` for reading, `borrow_mut()` for writing
in place, and the collection traits for everything else.

Simplifications: which allocator a constructor is given is left out here
(`Model/Alloc` adds it), and writing through `borrow_mut()` is one step which
replaces the slice by a slice of the same length.
-/

namespace Narrow

/-- `Storage::For<T>` with `Borrow<[T]> + Collection<Owned = T>` (src/buffer.rs:27-31). -/
structure Buf (α : Type) extends Coll α where
  /-- `Borrow<[T]>::borrow` -/
  borrow : C → List α

/-- `Storage::For<T>` with `BorrowMut<[T]> + CollectionRealloc` in addition (the
bounds at src/bitmap/mod.rs:340, 535, src/validity.rs:340-346, src/offset.rs:310, 331). -/
structure Backing (α : Type) extends Realloc α where
  /-- `Borrow<[T]>::borrow` -/
  borrow : C → List α
  /-- The storage after the slice of `BorrowMut<[T]>::borrow_mut` was overwritten by
  another slice of the same length. -/
  write : C → List α → C

/-- The reading side of a growable storage (src/buffer.rs:24-28). -/
@[reducible] def Backing.toBuf {α : Type} (B : Backing α) : Buf α :=
  { B.toColl with borrow := B.borrow }

/-- The owned iterator of a collection (`into_iter_owned`, src/collection/mod.rs:105).
-/
@[reducible] def Coll.own {O : Type} (K : Coll O) : OwnIt K.C O := ⟨K.J, K.into, K.jnext, K.jlen⟩

/-! ## Bitmaps (src/bitmap/mod.rs) -/

/-- `Bitmap<Storage>` (src/bitmap/mod.rs:100-114). -/
structure BitmapOf (C : Type) where
  buffer : C
  bits : Nat
  offset : Nat

namespace BitmapOf

/-- The bitmap as its borrowed bytes show it (fields of src/bitmap/mod.rs:100-114
through `Borrow`, src/buffer.rs:24-28). -/
def seen (B : Buf Byte) (b : BitmapOf B.C) : Bitmap :=
  ⟨⟨B.borrow b.buffer, (B.borrow b.buffer).length⟩, b.bits, b.offset⟩

/-- `Bitmap::try_from_parts` (src/bitmap/mod.rs:153-172). -/
def tryFromParts (B : Buf Byte) (buffer : B.C) (bits offset : Nat) :
    Except BitmapError (BitmapOf B.C) :=
  let bytes := (B.borrow buffer).length
  let capacity := satMul bytes 8
  match checkedAdd offset bits with
  | some required =>
    if required ≤ capacity then .ok ⟨buffer, bits, offset⟩ else .error ⟨offset, bits, bytes⟩
  | none => .error ⟨offset, bits, bytes⟩

end BitmapOf

/-- `impl Collection for Bitmap<Storage>` (src/bitmap/mod.rs:305-337, 414-443): views and
the borrowing iterator read the borrowed bytes, the owned iterator consumes the
storage. -/
@[reducible] def bitmapBC (B : Buf Byte) : Coll Bool where
  C := BitmapOf B.C
  V := Bool
  I := BitIter
  J := BitIterOf B.J
  len b := .ok b.bits
  view b i := (b.seen B).view i
  toOwned v := .ok v
  iter b := .ok (b.seen B).iter
  inext it := .ok it.next
  ilen it := it.len
  into b := (B.into b.buffer).map fun it => ⟨⟨it, none, 1#8⟩, b.offset, b.bits⟩
  jnext it := it.next B.toColl.own
  jlen it := it.len B.toColl.own

namespace BitmapOf

variable (B : Backing Byte)

/-- `Extend::extend` (src/bitmap/mod.rs:339-392). -/
def extend (b : BitmapOf B.C) (src : Src Bool) : BitmapOf B.C × Out :=
  match Bitmap.phase1 (b.seen B.toBuf) src.fuse with
  | (b1, _, true) => (⟨B.write b.buffer b1.buffer.items, b1.bits, b1.offset⟩, .panic)
  | (b1, s1, false) =>
    match Bitmap.phase2 b1 s1 with
    | none => (⟨B.write b.buffer b1.buffer.items, b1.bits, b1.offset⟩, .ok)
    | some (buf, _, _, true) => (⟨B.write b.buffer buf, b1.bits, b1.offset⟩, .panic)
    | some (buf, packed, consumed, false) =>
      match B.extend (B.write b.buffer buf) packed with
      | (buf', .ok) =>
        match strictAdd b1.bits consumed with
        | .ok bits => (⟨buf', bits, b1.offset⟩, .ok)
        | .panic => (⟨buf', b1.bits, b1.offset⟩, .panic)
      | (buf', _) => (⟨buf', b1.bits, b1.offset⟩, .panic)

/-- `CollectionRealloc::try_extend` (src/bitmap/mod.rs:549-594). -/
def tryExtend (w : World) (b : BitmapOf B.C) (src : Src Bool) : BitmapOf B.C × Out × World :=
  match Bitmap.phase1 (b.seen B.toBuf) src.fuse with
  | (b1, _, true) => (⟨B.write b.buffer b1.buffer.items, b1.bits, b1.offset⟩, .panic, w)
  | (b1, s1, false) =>
    match Bitmap.phase2 b1 s1 with
    | none => (⟨B.write b.buffer b1.buffer.items, b1.bits, b1.offset⟩, .ok, w)
    | some (buf, _, _, true) => (⟨B.write b.buffer buf, b1.bits, b1.offset⟩, .panic, w)
    | some (buf, packed, consumed, false) =>
      match B.tryExtend w (B.write b.buffer buf) packed with
      | (buf', .err, w') => (⟨buf', b.bits, b1.offset⟩, .err, w')
      | (buf', .panic, w') => (⟨buf', b1.bits, b1.offset⟩, .panic, w')
      | (buf', .ok, w') =>
        match strictAdd b1.bits consumed with
        | .ok bits => (⟨buf', bits, b1.offset⟩, .ok, w')
        | .panic => (⟨buf', b1.bits, b1.offset⟩, .panic, w')

/-- The bitmap around a constructed buffer (`Self { buffer, bits, offset: 0 }`,
src/bitmap/mod.rs:464-468 and 472-478). -/
def around {C : Type} (bits : Nat) : Try C → Try (BitmapOf C)
  | .ok buf => .ok ⟨buf, bits, 0⟩
  | .err => .err
  | .panic => .panic

/-- `FromIterator::from_iter` (src/bitmap/mod.rs:394-412). The source is not fused. -/
def fromIter (w : World) (s : Src Bool) : Try (BitmapOf B.C) × World :=
  (around (pack s).2 (B.fromIter w (pack s).1).1, (B.fromIter w (pack s).1).2)

/-- `from_iter_in` (src/bitmap/mod.rs:456-469). -/
def fromIterIn (w : World) (s : Src Bool) : Try (BitmapOf B.C) × World :=
  (around (pack s).2 (B.fromIterIn w (pack s).1).1,
    (B.fromIterIn w (pack s).1).2)

/-- `try_from_iter_in` (src/bitmap/mod.rs:481-497). -/
def tryFromIter (w : World) (s : Src Bool) : Try (BitmapOf B.C) × World :=
  (around (pack s).2 (B.tryFromIter w (pack s).1).1,
    (B.tryFromIter w (pack s).1).2)

/-- `with_capacity_in` (src/bitmap/mod.rs:448-454). -/
def withCap (n : Nat) : Try (BitmapOf B.C) := around 0 (B.withCap (bytesForBits n))

/-- `try_with_capacity_in` (src/bitmap/mod.rs:471-479). -/
def tryWithCap (w : World) (n : Nat) : Try (BitmapOf B.C) × World :=
  (around 0 (B.tryWithCap w (bytesForBits n)).1, (B.tryWithCap w (bytesForBits n)).2)

/-- `all_set_in` (src/bitmap/mod.rs:502-511). -/
def allSet (w : World) (bits : Nat) : Try (BitmapOf B.C) × World :=
  (around bits (B.fromIterIn w (Src.ofList (Bitmap.allSetBytes bits))).1,
    (B.fromIterIn w (Src.ofList (Bitmap.allSetBytes bits))).2)

/-- `try_all_set_in` (src/bitmap/mod.rs:514-524). -/
def tryAllSet (w : World) (bits : Nat) : Try (BitmapOf B.C) × World :=
  (around bits (B.tryFromIter w (Src.ofList (Bitmap.allSetBytes bits))).1,
    (B.tryFromIter w (Src.ofList (Bitmap.allSetBytes bits))).2)

/-- `try_reserve` (src/bitmap/mod.rs:542-547). -/
def tryReserve (w : World) (b : BitmapOf B.C) (n : Nat) : BitmapOf B.C × Out × World :=
  match (b.seen B.toBuf).trailingBits with
  | .panic => (b, .panic, w)
  | .ok t =>
    if t ≤ n then
      match B.tryReserve w b.buffer (bytesForBits (n - t)) with
      | (buf, out, w') => ({ b with buffer := buf }, out, w')
    else (b, .ok, w)

/-- `reserve` (src/bitmap/mod.rs:596-600). -/
def reserve (b : BitmapOf B.C) (n : Nat) : BitmapOf B.C × Out :=
  match (b.seen B.toBuf).trailingBits with
  | .panic => (b, .panic)
  | .ok t =>
    if t ≤ n then
      match B.reserve b.buffer (bytesForBits (n - t)) with
      | (buf, out) => ({ b with buffer := buf }, out)
    else (b, .ok)

/-- `truncate` (src/bitmap/mod.rs:602-608). -/
def truncate {C : Type} (b : BitmapOf C) (n : Nat) : BitmapOf C :=
  if n < b.bits then { b with bits := n } else b

end BitmapOf

/-- `impl Default, FromIterator, Extend, CollectionAllocIn, CollectionRealloc for
Bitmap<Storage>` (src/bitmap/mod.rs:295-303, 339-412, 445-609). -/
@[reducible] def bitmapBR (B : Backing Byte) : Realloc Bool where
  toColl := bitmapBC B.toBuf
  dflt := false
  empty := ⟨B.empty, 0, 0⟩
  pulled s := Bitmap.pulled s
  withCap n := BitmapOf.withCap B n
  fromIter w s := BitmapOf.fromIter B w s
  fromIterIn w s := BitmapOf.fromIterIn B w s
  tryWithCap w n := BitmapOf.tryWithCap B w n
  tryFromIter w s := BitmapOf.tryFromIter B w s
  extend b s := BitmapOf.extend B b s
  reserve b n := BitmapOf.reserve B b n
  tryReserve w b n := BitmapOf.tryReserve B w b n
  tryExtend w b s := BitmapOf.tryExtend B w b s
  truncate b n := (b.truncate n, .ok)

/-! ## Nullable collections (src/validity.rs) -/

/-- `Validity<T, Storage>` (src/validity.rs:70-87) with a bitmap of type `M`. -/
structure ValidityOf (C M : Type) where
  coll : C
  bitmap : Option M

namespace ValidityOf

section
variable {O : Type} (M : Coll Bool) (K : Coll O)

/-- `Validity::try_from_parts` (src/validity.rs:109-122). -/
def tryFromParts (c : K.C) (b : M.C) : Res (Except ValidityError (ValidityOf K.C M.C)) :=
  (K.len c).bind fun len => (M.len b).map fun bits =>
    if len = bits then .ok ⟨c, some b⟩ else .error ⟨len, bits⟩

/-- `Validity::from_collection` (src/validity.rs:161-166). -/
def fromCollection {C M : Type} (c : C) : ValidityOf C M := ⟨c, none⟩

/-- `Length::len` (src/validity.rs:213-219). -/
def len (v : ValidityOf K.C M.C) : Res Nat :=
  match v.bitmap with
  | some b => M.len b
  | none => K.len v.coll

/-- `Collection::view` (src/validity.rs:312-322). -/
def view (v : ValidityOf K.C M.C) (i : Nat) : Res (Option (Option K.V)) :=
  (len M K v).bind fun l =>
    if i < l then
      (K.view v.coll i).expect.bind fun value =>
        match v.bitmap with
        | none => .ok (some (some value))
        | some b => ((M.view b i).expect.bind M.toOwned).map fun valid =>
          some (if valid then some value else none)
    else .ok none

/-- `IntoIterator for &Validity` and `for Validity` (src/validity.rs:272-302): the
iterators of the collection and of the bitmap. -/
def pair {C N I J : Type} (values : C → Res I) (bits : N → Res J) (v : ValidityOf C N) :
    Res (I × Option J) :=
  (values v.coll).bind fun it =>
    match v.bitmap with
    | none => .ok (it, none)
    | some b => (bits b).map fun bi => (it, some bi)

/-- `ValidityIter::len` (src/validity.rs:265-270). -/
def pairLen {I J : Type} (values : I → Res Nat) (bits : J → Res Nat) (it : I × Option J) : Res Nat :=
  match it.2 with
  | none => values it.1
  | some b => (values it.1).bind fun n => (bits b).map fun m => min n m

end

end ValidityOf

/-- `impl Collection for Validity<T, Storage>` (src/validity.rs:213-339). The views of
a bitmap are the bits. -/
@[reducible] def validityBC {O : Type} (M : Coll Bool) (K : Coll O) : Coll (Option O) where
  C := ValidityOf K.C M.C
  V := Option K.V
  I := K.I × Option M.I
  J := K.J × Option M.J
  len v := ValidityOf.len M K v
  view v i := ValidityOf.view M K v i
  toOwned v :=
    match v with
    | none => .ok none
    | some x => (K.toOwned x).map some
  iter v := ValidityOf.pair K.iter M.iter v
  inext it := validityNext K.inext
    (fun b => (M.inext b).bind fun r =>
      match r with
      | (none, b') => .ok (none, b')
      | (some x, b') => (M.toOwned x).map fun o => (some o, b')) it
  ilen it := ValidityOf.pairLen K.ilen M.ilen it
  into v := ValidityOf.pair K.into M.into v
  jnext it := validityNext K.jnext M.jnext it
  jlen it := ValidityOf.pairLen K.jlen M.jlen it

namespace ValidityOf

variable {O : Type} (B : Backing Byte) (R : Realloc O)

/-- A nullable collection whose bitmap is kept in `B` (`Validity<T, Storage>`,
src/validity.rs:46-52). -/
abbrev Of := ValidityOf R.C (BitmapOf B.C)

/-- `materialize_bitmap` (src/validity.rs:347-353). `env` is what the allocator of
the storage answers in `from_iter_in`; it is the same for every call. -/
def materialize (env : World) (v : Of B R) : Res (BitmapOf B.C) :=
  match v.bitmap with
  | some b => .ok b
  | none =>
    match R.len v.coll with
    | .panic => .panic
    | .ok l =>
      match (BitmapOf.allSet B env l).1 with
      | .ok b => .ok b
      | _ => .panic

/-- `try_materialize_bitmap` (src/validity.rs:357-366). -/
def tryMaterialize (w : World) (v : Of B R) : Try (BitmapOf B.C) × World :=
  match v.bitmap with
  | some b => (.ok b, w)
  | none =>
    match R.len v.coll with
    | .panic => (.panic, w)
    | .ok l => BitmapOf.tryAllSet B w l

/-- `inspect(|opt| bitmap.extend(once(opt.is_some())))` (src/validity.rs:379-381,
460-463). -/
def pushBits (b : BitmapOf B.C) : List Bool → BitmapOf B.C × Out
  | [] => (b, .ok)
  | x :: xs =>
    match BitmapOf.extend B b [.item x] with
    | (b', .ok) => pushBits b' xs
    | (b', o) => (b', o)

/-- The chunk loop of `extend` (src/validity.rs:414-435). -/
def extendLoop (c : R.C) (b : BitmapOf B.C) (s : Src (Option O)) : Of B R × Out :=
  match R.extend c (Validity.values R.dflt (Src.takeChunk validityChunk s).1) with
  | (c', .ok) =>
    match BitmapOf.extend B b (Src.ofList (Validity.flags (Src.takeChunk validityChunk s).1)) with
    | (b', .ok) =>
      if _h : (Validity.flags (Src.takeChunk validityChunk s).1).length < validityChunk then
        (⟨c', some b'⟩, .ok)
      else extendLoop c' b' (Src.takeChunk validityChunk s).2
    | (b', o) => (⟨c', some b'⟩, o)
  | (c', o) => (⟨c', some b⟩, o)
termination_by s.length
decreasing_by
  have h1 := Validity.takeChunk_length validityChunk s
  simp only [Validity.flags, List.length_map, validityChunk] at *
  omega

/-- `Extend::extend` (src/validity.rs:400-436). -/
def extend (env : World) (v : Of B R) (s : Src (Option O)) : Of B R × Out :=
  match materialize B R env v with
  | .panic => (v, .panic)
  | .ok b =>
    match R.truncate v.coll b.bits with
    | (c, .ok) => extendLoop B R c b s
    | (c, o) => (⟨c, some b⟩, o)

/-- `truncate` (src/validity.rs:560-565). -/
def truncate (v : Of B R) (n : Nat) : Of B R × Out :=
  let r := R.truncate v.coll n
  (⟨r.1, v.bitmap.map (·.truncate n)⟩, r.2)

/-- `self.truncate(len); return Err(error)` (src/validity.rs:531-532, 540-541). -/
def rollback (v : Of B R) (len : Nat) (w : World) : Of B R × Out × World :=
  match truncate B R v len with
  | (v', .ok) => (v', .err, w)
  | (v', o) => (v', o, w)

/-- The chunk loop of `try_extend` (src/validity.rs:519-547). -/
def tryExtendLoop (len0 : Nat) (w : World) (c : R.C) (b : BitmapOf B.C) (s : Src (Option O)) :
    Of B R × Out × World :=
  match R.tryExtend w c (Validity.values R.dflt (Src.takeChunk validityChunk s).1) with
  | (c', .ok, w') =>
    match BitmapOf.tryExtend B w' b
        (Src.ofList (Validity.flags (Src.takeChunk validityChunk s).1)) with
    | (b', .ok, w'') =>
      if _h : (Validity.flags (Src.takeChunk validityChunk s).1).length < validityChunk then
        (⟨c', some b'⟩, .ok, w'')
      else tryExtendLoop len0 w'' c' b' (Src.takeChunk validityChunk s).2
    | (b', .err, w'') => rollback B R ⟨c', some b'⟩ len0 w''
    | (b', .panic, w'') => (⟨c', some b'⟩, .panic, w'')
  | (c', .err, w') => rollback B R ⟨c', some b⟩ len0 w'
  | (c', .panic, w') => (⟨c', some b⟩, .panic, w')
termination_by s.length
decreasing_by
  have h1 := Validity.takeChunk_length validityChunk s
  simp only [Validity.flags, List.length_map, validityChunk] at *
  omega

/-- `try_extend` (src/validity.rs:511-549). -/
def tryExtend (w : World) (v : Of B R) (s : Src (Option O)) : Of B R × Out × World :=
  match len (bitmapBC B.toBuf) R.toColl v with
  | .panic => (v, .panic, w)
  | .ok l =>
    match tryMaterialize B R w v with
    | (.panic, w') => (v, .panic, w')
    | (.err, w') => (v, .err, w')
    | (.ok b, w') =>
      match R.truncate v.coll l with
      | (c, .ok) => tryExtendLoop B R l w' c b s
      | (c, o) => (⟨c, some b⟩, o, w')

/-- `reserve` (src/validity.rs:551-558). -/
def reserve (env : World) (v : Of B R) (n : Nat) : Of B R × Out :=
  match materialize B R env v with
  | .panic => (v, .panic)
  | .ok b =>
    match BitmapOf.reserve B b n with
    | (b', .ok) =>
      let r := R.reserve v.coll n
      (⟨r.1, some b'⟩, r.2)
    | (b', o) => (⟨v.coll, some b'⟩, o)

/-- `try_reserve` (src/validity.rs:502-509). -/
def tryReserve (w : World) (v : Of B R) (n : Nat) : Of B R × Out × World :=
  match tryMaterialize B R w v with
  | (.panic, w') => (v, .panic, w')
  | (.err, w') => (v, .err, w')
  | (.ok b, w') =>
    match R.tryReserve w' v.coll n with
    | (c, .ok, w'') =>
      let r := BitmapOf.tryReserve B w'' b n
      (⟨c, some r.1⟩, r.2.1, r.2.2)
    | (c, o, w'') => (⟨c, some b⟩, o, w'')

/-- `from_iter`/`from_iter_in` (src/validity.rs:375-387, 455-470), given the
collection's own constructor. -/
def fromIterWith (mk : World → Src O → Try R.C × World) (w : World) (s : Src (Option O)) :
    Try (Of B R) × World :=
  match BitmapOf.withCap B (w.capHint s.items.length) with
  | .ok b =>
    match mk w.next (Validity.values R.dflt s) with
    | (.ok c, w') =>
      match pushBits B b ((R.pulled s).map Option.isSome) with
      | (b', .ok) => (.ok ⟨c, some b'⟩, w')
      | _ => (.panic, w')
    | (.err, w') => (.err, w')
    | (.panic, w') => (.panic, w')
  | _ => (.panic, w)

/-- `with_capacity_in` (src/validity.rs:446-453). -/
def withCap (n : Nat) : Try (Of B R) :=
  match R.withCap n with
  | .ok c =>
    match BitmapOf.withCap B n with
    | .ok b => .ok ⟨c, some b⟩
    | .err => .err
    | .panic => .panic
  | .err => .err
  | .panic => .panic

/-- `try_with_capacity_in` (src/validity.rs:472-479). -/
def tryWithCap (w : World) (n : Nat) : Try (Of B R) × World :=
  match R.tryWithCap w n with
  | (.ok c, w') =>
    match BitmapOf.tryWithCap B w' n with
    | (.ok b, w'') => (.ok ⟨c, some b⟩, w'')
    | (.err, w'') => (.err, w'')
    | (.panic, w'') => (.panic, w'')
  | (.err, w') => (.err, w')
  | (.panic, w') => (.panic, w')

/-- `try_from_iter_in` (src/validity.rs:481-490). -/
def tryFromIter (w : World) (s : Src (Option O)) : Try (Of B R) × World :=
  match tryWithCap B R w.next (w.capHint s.items.length) with
  | (.ok v, w') =>
    match tryExtend B R w' v s with
    | (v', .ok, w'') => (.ok v', w'')
    | (_, .err, w'') => (.err, w'')
    | (_, .panic, w'') => (.panic, w'')
  | (.err, w') => (.err, w')
  | (.panic, w') => (.panic, w')

end ValidityOf

/-- `impl Default, FromIterator, Extend, CollectionAllocIn, CollectionRealloc for
Validity<T, Storage>` (src/validity.rs:197-204, 369-566). -/
@[reducible] def validityBR {O : Type} (env : World) (B : Backing Byte) (R : Realloc O) : Realloc (Option O) where
  toColl := validityBC (bitmapBC B.toBuf) R.toColl
  dflt := none
  empty := ⟨R.empty, none⟩
  pulled s := R.pulled s
  withCap n := ValidityOf.withCap B R n
  fromIter w s := ValidityOf.fromIterWith B R R.fromIter w s
  fromIterIn w s := ValidityOf.fromIterWith B R R.fromIterIn w s
  tryWithCap w n := ValidityOf.tryWithCap B R w n
  tryFromIter w s := ValidityOf.tryFromIter B R w s
  extend v s := ValidityOf.extend B R env v s
  reserve v n := ValidityOf.reserve B R env v n
  tryReserve w v n := ValidityOf.tryReserve B R w v n
  tryExtend w v s := ValidityOf.tryExtend B R w v s
  truncate v n := ValidityOf.truncate B R v n

/-! ## Variable-length grouping (src/offset.rs) -/

/-- `Offsets<T, OffsetItem, Storage>` (src/offset.rs:121-131). -/
structure OffsetsIn (C D : Type) where
  data : C
  offsets : D

/-- `OffsetView` (src/offset.rs:633-637). Only the data of the viewed collection is
read. -/
structure RowView (C : Type) where
  data : C
  start : Nat
  stop : Nat

namespace RowView

variable {O : Type}

/-- `Length::len` (src/offset.rs:687-689). -/
def len {C : Type} (v : RowView C) : Res Nat := strictSub v.stop v.start

/-- `Collection::view` (src/offset.rs:702-709). -/
def view (K : Coll O) (v : RowView K.C) (i : Nat) : Res (Option K.V) :=
  (strictAdd v.start i).bind fun idx =>
    if idx < v.stop then K.view v.data idx else .ok none

/-- `IntoOwned::into_owned` (src/offset.rs:679-681, 727-731). -/
def toOwned (K : Coll O) (v : RowView K.C) : Res (List O) :=
  v.len.bind fun l => collectRange (fun i => (view K v i).expect.bind K.toOwned) 0 l

end RowView

/-- `impl Collection for OffsetView<T, OffsetItem, Storage>` (src/offset.rs:684-732): a
list view is itself a collection of its elements. -/
@[reducible] def rowViewC {O : Type} (K : Coll O) : Coll O where
  C := RowView K.C
  V := K.V
  I := RangeIter (RowView K.C)
  J := RangeIter (RowView K.C)
  len v := v.len
  view v i := RowView.view K v i
  toOwned x := K.toOwned x
  iter v := v.len.map fun l => ⟨0, l, v⟩
  inext it := RangeIter.next (RowView.view K) it
  ilen it := it.len
  into v := v.len.map fun l => ⟨0, l, v⟩
  jnext it :=
    match RangeIter.next (RowView.view K) it with
    | .panic => .panic
    | .ok (none, it') => .ok (none, it')
    | .ok (some x, it') => (K.toOwned x).map fun o => (some o, it')
  jlen it := it.len

namespace OffsetsIn

section
variable {O : Type} (D : Buf Int) (K : Coll O)

/-- `Offsets::try_from_parts` (src/offset.rs:222-255). -/
def tryFromParts (data : K.C) (offsets : D.C) :
    Res (Except OffsetsError (OffsetsIn K.C D.C)) :=
  match D.borrow offsets with
  | [] => .ok (.error .empty)
  | first :: rest =>
    if first < 0 then .ok (.error (.negative 0))
    else if first.toNat ≠ 0 then .ok (.error (.nonZeroFirst first.toNat))
    else
      match Offsets.checkRest 1 first.toNat rest with
      | .error e => .ok (.error e)
      | .ok last =>
        (K.len data).map fun l =>
          if last > l then .error (.outOfBounds last l) else .ok ⟨data, offsets⟩

/-- `Length::len` (src/offset.rs:429-431). -/
def len {C : Type} (c : OffsetsIn C D.C) : Res Nat :=
  (D.len c.offsets).bind fun n => strictSub n 1

/-- `Collection::view` (src/offset.rs:444-452). The offsets are read through
`Collection::owned` of the storage. -/
def view {C : Type} (c : OffsetsIn C D.C) (i : Nat) : Res (Option (RowView C)) :=
  (D.toColl.owned c.offsets i).bind fun s =>
    (strictAdd i 1).bind fun j =>
      (D.toColl.owned c.offsets j).bind fun e =>
        match s, e with
        | some s, some e =>
          (asUsize s).bind fun s' => (asUsize e).map fun e' => some ⟨c.data, s', e'⟩
        | _, _ => .ok none

/-- `into_iter_owned` (src/offset.rs:471-483). -/
def into {C : Type} (c : OffsetsIn C D.C) : Res (OffsetIntoIterOf C D.J) :=
  (D.into c.offsets).bind fun it =>
    (D.jnext it).bind fun r =>
      match r with
      | (none, _) => .panic
      | (some p, it') => .ok ⟨c.data, it', p⟩

/-- `OffsetIntoIter::next` (src/offset.rs:590-599). -/
def intoNext (it : OffsetIntoIterOf K.C D.J) : Res (Option (List O) × OffsetIntoIterOf K.C D.J) :=
  (D.jnext it.offsets).bind fun r =>
    match r with
    | (none, o) => .ok (none, ⟨it.data, o, it.position⟩)
    | (some e, o) =>
      (asUsize it.position).bind fun s => (asUsize e).bind fun e' =>
        (collectRange (fun i => (K.view it.data i).expect.bind K.toOwned) s (e' - s)).map
          fun l => (some l, ⟨it.data, o, e⟩)

end

end OffsetsIn

/-- `impl Collection for Offsets<T, OffsetItem, Storage>` (src/offset.rs:426-484). -/
@[reducible] def offsetsBC {O : Type} (D : Buf Int) (K : Coll O) : Coll (List O) where
  C := OffsetsIn K.C D.C
  V := RowView K.C
  I := RangeIter (OffsetsIn K.C D.C)
  J := OffsetIntoIterOf K.C D.J
  len c := OffsetsIn.len D c
  view c i := OffsetsIn.view D c i
  toOwned v := RowView.toOwned K v
  iter c := (OffsetsIn.len D c).map fun l => ⟨0, l, c⟩
  inext it := RangeIter.next (OffsetsIn.view D) it
  ilen it := it.len
  into c := OffsetsIn.into D c
  jnext it := OffsetsIn.intoNext D K it
  jlen it := D.jlen it.offsets

namespace OffsetsIn

variable {O : Type} (ow : OffW) (D : Backing Int) (R : Realloc O)

/-- Lists of `R` with offsets kept in `D` (`Offsets<T, OffsetItem, Storage, U>`,
src/offset.rs:121-131). -/
abbrev Of := OffsetsIn R.C D.C

/-- The last offset (src/offset.rs:388-393, 510-515). -/
def last {C : Type} (c : OffsetsIn C D.C) : Res Int :=
  match (D.borrow c.offsets).getLast? with
  | some p => .ok p
  | none => .panic

/-- The loop of `extend` (src/offset.rs:399-405). -/
def extendLoop (data : R.C) (offsets : D.C) (position : Int) : Src (List O) → Of D R × Out
  | [] => (⟨data, offsets⟩, .ok)
  | .none :: _ => (⟨data, offsets⟩, .ok)
  | .panic :: _ => (⟨data, offsets⟩, .panic)
  | .item row :: s =>
    if row.length ≤ ow.max ∧ position + row.length ≤ ow.max then
      match R.reserve data row.length with
      | (data1, .ok) =>
        match R.extend data1 (Src.ofList row) with
        | (data2, .ok) =>
          match D.extend offsets [.item (position + row.length)] with
          | (offsets', .ok) => extendLoop data2 offsets' (position + row.length) s
          | (offsets', o) => (⟨data2, offsets'⟩, o)
        | (data2, o) => (⟨data2, offsets⟩, o)
      | (data1, o) => (⟨data1, offsets⟩, o)
    else (⟨data, offsets⟩, .panic)

/-- `Extend::extend` (src/offset.rs:387-406). -/
def extend (c : Of D R) (s : Src (List O)) : Of D R × Out :=
  match last D c with
  | .panic => (c, .panic)
  | .ok position =>
    match asUsize position with
    | .panic => (c, .panic)
    | .ok n =>
      match R.truncate c.data n with
      | (data, .ok) => extendLoop ow D R data c.offsets position s
      | (data, o) => (⟨data, c.offsets⟩, o)

/-- The error exits of `try_extend` (src/offset.rs:526-528, 531-533, 536-538). -/
def rollback (data : R.C) (offsets : D.C) (rows dataLen : Nat) (w : World) :
    Of D R × Out × World :=
  match strictAdd rows 1 with
  | .panic => (⟨data, offsets⟩, .panic, w)
  | .ok k =>
    match D.truncate offsets k with
    | (offsets', .ok) =>
      match R.truncate data dataLen with
      | (data', .ok) => (⟨data', offsets'⟩, .err, w)
      | (data', o) => (⟨data', offsets'⟩, o, w)
    | (offsets', o) => (⟨data, offsets'⟩, o, w)

/-- The loop of `try_extend` (src/offset.rs:519-541). -/
def tryExtendLoop (rows dataLen : Nat) (w : World) (data : R.C) (offsets : D.C) (position : Int) :
    Src (List O) → Of D R × Out × World
  | [] => (⟨data, offsets⟩, .ok, w)
  | .none :: _ => (⟨data, offsets⟩, .ok, w)
  | .panic :: _ => (⟨data, offsets⟩, .panic, w)
  | .item row :: s =>
    match asUsize position with
    | .panic => (⟨data, offsets⟩, .panic, w)
    | .ok p =>
      if p + row.length ≤ usizeMax ∧ p + row.length ≤ ow.max then
        match R.tryExtend w data (Src.ofList row) with
        | (data1, .ok, w1) =>
          match D.tryExtend w1 offsets [.item ((p + row.length : Nat) : Int)] with
          | (offsets1, .ok, w2) =>
            tryExtendLoop rows dataLen w2 data1 offsets1 ((p + row.length : Nat) : Int) s
          | (offsets1, .err, w2) => rollback D R data1 offsets1 rows dataLen w2
          | (offsets1, .panic, w2) => (⟨data1, offsets1⟩, .panic, w2)
        | (data1, .err, w1) => rollback D R data1 offsets rows dataLen w1
        | (data1, .panic, w1) => (⟨data1, offsets⟩, .panic, w1)
      else rollback D R data offsets rows dataLen w

/-- `try_extend` (src/offset.rs:505-543). -/
def tryExtend (w : World) (c : Of D R) (s : Src (List O)) : Of D R × Out × World :=
  match len D.toBuf c, last D c with
  | .ok rows, .ok position =>
    match asUsize position with
    | .panic => (c, .panic, w)
    | .ok dataLen =>
      match R.truncate c.data dataLen with
      | (data, .ok) => tryExtendLoop ow D R rows dataLen w data c.offsets position s
      | (data, o) => (⟨data, c.offsets⟩, o, w)
  | _, _ => (c, .panic, w)

/-- `reserve` (src/offset.rs:545-549). -/
def reserve (c : Of D R) (n : Nat) : Of D R × Out :=
  match R.reserve c.data n with
  | (data, .ok) =>
    let r := D.reserve c.offsets n
    (⟨data, r.1⟩, r.2)
  | (data, o) => (⟨data, c.offsets⟩, o)

/-- `try_reserve` (src/offset.rs:499-503). -/
def tryReserve (w : World) (c : Of D R) (n : Nat) : Of D R × Out × World :=
  match R.tryReserve w c.data n with
  | (data, .ok, w') =>
    let r := D.tryReserve w' c.offsets n
    (⟨data, r.1⟩, r.2.1, r.2.2)
  | (data, o, w') => (⟨data, c.offsets⟩, o, w')

/-- `truncate` (src/offset.rs:551-558). -/
def truncate (c : Of D R) (n : Nat) : Of D R × Out :=
  match len D.toBuf c with
  | .panic => (c, .panic)
  | .ok l =>
    if n < l then
      match (D.toColl.owned c.offsets n).expect.bind asUsize with
      | .panic => (c, .panic)
      | .ok dataLen =>
        match strictAdd n 1 with
        | .panic => (c, .panic)
        | .ok k =>
          match D.truncate c.offsets k with
          | (offsets, .ok) =>
            let r := R.truncate c.data dataLen
            (⟨r.1, offsets⟩, r.2)
          | (offsets, o) => (⟨c.data, offsets⟩, o)
    else (c, .ok)

/-- `with_capacity_in` (src/offset.rs:334-344). -/
def withCap (n : Nat) : Try (Of D R) :=
  match R.withCap n with
  | .err => .err
  | .panic => .panic
  | .ok data =>
    match strictAdd n 1 with
    | .panic => .panic
    | .ok k =>
      match D.withCap k with
      | .err => .err
      | .panic => .panic
      | .ok offsets =>
        match D.extend offsets [.item 0] with
        | (offsets', .ok) => .ok ⟨data, offsets'⟩
        | _ => .panic

/-- `Default::default` (src/offset.rs:312-320): what it returns if the storage
accepts the first offset. -/
def empty : Of D R := ⟨R.empty, (D.extend D.empty [.item 0]).1⟩

/-- `FromIterator::from_iter` (src/offset.rs:419-423). -/
def fromIter (s : Src (List O)) : Try (Of D R) :=
  match (D.extend D.empty [.item 0]).2 with
  | .ok =>
    match extend ow D R (empty D R) s with
    | (c', .ok) => .ok c'
    | _ => .panic
  | _ => .panic

/-- `from_iter_in` (src/offset.rs:346-352). -/
def fromIterIn (w : World) (s : Src (List O)) : Try (Of D R) × World :=
  match withCap D R (w.capHint s.items.length) with
  | .ok c =>
    match extend ow D R c s with
    | (c', .ok) => (.ok c', w.next)
    | _ => (.panic, w.next)
  | .err => (.err, w.next)
  | .panic => (.panic, w.next)

/-- `try_with_capacity_in` (src/offset.rs:354-364). -/
def tryWithCap (w : World) (n : Nat) : Try (Of D R) × World :=
  match checkedAdd n 1 with
  | none => (.err, w)
  | some k =>
    match R.tryWithCap w n with
    | (.err, w1) => (.err, w1)
    | (.panic, w1) => (.panic, w1)
    | (.ok data, w1) =>
      match D.tryWithCap w1 k with
      | (.err, w2) => (.err, w2)
      | (.panic, w2) => (.panic, w2)
      | (.ok offsets, w2) =>
        match D.tryExtend w2 offsets [.item 0] with
        | (offsets', .ok, w3) => (.ok ⟨data, offsets'⟩, w3)
        | (_, .err, w3) => (.err, w3)
        | (_, .panic, w3) => (.panic, w3)

/-- `try_from_iter_in` (src/offset.rs:366-375). -/
def tryFromIter (w : World) (s : Src (List O)) : Try (Of D R) × World :=
  match tryWithCap D R w.next (w.capHint s.items.length) with
  | (.ok c, w') =>
    match tryExtend ow D R w' c s with
    | (c', .ok, w'') => (.ok c', w'')
    | (_, .err, w'') => (.err, w'')
    | (_, .panic, w'') => (.panic, w'')
  | (.err, w') => (.err, w')
  | (.panic, w') => (.panic, w')

end OffsetsIn

/-- `impl Default, FromIterator, Extend, CollectionAllocIn, CollectionRealloc for
Offsets<T, OffsetItem, Storage>` (src/offset.rs:306-424, 486-559). -/
@[reducible] def offsetsBR {O : Type} (ow : OffW) (D : Backing Int) (R : Realloc O) :
    Realloc (List O) where
  toColl := offsetsBC D.toBuf R.toColl
  dflt := []
  empty := OffsetsIn.empty D R
  pulled s := Src.items s
  withCap n := OffsetsIn.withCap D R n
  fromIter w s := (OffsetsIn.fromIter ow D R s, w)
  fromIterIn w s := OffsetsIn.fromIterIn ow D R w s
  tryWithCap w n := OffsetsIn.tryWithCap D R w n
  tryFromIter w s := OffsetsIn.tryFromIter ow D R w s
  extend c s := OffsetsIn.extend ow D R c s
  reserve c n := OffsetsIn.reserve D R c n
  tryReserve w c n := OffsetsIn.tryReserve D R w c n
  tryExtend w c s := OffsetsIn.tryExtend ow D R w c s
  truncate c n := OffsetsIn.truncate D R c n

/-- The storage `Vec<T>` (src/buffer.rs:38-43, src/collection/vec.rs). -/
@[reducible] def vecB {α : Type} (lim : Nat) (dflt : α) : Backing α :=
  { vecR lim dflt with
    borrow := RVec.items
    write := fun v l => ⟨l, v.cap⟩ }

end Narrow
