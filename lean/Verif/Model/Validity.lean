import Verif.Model.Bitmap

/-!
# Nullable collections

src/validity.rs, src/bitmap/validity.rs.
-/

namespace Narrow

/-- `Validity` (src/validity.rs:70-87). -/
structure Validity (C : Type) where
  coll : C
  bitmap : Option Bitmap
  deriving DecidableEq

/-- `ValidityError::LengthMismatch` (src/validity.rs:26-56). -/
structure ValidityError where
  collection : Nat
  bitmap : Nat
  deriving DecidableEq, Repr

/-- `VALIDITY_CHUNK` (src/validity.rs:392). -/
def validityChunk : Nat := 1024

namespace Validity

variable {O : Type}

/-- `Validity::try_from_parts` (src/validity.rs:109-122). -/
def tryFromParts (K : Coll O) (c : K.C) (b : Bitmap) :
    Res (Except ValidityError (Validity K.C)) :=
  (K.len c).map fun len =>
    if len = b.bits then .ok ⟨c, some b⟩ else .error ⟨len, b.bits⟩

/-- `Validity::into_parts` (src/validity.rs:141-143). -/
def intoParts {C : Type} (v : Validity C) : C × Option Bitmap := (v.coll, v.bitmap)

/-- `Validity::from_collection` (src/validity.rs:161-166). -/
def fromCollection {C : Type} (c : C) : Validity C := ⟨c, none⟩

/-- `Length::len` (src/validity.rs:213-219). -/
def len (K : Coll O) (v : Validity K.C) : Res Nat :=
  match v.bitmap with
  | some b => .ok b.len
  | none => K.len v.coll

/-- `Collection::view` (src/validity.rs:312-322). -/
def view (K : Coll O) (v : Validity K.C) (i : Nat) : Res (Option (Option K.V)) :=
  (len K v).bind fun l =>
    if i < l then
      (K.view v.coll i).expect.bind fun value =>
        match v.bitmap with
        | none => .ok (some (some value))
        | some b => (b.view i).expect.map fun valid =>
          some (if valid then some value else none)
    else .ok none

/-- `ValidityIter::next` (src/validity.rs:237-243): the bit is read first; the
value is read only if there is a bit. -/
def iterNext {σ τ : Type} (next : σ → Res (Option τ × σ)) (it : σ × Option BitIter) :
    Res (Option (Option τ) × (σ × Option BitIter)) :=
  match it.2 with
  | none =>
    (next it.1).map fun r => (r.1.map some, (r.2, none))
  | some bits =>
    match bits.next with
    | (none, bits') => .ok (none, (it.1, some bits'))
    | (some valid, bits') =>
      (next it.1).map fun r =>
        (r.1.map fun v => if valid then some v else none, (r.2, some bits'))

/-- `ValidityIter::len` (src/validity.rs:265-270). -/
def iterLen {σ : Type} (len : σ → Res Nat) (it : σ × Option BitIter) : Res Nat :=
  match it.2 with
  | none => len it.1
  | some bits =>
    (len it.1).bind fun n => bits.len.map fun m => min n m

/-! ## Bitmap queries (src/bitmap/validity.rs) -/

/-- `null_count` (src/bitmap/validity.rs:57-60). -/
def nullCount {C : Type} (v : Validity C) : Res Nat :=
  match v.bitmap with
  | none => .ok 0
  | some b => b.countOnes.bind fun ones => strictSub b.len ones

/-- `is_valid` (src/bitmap/validity.rs:73-78). -/
def isValid (K : Coll O) (v : Validity K.C) (i : Nat) : Res (Option Bool) :=
  (len K v).bind fun l =>
    if i < l then
      match v.bitmap with
      | none => .ok (some true)
      | some b => (b.view i).expect.map some
    else .ok none

/-- `is_null` (src/bitmap/validity.rs:43-45). -/
def isNull (K : Coll O) (v : Validity K.C) (i : Nat) : Res (Option Bool) :=
  (isValid K v i).map fun o => o.map (! ·)

/-- `valid_count` (src/bitmap/validity.rs:90-92). -/
def validCount (K : Coll O) (v : Validity K.C) : Res Nat :=
  (len K v).bind fun l => (nullCount v).bind fun n => strictSub l n

/-- `iter_views().any(|valid| !valid)`: read bits until an unset one
(src/bitmap/validity.rs:106). -/
def anyUnset : Nat → BitIter → Bool
  | 0, _ => false
  | fuel + 1, it =>
    match it.next with
    | (none, _) => false
    | (some valid, it') => if valid then anyUnset fuel it' else true

/-- `any_null` (src/bitmap/validity.rs:104-107). A bitmap iterator yields at most
`bits` items. -/
def anyNull {C : Type} (v : Validity C) : Bool :=
  match v.bitmap with
  | none => false
  | some b => anyUnset (b.bits + 1) b.iter

/-- `all_null` (src/bitmap/validity.rs:119-121). -/
def allNull (K : Coll O) (v : Validity K.C) : Res Bool :=
  (nullCount v).bind fun n => (len K v).map fun l => n == l

/-- `any_valid` (src/bitmap/validity.rs:133-135). -/
def anyValid (K : Coll O) (v : Validity K.C) : Res Bool :=
  (validCount K v).map (· != 0)

/-- `all_valid` (src/bitmap/validity.rs:147-149). -/
def allValid {C : Type} (v : Validity C) : Res Bool := (nullCount v).map (· == 0)

/-! ## Growth -/

/-- `materialize_bitmap` (src/validity.rs:347-353): the bitmap to use, or a panic. -/
def materialize (K : Coll O) (v : Validity K.C) : Res Bitmap :=
  match v.bitmap with
  | some b => .ok b
  | none =>
    match K.len v.coll with
    | .panic => .panic
    | .ok l =>
      match Bitmap.allSet l with
      | .ok b => .ok b
      | _ => .panic

/-- `try_materialize_bitmap` (src/validity.rs:357-366). -/
def tryMaterialize (K : Coll O) (w : World) (v : Validity K.C) : Try Bitmap × World :=
  match v.bitmap with
  | some b => (.ok b, w)
  | none =>
    match K.len v.coll with
    | .panic => (.panic, w)
    | .ok l => Bitmap.tryAllSet w l

/-- `inspect(|opt| bitmap.extend(once(opt.is_some())))` over the items read
(src/validity.rs:379-381, 460-463): one single-bit extension per item. -/
def pushBits (b : Bitmap) : List Bool → Bitmap × Out
  | [] => (b, .ok)
  | x :: xs =>
    match b.extend [.item x] with
    | (b', .ok) => pushBits b' xs
    | (b', o) => (b', o)

/-- The validity flags of the items read from a source (src/validity.rs:380, 423 and
462). -/
def flags (s : Src (Option O)) : List Bool := s.items.map Option.isSome

/-- `.map(Option::unwrap_or_default)` (src/validity.rs:381, 426 and 463). -/
def values (d : O) (s : Src (Option O)) : Src O := s.map fun o => o.getD d

theorem takeChunk_length {α : Type} : ∀ (n : Nat) (s : Src α),
    (Src.takeChunk n s).1.items.length + (Src.takeChunk n s).2.length ≤ s.length
  | 0, s => by simp [Src.takeChunk, Src.items]
  | n + 1, [] => by simp [Src.takeChunk, Src.items]
  | n + 1, .none :: s => by simp [Src.takeChunk, Src.items]
  | n + 1, .panic :: s => by simp [Src.takeChunk, Src.items]
  | n + 1, .item a :: s => by
    have := takeChunk_length n s
    simp only [Src.takeChunk, Src.items, List.length_cons]; omega

/-- The chunk loop of `extend` (src/validity.rs:414-435). Per round at most
1024 items go to the collection, then their validity goes to the bitmap. -/
def extendLoop (R : Realloc O) (c : R.C) (b : Bitmap) (s : Src (Option O)) :
    Validity R.C × Out :=
  match R.extend c (values R.dflt (Src.takeChunk validityChunk s).1) with
  | (c', .ok) =>
    match b.extend (Src.ofList (flags (Src.takeChunk validityChunk s).1)) with
    | (b', .ok) =>
      if _h : (flags (Src.takeChunk validityChunk s).1).length < validityChunk then
        (⟨c', some b'⟩, .ok)
      else extendLoop R c' b' (Src.takeChunk validityChunk s).2
    | (b', o) => (⟨c', some b'⟩, o)
  | (c', o) => (⟨c', some b⟩, o)
termination_by s.length
decreasing_by
  have h1 := takeChunk_length validityChunk s
  simp only [flags, List.length_map, validityChunk] at *
  omega

/-- `Extend::extend` (src/validity.rs:400-436). -/
def extend (R : Realloc O) (v : Validity R.C) (s : Src (Option O)) : Validity R.C × Out :=
  match materialize R.toColl v with
  | .panic => (v, .panic)
  | .ok b =>
    match R.truncate v.coll b.len with
    | (c, .ok) => extendLoop R c b s
    | (c, o) => (⟨c, some b⟩, o)

/-- `truncate` (src/validity.rs:560-565). -/
def truncate (R : Realloc O) (v : Validity R.C) (n : Nat) : Validity R.C × Out :=
  let r := R.truncate v.coll n
  (⟨r.1, v.bitmap.map (·.truncate n)⟩, r.2)

/-- `self.truncate(len); return Err(error)` (src/validity.rs:531-532, 540-541). -/
def rollback (R : Realloc O) (v : Validity R.C) (len : Nat) (w : World) :
    Validity R.C × Out × World :=
  match truncate R v len with
  | (v', .ok) => (v', .err, w)
  | (v', o) => (v', o, w)

/-- The chunk loop of `try_extend` (src/validity.rs:519-547). -/
def tryExtendLoop (R : Realloc O) (len0 : Nat) (w : World) (c : R.C) (b : Bitmap)
    (s : Src (Option O)) : Validity R.C × Out × World :=
  match R.tryExtend w c (values R.dflt (Src.takeChunk validityChunk s).1) with
  | (c', .ok, w') =>
    match b.tryExtend w' (Src.ofList (flags (Src.takeChunk validityChunk s).1)) with
    | (b', .ok, w'') =>
      if _h : (flags (Src.takeChunk validityChunk s).1).length < validityChunk then
        (⟨c', some b'⟩, .ok, w'')
      else tryExtendLoop R len0 w'' c' b' (Src.takeChunk validityChunk s).2
    | (b', .err, w'') => rollback R ⟨c', some b'⟩ len0 w''
    | (b', .panic, w'') => (⟨c', some b'⟩, .panic, w'')
  | (c', .err, w') => rollback R ⟨c', some b⟩ len0 w'
  | (c', .panic, w') => (⟨c', some b⟩, .panic, w')
termination_by s.length
decreasing_by
  have h1 := takeChunk_length validityChunk s
  simp only [flags, List.length_map, validityChunk] at *
  omega

/-- `try_extend` (src/validity.rs:511-549). -/
def tryExtend (R : Realloc O) (w : World) (v : Validity R.C) (s : Src (Option O)) :
    Validity R.C × Out × World :=
  match len R.toColl v with
  | .panic => (v, .panic, w)
  | .ok l =>
    match tryMaterialize R.toColl w v with
    | (.panic, w') => (v, .panic, w')
    | (.err, w') => (v, .err, w')
    | (.ok b, w') =>
      match R.truncate v.coll l with
      | (c, .ok) => tryExtendLoop R l w' c b s
      | (c, o) => (⟨c, some b⟩, o, w')

/-- `reserve` (src/validity.rs:551-558). -/
def reserve (R : Realloc O) (v : Validity R.C) (n : Nat) : Validity R.C × Out :=
  match materialize R.toColl v with
  | .panic => (v, .panic)
  | .ok b =>
    match b.reserve n with
    | (b', .ok) =>
      let r := R.reserve v.coll n
      (⟨r.1, some b'⟩, r.2)
    | (b', o) => (⟨v.coll, some b'⟩, o)

/-- `try_reserve` (src/validity.rs:502-509). -/
def tryReserve (R : Realloc O) (w : World) (v : Validity R.C) (n : Nat) :
    Validity R.C × Out × World :=
  match tryMaterialize R.toColl w v with
  | (.panic, w') => (v, .panic, w')
  | (.err, w') => (v, .err, w')
  | (.ok b, w') =>
    match R.tryReserve w' v.coll n with
    | (c, .ok, w'') =>
      let r := b.tryReserve w'' n
      (⟨c, some r.1⟩, r.2.1, r.2.2)
    | (c, o, w'') => (⟨c, some b⟩, o, w'')

/-- `from_iter`/`from_iter_in` (src/validity.rs:375-387, 455-470), given the
collection's own constructor. The bitmap receives one bit per item the
collection's constructor pulls from the source. -/
def fromIterWith (R : Realloc O) (mk : World → Src O → Try R.C × World) (w : World)
    (s : Src (Option O)) : Try (Validity R.C) × World :=
  match Bitmap.withCap (w.capHint s.items.length) with
  | .ok b =>
    match mk w.next (values R.dflt s) with
    | (.ok c, w') =>
      match pushBits b ((R.pulled s).map Option.isSome) with
      | (b', .ok) => (.ok ⟨c, some b'⟩, w')
      | _ => (.panic, w')
    | (.err, w') => (.err, w')
    | (.panic, w') => (.panic, w')
  | _ => (.panic, w)

/-- `with_capacity_in` (src/validity.rs:446-453). -/
def withCap (R : Realloc O) (n : Nat) : Try (Validity R.C) :=
  match R.withCap n with
  | .ok c =>
    match Bitmap.withCap n with
    | .ok b => .ok ⟨c, some b⟩
    | .err => .err
    | .panic => .panic
  | .err => .err
  | .panic => .panic

/-- `try_with_capacity_in` (src/validity.rs:472-479). -/
def tryWithCap (R : Realloc O) (w : World) (n : Nat) : Try (Validity R.C) × World :=
  match R.tryWithCap w n with
  | (.ok c, w') =>
    match Bitmap.tryWithCap w' n with
    | (.ok b, w'') => (.ok ⟨c, some b⟩, w'')
    | (.err, w'') => (.err, w'')
    | (.panic, w'') => (.panic, w'')
  | (.err, w') => (.err, w')
  | (.panic, w') => (.panic, w')

/-- `try_from_iter_in` (src/validity.rs:481-490). -/
def tryFromIter (R : Realloc O) (w : World) (s : Src (Option O)) :
    Try (Validity R.C) × World :=
  match tryWithCap R w.next (w.capHint s.items.length) with
  | (.ok v, w') =>
    match tryExtend R w' v s with
    | (v', .ok, w'') => (.ok v', w'')
    | (_, .err, w'') => (.err, w'')
    | (_, .panic, w'') => (.panic, w'')
  | (.err, w') => (.err, w')
  | (.panic, w') => (.panic, w')

end Validity

/-- `impl Collection for Validity<T>` (src/validity.rs:213-339). -/
@[reducible] def validityC {O : Type} (K : Coll O) : Coll (Option O) where
  C := Validity K.C
  V := Option K.V
  I := K.I × Option BitIter
  J := K.J × Option BitIter
  len v := Validity.len K v
  view v i := Validity.view K v i
  -- `Option<V>: IntoOwned<Option<O>>` (src/collection/owned.rs)
  toOwned v :=
    match v with
    | none => .ok none
    | some x => (K.toOwned x).map some
  -- src/validity.rs:282-287
  iter v := (K.iter v.coll).map fun it => (it, v.bitmap.map Bitmap.iter)
  inext it := Validity.iterNext K.inext it
  ilen it := Validity.iterLen K.ilen it
  -- src/validity.rs:296-301
  into v := (K.into v.coll).map fun it => (it, v.bitmap.map Bitmap.iter)
  jnext it := Validity.iterNext K.jnext it
  jlen it := Validity.iterLen K.jlen it

/-- `impl Default, FromIterator, Extend, CollectionAllocIn, CollectionRealloc for
Validity<T>` (src/validity.rs:197-204, 369-566). -/
@[reducible] def validityR {O : Type} (R : Realloc O) : Realloc (Option O) where
  toColl := validityC R.toColl
  dflt := none
  empty := ⟨R.empty, none⟩
  pulled s := R.pulled s
  withCap n := Validity.withCap R n
  fromIter w s := Validity.fromIterWith R R.fromIter w s
  fromIterIn w s := Validity.fromIterWith R R.fromIterIn w s
  tryWithCap w n := Validity.tryWithCap R w n
  tryFromIter w s := Validity.tryFromIter R w s
  extend v s := Validity.extend R v s
  reserve v n := Validity.reserve R v n
  tryReserve w v n := Validity.tryReserve R w v n
  tryExtend w v s := Validity.tryExtend R w v s
  truncate v n := Validity.truncate R v n

end Narrow
