import Verif.Model.Coll

/-!
# Fixed-width grouping

src/collection/flatten.rs.
-/

namespace Narrow

/-- `Flatten<C, N>` (src/collection/flatten.rs:60-77): a newtype over the child. -/
structure Flatten (C : Type) where
  child : C
  deriving DecidableEq

/-- `FlattenError` (src/collection/flatten.rs:22-58). -/
inductive FlattenError where
  | zeroChunkSize
  | notMultiple (len n : Nat)
  deriving DecidableEq, Repr

namespace Flatten

variable {O : Type}

/-- `Flatten::try_from_parts` (src/collection/flatten.rs:93-102). -/
def tryFromParts (K : Coll O) (n : Nat) (child : K.C) :
    Res (Except FlattenError (Flatten K.C)) :=
  (K.len child).map fun len =>
    if n = 0 then .error .zeroChunkSize
    else if len % n = 0 then .ok ⟨child⟩
    else .error (.notMultiple len n)

/-- `Flatten::into_parts` (src/collection/flatten.rs:117-119). -/
def intoParts {C : Type} (c : Flatten C) : C := c.child

/-- `Clone for Flatten`, derived (src/collection/flatten.rs:32-33). -/
def clone {C : Type} (cloneChild : C → C) (c : Flatten C) : Flatten C := ⟨cloneChild c.child⟩

/-- `Length::len` (src/collection/flatten.rs:131-133). -/
def len (K : Coll O) (n : Nat) (c : Flatten K.C) : Res Nat :=
  (K.len c.child).bind fun l => strictDiv l n

/-- `Collection::view` (src/collection/flatten.rs:156-162): always `Some`, each
element view is expected to exist. -/
def view (K : Coll O) (n : Nat) (c : Flatten K.C) (i : Nat) :
    Res (Option (FixArr K.V n)) :=
  (FixArr.fromFn n fun idx =>
    ((strictMul i n).bind fun b => strictAdd b idx).bind fun j =>
      (K.view c.child j).expect).map some

/-- `iter.flatten()` over arrays: std fuses the outer iterator
(src/collection/flatten.rs:138 and 144). -/
def flatSrc {n : Nat} : Src (FixArr O n) → Src O
  | .item a :: s => a.1.map Ev.item ++ flatSrc s
  | .panic :: _ => [.panic]
  | _ => []

/-- Reading `k` further items of an array chunk (src/collection/flatten.rs:309-312):
missing items make the `expect` panic after all reads. -/
def chunkRest (K : Coll O) : Nat → K.J → Res (List (Option O) × K.J)
  | 0, it => .ok ([], it)
  | k + 1, it =>
    match K.jnext it with
    | .panic => .panic
    | .ok (o, it') => (chunkRest K k it').map fun r => (o :: r.1, r.2)

/-- `items.map(|item| item.expect(..))` (src/collection/flatten.rs:312). -/
def expectAll : (l : List (Option O)) → Res (FixArr O l.length)
  | [] => .ok ⟨[], rfl⟩
  | none :: _ => .panic
  | some o :: l => (expectAll l).map (FixArr.cons o)

/-- Turn a list known to have `n` elements into an array. The length always matches
where this is used; a mismatch would be a panic (src/collection/flatten.rs:302-318). -/
def toFix (n : Nat) (l : List (Option O)) : Res (FixArr O n) :=
  if h : l.length = n then h ▸ expectAll l else .panic

/-- `ArrayChunks::next` (src/collection/flatten.rs:305-313). With `n = 0` the
assignment `items[0]` is out of bounds. -/
def chunksNext (K : Coll O) (n : Nat) (it : K.J) : Res (Option (FixArr O n) × K.J) :=
  match K.jnext it with
  | .panic => .panic
  | .ok (none, it') => .ok (none, it')
  | .ok (some first, it') =>
    if n = 0 then .panic
    else
      match chunkRest K (n - 1) it' with
      | .panic => .panic
      | .ok (rest, it'') => (toFix n (some first :: rest)).map fun a => (some a, it'')

/-- `ArrayChunks::len` (src/collection/flatten.rs:320-324). -/
def chunksLen (K : Coll O) (n : Nat) (it : K.J) : Res Nat :=
  (K.jlen it).bind fun l => strictDiv l n

/-- Apply `Flatten` to the value of a constructor (src/collection/flatten.rs:198 and
205). -/
def wrapTry {C : Type} (x : Try C) : Try (Flatten C) :=
  match x with
  | .ok c => .ok ⟨c⟩
  | .err => .err
  | .panic => .panic

end Flatten

/-- `impl Collection for Flatten<C, N>` (src/collection/flatten.rs:130-183). -/
@[reducible] def flattenC {O : Type} (n : Nat) (K : Coll O) : Coll (FixArr O n) where
  C := Flatten K.C
  V := FixArr K.V n
  I := RangeIter (Flatten K.C)
  J := K.J
  len c := Flatten.len K n c
  view c i := Flatten.view K n c i
  -- src/collection/flatten.rs:279-283
  toOwned v := FixArr.map K.toOwned v
  -- src/collection/flatten.rs:172-176
  iter c := (Flatten.len K n c).map fun l => ⟨0, l, c⟩
  inext it := RangeIter.next (Flatten.view K n) it
  ilen it := it.len
  -- src/collection/flatten.rs:180-182
  into c := K.into c.child
  jnext it := Flatten.chunksNext K n it
  jlen it := Flatten.chunksLen K n it

/-- `impl FromIterator, Extend, CollectionAllocIn, CollectionRealloc for
Flatten<C, N>` (src/collection/flatten.rs:136-146, 185-235). -/
@[reducible] def flattenR {O : Type} (n : Nat) (R : Realloc O) : Realloc (FixArr O n) where
  toColl := flattenC n R.toColl
  dflt := FixArr.replicate n R.dflt
  empty := ⟨R.empty⟩
  pulled s := Src.items s
  -- src/collection/flatten.rs:188-190
  withCap k :=
    match strictMul k n with
    | .panic => .panic
    | .ok m => Flatten.wrapTry (R.withCap m)
  -- src/collection/flatten.rs:142-146
  fromIter w s :=
    let r := R.fromIter w (Flatten.flatSrc s)
    (Flatten.wrapTry r.1, r.2)
  -- src/collection/flatten.rs:192-194
  fromIterIn w s :=
    let r := R.fromIterIn w (Flatten.flatSrc s)
    (Flatten.wrapTry r.1, r.2)
  -- src/collection/flatten.rs:196-199
  tryWithCap w k :=
    match checkedMul k n with
    | none => (.err, w)
    | some m =>
      let r := R.tryWithCap w m
      (Flatten.wrapTry r.1, r.2)
  -- src/collection/flatten.rs:201-206
  tryFromIter w s :=
    let r := R.tryFromIter w (Flatten.flatSrc s)
    (Flatten.wrapTry r.1, r.2)
  -- src/collection/flatten.rs:136-140
  extend c s :=
    let r := R.extend c.child (Flatten.flatSrc s)
    (⟨r.1⟩, r.2)
  -- src/collection/flatten.rs:226-228
  reserve c k :=
    match strictMul k n with
    | .panic => (c, .panic)
    | .ok m =>
      let r := R.reserve c.child m
      (⟨r.1⟩, r.2)
  -- src/collection/flatten.rs:214-217
  tryReserve w c k :=
    match checkedMul k n with
    | none => (c, .err, w)
    | some m =>
      let r := R.tryReserve w c.child m
      (⟨r.1⟩, r.2.1, r.2.2)
  -- src/collection/flatten.rs:219-224
  tryExtend w c s :=
    let r := R.tryExtend w c.child (Flatten.flatSrc s)
    (⟨r.1⟩, r.2.1, r.2.2)
  -- src/collection/flatten.rs:230-234
  truncate c k :=
    match Flatten.len R.toColl n c with
    | .panic => (c, .panic)
    | .ok l =>
      if k < l then
        match strictMul k n with
        | .panic => (c, .panic)
        | .ok m =>
          let r := R.truncate c.child m
          (⟨r.1⟩, r.2)
      else (c, .ok)

end Narrow
