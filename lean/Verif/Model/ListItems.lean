import Verif.Model.Offsets

/-!
# Lists whose owned items are not `Vec`

The last parameter `U` of `Offsets<T, OffsetItem, Storage, U>` (src/offset.rs:121-131)
is the type of its owned items: any collection over the same values that can be
collected from an iterator. Model/Offsets.lean fixes it to its default `Vec`; this
file models the calls that mention `U`. The remaining calls (`try_from_parts`,
`into_parts`, `len`, `view`, `reserve`, `try_reserve`, `truncate`, `with_capacity_in`,
`try_with_capacity_in`, `default`) do not depend on it and are those of
Model/Offsets.lean.

`U` is given as a value of `Realloc O`, of which only `Collection` and
`from_iter` are used.
-/

namespace Narrow.OffsetsOf

open Narrow

variable {O : Type}

/-- An owned iterator as the source of another call: the answers of its `next` up to the
first `None`. No iterator of a collection has more than `usize::MAX` items, so reading
that many loses nothing (src/offset.rs:399-405). -/
def answers (K : Coll O) : Nat → K.J → Src O
  | 0, _ => []
  | fuel + 1, it =>
    match K.jnext it with
    | .panic => [.panic]
    | .ok (none, _) => []
    | .ok (some o, it') => .item o :: answers K fuel it'

/-- The loop of `extend` (src/offset.rs:399-405). -/
def extendLoop (ow : OffW) (R : Realloc O) (U : Coll O) (data : R.C) (offsets : RVec Int)
    (position : Int) : Src U.C → Offsets R.C × Out
  | [] => (⟨data, offsets⟩, .ok)
  | .none :: _ => (⟨data, offsets⟩, .ok)
  | .panic :: _ => (⟨data, offsets⟩, .panic)
  | .item row :: s =>
    match U.len row with
    | .panic => (⟨data, offsets⟩, .panic)
    | .ok n =>
      if n ≤ ow.max ∧ position + n ≤ ow.max then
        match R.reserve data n with
        | (data1, .ok) =>
          match U.into row with
          | .panic => (⟨data1, offsets⟩, .panic)
          | .ok it =>
            match R.extend data1 (answers U (usizeMax + 1) it) with
            | (data2, .ok) =>
              match RVec.extend ow.lim offsets [.item (position + n)] with
              | (offsets', .ok) => extendLoop ow R U data2 offsets' (position + n) s
              | (offsets', o) => (⟨data2, offsets'⟩, o)
            | (data2, o) => (⟨data2, offsets⟩, o)
        | (data1, o) => (⟨data1, offsets⟩, o)
      else (⟨data, offsets⟩, .panic)

/-- `Extend::extend` (src/offset.rs:387-406). -/
def extend (ow : OffW) (R : Realloc O) (U : Coll O) (c : Offsets R.C) (s : Src U.C) :
    Offsets R.C × Out :=
  match c.last with
  | .panic => (c, .panic)
  | .ok position =>
    match asUsize position with
    | .panic => (c, .panic)
    | .ok n =>
      match R.truncate c.data n with
      | (data, .ok) => extendLoop ow R U data c.offsets position s
      | (data, o) => (⟨data, c.offsets⟩, o)

/-- The loop of `try_extend` (src/offset.rs:519-541). -/
def tryExtendLoop (ow : OffW) (R : Realloc O) (U : Coll O) (rows dataLen : Nat) (w : World)
    (data : R.C) (offsets : RVec Int) (position : Int) : Src U.C → Offsets R.C × Out × World
  | [] => (⟨data, offsets⟩, .ok, w)
  | .none :: _ => (⟨data, offsets⟩, .ok, w)
  | .panic :: _ => (⟨data, offsets⟩, .panic, w)
  | .item row :: s =>
    match asUsize position with
    | .panic => (⟨data, offsets⟩, .panic, w)
    | .ok p =>
      match U.len row with
      | .panic => (⟨data, offsets⟩, .panic, w)
      | .ok n =>
        if p + n ≤ usizeMax ∧ p + n ≤ ow.max then
          match U.into row with
          | .panic => (⟨data, offsets⟩, .panic, w)
          | .ok it =>
            match R.tryExtend w data (answers U (usizeMax + 1) it) with
            | (data1, .ok, w1) =>
              match RVec.tryExtend ow.lim w1 offsets [.item ((p + n : Nat) : Int)] with
              | (offsets1, .ok, w2) =>
                tryExtendLoop ow R U rows dataLen w2 data1 offsets1 ((p + n : Nat) : Int) s
              | (offsets1, .err, w2) => Offsets.rollback R data1 offsets1 rows dataLen w2
              | (offsets1, .panic, w2) => (⟨data1, offsets1⟩, .panic, w2)
            | (data1, .err, w1) => Offsets.rollback R data1 offsets rows dataLen w1
            | (data1, .panic, w1) => (⟨data1, offsets⟩, .panic, w1)
        else Offsets.rollback R data offsets rows dataLen w

/-- `try_extend` (src/offset.rs:505-543). -/
def tryExtend (ow : OffW) (R : Realloc O) (U : Coll O) (w : World) (c : Offsets R.C)
    (s : Src U.C) : Offsets R.C × Out × World :=
  match c.len, c.last with
  | .ok rows, .ok position =>
    match asUsize position with
    | .panic => (c, .panic, w)
    | .ok dataLen =>
      match R.truncate c.data dataLen with
      | (data, .ok) => tryExtendLoop ow R U rows dataLen w data c.offsets position s
      | (data, o) => (⟨data, c.offsets⟩, o, w)
  | _, _ => (c, .panic, w)

/-- `FromIterator::from_iter` (src/offset.rs:419-423). -/
def fromIter (ow : OffW) (R : Realloc O) (U : Coll O) (s : Src U.C) : Try (Offsets R.C) :=
  match extend ow R U (Offsets.empty ow R) s with
  | (c, .ok) => .ok c
  | _ => .panic

/-- `from_iter_in` (src/offset.rs:346-352). -/
def fromIterIn (ow : OffW) (R : Realloc O) (U : Coll O) (w : World) (s : Src U.C) :
    Try (Offsets R.C) × World :=
  match Offsets.withCap ow R (w.capHint s.items.length) with
  | .ok c =>
    match extend ow R U c s with
    | (c', .ok) => (.ok c', w.next)
    | _ => (.panic, w.next)
  | .err => (.err, w.next)
  | .panic => (.panic, w.next)

/-- `try_from_iter_in` (src/offset.rs:366-375). -/
def tryFromIter (ow : OffW) (R : Realloc O) (U : Coll O) (w : World) (s : Src U.C) :
    Try (Offsets R.C) × World :=
  match Offsets.tryWithCap ow R w.next (w.capHint s.items.length) with
  | (.ok c, w') =>
    match tryExtend ow R U w' c s with
    | (c', .ok, w'') => (.ok c', w'')
    | (_, .err, w'') => (.err, w'')
    | (_, .panic, w'') => (.panic, w'')
  | (.err, w') => (.err, w')
  | (.panic, w') => (.panic, w')

/-- The iterator `(start..end).map(f)` as the source of a `collect`
(src/offset.rs:594-597 and 728-730). -/
def rangeSrc (f : Nat → Res O) : Nat → Nat → Src O
  | _, 0 => []
  | start, k + 1 =>
    match f start with
    | .panic => [.panic]
    | .ok o => .item o :: rangeSrc f (start + 1) k

/-- `collect::<U>()`, which returns a collection or panics (src/offset.rs:597 and 680).
-/
def collect (U : Realloc O) (w : World) (s : Src O) : Res U.C :=
  match U.fromIter w s with
  | (.ok u, _) => .ok u
  | _ => .panic

/-- `IntoOwned::into_owned` of a list view (src/offset.rs:679-681):
`into_iter_owned().collect()` (src/offset.rs:727-731). -/
def toOwned (K : Coll O) (U : Realloc O) (w : World) (v : OffsetView K.C) : Res U.C :=
  v.len.bind fun l =>
    collect U w (rangeSrc (fun i => (OffsetView.view K v i).expect.bind K.toOwned) 0 l)

/-- `OffsetIntoIter::next` (src/offset.rs:590-599). -/
def intoNext (K : Coll O) (U : Realloc O) (w : World) (it : OffsetIntoIter K.C) :
    Res (Option U.C × OffsetIntoIter K.C) :=
  match it.offsets with
  | [] => .ok (none, it)
  | e :: rest =>
    (asUsize it.position).bind fun s => (asUsize e).bind fun e' =>
      (collect U w (rangeSrc (fun i => (K.view it.data i).expect.bind K.toOwned) s (e' - s))).map
        fun u => (some u, ⟨it.data, rest, e⟩)

end Narrow.OffsetsOf

namespace Narrow

/-- `impl Collection for Offsets<T, OffsetItem, Storage, U>` (src/offset.rs:426-484).
The environment `w` is that of the `collect` calls. -/
@[reducible] def offsetsOfC {O : Type} (K : Coll O) (U : Realloc O) (w : World) : Coll U.C where
  C := Offsets K.C
  V := OffsetView K.C
  I := RangeIter (Offsets K.C)
  J := OffsetIntoIter K.C
  len c := c.len
  view c i := c.view i
  toOwned v := OffsetsOf.toOwned K U w v
  iter c := c.len.map fun l => ⟨0, l, c⟩
  inext it := RangeIter.next Offsets.view it
  ilen it := it.len
  into c := c.into
  jnext it := OffsetsOf.intoNext K U w it
  jlen it := .ok it.offsets.length

/-- `impl Default, FromIterator, Extend, CollectionAllocIn, CollectionRealloc for
Offsets<T, OffsetItem, Storage, U>` (src/offset.rs:306-424, 486-559). -/
@[reducible] def offsetsOfR {O : Type} (ow : OffW) (R U : Realloc O) (w : World) :
    Realloc U.C where
  toColl := offsetsOfC R.toColl U w
  dflt := U.empty
  empty := Offsets.empty ow R
  pulled s := Src.items s
  withCap n := Offsets.withCap ow R n
  fromIter w s := (OffsetsOf.fromIter ow R U.toColl s, w)
  fromIterIn w s := OffsetsOf.fromIterIn ow R U.toColl w s
  tryWithCap w n := Offsets.tryWithCap ow R w n
  tryFromIter w s := OffsetsOf.tryFromIter ow R U.toColl w s
  extend c s := OffsetsOf.extend ow R U.toColl c s
  reserve c n := Offsets.reserve ow R c n
  tryReserve w c n := Offsets.tryReserve ow R w c n
  tryExtend w c s := OffsetsOf.tryExtend ow R U.toColl w c s
  truncate c n := Offsets.truncate R c n

end Narrow
