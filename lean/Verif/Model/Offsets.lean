import Verif.Model.Coll

/-!
# Variable-length grouping

src/offset.rs.
-/

namespace Narrow

/-- The offset types `i32` and `i64` (src/offset.rs:83-92). -/
inductive OffW where
  | i32
  | i64
  deriving DecidableEq, Repr

/-- The largest value of the offset type (src/offset.rs:83-92). -/
def OffW.max : OffW → Nat
  | .i32 => 2 ^ 31 - 1
  | .i64 => 2 ^ 63 - 1

/-- Most elements an offset buffer can hold: 4 or 8 bytes per offset
(src/offset.rs:121-131). -/
def OffW.lim : OffW → Nat
  | .i32 => byteMax / 4
  | .i64 => byteMax / 8

/-- `Offsets<T, OffsetItem, VecBuffer, Vec<T::Owned>>` (src/offset.rs:121-131). -/
structure Offsets (C : Type) where
  data : C
  offsets : RVec Int
  deriving DecidableEq

/-- `OffsetsError` (src/offset.rs:155-182). -/
inductive OffsetsError where
  | empty
  | negative (index : Nat)
  | nonZeroFirst (first : Nat)
  | nonMonotonic (index : Nat)
  | outOfBounds (last data : Nat)
  deriving DecidableEq, Repr

/-- `OffsetView` (src/offset.rs:633-637). -/
structure OffsetView (C : Type) where
  coll : Offsets C
  start : Nat
  stop : Nat

/-- `OffsetIntoIter` (src/offset.rs:578-583). -/
structure OffsetIntoIter (C : Type) where
  data : C
  offsets : List Int
  position : Int

/-- `Offset::as_usize` (src/offset.rs:73-75): panics on negative values. -/
def asUsize (i : Int) : Res Nat := if 0 ≤ i then .ok i.toNat else .panic

/-- Collecting `f start, f (start+1), ..., f (start+k-1)` into a `Vec`
(src/offset.rs:594-597). -/
def collectRange {O : Type} (f : Nat → Res O) : Nat → Nat → Res (List O)
  | _, 0 => .ok []
  | start, k + 1 =>
    match f start with
    | .panic => .panic
    | .ok o => (collectRange f (start + 1) k).map (o :: ·)

namespace Offsets

variable {O : Type}

/-- The loop of `try_from_parts` (src/offset.rs:234-242). -/
def checkRest (index previous : Nat) : List Int → Except OffsetsError Nat
  | [] => .ok previous
  | o :: rest =>
    if o < 0 then .error (.negative index)
    else if o.toNat < previous then .error (.nonMonotonic index)
    else checkRest (index + 1) o.toNat rest

/-- `Offsets::try_from_parts` (src/offset.rs:222-255). -/
def tryFromParts (K : Coll O) (data : K.C) (offsets : RVec Int) :
    Res (Except OffsetsError (Offsets K.C)) :=
  match offsets.items with
  | [] => .ok (.error .empty)
  | first :: rest =>
    if first < 0 then .ok (.error (.negative 0))
    else if first.toNat ≠ 0 then .ok (.error (.nonZeroFirst first.toNat))
    else
      match checkRest 1 first.toNat rest with
      | .error e => .ok (.error e)
      | .ok last =>
        (K.len data).map fun l =>
          if last > l then .error (.outOfBounds last l) else .ok ⟨data, offsets⟩

/-- `Offsets::into_parts` (src/offset.rs:270-272). -/
def intoParts {C : Type} (c : Offsets C) : C × RVec Int := (c.data, c.offsets)

/-- `Length::len` (src/offset.rs:429-431). -/
def len {C : Type} (c : Offsets C) : Res Nat := strictSub c.offsets.items.length 1

/-- `Collection::view` (src/offset.rs:444-452). `index + 1` is computed for
every index. -/
def view {C : Type} (c : Offsets C) (i : Nat) : Res (Option (OffsetView C)) :=
  (strictAdd i 1).bind fun j =>
    match c.offsets.items[i]?, c.offsets.items[j]? with
    | some s, some e =>
      (asUsize s).bind fun s' => (asUsize e).map fun e' => some ⟨c, s', e'⟩
    | _, _ => .ok none

/-- `into_iter_owned` (src/offset.rs:471-483). -/
def into {C : Type} (c : Offsets C) : Res (OffsetIntoIter C) :=
  match c.offsets.items with
  | [] => .panic
  | p :: rest => .ok ⟨c.data, rest, p⟩

/-- `OffsetIntoIter::next` (src/offset.rs:590-599). -/
def intoNext (K : Coll O) (it : OffsetIntoIter K.C) :
    Res (Option (List O) × OffsetIntoIter K.C) :=
  match it.offsets with
  | [] => .ok (none, it)
  | e :: rest =>
    (asUsize it.position).bind fun s => (asUsize e).bind fun e' =>
      (collectRange (fun i => (K.view it.data i).expect.bind K.toOwned) s (e' - s)).map
        fun l => (some l, ⟨it.data, rest, e⟩)

/-- The last offset (src/offset.rs:388-393, 510-515). -/
def last {C : Type} (c : Offsets C) : Res Int :=
  match c.offsets.items.getLast? with
  | some p => .ok p
  | none => .panic

/-- The loop of `extend` (src/offset.rs:399-405). -/
def extendLoop (ow : OffW) (R : Realloc O) (data : R.C) (offsets : RVec Int) (position : Int) :
    Src (List O) → Offsets R.C × Out
  | [] => (⟨data, offsets⟩, .ok)
  | .none :: _ => (⟨data, offsets⟩, .ok)
  | .panic :: _ => (⟨data, offsets⟩, .panic)
  | .item row :: s =>
    if row.length ≤ ow.max ∧ position + row.length ≤ ow.max then
      match R.reserve data row.length with
      | (data1, .ok) =>
        match R.extend data1 (Src.ofList row) with
        | (data2, .ok) =>
          match RVec.extend ow.lim offsets [.item (position + row.length)] with
          | (offsets', .ok) => extendLoop ow R data2 offsets' (position + row.length) s
          | (offsets', o) => (⟨data2, offsets'⟩, o)
        | (data2, o) => (⟨data2, offsets⟩, o)
      | (data1, o) => (⟨data1, offsets⟩, o)
    else (⟨data, offsets⟩, .panic)

/-- `Extend::extend` (src/offset.rs:387-406). -/
def extend (ow : OffW) (R : Realloc O) (c : Offsets R.C) (s : Src (List O)) :
    Offsets R.C × Out :=
  match c.last with
  | .panic => (c, .panic)
  | .ok position =>
    match asUsize position with
    | .panic => (c, .panic)
    | .ok n =>
      match R.truncate c.data n with
      | (data, .ok) => extendLoop ow R data c.offsets position s
      | (data, o) => (⟨data, c.offsets⟩, o)

/-- The error exits of `try_extend` (src/offset.rs:526-528, 531-533, 536-538). -/
def rollback (R : Realloc O) (data : R.C) (offsets : RVec Int) (rows dataLen : Nat)
    (w : World) : Offsets R.C × Out × World :=
  match strictAdd rows 1 with
  | .panic => (⟨data, offsets⟩, .panic, w)
  | .ok k =>
    match R.truncate data dataLen with
    | (data', .ok) => (⟨data', offsets.truncate k⟩, .err, w)
    | (data', o) => (⟨data', offsets.truncate k⟩, o, w)

/-- The loop of `try_extend` (src/offset.rs:519-541). -/
def tryExtendLoop (ow : OffW) (R : Realloc O) (rows dataLen : Nat) (w : World) (data : R.C)
    (offsets : RVec Int) (position : Int) : Src (List O) → Offsets R.C × Out × World
  | [] => (⟨data, offsets⟩, .ok, w)
  | .none :: _ => (⟨data, offsets⟩, .ok, w)
  | .panic :: _ => (⟨data, offsets⟩, .panic, w)
  | .item row :: s =>
    match asUsize position with
    | .panic => (⟨data, offsets⟩, .panic, w)
    | .ok p =>
      if p + row.length ≤ usizeMax ∧ p + row.length ≤ ow.max then
        match R.tryExtend w data (Src.ofList row) with
        | (data1, .ok, w1) =>
          match RVec.tryExtend ow.lim w1 offsets [.item ((p + row.length : Nat) : Int)] with
          | (offsets1, .ok, w2) =>
            tryExtendLoop ow R rows dataLen w2 data1 offsets1 ((p + row.length : Nat) : Int) s
          | (offsets1, .err, w2) => rollback R data1 offsets1 rows dataLen w2
          | (offsets1, .panic, w2) => (⟨data1, offsets1⟩, .panic, w2)
        | (data1, .err, w1) => rollback R data1 offsets rows dataLen w1
        | (data1, .panic, w1) => (⟨data1, offsets⟩, .panic, w1)
      else rollback R data offsets rows dataLen w

/-- `try_extend` (src/offset.rs:505-543). -/
def tryExtend (ow : OffW) (R : Realloc O) (w : World) (c : Offsets R.C) (s : Src (List O)) :
    Offsets R.C × Out × World :=
  match c.len, c.last with
  | .ok rows, .ok position =>
    match asUsize position with
    | .panic => (c, .panic, w)
    | .ok dataLen =>
      match R.truncate c.data dataLen with
      | (data, .ok) => tryExtendLoop ow R rows dataLen w data c.offsets position s
      | (data, o) => (⟨data, c.offsets⟩, o, w)
  | _, _ => (c, .panic, w)

/-- `reserve` (src/offset.rs:545-549). -/
def reserve (ow : OffW) (R : Realloc O) (c : Offsets R.C) (n : Nat) : Offsets R.C × Out :=
  match R.reserve c.data n with
  | (data, .ok) =>
    let r := RVec.reserve ow.lim c.offsets n
    (⟨data, r.1⟩, r.2)
  | (data, o) => (⟨data, c.offsets⟩, o)

/-- `try_reserve` (src/offset.rs:499-503). -/
def tryReserve (ow : OffW) (R : Realloc O) (w : World) (c : Offsets R.C) (n : Nat) :
    Offsets R.C × Out × World :=
  match R.tryReserve w c.data n with
  | (data, .ok, w') =>
    let r := RVec.tryReserve ow.lim w' c.offsets n
    (⟨data, r.1⟩, r.2.1, r.2.2)
  | (data, o, w') => (⟨data, c.offsets⟩, o, w')

/-- `truncate` (src/offset.rs:551-558). -/
def truncate (R : Realloc O) (c : Offsets R.C) (n : Nat) : Offsets R.C × Out :=
  match c.len with
  | .panic => (c, .panic)
  | .ok l =>
    if n < l then
      match c.offsets.items[n]? with
      | none => (c, .panic)
      | some o =>
        match asUsize o with
        | .panic => (c, .panic)
        | .ok dataLen =>
          match strictAdd n 1 with
          | .panic => (c, .panic)
          | .ok k =>
            let r := R.truncate c.data dataLen
            (⟨r.1, c.offsets.truncate k⟩, r.2)
    else (c, .ok)

/-- `with_capacity_in` (src/offset.rs:334-344). -/
def withCap (ow : OffW) (R : Realloc O) (n : Nat) : Try (Offsets R.C) :=
  match R.withCap n with
  | .err => .err
  | .panic => .panic
  | .ok data =>
    match strictAdd n 1 with
    | .panic => .panic
    | .ok k =>
      match (RVec.withCap ow.lim k : Try (RVec Int)) with
      | .err => .err
      | .panic => .panic
      | .ok offsets =>
        match RVec.extend ow.lim offsets [.item 0] with
        | (offsets', .ok) => .ok ⟨data, offsets'⟩
        | _ => .panic

/-- `Default::default` (src/offset.rs:312-320). -/
def empty (ow : OffW) (R : Realloc O) : Offsets R.C :=
  ⟨R.empty, (RVec.extend ow.lim RVec.empty [.item 0]).1⟩

/-- `FromIterator::from_iter` (src/offset.rs:419-423). -/
def fromIter (ow : OffW) (R : Realloc O) (s : Src (List O)) : Try (Offsets R.C) :=
  match extend ow R (empty ow R) s with
  | (c, .ok) => .ok c
  | _ => .panic

/-- `from_iter_in` (src/offset.rs:346-352). -/
def fromIterIn (ow : OffW) (R : Realloc O) (w : World) (s : Src (List O)) :
    Try (Offsets R.C) × World :=
  match withCap ow R (w.capHint s.items.length) with
  | .ok c =>
    match extend ow R c s with
    | (c', .ok) => (.ok c', w.next)
    | _ => (.panic, w.next)
  | .err => (.err, w.next)
  | .panic => (.panic, w.next)

/-- `try_with_capacity_in` (src/offset.rs:354-364). -/
def tryWithCap (ow : OffW) (R : Realloc O) (w : World) (n : Nat) : Try (Offsets R.C) × World :=
  match checkedAdd n 1 with
  | none => (.err, w)
  | some k =>
    match R.tryWithCap w n with
    | (.err, w1) => (.err, w1)
    | (.panic, w1) => (.panic, w1)
    | (.ok data, w1) =>
      match (RVec.tryWithCap ow.lim w1 k : Try (RVec Int) × World) with
      | (.err, w2) => (.err, w2)
      | (.panic, w2) => (.panic, w2)
      | (.ok offsets, w2) =>
        match RVec.tryExtend ow.lim w2 offsets [.item 0] with
        | (offsets', .ok, w3) => (.ok ⟨data, offsets'⟩, w3)
        | (_, .err, w3) => (.err, w3)
        | (_, .panic, w3) => (.panic, w3)

/-- `try_from_iter_in` (src/offset.rs:366-375). -/
def tryFromIter (ow : OffW) (R : Realloc O) (w : World) (s : Src (List O)) :
    Try (Offsets R.C) × World :=
  match tryWithCap ow R w.next (w.capHint s.items.length) with
  | (.ok c, w') =>
    match tryExtend ow R w' c s with
    | (c', .ok, w'') => (.ok c', w'')
    | (_, .err, w'') => (.err, w'')
    | (_, .panic, w'') => (.panic, w'')
  | (.err, w') => (.err, w')
  | (.panic, w') => (.panic, w')

end Offsets

namespace OffsetView

variable {O : Type}

/-- `Length::len` (src/offset.rs:687-689). -/
def len {C : Type} (v : OffsetView C) : Res Nat := strictSub v.stop v.start

/-- `Collection::view` (src/offset.rs:702-709). -/
def view (K : Coll O) (v : OffsetView K.C) (i : Nat) : Res (Option K.V) :=
  (strictAdd v.start i).bind fun idx =>
    if idx < v.stop then K.view v.coll.data idx else .ok none

/-- `IntoOwned::into_owned` (src/offset.rs:679-681): `into_iter_owned().collect()`
(src/offset.rs:727-731). -/
def toOwned (K : Coll O) (v : OffsetView K.C) : Res (List O) :=
  v.len.bind fun l => collectRange (fun i => (view K v i).expect.bind K.toOwned) 0 l

end OffsetView

/-- `impl Collection for Offsets<T>` (src/offset.rs:426-484). -/
@[reducible] def offsetsC {O : Type} (K : Coll O) : Coll (List O) where
  C := Offsets K.C
  V := OffsetView K.C
  I := RangeIter (Offsets K.C)
  J := OffsetIntoIter K.C
  len c := c.len
  view c i := c.view i
  toOwned v := OffsetView.toOwned K v
  -- src/offset.rs:462-467
  iter c := c.len.map fun l => ⟨0, l, c⟩
  inext it := RangeIter.next Offsets.view it
  ilen it := it.len
  into c := c.into
  jnext it := Offsets.intoNext K it
  -- src/offset.rs:609-611
  jlen it := .ok it.offsets.length

/-- `impl Collection for OffsetView<T>` (src/offset.rs:684-732): a list view is
itself a collection of its elements. -/
@[reducible] def offsetViewC {O : Type} (K : Coll O) : Coll O where
  C := OffsetView K.C
  V := K.V
  I := RangeIter (OffsetView K.C)
  J := RangeIter (OffsetView K.C)
  len v := v.len
  view v i := OffsetView.view K v i
  toOwned x := K.toOwned x
  iter v := v.len.map fun l => ⟨0, l, v⟩
  inext it := RangeIter.next (OffsetView.view K) it
  ilen it := it.len
  into v := v.len.map fun l => ⟨0, l, v⟩
  jnext it :=
    match RangeIter.next (OffsetView.view K) it with
    | .panic => .panic
    | .ok (none, it') => .ok (none, it')
    | .ok (some x, it') => (K.toOwned x).map fun o => (some o, it')
  jlen it := it.len

/-- `impl Default, FromIterator, Extend, CollectionAllocIn, CollectionRealloc for
Offsets<T>` (src/offset.rs:306-424, 486-559). -/
@[reducible] def offsetsR {O : Type} (ow : OffW) (R : Realloc O) : Realloc (List O) where
  toColl := offsetsC R.toColl
  dflt := []
  empty := Offsets.empty ow R
  pulled s := Src.items s
  withCap n := Offsets.withCap ow R n
  fromIter w s := (Offsets.fromIter ow R s, w)
  fromIterIn w s := Offsets.fromIterIn ow R w s
  tryWithCap w n := Offsets.tryWithCap ow R w n
  tryFromIter w s := Offsets.tryFromIter ow R w s
  extend c s := Offsets.extend ow R c s
  reserve c n := Offsets.reserve ow R c n
  tryReserve w c n := Offsets.tryReserve ow R w c n
  tryExtend w c s := Offsets.tryExtend ow R w c s
  truncate c n := Offsets.truncate R c n

end Narrow
