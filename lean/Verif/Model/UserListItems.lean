import Verif.Model.Backend
import Verif.Model.ListItems

/-!
# Lists whose owned items are not `Vec`, in storages written by users

Model/ListItems.lean with the offsets kept in any storage `D`, as in
Model/Backend.lean: `Offsets<T, OffsetItem, Storage, U>` (src/offset.rs:121-131) with
no parameter fixed. The calls that do not mention `U` are those of Model/Backend.lean.
-/

namespace Narrow.OffsetsInOf

open Narrow

variable {O : Type}

section
variable (ow : OffW) (D : Backing Int) (R : Realloc O) (U : Coll O)

/-- The loop of `extend` (src/offset.rs:399-405). -/
def extendLoop (data : R.C) (offsets : D.C) (position : Int) : Src U.C → OffsetsIn.Of D R × Out
  | [] => (⟨data, offsets⟩, .ok)
  | .none :: _ => (⟨data, offsets⟩, .ok)
  | .panic :: _ => (⟨data, offsets⟩, .panic)
  | .item row :: s =>
    match U.len row with
    | .panic => (⟨data, offsets⟩, .panic)
    | .ok n =>
      if n ≤ ow.max ∧ position + n ≤ ow.max then
        match R.reserve data n with
        | (data1, .ok) =>
          match U.into row with
          | .panic => (⟨data1, offsets⟩, .panic)
          | .ok it =>
            match R.extend data1 (OffsetsOf.answers U (usizeMax + 1) it) with
            | (data2, .ok) =>
              match D.extend offsets [.item (position + n)] with
              | (offsets', .ok) => extendLoop data2 offsets' (position + n) s
              | (offsets', o) => (⟨data2, offsets'⟩, o)
            | (data2, o) => (⟨data2, offsets⟩, o)
        | (data1, o) => (⟨data1, offsets⟩, o)
      else (⟨data, offsets⟩, .panic)

/-- `Extend::extend` (src/offset.rs:387-406). -/
def extend (c : OffsetsIn.Of D R) (s : Src U.C) : OffsetsIn.Of D R × Out :=
  match OffsetsIn.last D c with
  | .panic => (c, .panic)
  | .ok position =>
    match asUsize position with
    | .panic => (c, .panic)
    | .ok n =>
      match R.truncate c.data n with
      | (data, .ok) => extendLoop ow D R U data c.offsets position s
      | (data, o) => (⟨data, c.offsets⟩, o)

/-- The loop of `try_extend` (src/offset.rs:519-541). -/
def tryExtendLoop (rows dataLen : Nat) (w : World) (data : R.C) (offsets : D.C) (position : Int) :
    Src U.C → OffsetsIn.Of D R × Out × World
  | [] => (⟨data, offsets⟩, .ok, w)
  | .none :: _ => (⟨data, offsets⟩, .ok, w)
  | .panic :: _ => (⟨data, offsets⟩, .panic, w)
  | .item row :: s =>
    match asUsize position with
    | .panic => (⟨data, offsets⟩, .panic, w)
    | .ok p =>
      match U.len row with
      | .panic => (⟨data, offsets⟩, .panic, w)
      | .ok n =>
        if p + n ≤ usizeMax ∧ p + n ≤ ow.max then
          match U.into row with
          | .panic => (⟨data, offsets⟩, .panic, w)
          | .ok it =>
            match R.tryExtend w data (OffsetsOf.answers U (usizeMax + 1) it) with
            | (data1, .ok, w1) =>
              match D.tryExtend w1 offsets [.item ((p + n : Nat) : Int)] with
              | (offsets1, .ok, w2) =>
                tryExtendLoop rows dataLen w2 data1 offsets1 ((p + n : Nat) : Int) s
              | (offsets1, .err, w2) => OffsetsIn.rollback D R data1 offsets1 rows dataLen w2
              | (offsets1, .panic, w2) => (⟨data1, offsets1⟩, .panic, w2)
            | (data1, .err, w1) => OffsetsIn.rollback D R data1 offsets rows dataLen w1
            | (data1, .panic, w1) => (⟨data1, offsets⟩, .panic, w1)
        else OffsetsIn.rollback D R data offsets rows dataLen w

/-- `try_extend` (src/offset.rs:505-543). -/
def tryExtend (w : World) (c : OffsetsIn.Of D R) (s : Src U.C) :
    OffsetsIn.Of D R × Out × World :=
  match OffsetsIn.len D.toBuf c, OffsetsIn.last D c with
  | .ok rows, .ok position =>
    match asUsize position with
    | .panic => (c, .panic, w)
    | .ok dataLen =>
      match R.truncate c.data dataLen with
      | (data, .ok) => tryExtendLoop ow D R U rows dataLen w data c.offsets position s
      | (data, o) => (⟨data, c.offsets⟩, o, w)
  | _, _ => (c, .panic, w)

/-- `FromIterator::from_iter` (src/offset.rs:419-423). -/
def fromIter (s : Src U.C) : Try (OffsetsIn.Of D R) :=
  match (D.extend D.empty [.item 0]).2 with
  | .ok =>
    match extend ow D R U (OffsetsIn.empty D R) s with
    | (c', .ok) => .ok c'
    | _ => .panic
  | _ => .panic

/-- `from_iter_in` (src/offset.rs:346-352). -/
def fromIterIn (w : World) (s : Src U.C) : Try (OffsetsIn.Of D R) × World :=
  match OffsetsIn.withCap D R (w.capHint s.items.length) with
  | .ok c =>
    match extend ow D R U c s with
    | (c', .ok) => (.ok c', w.next)
    | _ => (.panic, w.next)
  | .err => (.err, w.next)
  | .panic => (.panic, w.next)

/-- `try_from_iter_in` (src/offset.rs:366-375). -/
def tryFromIter (w : World) (s : Src U.C) : Try (OffsetsIn.Of D R) × World :=
  match OffsetsIn.tryWithCap D R w.next (w.capHint s.items.length) with
  | (.ok c, w') =>
    match tryExtend ow D R U w' c s with
    | (c', .ok, w'') => (.ok c', w'')
    | (_, .err, w'') => (.err, w'')
    | (_, .panic, w'') => (.panic, w'')
  | (.err, w') => (.err, w')
  | (.panic, w') => (.panic, w')

end

/-- `IntoOwned::into_owned` of a list view (src/offset.rs:679-681):
`into_iter_owned().collect()` (src/offset.rs:727-731). -/
def toOwned (K : Coll O) (U : Realloc O) (w : World) (v : RowView K.C) : Res U.C :=
  v.len.bind fun l =>
    OffsetsOf.collect U w (OffsetsOf.rangeSrc (fun i => (RowView.view K v i).expect.bind K.toOwned) 0 l)

/-- `OffsetIntoIter::next` (src/offset.rs:590-599). -/
def intoNext (D : Buf Int) (K : Coll O) (U : Realloc O) (w : World)
    (it : OffsetIntoIterOf K.C D.J) : Res (Option U.C × OffsetIntoIterOf K.C D.J) :=
  (D.jnext it.offsets).bind fun r =>
    match r with
    | (none, o) => .ok (none, ⟨it.data, o, it.position⟩)
    | (some e, o) =>
      (asUsize it.position).bind fun s => (asUsize e).bind fun e' =>
        (OffsetsOf.collect U w
          (OffsetsOf.rangeSrc (fun i => (K.view it.data i).expect.bind K.toOwned) s (e' - s))).map
          fun u => (some u, ⟨it.data, o, e⟩)

end Narrow.OffsetsInOf

namespace Narrow

/-- `impl Collection for Offsets<T, OffsetItem, Storage, U>` (src/offset.rs:426-484).
The environment `w` is that of the `collect` calls. -/
@[reducible] def offsetsInOfC {O : Type} (D : Buf Int) (K : Coll O) (U : Realloc O) (w : World) :
    Coll U.C where
  C := OffsetsIn K.C D.C
  V := RowView K.C
  I := RangeIter (OffsetsIn K.C D.C)
  J := OffsetIntoIterOf K.C D.J
  len c := OffsetsIn.len D c
  view c i := OffsetsIn.view D c i
  toOwned v := OffsetsInOf.toOwned K U w v
  iter c := (OffsetsIn.len D c).map fun l => ⟨0, l, c⟩
  inext it := RangeIter.next (OffsetsIn.view D) it
  ilen it := it.len
  into c := OffsetsIn.into D c
  jnext it := OffsetsInOf.intoNext D K U w it
  jlen it := D.jlen it.offsets

/-- `impl Default, FromIterator, Extend, CollectionAllocIn, CollectionRealloc for
Offsets<T, OffsetItem, Storage, U>` (src/offset.rs:306-424, 486-559). -/
@[reducible] def offsetsInOfR {O : Type} (ow : OffW) (D : Backing Int) (R U : Realloc O)
    (w : World) : Realloc U.C where
  toColl := offsetsInOfC D.toBuf R.toColl U w
  dflt := U.empty
  empty := OffsetsIn.empty D R
  pulled s := Src.items s
  withCap n := OffsetsIn.withCap D R n
  fromIter w s := (OffsetsInOf.fromIter ow D R U.toColl s, w)
  fromIterIn w s := OffsetsInOf.fromIterIn ow D R U.toColl w s
  tryWithCap w n := OffsetsIn.tryWithCap D R w n
  tryFromIter w s := OffsetsInOf.tryFromIter ow D R U.toColl w s
  extend c s := OffsetsInOf.extend ow D R U.toColl c s
  reserve c n := OffsetsIn.reserve D R c n
  tryReserve w c n := OffsetsIn.tryReserve D R w c n
  tryExtend w c s := OffsetsInOf.tryExtend ow D R U.toColl w c s
  truncate c n := OffsetsIn.truncate D R c n

end Narrow
