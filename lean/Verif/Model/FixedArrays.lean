import Verif.Model.Debug

/-!
# `FixedSizeArray` and views of groups
-/

namespace Narrow

/-- The bit pattern of values one after the other, the first one lowest: how `[T; N]`
lies in memory on a little-endian target (src/fixed_size.rs:61). -/
def packValues {w : Nat} : List (BitVec w) → Nat
  | [] => 0
  | x :: xs => x.toNat + 2 ^ w * packValues xs

/-- `FixedSizeArray::from` (src/fixed_size.rs:72-76). Values of `FixedSize` types are bit
patterns, so the array is packed. -/
def FixedSizeArray.ofArray {n : Nat} {p : Prim} (value : FixArr (PrimVal p) n) : PrimVal (.array n p) :=
  BitVec.ofNat _ (packValues value.1)

/-- `Deref for FixedSizeArray` (src/fixed_size.rs:78-84): element `i` lies behind the
elements before it. -/
def FixedSizeArray.deref {n : Nat} {p : Prim} (self : PrimVal (.array n p)) : FixArr (PrimVal p) n :=
  ⟨(List.range n).map fun i => self.extractLsb' (8 * p.size * i) (8 * p.size), by simp⟩

/-- `Default for FixedSizeArray`, the default of `[T; N]` (src/fixed_size.rs:63-70), for
elements whose default has the bit pattern zero, as all of them. -/
def FixedSizeArray.default (n : Nat) (p : Prim) : PrimVal (.array n p) :=
  FixedSizeArray.ofArray (FixArr.replicate n 0#(8 * p.size))

/-- `PartialEq for FixedSizeArray`, derived: equality of the arrays
(src/fixed_size.rs:60-61), for an equality of elements. -/
def FixedSizeArray.eq {n : Nat} {p : Prim} (same : PrimVal p → PrimVal p → Bool)
    (a b : PrimVal (.array n p)) : Bool :=
  ((FixedSizeArray.deref a).1.zip (FixedSizeArray.deref b).1).all fun x => same x.1 x.2

/-- `Ord for [T]` of the standard library: the first difference decides, then the
lengths (derived in src/fixed_size.rs:60-61). -/
def sliceCmp {α : Type} (cmp : α → α → Ordering) : List α → List α → Ordering
  | [], [] => .eq
  | [], _ :: _ => .lt
  | _ :: _, [] => .gt
  | x :: xs, y :: ys => (cmp x y).then (sliceCmp cmp xs ys)

/-- `Ord for FixedSizeArray`, derived: the order of the arrays (src/fixed_size.rs:60-61),
for an order of elements. `PartialOrd` with elements that cannot be compared (floating-point
NaN) is not modelled. -/
def FixedSizeArray.cmp {n : Nat} {p : Prim} (cmp : PrimVal p → PrimVal p → Ordering)
    (a b : PrimVal (.array n p)) : Ordering :=
  sliceCmp cmp (FixedSizeArray.deref a).1 (FixedSizeArray.deref b).1

/-- `Deref for FlattenView` (src/collection/flatten.rs:270-278): the views of the
elements. -/
def FlattenView.deref {V : Type} {n : Nat} (self : FixArr V n) : FixArr V n := self

/-- `Clone for FlattenView` (src/collection/flatten.rs:256-262). -/
def FlattenView.clone {V : Type} {n : Nat} (self : FixArr V n) : FixArr V n := self

/-- `Clone for OffsetView` (src/offset.rs:649-655). -/
def RowView.clone {C : Type} (self : RowView C) : RowView C := self

end Narrow
