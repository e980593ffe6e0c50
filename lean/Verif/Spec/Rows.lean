import Verif.Model.Base

/-!
# Lists stored as one data sequence and offsets
-/

namespace Narrow.Spec

/-- The lists delimited by offsets: list `i` is the data from offset `i` up to
offset `i + 1`. -/
def rowsOf {α : Type} (data : List α) (offsets : List Int) : List (List α) :=
  List.zipWith (fun s e => (data.drop s.toNat).take (e.toNat - s.toNat)) offsets offsets.tail

/-- The offsets of lists stored one after the other: entry `k` is the total
length of the first `k` lists. -/
def offsetsOf {α : Type} (rows : List (List α)) : List Int :=
  (List.range (rows.length + 1)).map fun k => (((rows.take k).map List.length).sum : Int)

/-- The items grouped by `n`: the `i`-th group is the items from `i * n` to `i * n + n - 1`. -/
structure Groups {α : Type} {n : Nat} (items : List α) (groups : List {l : List α // l.length = n}) : Prop where
  count : groups.length * n = items.length
  get : ∀ i (h : i < groups.length), groups[i].1 = (items.drop (i * n)).take n

end Narrow.Spec
