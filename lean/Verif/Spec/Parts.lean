import Verif.Model.Layout

/-!
# When parts may be assembled

What makes an offsets buffer valid, and which violation comes first.
-/

namespace Narrow.Spec

/-- Offsets that start with zero, are never negative and never decrease. -/
structure GoodOffsets (l : List Int) : Prop where
  first : ∀ x, l.head? = some x → x = 0
  nonneg : ∀ x ∈ l, 0 ≤ x
  sorted : ∀ i j (hi : i < l.length) (hj : j < l.length), i ≤ j → l[i] ≤ l[j]

/-- A valid offsets buffer over `data` child items. -/
structure ValidOffsets (l : List Int) (data : Nat) : Prop where
  nonempty : l ≠ []
  good : GoodOffsets l
  bounded : l.getLast nonempty ≤ data

/-- The first violation met when reading the offsets from front to back, all
entries before it being fine, and the bound on the last one being checked last. -/
inductive FirstViolation (l : List Int) (data : Nat) : OffsetsError → Prop
  | empty : l = [] → FirstViolation l data .empty
  | negative (i : Nat) (h : i < l.length) : GoodOffsets (l.take i) → l[i] < 0 →
      FirstViolation l data (.negative i)
  | nonZeroFirst (h : 0 < l.length) : 0 < l[0] → FirstViolation l data (.nonZeroFirst l[0].toNat)
  | nonMonotonic (i : Nat) (h : i + 1 < l.length) : GoodOffsets (l.take (i + 1)) → 0 ≤ l[i + 1] →
      l[i + 1] < l[i] → FirstViolation l data (.nonMonotonic (i + 1))
  | outOfBounds (h : l ≠ []) : GoodOffsets l → data < l.getLast h →
      FirstViolation l data (.outOfBounds (l.getLast h).toNat data)

end Narrow.Spec
