import Verif.Model.Base

/-! # Well-behaved environments -/

namespace Narrow.Spec

/-- The allocator never refuses a request. -/
def Generous (o : Oracle) : Prop := ∀ t n, (o.grant t n).isSome

/-- Size hints never promise more items than there are: the lower bound and the
bound used as a capacity (the upper one if there is one) are at most the number
of items. Iterators of known length, such as those of slices, vectors and
ranges, report such hints. -/
def TightHints (o : Oracle) : Prop :=
  ∀ t n, o.lower t n ≤ n ∧ (o.upper t n).getD (o.lower t n) ≤ n

/-- Lower size-hint bounds never exceed the number of items, as `Iterator`
requires. Nothing is assumed about the allocator. -/
def HonestLower (o : Oracle) : Prop := ∀ t n, o.lower t n ≤ n

end Narrow.Spec
