import Verif.Spec.Reads
import Verif.Model.Layout

/-!
# What a user sees without consuming a collection

`Sees K c l`: every call that reads the collection `c` through a shared
reference shows the list `l`. It is `Reads` without `into_iter_owned`. `Drains K c l`: this
one shows the list, too, to callers that do not ask for more.
-/

namespace Narrow.Spec

/-- Every way of reading `c` by reference shows the list `l`. -/
structure Sees {O : Type} (K : Coll O) (c : K.C) (l : List O) : Prop where
  /-- `len` -/
  len : K.len c = .ok l.length
  /-- `owned(i)`, the owned value of `view(i)` -/
  owned : ∀ i (h : i < l.length), K.owned c i = .ok (some l[i])
  /-- `iter_views`, each view converted into an owned item -/
  iter : ∃ it, K.iter c = .ok it ∧ Iterates K.inext K.ilen K.toOwned it l

/-- `into_iter_owned` yields the items of `l`, and reports how many are left, as long as it
is not asked for more than there are. -/
def Drains {O : Type} (K : Coll O) (c : K.C) (l : List O) : Prop :=
  ∃ it, K.into c = .ok it ∧ ∀ n, n ≤ l.length → ∃ it',
    polls K.jnext n it = .ok ((l.take n).map some, it') ∧ K.jlen it' = .ok (l.length - n)

/-- The items of the array are fixed-size lists, not nullable. -/
def Grouped : (nl : Bool) → Ty → Prop
  | false, .fsl _ _ _ => True
  | _, _ => False

end Narrow.Spec
