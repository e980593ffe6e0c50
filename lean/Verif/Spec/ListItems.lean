import Verif.Spec.Compose
import Verif.Spec.Room
import Verif.Model.ListItems

/-!
# Lists given as collections

When list items are collections of a type `U` other than `Vec`, the list an item
stands for is the list that reading it shows.
-/

namespace Narrow.Spec

/-- The sources behave alike, call by call, and every item of the first, a
collection, shows the list yielded by the second. -/
inductive SameRows {O : Type} (U : Coll O) : Src U.C → Src (List O) → Prop
  | nil : SameRows U [] []
  | none {s ls} : SameRows U s ls → SameRows U (.none :: s) (.none :: ls)
  | panic {s ls} : SameRows U s ls → SameRows U (.panic :: s) (.panic :: ls)
  | item {row l s ls} : Reads U row l → l.length ≤ usizeMax → SameRows U s ls →
      SameRows U (.item row :: s) (.item l :: ls)

/-- The collections `us` show the lists `ls`, one by one. -/
def ShowRows {O : Type} (U : Coll O) (us : List U.C) (ls : List (List O)) : Prop :=
  us.length = ls.length ∧ ∀ i (h : i < us.length) (h' : i < ls.length), Reads U us[i] ls[i]

/-- The calls are the same, with collections that show the lists. -/
inductive SameUses {O : Type} (U : Coll O) : List (Use U.C) → List (Use (List O)) → Prop
  | nil : SameUses U [] []
  | tryExtend {s ls us vs} : SameRows U s ls → SameUses U us vs →
      SameUses U (.tryExtend s :: us) (.tryExtend ls :: vs)
  | truncate {m us vs} : SameUses U us vs → SameUses U (.truncate m :: us) (.truncate m :: vs)

/-- A collection that cannot be read: asking for its length, turning it into its
iterator, or one of the calls of `next` before the first `None` panics. -/
inductive Unreadable {O : Type} (U : Coll O) (row : U.C) : Prop
  | len : U.len row = .panic → Unreadable U row
  | into {n} : U.len row = .ok n → U.into row = .panic → Unreadable U row
  | next {n it it' m xs} : U.len row = .ok n → U.into row = .ok it → m ≤ usizeMax →
      polls U.jnext m it = .ok (xs, it') → (∀ x ∈ xs, x ≠ none) → U.jnext it' = .panic →
      Unreadable U row

end Narrow.Spec
