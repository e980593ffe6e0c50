import Verif.Model.Base

/-!
# Reading a source that resumes, eight calls at a time
-/

namespace Narrow.Spec

/-- What call `j` of `next` returns: `None` after the end of the list. -/
def answer {α : Type} (s : Src α) (j : Nat) : Ev α := s[j]?.getD .none

/-- The items among the first `m` calls. -/
def yields {α : Type} (s : Src α) (m : Nat) : List α :=
  (s.take m).filterMap fun e => match e with
    | .item a => some a
    | _ => none

/-- A reader that looks at the answer of every eighth call only (the calls 0, 8, 16, …)
makes `m` calls before the one that stops it. -/
structure StopsAt {α : Type} (s : Src α) (m : Nat) : Prop where
  eighth : m % 8 = 0
  none : answer s m = .none
  before : ∀ j, j < m → j % 8 = 0 → ∃ a, answer s j = .item a
  calm : ∀ j, j < m → answer s j ≠ .panic

end Narrow.Spec
