import Verif.Spec.Ffi

/-!
# What messages say

`Says m word i`: the message `m` has the words `word` in front of the decimal
numeral of `i`.
-/

namespace Narrow.Ffi.Spec

/-- The bytes `d` are a decimal numeral of `i`, after a minus sign if it is negative. -/
def Writes (d : List Byte) (i : Int) : Prop :=
  (0 ≤ i ∧ IsNumeral d ∧ (numeral d : Int) = i) ∨
  (i < 0 ∧ ∃ d', d = bytesOf "-" ++ d' ∧ IsNumeral d' ∧ -(numeral d' : Int) = i)

/-- The message has `word` in front of the numeral of `i`, and no other digit follows. -/
def Says (m : List Byte) (word : String) (i : Int) : Prop :=
  ∃ before d after, m = before ++ bytesOf word ++ d ++ after ∧ Writes d i ∧
    ∀ b ∈ after.head?, ¬ (48 ≤ b.toNat ∧ b.toNat ≤ 57)

/-- One line of printable ASCII characters. -/
def Printable (m : List Byte) : Prop := m ≠ [] ∧ ∀ b ∈ m, 32 ≤ b.toNat ∧ b.toNat ≤ 126

end Narrow.Ffi.Spec
