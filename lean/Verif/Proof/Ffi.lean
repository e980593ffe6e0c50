import Verif.Model.Import
import Verif.Model.Export
import Verif.Spec.Ffi

/-! # Memory, integers and format strings of the C structures -/

namespace Narrow.Ffi

open Narrow.Ffi.Spec Narrow.Spec

/-! ## Memory -/

theorem Mem.read_length (m : Mem) : ∀ {n p : Nat} {l : List Byte}, m.read p n = some l → l.length = n
  | 0, p, l, h => by simp [Mem.read] at h; subst h; rfl
  | n + 1, p, l, h => by
    simp only [Mem.read, Option.bind_eq_some_iff, Option.map_eq_some_iff] at h
    obtain ⟨b, _, l', h2, rfl⟩ := h
    simp [m.read_length h2]

theorem Mem.read_take (m : Mem) : ∀ {n p k : Nat} {l : List Byte}, m.read p n = some l → k ≤ n →
    m.read p k = some (l.take k)
  | n, p, 0, l, _, _ => by simp [Mem.read]
  | n + 1, p, k + 1, l, h, hk => by
    simp only [Mem.read, Option.bind_eq_some_iff, Option.map_eq_some_iff] at h
    obtain ⟨b, h1, l', h2, rfl⟩ := h
    simp [Mem.read, h1, m.read_take h2 (Nat.le_of_succ_le_succ hk)]

theorem Mem.read_bound (m : Mem) : ∀ {n p : Nat} {l : List Byte}, m.read p n = some l → 0 < n →
    p + n ≤ byteMax
  | n + 1, p, l, h, _ => by
    simp only [Mem.read, Option.bind_eq_some_iff, Option.map_eq_some_iff] at h
    obtain ⟨b, h1, l', h2, rfl⟩ := h
    by_cases hn : n = 0
    · subst hn
      have : ¬ byteMax ≤ p := fun hp => by rw [m.high p hp] at h1; simp at h1
      omega
    · have := m.read_bound h2 (by omega)
      omega

theorem Mem.read_le (m : Mem) {n p : Nat} {l : List Byte} (h : m.read p n = some l) : n ≤ byteMax := by
  by_cases hn : n = 0
  · omega
  · have := m.read_bound h (by omega); omega

theorem Mem.slice_length (m : Mem) {k : Nat} : ∀ {n p : Nat} {l}, m.slice k p n = some l → l.length = n
  | 0, p, l, h => by simp [Mem.slice] at h; subst h; rfl
  | n + 1, p, l, h => by
    simp only [Mem.slice, Option.bind_eq_some_iff, Option.map_eq_some_iff] at h
    obtain ⟨b, _, l', h2, rfl⟩ := h
    simp [m.slice_length h2]

theorem Mem.slice_take (m : Mem) {k : Nat} : ∀ {n p j : Nat} {l}, m.slice k p n = some l → j ≤ n →
    m.slice k p j = some (l.take j)
  | n, p, 0, l, _, _ => by simp [Mem.slice]
  | n + 1, p, j + 1, l, h, hj => by
    simp only [Mem.slice, Option.bind_eq_some_iff, Option.map_eq_some_iff] at h
    obtain ⟨b, h1, l', h2, rfl⟩ := h
    simp [Mem.slice, h1, m.slice_take h2 (Nat.le_of_succ_le_succ hj)]

theorem Mem.slice_bound (m : Mem) {k : Nat} (hk : 0 < k) : ∀ {n p : Nat} {l},
    m.slice k p n = some l → 0 < n → p + n * k ≤ byteMax
  | n + 1, p, l, h, _ => by
    simp only [Mem.slice, Option.bind_eq_some_iff, Option.map_eq_some_iff] at h
    obtain ⟨b, h1, l', h2, rfl⟩ := h
    have := m.read_bound h1 hk
    rw [Nat.succ_mul]
    by_cases hn : n = 0
    · subst hn; omega
    · have := m.slice_bound hk h2 (by omega)
      omega

theorem Mem.slice_le (m : Mem) {k : Nat} (hk : 0 < k) {n p : Nat} {l} (h : m.slice k p n = some l) :
    n * k ≤ byteMax := by
  by_cases hn : n = 0
  · subst hn; omega
  · have := m.slice_bound hk h (by omega); omega

/-! ## Integers -/

theorem toI64_ok {n : Nat} (h : n ≤ i64Max) : toI64 n = .ok (BitVec.ofNat 64 n) := if_pos h

theorem toNat_ofNat {n : Nat} (h : n ≤ i64Max) : (BitVec.ofNat 64 n).toNat = n := by
  simp only [BitVec.toNat_ofNat]
  exact Nat.mod_eq_of_lt (by unfold i64Max at h; omega)

theorem toInt_ofNat {n : Nat} (h : n ≤ i64Max) : (BitVec.ofNat 64 n).toInt = n := by
  rw [BitVec.toInt_eq_toNat_of_lt, toNat_ofNat h]
  rw [toNat_ofNat h]; unfold i64Max at h; omega

theorem toInt_nonneg {i : I64} (h : 0 ≤ i.toInt) : i.toInt = i.toNat ∧ i.toNat ≤ i64Max := by
  rw [BitVec.toInt_eq_toNat_cond] at h ⊢
  unfold i64Max
  split at h
  · rw [if_pos (by assumption)]; exact ⟨rfl, by omega⟩
  · omega

theorem toUsize_some {i : I64} {n : Nat} : toUsize i = some n ↔ i.toInt = n := by
  unfold toUsize
  split
  · constructor
    · simp
    · intro h; omega
  · have := toInt_nonneg (i := i) (by omega)
    simp only [Option.some.injEq]
    omega

theorem toUsize_none {i : I64} : toUsize i = none ↔ i.toInt < 0 := by
  unfold toUsize; split <;> simp_all

theorem i64_ext {i j : I64} : i = j ↔ i.toInt = j.toInt :=
  ⟨fun h => by rw [h], BitVec.eq_of_toInt_eq⟩

theorem flags_ok (flags : I64) (nl : Bool) :
    flags &&& flagNullable = expectedFlags nl ↔ flags.getLsbD 1 = nl := by
  have key : ∀ i, i < 64 → (flagNullable : I64).getLsbD i = decide (i = 1) := by decide
  constructor
  · intro h
    have := congrArg (fun x : I64 => x.getLsbD 1) h
    simp only [BitVec.getLsbD_and, key 1 (by omega)] at this
    simp only [decide_true, Bool.and_true] at this
    rw [this]; cases nl <;> rfl
  · intro h
    apply BitVec.eq_of_getLsbD_eq
    intro i hi
    rw [BitVec.getLsbD_and, key i hi]
    by_cases h1 : i = 1
    · subst h1; rw [h]; cases nl <;> rfl
    · simp only [h1, decide_false, Bool.and_false]
      cases nl
      · simp [expectedFlags]
      · simp [expectedFlags, key i hi, h1]

/-! ## Formats -/

theorem parseDigit_some {size : Nat} {b : Byte} {r : Nat} : parseDigit size b = some r ↔
    (48 ≤ b.toNat ∧ b.toNat ≤ 57) ∧ r = size * 10 + (b.toNat - 48) ∧ r ≤ usizeMax := by
  unfold parseDigit checkedMul checkedAdd
  split
  · simp; omega
  · split
    · simp; omega
    · split
      · simp only [Option.bind_some]
        split
        · simp; omega
        · simp; omega
      · simp; omega

theorem numeral_lead (size : Nat) (b : Byte) (l : List Byte) :
    (size * 10 + (b.toNat - 48)) * 10 ^ l.length + numeral l =
      size * 10 ^ (b :: l).length + numeral (b :: l) := by
  simp only [numeral, List.length_cons, Nat.pow_succ]
  rw [Nat.add_mul, Nat.mul_assoc, Nat.mul_comm 10]
  omega

theorem parseDigits_some : ∀ {l : List Byte} {size r : Nat}, size ≤ usizeMax →
    (parseDigits size l = some r ↔ (∀ d ∈ l, 48 ≤ d.toNat ∧ d.toNat ≤ 57) ∧
      r = size * 10 ^ l.length + numeral l ∧ r ≤ usizeMax)
  | [], size, r, hs => by simp [parseDigits, numeral]; omega
  | b :: l, size, r, hs => by
    simp only [parseDigits, Option.bind_eq_some_iff]
    constructor
    · rintro ⟨x, hx, hr⟩
      obtain ⟨h1, rfl, h3⟩ := parseDigit_some.1 hx
      obtain ⟨h4, h5, h6⟩ := (parseDigits_some h3).1 hr
      refine ⟨fun d hd => ?_, ?_, h6⟩
      · rcases List.mem_cons.1 hd with rfl | hd
        · exact h1
        · exact h4 d hd
      · rw [h5, numeral_lead]
    · rintro ⟨h1, h2, h3⟩
      have hb := h1 b (by simp)
      have hle : size * 10 + (b.toNat - 48) ≤ usizeMax := by
        rw [h2, ← numeral_lead] at h3
        have : 1 ≤ 10 ^ l.length := Nat.one_le_iff_ne_zero.2 (by simp)
        have := Nat.mul_le_mul_left (size * 10 + (b.toNat - 48)) this
        omega
      refine ⟨_, parseDigit_some.2 ⟨hb, rfl, hle⟩, (parseDigits_some hle).2 ⟨fun d hd => h1 d (by simp [hd]), ?_, h3⟩⟩
      rw [h2, numeral_lead]

theorem decimal_spec (n : Nat) : IsNumeral (decimal n) ∧ numeral (decimal n) = n := by
  induction n using Nat.strongRecOn with
  | ind n ih =>
    have hd : ∀ k, k < 10 → (BitVec.ofNat 8 (48 + k)).toNat = 48 + k := by
      intro k hk; simp only [BitVec.toNat_ofNat]; omega
    have hsnoc : ∀ (l : List Byte) (d : Byte), numeral (l ++ [d]) = numeral l * 10 + (d.toNat - 48) := by
      intro l d
      induction l with
      | nil => simp [numeral]
      | cons x l ih =>
        simp only [List.cons_append, numeral, ih, List.length_append, List.length_cons, List.length_nil,
          Nat.zero_add, Nat.pow_succ, Nat.add_mul, Nat.mul_assoc]
        omega
    unfold decimal
    split
    · rename_i h
      refine ⟨⟨by simp, ?_⟩, ?_⟩
      · intro d hd'
        rw [List.mem_singleton] at hd'
        subst hd'; rw [hd n h]; omega
      · simp [numeral, hd n h]
    · rename_i h
      obtain ⟨⟨h1, h2⟩, h3⟩ := ih (n / 10) (by omega)
      refine ⟨⟨by simp, ?_⟩, ?_⟩
      · intro d hd'
        rcases List.mem_append.1 hd' with hd' | hd'
        · exact h2 d hd'
        · rw [List.mem_singleton] at hd'
          subst hd'; rw [hd _ (Nat.mod_lt _ (by omega))]
          have := Nat.mod_lt n (show 10 > 0 by omega); omega
      · rw [hsnoc, h3, hd _ (Nat.mod_lt _ (by omega))]; omega

theorem matchesWidth_iff {n : Nat} {f : List Byte} : matchesWidth n f = true ↔
    n ≤ usizeMax ∧ ∃ digits, f = bytesOf "+w:" ++ digits ∧ IsNumeral digits ∧ numeral digits = n := by
  have e : ascii "+w:" = [43#8, 119#8, 58#8] := by decide
  have e' : bytesOf "+w:" = [43#8, 119#8, 58#8] := by decide
  constructor
  · intro h
    unfold matchesWidth at h
    split at h
    · rename_i b0 b1 b2 digits
      split at h
      · rename_i h0
        split at h
        · simp at h
        · rename_i hne
          rw [beq_iff_eq, parseDigits_some (by omega)] at h
          refine ⟨h.2.2, digits, ?_, ⟨by simpa using hne, h.1⟩, ?_⟩
          · rw [e'] ; rw [e] at h0; simp only [List.cons.injEq] at h0
            simp [h0]
          · have := h.2.1; omega
      · simp at h
    · simp at h
  · rintro ⟨hn, digits, rfl, ⟨h1, h2⟩, h3⟩
    rw [e']
    simp only [matchesWidth, List.cons_append, List.nil_append, e, if_true]
    rw [if_neg (by simpa using h1), beq_iff_eq, parseDigits_some (by omega)]
    exact ⟨h2, by omega, hn⟩

theorem primFormat_eq (p : Prim) : primFormat p = (primName p).map bytesOf := by cases p <;> rfl

theorem ascii_eq (s : String) : ascii s = bytesOf s := rfl

theorem matchesFormat_iff {t : Ty} (ht : Exportable t) {f : List Byte} :
    matchesFormat t f = true ↔ FormatOf t f := by
  cases t with
  | bool => simp [matchesFormat, FormatOf, ascii_eq]
  | prim p =>
    simp only [matchesFormat, FormatOf, beq_iff_eq, primFormat_eq, Option.map_eq_some_iff]
    constructor
    · rintro ⟨s, h1, h2⟩; exact ⟨s, h1, h2.symm⟩
    · rintro ⟨s, h1, h2⟩; exact ⟨s, h1, h2.symm⟩
  | fsl n nl t =>
    simp only [matchesFormat, FormatOf, matchesWidth_iff]
    exact ⟨fun h => h.2, fun h => ⟨ht.1, h⟩⟩
  | vsl ow nl t => cases ow <;> simp [matchesFormat, FormatOf, offsetFormat, ascii_eq]

theorem formatOf_ok {t : Ty} (ht : Exportable t) : FormatOf t (formatOf t) := by
  cases t with
  | bool => rfl
  | prim p =>
    simp only [Exportable, primFormat_eq, Option.isSome_map] at ht
    simp only [FormatOf, formatOf, primFormat_eq]
    obtain ⟨s, hs⟩ := Option.isSome_iff_exists.1 ht
    exact ⟨s, hs, by simp [hs]⟩
  | fsl n nl t =>
    exact ⟨decimal n, rfl, (decimal_spec n).1, (decimal_spec n).2⟩
  | vsl ow nl t => cases ow <;> rfl

/-- Two formats of which the second type accepts the first come from the same
type, up to children. -/
def SameHead : Ty → Ty → Prop
  | .bool, .bool => True
  | .prim p, .prim q => p = q
  | .fsl n _ _, .fsl k _ _ => n = k
  | .vsl ow _ _, .vsl ow' _ _ => ow = ow'
  | _, _ => False

theorem same_head {t t' : Ty} {f : List Byte} (h : FormatOf t f) (h' : FormatOf t' f) : SameHead t t' := by
  have e : bytesOf "+w:" = [43#8, 119#8, 58#8] := by decide
  have el : bytesOf "+l" = [43#8, 108#8] := by decide
  have eL : bytesOf "+L" = [43#8, 76#8] := by decide
  have ep : ∀ {p s}, primName p = some s → ∃ c, bytesOf s = [c] ∧ primName p = some s ∧ c ≠ 98#8 := by
    intro p s hp
    cases p <;> simp [primName] at hp <;> subst hp <;> exact ⟨_, rfl, rfl, by decide⟩
  cases t <;> cases t' <;> simp only [FormatOf] at h h'
  · trivial
  · obtain ⟨s, h1, rfl⟩ := h'
    obtain ⟨c, h2, _, h3⟩ := ep h1
    rw [h2, show bytesOf "b" = [98#8] by decide] at h; simp at h; exact absurd h h3
  · obtain ⟨d, rfl, _⟩ := h'; rw [e, show bytesOf "b" = [98#8] by decide] at h; simp at h
  · rename_i ow _ _
    subst h; cases ow <;> simp only [FormatOf] at h' <;> exact absurd h' (by decide)
  · obtain ⟨s, h1, rfl⟩ := h
    obtain ⟨c, h2, _, h3⟩ := ep h1
    rw [h2, show bytesOf "b" = [98#8] by decide] at h'; simp at h'; exact absurd h' h3
  · rename_i p q
    obtain ⟨s, h1, rfl⟩ := h
    obtain ⟨s', h1', h2⟩ := h'
    show p = q
    cases p <;> simp only [primName, Option.some.injEq, reduceCtorEq] at h1 <;> subst h1 <;>
      cases q <;> simp only [primName, Option.some.injEq, reduceCtorEq] at h1' <;> subst h1' <;>
      first | rfl | exact absurd h2 (by decide)
  · obtain ⟨s, h1, rfl⟩ := h
    obtain ⟨c, h2, _, h3⟩ := ep h1
    obtain ⟨d, h4, _⟩ := h'
    rw [h2, e] at h4; simp at h4
  · rename_i ow _ _
    obtain ⟨s, h1, rfl⟩ := h
    obtain ⟨c, h2, _, h3⟩ := ep h1
    rw [h2] at h'
    cases ow <;> simp [el, eL] at h'
  · obtain ⟨d, rfl, _⟩ := h; rw [e, show bytesOf "b" = [98#8] by decide] at h'; simp at h'
  · obtain ⟨s, h1, rfl⟩ := h'
    obtain ⟨c, h2, _, h3⟩ := ep h1
    obtain ⟨d, h4, _⟩ := h
    rw [h2, e] at h4; simp at h4
  · obtain ⟨d, rfl, _, h3⟩ := h
    obtain ⟨d', h4, _, h5⟩ := h'
    have : d = d' := List.append_cancel_left h4
    subst this
    exact h3.symm.trans h5
  · rename_i ow _ _
    obtain ⟨d, rfl, h2, h3⟩ := h
    cases ow <;> simp [e, el, eL] at h'
  · rename_i ow _ _
    subst h'; cases ow <;> simp only [FormatOf] at h <;> exact absurd h (by decide)
  · rename_i ow _ _ _
    obtain ⟨s, h1, rfl⟩ := h'
    obtain ⟨c, h2, _, h3⟩ := ep h1
    rw [h2] at h
    cases ow <;> simp [el, eL] at h
  · rename_i ow _ _ _ _ _
    obtain ⟨d, rfl, h2, h3⟩ := h'
    cases ow <;> simp [e, el, eL] at h
  · rename_i ow _ _ ow' _ _
    show ow = ow'
    cases ow <;> cases ow' <;> simp only [FormatOf] at h h' <;>
      first | rfl | (subst h; exact absurd h' (by decide))

end Narrow.Ffi
