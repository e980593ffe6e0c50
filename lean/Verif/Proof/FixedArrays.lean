import Verif.Model.FixedArrays
import Verif.Proof.Debug

/-! # `FixedSizeArray` and views of groups -/

namespace Narrow

theorem packValues_lt {w : Nat} : ∀ l : List (BitVec w), packValues l < 2 ^ (w * l.length)
  | [] => by simp [packValues]
  | x :: l => by
    have h1 := packValues_lt l
    have h2 := x.isLt
    rw [List.length_cons, Nat.mul_succ, Nat.add_comm, Nat.pow_add, packValues]
    have h3 : packValues l + 1 ≤ 2 ^ (w * l.length) := h1
    have h4 := Nat.mul_le_mul_left (2 ^ w) h3
    rw [Nat.mul_add] at h4
    omega

theorem packValues_get {w : Nat} : ∀ (l : List (BitVec w)) (i : Nat) (h : i < l.length),
    packValues l / 2 ^ (w * i) % 2 ^ w = l[i].toNat
  | x :: l, 0, _ => by
    simp only [packValues, Nat.mul_zero, Nat.pow_zero, Nat.div_one, Nat.add_mul_mod_self_left]
    exact Nat.mod_eq_of_lt x.isLt
  | x :: l, i + 1, h => by
    have := packValues_get l i (by simpa using h)
    rw [packValues, Nat.mul_succ, Nat.add_comm (w * i), Nat.pow_add, ← Nat.div_div_eq_div_mul,
      Nat.add_mul_div_left _ _ (Nat.two_pow_pos w), Nat.div_eq_of_lt x.isLt, Nat.zero_add]
    exact this

theorem deref_ofArray {n : Nat} {p : Prim} (a : FixArr (PrimVal p) n) :
    FixedSizeArray.deref (FixedSizeArray.ofArray a) = a := by
  obtain ⟨l, rfl⟩ := a
  apply Subtype.ext
  apply List.ext_getElem
  · simp [FixedSizeArray.deref]
  · intro i h1 h2
    simp only [FixedSizeArray.deref, List.getElem_map, List.getElem_range]
    apply BitVec.eq_of_toNat_eq
    rw [BitVec.extractLsb'_toNat, FixedSizeArray.ofArray, BitVec.toNat_ofNat]
    have hlt : packValues l < 2 ^ (8 * (Prim.array l.length p).size) := by
      show packValues l < 2 ^ (8 * (l.length * p.size))
      have := packValues_lt l
      rwa [show 8 * (l.length * p.size) = 8 * p.size * l.length by
        rw [Nat.mul_comm l.length, Nat.mul_assoc]]
    rw [show packValues (⟨l, rfl⟩ : FixArr (PrimVal p) l.length).1 %
      2 ^ (8 * (Prim.array l.length p).size) = packValues l from Nat.mod_eq_of_lt hlt,
      Nat.shiftRight_eq_div_pow]
    exact packValues_get l i h2

theorem deref_inj {n : Nat} {p : Prim} {a b : PrimVal (.array n p)}
    (h : FixedSizeArray.deref a = FixedSizeArray.deref b) : a = b :=
  pieces_eq fun i hi => (List.map_inj_left.mp (congrArg Subtype.val h)) i (List.mem_range.mpr hi)

theorem ofArray_deref {n : Nat} {p : Prim} (v : PrimVal (.array n p)) :
    FixedSizeArray.ofArray (FixedSizeArray.deref v) = v := deref_inj (deref_ofArray _)

theorem then_decides : ∀ {o a b : Ordering}, o ≠ .eq → (a.then b = o ↔ a = o ∨ a = .eq ∧ b = o) := by
  intro o a b
  cases o <;> cases a <;> cases b <;> simp [Ordering.then]

/-- The first difference decides. -/
theorem sliceCmp_iff {α : Type} {cmp : α → α → Ordering} {o : Ordering} (ho : o ≠ .eq) :
    ∀ {xs ys : List α}, xs.length = ys.length → (sliceCmp cmp xs ys = o ↔
      ∃ j, ∃ h1 : j < xs.length, ∃ h2 : j < ys.length, cmp xs[j] ys[j] = o ∧
        ∀ i (hi : i < j), cmp (xs[i]'(Nat.lt_trans hi h1)) (ys[i]'(Nat.lt_trans hi h2)) = .eq)
  | [], [], _ => by simp [sliceCmp, ho.symm]
  | x :: xs, y :: ys, h => by
    have ih := sliceCmp_iff (cmp := cmp) ho (xs := xs) (ys := ys) (by simpa using h)
    rw [sliceCmp, then_decides ho, ih]
    constructor
    · rintro (h0 | ⟨h0, j, h1, h2, h3, h4⟩)
      · exact ⟨0, Nat.zero_lt_succ _, Nat.zero_lt_succ _, h0, fun i hi => absurd hi (Nat.not_lt_zero i)⟩
      · refine ⟨j + 1, Nat.succ_lt_succ h1, Nat.succ_lt_succ h2, h3, fun i hi => ?_⟩
        cases i with
        | zero => exact h0
        | succ i => exact h4 i (Nat.lt_of_succ_lt_succ hi)
    · rintro ⟨j, h1, h2, h3, h4⟩
      cases j with
      | zero => exact .inl h3
      | succ j =>
        exact .inr ⟨h4 0 (Nat.zero_lt_succ j), j, Nat.lt_of_succ_lt_succ h1, Nat.lt_of_succ_lt_succ h2, h3,
          fun i hi => h4 (i + 1) (Nat.succ_lt_succ hi)⟩

/-- Byte `b` of element `j` is byte `j * size + b` of the value. -/
theorem ofArray_byte {n : Nat} {p : Prim} (a : FixArr (PrimVal p) n) {j b : Nat} (hj : j < n)
    (hb : b < p.size) : (FixedSizeArray.ofArray a).extractLsb' (8 * (j * p.size + b)) 8 =
      (a.1[j]'(by rw [a.2]; exact hj)).extractLsb' (8 * b) 8 := by
  have h : a.1[j]'(by rw [a.2]; exact hj) =
      (FixedSizeArray.ofArray a).extractLsb' (8 * p.size * j) (8 * p.size) := by
    conv => lhs; rw [getElem_congr_coll (congrArg Subtype.val (deref_ofArray a).symm)]
    simp [FixedSizeArray.deref]
  rw [h]
  apply BitVec.eq_of_getLsbD_eq
  intro i hi
  simp only [BitVec.getLsbD_extractLsb', hi, decide_true, Bool.true_and]
  rw [show decide (8 * b + i < 8 * p.size) = true from decide_eq_true (by omega), Bool.true_and,
    show 8 * (j * p.size + b) + i = 8 * p.size * j + (8 * b + i) by
      rw [Nat.mul_add, Nat.mul_comm j, Nat.mul_assoc, Nat.add_assoc]]

end Narrow
