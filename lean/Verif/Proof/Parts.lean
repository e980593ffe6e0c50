import Verif.Spec.Parts
import Verif.Proof.Layout

/-! # Assembling collections from parts -/

namespace Narrow

namespace Bitmap

theorem tryFromParts_ok {buffer : RVec Byte} {bits offset : Nat} (hw : buffer.WF byteMax) :
    offset + bits ≤ 8 * buffer.items.length →
      tryFromParts buffer bits offset = .ok ⟨buffer, bits, offset⟩ := by
  intro h
  have := hw.le_lim
  have h1 : buffer.items.length * 8 ≤ usizeMax := by unfold byteMax at this; unfold usizeMax; omega
  have h2 : offset + bits ≤ usizeMax := by omega
  simp only [tryFromParts, checkedAdd, h2, if_true, satMul, Nat.min_eq_left h1]
  rw [if_pos (by omega)]

theorem tryFromParts_err {buffer : RVec Byte} {bits offset : Nat} (hw : buffer.WF byteMax) :
    8 * buffer.items.length < offset + bits →
      tryFromParts buffer bits offset = .error ⟨offset, bits, buffer.items.length⟩ := by
  intro h
  have := hw.le_lim
  have h1 : buffer.items.length * 8 ≤ usizeMax := by unfold byteMax at this; unfold usizeMax; omega
  simp only [tryFromParts, checkedAdd, satMul, Nat.min_eq_left h1]
  split
  · next r hr =>
    split at hr
    · simp only [Option.some.injEq] at hr; rw [if_neg (by omega)]
    · simp at hr
  · rfl

theorem tryFromParts_inv {buffer : RVec Byte} {bits offset : Nat} {b : Bitmap} (hw : buffer.WF byteMax)
    (h : tryFromParts buffer bits offset = .ok b) : b.Inv ∧ b = ⟨buffer, bits, offset⟩ := by
  by_cases hle : offset + bits ≤ 8 * buffer.items.length
  · rw [tryFromParts_ok hw hle] at h
    simp only [Except.ok.injEq] at h
    subst h
    exact ⟨⟨hw, hle⟩, rfl⟩
  · rw [tryFromParts_err hw (by omega)] at h; simp at h

end Bitmap

namespace Validity

variable {O : Type} {K : Coll O} {L : LawfulColl K}

theorem tryFromParts_eq {c : K.C} (b : Bitmap) (hc : L.Inv c) :
    tryFromParts K c b = .ok (if (L.abs c).length = b.bits then .ok ⟨c, some b⟩
      else .error ⟨(L.abs c).length, b.bits⟩) := by
  simp only [tryFromParts, L.len_ok hc, Res.map]

theorem tryFromParts_inv {c : K.C} {b : Bitmap} {v : Validity K.C} (hc : L.Inv c) (hb : b.Inv)
    (h : tryFromParts K c b = .ok (.ok v)) : Inv L v := by
  rw [tryFromParts_eq b hc] at h
  split at h
  · next he =>
    simp only [Res.ok.injEq, Except.ok.injEq] at h
    subst h
    refine ⟨hc, fun b' h' => ?_⟩
    simp only [Option.some.injEq] at h'
    subst h'
    exact ⟨hb, by simp only; omega⟩
  · simp at h

theorem fromCollection_inv {c : K.C} (hc : L.Inv c) : Inv L (fromCollection c) :=
  ⟨hc, fun b h => by simp [fromCollection] at h⟩

end Validity

namespace Flatten

variable {O : Type} {K : Coll O} {L : LawfulColl K}

theorem tryFromParts_eq (n : Nat) {c : K.C} (hc : L.Inv c) :
    tryFromParts K n c = .ok (if n = 0 then .error .zeroChunkSize
      else if (L.abs c).length % n = 0 then .ok ⟨c⟩ else .error (.notMultiple (L.abs c).length n)) := by
  simp only [tryFromParts, L.len_ok hc, Res.map]

theorem tryFromParts_inv {n : Nat} {c : K.C} {f : Flatten K.C} (hc : L.Inv c)
    (h : tryFromParts K n c = .ok (.ok f)) : flatInv L n f := by
  rw [tryFromParts_eq n hc] at h
  split at h
  · simp at h
  · split at h
    · next he =>
      simp only [Res.ok.injEq, Except.ok.injEq] at h
      subst h
      exact ⟨hc, he⟩
    · simp at h

end Flatten

namespace Offsets

variable {O : Type} {K : Coll O} {L : LawfulColl K} {ow : OffW}

open Spec

/-- Entries never decrease. -/
def Asc (l : List Int) : Prop := ∀ i (h : i + 1 < l.length), l[i] ≤ l[i + 1]

theorem Asc.mono {l : List Int} (h : Asc l) : ∀ (d i : Nat) (hj : i + d < l.length), l[i] ≤ l[i + d]
  | 0, i, hj => by simp
  | d + 1, i, hj => by
    have h1 := h.mono d i (by omega)
    have h2 := h (i + d) (by omega)
    have h3 : i + (d + 1) = i + d + 1 := by omega
    simp only [h3]
    omega

theorem asc_cons {a b : Int} {l : List Int} : Asc (a :: b :: l) ↔ a ≤ b ∧ Asc (b :: l) := by
  constructor
  · intro h
    refine ⟨h 0 (by simp), fun i hi => ?_⟩
    have := h (i + 1) (by simpa using hi)
    simpa using this
  · rintro ⟨h1, h2⟩ i hi
    cases i with
    | zero => simpa using h1
    | succ i => have := h2 i (by simpa using hi); simpa using this

theorem asc_single (a : Int) : Asc [a] := fun i h => by simp at h

theorem good_cons {l : List Int} : GoodOffsets (0 :: l) ↔ Asc (0 :: l) := by
  constructor
  · intro h i hi
    exact h.sorted i (i + 1) (by omega) hi (by omega)
  · intro h
    refine ⟨by simp, ?_, ?_⟩
    · intro x hx
      obtain ⟨i, hi, rfl⟩ := List.getElem_of_mem hx
      have := h.mono i 0 (by omega)
      simpa using this
    · intro i j hi hj hij
      have := h.mono (j - i) i (by omega)
      have h3 : i + (j - i) = j := by omega
      simpa only [h3] using this

theorem checkRest_ok : ∀ (rest : List Int) (idx p last : Nat),
    checkRest idx p rest = .ok last ↔
      Asc ((p : Int) :: rest) ∧ ((p : Int) :: rest).getLast (by simp) = (last : Int)
  | [], idx, p, last => by simp [checkRest, asc_single]; omega
  | o :: rest, idx, p, last => by
    simp only [checkRest, asc_cons]
    split
    · simp; omega
    · split
      · simp; omega
      · have ih := checkRest_ok rest (idx + 1) o.toNat last
        have ho : (o.toNat : Int) = o := by omega
        rw [ih]
        simp only [ho, List.getLast_cons_cons]
        constructor
        · rintro ⟨h1, h2⟩; exact ⟨⟨by omega, h1⟩, h2⟩
        · rintro ⟨⟨_, h1⟩, h2⟩; exact ⟨h1, h2⟩

theorem checkRest_err : ∀ (rest : List Int) (idx p : Nat) (e : OffsetsError),
    checkRest idx p rest = .error e → ∃ k, ∃ h : k < rest.length,
      Asc ((p : Int) :: rest.take k) ∧ rest[k] < ((p : Int) :: rest)[k]'(by simp; omega) ∧
      e = if rest[k] < 0 then .negative (idx + k) else .nonMonotonic (idx + k)
  | [], idx, p, e => by simp [checkRest]
  | o :: rest, idx, p, e => by
    intro h
    simp only [checkRest] at h
    split at h
    · next ho =>
      simp only [Except.error.injEq] at h
      exact ⟨0, by simp, by simpa using asc_single _, by simp; omega, by simp [ho, ← h]⟩
    · split at h
      · next ho hp =>
        simp only [Except.error.injEq] at h
        exact ⟨0, by simp, by simpa using asc_single _, by simp; omega, by simp [ho, ← h]⟩
      · next h1 h2 =>
        obtain ⟨k, hk, a1, a2, a3⟩ := checkRest_err rest (idx + 1) o.toNat e h
        have ho : (o.toNat : Int) = o := by omega
        rw [ho] at a1 a2
        refine ⟨k + 1, by simpa using hk, ?_, by simpa using a2, ?_⟩
        · rw [List.take_succ_cons, asc_cons]; exact ⟨by omega, a1⟩
        · rw [a3]; simp only [List.getElem_cons_succ, Nat.add_right_comm idx 1 k, Nat.add_assoc idx k 1]

/-- Offsets that pass the checks are the running totals of the rows they delimit. -/
theorem totals_slices (data : List O) : ∀ (rest : List Int) (p : Nat),
    Asc ((p : Int) :: rest) → ((p : Int) :: rest).getLast (by simp) ≤ data.length →
      totals p (slices data ((p : Int) :: rest)) = (p : Int) :: rest ∧
      (slices data ((p : Int) :: rest)).flatten <+: data.drop p
  | [], p, _, _ => by simp [slices, totals]
  | o :: rest, p, h, hl => by
    obtain ⟨h1, h2⟩ := asc_cons.mp h
    obtain ⟨q, rfl⟩ : ∃ q : Nat, o = q := ⟨o.toNat, by omega⟩
    rw [List.getLast_cons_cons] at hl
    obtain ⟨i1, i2⟩ := totals_slices data rest q h2 hl
    have hq : (q : Int) ≤ data.length := by
      refine Int.le_trans ?_ hl
      have := h2.mono rest.length 0 (by simp)
      rw [List.getLast_eq_getElem]
      simpa using this
    have hpq : p ≤ q := by omega
    have hlen : ((data.drop p).take (q - p)).length = q - p := by simp; omega
    simp only [slices, Int.toNat_natCast, totals, hlen, Nat.add_sub_cancel' hpq]
    refine ⟨by rw [i1], ?_⟩
    obtain ⟨t, ht⟩ := i2
    refine ⟨t, ?_⟩
    rw [List.flatten_cons, List.append_assoc, ht]
    have : data.drop q = (data.drop p).drop (q - p) := by rw [List.drop_drop, Nat.add_sub_cancel' hpq]
    rw [this, List.take_append_drop]

theorem tryFromParts_valid {c : K.C} {offsets : RVec Int} (hc : L.Inv c)
    (h : ValidOffsets offsets.items (L.abs c).length) :
    tryFromParts K c offsets = .ok (.ok ⟨c, offsets⟩) := by
  obtain ⟨h1, h2, h3⟩ := h
  unfold tryFromParts
  cases hi : offsets.items with
  | nil => exact absurd hi h1
  | cons first rest =>
    simp only [hi] at h2 h3
    have h0 : first = 0 := h2.first first rfl
    subst h0
    simp only [Int.lt_irrefl, if_false, Int.toNat_zero, ne_eq, not_true_eq_false]
    have ha := good_cons.mp h2
    have hlast : 0 ≤ ((0 : Int) :: rest).getLast (by simp) := h2.nonneg _ (List.getLast_mem _)
    have := (checkRest_ok rest 1 0 (((0 : Int) :: rest).getLast (by simp)).toNat).mpr
      ⟨ha, by rw [Int.toNat_of_nonneg hlast]; rfl⟩
    simp only [this, L.len_ok hc, Res.map]
    rw [if_neg (by omega)]

theorem tryFromParts_invalid {c : K.C} {offsets : RVec Int} (hc : L.Inv c)
    (h : ¬ ValidOffsets offsets.items (L.abs c).length) :
    ∃ e, tryFromParts K c offsets = .ok (.error e) ∧
      FirstViolation offsets.items (L.abs c).length e := by
  unfold tryFromParts
  cases hi : offsets.items with
  | nil => exact ⟨_, rfl, .empty rfl⟩
  | cons first rest =>
    simp only [hi] at h
    by_cases h1 : first < 0
    · simp only [h1, if_true]
      exact ⟨_, rfl, .negative 0 (by simp) ⟨by simp, by simp, by simp⟩ (by simpa using h1)⟩
    · simp only [h1, if_false]
      by_cases h2 : first.toNat = 0
      · have h0 : first = 0 := by omega
        subst h0
        simp only [Int.toNat_zero, ne_eq, not_true_eq_false, if_false]
        cases hr : checkRest 1 0 rest with
        | error e =>
          refine ⟨e, rfl, ?_⟩
          obtain ⟨k, hk, a1, a2, a3⟩ := checkRest_err rest 1 0 e hr
          have hg : GoodOffsets (((0 : Int) :: rest).take (k + 1)) := by
            rw [List.take_succ_cons]; exact good_cons.mpr a1
          by_cases hn : rest[k] < 0
          · rw [if_pos hn] at a3
            subst a3
            rw [Nat.add_comm]
            exact .negative (k + 1) (by simpa using hk) hg (by simpa using hn)
          · rw [if_neg hn] at a3
            subst a3
            rw [Nat.add_comm]
            exact .nonMonotonic k (by simpa using hk) hg (by simpa using Int.not_lt.mp hn)
              (by simpa using a2)
        | ok last =>
          obtain ⟨a1, a2⟩ := (checkRest_ok rest 1 0 last).mp hr
          have hg : GoodOffsets ((0 : Int) :: rest) := good_cons.mpr a1
          simp only [L.len_ok hc, Res.map]
          by_cases hl : last > (L.abs c).length
          · rw [if_pos hl]
            refine ⟨_, rfl, ?_⟩
            have := FirstViolation.outOfBounds (l := (0 : Int) :: rest) (data := (L.abs c).length)
              (by simp) hg (by rw [show ((0 : Int) :: rest).getLast (by simp) = last from a2]; omega)
            rw [show (((0 : Int) :: rest).getLast (by simp)).toNat = last from by
              rw [show ((0 : Int) :: rest).getLast (by simp) = last from a2]; simp] at this
            exact this
          · exact absurd ⟨by simp, hg, by
              rw [show ((0 : Int) :: rest).getLast (by simp) = last from a2]; omega⟩ h
      · simp only [h2, if_true, ne_eq, not_false_eq_true]
        have := FirstViolation.nonZeroFirst (l := first :: rest) (data := (L.abs c).length)
          (by simp) (by simp; omega)
        exact ⟨_, rfl, by simpa using this⟩

theorem tryFromParts_inv {c : K.C} {offsets : RVec Int} {f : Offsets K.C} (hc : L.Inv c)
    (hw : offsets.WF ow.lim) (h : tryFromParts K c offsets = .ok (.ok f)) :
    f = ⟨c, offsets⟩ ∧ ValidOffsets offsets.items (L.abs c).length ∧ Inv L ow f := by
  by_cases hv : ValidOffsets offsets.items (L.abs c).length
  · rw [tryFromParts_valid hc hv] at h
    simp only [Res.ok.injEq, Except.ok.injEq] at h
    subst h
    refine ⟨rfl, hv, hw, ?_⟩
    obtain ⟨h1, h2, h3⟩ := hv
    cases hi : offsets.items with
    | nil => exact absurd hi h1
    | cons first rest =>
      simp only [hi] at h2 h3
      have h0 : first = 0 := h2.first first rfl
      subst h0
      obtain ⟨t1, t2⟩ := totals_slices (L.abs c) rest 0 (good_cons.mp h2) h3
      refine ⟨hc, ?_, ?_⟩
      · simp only [abs, hi]; exact t1.symm
      · simp only [abs, hi]; exact t2
  · obtain ⟨e, he, -⟩ := tryFromParts_invalid hc hv
    rw [he] at h; simp at h

end Offsets

end Narrow
