import Verif.Spec.FirstNone
import Verif.Proof.Fuse

/-! # Packing sources that resume -/

namespace Narrow

open Spec

/-- The bit that an answer puts at its position. -/
def Ev.bit : Ev Bool → Bool
  | .item x => x
  | _ => false

section
variable {α : Type}

theorem answer_cons_zero (e : Ev α) (s : Src α) : answer (e :: s) 0 = e := rfl
theorem answer_cons_succ (e : Ev α) (s : Src α) (j : Nat) : answer (e :: s) (j + 1) = answer s j := by
  simp [answer]
theorem answer_nil (j : Nat) : answer ([] : Src α) j = .none := by simp [answer]
theorem answer_drop (s : Src α) (k j : Nat) : answer (s.drop k) j = answer s (k + j) := by
  simp [answer, List.getElem?_drop]

theorem answer_map {β : Type} (f : α → β) (s : Src α) (j : Nat) :
    answer (s.map f) j = match answer s j with
      | .item a => .item (f a)
      | .none => .none
      | .panic => .panic := by
  simp only [answer, Src.map, List.getElem?_map]
  cases s[j]? with
  | none => rfl
  | some e => cases e <;> rfl

theorem yields_zero (s : Src α) : yields s 0 = [] := by simp [yields]

theorem yields_add (s : Src α) (k m : Nat) : yields s (k + m) = yields s k ++ yields (s.drop k) m := by
  simp [yields, List.take_add]

theorem yields_item (a : α) (s : Src α) (k : Nat) : yields (.item a :: s) (k + 1) = a :: yields s k := by
  simp [yields]

theorem yields_none (s : Src α) (k : Nat) : yields (.none :: s) (k + 1) = yields s k := by
  simp [yields]

theorem yields_nil (k : Nat) : yields ([] : Src α) k = [] := by simp [yields]

theorem yields_map {β : Type} (f : α → β) (s : Src α) (k : Nat) :
    yields (s.map f) k = (yields s k).map f := by
  simp only [yields, Src.map, ← List.map_take, List.filterMap_map, List.map_filterMap]
  congr 1
  funext e
  cases e <;> rfl

theorem Spec.StopsAt.map {β : Type} (f : α → β) {s : Src α} {m : Nat} :
    StopsAt (s.map f) m ↔ StopsAt s m := by
  constructor
  · rintro ⟨h1, h2, h3, h4⟩
    refine ⟨h1, ?_, fun j hj h8 => ?_, fun j hj e => h4 j hj ?_⟩
    · rw [answer_map] at h2
      cases h : answer s m <;> rw [h] at h2 <;> first | rfl | cases h2
    · obtain ⟨b, h⟩ := h3 j hj h8
      rw [answer_map] at h
      cases h' : answer s j with
      | item a => exact ⟨a, rfl⟩
      | none => rw [h'] at h; cases h
      | panic => rw [h'] at h; cases h
    · rw [answer_map, e]
  · rintro ⟨h1, h2, h3, h4⟩
    refine ⟨h1, by rw [answer_map, h2], fun j hj h8 => ?_, fun j hj e => ?_⟩
    · obtain ⟨a, h⟩ := h3 j hj h8
      exact ⟨f a, by rw [answer_map, h]⟩
    · rw [answer_map] at e
      cases h : answer s j with
      | item a => rw [h] at e; cases e
      | none => rw [h] at e; cases e
      | panic => exact h4 j hj h

theorem Spec.StopsAt.unique {s : Src α} {m m' : Nat} (h : StopsAt s m) (h' : StopsAt s m') : m = m' := by
  rcases Nat.lt_trichotomy m m' with hl | he | hl
  · obtain ⟨a, e⟩ := h'.before m hl h.eighth
    rw [h.none] at e; cases e
  · exact he
  · obtain ⟨a, e⟩ := h.before m' hl h'.eighth
    rw [h'.none] at e; cases e

theorem pullRest_exact : ∀ (k : Nat) (s : Src α), (∀ j, j < k → answer s j ≠ .panic) →
    Bitmap.pullRest k s = (yields s k, s.drop k)
  | 0, s, _ => by simp [Bitmap.pullRest, yields_zero]
  | k + 1, [], _ => by simp [Bitmap.pullRest, yields_nil]
  | k + 1, .none :: s, h => by
    have := pullRest_exact k s fun j hj e => h (j + 1) (by omega) (by rw [answer_cons_succ, e])
    simp [Bitmap.pullRest, this, yields_none]
  | k + 1, .panic :: s, h => absurd rfl (h 0 (by omega))
  | k + 1, .item a :: s, h => by
    have := pullRest_exact k s fun j hj e => h (j + 1) (by omega) (by rw [answer_cons_succ, e])
    simp [Bitmap.pullRest, this, yields_item]

theorem Spec.StopsAt.tail {a : α} {s : Src α} {m : Nat} (h : StopsAt (.item a :: s) m) :
    ∃ m', m = m' + 8 ∧ StopsAt (s.drop 7) m' := by
  have h0 : m ≠ 0 := by
    rintro rfl
    have := h.none
    rw [answer_cons_zero] at this; cases this
  have h8 := h.eighth
  have e : ∀ j, answer (s.drop 7) j = answer (.item a :: s) (j + 8) := by
    intro j
    rw [answer_drop, answer_cons_succ, Nat.add_comm 7 j]
  refine ⟨m - 8, by omega, by omega, ?_, fun j hj hj8 => ?_, fun j hj => ?_⟩
  · rw [e, show m - 8 + 8 = m by omega]; exact h.none
  · rw [e]; exact h.before (j + 8) (by omega) (by omega)
  · rw [e]; exact h.calm (j + 8) (by omega)

theorem pulled_exact (s : Src α) {m : Nat} (h : StopsAt s m) : Bitmap.pulled s = yields s m := by
  match s with
  | [] => simp [Bitmap.pulled, yields_nil]
  | .none :: s =>
    have : m = 0 := h.unique ⟨rfl, rfl, fun j hj => absurd hj (by omega), fun j hj => absurd hj (by omega)⟩
    subst this
    simp [Bitmap.pulled, yields_zero]
  | .panic :: s =>
    rcases Nat.eq_zero_or_pos m with rfl | hm
    · have := h.none
      rw [answer_cons_zero] at this; cases this
    · exact absurd rfl (h.calm 0 hm)
  | .item a :: s =>
    obtain ⟨m', rfl, h'⟩ := h.tail
    have hr := pullRest_exact 7 s fun j hj e => h.calm (j + 1) (by omega) (by rw [answer_cons_succ, e])
    rw [Bitmap.pulled, hr, pulled_exact _ h', show m' + 8 = (7 + m') + 1 by omega, yields_item, yields_add]
termination_by s.length
decreasing_by simp only [List.length_cons, List.length_drop]; omega

end

theorem packRest_exact : ∀ (k pos : Nat) (byte : Byte) (s : Src Bool) (n : Nat) {b s' n'},
    packRest k pos byte s n = some (b, s', n') → pos + k ≤ 8 → (∀ i, pos ≤ i → byte.getLsbD i = false) →
    s' = s.drop k ∧ n' = n + (yields s k).length ∧ (∀ j, j < k → answer s j ≠ .panic) ∧
      ∀ i, b.getLsbD i = if i < pos then byte.getLsbD i
        else decide (i < pos + k) && (answer s (i - pos)).bit
  | 0, pos, byte, s, n, b, s', n', h, _, hb => by
    simp only [packRest, Option.some.injEq, Prod.mk.injEq] at h
    obtain ⟨rfl, rfl, rfl⟩ := h
    refine ⟨by simp, by simp [yields_zero], fun j hj => absurd hj (by omega), fun i => ?_⟩
    split
    · rfl
    · rw [hb i (by omega)]; simp; omega
  | k + 1, pos, byte, [], n, b, s', n', h, hp, hb => by
    simp only [packRest] at h
    obtain ⟨h1, h2, h3, h4⟩ := packRest_exact k (pos + 1) byte [] n h (by omega) fun i hi => hb i (by omega)
    refine ⟨by simpa using h1, by simpa [yields_nil] using h2, fun j _ => by simp [answer_nil], fun i => ?_⟩
    rw [h4 i]
    simp only [answer_nil, Ev.bit, Bool.and_false]
    split
    · split
      · rfl
      · exact hb i (by omega)
    · rw [if_neg (by omega)]
  | k + 1, pos, byte, .none :: s, n, b, s', n', h, hp, hb => by
    simp only [packRest] at h
    obtain ⟨h1, h2, h3, h4⟩ := packRest_exact k (pos + 1) byte s n h (by omega) fun i hi => hb i (by omega)
    refine ⟨by simpa using h1, by simpa [yields_none] using h2, fun j hj => ?_, fun i => ?_⟩
    · cases j with
      | zero => simp [answer_cons_zero]
      | succ j => rw [answer_cons_succ]; exact h3 j (by omega)
    · rw [h4 i]
      rcases Nat.lt_trichotomy i pos with hl | rfl | hl
      · simp [hl, show i < pos + 1 by omega]
      · simp only [Nat.lt_irrefl, if_false, Nat.lt_succ_self, if_true, Nat.sub_self, answer_cons_zero, Ev.bit,
          Bool.and_false]
        exact hb i (Nat.le_refl i)
      · rw [if_neg (by omega), if_neg (by omega), show i - pos = (i - (pos + 1)) + 1 by omega, answer_cons_succ,
          show pos + 1 + k = pos + (k + 1) by omega]
  | k + 1, pos, byte, .panic :: s, n, b, s', n', h, _, _ => by simp [packRest] at h
  | k + 1, pos, byte, .item x :: s, n, b, s', n', h, hp, hb => by
    simp only [packRest] at h
    obtain ⟨h1, h2, h3, h4⟩ := packRest_exact k (pos + 1) _ s (n + 1) h (by omega) (by
      intro i hi
      rw [getLsbD_packStep byte x (by omega) (hb pos (by omega)), if_neg (by omega)]
      exact hb i (by omega))
    refine ⟨by simpa using h1, by rw [h2, yields_item]; simp; omega, fun j hj => ?_, fun i => ?_⟩
    · cases j with
      | zero => simp [answer_cons_zero]
      | succ j => rw [answer_cons_succ]; exact h3 j (by omega)
    · rw [h4 i, getLsbD_packStep byte x (by omega) (hb pos (by omega))]
      rcases Nat.lt_trichotomy i pos with hl | rfl | hl
      · simp [hl, show i < pos + 1 by omega, show i ≠ pos by omega]
      · simp [answer_cons_zero, Ev.bit]
      · rw [if_neg (by omega), if_neg (by omega), show i - pos = (i - (pos + 1)) + 1 by omega, answer_cons_succ,
          show pos + 1 + k = pos + (k + 1) by omega]

/-- What is packed of a source, resuming or not. -/
theorem pack_exact (s : Src Bool) (hp : (pack s).1.panics = false) :
    ∃ m, StopsAt s m ∧ (pack s).2 = (yields s m).length ∧ 8 * (pack s).1.items.length = m ∧
      ∀ i, i < m → bitAt (pack s).1.items i = (answer s i).bit := by
  match s with
  | [] =>
    exact ⟨0, ⟨rfl, rfl, fun j hj => absurd hj (by omega), fun j hj => absurd hj (by omega)⟩,
      by simp [pack, yields_zero], by simp [pack], fun i hi => absurd hi (by omega)⟩
  | .none :: s =>
    exact ⟨0, ⟨rfl, rfl, fun j hj => absurd hj (by omega), fun j hj => absurd hj (by omega)⟩,
      by simp [pack, yields_zero], by simp [pack], fun i hi => absurd hi (by omega)⟩
  | .panic :: s => simp [pack] at hp
  | .item x :: s =>
    rw [pack] at hp ⊢
    split at hp
    · simp [Src.panics] at hp
    · next byte s' n heq =>
      have hlen := packRest_length heq
      obtain ⟨h1, h2, h3, h4⟩ := packRest_exact 7 1 (boolByte x) s 0 heq (by omega) (by
        intro i hi; rw [getLsbD_boolByte]; simp; omega)
      subst h1
      simp only [Src.panics] at hp
      obtain ⟨m, i1, i2, i3, i4⟩ := pack_exact (s.drop 7) hp
      have e : ∀ j, answer (.item x :: s) (j + 8) = answer (s.drop 7) j := by
        intro j
        rw [answer_drop, answer_cons_succ, Nat.add_comm 7 j]
      have hlow : ∀ j, j < 8 → answer (Ev.item x :: s) j ≠ .panic := by
        intro j hj
        cases j with
        | zero => simp [answer_cons_zero]
        | succ j => rw [answer_cons_succ]; exact h3 j (by omega)
      refine ⟨m + 8, ⟨by have := i1.eighth; omega, by rw [e]; exact i1.none, fun j hj h8 => ?_, fun j hj => ?_⟩,
        ?_, ?_, fun i hi => ?_⟩
      · by_cases h : j < 8
        · have : j = 0 := by omega
          subst this
          exact ⟨x, rfl⟩
        · rw [show j = (j - 8) + 8 by omega, e]
          exact i1.before _ (by omega) (by omega)
      · by_cases h : j < 8
        · exact hlow j h
        · rw [show j = (j - 8) + 8 by omega, e]
          exact i1.calm _ (by omega)
      · rw [show m + 8 = (7 + m) + 1 by omega, yields_item, yields_add, i2, h2]
        simp; omega
      · simp only [Src.items, List.length_cons]; omega
      · simp only [Src.items]
        by_cases h : i < 8
        · rw [bitAt_cons_lt h, h4 i]
          cases i with
          | zero => rw [if_pos (by omega), getLsbD_boolByte]; simp [answer_cons_zero, Ev.bit]
          | succ i =>
            rw [if_neg (by omega), answer_cons_succ, Nat.add_sub_cancel]
            simp [show i + 1 < 8 by omega]
        · rw [bitAt_cons_ge (by omega), i4 _ (by omega)]
          conv => rhs; rw [show i = (i - 8) + 8 by omega, e]
termination_by s.length
decreasing_by simp only [List.length_cons, List.length_drop] at *; omega

theorem yields_le {α : Type} (s : Src α) (m : Nat) : (yields s m).length ≤ m :=
  Nat.le_trans (List.length_filterMap_le ..) (by simp; omega)

/-- The bits of a bitmap made of the packed bytes. -/
theorem packed_exact {s : Src Bool} {buf : RVec Byte} (hw : RVec.WF byteMax buf)
    (h : buf.items = (pack s).1.items) (hp : (pack s).1.panics = false) :
    ∃ m, StopsAt s m ∧ (⟨buf, (pack s).2, 0⟩ : Bitmap).Inv ∧
      (⟨buf, (pack s).2, 0⟩ : Bitmap).abs =
        (List.range (yields s m).length).map fun j => (answer s j).bit := by
  obtain ⟨m, h1, h2, h3, h4⟩ := pack_exact s hp
  have hle := yields_le s m
  refine ⟨m, h1, ⟨hw, ?_⟩, ?_⟩
  · simp only [h, h2]; omega
  · simp only [Bitmap.abs, h2, h]
    refine List.map_congr_left fun j hj => ?_
    have := List.mem_range.mp hj
    rw [Nat.zero_add, h4 j (by omega)]

theorem range_map_eq_mapIdx {α β : Type} (l : List α) (f : Nat → β) :
    (List.range l.length).map f = l.mapIdx fun j _ => f j := by
  apply List.ext_getElem <;> simp

theorem bit_eq (e : Ev Bool) : e.bit = decide (e = .item true) := by
  cases e with
  | item x => cases x <;> decide
  | none => rfl
  | panic => rfl

theorem bitmap_fromIter_exact {s : Src Bool} {b : Bitmap} (h : Bitmap.fromIter s = .ok b) :
    ∃ m, StopsAt s m ∧ b.Inv ∧ b.abs = (yields s m).mapIdx fun j _ => decide (answer s j = .item true) := by
  unfold Bitmap.fromIter at h
  split at h
  · next buf heq =>
    obtain ⟨h1, h2, h3⟩ := RVec.fromIter_ok heq
    simp only [Try.ok.injEq] at h
    subst h
    obtain ⟨m, e1, e2, e3⟩ := packed_exact h3 h1 h2
    exact ⟨m, e1, e2, by rw [e3, range_map_eq_mapIdx]; simp only [bit_eq]⟩
  · cases h
  · cases h

theorem bitmap_tryFromIter_exact {w w' : World} {s : Src Bool} {b : Bitmap}
    (h : Bitmap.tryFromIter w s = (.ok b, w')) :
    ∃ m, StopsAt s m ∧ b.Inv ∧ b.abs = (yields s m).mapIdx fun j _ => decide (answer s j = .item true) := by
  unfold Bitmap.tryFromIter at h
  split at h
  · next buf w1 heq =>
    obtain ⟨h1, h2, h3⟩ := (RVec.tryFromIter_spec _ _ _).1 _ _ heq
    simp only [Prod.mk.injEq, Try.ok.injEq] at h
    obtain ⟨rfl, -⟩ := h
    obtain ⟨m, e1, e2, e3⟩ := packed_exact h3 h1 h2
    exact ⟨m, e1, e2, by rw [e3, range_map_eq_mapIdx]; simp only [bit_eq]⟩
  · cases h
  · cases h

theorem validity_fromIter_exact {w w' : World} {s : Src (Option Bool)} {v : Validity Bitmap}
    {mk : World → Src Bool → Try Bitmap × World}
    (hmk : ∀ w s, mk w s = (Bitmap.fromIter s, w))
    (h : Validity.fromIterWith bitmapR mk w s = (.ok v, w')) :
    ∃ m, StopsAt s m ∧ Validity.Inv bitmapL.toLawfulColl v ∧
      Validity.abs bitmapL.toLawfulColl v =
        (yields s m).mapIdx fun j o => o.map fun _ => decide (answer s j = .item (some true)) := by
  unfold Validity.fromIterWith at h
  generalize hB : Bitmap.withCap (w.capHint s.items.length) = B at *
  cases B with
  | err => simp at h
  | panic => simp at h
  | ok b =>
    obtain ⟨q1, q2, q3, q4⟩ := Bitmap.withCap_ok hB
    simp only [hmk] at h
    generalize hC : Bitmap.fromIter (Validity.values bitmapR.dflt s) = C at *
    cases C with
    | err => simp at h
    | panic => simp at h
    | ok c =>
      obtain ⟨m, e1, e2, e3⟩ := bitmap_fromIter_exact hC
      have e1' : StopsAt s m := (Spec.StopsAt.map _).mp e1
      simp only at h
      rw [pulled_exact s e1'] at h
      generalize hP : Validity.pushBits b ((yields s m).map Option.isSome) = P at *
      obtain ⟨b', o⟩ := P
      obtain ⟨-, -, p3⟩ := Validity.pushBits_spec _ q1 hP
      cases o with
      | err => simp at h
      | panic => simp at h
      | ok =>
        obtain ⟨p4, p5, -⟩ := p3 rfl
        simp only [Prod.mk.injEq, Try.ok.injEq] at h
        obtain ⟨rfl, -⟩ := h
        rw [q2, List.nil_append] at p5
        have hy : (yields (Validity.values false s) m).length = (yields s m).length := by
          rw [Validity.values, yields_map, List.length_map]
        refine ⟨m, e1', ⟨e2, fun b hb => ?_⟩, ?_⟩
        · cases hb
          refine ⟨p4, ?_⟩
          have l1 := congrArg List.length p5
          have l2 := congrArg List.length e3
          simp only [Bitmap.abs_length, List.length_map, List.length_mapIdx] at l1 l2
          show b'.bits ≤ (Bitmap.abs c).length
          rw [Bitmap.abs_length]
          omega
        · show Validity.mask (Bitmap.abs c) b'.abs = _
          rw [p5, e3]
          apply List.ext_getElem
          · simp [Validity.mask, hy]
          · intro j h1 h2
            simp only [Validity.mask, List.getElem_zipWith, List.getElem_mapIdx, List.getElem_map]
            have ha : decide (answer (Validity.values false s) j = .item true) =
                decide (answer s j = .item (some true)) := by
              rw [Validity.values, answer_map]
              cases answer s j with
              | item o =>
                cases o with
                | none => rfl
                | some x => cases x <;> decide
              | none => rfl
              | panic => rfl
            rw [ha]
            cases (yields s m)[j]'(by simpa using h2) <;> rfl

end Narrow
