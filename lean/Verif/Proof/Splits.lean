import Verif.Spec.Splits
import Verif.Proof.Visible
import Verif.Proof.Reach

/-! # A collection that ends within a fixed-size list cannot be consumed -/

namespace Narrow

open Spec

section
variable {O : Type}

/-- Polling the iterator often enough panics. -/
def Dies {σ τ : Type} (next : σ → Res (Option τ × σ)) (it : σ) : Prop :=
  ∃ m, polls next m it = .panic

theorem polls_panic_more {σ τ : Type} {next : σ → Res (Option τ × σ)} : ∀ {m m' : Nat} {it : σ},
    m ≤ m' → polls next m it = .panic → polls next m' it = .panic
  | 0, _, _, _, h => by simp [polls] at h
  | m + 1, 0, _, h, _ => by omega
  | m + 1, m' + 1, it, hle, h => by
    simp only [polls] at h ⊢
    cases hn : next it with
    | panic => rfl
    | ok r =>
      obtain ⟨x, it'⟩ := r
      rw [hn] at h
      simp only at h ⊢
      have h1 : polls next m it' = .panic := by
        cases hp : polls next m it' with
        | panic => rfl
        | ok r => rw [hp] at h; simp [Res.map] at h
      rw [polls_panic_more (Nat.le_of_succ_le_succ hle) h1]; rfl

theorem chunkRest_polls {K : Coll O} : ∀ (k m : Nat) (it : K.J),
    polls K.jnext m it = .panic →
    Flatten.chunkRest K k it = .panic ∨
      ∃ rest it', Flatten.chunkRest K k it = .ok (rest, it') ∧ polls K.jnext m it' = .panic
  | 0, m, it, h => .inr ⟨[], it, rfl, h⟩
  | k + 1, 0, it, h => by simp [polls] at h
  | k + 1, m + 1, it, h => by
    simp only [polls] at h
    simp only [Flatten.chunkRest]
    cases hn : K.jnext it with
    | panic => exact .inl rfl
    | ok r =>
      obtain ⟨x, it1⟩ := r
      rw [hn] at h
      simp only at h
      have h1 : polls K.jnext m it1 = .panic := by
        cases hp : polls K.jnext m it1 with
        | panic => rfl
        | ok r => rw [hp] at h; simp [Res.map] at h
      rcases chunkRest_polls k m it1 h1 with h2 | ⟨rest, it2, h2, h3⟩
      · exact .inl (by simp [h2, Res.map])
      · exact .inr ⟨x :: rest, it2, by simp [h2, Res.map], polls_panic_more (Nat.le_succ m) h3⟩

theorem dies_flatten {K : Coll O} {n : Nat} {it : K.J} (h : Dies K.jnext it) :
    Dies (Flatten.chunksNext K n) it := by
  obtain ⟨m, h⟩ := h
  refine ⟨m, ?_⟩
  induction m generalizing it with
  | zero => simp [polls] at h
  | succ m ih =>
    simp only [polls] at h ⊢
    cases hn : K.jnext it with
    | panic => rw [show Flatten.chunksNext K n it = .panic by simp [Flatten.chunksNext, hn]]
    | ok r =>
      obtain ⟨x, it1⟩ := r
      rw [hn] at h
      simp only at h
      have h1 : polls K.jnext m it1 = .panic := by
        cases hp : polls K.jnext m it1 with
        | panic => rfl
        | ok r => rw [hp] at h; simp [Res.map] at h
      cases x with
      | none =>
        rw [show Flatten.chunksNext K n it = .ok (none, it1) by simp [Flatten.chunksNext, hn]]
        simp only [ih h1, Res.map]
      | some y =>
        cases hc : Flatten.chunksNext K n it with
        | panic => rfl
        | ok r =>
          obtain ⟨a, it2⟩ := r
          simp only [Flatten.chunksNext, hn] at hc
          split at hc
          · simp at hc
          · rcases chunkRest_polls (n - 1) m it1 h1 with h2 | ⟨rest, it3, h2, h3⟩
            · simp [h2] at hc
            · simp only [h2] at hc
              cases ht : Flatten.toFix n (some y :: rest) with
              | panic => simp [ht, Res.map] at hc
              | ok z =>
                simp only [ht, Res.map, Res.ok.injEq, Prod.mk.injEq] at hc
                simp only [← hc.2, ih h3, Res.map]

theorem expectAll_none : ∀ (l : List (Option O)), none ∈ l → Flatten.expectAll l = .panic
  | none :: l, _ => rfl
  | some o :: l, h => by
    have h1 : none ∈ l := by simpa using h
    simp [Flatten.expectAll, expectAll_none l h1, Res.map]

theorem toFix_none {n : Nat} {l : List (Option O)} (h : none ∈ l) : Flatten.toFix n l = .panic := by
  unfold Flatten.toFix
  split
  · next hl => subst hl; exact expectAll_none l h
  · rfl

/-- Too few items are left for an array. -/
theorem chunkRest_short {K : Coll O} (L : LawfulColl K) : ∀ (k : Nat) (l : List O) (it : K.J),
    L.JRep it l → l.length < k → ∃ rest it', Flatten.chunkRest K k it = .ok (rest, it') ∧ none ∈ rest
  | 0, _, _, _, h => by omega
  | k + 1, [], it, h, _ => by
    obtain ⟨it1, h1, h2⟩ := L.jnext_nil h
    by_cases hk : 0 < k
    · obtain ⟨rest, it2, h3, h4⟩ := chunkRest_short L k [] it1 h2 (by simpa using hk)
      exact ⟨none :: rest, it2, by simp [Flatten.chunkRest, h1, h3, Res.map], by simp⟩
    · have : k = 0 := by omega
      subst this
      exact ⟨[none], it1, by simp [Flatten.chunkRest, h1, Res.map], by simp⟩
  | k + 1, a :: l, it, h, hlt => by
    obtain ⟨it1, h1, h2⟩ := L.jnext_cons h
    obtain ⟨rest, it2, h3, h4⟩ := chunkRest_short L k l it1 h2 (by simpa using hlt)
    exact ⟨some a :: rest, it2, by simp [Flatten.chunkRest, h1, h3, Res.map], by simp [h4]⟩

theorem dies_partial {K : Coll O} (L : LawfulColl K) {n : Nat} (hn : 0 < n) (l : List O) :
    ∀ it : K.J, L.JRep it l → ¬ n ∣ l.length → Dies (Flatten.chunksNext K n) it := by
  intro it h hd
  match l, h, hd with
  | [], h, hd => exact absurd (Nat.dvd_zero n) hd
  | a :: l, h, hd =>
    obtain ⟨it1, h1, h2⟩ := L.jnext_cons h
    by_cases hs : l.length < n - 1
    · obtain ⟨rest, it2, h3, h4⟩ := chunkRest_short L (n - 1) l it1 h2 hs
      refine ⟨1, ?_⟩
      simp [polls, Flatten.chunksNext, h1, h3, if_neg (show ¬ n = 0 by omega),
        toFix_none (n := n) (l := some a :: rest) (by simp [h4]), Res.map]
    · have hl : l = l.take (n - 1) ++ l.drop (n - 1) := by simp
      rw [hl] at h2
      obtain ⟨it2, h3, h4⟩ := Flatten.chunkRest_ok L (l.take (n - 1)) (l.drop (n - 1)) it1 h2
      have htl : (l.take (n - 1)).length = n - 1 := by simp; omega
      rw [htl] at h3
      have hdec : (l.drop (n - 1)).length < (a :: l).length := by simp; omega
      have hd' : ¬ n ∣ (l.drop (n - 1)).length := by
        intro hx
        apply hd
        have : (a :: l).length = n + (l.drop (n - 1)).length := by simp; omega
        rw [this]
        exact Nat.dvd_add (Nat.dvd_refl n) hx
      obtain ⟨m, hm⟩ := dies_partial L hn (l.drop (n - 1)) it2 h4 hd'
      refine ⟨m + 1, ?_⟩
      have h5 := Flatten.toFix_some (⟨a :: l.take (n - 1), by simp; omega⟩ : FixArr O n)
      simp only [List.map_cons] at h5
      have hc : Flatten.chunksNext K n it =
          .ok (some ⟨a :: l.take (n - 1), by simp; omega⟩, it2) := by
        simp only [Flatten.chunksNext, h1, h3, h5, if_neg (show ¬ n = 0 by omega), Res.map]
      simp only [polls, hc, hm, Res.map]
termination_by l.length
decreasing_by exact hdec

/-- The state in which a panic leaves a collection that makes up fixed-size lists of
width `w`: consuming it panics already, or the items do not make up whole lists. -/
def Stuck {R : Realloc O} (L : LawfulR R) (w : Nat) (c : R.C) : Prop :=
  (∃ it, R.into c = .ok it ∧ Dies R.jnext it) ∨ (L.Inv c ∧ ¬ w ∣ (L.abs c).length)

theorem stuck_flatten {R : Realloc O} {L : LawfulR R} {n w : Nat} (hn : 0 < n) {c : R.C}
    (h : Stuck L (w * n) c) : Stuck (flattenL L n hn) w (⟨c⟩ : Flatten R.C) := by
  rcases h with ⟨it, h1, h2⟩ | ⟨h1, h2⟩
  · exact .inl ⟨it, h1, dies_flatten h2⟩
  · by_cases hd : n ∣ (L.abs c).length
    · refine .inr ⟨⟨h1, Nat.mod_eq_zero_of_dvd hd⟩, fun hw => h2 ?_⟩
      have h3 : (flatAbs L.toLawfulColl n ⟨c⟩).length = (L.abs c).length / n := group_length hn _
      have h4 : w ∣ (L.abs c).length / n := by rw [← h3]; exact hw
      have := Nat.mul_dvd_mul_right h4 n
      rwa [Nat.div_mul_cancel hd] at this
    · obtain ⟨it, h3, h4⟩ := L.into_ok h1
      exact .inl ⟨it, h3, dies_partial L.toLawfulColl hn _ it h4 hd⟩

end

end Narrow

namespace Narrow

open Spec

theorem splits_arith {w : Nat} (hw : 0 < w) (h : ¬(w ∣ 1024 ∨ 1024 ∣ w)) :
    ¬ w ∣ (1024 / w + 1) * w / validityChunk * validityChunk := by
  intro hd
  have h1 : ¬ w ∣ 1024 := fun x => h (.inl x)
  have h2 : ¬ 1024 ∣ w := fun x => h (.inr x)
  unfold validityChunk at hd
  by_cases hlt : w < 1024
  · have h3 := Nat.div_mul_le_self 1024 w
    have h4 : 1024 / w * w ≠ 1024 := fun e => h1 ⟨1024 / w, by rw [Nat.mul_comm]; exact e.symm⟩
    have h5 : 1024 < (1024 / w + 1) * w := by
      have := Nat.lt_div_mul_add hw (a := 1024)
      rw [Nat.add_mul, Nat.one_mul]; exact this
    have h6 : (1024 / w + 1) * w < 2048 := by rw [Nat.add_mul, Nat.one_mul]; omega
    have h7 : (1024 / w + 1) * w / 1024 = 1 := by omega
    rw [h7] at hd
    exact h1 hd
  · have hne : w ≠ 1024 := fun e => h1 (e ▸ Nat.dvd_refl _)
    rw [show 1024 / w = 0 from Nat.div_eq_of_lt (by omega), Nat.zero_add, Nat.one_mul] at hd
    have h3 : w / 1024 * 1024 ≠ w := fun e => h2 ⟨w / 1024, by omega⟩
    have := Nat.le_of_dvd (by omega) hd
    omega

/-- A collection without items, at the last bit of its only byte. -/
def lastBit : Bitmap := ⟨⟨[0#8], 1⟩, 0, 7⟩

theorem lastBit_phase1 {s : Src Bool} (h : 0 < s.items.length) : (lastBit.phase1 s.fuse).1.bits = 1 := by
  match s, h with
  | .item x :: s, _ => cases x <;> rfl
  | [], h => simp [Src.items] at h
  | .none :: _, h => simp [Src.items] at h
  | .panic :: _, h => simp [Src.items] at h

theorem ext_panics {O : Type} {R : Realloc O} (L : LawfulR R) {c : R.C} {s : Src O} (hc : L.Inv c)
    (hp : s.panics = true) : ∃ c', R.extend c s = (c', .panic) := by
  generalize hE : R.extend c s = E
  obtain ⟨c', o⟩ := E
  cases o with
  | ok => have := (L.ext_ok hc hE).2.2; rw [hp] at this; cases this
  | err => exact absurd (congrArg Prod.snd hE) (L.ext_ne s hc)
  | panic => exact ⟨c', rfl⟩

theorem stuck_bool {s : Src Bool} {w : Nat} (hw : w ≠ 1) (hp : s.panics = true)
    (hl : 0 < s.items.length) (hi : bitmapL.Inv lastBit) :
    ∃ c', bitmapR.extend lastBit s = (c', .panic) ∧ Stuck bitmapL w c' := by
  obtain ⟨c', h1⟩ := ext_panics bitmapL hi hp
  refine ⟨c', h1, .inr ⟨(bitmap_keepE hi h1).1, fun hd => hw ?_⟩⟩
  have h2 : c'.bits = 1 := (Bitmap.extend_panic_bits h1).trans (lastBit_phase1 hl)
  have h3 : (Bitmap.abs c').length = c'.bits := by simp
  rw [h2] at h3
  have hd' : w ∣ (Bitmap.abs c').length := hd
  rw [h3] at hd'
  exact Nat.dvd_one.mp hd'

section
variable {O : Type} {R : Realloc O} {L : LawfulR R} {n w N : Nat}

theorem flatSrc_count {s : Src (FixArr O n)} (hp : s.panics = true) (hl : s.items.length = N * w) :
    (Flatten.flatSrc s).panics = true ∧ (Flatten.flatSrc s).items.length = N * (w * n) := by
  rw [Flatten.panics_flatSrc, Flatten.items_flatSrc, Flatten.flat_length, hl, Nat.mul_assoc]
  exact ⟨hp, rfl⟩

theorem room_flatSrc {s : Src (FixArr O n)} (h : L.Room (0 * n) (Flatten.flat s.items)) :
    L.Room 0 (Flatten.flatSrc s).items := by
  rw [Nat.zero_mul] at h
  rw [Flatten.items_flatSrc]; exact h

theorem stuck_step (hn : 0 < n) {s : Src (FixArr O n)} {c c' : R.C} (hi : L.Inv c)
    (ha : L.abs c = []) (hE : R.extend c (Flatten.flatSrc s) = (c', .panic))
    (hst : Stuck L (w * n) c') :
    Flatten.tryFromParts R.toColl n c = .ok (.ok ⟨c⟩) ∧ (flattenL L n hn).abs ⟨c⟩ = [] ∧
      (flattenR n R).extend ⟨c⟩ s = (⟨c'⟩, .panic) ∧ Stuck (flattenL L n hn) w ⟨c'⟩ := by
  have hlen := L.len_ok hi
  rw [ha] at hlen
  refine ⟨?_, ?_, ?_, stuck_flatten hn hst⟩
  · simp [Flatten.tryFromParts, hlen, show ¬ n = 0 by omega, Res.bind, Res.map]
  · show Flatten.group n (L.abs c) = []
    rw [ha]; unfold Flatten.group; simp; omega
  · show ((⟨(R.extend c (Flatten.flatSrc s)).1⟩ : Flatten R.C), _) = _
    rw [hE]

theorem stuck_nullable (hk : KeepF L) (hw : 0 < w * n) (hs : ¬(w * n ∣ 1024 ∨ 1024 ∣ w * n))
    {s : Src (FixArr (Option O) n)} (hp : s.panics = true)
    (hl : s.items.length = (1024 / (w * n) + 1) * w)
    (hr : (validityL L).Room 0 (Flatten.flat s.items)) :
    ∃ v, (validityR R).extend (validityR R).empty (Flatten.flatSrc s) = (v, .panic) ∧
      Stuck (validityL L) (w * n) v := by
  obtain ⟨e1, e2, e3⟩ := (validityL L).empty_ok
  obtain ⟨p1, p2⟩ := flatSrc_count hp hl
  obtain ⟨v, h1⟩ := ext_panics (validityL L) e1 p1
  obtain ⟨h2, h3⟩ := Validity.chunkF hk e1 e3
    (by rw [e2, Flatten.items_flatSrc]; exact hr) (.inl h1)
  refine ⟨v, h1, .inr ⟨h2, ?_⟩⟩
  rw [h3, e2, List.nil_append, List.length_take, p2, Nat.min_eq_left (Nat.div_mul_le_self _ _)]
  exact splits_arith hw hs

end

theorem splits_go : (t : Ty) → (h : t.WF) → (w : Nat) → 0 < w → Splits.go t (w * width t) →
    (s : Src (Val t)) → s.panics = true → s.items.length = (1024 / (w * width t) + 1) * w →
    Fits.base t 0 s.items →
    ∃ c c', Reach false t c ∧ (baseL t h).abs c = [] ∧ (baseR t).extend c s = (c', .panic) ∧
      Stuck (baseL t h) w c'
  | .bool, h, w, hw, hs, s, hp, hl, _ => by
    have hs' : w ≠ 1 := by simpa [Splits.go, width] using hs
    have hr : Reach false .bool lastBit :=
      .bitmapParts (buffer := ⟨[0#8], 1⟩) (bits := 0) (offset := 7) ⟨by decide, by decide⟩ rfl
    obtain ⟨c', h1, h2⟩ := stuck_bool (s := s) hs' hp
      (Nat.lt_of_lt_of_eq (Nat.mul_pos (Nat.succ_pos _) hw) hl.symm) (reach_inv hr trivial)
    exact ⟨lastBit, c', hr, rfl, h1, h2⟩
  | .prim _, _, _, _, hs, _, _, _, _ => hs.elim
  | .vsl _ _ _, _, _, _, hs, _, _, _, _ => hs.elim
  | .fsl n false t, h, w, hw, hs, s, hp, hl, hf => by
    have he : w * width (.fsl n false t) = w * n * width t := by
      show w * (n * width t) = _
      rw [Nat.mul_assoc]
    rw [he] at hs hl
    obtain ⟨p1, p2⟩ := flatSrc_count (O := Val t) (n := n) (s := s) hp hl
    have hroom := (fits_base (.fsl n false t) h 0 s.items).mp hf
    replace hroom := room_flatSrc (L := baseL t h.2) (n := n) (s := s) hroom
    obtain ⟨c, c', h1, h2, h3, h4⟩ := splits_go t h.2 (w * n) (Nat.mul_pos hw h.1) hs
      _ p1 p2 ((fits_base t h.2 0 _).mpr hroom)
    obtain ⟨q1, q2, q3, q4⟩ := stuck_step (L := baseL t h.2) h.1 (reach_inv h1 h.2) h2 h3 h4
    exact ⟨(⟨c⟩ : Flatten (baseR t).C), (⟨c'⟩ : Flatten (baseR t).C),
      .flattenParts (nl := false) (n := n) h1 q1, q2, q3, q4⟩
  | .fsl n true t, h, w, hw, hs, s, hp, hl, hf => by
    have hroom := (fits_base (.fsl n true t) h 0 s.items).mp hf
    replace hroom : (validityL (baseL t h.2)).Room (0 * n)
      (Flatten.flat (Src.items (α := FixArr (Option (Val t)) n) s)) := hroom
    rw [Nat.zero_mul] at hroom
    obtain ⟨e1, e2, e3⟩ := (validityL (baseL t h.2)).empty_ok
    obtain ⟨v, h1, h2⟩ := stuck_nullable (L := baseL t h.2) (n := n) (w := w)
      (keepF_base t h.2 (grow_of_try hs.2)) (Nat.mul_pos hw h.1) hs.1 hp hl hroom
    obtain ⟨-, q2, q3, q4⟩ := stuck_step (L := validityL (baseL t h.2)) h.1 e1 e2 h1 h2
    exact ⟨(baseR (.fsl n true t)).empty, (⟨v⟩ : Flatten (validityR (baseR t)).C), .empty, q2, q3, q4⟩

/-- Booleans that begin with a byte, `w` of them, are filled up to the end of a byte. -/
theorem flags_stuck : (t : Ty) → (h : t.WF) → Flags t → (w : Nat) → 0 < w →
    ¬(w * width t ∣ 8 ∨ 8 ∣ w * width t) → (c : (baseR t).C) → (s : Src (Val t)) →
    (baseL t h).Inv c → (baseL t h).Canon c → (baseL t h).Room 0 ((baseL t h).abs c ++ s.items) →
    ((baseL t h).abs c).length = w → s.panics = true → 2 * w ≤ s.items.length →
    ∃ c', (baseR t).extend c s = (c', .panic) ∧ Stuck (baseL t h) w c'
  | .bool, h, _, w, hw, hs, c, s, hi, hk, hr, hl, hp, hn => by
    rw [show w * width .bool = w from Nat.mul_one w] at hs
    obtain ⟨c', h1⟩ := ext_panics (R := bitmapR) bitmapL hi hp
    obtain ⟨h2, -, h3, -⟩ := bitmap_halted hi hk hr (.inl h1)
    have hb : Bitmap.bits c = w := (Bitmap.abs_length c).symm.trans hl
    refine ⟨c', h1, .inr ⟨h2, fun hd => ?_⟩⟩
    have hd' : w ∣ Bitmap.bits c' := by
      have h4 : ((baseL .bool h).abs c').length = Bitmap.bits c' := Bitmap.abs_length c'
      rw [← h4]; exact hd
    have hn' : 2 * w ≤ (Src.items (α := Bool) s).length := hn
    rw [h3, hb] at hd'
    have h8 : ¬ w ∣ 8 := fun x => hs (.inl x)
    have h0 : w % 8 ≠ 0 := fun x => hs (.inr (Nat.dvd_of_mod_eq_zero x))
    rw [Nat.mod_eq_of_lt (a := 8 - w % 8) (by omega)] at hd'
    by_cases hlt : w < 8
    · have h1 : w ≠ 1 := fun e => h8 (e ▸ Nat.one_dvd _)
      have h2 : w ≠ 2 := fun e => h8 (e ▸ ⟨4, rfl⟩)
      have : w + min (Src.items (α := Bool) s).length (8 - w % 8) = 8 := by omega
      rw [this] at hd'
      exact h8 hd'
    · have h4 := (Nat.dvd_add_right (Nat.dvd_refl w)).mp hd'
      have := Nat.le_of_dvd (by omega) h4
      omega
  | .fsl n false t, h, hf, w, hw, hs, c, s, hi, hk, hr, hl, hp, hn => by
    have he : w * width (.fsl n false t) = w * n * width t := by
      show w * (n * width t) = _
      rw [Nat.mul_assoc]
    rw [he] at hs
    let c0 : Flatten (baseR t).C := c
    have hi' : flatInv (baseL t h.2).toLawfulColl n c0 := hi
    have hr' : (baseL t h.2).Room (0 * n)
      (Flatten.flat (flatAbs (baseL t h.2).toLawfulColl n c0 ++ Src.items (α := FixArr (Val t) n) s)) := hr
    rw [Flatten.flat_append, flat_abs h.1 hi', Nat.zero_mul] at hr'
    have hlen : ((baseL t h.2).abs c0.child).length = w * n := by
      rw [← flat_abs h.1 hi', Flatten.flat_length]
      exact congrArg (· * n) hl
    have hsrc : (Flatten.flatSrc (O := Val t) (n := n) s).items =
        Flatten.flat (O := Val t) (n := n) (Src.items s) := Flatten.items_flatSrc (n := n) s
    obtain ⟨c', h1, h2⟩ := flags_stuck t h.2 hf (w * n) (Nat.mul_pos hw h.1) hs c0.child
      (Flatten.flatSrc (O := Val t) (n := n) s) hi'.1 hk (by rw [hsrc]; exact hr') hlen
      ((Flatten.panics_flatSrc (n := n) s).trans hp)
      (by rw [hsrc, Flatten.flat_length, ← Nat.mul_assoc]; exact Nat.mul_le_mul_right n hn)
    refine ⟨(⟨c'⟩ : Flatten (baseR t).C), ?_, stuck_flatten h.1 h2⟩
    exact congrArg (fun p => ((⟨p.1⟩ : Flatten (baseR t).C), p.2)) h1

end Narrow
