import Verif.Proof.Bits
import Verif.Proof.Vec

/-! # Bitmaps are lawful -/

namespace Narrow

namespace Bitmap

/-- The bit range lies inside the buffer, and the buffer is a well-formed `Vec`. -/
structure Inv (b : Bitmap) : Prop where
  wf : b.buffer.WF byteMax
  le : b.offset + b.bits ≤ 8 * b.buffer.items.length

/-- The bits of a bitmap. -/
def abs (b : Bitmap) : List Bool :=
  (List.range b.bits).map fun i => bitAt b.buffer.items (b.offset + i)

@[simp] theorem abs_length (b : Bitmap) : b.abs.length = b.bits := by simp [abs]

theorem abs_getElem (b : Bitmap) (i : Nat) (h : i < b.abs.length) :
    b.abs[i] = bitAt b.buffer.items (b.offset + i) := by simp [abs]

theorem Inv.bytes_le {b : Bitmap} (h : b.Inv) : b.buffer.items.length ≤ byteMax := h.wf.le_lim

theorem Inv.small {b : Bitmap} (h : b.Inv) : b.offset + b.bits ≤ 2 ^ 63 := by
  have := h.bytes_le; have := h.le; unfold byteMax at *; omega

theorem Inv.small' {b : Bitmap} (h : b.Inv) : b.offset + b.bits + 8 ≤ usizeMax := by
  have := h.small; unfold usizeMax; omega

/-- The bits as a slice of the buffer's bits. -/
theorem abs_eq {b : Bitmap} (h : b.Inv) :
    b.abs = ((bitsOf b.buffer.items).drop b.offset).take b.bits := by
  have := h.le
  apply List.ext_getElem
  · simp; omega
  · intro i h1 h2
    simp [abs_getElem, bitsOf_getElem]

theorem getD_lt {α : Type} {l : List α} {i : Nat} {d : α} (h : i < l.length) : l.getD i d = l[i] := by
  simp [h]

theorem strictAdd_ok {a b : Nat} (h : a + b ≤ usizeMax) : strictAdd a b = .ok (a + b) := by
  simp [strictAdd, h]

theorem view_some {b : Bitmap} {i : Nat} (h : b.Inv) (hi : i < b.bits) :
    b.view i = .ok (some (bitAt b.buffer.items (b.offset + i))) := by
  have h1 := h.small'
  have h2 := h.le
  have h3 : (b.offset + i) / 8 < b.buffer.items.length := by omega
  have h4 : (b.offset + i) % 8 < 8 := by omega
  simp only [view, hi, if_true, byteIndex, bitIndex, strictAdd_ok (show b.offset + i ≤ usizeMax by omega),
    Res.map, List.getElem?_eq_getElem h3, and_one_shift _ h4, bitAt,
    List.getD_eq_getElem?_getD, Option.getD_some]

theorem view_none {b : Bitmap} {i : Nat} (hi : b.bits ≤ i) : b.view i = .ok none := by
  simp [view, Nat.not_lt.mpr hi]

theorem iter_rep {b : Bitmap} (h : b.Inv) : b.iter.Rep b.abs := by
  refine ⟨bitsOf b.buffer.items, Unpacked.rep_new _, ?_, ?_, abs_eq h⟩
  · have := h.bytes_le; simp [byteMax, usizeMax] at *; omega
  · have := h.le; simpa [iter] using this

/-! ## Phase one -/

/-- Filling the byte at the logical end. -/
theorem fill_spec : ∀ (k p : Nat) (s : Src Bool) (byte : Byte) (bits : Nat),
    s.Fused → p + k ≤ 8 → bits + k ≤ usizeMax →
    (fill (List.range' p k) s byte bits).bits = bits + min k s.items.length ∧
    (fill (List.range' p k) s byte bits).panicked = (s.panics && decide (s.items.length < k)) ∧
    (∀ i, i < 8 → (fill (List.range' p k) s byte bits).byte.getLsbD i =
      if p ≤ i ∧ i < p + min k s.items.length then s.items.getD (i - p) false
      else byte.getLsbD i) ∧
    ((fill (List.range' p k) s byte bits).panicked = false →
      (fill (List.range' p k) s byte bits).src.Fused ∧
      (fill (List.range' p k) s byte bits).src.items = s.items.drop k ∧
      (fill (List.range' p k) s byte bits).src.panics = s.panics)
  | 0, p, s, byte, bits, hs, _, _ => by
    refine ⟨by simp [fill], by simp [fill], ?_, by simp [fill, hs]⟩
    intro i hi; rw [if_neg (by omega)]; rfl
  | k + 1, p, s, byte, bits, hs, hp, hb => by
    rcases hs.cases with rfl | rfl | ⟨x, s1, rfl, hs1⟩
    · obtain ⟨h1, h2, h3, h4⟩ := fill_spec k (p + 1) [] byte bits hs (by omega) (by omega)
      simp only [List.range'_succ, fill]
      refine ⟨by simpa using h1, by simpa using h2, ?_, by simpa using h4⟩
      intro i hi; rw [h3 i hi]
      simp only [Src.items_nil, List.length_nil, Nat.min_zero]
      rw [if_neg (by omega), if_neg (by omega)]
    · simp [List.range'_succ, fill]
      intro i hi _; omega
    · have hx : bits + 1 ≤ usizeMax := by omega
      obtain ⟨h1, h2, h3, h4⟩ :=
        fill_spec k (p + 1) s1 (setBit byte p x) (bits + 1) hs1 (by omega) (by omega)
      simp only [List.range'_succ, fill, hx, if_true]
      refine ⟨?_, ?_, ?_, ?_⟩
      · rw [h1]; simp; omega
      · rw [h2]; simp
      · intro i hi
        rw [h3 i hi, getLsbD_setBit byte x (by omega) hi]
        simp only [Src.items_item, List.length_cons]
        by_cases hip : i = p
        · subst hip
          rw [if_neg (by omega), if_pos rfl, if_pos (by omega)]; simp
        · by_cases h5 : p + 1 ≤ i ∧ i < p + 1 + min k (Src.items s1).length
          · rw [if_pos h5, if_pos (by omega), show i - p = (i - (p + 1)) + 1 by omega,
              List.getD_cons_succ]
          · rw [if_neg h5, if_neg hip, if_neg (by omega)]
      · intro h; simpa using h4 h

/-- Phase one appends the items that fit in the byte at the logical end. -/
theorem phase1_spec {b : Bitmap} {s : Src Bool} (hb : b.Inv) (hs : s.Fused) :
    ∃ k, k ≤ s.items.length ∧ (phase1 b s).1.Inv ∧ (phase1 b s).1.offset = b.offset ∧
      (phase1 b s).1.bits = b.bits + k ∧
      (phase1 b s).1.abs = b.abs ++ s.items.take k ∧
      (phase1 b s).1.buffer.items.length = b.buffer.items.length ∧
      (phase1 b s).1.buffer.cap = b.buffer.cap ∧
      (∀ i, i < b.offset + b.bits →
        bitAt (phase1 b s).1.buffer.items i = bitAt b.buffer.items i) ∧
      ((phase1 b s).2.2 = true → s.panics = true ∧ k = s.items.length) ∧
      ((phase1 b s).2.2 = false →
        (phase1 b s).2.1.Fused ∧ (phase1 b s).2.1.items = s.items.drop k ∧
        (phase1 b s).2.1.panics = s.panics ∧
        ((k < s.items.length ∨ s.panics = true) → (b.offset + (b.bits + k)) % 8 = 0)) := by
  have hsm := hb.small'
  have hle := hb.le
  have hfill := fun byte => fill_spec (8 - (b.offset + b.bits) % 8) ((b.offset + b.bits) % 8) s byte b.bits hs
    (by omega) (by omega)
  unfold phase1
  simp only [bitIndex, byteIndex, strictAdd_ok (show b.offset + b.bits ≤ usizeMax by omega), Res.map]
  by_cases h0 : (b.offset + b.bits) % 8 = 0
  · refine ⟨0, by omega, ?_⟩
    simp [h0, hb, hs]
  · have h1 : (b.offset + b.bits) / 8 < b.buffer.items.length := by omega
    simp only [h0, if_false, List.getElem?_eq_getElem h1]
    obtain ⟨f1, f2, f3, f4⟩ := hfill b.buffer.items[(b.offset + b.bits) / 8]
    generalize hF : fill (List.range' ((b.offset + b.bits) % 8) (8 - (b.offset + b.bits) % 8)) s
      b.buffer.items[(b.offset + b.bits) / 8] b.bits = F at *
    have hlow : ∀ i, i < b.offset + b.bits →
        bitAt (b.buffer.items.set ((b.offset + b.bits) / 8) F.byte) i = bitAt b.buffer.items i := by
      intro i hi
      rw [bitAt_set h1]
      split
      · next h2 =>
        rw [f3 _ (by omega), if_neg (by omega), bitAt, h2]
        simp [h1]
      · rfl
    refine ⟨min (8 - (b.offset + b.bits) % 8) s.items.length, by omega, ?_, by simp, f1, ?_, by simp,
      by simp, hlow, ?_, ?_⟩
    · refine ⟨⟨by simpa using hb.wf.le_cap, hb.wf.cap_lim⟩, ?_⟩
      simp only [List.length_set, f1]; omega
    · apply List.ext_getElem
      · simp [f1]
      · intro i hi1 hi2
        simp only [abs_length, f1] at hi1
        simp only [abs_getElem, List.getElem_append, abs_length]
        split
        · rw [hlow _ (by omega)]
        · rw [bitAt_set h1]
          rw [if_pos (by omega), f3 _ (by omega), if_pos (by omega)]
          rw [List.getElem_take, getD_lt (by omega)]
          congr 1; omega
    · intro hp
      rw [f2] at hp; simp at hp
      exact ⟨hp.1, by omega⟩
    · intro hp
      obtain ⟨g1, g2, g3⟩ := f4 hp
      refine ⟨g1, ?_, g3, ?_⟩
      · rw [g2]
        by_cases hm : 8 - (b.offset + b.bits) % 8 ≤ s.items.length
        · rw [Nat.min_eq_left hm]
        · rw [Nat.min_eq_right (by omega)]; simp; omega
      · intro hk
        have : 8 - (b.offset + b.bits) % 8 ≤ s.items.length := by
          rcases hk with hk | hk
          · omega
          · rw [f2, hk] at hp; simp at hp; omega
        rw [Nat.min_eq_left this]; omega

/-! ## Phase two -/

theorem overwrite_spec : ∀ (s : Src Byte) (buf : List Byte) (i : Nat), s.Fused → i ≤ buf.length →
    (overwrite buf i s).1 = buf.take i ++ s.items.take (buf.length - i) ++
      buf.drop (i + s.items.length) ∧
    (overwrite buf i s).2.2 = (s.panics && decide (s.items.length < buf.length - i)) ∧
    ((overwrite buf i s).2.2 = false → (overwrite buf i s).2.1.Fused ∧
      (overwrite buf i s).2.1.items = s.items.drop (buf.length - i) ∧
      (overwrite buf i s).2.1.panics = s.panics) := by
  intro s buf i hs hi
  induction s generalizing buf i with
  | nil =>
    simp [overwrite, hs]
  | cons e s ih =>
    rcases hs.cases with h | h | ⟨x, s1, h, hs1⟩
    · simp at h
    · simp only [List.cons.injEq] at h
      obtain ⟨rfl, rfl⟩ := h
      unfold overwrite
      by_cases hlt : i < buf.length
      · simp [hlt]; omega
      · have h0 : buf.length - i = 0 := by omega
        simp [hlt, hs, h0]
    · simp only [List.cons.injEq] at h
      obtain ⟨rfl, rfl⟩ := h
      unfold overwrite
      by_cases hlt : i < buf.length
      · obtain ⟨h1, h2, h3⟩ := ih (buf.set i x) (i + 1) hs1 (by simp; omega)
        simp only [hlt, if_true]
        have hd : buf.length - i = (buf.length - (i + 1)) + 1 := by omega
        refine ⟨?_, ?_, ?_⟩
        · rw [h1]
          simp only [List.length_set, Src.items_item, hd, List.take_succ_cons, List.length_cons]
          have : (buf.set i x).take (i + 1) = buf.take i ++ [x] := by
            rw [List.take_set, List.take_succ_eq_append_getElem hlt,
              List.set_append_right _ _ (by simp; omega)]
            simp [Nat.min_eq_left (Nat.le_of_lt hlt)]
          rw [this, List.drop_set_of_lt (by omega)]
          simp [Nat.add_assoc, Nat.add_comm 1]
        · rw [h2]; simp [hd]
        · intro h; have := h3 h; simpa [hd] using this
      · have : buf.length - i = 0 := by omega
        simp only [hlt, if_false, this]
        refine ⟨?_, by simp, fun _ => ⟨hs, by simp, by simp⟩⟩
        rw [List.take_of_length_le (by omega), List.drop_eq_nil_of_le (by omega)]; simp

theorem overwrite_length (s : Src Byte) : ∀ (buf : List Byte) (i : Nat),
    (overwrite buf i s).1.length = buf.length := by
  induction s with
  | nil => simp [overwrite]
  | cons e s ih =>
    intro buf i
    cases e <;> unfold overwrite <;> split <;> simp_all

theorem overwrite_below (s : Src Byte) : ∀ (buf : List Byte) (i j : Nat), j < 8 * i →
    bitAt (overwrite buf i s).1 j = bitAt buf j := by
  induction s with
  | nil => simp [overwrite]
  | cons e s ih =>
    intro buf i j hj
    cases e <;> unfold overwrite <;> split <;> try rfl
    next hlt =>
      rw [ih _ _ _ (by omega), bitAt_set hlt, if_neg (by omega)]

/-- What phase two does, without the growth of the buffer. -/
theorem phase2_spec {b : Bitmap} {s : Src Bool} (hb : b.Inv) (hs : s.Fused)
    (ha : (s.items ≠ [] ∨ s.panics = true) → (b.offset + b.bits) % 8 = 0) :
    (s.items = [] ∧ s.panics = false → phase2 b s = none) ∧
    (s.items ≠ [] ∨ s.panics = true → ∃ buf packed n p, phase2 b s = some (buf, packed, n, p) ∧
      buf.length = b.buffer.items.length ∧
      (∀ j, j < b.offset + b.bits → bitAt buf j = bitAt b.buffer.items j) ∧
      (p = true → s.panics = true) ∧
      (p = false → packed.Fused ∧ packed.panics = s.panics ∧
        packed.items.length ≤ bytesForBits (b.offset + b.bits + s.items.length) - b.buffer.items.length ∧
        (s.panics = false → n = s.items.length ∧
          (b.offset + b.bits + s.items.length ≤ 8 * (buf ++ packed.items).length) ∧
          ∀ i, i < s.items.length →
            bitAt (buf ++ packed.items) (b.offset + b.bits + i) = s.items.getD i false))) := by
  have hsm := hb.small'
  have hle := hb.le
  rcases hs.cases with rfl | rfl | ⟨x, s1, rfl, hs1⟩
  · simp [phase2]
  · refine ⟨by simp, fun _ => ⟨b.buffer.items, [], 0, true, rfl, rfl, fun _ _ => rfl, by simp, by simp⟩⟩
  · refine ⟨by simp, fun h => ?_⟩
    have hal := ha h
    have hfit : 8 * ((b.offset + b.bits) / 8) = b.offset + b.bits := by omega
    simp only [phase2, byteIndex, strictAdd_ok (show b.offset + b.bits ≤ usizeMax by omega), Res.map]
    obtain ⟨p1, p2, p3, p4, p5⟩ := pack_spec (.item x :: s1) hs
    generalize hP : pack (.item x :: s1) = P at *
    obtain ⟨o1, o2, o3⟩ := overwrite_spec P.1 b.buffer.items ((b.offset + b.bits) / 8) p1 (by omega)
    refine ⟨_, _, _, _, rfl, overwrite_length _ _ _, ?_, ?_, ?_⟩
    · intro j hj; exact overwrite_below _ _ _ _ (by omega)
    · intro hp; rw [o2] at hp; simp at hp; rw [← p2]; exact hp.1
    · intro hp
      obtain ⟨q1, q2, q3⟩ := o3 hp
      refine ⟨q1, by rw [q3, p2], ?_, ?_⟩
      · rw [q2]; simp only [List.length_drop, bytesForBits] at *; omega
      · intro hnp
        obtain ⟨n1, n2⟩ := p3 hnp
        have hlen : b.offset + b.bits + (Src.items (Ev.item x :: s1)).length ≤
            8 * ((b.offset + b.bits) / 8 + P.1.items.length) := by
          rw [n2]; unfold bytesForBits; omega
        have hall : (overwrite b.buffer.items ((b.offset + b.bits) / 8) P.1).1 ++
            (overwrite b.buffer.items ((b.offset + b.bits) / 8) P.1).2.1.items =
            b.buffer.items.take ((b.offset + b.bits) / 8) ++ (P.1.items ++
              b.buffer.items.drop ((b.offset + b.bits) / 8 + P.1.items.length)) := by
          rw [o1, q2]
          by_cases hc : P.1.items.length ≤ b.buffer.items.length - (b.offset + b.bits) / 8
          · rw [List.take_of_length_le hc, List.drop_eq_nil_of_le hc]; simp
          · rw [List.drop_eq_nil_of_le (as := b.buffer.items) (by omega)]
            simp
        refine ⟨n1, ?_, ?_⟩
        · rw [hall]; simp at hlen ⊢; omega
        · intro i hi
          rw [hall, bitAt_append_right (by simp; omega), bitAt_append_left, p5]
          · congr 1; simp; omega
          · simp at hlen hi ⊢; omega
          · simp at hlen hi ⊢; omega

/-! ## Extending -/

theorem abs_of_low {b b' : Bitmap} (ho : b'.offset = b.offset) (hb : b'.bits = b.bits)
    (h : ∀ j, j < b.offset + b.bits → bitAt b'.buffer.items j = bitAt b.buffer.items j) :
    b'.abs = b.abs := by
  simp only [abs, hb, ho]
  apply List.map_congr_left
  intro i hi
  simp at hi
  rw [h _ (by omega)]

theorem abs_append {b b' : Bitmap} {l : List Bool} (ho : b'.offset = b.offset)
    (hb : b'.bits = b.bits + l.length)
    (h : ∀ j, j < b.offset + b.bits → bitAt b'.buffer.items j = bitAt b.buffer.items j)
    (h2 : ∀ i, i < l.length → bitAt b'.buffer.items (b.offset + b.bits + i) = l.getD i false) :
    b'.abs = b.abs ++ l := by
  apply List.ext_getElem
  · simp [hb]
  · intro i hi1 hi2
    simp only [abs_getElem, List.getElem_append, abs_length, ho]
    split
    · rw [h _ (by omega)]
    · simp [hb] at hi1
      have h3 := h2 (i - b.bits) (by omega)
      rw [show b.offset + b.bits + (i - b.bits) = b.offset + i by omega] at h3
      rw [h3, getD_lt (by omega)]

theorem bitAt_append_low {l m : List Byte} {n : Nat} (h : n ≤ 8 * l.length) :
    ∀ j, j < n → bitAt (l ++ m) j = bitAt l j :=
  fun _ hj => bitAt_append_left (by omega)

/-- Everything about `extend`. -/
theorem extend_spec {b : Bitmap} {s : Src Bool} (hb : b.Inv) :
    (extend b s).1.Inv ∧ (extend b s).1.offset = b.offset ∧ (extend b s).2 ≠ .err ∧
    ((extend b s).2 = .ok → (extend b s).1.abs = b.abs ++ s.items ∧ s.panics = false) ∧
    ((extend b s).2 = .panic → ∃ k, (extend b s).1.abs = b.abs ++ s.items.take k) ∧
    (b.offset + b.bits + s.items.length ≤ 8 * byteMax →
      (extend b s).2 = if s.panics then .panic else .ok) ∧
    (extend b s).1.buffer.items.length ≤
      max b.buffer.items.length (bytesForBits (b.offset + b.bits + s.items.length)) := by
  obtain ⟨k, k1, k2, k3, k4, k5, k6, k7, k8, k9, k10⟩ := phase1_spec hb (Src.fused_fuse s)
  simp only [Src.items_fuse, Src.panics_fuse] at *
  unfold extend
  generalize hP : phase1 b s.fuse = P at *
  obtain ⟨b1, s1, p⟩ := P
  simp only at *
  cases p with
  | true =>
    obtain ⟨hp, hk⟩ := k9 rfl
    simp only
    refine ⟨k2, k3, by simp, by simp, fun _ => ⟨k, k5⟩, by simp [hp], by omega⟩
  | false =>
    obtain ⟨f1, f2, f3, f4⟩ := k10 rfl
    have hb1 := k2.small'
    have hle1 := k2.le
    have halign : (s1.items ≠ [] ∨ s1.panics = true) → (b1.offset + b1.bits) % 8 = 0 := by
      intro h; rw [k3, k4]; apply f4
      rcases h with h | h
      · left; rw [f2] at h; simpa using h
      · right; rwa [f3] at h
    obtain ⟨g1, g2⟩ := phase2_spec k2 f1 halign
    simp only
    by_cases hdone : s1.items = [] ∧ s1.panics = false
    · rw [g1 hdone]
      simp only
      have : k = s.items.length := by
        have := hdone.1; rw [f2] at this; simp at this; omega
      subst this
      rw [f3] at hdone
      refine ⟨k2, k3, by simp, ?_, by simp, by simp [hdone.2], by omega⟩
      intro _; rw [k5]; simp [hdone.2]
    · have hmore : s1.items ≠ [] ∨ s1.panics = true := by
        by_cases h : s1.items = []
        · right; simpa [h] using hdone
        · left; exact h
      obtain ⟨buf, packed, n, p, e1, e2, e3, e4, e5⟩ := g2 hmore
      have hrest : s1.items.length + k = s.items.length := by rw [f2]; simp; omega
      have hlowabs : ∀ (bb : Bitmap), bb.offset = b1.offset → bb.bits = b1.bits →
          (∀ j, j < b1.offset + b1.bits → bitAt bb.buffer.items j = bitAt b1.buffer.items j) →
          bb.abs = b.abs ++ s.items.take k := by
        intro bb h1 h2 h3; rw [abs_of_low h1 h2 h3, k5]
      rw [e1]
      cases p with
      | true =>
        have hp := e4 rfl
        rw [f3] at hp
        simp only
        refine ⟨⟨⟨by rw [e2]; exact k2.wf.le_cap, k2.wf.cap_lim⟩, by simp only [e2]; exact hle1⟩, k3,
          by simp, by simp, fun _ => ⟨k, hlowabs _ rfl rfl e3⟩, by simp [hp], ?_⟩
        simp only [e2]; omega
      | false =>
        obtain ⟨q1, q2, q3, q4⟩ := e5 rfl
        have hwf : (⟨buf, b1.buffer.cap⟩ : RVec Byte).WF byteMax :=
          ⟨by rw [e2]; exact k2.wf.le_cap, k2.wf.cap_lim⟩
        obtain ⟨j, r1, r2, r3, r4, r5, r6⟩ := RVec.extend_items byteMax packed ⟨buf, b1.buffer.cap⟩
        have hwf' := r6 hwf
        have hbound : buf.length + packed.items.length ≤
            max b.buffer.items.length (bytesForBits (b.offset + b.bits + s.items.length)) := by
          rw [e2, k6] at *
          rw [k3, k4, show b.offset + (b.bits + k) + s1.items.length =
            b.offset + b.bits + s.items.length by omega] at q3
          omega
        simp only
        generalize hR : RVec.extend byteMax ⟨buf, b1.buffer.cap⟩ packed = R at *
        obtain ⟨buf', o⟩ := R
        simp only at *
        have hblen : buf'.items.length ≤ buf.length + packed.items.length := by
          rw [r2]; simp; omega
        have hge : buf.length ≤ buf'.items.length := by rw [r2]; simp
        have hlow' : ∀ j, j < b1.offset + b1.bits →
            bitAt buf'.items j = bitAt b1.buffer.items j := by
          intro j hj
          rw [r2, bitAt_append_low (n := b1.offset + b1.bits) (by simp only [e2]; omega) j hj, e3 j hj]
        cases o with
        | err => exact absurd rfl r4
        | panic =>
          simp only
          refine ⟨⟨hwf', by simp only; omega⟩, k3, by simp, by simp,
            fun _ => ⟨k, hlowabs ⟨buf', b1.bits, b1.offset⟩ rfl rfl hlow'⟩, ?_, by omega⟩
          intro hroom
          have hlim : buf.length + packed.items.length ≤ byteMax := by
            have := hb.bytes_le
            unfold bytesForBits at hbound; omega
          exact (r5 hlim).2.trans (by rw [q2, f3])
        | ok =>
          obtain ⟨t1, t2⟩ := r3 rfl
          have hp : s1.panics = false := by rw [← q2]; exact t2
          obtain ⟨u1, u2, u3⟩ := q4 hp
          have hbuf : buf'.items = buf ++ packed.items := by rw [r2, t1]; simp
          rw [f3] at hp
          have hbm : buf'.items.length ≤ byteMax := hwf'.le_lim
          have hsum : b1.bits + n ≤ usizeMax := by
            rw [hbuf] at hbm
            unfold byteMax at hbm; unfold usizeMax; omega
          simp only [strictAdd_ok hsum]
          refine ⟨⟨hwf', by simp only [hbuf]; omega⟩, k3, by simp, ?_, by simp, by simp [hp],
            by omega⟩
          intro _
          refine ⟨?_, hp⟩
          rw [abs_append (b := b1) (b' := ⟨buf', b1.bits + n, b1.offset⟩) (l := s1.items) rfl (by simp [u1]) hlow'
            (by simp only [hbuf]; exact u3), k5, f2]
          simp

/-- Everything about `try_extend`. -/
theorem tryExtend_spec {w w' : World} {b b' : Bitmap} {s : Src Bool} {o : Out} (hb : b.Inv)
    (h : tryExtend w b s = (b', o, w')) :
    b'.Inv ∧ b'.offset = b.offset ∧ w'.oracle = w.oracle ∧
    (o = .ok → b'.abs = b.abs ++ s.items ∧ s.panics = false) ∧
    (o = .err → b'.abs = b.abs ∧ b'.buffer.items.length = b.buffer.items.length) ∧
    (o = .panic → s.panics = true ∧ ∃ k, b'.abs = b.abs ++ s.items.take k) ∧
    b'.buffer.items.length ≤
      max b.buffer.items.length (bytesForBits (b.offset + b.bits + s.items.length)) := by
  obtain ⟨k, k1, k2, k3, k4, k5, k6, k7, k8, k9, k10⟩ := phase1_spec hb (Src.fused_fuse s)
  simp only [Src.items_fuse, Src.panics_fuse] at *
  unfold tryExtend at h
  generalize hP : phase1 b s.fuse = P at *
  obtain ⟨b1, s1, p⟩ := P
  simp only at *
  cases p with
  | true =>
    obtain ⟨hp, hk⟩ := k9 rfl
    simp only [Prod.mk.injEq] at h
    obtain ⟨rfl, rfl, rfl⟩ := h
    refine ⟨k2, k3, rfl, by simp, by simp, fun _ => ⟨hp, k, k5⟩, by omega⟩
  | false =>
    obtain ⟨f1, f2, f3, f4⟩ := k10 rfl
    have hb1 := k2.small'
    have hle1 := k2.le
    have halign : (s1.items ≠ [] ∨ s1.panics = true) → (b1.offset + b1.bits) % 8 = 0 := by
      intro h; rw [k3, k4]; apply f4
      rcases h with h | h
      · left; rw [f2] at h; simpa using h
      · right; rwa [f3] at h
    obtain ⟨g1, g2⟩ := phase2_spec k2 f1 halign
    simp only at h
    by_cases hdone : s1.items = [] ∧ s1.panics = false
    · rw [g1 hdone] at h
      simp only [Prod.mk.injEq] at h
      obtain ⟨rfl, rfl, rfl⟩ := h
      have : k = s.items.length := by
        have := hdone.1; rw [f2] at this; simp at this; omega
      subst this
      rw [f3] at hdone
      refine ⟨k2, k3, rfl, ?_, by simp, by simp, by omega⟩
      intro _; rw [k5]; simp [hdone.2]
    · have hmore : s1.items ≠ [] ∨ s1.panics = true := by
        by_cases h : s1.items = []
        · right; simpa [h] using hdone
        · left; exact h
      obtain ⟨buf, packed, n, p, e1, e2, e3, e4, e5⟩ := g2 hmore
      have hrest : s1.items.length + k = s.items.length := by rw [f2]; simp; omega
      have hlowabs : ∀ (bb : Bitmap), bb.offset = b1.offset → bb.bits = b1.bits →
          (∀ j, j < b1.offset + b1.bits → bitAt bb.buffer.items j = bitAt b1.buffer.items j) →
          bb.abs = b.abs ++ s.items.take k := by
        intro bb h1 h2 h3; rw [abs_of_low h1 h2 h3, k5]
      rw [e1] at h
      cases p with
      | true =>
        have hp := e4 rfl
        rw [f3] at hp
        simp only [Prod.mk.injEq] at h
        obtain ⟨rfl, rfl, rfl⟩ := h
        refine ⟨⟨⟨by rw [e2]; exact k2.wf.le_cap, k2.wf.cap_lim⟩, by simp only [e2]; exact hle1⟩, k3,
          rfl, by simp, by simp, fun _ => ⟨hp, k, hlowabs _ rfl rfl e3⟩, ?_⟩
        simp only [e2]; omega
      | false =>
        obtain ⟨q1, q2, q3, q4⟩ := e5 rfl
        have hwf : (⟨buf, b1.buffer.cap⟩ : RVec Byte).WF byteMax :=
          ⟨by rw [e2]; exact k2.wf.le_cap, k2.wf.cap_lim⟩
        have hbound : buf.length + packed.items.length ≤
            max b.buffer.items.length (bytesForBits (b.offset + b.bits + s.items.length)) := by
          rw [e2, k6] at *
          rw [k3, k4, show b.offset + (b.bits + k) + s1.items.length =
            b.offset + b.bits + s.items.length by omega] at q3
          omega
        simp only at h
        generalize hR : RVec.tryExtend byteMax w ⟨buf, b1.buffer.cap⟩ packed = R at *
        obtain ⟨buf', o', w1⟩ := R
        obtain ⟨v1, v2, v3, v4, v5⟩ := RVec.tryExtend_spec hwf hR
        simp only at *
        cases o' with
        | err =>
          simp only [Prod.mk.injEq] at h
          obtain ⟨rfl, rfl, rfl⟩ := h
          have hbuf := v3 rfl
          refine ⟨⟨v1, by simp only [hbuf]; omega⟩, k3, v5, by simp, ?_, by simp,
            by simp only [hbuf]; omega⟩
          intro _
          refine ⟨abs_of_low k3 rfl ?_, by simp only [hbuf]; omega⟩
          intro j hj
          simp only [hbuf]
          rw [e3 j (by omega), k8 j hj]
        | panic =>
          simp only [Prod.mk.injEq] at h
          obtain ⟨rfl, rfl, rfl⟩ := h
          obtain ⟨hbuf, hpp⟩ := v4 rfl
          rw [q2, f3] at hpp
          refine ⟨⟨v1, by simp only [hbuf]; simp; omega⟩, k3, v5, by simp, by simp, fun _ => ⟨hpp, k, ?_⟩,
            by simp only [hbuf]; simp; omega⟩
          apply hlowabs ⟨buf', b1.bits, b1.offset⟩ rfl rfl
          intro j hj
          simp only [hbuf]
          rw [bitAt_append_low (n := b1.offset + b1.bits) (by simp only [e2]; omega) j hj, e3 j hj]
        | ok =>
          obtain ⟨hbuf, hpp⟩ := v2 rfl
          have hp : s1.panics = false := by rw [← q2]; exact hpp
          obtain ⟨u1, u2, u3⟩ := q4 hp
          rw [f3] at hp
          have hbm : buf'.items.length ≤ byteMax := v1.le_lim
          have hsum : b1.bits + n ≤ usizeMax := by
            rw [hbuf] at hbm
            unfold byteMax at hbm; unfold usizeMax; omega
          simp only [strictAdd_ok hsum, Prod.mk.injEq] at h
          obtain ⟨rfl, rfl, rfl⟩ := h
          refine ⟨⟨v1, by simp only [hbuf]; omega⟩, k3, v5, ?_, by simp, by simp,
            by simp only [hbuf]; simp; omega⟩
          intro _
          refine ⟨?_, hp⟩
          rw [abs_append (b := b1) (b' := ⟨buf', b1.bits + n, b1.offset⟩) (l := s1.items) rfl (by simp [u1]) ?_
            (by simp only [hbuf]; exact u3), k5, f2]
          · simp
          · intro j hj
            simp only [hbuf]
            rw [bitAt_append_low (n := b1.offset + b1.bits) (by simp only [e2]; omega) j hj, e3 j hj]

/-! ## The other operations -/

theorem inv_empty : empty.Inv := ⟨RVec.WF.empty, by simp [empty]⟩

theorem fromIter_ok {s : Src Bool} {b : Bitmap} (hs : s.Fused) (h : fromIter s = .ok b) :
    b.Inv ∧ b.abs = s.items ∧ s.panics = false ∧ b.offset = 0 ∧
      b.buffer.items.length = bytesForBits s.items.length := by
  obtain ⟨p1, p2, p3, p4, p5⟩ := pack_spec s hs
  unfold fromIter at h
  split at h
  · next buf heq =>
    obtain ⟨h1, h2, h3⟩ := RVec.fromIter_ok heq
    simp only [Try.ok.injEq] at h
    subst h
    have hp : s.panics = false := by rw [← p2]; exact h2
    obtain ⟨q1, q2⟩ := p3 hp
    refine ⟨⟨h3, ?_⟩, ?_, hp, rfl, by simp only [h1]; exact q2⟩
    · simp only [h1, q1, q2, bytesForBits]; omega
    · apply List.ext_getElem
      · simp [q1]
      · intro i hi1 hi2
        simp only [abs_getElem, h1, Nat.zero_add]
        rw [p5 i (by rw [q2]; unfold bytesForBits; omega), getD_lt hi2]
  · simp at h
  · simp at h

theorem packRest_pull : ∀ (k pos : Nat) (byte : Byte) (s : Src Bool) (n : Nat) {b s' n'},
    packRest k pos byte s n = some (b, s', n') →
    s' = (pullRest k s).2 ∧ n' = n + (pullRest k s).1.length ∧ (pullRest k s).1.length ≤ k
  | 0, _, _, s, n, b, s', n', h => by
    simp only [packRest, Option.some.injEq, Prod.mk.injEq] at h
    simp [pullRest, h.2.1, h.2.2]
  | k + 1, pos, byte, [], n, b, s', n', h => by
    simp only [packRest] at h
    have := packRest_pull k _ _ _ _ h
    have h0 : ∀ k, pullRest k ([] : Src Bool) = ([], []) := by intro k; cases k <;> rfl
    rw [h0] at this ⊢
    simpa using this
  | k + 1, pos, byte, .none :: s, n, b, s', n', h => by
    simp only [packRest] at h
    have := packRest_pull k _ _ _ _ h
    simp only [pullRest]
    exact ⟨this.1, this.2.1, by omega⟩
  | k + 1, pos, byte, .panic :: s, n, b, s', n', h => by simp [packRest] at h
  | k + 1, pos, byte, .item x :: s, n, b, s', n', h => by
    simp only [packRest] at h
    have := packRest_pull k _ _ _ _ h
    simp only [pullRest, List.length_cons]
    exact ⟨this.1, by omega, by omega⟩

theorem pack_pull (s : Src Bool) (hp : (pack s).1.panics = false) :
    (pack s).2 = (pulled s).length ∧ (pack s).2 ≤ 8 * (pack s).1.items.length := by
  match s with
  | [] => simp [pack, pulled]
  | .none :: s => simp [pack, pulled]
  | .panic :: s => simp [pack] at hp
  | .item x :: s =>
    rw [pack] at hp ⊢
    split at hp
    · simp [Src.panics] at hp
    · next byte s' n heq =>
      have h1 := packRest_pull _ _ _ _ _ heq
      have h2 := packRest_length heq
      simp only [Src.panics] at hp
      have ih := pack_pull s' hp
      rw [pulled]
      simp only [Src.items, List.length_cons, List.length_append, ← h1.1]
      omega
termination_by s.length
decreasing_by simp only [List.length_cons]; omega

theorem pullRest_fused {α : Type} : ∀ (k : Nat) {s : Src α}, s.Fused →
    (pullRest k s).1 = s.items.take k ∧ (pullRest k s).2.items = s.items.drop k ∧
    (pullRest k s).2.Fused
  | 0, s, h => by simp [pullRest, h]
  | _ + 1, [], h => by simp [pullRest, Src.items, h]
  | k + 1, .none :: s, h => by simp [Src.Fused, Src.fuse] at h
  | k + 1, .panic :: s, h => by simp [pullRest, Src.items, Src.fused_nil]
  | k + 1, .item a :: s, h => by
    have := pullRest_fused k (s := s) (by simpa [Src.Fused, Src.fuse] using h)
    simpa [pullRest, Src.items] using this

theorem pulled_fused {α : Type} {s : Src α} (h : s.Fused) : pulled s = s.items := by
  match s, h with
  | [], h => simp [pulled, Src.items]
  | .none :: s, h => simp [pulled, Src.items]
  | .panic :: s, h => simp [pulled, Src.items]
  | .item x :: s, h =>
    have hl := pullRest_length 7 s
    have h1 := pullRest_fused 7 (s := s) (by simpa [Src.Fused, Src.fuse] using h)
    have ih := pulled_fused h1.2.2
    rw [pulled, ih, h1.1, h1.2.1, List.take_append_drop]
    rfl
termination_by s.length
decreasing_by simp only [List.length_cons]; omega

theorem pullRest_map {α β : Type} (f : α → β) : ∀ (k : Nat) (s : Src α),
    (pullRest k (s.map f)) = ((pullRest k s).1.map f, (pullRest k s).2.map f)
  | 0, s => by simp [pullRest]
  | _ + 1, [] => by simp [pullRest, Src.map]
  | k + 1, .none :: s => by have := pullRest_map f k s; simpa [pullRest, Src.map] using this
  | k + 1, .panic :: s => by simp [pullRest, Src.map]
  | k + 1, .item a :: s => by
    have := pullRest_map f k s
    rw [show Src.map f (.item a :: s) = .item (f a) :: Src.map f s from rfl]
    simp only [pullRest, this, List.map_cons]

theorem pulled_map {α β : Type} (f : α → β) (s : Src α) :
    pulled (s.map f) = (pulled s).map f := by
  match s with
  | [] => simp [pulled, Src.map]
  | .none :: s => simp [pulled, Src.map]
  | .panic :: s => simp [pulled, Src.map]
  | .item x :: s =>
    have hl := pullRest_length 7 s
    have ih := pulled_map f (pullRest 7 s).2
    have h1 := pullRest_map f 7 s
    rw [show Src.map f (.item x :: s) = .item (f x) :: Src.map f s from rfl]
    rw [pulled, pulled, h1]
    simp [ih]
termination_by s.length
decreasing_by simp only [List.length_cons]; omega

theorem fromIter_any {s : Src Bool} {b : Bitmap} (h : fromIter s = .ok b) :
    b.Inv ∧ b.abs.length = (pulled s).length := by
  unfold fromIter at h
  split at h
  · next buf heq =>
    obtain ⟨h1, h2, h3⟩ := RVec.fromIter_ok heq
    simp only [Try.ok.injEq] at h
    subst h
    obtain ⟨q1, q2⟩ := pack_pull s h2
    exact ⟨⟨h3, by simp only [h1]; omega⟩, by simpa using q1⟩
  · simp at h
  · simp at h

theorem tryFromIter_any {w w' : World} {s : Src Bool} {b : Bitmap}
    (h : tryFromIter w s = (.ok b, w')) : b.Inv := by
  unfold tryFromIter at h
  split at h
  · next buf w1 heq =>
    obtain ⟨h1, h2, h3⟩ := (RVec.tryFromIter_spec byteMax (pack s).1 w).1 _ _ heq
    simp only [Prod.mk.injEq, Try.ok.injEq] at h
    obtain ⟨rfl, rfl⟩ := h
    obtain ⟨q1, q2⟩ := pack_pull s h2
    exact ⟨h3, by simp only [h1]; omega⟩
  · simp at h
  · simp at h

theorem fromIter_ne (s : Src Bool) : fromIter s ≠ .err := by
  unfold fromIter
  split
  · simp
  · next h => exact absurd h (RVec.fromIter_ne_err _ _)
  · simp

theorem fromIter_live {s : Src Bool} (hs : s.Fused) (hp : s.panics = false)
    (hl : s.items.length ≤ 8 * byteMax) : ∃ b, fromIter s = .ok b := by
  obtain ⟨p1, p2, p3, p4, p5⟩ := pack_spec s hs
  obtain ⟨v, hv, -⟩ := RVec.fromIter_live (lim := byteMax) (s := (pack s).1)
    (by unfold bytesForBits at p4; omega) (by rw [p2]; exact hp)
  exact ⟨_, by rw [fromIter, hv]⟩

theorem tryFromIter_ok {w w' : World} {s : Src Bool} {b : Bitmap} (hs : s.Fused)
    (h : tryFromIter w s = (.ok b, w')) :
    b.Inv ∧ b.abs = s.items ∧ s.panics = false ∧ b.offset = 0 ∧
      b.buffer.items.length = bytesForBits s.items.length := by
  obtain ⟨p1, p2, p3, p4, p5⟩ := pack_spec s hs
  unfold tryFromIter at h
  split at h
  · next buf w1 heq =>
    obtain ⟨h1, h2, h3⟩ := (RVec.tryFromIter_spec _ _ _).1 _ _ heq
    simp only [Prod.mk.injEq, Try.ok.injEq] at h
    obtain ⟨rfl, rfl⟩ := h
    have hp : s.panics = false := by rw [← p2]; exact h2
    obtain ⟨q1, q2⟩ := p3 hp
    refine ⟨⟨h3, ?_⟩, ?_, hp, rfl, by simp only [h1]; exact q2⟩
    · simp only [h1, q1, q2, bytesForBits]; omega
    · apply List.ext_getElem
      · simp [q1]
      · intro i hi1 hi2
        simp only [abs_getElem, h1, Nat.zero_add]
        rw [p5 i (by rw [q2]; unfold bytesForBits; omega), getD_lt hi2]
  · simp at h
  · simp at h

theorem tryFromIter_np {w : World} {s : Src Bool} (hs : s.Fused) (hp : s.panics = false) :
    (tryFromIter w s).1 ≠ .panic := by
  obtain ⟨p1, p2, p3, p4, p5⟩ := pack_spec s hs
  have := (RVec.tryFromIter_spec byteMax (pack s).1 w).2 (by rw [p2]; exact hp)
  unfold tryFromIter
  split
  · simp
  · simp
  · next w1 heq => rw [heq] at this; simp at this

theorem abs_zero (buf : RVec Byte) (o : Nat) : (⟨buf, 0, o⟩ : Bitmap).abs = [] := by simp [abs]

theorem withCap_ok {n : Nat} {b : Bitmap} (h : withCap n = .ok b) :
    b.Inv ∧ b.abs = [] ∧ b.offset = 0 ∧ b.buffer.items = [] := by
  unfold withCap at h
  split at h
  · next buf heq =>
    obtain ⟨h1, h2, h3⟩ := RVec.withCap_ok heq
    simp only [Try.ok.injEq] at h
    subst h
    exact ⟨⟨h2, by simp⟩, abs_zero _ _, rfl, h1⟩
  · simp at h
  · simp at h

theorem withCap_ne (n : Nat) : withCap n ≠ .err := by
  unfold withCap
  split
  · simp
  · next h => exact absurd h (RVec.withCap_ne_err _ _)
  · simp

theorem tryWithCap_ok {w w' : World} {n : Nat} {b : Bitmap} (h : tryWithCap w n = (.ok b, w')) :
    b.Inv ∧ b.abs = [] ∧ b.offset = 0 ∧ b.buffer.items = [] := by
  unfold tryWithCap at h
  split at h
  · next buf w1 heq =>
    obtain ⟨h1, h2, h3⟩ := RVec.tryWithCap_ok heq
    simp only [Prod.mk.injEq, Try.ok.injEq] at h
    obtain ⟨rfl, rfl⟩ := h
    exact ⟨⟨h2, by simp⟩, abs_zero _ _, rfl, h1⟩
  · simp at h
  · simp at h

theorem tryWithCap_np (w : World) (n : Nat) : (tryWithCap w n).1 ≠ .panic := by
  have := RVec.tryWithCap_ne_panic (α := Byte) byteMax (bytesForBits n) w
  unfold tryWithCap
  split
  · simp
  · simp
  · next w1 heq => rw [heq] at this; simp at this

theorem trailingBits_ok {b : Bitmap} (hb : b.Inv) :
    ∃ t, b.trailingBits = .ok t ∧ t < 8 ∧ (b.offset + b.bits + t) % 8 = 0 := by
  have := hb.small'
  simp only [trailingBits, bitIndex, strictAdd_ok (show b.offset + b.bits ≤ usizeMax by omega), Res.map]
  refine ⟨_, rfl, ?_⟩
  split <;> omega

theorem reserve_ok {b b' : Bitmap} {n : Nat} {o : Out} (hb : b.Inv) (h : reserve b n = (b', o)) :
    b'.Inv ∧ b'.abs = b.abs ∧ o ≠ .err ∧ b'.offset = b.offset ∧ b'.bits = b.bits ∧
      b'.buffer.items = b.buffer.items := by
  obtain ⟨t, ht, -⟩ := trailingBits_ok hb
  unfold reserve at h
  rw [ht] at h
  simp only at h
  split at h
  · have h1 := RVec.reserve_items byteMax b.buffer (bytesForBits (n - t))
    have h2 := RVec.reserve_wf (lim := byteMax) (bytesForBits (n - t)) hb.wf
    have h3 := RVec.reserve_ne_err byteMax b.buffer (bytesForBits (n - t))
    generalize RVec.reserve byteMax b.buffer (bytesForBits (n - t)) = R at *
    obtain ⟨buf, out⟩ := R
    simp only [Prod.mk.injEq] at *
    obtain ⟨rfl, rfl⟩ := h
    refine ⟨⟨h2, by simp only [h1]; exact hb.le⟩, by simp [abs, h1], h3, rfl, rfl, h1⟩
  · simp only [Prod.mk.injEq] at h
    obtain ⟨rfl, rfl⟩ := h
    exact ⟨hb, rfl, by simp, rfl, rfl, rfl⟩

theorem reserve_live {b : Bitmap} {n : Nat} (hb : b.Inv)
    (h : b.buffer.items.length + bytesForBits n ≤ byteMax) : (reserve b n).2 = .ok := by
  obtain ⟨t, ht, -⟩ := trailingBits_ok hb
  unfold reserve
  rw [ht]
  simp only
  split
  · exact RVec.reserve_live (by unfold bytesForBits at *; omega)
  · rfl

theorem tryReserve_ok {w w' : World} {b b' : Bitmap} {n : Nat} {o : Out} (hb : b.Inv)
    (h : tryReserve w b n = (b', o, w')) :
    b'.Inv ∧ b'.abs = b.abs ∧ o ≠ .panic ∧ b'.offset = b.offset ∧ b'.bits = b.bits ∧
      b'.buffer.items = b.buffer.items ∧ w'.oracle = w.oracle := by
  obtain ⟨t, ht, -⟩ := trailingBits_ok hb
  unfold tryReserve at h
  rw [ht] at h
  simp only at h
  split at h
  · have h1 := RVec.tryReserve_items byteMax w b.buffer (bytesForBits (n - t))
    have h2 := RVec.tryReserve_wf (lim := byteMax) w (bytesForBits (n - t)) hb.wf
    have h3 := RVec.tryReserve_ne_panic byteMax w b.buffer (bytesForBits (n - t))
    have h4 := RVec.tryReserve_oracle byteMax w b.buffer (bytesForBits (n - t))
    generalize RVec.tryReserve byteMax w b.buffer (bytesForBits (n - t)) = R at *
    obtain ⟨buf, out, w1⟩ := R
    simp only [Prod.mk.injEq] at *
    obtain ⟨rfl, rfl, rfl⟩ := h
    refine ⟨⟨h2, by simp only [h1]; exact hb.le⟩, by simp [abs, h1], h3, rfl, rfl, h1, h4⟩
  · simp only [Prod.mk.injEq] at h
    obtain ⟨rfl, rfl, rfl⟩ := h
    exact ⟨hb, rfl, by simp, rfl, rfl, rfl, rfl⟩

theorem truncate_inv {b : Bitmap} (n : Nat) (hb : b.Inv) : (b.truncate n).Inv := by
  have := hb.le
  unfold truncate
  split
  · exact ⟨hb.wf, by simp only; omega⟩
  · exact hb

theorem truncate_abs (b : Bitmap) (n : Nat) : (b.truncate n).abs = b.abs.take n := by
  unfold truncate
  split
  · next h =>
    simp [abs, ← List.map_take, List.take_range, Nat.min_eq_left (Nat.le_of_lt h)]
  · rw [List.take_of_length_le (by simp; omega)]

/-! ## Bitmaps with all bits set -/

theorem getLsbD_ones (i : Nat) : (255#8 : Byte).getLsbD i = decide (i < 8) := by
  rw [show (255#8 : Byte) = BitVec.allOnes 8 from by decide, BitVec.getLsbD_allOnes]

theorem getLsbD_lowOnes : ∀ k, k < 8 → ∀ i, i < 8 →
    ((1#8 : Byte) <<< k - 1#8).getLsbD i = decide (i < k) := by
  decide

theorem allSetBytes_length (n : Nat) : (allSetBytes n).length = bytesForBits n := by
  unfold allSetBytes bytesForBits
  split <;> simp <;> omega

theorem allSetBytes_bit {n i : Nat} (h : i < n) : bitAt (allSetBytes n) i = true := by
  unfold allSetBytes
  by_cases hi : i < 8 * (n / 8)
  · rw [bitAt_append_left (by simpa using hi)]
    have : i / 8 < n / 8 := by omega
    simp [bitAt, this, getLsbD_ones]; omega
  · rw [bitAt_append_right (by simp; omega), if_pos (by omega), bitAt_cons_lt (by simp; omega),
      getLsbD_lowOnes _ (by omega) _ (by simp; omega)]
    simp; omega

theorem allSet_ok {n : Nat} {b : Bitmap} (h : allSet n = .ok b) :
    b.Inv ∧ b.abs = List.replicate n true ∧ b.offset = 0 ∧
      b.buffer.items.length = bytesForBits n := by
  unfold allSet at h
  split at h
  · next buf heq =>
    obtain ⟨h1, h2, h3⟩ := RVec.fromIter_ok heq
    simp only [Try.ok.injEq, Src.items_ofList] at h h1
    subst h
    refine ⟨⟨h3, ?_⟩, ?_, rfl, by simp only [h1, allSetBytes_length]⟩
    · simp only [h1, allSetBytes_length, bytesForBits]; omega
    · apply List.ext_getElem
      · simp
      · intro i hi1 hi2
        simp only [abs_length] at hi1
        simp [abs_getElem, h1, allSetBytes_bit hi1]
  · simp at h
  · simp at h

theorem allSet_ne (n : Nat) : allSet n ≠ .err := by
  unfold allSet
  split
  · simp
  · next h => exact absurd h (RVec.fromIter_ne_err _ _)
  · simp

theorem allSet_live {n : Nat} (h : n ≤ 8 * byteMax) : ∃ b, allSet n = .ok b := by
  obtain ⟨v, hv, -⟩ := RVec.fromIter_live (lim := byteMax) (s := Src.ofList (allSetBytes n))
    (by simp only [Src.items_ofList, allSetBytes_length, bytesForBits]; omega) (by simp)
  exact ⟨_, by rw [allSet, hv]⟩

theorem tryAllSet_ok {w w' : World} {n : Nat} {b : Bitmap} (h : tryAllSet w n = (.ok b, w')) :
    b.Inv ∧ b.abs = List.replicate n true ∧ b.offset = 0 ∧
      b.buffer.items.length = bytesForBits n := by
  unfold tryAllSet at h
  split at h
  · next buf w1 heq =>
    obtain ⟨h1, h2, h3⟩ := (RVec.tryFromIter_spec _ _ _).1 _ _ heq
    simp only [Prod.mk.injEq, Try.ok.injEq, Src.items_ofList] at h h1
    obtain ⟨rfl, rfl⟩ := h
    refine ⟨⟨h3, ?_⟩, ?_, rfl, by simp only [h1, allSetBytes_length]⟩
    · simp only [h1, allSetBytes_length, bytesForBits]; omega
    · apply List.ext_getElem
      · simp
      · intro i hi1 hi2
        simp only [abs_length] at hi1
        simp [abs_getElem, h1, allSetBytes_bit hi1]
  · simp at h
  · simp at h

theorem tryAllSet_np (w : World) (n : Nat) : (tryAllSet w n).1 ≠ .panic := by
  have := (RVec.tryFromIter_spec byteMax (Src.ofList (allSetBytes n)) w).2 (by simp)
  unfold tryAllSet
  split
  · simp
  · simp
  · next w1 heq => rw [heq] at this; simp at this

/-! ## Counting -/

/-- The bit positions a masked byte keeps. -/
def keep (lead : Nat) (endBit last idx i : Nat) : Bool :=
  (idx ≠ 0 || lead ≤ i) && (idx ≠ last || endBit = 0 || i < endBit)

theorem getLsbD_leading : ∀ k, k < 8 → ∀ i, i < 8 →
    ((255#8 : Byte) <<< k).getLsbD i = decide (k ≤ i) := by
  decide

theorem countFold_eq (lead endBit last : Nat) (hl : lead < 8) (he : endBit < 8) :
    ∀ (bytes : List Byte) (idx count : Nat),
    countFold (255#8 <<< lead) (if endBit = 0 then 255#8 else (1#8 <<< endBit) - 1#8) last idx count bytes =
      count + (List.range (8 * bytes.length)).countP fun j =>
        bitAt bytes j && keep lead endBit last (idx + j / 8) (j % 8)
  | [], idx, count => by simp [countFold]
  | b :: bytes, idx, count => by
    simp only [countFold]
    rw [countFold_eq lead endBit last hl he bytes]
    rw [List.length_cons, Nat.mul_add, Nat.mul_one, Nat.add_comm (8 * bytes.length) 8, List.range_add,
      List.countP_append, List.countP_map, Nat.add_assoc]
    congr 1
    congr 1
    · unfold popcount
      apply List.countP_congr
      intro i hi
      simp only [List.mem_range] at hi
      rw [bitAt_cons_lt hi, Nat.div_eq_of_lt hi, Nat.mod_eq_of_lt hi]
      have h1 : (if idx = 0 then (255#8 : Byte) <<< lead else 255#8).getLsbD i =
          decide (idx ≠ 0 ∨ lead ≤ i) := by
        split
        · next h => rw [getLsbD_leading lead hl i hi]; simp [h]
        · next h => rw [getLsbD_ones]; simp [h, hi]
      have h2 : (if idx = last then (if endBit = 0 then (255#8 : Byte) else (1#8 <<< endBit) - 1#8)
          else 255#8).getLsbD i = decide (idx ≠ last ∨ endBit = 0 ∨ i < endBit) := by
        split
        · next h =>
          split
          · next h3 => rw [getLsbD_ones]; simp [h3, hi]
          · next h3 => rw [getLsbD_lowOnes endBit he i hi]; simp [h, h3]
        · next h => rw [getLsbD_ones]; simp [h, hi]
      simp only [BitVec.getLsbD_and, h1, h2, keep, Nat.add_zero]
      simp [or_assoc, and_assoc]
    · apply List.countP_congr
      intro j hj
      simp only [Function.comp_apply, Nat.add_comm 8 j, bitAt_cons_add]
      rw [show idx + (j + 8) / 8 = idx + 1 + j / 8 by omega, show (j + 8) % 8 = j % 8 by omega]

/-- `count_ones` counts the set bits. -/
theorem countOnes_ok {b : Bitmap} (hb : b.Inv) : b.countOnes = .ok (b.abs.count true) := by
  have hsm := hb.small'
  have hle := hb.le
  unfold countOnes
  by_cases h0 : b.bits = 0
  · simp [h0, abs]
  · simp only [h0, if_false, strictAdd_ok (show b.offset + b.bits ≤ usizeMax by omega)]
    rw [if_pos (by omega)]
    generalize hB : (b.buffer.items.take ((b.offset + b.bits + 7) / 8)).drop (b.offset / 8) = B
    have hBl : B.length = (b.offset + b.bits + 7) / 8 - b.offset / 8 := by
      rw [← hB]; simp; omega
    have hBb : ∀ j, j < b.offset % 8 + b.bits → bitAt B j = bitAt b.buffer.items (8 * (b.offset / 8) + j) := by
      intro j hj
      rw [← hB, bitAt_drop, bitAt_take (by omega)]
    simp only [strictSub, show 1 ≤ B.length by omega, if_true]
    rw [countFold_eq (b.offset % 8) ((b.offset + b.bits) % 8) (B.length - 1) (by omega) (by omega),
      Nat.zero_add]
    congr 1
    have hsplit : 8 * B.length = b.offset % 8 + (b.bits + (8 * B.length - b.offset % 8 - b.bits)) := by
      omega
    rw [hsplit, List.range_add, List.countP_append, List.countP_map, List.range_add,
      List.countP_append, List.countP_map]
    have hA : (List.range (b.offset % 8)).countP (fun j =>
        bitAt B j && keep (b.offset % 8) ((b.offset + b.bits) % 8) (B.length - 1) (0 + j / 8) (j % 8)) = 0 := by
      rw [List.countP_eq_zero]
      intro j hj
      simp only [List.mem_range] at hj
      have h1 : j / 8 = 0 := by omega
      have h2 : ¬ (b.offset % 8 ≤ j % 8) := by omega
      simp [keep, h1, h2]
    have hC : (List.range (8 * B.length - b.offset % 8 - b.bits)).countP
        (((fun j => bitAt B j && keep (b.offset % 8) ((b.offset + b.bits) % 8) (B.length - 1) (0 + j / 8) (j % 8)) ∘
          fun x => b.offset % 8 + x) ∘ fun x => b.bits + x) = 0 := by
      rw [List.countP_eq_zero]
      intro j hj
      simp only [List.mem_range] at hj
      have h1 : (b.offset % 8 + (b.bits + j)) / 8 = B.length - 1 := by omega
      have h2 : ¬ ((b.offset + b.bits) % 8 = 0) := by omega
      have h3 : ¬ ((b.offset % 8 + (b.bits + j)) % 8 < (b.offset + b.bits) % 8) := by omega
      simp only [Function.comp_apply, Nat.zero_add, keep, h1]
      simp only [h2, h3]
      simp
    rw [hA, hC, Nat.zero_add, Nat.add_zero, abs, List.count, List.countP_map]
    apply List.countP_congr
    intro j hj
    simp only [List.mem_range] at hj
    simp only [Function.comp_apply, Nat.zero_add]
    rw [hBb _ (by omega), show 8 * (b.offset / 8) + (b.offset % 8 + j) = b.offset + j by omega]
    have hk : keep (b.offset % 8) ((b.offset + b.bits) % 8) (B.length - 1)
        ((b.offset % 8 + j) / 8) ((b.offset % 8 + j) % 8) = true := by
      unfold keep
      simp only [Bool.and_eq_true, Bool.or_eq_true, decide_eq_true_eq]
      omega
    rw [hk]; simp

theorem canon_of_empty {b : Bitmap}
    (h : b.Inv ∧ b.abs = [] ∧ b.offset = 0 ∧ b.buffer.items = []) :
    b.Inv ∧ b.abs = [] ∧ (b.offset = 0 ∧ b.buffer.items.length ≤ 2 ^ 59) :=
  ⟨h.1, h.2.1, by rw [h.2.2.1, h.2.2.2]; simp⟩

theorem canon_of_items {b : Bitmap} {l : List Bool} {p : Prop}
    (h : b.Inv ∧ b.abs = l ∧ p ∧ b.offset = 0 ∧ b.buffer.items.length = bytesForBits l.length) :
    b.Inv ∧ b.abs = l ∧ p ∧
      (l.length + 0 ≤ 2 ^ 61 → b.offset = 0 ∧ b.buffer.items.length ≤ 2 ^ 59) :=
  ⟨h.1, h.2.1, h.2.2.1, fun hl => by
    rw [h.2.2.2.1, h.2.2.2.2]; unfold bytesForBits; omega⟩

end Bitmap

/-- Bitmaps satisfy the laws. -/
def bitmapL : LawfulR bitmapR where
  Inv b := Bitmap.Inv b
  abs b := Bitmap.abs b
  VRep v o := v = o
  IRep it l := BitIter.Rep it l
  JRep it l := BitIter.Rep it l
  len_ok {b} _ := by simp [Bitmap.len]
  len_le {b} h := by have := Bitmap.Inv.small' h; simp; omega
  view_some {b i} h hi := by
    simp only [Bitmap.abs_length] at hi
    exact ⟨_, Bitmap.view_some h hi, by rw [Bitmap.abs_getElem]⟩
  owned_ok h := by subst h; rfl
  iter_ok {b} h := ⟨_, rfl, Bitmap.iter_rep h⟩
  inext_nil h := by
    obtain ⟨it', h1, h2⟩ := BitIter.next_nil h
    exact ⟨it', by simp [bitmapR, h1], h2⟩
  inext_cons {it o l} h := by
    obtain ⟨it', h1, h2⟩ := BitIter.next_cons h
    exact ⟨o, it', by simp [bitmapR, h1], rfl, h2⟩
  ilen_ok h := BitIter.len_ok h
  into_ok {b} h := ⟨_, rfl, Bitmap.iter_rep h⟩
  jnext_nil h := by
    obtain ⟨it', h1, h2⟩ := BitIter.next_nil h
    exact ⟨it', by simp [bitmapR, h1], h2⟩
  jnext_cons {it o l} h := by
    obtain ⟨it', h1, h2⟩ := BitIter.next_cons h
    exact ⟨it', by simp [bitmapR, h1], h2⟩
  jlen_ok h := BitIter.len_ok h
  Canon b := Bitmap.offset b = 0 ∧ (Bitmap.buffer b).items.length ≤ 2 ^ 59
  Room e l := l.length + e ≤ 2 ^ 61
  room_prefix h := by simp at h ⊢; omega
  room_mono h1 h2 := by omega
  room_len h := by unfold usizeMax; omega
  empty_ok := ⟨Bitmap.inv_empty, rfl, by simp [Bitmap.empty, RVec.empty]⟩
  pulled_fused h := Bitmap.pulled_fused h
  pulled_map f s := by
    show (Bitmap.pulled _).length = (Bitmap.pulled _).length
    rw [Bitmap.pulled_map, List.length_map]
  fromIter_any h := by
    simp only [bitmapR, Prod.mk.injEq] at h
    exact Bitmap.fromIter_any h.1
  fromIterIn_any h := by
    simp only [bitmapR, Prod.mk.injEq] at h
    exact Bitmap.fromIter_any h.1
  tryFromIter_any h := Bitmap.tryFromIter_any h
  withCap_ok h := by exact Bitmap.canon_of_empty (Bitmap.withCap_ok h)
  withCap_ne n := Bitmap.withCap_ne n
  fromIter_ok hs h := by
    simp only [bitmapR, Prod.mk.injEq] at h
    exact Bitmap.canon_of_items (Bitmap.fromIter_ok hs h.1)
  fromIter_ne w s := Bitmap.fromIter_ne s
  fromIterIn_ok hs h := by
    simp only [bitmapR, Prod.mk.injEq] at h
    exact Bitmap.canon_of_items (Bitmap.fromIter_ok hs h.1)
  fromIterIn_ne w s := Bitmap.fromIter_ne s
  tryWithCap_ok h := by exact Bitmap.canon_of_empty (Bitmap.tryWithCap_ok h)
  tryWithCap_np w n := Bitmap.tryWithCap_np w n
  tryFromIter_ok hs h := by
    exact Bitmap.canon_of_items (Bitmap.tryFromIter_ok hs h)
  tryFromIter_np hs hp := Bitmap.tryFromIter_np hs hp
  ext_ok {b b' s} hb h := by
    obtain ⟨h1, h2, h3, h4, h5, h6, h7⟩ := Bitmap.extend_spec (s := s) hb
    rw [show Bitmap.extend b s = (b', .ok) from h] at h1 h4
    exact ⟨h1, h4 rfl⟩
  ext_ne {b} s hb := (Bitmap.extend_spec (s := s) hb).2.2.1
  ext_canon {b b' s} hb hc hr h := by
    obtain ⟨h1, h2, h3, h4, h5, h6, h7⟩ := Bitmap.extend_spec (s := s) hb
    rw [show Bitmap.extend b s = (b', .ok) from h] at h2 h7
    simp only [List.length_append, Bitmap.abs_length] at hr
    simp only at h2 h7
    refine ⟨by rw [h2]; exact hc.1, ?_⟩
    have := hc.1; have := hc.2
    unfold bytesForBits at h7
    omega
  ext_live {b s} hb hc hp hr := by
    obtain ⟨h1, h2, h3, h4, h5, h6, h7⟩ := Bitmap.extend_spec (s := s) hb
    simp only [List.length_append, Bitmap.abs_length] at hr
    have := h6 (by have := hc.1; unfold byteMax; omega)
    rw [hp] at this
    exact this
  ext_fuse b s := by simp [bitmapR, Bitmap.extend]
  reserve_ok {b b' n o} hb h := by
    obtain ⟨h1, h2, h3, h4, h5, h6⟩ := Bitmap.reserve_ok hb h
    exact ⟨h1, h2, h3, fun hc => by rw [h4, h6]; exact hc⟩
  reserve_live {b n} hb hc hr := by
    apply Bitmap.reserve_live hb
    simp only [Bitmap.abs_length] at hr
    have := hc.2
    unfold bytesForBits byteMax; omega
  tryReserve_ok {w w' b b' n o} hb h := by
    obtain ⟨h1, h2, h3, h4, h5, h6, h7⟩ := Bitmap.tryReserve_ok hb h
    exact ⟨h1, h2, h3, fun hc => by rw [h4, h6]; exact hc⟩
  tryExt_ok hb h := by
    obtain ⟨h1, h2, h3, h4, h5, h6, h7⟩ := Bitmap.tryExtend_spec hb h
    exact ⟨h1, h4 rfl⟩
  tryExt_canon {w w' b b' s o} hb hc hr h _ := by
    obtain ⟨h1, h2, h3, h4, h5, h6, h7⟩ := Bitmap.tryExtend_spec hb h
    simp only [List.length_append, Bitmap.abs_length] at hr
    refine ⟨by rw [h2]; exact hc.1, ?_⟩
    have := hc.1; have := hc.2
    unfold bytesForBits at h7
    omega
  tryExt_err hb h := by
    obtain ⟨h1, h2, h3, h4, h5, h6, h7⟩ := Bitmap.tryExtend_spec hb h
    have := h5 rfl
    exact ⟨h1, this.1⟩
  tryExt_np {w b s} hb hp hpan := by
    obtain ⟨h1, h2, h3, h4, h5, h6, h7⟩ := Bitmap.tryExtend_spec (w := w) (s := s) hb rfl
    have := (h6 hpan).1
    rw [hp] at this; simp at this
  tryExt_fuse w b s := by simp [bitmapR, Bitmap.tryExtend]
  trunc_ok {b} n hb := ⟨_, rfl, Bitmap.truncate_inv n hb, Bitmap.truncate_abs b n, fun hc => by
    simp only [Bitmap.truncate]; split <;> exact hc⟩

end Narrow
