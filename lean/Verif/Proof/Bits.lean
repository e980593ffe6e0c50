import Verif.Model.Bitmap
import Verif.Proof.Base

/-! # Bits of byte sequences, packing and unpacking -/

namespace Narrow

/-- Bit `i` of a byte sequence, least significant bit first; `false` outside. -/
def bitAt (l : List Byte) (i : Nat) : Bool := (l.getD (i / 8) 0#8).getLsbD (i % 8)

/-- The bits of one byte. -/
def byteBits (b : Byte) : List Bool := (List.range 8).map fun i => b.getLsbD i

/-- The bits of a byte sequence. -/
def bitsOf (l : List Byte) : List Bool := l.flatMap byteBits

@[simp] theorem byteBits_length (b : Byte) : (byteBits b).length = 8 := by simp [byteBits]

@[simp] theorem bitsOf_length (l : List Byte) : (bitsOf l).length = 8 * l.length := by
  induction l with
  | nil => rfl
  | cons b l ih => simp [bitsOf] at ih ⊢; omega

theorem bitAt_cons_lt {b : Byte} {l : List Byte} {i : Nat} (h : i < 8) :
    bitAt (b :: l) i = b.getLsbD i := by
  simp [bitAt, Nat.div_eq_of_lt h, Nat.mod_eq_of_lt h]

theorem bitAt_cons_add {b : Byte} {l : List Byte} {i : Nat} :
    bitAt (b :: l) (i + 8) = bitAt l i := by
  simp [bitAt]

theorem bitAt_cons_ge {b : Byte} {l : List Byte} {i : Nat} (h : 8 ≤ i) :
    bitAt (b :: l) i = bitAt l (i - 8) := by
  obtain ⟨j, rfl⟩ : ∃ j, i = j + 8 := ⟨i - 8, by omega⟩
  simp [bitAt]

theorem bitsOf_getElem : ∀ (l : List Byte) (i : Nat) (h : i < (bitsOf l).length),
    (bitsOf l)[i] = bitAt l i
  | [], i, h => by simp [bitsOf] at h
  | b :: l, i, h => by
    by_cases hi : i < 8
    · rw [bitAt_cons_lt hi]
      simp [bitsOf, byteBits, hi]
    · rw [bitAt_cons_ge (by omega), ← bitsOf_getElem l (i - 8) (by simp at h ⊢; omega)]
      simp [bitsOf, List.getElem_append, hi]

theorem bitsOf_eq (l : List Byte) : bitsOf l = (List.range (8 * l.length)).map (bitAt l) := by
  apply List.ext_getElem
  · simp
  · intro i h1 h2; simp [bitsOf_getElem]

theorem bitAt_append_left {l m : List Byte} {i : Nat} (h : i < 8 * l.length) :
    bitAt (l ++ m) i = bitAt l i := by
  have : i / 8 < l.length := by omega
  simp [bitAt, List.getD_eq_getElem?_getD, List.getElem?_append_left this]

theorem bitAt_append_right {l m : List Byte} {i : Nat} (h : 8 * l.length ≤ i) :
    bitAt (l ++ m) i = bitAt m (i - 8 * l.length) := by
  have h1 : l.length ≤ i / 8 := by omega
  have h2 : i / 8 - l.length = (i - 8 * l.length) / 8 := by omega
  have h3 : (i - 8 * l.length) % 8 = i % 8 := by omega
  simp [bitAt, List.getD_eq_getElem?_getD, List.getElem?_append_right h1, h2, h3]

theorem bitAt_take {l : List Byte} {n i : Nat} (h : i < 8 * n) :
    bitAt (l.take n) i = bitAt l i := by
  have : i / 8 < n := by omega
  simp [bitAt, List.getD_eq_getElem?_getD, this]

theorem bitAt_drop {l : List Byte} {n i : Nat} :
    bitAt (l.drop n) i = bitAt l (8 * n + i) := by
  have h2 : (8 * n + i) / 8 = n + i / 8 := by omega
  have h3 : (8 * n + i) % 8 = i % 8 := by omega
  simp [bitAt, List.getD_eq_getElem?_getD, h2, h3]

theorem bitAt_set {l : List Byte} {n i : Nat} {b : Byte} (h : n < l.length) :
    bitAt (l.set n b) i = if i / 8 = n then b.getLsbD (i % 8) else bitAt l i := by
  simp only [bitAt, List.getD_eq_getElem?_getD, List.getElem?_set]
  split
  · next h1 => subst h1; simp
  · next h1 => simp [show ¬ (i / 8 = n) by omega]

/-! ## Single bytes -/

theorem getLsbD_one_shift {k j : Nat} (hk : k < 8) : ((1#8 : Byte) <<< k).getLsbD j = decide (j = k) := by
  simp only [BitVec.getLsbD_shiftLeft, BitVec.getLsbD_one]
  by_cases h : j = k
  · subst h; simp [hk]
  · by_cases h2 : j < k
    · simp [h, h2]
    · have : j - k ≠ 0 := by omega
      simp [h, h2, this]

theorem and_one_shift (b : Byte) {k : Nat} (hk : k < 8) :
    (b &&& (1#8 <<< k) != 0#8) = b.getLsbD k := by
  cases hb : b.getLsbD k with
  | true =>
    have : b &&& (1#8 <<< k) ≠ 0#8 := by
      intro h
      have := congrArg (fun x => BitVec.getLsbD x k) h
      simp [hb, getLsbD_one_shift hk] at this
    simpa using this
  | false =>
    have : b &&& (1#8 <<< k) = 0#8 := by
      apply BitVec.eq_of_getLsbD_eq
      intro i hi
      simp only [BitVec.getLsbD_and, getLsbD_one_shift hk, BitVec.getLsbD_zero]
      by_cases h : i = k
      · subst h; simp [hb]
      · simp [h]
    simp [this]

theorem getLsbD_boolByte (x : Bool) (i : Nat) : (boolByte x).getLsbD i = (x && decide (i = 0)) := by
  cases x
  · simp [boolByte]
  · simp [boolByte, BitVec.getLsbD_one]

theorem getLsbD_setBit (b : Byte) {i j : Nat} (x : Bool) (hi : i < 8) (hj : j < 8) :
    (Bitmap.setBit b i x).getLsbD j = if j = i then x else b.getLsbD j := by
  simp only [Bitmap.setBit, BitVec.getLsbD_or, BitVec.getLsbD_and, BitVec.getLsbD_not,
    getLsbD_one_shift hi, BitVec.getLsbD_shiftLeft, getLsbD_boolByte]
  by_cases h : j = i
  · subst h; simp [hj]
  · by_cases h2 : j < i
    · simp [h, h2, hj]
    · have : j - i ≠ 0 := by omega
      simp [h, h2, hj, this]

theorem getLsbD_packStep (b : Byte) {i j : Nat} (x : Bool) (hi : i < 8) (hb : b.getLsbD i = false) :
    (if x then b ||| (1#8 <<< i) else b).getLsbD j = if j = i then x else b.getLsbD j := by
  cases x
  · by_cases h : j = i
    · subst h; simp [hb]
    · simp [h]
  · simp only [if_true, BitVec.getLsbD_or, getLsbD_one_shift hi]
    by_cases h : j = i <;> simp [h]

/-! ## Fused sources -/

namespace Src

variable {α : Type}

theorem Fused.cases {s : Src α} (h : s.Fused) :
    s = [] ∨ s = [.panic] ∨ ∃ a s', s = .item a :: s' ∧ Fused s' := by
  unfold Fused at h
  match s with
  | [] => exact .inl rfl
  | .none :: s => simp [fuse] at h
  | .panic :: s => simp [fuse] at h; exact .inr (.inl (by rw [h]))
  | .item a :: s => simp [fuse] at h; exact .inr (.inr ⟨a, s, rfl, h⟩)

theorem fused_nil : Fused ([] : Src α) := rfl
theorem fused_panic : Fused ([.panic] : Src α) := rfl
theorem Fused.item {a : α} {s : Src α} (h : Fused s) : Fused (.item a :: s) := by
  unfold Fused at *; simp [fuse, h]

theorem Fused.eq {s : Src α} (h : s.Fused) :
    s = if s.panics then ofListPanic s.items else ofList s.items := by
  have := fuse_eq s; unfold Fused at h; rw [h] at this; exact this

@[simp] theorem items_nil : items ([] : Src α) = [] := (rfl)
@[simp] theorem items_panic : items ([.panic] : Src α) = [] := (rfl)
@[simp] theorem items_item (a : α) (s : Src α) : items (.item a :: s) = a :: items s := (rfl)
@[simp] theorem panics_nil : panics ([] : Src α) = false := (rfl)
@[simp] theorem panics_panic : panics ([.panic] : Src α) = true := (rfl)
@[simp] theorem panics_item (a : α) (s : Src α) : panics (.item a :: s) = panics s := (rfl)

end Src

/-! ## Packing -/

/-- One packed byte after its first bit. -/
theorem packRest_spec : ∀ (k pos : Nat) (byte : Byte) (s : Src Bool) (n : Nat),
    s.Fused → pos + k ≤ 8 → (∀ i, pos ≤ i → byte.getLsbD i = false) →
    (s.panics = true ∧ s.items.length < k → packRest k pos byte s n = none) ∧
    (¬ (s.panics = true ∧ s.items.length < k) →
      ∃ byte' s', packRest k pos byte s n = some (byte', s', n + min k s.items.length) ∧
        s'.Fused ∧ s'.items = s.items.drop k ∧ s'.panics = s.panics ∧
        ∀ i, byte'.getLsbD i = if i < pos then byte.getLsbD i
          else decide (i < pos + k) && s.items.getD (i - pos) false)
  | 0, pos, byte, s, n, hs, hp, hb => by
    refine ⟨by simp, fun _ => ⟨byte, s, by simp [packRest], hs, by simp, rfl, ?_⟩⟩
    intro i; split
    · rfl
    · next h => rw [hb i (by omega)]; simp; omega
  | k + 1, pos, byte, s, n, hs, hp, hb => by
    rcases hs.cases with rfl | rfl | ⟨x, s1, rfl, hs1⟩
    · obtain ⟨-, h⟩ := packRest_spec k (pos + 1) byte [] n hs (by omega)
        (fun i hi => hb i (by omega))
      refine ⟨by simp, fun _ => ?_⟩
      obtain ⟨b', s', h1, h2, h3, h4, h5⟩ := h (by simp)
      refine ⟨b', s', by simpa [packRest] using h1, h2, by simpa using h3, h4, ?_⟩
      intro i
      rw [h5 i]
      split
      · split
        · rfl
        · rw [hb i (by omega)]; simp
      · rw [if_neg (by omega)]; simp
    · refine ⟨by simp [packRest], by simp⟩
    · simp only [packRest, Src.panics_item, Src.items_item, List.length_cons]
      obtain ⟨hA, hB⟩ := packRest_spec k (pos + 1)
        (if x then byte ||| (1#8 <<< pos) else byte) s1 (n + 1) hs1 (by omega) (by
          intro i hi
          rw [getLsbD_packStep byte x (by omega) (hb pos (by omega))]
          rw [if_neg (by omega)]; exact hb i (by omega))
      refine ⟨fun h => hA ⟨h.1, by omega⟩, fun h => ?_⟩
      obtain ⟨b', s', h1, h2, h3, h4, h5⟩ := hB (fun hx => h ⟨hx.1, by omega⟩)
      refine ⟨b', s', by rw [h1]; simp; omega, h2, by simpa using h3, h4, ?_⟩
      intro i
      rw [h5 i, getLsbD_packStep byte x (by omega) (hb pos (by omega))]
      by_cases h6 : i = pos
      · subst h6; simp
      · by_cases h7 : i < pos
        · simp [h6, h7, show i < pos + 1 by omega]
        · have h8 : i - pos = (i - (pos + 1)) + 1 := by omega
          simp only [h7, if_false, show ¬ i < pos + 1 by omega, h8, List.getD_cons_succ]
          congr 1
          simp; omega

/-- Packing a fused source. -/
theorem pack_spec (s : Src Bool) (hs : s.Fused) :
    (pack s).1.Fused ∧ (pack s).1.panics = s.panics ∧
    (s.panics = false → (pack s).2 = s.items.length ∧
      (pack s).1.items.length = bytesForBits s.items.length) ∧
    (pack s).1.items.length ≤ bytesForBits s.items.length ∧
    (∀ i, i < 8 * (pack s).1.items.length → bitAt (pack s).1.items i = s.items.getD i false) := by
  rcases hs.cases with rfl | rfl | ⟨x, s1, rfl, hs1⟩
  · simp [pack, bytesForBits, Src.fused_nil]
  · simp [pack, bytesForBits, Src.fused_panic]
  · have hb : ∀ i, 1 ≤ i → (boolByte x).getLsbD i = false := by
      intro i hi; rw [getLsbD_boolByte]; simp; omega
    obtain ⟨hA, hB⟩ := packRest_spec 7 1 (boolByte x) s1 0 hs1 (by omega) hb
    rw [pack]
    by_cases hc : Src.panics s1 = true ∧ (Src.items s1).length < 7
    · split
      · next h =>
        simp [Src.fused_panic, hc.1, bytesForBits]
      · next h => simp [hA hc] at h
    · obtain ⟨b', s', h1, h2, h3, h4, h5⟩ := hB hc
      split
      · next h => simp [h1] at h
      · next byte s'' n h =>
        have heq := h1.symm.trans h
        simp only [Option.some.injEq, Prod.mk.injEq] at heq
        obtain ⟨rfl, rfl, rfl⟩ := heq
        have hlen : s'.length < (Ev.item x :: s1).length := by
          have := packRest_length h
          simp only [List.length_cons]; omega
        obtain ⟨i1, i2, i3, i4, i5⟩ := pack_spec s' h2
        refine ⟨i1.item, by simp [i2, h4], ?_, ?_, ?_⟩
        · intro hp
          have := i3 (by simpa [h4] using hp)
          simp only [Src.items_item, List.length_cons, this.1, this.2, h3, bytesForBits,
            List.length_drop]
          omega
        · simp only [Src.items_item, List.length_cons, bytesForBits] at i4 ⊢
          rw [h3] at i4; simp at i4
          by_cases h7 : (Src.items s1).length < 7
          · have : s'.items = [] := by rw [h3]; simp; omega
            omega
          · omega
        · intro i hi
          simp only [Src.items_item] at hi ⊢
          by_cases h8 : i < 8
          · rw [bitAt_cons_lt h8, h5 i]
            rcases i with _ | i
            · rw [if_pos (by omega), getLsbD_boolByte]; simp
            · simp; omega
          · rw [bitAt_cons_ge (by omega), i5 (i - 8) (by simp at hi; omega), h3]
            obtain ⟨j, rfl⟩ : ∃ j, i = j + 8 := ⟨i - 8, by omega⟩
            simp [List.getD_eq_getElem?_getD, Nat.add_comm]
termination_by s.length

/-! ## Unpacking -/

namespace Unpacked

/-- The bits an unpacking iterator still has to yield. -/
def Rep (u : Unpacked) (l : List Bool) : Prop :=
  ∃ k, k < 8 ∧ u.mask = 1#8 <<< k ∧
    ((k = 0 ∧ l = bitsOf u.rest) ∨
     (0 < k ∧ ∃ b, u.byte = some b ∧ l = (byteBits b).drop k ++ bitsOf u.rest))

theorem rep_new (bytes : List Byte) : (new bytes).Rep (bitsOf bytes) :=
  ⟨0, by omega, rfl, .inl ⟨rfl, rfl⟩⟩

theorem shift_eq_one {k : Nat} (hk : k < 8) (h : (1#8 : Byte) <<< k = 1#8) : k = 0 := by
  have := congrArg (fun x => BitVec.getLsbD x k) h
  simp only [getLsbD_one_shift hk] at this
  simp [BitVec.getLsbD_one] at this
  exact this

theorem rotate_shift : ∀ k, k < 8 → ((1#8 : Byte) <<< k).rotateLeft 1 = 1#8 <<< ((k + 1) % 8) := by
  decide

theorem trailingZeros_shift : ∀ k, k < 8 → trailingZeros (1#8 <<< k) = k := by
  decide

theorem byteBits_drop {b : Byte} {k : Nat} (hk : k < 8) :
    (byteBits b).drop k = b.getLsbD k :: (byteBits b).drop (k + 1) := by
  rw [List.drop_eq_getElem_cons (by simpa using hk)]
  simp [byteBits]

/-- One step of unpacking from inside a byte. -/
theorem step {r : List Byte} {b : Byte} {k : Nat} (hk : k < 8) :
    Rep ⟨r, some b, ((1#8 : Byte) <<< k).rotateLeft 1⟩ ((byteBits b).drop (k + 1) ++ bitsOf r) := by
  refine ⟨(k + 1) % 8, by omega, rotate_shift k hk, ?_⟩
  by_cases h : k = 7
  · subst h; left; exact ⟨rfl, by simp [byteBits]⟩
  · right; exact ⟨by omega, b, rfl, by rw [Nat.mod_eq_of_lt (by omega)]⟩

theorem next_nil {u : Unpacked} (h : u.Rep []) : ∃ u', u.next = (none, u') ∧ u'.Rep [] := by
  obtain ⟨k, hk, hm, ⟨rfl, hl⟩ | ⟨h0, b, hb, hl⟩⟩ := h
  · have hr : u.rest = [] := by
      cases hu : u.rest with
      | nil => rfl
      | cons b r => rw [hu] at hl; have := congrArg List.length hl; simp at this
    have hm1 : u.mask = 1#8 := hm
    refine ⟨{ u with byte := none }, by simp [next, fetch, hm1, hr], 0, by omega, hm, .inl ⟨rfl, ?_⟩⟩
    simp [hr, bitsOf]
  · have := congrArg List.length hl; simp at this; omega

theorem next_cons {u : Unpacked} {x : Bool} {l : List Bool} (h : u.Rep (x :: l)) :
    ∃ u', u.next = (some x, u') ∧ u'.Rep l := by
  obtain ⟨k, hk, hm, ⟨rfl, hl⟩ | ⟨h0, b, hb, hl⟩⟩ := h
  · cases hu : u.rest with
    | nil => rw [hu] at hl; simp [bitsOf] at hl
    | cons b r =>
      have hm1 : u.mask = 1#8 := hm
      rw [hu] at hl
      have hl2 : x :: l = b.getLsbD 0 :: ((byteBits b).drop 1 ++ bitsOf r) := by
        rw [hl, ← List.cons_append, ← byteBits_drop (by omega)]; simp [bitsOf]
      simp only [List.cons.injEq] at hl2
      refine ⟨⟨r, some b, ((1#8 : Byte) <<< 0).rotateLeft 1⟩, ?_, ?_⟩
      · have := and_one_shift b (k := 0) (by omega)
        simp only [next, fetch, hm1, hu, if_true]
        rw [hl2.1, ← this]; rfl
      · rw [hl2.2]; exact step (by omega)
  · have hm1 : u.mask ≠ 1#8 := by
      intro h; rw [hm] at h; have := shift_eq_one hk h; omega
    rw [byteBits_drop hk] at hl
    simp only [List.cons_append, List.cons.injEq] at hl
    refine ⟨⟨u.rest, some b, ((1#8 : Byte) <<< k).rotateLeft 1⟩, ?_, ?_⟩
    · simp only [next, fetch, hm1, if_false, hb]
      rw [hm, and_one_shift b hk, hl.1]
    · rw [hl.2]; exact step hk

/-- The number of bits left is what the size hint says. -/
theorem sizeHint_ok {u : Unpacked} {l : List Bool} (h : u.Rep l) (hl : l.length ≤ usizeMax) :
    u.sizeHint = (l.length, some l.length) := by
  obtain ⟨k, hk, hm, ⟨rfl, hl'⟩ | ⟨h0, b, hb, hl'⟩⟩ := h
  · have hm1 : u.mask = 1#8 := hm
    have hlen := congrArg List.length hl'
    simp only [bitsOf_length] at hlen
    have h1 : u.rest.length * 8 ≤ usizeMax := by omega
    simp [sizeHint, hm1, satAdd, satMul, checkedMul, checkedAdd, h1]
    omega
  · have hm1 : u.mask ≠ 1#8 := by
      intro h; rw [hm] at h; have := shift_eq_one hk h; omega
    have hlen := congrArg List.length hl'
    simp only [bitsOf_length, List.length_append, List.length_drop, byteBits_length] at hlen
    have h1 : u.rest.length * 8 ≤ usizeMax := by omega
    have h2 : u.rest.length * 8 + (8 - k) ≤ usizeMax := by omega
    have h3 : trailingZeros u.mask = k := by rw [hm]; exact trailingZeros_shift k hk
    simp [sizeHint, hm1, satAdd, satMul, checkedMul, checkedAdd, h1, h3, h2]
    omega

theorem advance_ok : ∀ (n : Nat) {u : Unpacked} {l : List Bool}, u.Rep l → n ≤ l.length →
    ∃ u', u.advance n = (true, u') ∧ u'.Rep (l.drop n)
  | 0, u, l, h, _ => ⟨u, rfl, by simpa using h⟩
  | n + 1, u, [], h, hn => by simp at hn
  | n + 1, u, x :: l, h, hn => by
    obtain ⟨u1, h1, h2⟩ := next_cons h
    obtain ⟨u2, h3, h4⟩ := advance_ok n h2 (by simpa using hn)
    exact ⟨u2, by simp [advance, h1, h3], by simpa using h4⟩

end Unpacked

namespace BitIter

/-- The bits a bitmap iterator still has to yield. -/
def Rep (it : BitIter) (l : List Bool) : Prop :=
  ∃ L, it.un.Rep L ∧ L.length ≤ usizeMax ∧ it.skip + it.take ≤ L.length ∧
    l = (L.drop it.skip).take it.take

theorem next_nil {it : BitIter} (h : it.Rep []) : ∃ it', it.next = (none, it') ∧ it'.Rep [] := by
  obtain ⟨L, h1, h2, h3, h4⟩ := h
  have h5 : it.take = 0 := by
    have := congrArg List.length h4
    simp at this; omega
  exact ⟨it, by simp [next, h5], L, h1, h2, h3, h4⟩

theorem next_cons {it : BitIter} {x : Bool} {l : List Bool} (h : it.Rep (x :: l)) :
    ∃ it', it.next = (some x, it') ∧ it'.Rep l := by
  obtain ⟨L, h1, h2, h3, h4⟩ := h
  have h5 : it.take ≠ 0 := by
    intro h5; simp [h5] at h4
  have hd : L.drop it.skip = x :: (L.drop (it.skip + 1)) := by
    rw [List.drop_eq_getElem_cons (by omega)] at h4 ⊢
    obtain ⟨t, ht⟩ : ∃ t, it.take = t + 1 := ⟨it.take - 1, by omega⟩
    rw [ht] at h4
    simp only [List.take_succ_cons, List.cons.injEq] at h4
    rw [h4.1]
  obtain ⟨u1, ha, hu1⟩ := Unpacked.advance_ok it.skip h1 (by omega)
  rw [hd] at hu1
  obtain ⟨u2, hb, hu2⟩ := Unpacked.next_cons hu1
  have hs : skipNext it.un it.skip = (some x, u2) := by
    unfold skipNext
    split
    · next h0 =>
      rw [h0] at ha; simp [Unpacked.advance] at ha; rw [ha, hb]
    · rw [ha]; exact hb
  refine ⟨⟨u2, 0, it.take - 1⟩, by simp [next, h5, hs], L.drop (it.skip + 1), hu2, ?_, ?_, ?_⟩
  · simp; omega
  · simp; omega
  · rw [hd] at h4
    obtain ⟨t, ht⟩ : ∃ t, it.take = t + 1 := ⟨it.take - 1, by omega⟩
    rw [ht] at h4 ⊢
    simp only [List.take_succ_cons, List.cons.injEq, true_and] at h4
    simpa using h4

theorem len_ok {it : BitIter} {l : List Bool} (h : it.Rep l) : it.len = .ok l.length := by
  obtain ⟨L, h1, h2, h3, h4⟩ := h
  have h5 := Unpacked.sizeHint_ok h1 h2
  have h6 : l.length = it.take := by rw [h4]; simp; omega
  rw [len, Unpacked.exactLen, sizeHint]
  by_cases h0 : it.take = 0
  · simp [h0, h6]
  · simp only [h0, if_false, h5, Option.map_some]
    have h7 : min (L.length - it.skip) it.take = it.take := by omega
    rw [h7, h6]
    by_cases h8 : L.length - it.skip < it.take
    · omega
    · simp [h8]

end BitIter

end Narrow
