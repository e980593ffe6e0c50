import Verif.Props.Arrays
import Verif.Spec.Bits

/-!
# Properties of bitmaps (C01 to C04 and C06)

`Bitmap` is the boolean array: `arrayR false .bool`.
-/

namespace Narrow.Props

open Spec

theorem bitAt_eq (l : List Byte) (i : Nat) : bitAt l i = bit l i := by
  unfold bitAt bit
  rw [List.getD_eq_getElem?_getD]
  cases l[i / 8]? <;> simp

theorem bitsOf_eq' (l : List Byte) : Narrow.bitsOf l = Spec.bitsOf l := by
  rw [Narrow.bitsOf_eq, Spec.bitsOf]
  exact List.map_congr_left fun i _ => bitAt_eq l i

/-- Reading a valid bitmap. -/
theorem bitmap_reads {b : Bitmap} (hb : b.Inv) :
    Reads bitmapR.toColl b ((List.range b.bits).map fun i => bit b.buffer.items (b.offset + i)) ∧
    ∀ i, b.view i = .ok (if i < b.bits then some (bit b.buffer.items (b.offset + i)) else none) := by
  have h1 := reads_abs bitmapL.toLawfulColl (c := b) hb
  have h2 : b.abs = (List.range b.bits).map fun i => bit b.buffer.items (b.offset + i) :=
    List.map_congr_left fun i _ => bitAt_eq _ _
  refine ⟨h2 ▸ h1, fun i => ?_⟩
  by_cases hi : i < b.bits
  · rw [Bitmap.view_some hb hi]; simp [hi, bitAt_eq]
  · rw [Bitmap.view_none (by omega)]; simp [hi]

/-- C01. Collecting booleans from a fused source and reading the bitmap: length,
every index (also past the end), and both iterators. -/
theorem C01_collect (s : Src Bool) (hs : s.Fused) {b : Bitmap} (h : Bitmap.fromIter s = .ok b) :
    b.len = s.items.length ∧ (∀ i, b.view i = .ok s.items[i]?) ∧ Reads bitmapR.toColl b s.items := by
  obtain ⟨h1, h2, -⟩ := Bitmap.fromIter_ok hs h
  have hlen : b.bits = s.items.length := by rw [← h2]; simp
  refine ⟨hlen, fun i => ?_, h2 ▸ reads_abs bitmapL.toLawfulColl (c := b) h1⟩
  by_cases hi : i < b.bits
  · rw [Bitmap.view_some h1 hi, ← h2]
    simp [hi, Bitmap.abs]
  · rw [Bitmap.view_none (by omega)]; simp; omega

/-- C01. Collecting returns, for every list of at most `2^63` booleans. -/
theorem C01_collect_returns (l : List Bool) (hl : l.length ≤ 2 ^ 63) :
    ∃ b, Bitmap.fromIter (Src.ofList l) = .ok b ∧ Reads bitmapR.toColl b l := by
  obtain ⟨b, hb⟩ := Bitmap.fromIter_live (s := Src.ofList l) (ofList_fused l) (by simp)
    (by simpa [byteMax] using hl)
  exact ⟨b, hb, by simpa using (C01_collect _ (ofList_fused l) hb).2.2⟩

example : ∃ b, Bitmap.fromIter (Src.ofList [true, false, false, true, true, false, true, false, true, true]) = .ok b ∧
    b.view 9 = .ok (some true) ∧ b.view 10 = .ok none := by
  obtain ⟨b, hb, -⟩ := C01_collect_returns [true, false, false, true, true, false, true, false, true, true]
    (by decide)
  obtain ⟨-, h, -⟩ := C01_collect _ (ofList_fused _) hb
  exact ⟨b, hb, h 9, h 10⟩

/-- C02. The buffer of a collected bitmap is Arrow's packing, at offset zero. -/
theorem C02_encoding (s : Src Bool) (hs : s.Fused) {b : Bitmap} (h : Bitmap.fromIter s = .ok b) :
    b.bitOffset = 0 ∧ Packs b.buffer.items s.items := by
  obtain ⟨p1, p2, p3, p4, p5⟩ := pack_spec s hs
  obtain ⟨h1, h2, h3, h4, h5⟩ := Bitmap.fromIter_ok hs h
  refine ⟨h4, h5, fun i hi => ?_⟩
  have hb : b.buffer.items = (pack s).1.items := by
    unfold Bitmap.fromIter at h
    split at h
    · next buf heq => simp only [Try.ok.injEq] at h; subst h; exact (RVec.fromIter_ok heq).1
    · simp at h
    · simp at h
  rw [hb] at hi ⊢
  rw [← bitAt_eq, p5 i hi, List.getD_eq_getElem?_getD]
  split
  · next h => rw [List.getElem?_eq_getElem h]; rfl
  · next h => rw [List.getElem?_eq_none (by omega)]; rfl

example : ∃ b, Bitmap.fromIter (Src.ofList [true, false, false, true, true, false, true, false, true, true]) = .ok b ∧
    b.buffer.items = [0b01011001#8, 0b11#8] := by
  obtain ⟨b, hb, -⟩ := C01_collect_returns [true, false, false, true, true, false, true, false, true, true]
    (by decide)
  obtain ⟨-, h1, h2⟩ := C02_encoding _ (ofList_fused _) hb
  refine ⟨b, hb, ?_⟩
  match hbuf : b.buffer.items, h1, h2 with
  | [x, y], _, h2 =>
    have key : ∀ i, i < 16 → bit [x, y] i = bit [0b01011001#8, 0b11#8] i := by
      intro i hi
      rw [h2 i (by simpa using hi)]
      revert i; decide
    have hx : x = 0b01011001#8 := by
      apply BitVec.eq_of_getLsbD_eq
      intro i hi
      have := key i (by omega)
      simpa [bit, Nat.div_eq_of_lt hi, Nat.mod_eq_of_lt hi] using this
    have hy : y = 0b11#8 := by
      apply BitVec.eq_of_getLsbD_eq
      intro i hi
      have := key (8 + i) (by omega)
      have e1 : (8 + i) / 8 = 1 := by omega
      have e2 : (8 + i) % 8 = i := by omega
      simpa [bit, e1, e2] using this
    rw [hx, hy]
  | [], h1, _ => simp at h1
  | [_], h1, _ => simp at h1
  | _ :: _ :: _ :: _, h1, _ => simp at h1

/-- C03. `try_from_parts` succeeds exactly when the addressed bits are inside the
buffer, as unbounded integers. -/
theorem C03_accepts (buffer : RVec Byte) (bits offset : Nat) (hw : buffer.WF byteMax) :
    (∃ b, Bitmap.tryFromParts buffer bits offset = .ok b) ↔ offset + bits ≤ 8 * buffer.items.length := by
  constructor
  · rintro ⟨b, h⟩
    obtain ⟨h1, rfl⟩ := Bitmap.tryFromParts_inv hw h
    exact h1.le
  · intro h; exact ⟨_, Bitmap.tryFromParts_ok hw h⟩

/-- C03. What an accepted bitmap shows. -/
theorem C03_reads {buffer : RVec Byte} {bits offset : Nat} {b : Bitmap} (hw : buffer.WF byteMax)
    (h : Bitmap.tryFromParts buffer bits offset = .ok b) :
    b.len = bits ∧ b.bitOffset = offset ∧ b.intoParts = (buffer, bits, offset) ∧
    (∀ i, b.view i = .ok (if i < bits then some (bit buffer.items (offset + i)) else none)) ∧
    Reads bitmapR.toColl b ((List.range bits).map fun i => bit buffer.items (offset + i)) := by
  obtain ⟨h1, rfl⟩ := Bitmap.tryFromParts_inv hw h
  exact ⟨rfl, rfl, rfl, (bitmap_reads h1).2, (bitmap_reads h1).1⟩

/-- C03. The error of rejected parts. -/
theorem C03_rejects {buffer : RVec Byte} {bits offset : Nat} (hw : buffer.WF byteMax)
    (h : 8 * buffer.items.length < offset + bits) :
    Bitmap.tryFromParts buffer bits offset = .error ⟨offset, bits, buffer.items.length⟩ :=
  Bitmap.tryFromParts_err hw h

example : (∃ b, Bitmap.tryFromParts ⟨[0xA5#8, 0x0F#8], 2⟩ 11 5 = .ok b ∧ b.view 7 = .ok (some false) ∧
      b.view 0 = .ok (some true)) ∧
    Bitmap.tryFromParts ⟨[0xA5#8, 0x0F#8], 2⟩ 12 5 = .error ⟨5, 12, 2⟩ ∧
    Bitmap.tryFromParts ⟨[0xA5#8], 1⟩ 2 usizeMax = .error ⟨usizeMax, 2, 1⟩ :=
  ⟨⟨_, Bitmap.tryFromParts_ok ⟨by decide, by decide⟩ (by decide), rfl, rfl⟩,
    C03_rejects ⟨by decide, by decide⟩ (by decide), C03_rejects ⟨by decide, by decide⟩ (by decide)⟩

/-- C04. Extending any valid bitmap, from any parts: whatever the bits outside of
the logical range are, the existing bits stay and the source's bits follow; the
offset stays. -/
theorem C04_extend {buffer : RVec Byte} {bits offset : Nat} {b b' : Bitmap} {s : Src Bool}
    (hw : buffer.WF byteMax) (hp : Bitmap.tryFromParts buffer bits offset = .ok b)
    (h : b.extend s = (b', .ok)) :
    Reads bitmapR.toColl b' (((List.range bits).map fun i => bit buffer.items (offset + i)) ++ s.items) ∧
    b'.bitOffset = offset := by
  obtain ⟨h1, rfl⟩ := Bitmap.tryFromParts_inv hw hp
  obtain ⟨e1, e2, -, e3, -⟩ := Bitmap.extend_spec (s := s) h1
  rw [h] at e1 e2 e3
  obtain ⟨e4, -⟩ := e3 rfl
  refine ⟨?_, e2⟩
  have := reads_abs bitmapL.toLawfulColl (c := b') e1
  have e5 : bitmapL.abs b' = _ := e4
  rw [e5] at this
  have h2 : (Bitmap.mk buffer bits offset).abs = (List.range bits).map fun i => bit buffer.items (offset + i) :=
    List.map_congr_left fun i _ => bitAt_eq _ _
  rw [h2] at this
  exact this

/-- C04 for `try_extend`, under any allocator. -/
theorem C04_try_extend {buffer : RVec Byte} {bits offset : Nat} {b b' : Bitmap} {s : Src Bool}
    {w w' : World} {o : Out} (hw : buffer.WF byteMax)
    (hp : Bitmap.tryFromParts buffer bits offset = .ok b) (h : b.tryExtend w s = (b', o, w'))
    (ho : o ≠ .panic) :
    Reads bitmapR.toColl b' (((List.range bits).map fun i => bit buffer.items (offset + i)) ++
      if o = .ok then s.items else []) := by
  obtain ⟨h1, rfl⟩ := Bitmap.tryFromParts_inv hw hp
  have h2 : (Bitmap.mk buffer bits offset).abs = (List.range bits).map fun i => bit buffer.items (offset + i) :=
    List.map_congr_left fun i _ => bitAt_eq _ _
  cases o with
  | ok =>
    obtain ⟨e1, e2, -⟩ := bitmapL.tryExt_ok (w := w) (s := s) h1 h
    have e3 : bitmapL.abs b' = (Bitmap.mk buffer bits offset).abs ++ s.items := e2
    rw [h2] at e3
    rw [if_pos rfl, ← e3]
    exact reads_abs _ e1
  | err =>
    obtain ⟨e1, e2⟩ := bitmapL.tryExt_err (w := w) (s := s) h1 h
    have e3 : bitmapL.abs b' = (Bitmap.mk buffer bits offset).abs := e2
    rw [h2] at e3
    rw [if_neg (by simp), List.append_nil, ← e3]
    exact reads_abs _ e1
  | panic => exact absurd rfl ho

/-- C04. `extend` returns when the source does not panic and the bits fit. -/
theorem C04_extend_returns {buffer : RVec Byte} {bits offset : Nat} {b : Bitmap} {s : Src Bool}
    (hw : buffer.WF byteMax) (hp : Bitmap.tryFromParts buffer bits offset = .ok b)
    (hs : s.panics = false) (hf : offset + bits + s.items.length ≤ 2 ^ 63) :
    ∃ b', b.extend s = (b', .ok) := by
  obtain ⟨h1, rfl⟩ := Bitmap.tryFromParts_inv hw hp
  obtain ⟨-, -, -, -, -, e, -⟩ := Bitmap.extend_spec (s := s) h1
  have := e (by simpa [byteMax] using hf)
  rw [hs] at this
  exact ⟨_, Prod.ext rfl this⟩

/-- A bitmap with an offset, stale padding bits and a stale byte. -/
example : ∃ b b', Bitmap.tryFromParts ⟨[0xFD#8, 0xFF#8], 9⟩ 3 1 = .ok b ∧
    b.extend (Src.ofList [false, false, true, false, false, true]) = (b', .ok) ∧
    Reads bitmapR.toColl b' [false, true, true, false, false, true, false, false, true] := by
  have hw : RVec.WF byteMax (⟨[0xFD#8, 0xFF#8], 9⟩ : RVec Byte) := ⟨by decide, by decide⟩
  have hp := Bitmap.tryFromParts_ok (bits := 3) (offset := 1) hw (by decide)
  obtain ⟨b', h⟩ := C04_extend_returns (s := Src.ofList [false, false, true, false, false, true]) hw hp
    (by simp) (by decide)
  exact ⟨_, b', hp, h, (C04_extend hw hp h).1⟩

/-! ## C06: the packing and unpacking adapters -/

/-- The length reported by `bit_packed()` over an iterator of `n` booleans. -/
def packedLen (s : Src Bool) : Res Nat := Unpacked.exactLen (packHint (s.length, some s.length))

theorem packNext_ofList (x : Bool) (l : List Bool) :
    ∃ byte, packNext (Src.ofList (x :: l)) = .ok (some byte, Src.ofList (l.drop 7)) ∧
      ∀ i, i < 8 → byte.getLsbD i = (x :: l).getD i false := by
  have hb : ∀ i, 1 ≤ i → (boolByte x).getLsbD i = false := by
    intro i hi; rw [getLsbD_boolByte]; simp; omega
  obtain ⟨-, h2⟩ := packRest_spec 7 1 (boolByte x) (Src.ofList l) 0 (ofList_fused l) (by omega) hb
  obtain ⟨byte, s', h3, h4, h5, h6, h7⟩ := h2 (by simp)
  have hs : s' = Src.ofList (l.drop 7) := by
    have := h4.eq
    rw [h5, h6] at this
    simpa using this
  refine ⟨byte, ?_, ?_⟩
  · simp only [Src.ofList, List.map_cons, packNext] at *
    rw [h3, hs]
  · intro i hi
    rw [h7 i, getLsbD_boolByte]
    by_cases h0 : i = 0
    · subst h0; simp
    · obtain ⟨j, rfl⟩ : ∃ j, i = j + 1 := ⟨i - 1, by omega⟩
      simp [hi]

theorem packs_unique {bytes bytes' : List Byte} {l : List Bool} (h : Packs bytes l)
    (h' : Packs bytes' l) : bytes = bytes' := by
  apply List.ext_getElem (h.1.trans h'.1.symm)
  intro i hi hi'
  apply BitVec.eq_of_getLsbD_eq
  intro k hk
  have e1 : (8 * i + k) / 8 = i := by omega
  have e2 : (8 * i + k) % 8 = k := by omega
  have a := h.2 (8 * i + k) (by omega)
  have b := h'.2 (8 * i + k) (by omega)
  rw [← b] at a
  simpa [bit, e1, e2, hi, hi'] using a

theorem packs_cons {byte : Byte} {bytes : List Byte} {x : Bool} {l : List Bool}
    (hb : ∀ i, i < 8 → byte.getLsbD i = (x :: l).getD i false) (h : Packs bytes (l.drop 7)) :
    Packs (byte :: bytes) (x :: l) := by
  obtain ⟨h1, h2⟩ := h
  refine ⟨by simp only [List.length_cons, List.length_drop] at *; omega, fun i hi => ?_⟩
  by_cases h8 : i < 8
  · simp only [bit, Nat.div_eq_of_lt h8, Nat.mod_eq_of_lt h8, List.getElem?_cons_zero]
    rw [hb i h8, List.getD_eq_getElem?_getD]
    split
    · next h => rw [List.getElem?_eq_getElem h]; rfl
    · next h => rw [List.getElem?_eq_none (by omega)]; rfl
  · obtain ⟨j, rfl⟩ : ∃ j, i = j + 8 := ⟨i - 8, by omega⟩
    have := h2 j (by simp at hi; omega)
    have e1 : (j + 8) / 8 = j / 8 + 1 := by omega
    have e2 : (j + 8) % 8 = j % 8 := by omega
    simp only [bit, e1, e2, List.getElem?_cons_succ] at *
    rw [this]
    simp only [List.length_drop, List.length_cons, List.getElem_drop]
    by_cases hj : j + 8 < l.length + 1
    · rw [dif_pos hj, dif_pos (by omega)]
      simp [Nat.add_comm]
    · rw [dif_neg hj, dif_neg (by omega)]

theorem packs_exists (n : Nat) : ∀ l : List Bool, l.length ≤ n → ∃ bytes, Packs bytes l := by
  induction n with
  | zero =>
    intro l hl
    have : l = [] := List.length_eq_zero_iff.mp (by omega)
    subst this
    exact ⟨[], rfl, by simp⟩
  | succ n ih =>
    intro l hl
    cases l with
    | nil => exact ⟨[], rfl, by simp⟩
    | cons x l =>
      obtain ⟨byte, -, hb⟩ := packNext_ofList x l
      obtain ⟨bytes, h⟩ := ih (l.drop 7) (by simp at hl ⊢; omega)
      exact ⟨byte :: bytes, packs_cons hb h⟩

/-- C06. `bit_packed()` over any list of booleans yields its packing, and reports
at every point of the iteration the number of bytes still to come. -/
theorem C06_pack (l : List Bool) : ∃ bytes, Packs bytes l ∧
    Iterates packNext packedLen Res.ok (Src.ofList l) bytes := by
  obtain ⟨bytes, hp⟩ := packs_exists _ l (Nat.le_refl _)
  refine ⟨bytes, hp, fun n => iterates_of (Rep := fun s bytes => ∃ l, s = Src.ofList l ∧ Packs bytes l)
    ?_ ?_ ?_ n ⟨l, rfl, hp⟩⟩
  · rintro it ⟨l, rfl, h1, -⟩
    have : l = [] := List.length_eq_zero_iff.mp (by simp at h1; omega)
    subst this
    exact ⟨[], rfl, [], rfl, rfl, by simp⟩
  · rintro it o bs ⟨l, rfl, hp⟩
    cases l with
    | nil => have := hp.1; simp at this
    | cons x l =>
      obtain ⟨byte, h1, h2⟩ := packNext_ofList x l
      obtain ⟨bytes', h3⟩ := packs_exists _ (l.drop 7) (Nat.le_refl _)
      have h4 := packs_unique hp (packs_cons h2 h3)
      simp only [List.cons.injEq] at h4
      exact ⟨byte, _, h1, by rw [h4.1], _, rfl, h4.2 ▸ h3⟩
  · rintro it bs ⟨l, rfl, h1, -⟩
    have h2 : List.length (Src.ofList l) = l.length := List.length_map _
    simp [packedLen, packHint, Unpacked.exactLen, bytesForBits, h1, h2]

/-- C06. `bit_unpacked()` over any bytes yields their bits, least significant
first, and reports at every point the number of bits still to come. -/
theorem C06_unpack (bytes : List Byte) (h : bytes.length ≤ byteMax) :
    Iterates (fun u => .ok (Unpacked.next u)) (fun u => Unpacked.exactLen u.sizeHint) Res.ok
      (Unpacked.new bytes) (Spec.bitsOf bytes) := by
  intro n
  refine iterates_of (Rep := fun u l => u.Rep l ∧ l.length ≤ usizeMax) ?_ ?_ ?_ n
    ⟨bitsOf_eq' bytes ▸ Unpacked.rep_new bytes, ?_⟩
  · rintro u ⟨h1, h2⟩
    obtain ⟨u', h3, h4⟩ := Unpacked.next_nil h1
    exact ⟨u', by rw [h3], h4, h2⟩
  · rintro u x l ⟨h1, h2⟩
    obtain ⟨u', h3, h4⟩ := Unpacked.next_cons h1
    exact ⟨x, u', by rw [h3], rfl, h4, by simp at h2; omega⟩
  · rintro u l ⟨h1, h2⟩
    rw [Unpacked.sizeHint_ok h1 h2]
    simp [Unpacked.exactLen]
  · simp only [Spec.bitsOf, List.length_map, List.length_range]
    unfold byteMax at h
    unfold usizeMax
    omega

/-- C06. Unpacking what was packed gives the booleans and fewer than eight
padding bits, all unset. -/
theorem C06_unpack_pack {l : List Bool} {bytes : List Byte} (h : Packs bytes l) :
    ∃ k, k < 8 ∧ Spec.bitsOf bytes = l ++ List.replicate k false := by
  obtain ⟨h1, h2⟩ := h
  refine ⟨8 * bytes.length - l.length, by omega, ?_⟩
  apply List.ext_getElem
  · simp [Spec.bitsOf]; omega
  · intro i hi _
    simp only [Spec.bitsOf, List.length_map, List.length_range] at hi
    simp only [Spec.bitsOf, List.getElem_map, List.getElem_range, h2 i hi]
    rw [List.getElem_append]
    split <;> simp

/-- C06. Packing what was unpacked gives the bytes back. -/
theorem C06_pack_unpack {bytes packed : List Byte} (h : Packs packed (Spec.bitsOf bytes)) :
    packed = bytes := by
  refine packs_unique h ⟨by simp [Spec.bitsOf]; omega, fun i hi => ?_⟩
  simp [Spec.bitsOf, hi]

example : ∃ bytes, Packs bytes [true, true, false, true, false, false, false, false, true] ∧
    bytes.length = 2 ∧ Spec.bitsOf bytes =
      [true, true, false, true, false, false, false, false, true] ++ List.replicate 7 false := by
  obtain ⟨bytes, h, -⟩ := C06_pack [true, true, false, true, false, false, false, false, true]
  obtain ⟨k, hk, hb⟩ := C06_unpack_pack h
  have hl : bytes.length = 2 := h.1
  have := congrArg List.length hb
  simp [Spec.bitsOf, hl] at this
  obtain rfl : k = 7 := by omega
  exact ⟨bytes, h, hl, hb⟩

example : Spec.bitsOf [0b10010110#8] = [false, true, true, false, true, false, false, true] := by decide

end Narrow.Props
