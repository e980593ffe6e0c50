import Verif.Proof.Backend

/-! # Bitmaps over any storage are lawful -/

namespace Narrow

/-- `BitPacked` never yields again after `None`. -/
theorem pack_fused (s : Src Bool) : (pack s).1.Fused := by
  match s with
  | [] => simp [pack, Src.fused_nil]
  | .none :: s => simp [pack, Src.fused_nil]
  | .panic :: s => simp [pack, Src.fused_panic]
  | .item x :: s =>
    rw [pack]
    split
    · exact Src.fused_panic
    · next byte s' n heq =>
      have h2 := packRest_length heq
      exact (pack_fused s').item
termination_by s.length
decreasing_by simp only [List.length_cons]; omega

/-- The owned byte iterator of a lawful storage. -/
def tracksOf {K : Coll Byte} (L : LawfulColl K) : Tracks K.own where
  Rel a b := L.JRep a b
  next a b h := by
    cases b with
    | nil =>
      obtain ⟨it', h1, h2⟩ := L.jnext_nil h
      show ResRel _ (K.jnext a) _
      rw [h1]
      exact ⟨rfl, h2⟩
    | cons x b =>
      obtain ⟨it', h1, h2⟩ := L.jnext_cons h
      show ResRel _ (K.jnext a) _
      rw [h1]
      exact ⟨rfl, h2⟩
  len a b h := L.jlen_ok h

namespace BitmapOf

section Reading

variable {B : Buf Byte} (L : LawfulBuf B)

/-- The bit range lies inside the buffer. -/
structure Within (b : BitmapOf B.C) : Prop where
  buf : L.Inv b.buffer
  le : b.offset + b.bits ≤ 8 * (L.abs b.buffer).length

variable {L}

theorem Within.seen {b : BitmapOf B.C} (h : b.Within L) : (b.seen B).Inv := by
  have e : (b.seen B).buffer.items = L.abs b.buffer := L.borrow_ok h.buf
  refine ⟨⟨Nat.le_refl _, ?_⟩, ?_⟩
  · show (B.borrow b.buffer).length ≤ byteMax
    rw [L.borrow_ok h.buf]
    exact L.small h.buf
  · rw [e]; exact h.le

end Reading

variable {B : Backing Byte} (L : LawfulB B)

/-- The bit range lies inside the buffer. -/
abbrev Inv (b : BitmapOf B.C) : Prop := b.Within L.buf

/-- The bits. -/
abbrev bitsAre (b : BitmapOf B.C) : List Bool := (b.seen B.toBuf).abs

variable {L}

theorem seen_items {b : BitmapOf B.C} (h : L.Inv b.buffer) :
    (b.seen B.toBuf).buffer.items = L.abs b.buffer := L.borrow_ok h

theorem Inv.seen {b : BitmapOf B.C} (h : b.Inv L) : (b.seen B.toBuf).Inv := Within.seen h

/-- The bits of a bitmap in terms of its bytes. -/
theorem bits_eq {buf : B.C} {bits offset : Nat} (h : L.Inv buf) :
    bitsAre (B := B) ⟨buf, bits, offset⟩ =
      (List.range bits).map fun i => bitAt (L.abs buf) (offset + i) := by
  show (List.range bits).map (fun i => bitAt (B.borrow buf) (offset + i)) = _
  rw [L.borrow_ok h]

theorem abs_mk {m : Bitmap} {buf : B.C} {bits offset : Nat} (h : L.Inv buf)
    (h1 : L.abs buf = m.buffer.items) (h2 : bits = m.bits) (h3 : offset = m.offset) :
    bitsAre (B := B) ⟨buf, bits, offset⟩ = m.abs := by
  rw [bits_eq h, h1, h2, h3]; rfl

/-- Everything about `extend` that returns. -/
theorem extend_spec {b : BitmapOf B.C} {s : Src Bool} (hb : b.Inv L) :
    (extend B b s).2 ≠ .err ∧
    ((extend B b s).2 = .ok → (extend B b s).1.Inv L ∧
      bitsAre (extend B b s).1 = bitsAre b ++ s.items ∧ s.panics = false) := by
  have hI := hb.seen
  obtain ⟨k, k1, k2, k3, k4, k5, k6, k7, k8, k9, k10⟩ := Bitmap.phase1_spec hI (Src.fused_fuse s)
  simp only [Src.items_fuse, Src.panics_fuse] at *
  have hlen : (b.seen B.toBuf).buffer.items.length = (L.abs b.buffer).length := by
    rw [seen_items hb.buf]
  unfold extend
  generalize hP : Bitmap.phase1 (b.seen B.toBuf) s.fuse = P at *
  obtain ⟨b1, s1, p⟩ := P
  simp only at *
  cases p with
  | true => exact ⟨by simp, by simp⟩
  | false =>
    obtain ⟨f1, f2, f3, f4⟩ := k10 rfl
    have hle1 := k2.le
    have halign : (s1.items ≠ [] ∨ s1.panics = true) → (b1.offset + b1.bits) % 8 = 0 := by
      intro h; rw [k3, k4]; apply f4
      rcases h with h | h
      · left; rw [f2] at h; simpa using h
      · right; rwa [f3] at h
    obtain ⟨g1, g2⟩ := Bitmap.phase2_spec k2 f1 halign
    simp only
    by_cases hdone : s1.items = [] ∧ s1.panics = false
    · rw [g1 hdone]
      simp only
      have : k = s.items.length := by
        have := hdone.1; rw [f2] at this; simp at this; omega
      subst this
      rw [f3] at hdone
      obtain ⟨w1, w2⟩ := L.write_ok hb.buf (show b1.buffer.items.length = _ by omega)
      refine ⟨by simp, fun _ => ⟨⟨w1, by simp only [w2]; exact hle1⟩, ?_, hdone.2⟩⟩
      rw [abs_mk w1 w2 rfl rfl, k5]; simp
    · have hmore : s1.items ≠ [] ∨ s1.panics = true := by
        by_cases h : s1.items = []
        · right; simpa [h] using hdone
        · left; exact h
      obtain ⟨buf, packed, n, p, e1, e2, e3, e4, e5⟩ := g2 hmore
      rw [e1]
      cases p with
      | true => exact ⟨by simp, by simp⟩
      | false =>
        obtain ⟨q1, q2, q3, q4⟩ := e5 rfl
        obtain ⟨w1, w2⟩ := L.write_ok hb.buf (show buf.length = _ by omega)
        simp only
        have hne := L.ext_ne packed w1
        generalize hR : B.extend (B.write b.buffer buf) packed = R at *
        obtain ⟨buf', o⟩ := R
        cases o with
        | err => exact absurd rfl hne
        | panic => exact ⟨by simp, by simp⟩
        | ok =>
          obtain ⟨t1, t2, t3⟩ := L.ext_ok w1 hR
          have hp : s1.panics = false := by rw [← q2]; exact t3
          obtain ⟨u1, u2, u3⟩ := q4 hp
          rw [w2] at t2
          rw [f3] at hp
          have hbm := L.small t1
          have hsum : b1.bits + n ≤ usizeMax := by
            rw [t2] at hbm
            unfold byteMax at hbm; unfold usizeMax; omega
          simp only [Bitmap.strictAdd_ok hsum]
          refine ⟨by simp, fun _ => ⟨⟨t1, by simp only [t2]; omega⟩, ?_, hp⟩⟩
          rw [abs_mk (m := ⟨⟨buf ++ packed.items, 0⟩, b1.bits + n, b1.offset⟩) t1 t2 rfl rfl,
            Bitmap.abs_append (b := b1) (b' := ⟨⟨buf ++ packed.items, 0⟩, b1.bits + n, b1.offset⟩)
              (l := s1.items) rfl (by simp [u1]) ?_ u3, k5, f2]
          · simp
          · intro j hj
            simp only
            rw [Bitmap.bitAt_append_low (n := b1.offset + b1.bits) (by simp only [e2]; omega) j hj,
              e3 j hj]

/-- Everything about `try_extend`. -/
theorem tryExtend_spec {w w' : World} {b b' : BitmapOf B.C} {s : Src Bool} {o : Out} (hb : b.Inv L)
    (h : tryExtend B w b s = (b', o, w')) :
    (o = .ok → b'.Inv L ∧ bitsAre b' = bitsAre b ++ s.items ∧ s.panics = false) ∧
    (o = .err → b'.Inv L ∧ bitsAre b' = bitsAre b) ∧
    (o = .panic → s.panics = true) := by
  have hI := hb.seen
  obtain ⟨k, k1, k2, k3, k4, k5, k6, k7, k8, k9, k10⟩ := Bitmap.phase1_spec hI (Src.fused_fuse s)
  simp only [Src.items_fuse, Src.panics_fuse] at *
  have hlen : (b.seen B.toBuf).buffer.items.length = (L.abs b.buffer).length := by
    rw [seen_items hb.buf]
  unfold tryExtend at h
  generalize hP : Bitmap.phase1 (b.seen B.toBuf) s.fuse = P at *
  obtain ⟨b1, s1, p⟩ := P
  simp only at *
  cases p with
  | true =>
    obtain ⟨hp, hk⟩ := k9 rfl
    simp only [Prod.mk.injEq] at h
    obtain ⟨rfl, rfl, rfl⟩ := h
    exact ⟨by simp, by simp, fun _ => hp⟩
  | false =>
    obtain ⟨f1, f2, f3, f4⟩ := k10 rfl
    have hle1 := k2.le
    have halign : (s1.items ≠ [] ∨ s1.panics = true) → (b1.offset + b1.bits) % 8 = 0 := by
      intro h; rw [k3, k4]; apply f4
      rcases h with h | h
      · left; rw [f2] at h; simpa using h
      · right; rwa [f3] at h
    obtain ⟨g1, g2⟩ := Bitmap.phase2_spec k2 f1 halign
    simp only at h
    by_cases hdone : s1.items = [] ∧ s1.panics = false
    · rw [g1 hdone] at h
      simp only [Prod.mk.injEq] at h
      obtain ⟨rfl, rfl, rfl⟩ := h
      have : k = s.items.length := by
        have := hdone.1; rw [f2] at this; simp at this; omega
      subst this
      rw [f3] at hdone
      obtain ⟨w1, w2⟩ := L.write_ok hb.buf (show b1.buffer.items.length = _ by omega)
      refine ⟨fun _ => ⟨⟨w1, by simp only [w2]; exact hle1⟩, ?_, hdone.2⟩, by simp, by simp⟩
      rw [abs_mk w1 w2 rfl rfl, k5]; simp
    · have hmore : s1.items ≠ [] ∨ s1.panics = true := by
        by_cases h : s1.items = []
        · right; simpa [h] using hdone
        · left; exact h
      obtain ⟨buf, packed, n, p, e1, e2, e3, e4, e5⟩ := g2 hmore
      rw [e1] at h
      cases p with
      | true =>
        have hp := e4 rfl
        rw [f3] at hp
        simp only [Prod.mk.injEq] at h
        obtain ⟨rfl, rfl, rfl⟩ := h
        exact ⟨by simp, by simp, fun _ => hp⟩
      | false =>
        obtain ⟨q1, q2, q3, q4⟩ := e5 rfl
        obtain ⟨w1, w2⟩ := L.write_ok hb.buf (show buf.length = _ by omega)
        simp only at h
        generalize hR : B.tryExtend w (B.write b.buffer buf) packed = R at *
        obtain ⟨buf', o', w3⟩ := R
        cases o' with
        | err =>
          simp only [Prod.mk.injEq] at h
          obtain ⟨rfl, rfl, rfl⟩ := h
          obtain ⟨t1, t2⟩ := L.tryExt_err w1 hR
          rw [w2] at t2
          have hoff : b1.offset = b.offset := k3
          have hbl : b.offset + b.bits ≤ 8 * (L.abs b.buffer).length := hb.le
          refine ⟨by simp, fun _ => ⟨⟨t1, by simp only [t2]; omega⟩, ?_⟩, by simp⟩
          rw [abs_mk (m := ⟨⟨buf, 0⟩, b.bits, b1.offset⟩) t1 t2 rfl rfl]
          apply Bitmap.abs_of_low (b := b.seen B.toBuf) (b' := ⟨⟨buf, 0⟩, b.bits, b1.offset⟩) k3 rfl
          intro j hj
          simp only
          rw [e3 j (by omega), k8 j hj]
        | panic =>
          simp only [Prod.mk.injEq] at h
          obtain ⟨rfl, rfl, rfl⟩ := h
          refine ⟨by simp, by simp, fun _ => ?_⟩
          rw [← f3, ← q2]
          cases hpp : packed.panics with
          | true => rfl
          | false =>
            have := L.tryExt_np (w := w) w1 hpp
            rw [hR] at this
            exact absurd rfl this
        | ok =>
          obtain ⟨t1, t2, t3⟩ := L.tryExt_ok w1 hR
          have hp : s1.panics = false := by rw [← q2]; exact t3
          obtain ⟨u1, u2, u3⟩ := q4 hp
          rw [w2] at t2
          rw [f3] at hp
          have hbm := L.small t1
          have hsum : b1.bits + n ≤ usizeMax := by
            rw [t2] at hbm
            unfold byteMax at hbm; unfold usizeMax; omega
          simp only [Bitmap.strictAdd_ok hsum, Prod.mk.injEq] at h
          obtain ⟨rfl, rfl, rfl⟩ := h
          refine ⟨fun _ => ⟨⟨t1, by simp only [t2]; omega⟩, ?_, hp⟩, by simp, by simp⟩
          rw [abs_mk (m := ⟨⟨buf ++ packed.items, 0⟩, b1.bits + n, b1.offset⟩) t1 t2 rfl rfl,
            Bitmap.abs_append (b := b1) (b' := ⟨⟨buf ++ packed.items, 0⟩, b1.bits + n, b1.offset⟩)
              (l := s1.items) rfl (by simp [u1]) ?_ u3, k5, f2]
          · simp
          · intro j hj
            simp only
            rw [Bitmap.bitAt_append_low (n := b1.offset + b1.bits) (by simp only [e2]; omega) j hj,
              e3 j hj]

theorem around_ok {bits : Nat} {t : Try B.C} {b : BitmapOf B.C} (h : around bits t = .ok b) :
    ∃ buf, t = .ok buf ∧ b = ⟨buf, bits, 0⟩ := by
  cases t with
  | ok buf => cases h; exact ⟨buf, rfl, rfl⟩
  | err => cases h
  | panic => cases h

theorem around_ne_err {C : Type} {bits : Nat} {t : Try C} (h : t ≠ .err) : around bits t ≠ .err := by
  cases t <;> simp_all [around]

theorem around_ne_panic {C : Type} {bits : Nat} {t : Try C} (h : t ≠ .panic) :
    around bits t ≠ .panic := by
  cases t <;> simp_all [around]

/-- A buffer of packed bits. -/
theorem packed_inv {s : Src Bool} {buf : B.C} (h1 : L.Inv buf) (h2 : L.abs buf = (pack s).1.items)
    (h3 : (pack s).1.panics = false) :
    (⟨buf, (pack s).2, 0⟩ : BitmapOf B.C).Inv L ∧
      (bitsAre (B := B) ⟨buf, (pack s).2, 0⟩).length = (Bitmap.pulled s).length := by
  obtain ⟨q1, q2⟩ := Bitmap.pack_pull s h3
  exact ⟨⟨h1, by simp only [h2]; omega⟩, by rw [bits_eq h1]; simpa using q1⟩

theorem packed_ok {s : Src Bool} {buf : B.C} (hs : s.Fused) (h1 : L.Inv buf)
    (h2 : L.abs buf = (pack s).1.items) (h3 : (pack s).1.panics = false) :
    bitsAre (B := B) ⟨buf, (pack s).2, 0⟩ = s.items ∧ s.panics = false := by
  obtain ⟨p1, p2, p3, p4, p5⟩ := pack_spec s hs
  have hp : s.panics = false := by rw [← p2]; exact h3
  obtain ⟨q1, q2⟩ := p3 hp
  refine ⟨?_, hp⟩
  rw [bits_eq h1]
  apply List.ext_getElem
  · simp [q1]
  · intro i hi1 hi2
    simp only [List.getElem_map, List.getElem_range, Nat.zero_add, h2]
    rw [p5 i (by rw [q2]; unfold bytesForBits; omega), Bitmap.getD_lt hi2]

theorem fromIter_cases {w w' : World} {s : Src Bool} {b : BitmapOf B.C}
    (h : fromIter B w s = (.ok b, w')) :
    ∃ buf, b = ⟨buf, (pack s).2, 0⟩ ∧ L.Inv buf ∧ L.abs buf = (pack s).1.items ∧
      (pack s).1.panics = false := by
  simp only [fromIter, Prod.mk.injEq] at h
  obtain ⟨buf, h1, h2⟩ := around_ok h.1
  obtain ⟨h3, h4, h5, -⟩ := L.fromIter_ok (pack_fused s) (w := w) (w' := w') (Prod.ext h1 h.2)
  exact ⟨buf, h2, h3, h4, h5⟩

theorem fromIterIn_cases {w w' : World} {s : Src Bool} {b : BitmapOf B.C}
    (h : fromIterIn B w s = (.ok b, w')) :
    ∃ buf, b = ⟨buf, (pack s).2, 0⟩ ∧ L.Inv buf ∧ L.abs buf = (pack s).1.items ∧
      (pack s).1.panics = false := by
  simp only [fromIterIn, Prod.mk.injEq] at h
  obtain ⟨buf, h1, h2⟩ := around_ok h.1
  obtain ⟨h3, h4, h5, -⟩ := L.fromIterIn_ok (pack_fused s) (w := w) (w' := w') (Prod.ext h1 h.2)
  exact ⟨buf, h2, h3, h4, h5⟩

theorem tryFromIter_cases {w w' : World} {s : Src Bool} {b : BitmapOf B.C}
    (h : tryFromIter B w s = (.ok b, w')) :
    ∃ buf, b = ⟨buf, (pack s).2, 0⟩ ∧ L.Inv buf ∧ L.abs buf = (pack s).1.items ∧
      (pack s).1.panics = false := by
  simp only [tryFromIter, Prod.mk.injEq] at h
  obtain ⟨buf, h1, h2⟩ := around_ok h.1
  obtain ⟨h3, h4, h5, -⟩ := L.tryFromIter_ok (pack_fused s) (w := w) (w' := w') (Prod.ext h1 h.2)
  exact ⟨buf, h2, h3, h4, h5⟩

theorem zero_inv {buf : B.C} (h : L.Inv buf) :
    (⟨buf, 0, 0⟩ : BitmapOf B.C).Inv L ∧ bitsAre (B := B) ⟨buf, 0, 0⟩ = [] :=
  ⟨⟨h, by simp⟩, by rw [bits_eq h]; rfl⟩

theorem withCap_ok {n : Nat} {b : BitmapOf B.C} (h : withCap B n = .ok b) :
    b.Inv L ∧ bitsAre b = [] := by
  obtain ⟨buf, h1, rfl⟩ := around_ok h
  exact zero_inv (L.withCap_ok h1).1

theorem tryWithCap_ok {w w' : World} {n : Nat} {b : BitmapOf B.C}
    (h : tryWithCap B w n = (.ok b, w')) : b.Inv L ∧ bitsAre b = [] := by
  simp only [tryWithCap, Prod.mk.injEq] at h
  obtain ⟨buf, h1, rfl⟩ := around_ok h.1
  exact zero_inv (L.tryWithCap_ok (w := w) (w' := w') (Prod.ext h1 h.2)).1

theorem ones_ok {buf : B.C} {n : Nat} (h1 : L.Inv buf) (h2 : L.abs buf = Bitmap.allSetBytes n) :
    (⟨buf, n, 0⟩ : BitmapOf B.C).Inv L ∧ bitsAre (B := B) ⟨buf, n, 0⟩ = List.replicate n true := by
  refine ⟨⟨h1, ?_⟩, ?_⟩
  · simp only [h2, Bitmap.allSetBytes_length, bytesForBits]; omega
  · rw [bits_eq h1, h2]
    apply List.ext_getElem
    · simp
    · intro i hi1 hi2
      simp only [List.length_replicate] at hi2
      simp [Bitmap.allSetBytes_bit hi2]

theorem allSet_ok {w w' : World} {n : Nat} {b : BitmapOf B.C} (h : allSet B w n = (.ok b, w')) :
    b.Inv L ∧ bitsAre b = List.replicate n true := by
  simp only [allSet, Prod.mk.injEq] at h
  obtain ⟨buf, h1, rfl⟩ := around_ok h.1
  obtain ⟨h3, h4, h5, -⟩ := L.fromIterIn_ok (Src.fused_ofList _) (w := w) (w' := w') (Prod.ext h1 h.2)
  exact ones_ok h3 (by simpa using h4)

theorem tryAllSet_ok {w w' : World} {n : Nat} {b : BitmapOf B.C}
    (h : tryAllSet B w n = (.ok b, w')) : b.Inv L ∧ bitsAre b = List.replicate n true := by
  simp only [tryAllSet, Prod.mk.injEq] at h
  obtain ⟨buf, h1, rfl⟩ := around_ok h.1
  obtain ⟨h3, h4, h5, -⟩ := L.tryFromIter_ok (Src.fused_ofList _) (w := w) (w' := w') (Prod.ext h1 h.2)
  exact ones_ok h3 (by simpa using h4)

theorem tryAllSet_np (L : LawfulB B) (w : World) (n : Nat) : (tryAllSet B w n).1 ≠ .panic :=
  around_ne_panic (L.tryFromIter_np (Src.fused_ofList _) (by simp))

theorem same_bits {buf : B.C} {b : BitmapOf B.C} (hb : b.Inv L) (h1 : L.Inv buf)
    (h2 : L.abs buf = L.abs b.buffer) :
    ({ b with buffer := buf } : BitmapOf B.C).Inv L ∧
      bitsAre { b with buffer := buf } = bitsAre b := by
  refine ⟨⟨h1, by simp only [h2]; exact hb.le⟩, ?_⟩
  obtain ⟨bb, bits, off⟩ := b
  rw [bits_eq h1, h2, bits_eq hb.buf]

theorem reserve_ok {b b' : BitmapOf B.C} {n : Nat} {o : Out} (hb : b.Inv L)
    (h : reserve B b n = (b', o)) : b'.Inv L ∧ bitsAre b' = bitsAre b ∧ o ≠ .err := by
  obtain ⟨t, ht, -⟩ := Bitmap.trailingBits_ok hb.seen
  unfold reserve at h
  rw [ht] at h
  simp only at h
  split at h
  · simp only [Prod.mk.injEq] at h
    obtain ⟨rfl, rfl⟩ := h
    obtain ⟨h1, h2, h3, -⟩ := L.reserve_ok hb.buf (n := bytesForBits (n - t)) rfl
    obtain ⟨h4, h5⟩ := same_bits hb h1 h2
    exact ⟨h4, h5, h3⟩
  · simp only [Prod.mk.injEq] at h
    obtain ⟨rfl, rfl⟩ := h
    exact ⟨hb, rfl, by simp⟩

theorem tryReserve_ok {w w' : World} {b b' : BitmapOf B.C} {n : Nat} {o : Out} (hb : b.Inv L)
    (h : tryReserve B w b n = (b', o, w')) : b'.Inv L ∧ bitsAre b' = bitsAre b ∧ o ≠ .panic := by
  obtain ⟨t, ht, -⟩ := Bitmap.trailingBits_ok hb.seen
  unfold tryReserve at h
  rw [ht] at h
  simp only at h
  split at h
  · simp only [Prod.mk.injEq] at h
    obtain ⟨rfl, rfl, rfl⟩ := h
    obtain ⟨h1, h2, h3, -⟩ := L.tryReserve_ok hb.buf (w := w) (n := bytesForBits (n - t)) rfl
    obtain ⟨h4, h5⟩ := same_bits hb h1 h2
    exact ⟨h4, h5, h3⟩
  · simp only [Prod.mk.injEq] at h
    obtain ⟨rfl, rfl, rfl⟩ := h
    exact ⟨hb, rfl, by simp⟩

theorem truncate_ok {b : BitmapOf B.C} (n : Nat) (hb : b.Inv L) :
    (b.truncate n).Inv L ∧ bitsAre (b.truncate n) = (bitsAre b).take n := by
  refine ⟨?_, ?_⟩
  · unfold truncate
    split
    · have : b.offset + b.bits ≤ 8 * (L.abs b.buffer).length := hb.le
      exact ⟨hb.buf, show b.offset + n ≤ 8 * (L.abs b.buffer).length by omega⟩
    · exact hb
  · rw [← Bitmap.truncate_abs]
    unfold truncate Bitmap.truncate
    by_cases h : n < b.bits
    · have h' : n < (b.seen B.toBuf).bits := h
      rw [if_pos h, if_pos h']; rfl
    · have h' : ¬ n < (b.seen B.toBuf).bits := h
      rw [if_neg h, if_neg h']

theorem bits_length (b : BitmapOf B.C) : (bitsAre b).length = b.bits := Bitmap.abs_length _

end BitmapOf

open BitmapOf in
/-- Reading a bitmap. -/
def bitmapIL {B : Buf Byte} (L : LawfulBuf B) : LawfulColl (bitmapBC B) where
  Inv b := b.Within L
  abs b := (b.seen B).abs
  VRep v o := v = o
  IRep it l := it.Rep l
  JRep it l := ∃ m : BitIter, BitRel (tracksOf L.toLawfulColl) it m ∧ m.Rep l
  len_ok {c} h := by rw [Bitmap.abs_length]; rfl
  len_le {c} h := by rw [Bitmap.abs_length]; have := h.seen.small'; simp only [seen] at this ⊢; omega
  view_some {c i} h hi := by
    rw [Bitmap.abs_length] at hi
    refine ⟨_, Bitmap.view_some h.seen hi, ?_⟩
    rw [Bitmap.abs_getElem]
  owned_ok h := by rw [h]
  iter_ok h := ⟨_, rfl, Bitmap.iter_rep h.seen⟩
  inext_nil h := by
    obtain ⟨it', h1, h2⟩ := BitIter.next_nil h
    exact ⟨it', congrArg Res.ok h1, h2⟩
  inext_cons h := by
    obtain ⟨it', h1, h2⟩ := BitIter.next_cons h
    exact ⟨_, it', congrArg Res.ok h1, rfl, h2⟩
  ilen_ok h := BitIter.len_ok h
  into_ok {c} h := by
    obtain ⟨it, h1, h2⟩ := L.into_ok h.buf
    have h3 : (bitmapBC B).into c = .ok ⟨⟨it, none, 1#8⟩, c.offset, c.bits⟩ := by
      show (B.into c.buffer).map _ = _
      rw [h1]; rfl
    refine ⟨_, h3, (c.seen B).iter, ⟨⟨?_, rfl, rfl⟩, rfl, rfl⟩, Bitmap.iter_rep h.seen⟩
    show L.JRep it (B.borrow c.buffer)
    rw [L.borrow_ok h.buf]; exact h2
  jnext_nil h := by
    obtain ⟨m, h1, h2⟩ := h
    obtain ⟨m', h3, h4⟩ := BitIter.next_nil h2
    have h5 := bit_next _ _ _ h1
    rw [h3] at h5
    obtain ⟨⟨x, it'⟩, h6, h7, h8⟩ := h5.ok_inv
    simp only at h7 h8
    subst h7
    exact ⟨it', h6, m', h8, h4⟩
  jnext_cons h := by
    obtain ⟨m, h1, h2⟩ := h
    obtain ⟨m', h3, h4⟩ := BitIter.next_cons h2
    have h5 := bit_next _ _ _ h1
    rw [h3] at h5
    obtain ⟨⟨x, it'⟩, h6, h7, h8⟩ := h5.ok_inv
    simp only at h7 h8
    subst h7
    exact ⟨it', h6, m', h8, h4⟩
  jlen_ok h := by
    obtain ⟨m, h1, h2⟩ := h
    exact (bit_len _ _ _ h1).trans (BitIter.len_ok h2)

/-- Reading a bitmap that can grow. -/
@[reducible] def bitmapBL {B : Backing Byte} (L : LawfulB B) : LawfulColl (bitmapBC B.toBuf) :=
  bitmapIL L.buf

open BitmapOf in
theorem bitmapBG {B : Backing Byte} (L : LawfulB B) : Grows (bitmapBR B) (bitmapBL L) where
  empty_ok := zero_inv L.empty_ok.1
  pulled_fused := Bitmap.pulled_fused
  pulled_map f s := by simp [Bitmap.pulled_map]
  fromIter_any h := by
    obtain ⟨buf, rfl, h1, h2, h3⟩ := fromIter_cases (L := L) h
    exact packed_inv h1 h2 h3
  fromIterIn_any h := by
    obtain ⟨buf, rfl, h1, h2, h3⟩ := fromIterIn_cases (L := L) h
    exact packed_inv h1 h2 h3
  tryFromIter_any h := by
    obtain ⟨buf, rfl, h1, h2, h3⟩ := tryFromIter_cases (L := L) h
    exact (packed_inv h1 h2 h3).1
  withCap_ok h := withCap_ok h
  withCap_ne n := around_ne_err (L.withCap_ne _)
  fromIter_ok hs h := by
    obtain ⟨buf, rfl, h1, h2, h3⟩ := fromIter_cases (L := L) h
    exact ⟨(packed_inv h1 h2 h3).1, packed_ok hs h1 h2 h3⟩
  fromIter_ne w s := around_ne_err (L.fromIter_ne _ _)
  fromIterIn_ok hs h := by
    obtain ⟨buf, rfl, h1, h2, h3⟩ := fromIterIn_cases (L := L) h
    exact ⟨(packed_inv h1 h2 h3).1, packed_ok hs h1 h2 h3⟩
  fromIterIn_ne w s := around_ne_err (L.fromIterIn_ne _ _)
  tryWithCap_ok h := tryWithCap_ok h
  tryWithCap_np w n := around_ne_panic (L.tryWithCap_np _ _)
  tryFromIter_ok hs h := by
    obtain ⟨buf, rfl, h1, h2, h3⟩ := tryFromIter_cases (L := L) h
    exact ⟨(packed_inv h1 h2 h3).1, packed_ok hs h1 h2 h3⟩
  tryFromIter_np {w s} hs hp := by
    obtain ⟨p1, p2, -⟩ := pack_spec s hs
    exact around_ne_panic (L.tryFromIter_np p1 (by rw [p2]; exact hp))
  ext_ok {c c' s} hc h := by
    have h1 := (extend_spec (s := s) hc).2
    rw [show BitmapOf.extend B c s = (c', .ok) from h] at h1
    exact h1 rfl
  ext_ne s hc := (extend_spec (s := s) hc).1
  ext_fuse c s := by show BitmapOf.extend B c s = BitmapOf.extend B c s.fuse; unfold BitmapOf.extend; rw [Src.fused_fuse s]
  reserve_ok hc h := reserve_ok hc h
  tryReserve_ok hc h := tryReserve_ok hc h
  tryExt_ok hc h := (tryExtend_spec hc h).1 rfl
  tryExt_err hc h := (tryExtend_spec hc h).2.1 rfl
  tryExt_np {w c s} hc hp := by
    intro h
    have h1 := (tryExtend_spec (w := w) (s := s) (o := .panic) hc (Prod.ext rfl (Prod.ext h rfl))).2.2 rfl
    rw [hp] at h1
    cases h1
  tryExt_fuse w c s := by
    show BitmapOf.tryExtend B w c s = BitmapOf.tryExtend B w c s.fuse
    unfold BitmapOf.tryExtend
    rw [Src.fused_fuse s]
  trunc_ok n hc := ⟨_, rfl, truncate_ok n hc⟩

end Narrow
