import Verif.Proof.Panic

/-!
# Panicking sources of `extend` when the items fit

With items that fit, only the source can make `extend` panic.
-/

namespace Narrow

section
variable {O : Type} {R : Realloc O}

/-- The source of `extend` or `try_extend` panicked, which left `c'` of the collection `c`. -/
def Halted (R : Realloc O) (c : R.C) (s : Src O) (c' : R.C) : Prop :=
  R.extend c s = (c', .panic) ∨ ∃ w w', R.tryExtend w c s = (c', .panic, w')

/-- A valid collection is left when the source panics and the items fit. -/
def KeepF (L : LawfulR R) : Prop :=
  ∀ {c c' s}, L.Inv c → L.Canon c → L.Room 0 (L.abs c ++ s.items) → Halted R c s c' →
    L.Inv c' ∧ ∃ k, L.abs c' = L.abs c ++ s.items.take k

/-- When the source panics after a multiple of `m` items, and they fit, `f` of them stay,
a multiple of `m`, for a collection of a multiple of `m` items. If `p`, the storage stays
canonical. -/
def CountF (m : Nat) (f : (len n : Nat) → Nat) (p : Prop) (L : LawfulR R) : Prop :=
  ∀ {c c' s}, L.Inv c → L.Canon c → L.Room 0 (L.abs c ++ s.items) → m ∣ (L.abs c).length →
    m ∣ s.items.length → Halted R c s c' →
    L.Inv c' ∧ m ∣ f (L.abs c).length s.items.length ∧
      L.abs c' = L.abs c ++ s.items.take (f (L.abs c).length s.items.length) ∧ (p → L.Canon c')

variable {L : LawfulR R} {m n : Nat} {f : Nat → Nat → Nat} {p : Prop}

theorem CountF.keep (h : CountF 1 f p L) : KeepF L := by
  intro c c' s hc hk hr he
  obtain ⟨h1, -, h2, -⟩ := h hc hk hr (Nat.one_dvd _) (Nat.one_dvd _) he
  exact ⟨h1, _, h2⟩

/-- All yielded items stay. -/
theorem countF_exact (h : ∀ {c c' s}, L.Inv c → L.Canon c → L.Room 0 (L.abs c ++ s.items) →
    Halted R c s c' → L.Inv c' ∧ L.abs c' = L.abs c ++ s.items ∧ L.Canon c') :
    CountF m (fun _ n => n) True L := by
  intro c c' s hc hk hr _ hm he
  obtain ⟨h1, h2, h3⟩ := h hc hk hr he
  exact ⟨h1, hm, by rw [h2, List.take_length], fun _ => h3⟩

theorem vec_countF {α : Type} {lim : Nat} (hlim : lim ≤ usizeMax) (d : α) :
    CountF m (fun _ n => n) True (vecL lim hlim d) := by
  refine countF_exact fun {c c' s} hc _ hr h => ?_
  rcases h with h | ⟨w, w', h⟩
  · have h1 := RVec.extend_wf (s := s) hc
    have hr : c.items.length + s.items.length ≤ lim := by simpa [vecL] using hr
    have h2 := (RVec.extend_live hr).1
    rw [show RVec.extend lim c s = (c', .panic) from h] at h1 h2
    exact ⟨h1, h2, trivial⟩
  · obtain ⟨h1, h2⟩ := vec_exactT hlim d hc h
    exact ⟨h1, h2, trivial⟩

theorem flatten_halted {c c' : Flatten R.C} {s : Src (FixArr O n)}
    (h : Halted (flattenR n R) c s c') : Halted R c.child (Flatten.flatSrc s) c'.child := by
  rcases h with h | ⟨w, w', h⟩
  · simp only [flattenR, Prod.mk.injEq] at h
    obtain ⟨rfl, h⟩ := h
    exact .inl (Prod.ext rfl h)
  · simp only [flattenR, Prod.mk.injEq] at h
    obtain ⟨rfl, h, rfl⟩ := h
    exact .inr ⟨w, _, Prod.ext rfl (Prod.ext h rfl)⟩

theorem take_flat_div (hn : 0 < n) {k : Nat} (xs : List (FixArr O n)) (hk : m * n ∣ k) :
    m ∣ k / n ∧ (Flatten.flat xs).take k = Flatten.flat (xs.take (k / n)) := by
  obtain ⟨b, rfl⟩ := hk
  rw [Nat.mul_right_comm, Nat.mul_div_cancel _ hn]
  exact ⟨Nat.dvd_mul_right m b, (Flatten.flat_take xs (m * b)).symm⟩

theorem flatten_countF (hn : 0 < n) (h : CountF (m * n) f p L) :
    CountF m (fun len N => f (len * n) (N * n) / n) p (flattenL L n hn) := by
  intro c c' s hc hk hr hl hm he
  have hr : L.Room (0 * n) (Flatten.flat (flatAbs L.toLawfulColl n c ++ Src.items s)) := hr
  rw [Flatten.flat_append, flat_abs hn hc, Nat.zero_mul] at hr
  have hlen : (L.abs c.child).length = (flatAbs L.toLawfulColl n c).length * n := by
    rw [← flat_abs hn hc, Flatten.flat_length]
  obtain ⟨h1, h2, h3, h4⟩ := h hc.1 hk (by rw [Flatten.items_flatSrc]; exact hr)
    (by rw [hlen]; exact Nat.mul_dvd_mul_right hl n)
    (by rw [Flatten.items_flatSrc, Flatten.flat_length]; exact Nat.mul_dvd_mul_right hm n)
    (flatten_halted he)
  rw [Flatten.items_flatSrc, Flatten.flat_length, hlen] at h2 h3
  obtain ⟨h5, h6⟩ := take_flat_div hn (Src.items s) h2
  rw [h6] at h3
  rw [← flat_abs hn hc, ← Flatten.flat_append] at h3
  obtain ⟨i1, i2⟩ := flat_inv_of L (c := c') hn h1 h3
  exact ⟨i1, h5, i2, h4⟩

end

namespace Bitmap

/-- Unless it returns, growing a bitmap commits no bit beyond the first byte. -/
theorem extend_panic_bits {b b' : Bitmap} {s : Src Bool} (h : b.extend s = (b', .panic)) :
    b'.bits = (b.phase1 s.fuse).1.bits := by
  unfold Bitmap.extend at h
  split at h
  · next e => simp only [Prod.mk.injEq, and_true] at h; rw [e, ← h]
  · next b1 s1 e =>
    rw [e]
    split at h
    · simp at h
    · simp only [Prod.mk.injEq, and_true] at h; rw [← h]
    · split at h
      · split at h
        · simp at h
        · simp only [Prod.mk.injEq, and_true] at h; rw [← h]
      · simp only [Prod.mk.injEq, and_true] at h; rw [← h]

theorem tryExtend_panic_bits {w w' : World} {b b' : Bitmap} {s : Src Bool}
    (h : b.tryExtend w s = (b', .panic, w')) : b'.bits = (b.phase1 s.fuse).1.bits := by
  unfold Bitmap.tryExtend at h
  split at h
  · next e => simp only [Prod.mk.injEq, true_and] at h; rw [e, ← h.1]
  · next b1 s1 e =>
    rw [e]
    split at h
    · simp at h
    · simp only [Prod.mk.injEq, true_and] at h; rw [← h.1]
    · split at h
      · simp at h
      · simp only [Prod.mk.injEq, true_and] at h; rw [← h.1]
      · split at h
        · simp at h
        · simp only [Prod.mk.injEq, true_and] at h; rw [← h.1]

/-- The bits that fit into the byte at the end. -/
theorem phase1_bits {b : Bitmap} {s : Src Bool} (hb : b.Inv) (hs : s.Fused) :
    (b.phase1 s).1.bits = b.bits + min s.items.length ((8 - (b.offset + b.bits) % 8) % 8) := by
  have hsm := hb.small'
  have hle := hb.le
  unfold phase1
  simp only [bitIndex, byteIndex, strictAdd_ok (show b.offset + b.bits ≤ usizeMax by omega), Res.map]
  by_cases h0 : (b.offset + b.bits) % 8 = 0
  · simp [h0]
  · have h1 : (b.offset + b.bits) / 8 < b.buffer.items.length := by omega
    simp only [h0, if_false, List.getElem?_eq_getElem h1]
    rw [(fill_spec (8 - (b.offset + b.bits) % 8) ((b.offset + b.bits) % 8) s _ b.bits hs
      (by omega) (by omega)).1, Nat.min_comm, Nat.mod_eq_of_lt (a := 8 - _) (by omega)]

end Bitmap

theorem bitmap_halted {b b' : Bitmap} {s : Src Bool} (hb : b.Inv) (hk : bitmapL.Canon b)
    (hr : bitmapL.Room 0 (b.abs ++ s.items)) (h : Halted bitmapR b s b') :
    b'.Inv ∧ b'.abs = b.abs ++ s.items.take ((8 - b.bits % 8) % 8) ∧
      b'.bits = b.bits + min s.items.length ((8 - b.bits % 8) % 8) ∧ bitmapL.Canon b' := by
  have hk' : b.offset = 0 ∧ b.buffer.items.length ≤ 2 ^ 59 := hk
  have hr' : (b.abs ++ s.items).length + 0 ≤ 2 ^ 61 := hr
  simp only [List.length_append, Bitmap.abs_length] at hr'
  have hp := Bitmap.phase1_bits (s := s.fuse) hb (Src.fused_fuse s)
  rw [Src.items_fuse, hk'.1, Nat.zero_add] at hp
  have key : b'.Inv ∧ b'.offset = b.offset ∧ b'.bits = (b.phase1 s.fuse).1.bits ∧
      (∃ k, b'.abs = b.abs ++ s.items.take k) ∧ b'.buffer.items.length ≤
        max b.buffer.items.length (bytesForBits (b.offset + b.bits + s.items.length)) := by
    rcases h with h | ⟨w, w', h⟩
    · have h : b.extend s = (b', .panic) := h
      obtain ⟨h1, h2, h3, h4, h5, h6, h7⟩ := Bitmap.extend_spec (s := s) hb
      rw [h] at h1 h2 h5 h7
      exact ⟨h1, h2, Bitmap.extend_panic_bits h, h5 rfl, h7⟩
    · have h : b.tryExtend w s = (b', .panic, w') := h
      obtain ⟨h1, h2, h3, h4, h5, h6, h7⟩ := Bitmap.tryExtend_spec hb h
      exact ⟨h1, h2, Bitmap.tryExtend_panic_bits h, (h6 rfl).2, h7⟩
  obtain ⟨h1, h2, h3, ⟨k, h4⟩, h5⟩ := key
  rw [hp] at h3
  refine ⟨h1, ?_, h3, by rw [h2]; exact hk'.1, ?_⟩
  · rw [h4]
    congr 1
    have := congrArg List.length h4
    simp only [Bitmap.abs_length, List.length_append, List.length_take] at this
    rw [List.take_eq_take_iff]
    omega
  · unfold bytesForBits at h5
    omega

theorem bitmap_countF {m : Nat} (hm : m ∣ 8 ∨ 8 ∣ m) :
    CountF m (fun len n => min n ((8 - len % 8) % 8)) True bitmapL := by
  intro b b' s hb hk hr hl hn h
  obtain ⟨h1, h2, -, h3⟩ := bitmap_halted hb hk hr h
  have hlen : (bitmapL.abs b).length = b.bits := Bitmap.abs_length b
  rw [hlen] at hl ⊢
  simp only
  refine ⟨h1, ?_, ?_, fun _ => h3⟩
  · rcases Nat.le_total s.items.length ((8 - b.bits % 8) % 8) with h | h
    · rw [Nat.min_eq_left h]; exact hn
    · rw [Nat.min_eq_right h]
      rcases hm with hm | hm
      · have h8 : m ∣ b.bits % 8 := (Nat.dvd_mod_iff hm).mpr hl
        exact (Nat.dvd_mod_iff hm).mpr (Nat.dvd_sub hm h8)
      · have h8 : b.bits % 8 = 0 := Nat.mod_eq_zero_of_dvd (Nat.dvd_trans hm hl)
        simp [h8]
  · show b'.abs = b.abs ++ _
    rw [h2, Nat.min_comm, ← List.take_take, List.take_length]

namespace Offsets

variable {O : Type} {R : Realloc O} {L : LawfulR R} {ow : OffW}

theorem extendLoop_exact : ∀ (s : Src (List O)) (c : Offsets R.C) (rows : List (List O)),
    Mid L ow c rows → L.Canon c.data → Room L ow 0 (rows ++ s.items) → ∀ c',
    extendLoop ow R c.data c.offsets (rows.flatten.length : Int) s = (c', .panic) →
      Mid L ow c' (rows ++ s.items) ∧ L.Canon c'.data
  | [], c, rows, hm, _, _, c', h => by simp [extendLoop] at h
  | .none :: s, c, rows, hm, _, _, c', h => by simp [extendLoop] at h
  | .panic :: s, c, rows, hm, hk, _, c', h => by
    simp only [extendLoop, Prod.mk.injEq, and_true] at h
    subst h
    exact ⟨by simpa [Src.items] using hm, hk⟩
  | .item r :: s, c, rows, hm, hk, hr, c', h => by
    obtain ⟨r1, r2, r3, r4⟩ := room_row hr
    simp only [extendLoop] at h
    rw [if_pos ⟨by omega, by omega⟩] at h
    have hlive := L.reserve_live (n := r.length) hm.inv hk (by rw [hm.data]; exact r2)
    generalize hV : R.reserve c.data r.length = V at *
    obtain ⟨d1, o1⟩ := V
    obtain ⟨v1, v2, v3, v4⟩ := L.reserve_ok hm.inv hV
    simp only at hlive
    subst hlive
    simp only at h
    rw [hm.data] at v2
    have hroom : L.Room 0 (L.abs d1 ++ (Src.ofList r).items) := by rw [v2, Src.items_ofList]; exact r1
    have hlive2 := L.ext_live (s := Src.ofList r) v1 (v4 hk) (by simp) hroom
    generalize hE : R.extend d1 (Src.ofList r) = E at *
    obtain ⟨d2, o2⟩ := E
    simp only at hlive2
    subst hlive2
    simp only at h
    obtain ⟨e1, e2, -⟩ := L.ext_ok v1 hE
    have e3 := L.ext_canon v1 (v4 hk) hroom hE
    rw [v2, Src.items_ofList] at e2
    have hl := RVec.extend_live (lim := ow.lim) (v := c.offsets)
      (s := [.item ((rows.flatten.length : Int) + r.length)])
      (by rw [hm.items, totals_length]; simp [Src.items]; omega)
    have hw := RVec.extend_wf (s := [.item ((rows.flatten.length : Int) + r.length)]) hm.wf
    generalize hF : RVec.extend ow.lim c.offsets [.item ((rows.flatten.length : Int) + r.length)] = F at *
    obtain ⟨of, o3⟩ := F
    obtain ⟨k1, k2⟩ := hl
    simp only [Src.panics] at k1 k2 hw
    replace k2 : o3 = .ok := by simpa using k2
    subst k2
    simp only at h
    have hm' : Mid L ow ⟨d2, of⟩ (rows ++ [r]) := by
      refine ⟨hw, e1, ?_, by simp [e2]⟩
      simp only [k1, hm.items, totals_snoc]
      simp [Src.items]
    have hpos : ((rows.flatten.length : Int) + r.length) = (((rows ++ [r]).flatten.length : Nat) : Int) := by
      simp
    simp only [hpos] at h
    have := extendLoop_exact s ⟨d2, of⟩ (rows ++ [r]) hm' e3 (by simpa [Src.items] using hr) c' h
    simpa [Src.items] using this

theorem countF {m : Nat} : CountF m (fun _ n => n) True (offsetsL ow L) := by
  refine countF_exact fun {c c' s} hc hk hr h => ?_
  have hc' : Inv L.toLawfulColl ow c := hc
  rcases h with h | ⟨w, w', h⟩
  · replace h : extend ow R c s = (c', .panic) := h
    unfold extend at h
    rw [last_ok hc'.2.items] at h
    simp only [asUsize_ofNat] at h
    obtain ⟨d, h1, h2, h3, h4⟩ := L.trunc_ok (abs L.toLawfulColl c).flatten.length hc'.2.inv
    simp only [h1] at h
    obtain ⟨i1, i2⟩ := extendLoop_exact s ⟨d, c.offsets⟩ _ (Mid.of_inv hc' h2 h3) (h4 hk.1) hr c' h
    exact ⟨i1.toInv.1, i1.toInv.2, i1.canon i2⟩
  · obtain ⟨i1, i2⟩ := exactT_mid hc' h
    exact ⟨i1.toInv.1, i1.toInv.2, i1.canon (i2 hk.1 hr)⟩

end Offsets

namespace Validity

variable {O : Type} {R : Realloc O} {L : LawfulR R}

theorem extendLoop_keepF (hkp : KeepF L) (s : Src (Option O)) : ∀ (c : R.C) (b : Bitmap),
    Mid (L := L) c b → Clean L c b → Room L 0 (mask (L.abs c) b.abs ++ s.items) →
    ∀ v', extendLoop R c b s = (v', .panic) →
      Inv L.toLawfulColl v' ∧ abs L.toLawfulColl v' = mask (L.abs c) b.abs ++ s.items.take (s.items.length / validityChunk * validityChunk) := by
  intro c b hm hk hr v' h
  rw [extendLoop] at h
  have htk := Src.takeChunk_items validityChunk s
  have hA := hm.mask_len
  have hroomC : L.Room 0 (L.abs c ++ (values R.dflt (Src.takeChunk validityChunk s).1).items) := by
    have := (room_chunk (n := validityChunk) hr).2
    rwa [List.map_append, ← hk.2.2, ← htk, ← values_items] at this
  have hne := L.ext_ne (values R.dflt (Src.takeChunk validityChunk s).1) hm.inv
  generalize hE : R.extend c (values R.dflt (Src.takeChunk validityChunk s).1) = E at *
  obtain ⟨c1, o1⟩ := E
  cases o1 with
  | err => exact absurd rfl hne
  | panic =>
    simp only [Prod.mk.injEq, and_true] at h
    subst h
    have hshort : s.items.length < validityChunk := by
      cases hp : (Src.takeChunk validityChunk s).1.panics with
      | true => rw [Src.takeChunk_panics] at hp; simp at hp; exact hp.2
      | false =>
        have := L.ext_live (s := values R.dflt (Src.takeChunk validityChunk s).1) hm.inv hk.1
          (by rw [values_panics]; exact hp) hroomC
        rw [hE] at this
        cases this
    obtain ⟨e1, k, e2⟩ := hkp hm.inv hk.1 hroomC (.inl hE)
    refine ⟨inv_mk e1 hm.binv (by rw [e2]; simp [hm.len]), ?_⟩
    rw [abs_some, e2, mask_append_left (by simp [hm.len]), Nat.div_eq_of_lt hshort]; simp
  | ok =>
    obtain ⟨e1, e2, e3⟩ := L.ext_ok hm.inv hE
    rw [values_items, htk] at e2
    have hfl : flags (Src.takeChunk validityChunk s).1 = (s.items.take validityChunk).map Option.isSome := by
      simp [flags, htk]
    have hroomB : b.bits + (List.map Option.isSome (List.take validityChunk s.items)).length ≤ 2 ^ 61 := by
      have := (room_chunk (n := validityChunk) hr).1
      simp only [List.length_append, hA] at this
      simpa using this
    simp only [hfl] at h
    obtain ⟨b1, b2, b3, b4, b5, b6, b7⟩ := Bitmap.extend_spec
      (s := Src.ofList ((s.items.take validityChunk).map Option.isSome)) hm.binv
    generalize hF : b.extend (Src.ofList ((s.items.take validityChunk).map Option.isSome)) = F at *
    obtain ⟨bb, o2⟩ := F
    simp only [Src.items_ofList] at b1 b2 b3 b4 b5 b7 h
    cases o2 with
    | err => exact absurd rfl b3
    | panic =>
      have := bitmapL.ext_live (c := b)
        (s := Src.ofList ((s.items.take validityChunk).map Option.isSome)) hm.binv hk.2.1 (by simp)
        (show (b.abs ++ _).length ≤ 2 ^ 61 by simpa using hroomB)
      rw [show bitmapR.extend b _ = _ from hF] at this
      cases this
    | ok =>
      obtain ⟨b4, -⟩ := b4 rfl
      obtain ⟨m1, m2⟩ := hm.step e1 e2 b1 b4
      have hclean : Clean L c1 bb := clean_step hm e2 b4 hk (L.ext_canon hm.inv hk.1 hroomC hE)
        (bcanon_ext b2 b7 hk.2.1 hroomB)
      simp only at h
      split at h
      · simp at h
      · next hge =>
        have hge' : validityChunk ≤ s.items.length := by
          simp only [List.length_map, List.length_take] at hge; omega
        obtain ⟨r1, r2⟩ := Src.takeChunk_rest_items validityChunk s hge'
        have hdec : (Src.takeChunk validityChunk s).2.length < List.length s := by
          have := takeChunk_length validityChunk s
          rw [htk, List.length_take, Nat.min_eq_left hge'] at this
          unfold validityChunk at this ⊢; omega
        obtain ⟨i1, i2⟩ := extendLoop_keepF hkp (Src.takeChunk validityChunk s).2 c1 bb m1 hclean
          (by rw [m2, r1]; simpa using hr) v' h
        refine ⟨i1, ?_⟩
        rw [i2, m2, r1, take_rest, List.length_drop]
        congr 2
        exact chunks_succ hge'
termination_by s.length

theorem tryExtendLoop_keepF (hkp : KeepF L) (len0 : Nat) (s : Src (Option O)) :
    ∀ (w : World) (c : R.C) (b : Bitmap),
    Mid (L := L) c b → Clean L c b → Room L 0 (mask (L.abs c) b.abs ++ s.items) →
    ∀ v' w', tryExtendLoop R len0 w c b s = (v', .panic, w') →
      Inv L.toLawfulColl v' ∧ abs L.toLawfulColl v' = mask (L.abs c) b.abs ++ s.items.take (s.items.length / validityChunk * validityChunk) := by
  intro w c b hm hk hr v' w' h
  rw [tryExtendLoop] at h
  have htk := Src.takeChunk_items validityChunk s
  have hA := hm.mask_len
  have hroomC : L.Room 0 (L.abs c ++ (values R.dflt (Src.takeChunk validityChunk s).1).items) := by
    have := (room_chunk (n := validityChunk) hr).2
    rwa [List.map_append, ← hk.2.2, ← htk, ← values_items] at this
  generalize hE : R.tryExtend w c (values R.dflt (Src.takeChunk validityChunk s).1) = E at *
  obtain ⟨c1, o1, w1⟩ := E
  cases o1 with
  | err =>
    simp only at h
    obtain ⟨e1, e2⟩ := L.tryExt_err hm.inv hE
    have hm1 : Mid (L := L) c1 b := ⟨e1, hm.binv, by rw [e2]; exact hm.len⟩
    exact absurd rfl (rollback_np hm1.inv_v h)
  | panic =>
    simp only [Prod.mk.injEq, true_and] at h
    obtain ⟨rfl, rfl⟩ := h
    have hshort : s.items.length < validityChunk := by
      cases hp : (Src.takeChunk validityChunk s).1.panics with
      | true => rw [Src.takeChunk_panics] at hp; simp at hp; exact hp.2
      | false =>
        have := L.tryExt_np (w := w) (s := values R.dflt (Src.takeChunk validityChunk s).1) hm.inv
          (by rw [values_panics]; exact hp)
        rw [hE] at this
        exact absurd rfl this
    obtain ⟨e1, k, e2⟩ := hkp hm.inv hk.1 hroomC (.inr ⟨_, _, hE⟩)
    refine ⟨inv_mk e1 hm.binv (by rw [e2]; simp [hm.len]), ?_⟩
    rw [abs_some, e2, mask_append_left (by simp [hm.len]), Nat.div_eq_of_lt hshort]; simp
  | ok =>
    obtain ⟨e1, e2, e3⟩ := L.tryExt_ok hm.inv hE
    rw [values_items, htk] at e2
    have hfl : flags (Src.takeChunk validityChunk s).1 = (s.items.take validityChunk).map Option.isSome := by
      simp [flags, htk]
    have hroomB : b.bits + (List.map Option.isSome (List.take validityChunk s.items)).length ≤ 2 ^ 61 := by
      have := (room_chunk (n := validityChunk) hr).1
      simp only [List.length_append, hA] at this
      simpa using this
    simp only [hfl] at h
    generalize hF : b.tryExtend w1 (Src.ofList ((s.items.take validityChunk).map Option.isSome)) = F at *
    obtain ⟨bb, o2, w2⟩ := F
    obtain ⟨b1, b2, b3, b4, b5, b6, b7⟩ := Bitmap.tryExtend_spec hm.binv hF
    simp only [Src.items_ofList, Src.panics_ofList] at b4 b6 b7
    cases o2 with
    | panic => exact absurd (b6 rfl).1 (by simp)
    | err =>
      simp only at h
      obtain ⟨b5, b8⟩ := b5 rfl
      have hbits : bb.bits = b.bits := by
        have := congrArg List.length b5; simpa using this
      have hi1 : Inv L.toLawfulColl ⟨c1, some bb⟩ := inv_mk e1 b1 (by rw [e2, hbits]; simp [hm.len])
      exact absurd rfl (rollback_np hi1 h)
    | ok =>
      obtain ⟨b4, -⟩ := b4 rfl
      obtain ⟨m1, m2⟩ := hm.step e1 e2 b1 b4
      have hclean : Clean L c1 bb := clean_step hm e2 b4 hk
        (L.tryExt_canon hm.inv hk.1 hroomC hE (by simp)) (bcanon_ext b2 b7 hk.2.1 hroomB)
      simp only at h
      split at h
      · simp at h
      · next hge =>
        have hge' : validityChunk ≤ s.items.length := by
          simp only [List.length_map, List.length_take] at hge; omega
        obtain ⟨r1, r2⟩ := Src.takeChunk_rest_items validityChunk s hge'
        have hdec : (Src.takeChunk validityChunk s).2.length < List.length s := by
          have := takeChunk_length validityChunk s
          rw [htk, List.length_take, Nat.min_eq_left hge'] at this
          unfold validityChunk at this ⊢; omega
        obtain ⟨i1, i2⟩ := tryExtendLoop_keepF hkp len0 (Src.takeChunk validityChunk s).2 w2 c1 bb
          m1 hclean (by rw [m2, r1]; simpa using hr) v' w' h
        refine ⟨i1, ?_⟩
        rw [i2, m2, r1, take_rest, List.length_drop]
        congr 2
        exact chunks_succ hge'
termination_by s.length

theorem chunkF (hkp : KeepF L) {v v' : Validity R.C} {s : Src (Option O)}
    (hv : (validityL L).Inv v) (hk : (validityL L).Canon v)
    (hr : (validityL L).Room 0 ((validityL L).abs v ++ s.items)) (h : Halted (validityR R) v s v') :
    (validityL L).Inv v' ∧ (validityL L).abs v' = (validityL L).abs v ++
      s.items.take (s.items.length / validityChunk * validityChunk) := by
  replace hv : Inv L.toLawfulColl v := hv
  replace hr : Room L 0 (abs L.toLawfulColl v ++ s.items) := hr
  show Inv L.toLawfulColl v' ∧ abs L.toLawfulColl v' = abs L.toLawfulColl v ++
    s.items.take (s.items.length / validityChunk * validityChunk)
  rcases h with h | ⟨w, w', h⟩
  · replace h : extend R v s = (v', .panic) := h
    unfold extend at h
    cases hm : materialize R.toColl v with
    | panic =>
      obtain ⟨b, hb⟩ := materialize_live hv (by
        have := hr.1; simp only [List.length_append] at this; unfold byteMax; omega)
      rw [hb] at hm
      cases hm
    | ok b =>
      rw [hm] at h
      obtain ⟨m1, m2, m3, m4⟩ := materialize_ok hv hm
      obtain ⟨c, h1, h2, h3, h4⟩ := L.trunc_ok b.len hv.1
      simp only [h1] at h
      obtain ⟨d1, d2⟩ := Mid.of_trunc m1 h2 h3
      have := extendLoop_keepF hkp s c b d1 (Mid.clean_of_trunc m1 h3 h4 (canon_mat hk m2 m4))
        (by rw [d2, m2]; exact hr) v' h
      rw [d2, m2] at this
      exact this
  · replace h : tryExtend R w v s = (v', .panic, w') := h
    unfold tryExtend at h
    simp only [len_ok hv] at h
    have hnp := tryMaterialize_np (w := w) hv
    generalize hm : tryMaterialize R.toColl w v = M at *
    obtain ⟨t, w1⟩ := M
    cases t with
    | panic => exact absurd rfl hnp
    | err => simp at h
    | ok b =>
      obtain ⟨m1, m2, m3, m4⟩ := tryMaterialize_ok hv hm
      obtain ⟨c, h1, h2, h3, h4⟩ := L.trunc_ok (abs L.toLawfulColl v).length hv.1
      simp only [h1] at h
      rw [← m3] at h3
      obtain ⟨d1, d2⟩ := Mid.of_trunc m1 h2 h3
      have := tryExtendLoop_keepF hkp _ s w1 c b d1
        (Mid.clean_of_trunc m1 h3 h4 (canon_mat hk m2 m4)) (by rw [d2, m2]; exact hr) v' w' h
      rw [d2, m2] at this
      exact this

theorem countF (hkp : KeepF L) {m : Nat} (hm : m ∣ 1024 ∨ 1024 ∣ m) :
    CountF m (fun _ n => n / 1024 * 1024) False (validityL L) := by
  intro v v' s hv hk hr _ hn h
  obtain ⟨h1, h2⟩ := chunkF hkp hv hk hr h
  exact ⟨h1, dvd_chunks hm hn, h2, False.elim⟩

end Validity

end Narrow
