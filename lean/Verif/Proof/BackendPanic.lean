import Verif.Proof.BackendValidity
import Verif.Proof.BackendOffsets
import Verif.Proof.Visible

/-! # What a caught panic leaves behind, over any storage -/

namespace Narrow

open Spec

/-- After a panic of `extend` the collection satisfies `P` with the old items and a
prefix of the new ones. -/
def LeavesE {O : Type} {R : Realloc O} (L : LawfulR R) (P : R.C → List O → Prop) : Prop :=
  ∀ {c c' s}, L.Inv c → R.extend c s = (c', .panic) → ∃ k, P c' (L.abs c ++ s.items.take k)

/-- The same for `try_extend`. -/
def LeavesT {O : Type} {R : Realloc O} (L : LawfulR R) (P : R.C → List O → Prop) : Prop :=
  ∀ {w w' c c' s}, L.Inv c → R.tryExtend w c s = (c', .panic, w') →
    ∃ k, P c' (L.abs c ++ s.items.take k)

section
variable {O : Type} {R : Realloc O} {L : LawfulR R} {b : Prop}

theorem keepE_iff : KeepE L ↔ LeavesE L fun c l => L.Inv c ∧ L.abs c = l :=
  ⟨fun h _ _ _ hc he => let ⟨h1, k, h2⟩ := h hc he; ⟨k, h1, h2⟩,
    fun h _ _ _ hc he => let ⟨k, h1, h2⟩ := h hc he; ⟨h1, k, h2⟩⟩

theorem keepT_iff : KeepT L ↔ LeavesT L fun c l => L.Inv c ∧ L.abs c = l :=
  ⟨fun h _ _ _ _ _ hc he => let ⟨h1, k, h2⟩ := h hc he; ⟨k, h1, h2⟩,
    fun h _ _ _ _ _ hc he => let ⟨k, h1, h2⟩ := h hc he; ⟨h1, k, h2⟩⟩

end

/-! ## Bitmaps -/

namespace BitmapOf

variable {B : Backing Byte} {L : LawfulB B}

theorem extend_keep (hk : KeepE L.toLawfulR) {b b' : BitmapOf B.C} {s : Src Bool} (hb : b.Inv L)
    (h : extend B b s = (b', .panic)) :
    b'.Inv L ∧ ∃ n, bitsAre b' = bitsAre b ++ s.items.take n := by
  have hI := hb.seen
  obtain ⟨k, k1, k2, k3, k4, k5, k6, k7, k8, k9, k10⟩ := Bitmap.phase1_spec hI (Src.fused_fuse s)
  simp only [Src.items_fuse, Src.panics_fuse] at *
  have hlen : (b.seen B.toBuf).buffer.items.length = (L.abs b.buffer).length := by
    rw [seen_items hb.buf]
  unfold extend at h
  generalize hP : Bitmap.phase1 (b.seen B.toBuf) s.fuse = P at *
  obtain ⟨b1, s1, p⟩ := P
  simp only at *
  have hle1 := k2.le
  have hleft : ∀ {buf : B.C} {m x : List Byte}, L.Inv buf → L.abs buf = m ++ x →
      m.length = b1.buffer.items.length →
      (∀ j, j < b1.offset + b1.bits → bitAt m j = bitAt b1.buffer.items j) →
      Inv L ⟨buf, b1.bits, b1.offset⟩ ∧
        ∃ n, bitsAre (B := B) ⟨buf, b1.bits, b1.offset⟩ = bitsAre b ++ s.items.take n := by
    intro buf m x h1 h2 h3 h4
    refine ⟨⟨h1, ?_⟩, k, ?_⟩
    · show b1.offset + b1.bits ≤ 8 * (L.abs buf).length
      rw [h2, List.length_append]; omega
    · rw [abs_mk (m := ⟨⟨m ++ x, 0⟩, b1.bits, b1.offset⟩) h1 h2 rfl rfl, ← k5]
      apply Bitmap.abs_of_low (b := b1) (b' := ⟨⟨m ++ x, 0⟩, b1.bits, b1.offset⟩) rfl rfl
      intro j hj
      simp only
      rw [Bitmap.bitAt_append_low (n := b1.offset + b1.bits) (by omega) j hj, h4 j hj]
  cases p with
  | true =>
    simp only [Prod.mk.injEq, and_true] at h
    subst h
    obtain ⟨w1, w2⟩ := L.write_ok hb.buf (show b1.buffer.items.length = _ by omega)
    exact hleft w1 (x := []) (by simpa using w2) rfl fun _ _ => rfl
  | false =>
    obtain ⟨f1, f2, f3, f4⟩ := k10 rfl
    have halign : (s1.items ≠ [] ∨ s1.panics = true) → (b1.offset + b1.bits) % 8 = 0 := by
      intro h; rw [k3, k4]; apply f4
      rcases h with h | h
      · left; rw [f2] at h; simpa using h
      · right; rwa [f3] at h
    obtain ⟨g1, g2⟩ := Bitmap.phase2_spec k2 f1 halign
    simp only at h
    by_cases hdone : s1.items = [] ∧ s1.panics = false
    · rw [g1 hdone] at h
      simp at h
    · have hmore : s1.items ≠ [] ∨ s1.panics = true := by
        by_cases h : s1.items = []
        · right; simpa [h] using hdone
        · left; exact h
      obtain ⟨buf, packed, n, p, e1, e2, e3, e4, e5⟩ := g2 hmore
      rw [e1] at h
      obtain ⟨w1, w2⟩ := L.write_ok hb.buf (show buf.length = _ by omega)
      cases p with
      | true =>
        simp only [Prod.mk.injEq, and_true] at h
        subst h
        exact hleft w1 (x := []) (by simpa using w2) e2 e3
      | false =>
        simp only at h
        have hne := L.ext_ne packed w1
        generalize hR : B.extend (B.write b.buffer buf) packed = R at *
        obtain ⟨buf', o⟩ := R
        cases o with
        | err => exact absurd rfl hne
        | panic =>
          simp only [Prod.mk.injEq, and_true] at h
          subst h
          obtain ⟨t1, j, t2⟩ := hk w1 hR
          rw [w2] at t2
          exact hleft t1 t2 e2 e3
        | ok =>
          obtain ⟨t1, t2, -⟩ := L.ext_ok w1 hR
          rw [w2] at t2
          simp only at h
          split at h
          · simp at h
          · simp only [Prod.mk.injEq, and_true] at h
            subst h
            exact hleft t1 t2 e2 e3

theorem tryExtend_keep (hk : KeepT L.toLawfulR) {w w' : World} {b b' : BitmapOf B.C} {s : Src Bool}
    (hb : b.Inv L) (h : tryExtend B w b s = (b', .panic, w')) :
    b'.Inv L ∧ ∃ n, bitsAre b' = bitsAre b ++ s.items.take n := by
  have hI := hb.seen
  obtain ⟨k, k1, k2, k3, k4, k5, k6, k7, k8, k9, k10⟩ := Bitmap.phase1_spec hI (Src.fused_fuse s)
  simp only [Src.items_fuse, Src.panics_fuse] at *
  have hlen : (b.seen B.toBuf).buffer.items.length = (L.abs b.buffer).length := by
    rw [seen_items hb.buf]
  unfold tryExtend at h
  generalize hP : Bitmap.phase1 (b.seen B.toBuf) s.fuse = P at *
  obtain ⟨b1, s1, p⟩ := P
  simp only at *
  have hle1 := k2.le
  have hleft : ∀ {buf : B.C} {m x : List Byte}, L.Inv buf → L.abs buf = m ++ x →
      m.length = b1.buffer.items.length →
      (∀ j, j < b1.offset + b1.bits → bitAt m j = bitAt b1.buffer.items j) →
      Inv L ⟨buf, b1.bits, b1.offset⟩ ∧
        ∃ n, bitsAre (B := B) ⟨buf, b1.bits, b1.offset⟩ = bitsAre b ++ s.items.take n := by
    intro buf m x h1 h2 h3 h4
    refine ⟨⟨h1, ?_⟩, k, ?_⟩
    · show b1.offset + b1.bits ≤ 8 * (L.abs buf).length
      rw [h2, List.length_append]; omega
    · rw [abs_mk (m := ⟨⟨m ++ x, 0⟩, b1.bits, b1.offset⟩) h1 h2 rfl rfl, ← k5]
      apply Bitmap.abs_of_low (b := b1) (b' := ⟨⟨m ++ x, 0⟩, b1.bits, b1.offset⟩) rfl rfl
      intro j hj
      simp only
      rw [Bitmap.bitAt_append_low (n := b1.offset + b1.bits) (by omega) j hj, h4 j hj]
  cases p with
  | true =>
    simp only [Prod.mk.injEq, true_and] at h
    obtain ⟨rfl, rfl⟩ := h
    obtain ⟨w1, w2⟩ := L.write_ok hb.buf (show b1.buffer.items.length = _ by omega)
    exact hleft w1 (x := []) (by simpa using w2) rfl fun _ _ => rfl
  | false =>
    obtain ⟨f1, f2, f3, f4⟩ := k10 rfl
    have halign : (s1.items ≠ [] ∨ s1.panics = true) → (b1.offset + b1.bits) % 8 = 0 := by
      intro h; rw [k3, k4]; apply f4
      rcases h with h | h
      · left; rw [f2] at h; simpa using h
      · right; rwa [f3] at h
    obtain ⟨g1, g2⟩ := Bitmap.phase2_spec k2 f1 halign
    simp only at h
    by_cases hdone : s1.items = [] ∧ s1.panics = false
    · rw [g1 hdone] at h
      simp at h
    · have hmore : s1.items ≠ [] ∨ s1.panics = true := by
        by_cases h : s1.items = []
        · right; simpa [h] using hdone
        · left; exact h
      obtain ⟨buf, packed, n, p, e1, e2, e3, e4, e5⟩ := g2 hmore
      rw [e1] at h
      obtain ⟨w1, w2⟩ := L.write_ok hb.buf (show buf.length = _ by omega)
      cases p with
      | true =>
        simp only [Prod.mk.injEq, true_and] at h
        obtain ⟨rfl, rfl⟩ := h
        exact hleft w1 (x := []) (by simpa using w2) e2 e3
      | false =>
        simp only at h
        generalize hR : B.tryExtend w (B.write b.buffer buf) packed = R at *
        obtain ⟨buf', o, w2'⟩ := R
        cases o with
        | err => simp at h
        | panic =>
          simp only [Prod.mk.injEq, true_and] at h
          obtain ⟨rfl, rfl⟩ := h
          obtain ⟨t1, j, t2⟩ := hk w1 hR
          rw [w2] at t2
          exact hleft t1 t2 e2 e3
        | ok =>
          obtain ⟨t1, t2, -⟩ := L.tryExt_ok w1 hR
          rw [w2] at t2
          simp only at h
          split at h
          · simp at h
          · simp only [Prod.mk.injEq, true_and] at h
            obtain ⟨rfl, rfl⟩ := h
            exact hleft t1 t2 e2 e3

end BitmapOf

theorem bitmapB_keepE {B : Backing Byte} {L : LawfulB B} (hk : KeepE L.toLawfulR) :
    KeepE (bitmapBG L).lawful := fun hc h => BitmapOf.extend_keep hk hc h

theorem bitmapB_keepT {B : Backing Byte} {L : LawfulB B} (hk : KeepT L.toLawfulR) :
    KeepT (bitmapBG L).lawful := fun hc h => BitmapOf.tryExtend_keep hk hc h

/-! ## Nullable items -/

namespace ValidityOf

open Validity (mask mask_append mask_append_left mask_take mask_items
  mask_length mask_getElem values values_items flags takeChunk_length take_prefix take_rest)
open BitmapOf (bitsAre bits_length)

variable {O : Type} {B : Backing Byte} {R : Realloc O} {LB : LawfulB B} {L : LawfulR R}
  {P : R.C → List O → Prop} {Q : Of B R → List (Option O) → Prop}

theorem mask_half {c' : R.C} {b b' : BitmapOf B.C} {c : R.C} {l : List (Option O)} {k : Nat}
    (hm : Mid LB L c b) (hca : L.abs c' = L.abs c ++ l.map (·.getD R.dflt))
    (hba : bitsAre b' = bitsAre b ++ (l.map Option.isSome).take k) :
    mask (L.abs c') (bitsAre b') = mask (L.abs c) (bitsAre b) ++ l.take k ∧
      b'.bits ≤ (L.abs c').length := by
  have hb : b'.bits = b.bits + ((l.map Option.isSome).take k).length := by
    have := congrArg List.length hba
    rwa [bits_length, List.length_append, bits_length] at this
  constructor
  · rw [hca, hba, mask_append (by rw [bits_length]; exact hm.len), ← List.map_take]
    congr 1
    have := mask_append_left (xs := (l.take k).map (·.getD R.dflt)) (ys := (l.drop k).map (·.getD R.dflt))
      (bs := (l.take k).map Option.isSome) (by simp)
    rw [← List.map_append, List.take_append_drop] at this
    rw [this, mask_items]
  · rw [hca, hb]; simp [hm.len]; omega

theorem extendLoop_leaves (hk : LeavesE L P) (hb : KeepE LB.toLawfulR)
    (hQ : ∀ {v}, Ok LB L v → Q v (holds LB L v))
    (hP : ∀ {c : R.C} {b : BitmapOf B.C} {l}, P c l → b.Inv LB → b.bits ≤ l.length →
      Q ⟨c, some b⟩ (mask l (bitsAre b)))
    (s : Src (Option O)) : ∀ (c : R.C) (b : BitmapOf B.C), Mid LB L c b →
    ∀ v', extendLoop B R c b s = (v', .panic) →
      ∃ k, Q v' (mask (L.abs c) (bitsAre b) ++ s.items.take k) := by
  intro c b hm v' h
  rw [extendLoop] at h
  have htk := Src.takeChunk_items validityChunk s
  have hne := L.ext_ne (values R.dflt (Src.takeChunk validityChunk s).1) hm.inv
  generalize hE : R.extend c (values R.dflt (Src.takeChunk validityChunk s).1) = E at *
  obtain ⟨c1, o1⟩ := E
  cases o1 with
  | err => exact absurd rfl hne
  | panic =>
    simp only [Prod.mk.injEq, and_true] at h
    subst h
    obtain ⟨k, e1⟩ := hk hm.inv hE
    refine ⟨0, ?_⟩
    have := hP e1 hm.binv (by simp [hm.len])
    rw [mask_append_left (by rw [bits_length, hm.len]; exact Nat.le_refl _)] at this
    simpa using this
  | ok =>
    obtain ⟨e1, e2, e3⟩ := L.ext_ok hm.inv hE
    rw [values_items, htk] at e2
    have hfl : flags (Src.takeChunk validityChunk s).1 = (s.items.take validityChunk).map Option.isSome := by
      simp [flags, htk]
    simp only [hfl] at h
    obtain ⟨b3, b4⟩ := BitmapOf.extend_spec
      (s := Src.ofList ((s.items.take validityChunk).map Option.isSome)) hm.binv
    simp only [Src.items_ofList, Src.panics_ofList] at b4
    generalize hF : BitmapOf.extend B b (Src.ofList (List.map Option.isSome (List.take validityChunk s.items))) = F at *
    obtain ⟨bb, o2⟩ := F
    cases o2 with
    | err => exact absurd rfl b3
    | panic =>
      simp only [Prod.mk.injEq, and_true] at h
      subst h
      obtain ⟨b1, k, b5⟩ := BitmapOf.extend_keep hb hm.binv hF
      rw [Src.items_ofList] at b5
      obtain ⟨m1, m2⟩ := mask_half hm e2 b5
      obtain ⟨j, hj⟩ := take_prefix (A := mask (L.abs c) (bitsAre b)) (l := s.items) (n := validityChunk) (k := k)
      refine ⟨j, ?_⟩
      have := hQ (ok_mk e1 b1 m2)
      rw [holds_some, m1, hj] at this
      exact this
    | ok =>
      obtain ⟨b1, b4, -⟩ := b4 rfl
      obtain ⟨m1, m2⟩ := hm.step e1 e2 b1 b4
      simp only at h
      split at h
      · simp at h
      · next hge =>
        have hge' : validityChunk ≤ s.items.length := by
          simp only [List.length_map, List.length_take] at hge; omega
        obtain ⟨r1, r2⟩ := Src.takeChunk_rest_items validityChunk s hge'
        have hdec : (Src.takeChunk validityChunk s).2.length < List.length s := by
          have := takeChunk_length validityChunk s
          rw [htk, List.length_take, Nat.min_eq_left hge'] at this
          unfold validityChunk at this ⊢; omega
        obtain ⟨k, i2⟩ := extendLoop_leaves hk hb hQ hP (Src.takeChunk validityChunk s).2 c1 bb m1 v' h
        refine ⟨validityChunk + k, ?_⟩
        rw [m2, r1, take_rest] at i2
        exact i2
termination_by s.length

theorem leavesE (env : World) (hk : LeavesE L P) (hb : KeepE LB.toLawfulR)
    (hQ : ∀ {v}, Ok LB L v → Q v (holds LB L v))
    (hP : ∀ {c : R.C} {b : BitmapOf B.C} {l}, P c l → b.Inv LB → b.bits ≤ l.length →
      Q ⟨c, some b⟩ (mask l (bitsAre b))) :
    LeavesE (validityBG env LB L).lawful Q := by
  intro v v' s hv h
  replace h : extend B R env v s = (v', .panic) := h
  replace hv : Ok LB L v := hv
  unfold extend at h
  cases hm : materialize B R env v with
  | panic =>
    rw [hm] at h
    simp only [Prod.mk.injEq, and_true] at h
    subst h
    refine ⟨0, ?_⟩
    rw [List.take_zero, List.append_nil]
    exact hQ hv
  | ok m =>
    rw [hm] at h
    obtain ⟨m1, m2, m3⟩ := materialize_ok hv hm
    obtain ⟨c, h1, h2, h3, -⟩ := L.trunc_ok m.bits hv.1
    simp only [h1] at h
    obtain ⟨d1, d2⟩ := Mid.of_trunc m1 h2 h3
    have := extendLoop_leaves hk hb hQ hP s c m d1 v' h
    rw [d2, m2] at this
    exact this

theorem rollback_np {v v' : Of B R} {n : Nat} {w w' : World} {o : Out}
    (hv : Ok LB L v) (h : rollback B R v n w = (v', o, w')) : o ≠ .panic := by
  rw [(rollback_spec hv h).1]; simp

theorem tryExtendLoop_leaves (hk : LeavesT L P)
    (hP : ∀ {c : R.C} {b : BitmapOf B.C} {l}, P c l → b.Inv LB → b.bits ≤ l.length →
      Q ⟨c, some b⟩ (mask l (bitsAre b)))
    (len0 : Nat) (s : Src (Option O)) : ∀ (w : World) (c : R.C) (b : BitmapOf B.C), Mid LB L c b →
    ∀ v' w', tryExtendLoop B R len0 w c b s = (v', .panic, w') →
      ∃ k, Q v' (mask (L.abs c) (bitsAre b) ++ s.items.take k) := by
  intro w c b hm v' w' h
  rw [tryExtendLoop] at h
  have htk := Src.takeChunk_items validityChunk s
  generalize hE : R.tryExtend w c (values R.dflt (Src.takeChunk validityChunk s).1) = E at *
  obtain ⟨c1, o1, w1⟩ := E
  cases o1 with
  | err =>
    simp only at h
    obtain ⟨e1, e2⟩ := L.tryExt_err hm.inv hE
    have hm1 : Mid LB L c1 b := ⟨e1, hm.binv, by rw [e2]; exact hm.len⟩
    exact absurd rfl (rollback_np hm1.ok h)
  | panic =>
    simp only [Prod.mk.injEq, true_and] at h
    obtain ⟨rfl, rfl⟩ := h
    obtain ⟨k, e1⟩ := hk hm.inv hE
    refine ⟨0, ?_⟩
    have := hP e1 hm.binv (by simp [hm.len])
    rw [mask_append_left (by rw [bits_length, hm.len]; exact Nat.le_refl _)] at this
    simpa using this
  | ok =>
    obtain ⟨e1, e2, e3⟩ := L.tryExt_ok hm.inv hE
    rw [values_items, htk] at e2
    have hfl : flags (Src.takeChunk validityChunk s).1 = (s.items.take validityChunk).map Option.isSome := by
      simp [flags, htk]
    simp only [hfl] at h
    generalize hF : BitmapOf.tryExtend B w1 b (Src.ofList (List.map Option.isSome (List.take validityChunk s.items))) = F at *
    obtain ⟨bb, o2, w2⟩ := F
    obtain ⟨b4, b5, b6⟩ := BitmapOf.tryExtend_spec hm.binv hF
    simp only [Src.items_ofList, Src.panics_ofList] at b4 b6
    cases o2 with
    | panic => exact absurd (b6 rfl) (by simp)
    | err =>
      simp only at h
      obtain ⟨b1, b5⟩ := b5 rfl
      have hbits : bb.bits = b.bits := by
        have := congrArg List.length b5
        rwa [bits_length, bits_length] at this
      have hi1 : Ok LB L ⟨c1, some bb⟩ := ok_mk e1 b1 (by rw [e2, hbits]; simp [hm.len])
      exact absurd rfl (rollback_np hi1 h)
    | ok =>
      obtain ⟨b1, b4, -⟩ := b4 rfl
      obtain ⟨m1, m2⟩ := hm.step e1 e2 b1 b4
      simp only at h
      split at h
      · simp at h
      · next hge =>
        have hge' : validityChunk ≤ s.items.length := by
          simp only [List.length_map, List.length_take] at hge; omega
        obtain ⟨r1, r2⟩ := Src.takeChunk_rest_items validityChunk s hge'
        have hdec : (Src.takeChunk validityChunk s).2.length < List.length s := by
          have := takeChunk_length validityChunk s
          rw [htk, List.length_take, Nat.min_eq_left hge'] at this
          unfold validityChunk at this ⊢; omega
        obtain ⟨k, i2⟩ := tryExtendLoop_leaves hk hP len0 (Src.takeChunk validityChunk s).2 w2 c1 bb m1 v' w' h
        refine ⟨validityChunk + k, ?_⟩
        rw [m2, r1, take_rest] at i2
        exact i2
termination_by s.length

theorem leavesT (env : World) (hk : LeavesT L P)
    (hP : ∀ {c : R.C} {b : BitmapOf B.C} {l}, P c l → b.Inv LB → b.bits ≤ l.length →
      Q ⟨c, some b⟩ (mask l (bitsAre b))) :
    LeavesT (validityBG env LB L).lawful Q := by
  intro w w' v v' s hv h
  replace h : tryExtend B R w v s = (v', .panic, w') := h
  replace hv : Ok LB L v := hv
  unfold tryExtend at h
  simp only [len_ok hv] at h
  have hnp := tryMaterialize_np (w := w) hv
  generalize hm : tryMaterialize B R w v = M at *
  obtain ⟨t, w1⟩ := M
  cases t with
  | panic => exact absurd rfl hnp
  | err => simp at h
  | ok m =>
    obtain ⟨m1, m2, m3⟩ := tryMaterialize_ok hv hm
    obtain ⟨c, h1, h2, h3, -⟩ := L.trunc_ok (holds LB L v).length hv.1
    simp only [h1] at h
    rw [← m3] at h3
    obtain ⟨d1, d2⟩ := Mid.of_trunc m1 h2 h3
    have := tryExtendLoop_leaves (Q := Q) hk hP _ s w1 c m d1 v' w' h
    rw [d2, m2] at this
    exact this

theorem keepE (env : World) (hk : KeepE L) (hb : KeepE LB.toLawfulR) :
    KeepE (validityBG env LB L).lawful :=
  keepE_iff.mpr (leavesE env (P := fun c l => L.Inv c ∧ L.abs c = l)
    (Q := fun v l => Ok LB L v ∧ holds LB L v = l) (keepE_iff.mp hk) hb (fun h => ⟨h, rfl⟩) (by
    rintro c b l ⟨h1, rfl⟩ h2 h3
    exact ⟨ok_mk h1 h2 h3, holds_some c b⟩))

theorem keepT (env : World) (hk : KeepT L) : KeepT (validityBG env LB L).lawful :=
  keepT_iff.mpr (leavesT env (P := fun c l => L.Inv c ∧ L.abs c = l)
    (Q := fun v l => Ok LB L v ∧ holds LB L v = l) (keepT_iff.mp hk) (by
    rintro c b l ⟨h1, rfl⟩ h2 h3
    exact ⟨ok_mk h1 h2 h3, holds_some c b⟩))

theorem vis {M : Coll Bool} {LM : LawfulColl M} {K : Coll O} {c : K.C} {b : M.C} {l : List O}
    (h : Vis K c l) (hb : LM.Inv b) (hl : (LM.abs b).length ≤ l.length) :
    Vis (validityBC M K) ⟨c, some b⟩ (mask l (LM.abs b)) := by
  have hlen : (mask l (LM.abs b)).length = (LM.abs b).length := by
    rw [mask_length]; omega
  refine ⟨?_, ?_, ?_, ?_⟩
  · show M.len b = _
    rw [hlen, LM.len_ok hb]
  · rw [hlen]; exact Nat.le_trans hl h.small
  · intro i hi
    have hi' : i < (LM.abs b).length := by rw [← hlen]; exact hi
    obtain ⟨v, h1, h2⟩ := h.view i (by omega)
    obtain ⟨y, hy, hyr⟩ := LM.view_some hb hi'
    have hyo := LM.owned_ok hyr
    refine ⟨if (LM.abs b)[i] then some v else none, ?_, ?_⟩
    · show view M K ⟨c, some b⟩ i = _
      have hl : len M K ⟨c, some b⟩ = .ok (LM.abs b).length := LM.len_ok hb
      simp [view, hl, Res.bind, hi', h1, Res.expect, hy, hyo, Res.map]
    · rw [mask_getElem hi]
      split
      · simp [h2, Res.map]
      · rfl
  · obtain ⟨it, h1, h2⟩ := h.iter
    obtain ⟨bi, h3, h4⟩ := LM.iter_ok hb
    refine ⟨(it, some bi), by simp [pair, h1, h3, Res.bind, Res.map], fun n => ?_⟩
    refine iterates_of (Rep := IterRep (Iterates K.inext K.ilen K.toOwned) LM.IRep)
      (fun h => next_nil iterates_nil (fun {it} h => by
        obtain ⟨it', h1, h2⟩ := LM.inext_nil h
        exact ⟨it', by simp [h1, Res.bind], h2⟩) h) ?_
      (fun h => pairLen_ok iterates_len (fun h => LM.ilen_ok h) h) n
      ⟨l, h2, LM.abs b, h4, hl, rfl⟩
    intro it o m hr
    obtain ⟨v, x, it', e1, e2, e3, e4⟩ := next_cons (V := fun v o => K.toOwned v = .ok o)
      iterates_cons (bnext := fun b => (M.inext b).bind fun r =>
        match r with
        | (none, b') => .ok (none, b')
        | (some x, b') => (M.toOwned x).map fun o => (some o, b'))
      (fun {it o l} h => by
        obtain ⟨v, it', h1, h2, h3⟩ := LM.inext_cons h
        exact ⟨it', by simp [h1, Res.bind, LM.owned_ok h2, Res.map], h3⟩) hr
    refine ⟨_, it', e1, ?_, e4⟩
    cases o with
    | none => rfl
    | some y =>
      simp only [Option.isSome_some, if_true, Option.some.injEq] at e3 ⊢
      rw [e2, e3]; rfl

theorem half {W : O → Prop} (env : World) {c : R.C} {b : BitmapOf B.C} {l : List O}
    (h : Half W L c l) (hb : b.Inv LB) (hl : b.bits ≤ l.length) :
    Half (InOpt W) (validityBG env LB L).lawful ⟨c, some b⟩ (mask l (bitsAre b)) := by
  refine ⟨vis (LM := bitmapBL LB) h.vis hb (by
    show (bitsAre b).length ≤ _; rw [bits_length]; exact hl), fun n ⟨x, hx, hw⟩ => ?_⟩
  obtain ⟨c', t1, t2, t3⟩ := h.trunc n (mask_drop hx hw)
  obtain ⟨u1, u2⟩ := BitmapOf.truncate_ok n hb
  have hbits : (b.truncate n).bits = min n b.bits := by
    rw [← bits_length, u2, List.length_take, bits_length]
  refine ⟨⟨c', some (b.truncate n)⟩, ?_, ?_, ?_⟩
  · show truncate B R ⟨c, some b⟩ n = _
    simp [truncate, t1]
  · exact ok_mk t2 u1 (by rw [hbits, t3, List.length_take]; omega)
  · show holds LB L ⟨c', some (b.truncate n)⟩ = _
    rw [holds_some, t3, u2, mask_take]

theorem holdE {W : O → Prop} (env : World) (hk : HoldE W L) (hb : KeepE LB.toLawfulR) :
    HoldE (InOpt W) (validityBG env LB L).lawful :=
  leavesE env (P := Half W L) hk hb (fun h => Half.of_inv _ (L := (validityBG env LB L).lawful) h rfl)
    (fun h1 h2 h3 => half env h1 h2 h3)

theorem holdT {W : O → Prop} (env : World) (hk : HoldT W L) :
    HoldT (InOpt W) (validityBG env LB L).lawful :=
  leavesT env (P := Half W L) hk (fun h1 h2 h3 => half env h1 h2 h3)

end ValidityOf

/-! ## Lists -/

namespace OffsetsIn

open Offsets (totals totals_length totals_get totals_snoc flatten_take_succ prefix_row asUsize_ofNat
  collectRange_ok)

variable {O : Type} {D : Backing Int} {R : Realloc O} {LD : LawfulB D} {L : LawfulR R} {ow : OffW}
  {P : R.C → List O → Prop} {Q : Of D R → List (List O) → Prop}

theorem extendLoop_leaves (hk : LeavesE L P) (hd : KeepE LD.toLawfulR)
    (hQ : ∀ {c}, Ok LD L c → Q c (rows LD L c))
    (hP : ∀ {d : R.C} {of : D.C} {rs : List (List O)} {x : List O}, P d (rs.flatten ++ x) →
      LD.Inv of → LD.abs of = totals 0 rs → Q ⟨d, of⟩ rs) :
    ∀ (s : Src (List O)) (c : Of D R) (rs : List (List O)), Mid LD L c rs → ∀ c',
    extendLoop ow D R c.data c.offsets (rs.flatten.length : Int) s = (c', .panic) →
      ∃ k, Q c' (rs ++ s.items.take k)
  | [], c, rs, hm, c', h => by simp [extendLoop] at h
  | .none :: s, c, rs, hm, c', h => by simp [extendLoop] at h
  | .panic :: s, c, rs, hm, c', h => by
    simp only [extendLoop, Prod.mk.injEq, and_true] at h
    subst h
    have := hQ hm.toInv.1
    rw [hm.toInv.2] at this
    exact ⟨0, by simpa using this⟩
  | .item r :: s, c, rs, hm, c', h => by
    simp only [extendLoop] at h
    split at h
    · next hfit =>
      generalize hV : R.reserve c.data r.length = V at *
      obtain ⟨d1, o1⟩ := V
      obtain ⟨v1, v2, v3, -⟩ := L.reserve_ok hm.inv hV
      rw [hm.data] at v2
      cases o1 with
      | err => exact absurd rfl v3
      | panic =>
        simp only [Prod.mk.injEq, and_true] at h
        subst h
        have hm1 : Mid LD L ⟨d1, c.offsets⟩ rs := ⟨hm.off, v1, hm.items, v2⟩
        have := hQ hm1.toInv.1
        rw [hm1.toInv.2] at this
        exact ⟨0, by simpa using this⟩
      | ok =>
        simp only at h
        have hne := L.ext_ne (Src.ofList r) v1
        generalize hE : R.extend d1 (Src.ofList r) = E at *
        obtain ⟨d2, o2⟩ := E
        cases o2 with
        | err => exact absurd rfl hne
        | panic =>
          simp only [Prod.mk.injEq, and_true] at h
          subst h
          obtain ⟨k, e1⟩ := hk v1 hE
          rw [v2] at e1
          exact ⟨0, by simpa using hP e1 hm.off hm.items⟩
        | ok =>
          simp only at h
          obtain ⟨e1, e2, -⟩ := L.ext_ok v1 hE
          rw [v2, Src.items_ofList] at e2
          have hne2 := LD.ext_ne [.item ((rs.flatten.length : Int) + r.length)] hm.off
          generalize hF : D.extend c.offsets [.item ((rs.flatten.length : Int) + r.length)] = F at *
          obtain ⟨of, o3⟩ := F
          simp only at h hne2
          have hone : ∀ (_ : LD.Inv of) (_ : LD.abs of = LD.abs c.offsets ++
              [(rs.flatten.length : Int) + r.length]), Mid LD L ⟨d2, of⟩ (rs ++ [r]) := by
            intro k1 k2
            refine ⟨k1, e1, ?_, by simp [e2]⟩
            simp only [k2, hm.items, totals_snoc]
            simp
          cases o3 with
          | err => exact absurd rfl hne2
          | panic =>
            simp only [Prod.mk.injEq, and_true] at h
            subst h
            obtain ⟨k1, k, k2⟩ := hd hm.off hF
            cases k with
            | zero =>
              obtain ⟨i1, i2⟩ := Rep.toInv (D := D.toBuf) (LD := LD.toLawfulColl)
                (L := L.toLawfulColl) (c := ⟨d2, of⟩) (rows := rs)
                ⟨k1, e1, by simp only [k2, hm.items]; simp, by
                  simp only [e2]; exact List.prefix_append _ _⟩
              have := hQ i1
              rw [show rows LD L ⟨d2, of⟩ = rs from i2] at this
              exact ⟨0, by simpa using this⟩
            | succ k =>
              obtain ⟨i1, i2⟩ := (hone k1 (by simpa [Src.items] using k2)).toInv
              have := hQ i1
              rw [i2] at this
              exact ⟨1, by simpa [Src.items] using this⟩
          | ok =>
            obtain ⟨k1, k2, -⟩ := LD.ext_ok hm.off hF
            have hm' := hone k1 (by simpa [Src.items] using k2)
            have hpos : ((rs.flatten.length : Int) + r.length) = (((rs ++ [r]).flatten.length : Nat) : Int) := by
              simp
            simp only [hpos] at h
            obtain ⟨k, i2⟩ := extendLoop_leaves hk hd hQ hP s ⟨d2, of⟩ (rs ++ [r]) hm' c' h
            exact ⟨k + 1, by simpa [Src.items] using i2⟩
    · next hfit =>
      simp only [Prod.mk.injEq, and_true] at h
      subst h
      have := hQ hm.toInv.1
      rw [hm.toInv.2] at this
      exact ⟨0, by simpa using this⟩

theorem leavesE (hz : (D.extend D.empty [.item 0]).2 = .ok) (hk : LeavesE L P) (hd : KeepE LD.toLawfulR)
    (hQ : ∀ {c}, Ok LD L c → Q c (rows LD L c))
    (hP : ∀ {d : R.C} {of : D.C} {rs : List (List O)} {x : List O}, P d (rs.flatten ++ x) →
      LD.Inv of → LD.abs of = totals 0 rs → Q ⟨d, of⟩ rs) :
    LeavesE (offsetsBG ow LD L hz).lawful Q := by
  intro c c' s hc h
  replace h : extend ow D R c s = (c', .panic) := h
  replace hc : Ok LD L c := hc
  unfold extend at h
  rw [last_ok hc.off hc.items] at h
  simp only [asUsize_ofNat] at h
  obtain ⟨d, h1, h2, h3, -⟩ := L.trunc_ok (rows LD L c).flatten.length hc.inv
  simp only [h1] at h
  exact extendLoop_leaves hk hd hQ hP s ⟨d, c.offsets⟩ _ (Mid.of_inv hc h2 h3) c' h

theorem tryExtendLoop_exact (rows0 : List (List O)) : ∀ (s : Src (List O)) (w : World)
    (c : Of D R) (more : List (List O)), Mid LD L c (rows0 ++ more) → ∀ c' w',
    tryExtendLoop ow D R rows0.length rows0.flatten.length w c.data c.offsets
        ((rows0 ++ more).flatten.length : Int) s = (c', .panic, w') →
      Mid LD L c' (rows0 ++ more ++ s.items)
  | [], w, c, more, hm, c', w', h => by simp [tryExtendLoop] at h
  | .none :: s, w, c, more, hm, c', w', h => by simp [tryExtendLoop] at h
  | .panic :: s, w, c, more, hm, c', w', h => by
    simp only [tryExtendLoop, Prod.mk.injEq, true_and] at h
    obtain ⟨rfl, rfl⟩ := h
    simpa [Src.items] using hm
  | .item r :: s, w, c, more, hm, c', w', h => by
    simp only [tryExtendLoop, asUsize_ofNat] at h
    split at h
    · next hfit =>
      have hnp := L.tryExt_np (w := w) (s := Src.ofList r) hm.inv (by simp)
      generalize hE : R.tryExtend w c.data (Src.ofList r) = E at *
      obtain ⟨d1, o1, w1⟩ := E
      cases o1 with
      | panic => exact absurd rfl hnp
      | err =>
        simp only at h
        obtain ⟨e1, e2⟩ := L.tryExt_err hm.inv hE
        exact nomatch (rollback_spec (L := L) hm.off e1 hm.items
          (by rw [e2, hm.data]; simp) h).1
      | ok =>
        simp only at h
        obtain ⟨e1, e2, -⟩ := L.tryExt_ok hm.inv hE
        rw [hm.data, Src.items_ofList] at e2
        have hnp2 := LD.tryExt_np (w := w1)
          (s := [.item ((((rows0 ++ more).flatten.length + r.length : Nat)) : Int)]) hm.off (by simp [Src.panics])
        generalize hF : D.tryExtend w1 c.offsets
          [.item ((((rows0 ++ more).flatten.length + r.length : Nat)) : Int)] = F at *
        obtain ⟨of, o2, w2⟩ := F
        cases o2 with
        | panic => exact absurd rfl hnp2
        | err =>
          simp only at h
          obtain ⟨k1, k2⟩ := LD.tryExt_err hm.off hF
          exact nomatch (rollback_spec (L := L) (more := more) k1 e1
            (by rw [k2]; exact hm.items)
            (by rw [e2, List.flatten_append, List.append_assoc]; exact List.prefix_append _ _) h).1
        | ok =>
          simp only at h
          obtain ⟨k1, k2, -⟩ := LD.tryExt_ok hm.off hF
          have hm' : Mid LD L ⟨d1, of⟩ (rows0 ++ (more ++ [r])) := by
            rw [← List.append_assoc]
            refine ⟨k1, e1, ?_, by simp [e2]⟩
            simp only [k2, hm.items, totals_snoc]
            simp [Src.items]; omega
          have hpos : ((rows0 ++ more).flatten.length + r.length : Nat) =
              (rows0 ++ (more ++ [r])).flatten.length := by
            simp only [List.flatten_append, List.length_append]; simp; omega
          rw [hpos] at h
          have i1 := tryExtendLoop_exact rows0 s w2 ⟨d1, of⟩ (more ++ [r]) hm' c' w' h
          have hass : rows0 ++ (more ++ [r]) ++ Src.items s = rows0 ++ more ++ Src.items (.item r :: s) := by
            simp [Src.items]
          rw [hass] at i1
          exact i1
    · next hfit =>
      exact nomatch (rollback_spec (L := L) hm.off hm.inv hm.items (by rw [hm.data]; simp) h).1

/-- `try_extend` of lists panics only where its source does, between two rows. -/
theorem keepT (hz : (D.extend D.empty [.item 0]).2 = .ok) : KeepT (offsetsBG ow LD L hz).lawful := by
  intro w w' c c' s hc h
  replace h : tryExtend ow D R w c s = (c', .panic, w') := h
  replace hc : Ok LD L c := hc
  unfold tryExtend at h
  rw [last_ok hc.off hc.items, hc.len_ok] at h
  simp only [asUsize_ofNat] at h
  obtain ⟨d, h1, h2, h3, -⟩ := L.trunc_ok (rows LD L c).flatten.length hc.inv
  simp only [h1] at h
  have hm := Mid.of_inv hc h2 h3
  have e1 := tryExtendLoop_exact (L := L) (rows LD L c) s w ⟨d, c.offsets⟩ []
    (by simpa using hm) c' w' (by simpa using h)
  simp only [List.append_nil] at e1
  exact ⟨e1.toInv.1, s.items.length, by rw [List.take_length]; exact e1.toInv.2⟩

theorem keepE (hz : (D.extend D.empty [.item 0]).2 = .ok) (hk : KeepE L) (hd : KeepE LD.toLawfulR) :
    KeepE (offsetsBG ow LD L hz).lawful :=
  keepE_iff.mpr (leavesE hz (P := fun c l => L.Inv c ∧ L.abs c = l)
    (Q := fun c l => Ok LD L c ∧ rows LD L c = l) (keepE_iff.mp hk) hd (fun h => ⟨h, rfl⟩) (by
    rintro d of rs x ⟨h1, h2⟩ h3 h4
    exact Rep.toInv (D := D.toBuf) (LD := LD.toLawfulColl) (L := L.toLawfulColl)
      ⟨h3, h1, h4, by rw [h2]; exact List.prefix_append _ _⟩))

theorem vis {D : Buf Int} {LD : LawfulColl D.toColl} {K : Coll O} {d : K.C} {of : D.C}
    {rs : List (List O)} {x : List O} (h : Vis K d (rs.flatten ++ x)) (hd : LD.Inv of)
    (ho : LD.abs of = totals 0 rs) : Vis (offsetsBC D K) ⟨d, of⟩ rs := by
  have hs := LD.len_le hd
  rw [ho, totals_length] at hs
  have hlen : len D (⟨d, of⟩ : OffsetsIn K.C D.C) = .ok rs.length := by
    unfold len
    rw [LD.len_ok hd, ho, totals_length]
    simp [Res.bind, strictSub]
  have hview : ∀ i (hi : i < rs.length), ∃ v, view D (⟨d, of⟩ : OffsetsIn K.C D.C) i = .ok (some v) ∧
      RowView.toOwned K v = .ok rs[i] := by
    intro i hi
    refine ⟨⟨d, ((rs.take i).flatten).length, ((rs.take (i + 1)).flatten).length⟩, ?_, ?_⟩
    · unfold view
      rw [LD.owned_some hd (by rw [ho]; exact totals_get _ _ i (by omega))]
      simp only [Res.bind]
      rw [strictAdd_one (by omega)]
      simp only
      rw [LD.owned_some hd (by rw [ho]; exact totals_get _ _ (i + 1) (by omega))]
      simp [asUsize_ofNat, Res.map]
    · have hp : rs[i] <+: (rs.flatten ++ x).drop ((rs.take i).flatten).length :=
        prefix_row (List.prefix_append _ _) hi
      have hst : ((rs.take (i + 1)).flatten).length = ((rs.take i).flatten).length + rs[i].length := by
        rw [flatten_take_succ _ _ hi, List.length_append]
      unfold RowView.toOwned RowView.len
      simp only [hst, strictSub, Nat.le_add_right, if_true, Nat.add_sub_cancel_left, Res.bind]
      refine collectRange_ok rs[i] 0 fun j hj => ?_
      obtain ⟨hd, he⟩ := OffsetView.prefix_get hp hj
      obtain ⟨v, h1, h2⟩ := h.view _ hd
      have := h.small
      unfold RowView.view strictAdd
      dsimp only
      rw [Nat.zero_add, if_pos (by omega)]
      simp only [Res.bind]
      rw [if_pos (by omega), h1]
      simp only [Res.expect, h2, he]
  exact {
    len := hlen
    small := by omega
    view := hview
    iter := ⟨⟨0, rs.length, ⟨d, of⟩⟩, by simp [hlen, Res.map], range_iterates hview⟩ }

theorem half {W : O → Prop} (hz : (D.extend D.empty [.item 0]).2 = .ok) {d : R.C} {of : D.C}
    {rs : List (List O)} {x : List O} (h : Half W L d (rs.flatten ++ x)) (hd : LD.Inv of)
    (ho : LD.abs of = totals 0 rs) : Half (InRow W) (offsetsBG ow LD L hz).lawful ⟨d, of⟩ rs := by
  have hv := vis (D := D.toBuf) (LD := LD.toLawfulColl) h.vis hd ho
  refine ⟨hv, fun n ⟨r, hr, hp⟩ => ?_⟩
  have hn : n < rs.length := by
    have := List.length_pos_of_mem hr; simp at this; omega
  have hs := hv.small
  obtain ⟨d', h1, h2, h3⟩ := h.trunc (rs.take n).flatten.length (Offsets.row_drop hr hp)
  obtain ⟨of', g1, g2, g3, -⟩ := LD.trunc_ok (n + 1) hd
  have hpre : (rs.take n).flatten <+: rs.flatten ++ x := by
    refine List.IsPrefix.trans ⟨(rs.drop n).flatten, ?_⟩ (List.prefix_append _ _)
    rw [← List.flatten_append, List.take_append_drop]
  have hm : Mid LD L ⟨d', of'⟩ (rs.take n) := by
    refine ⟨g2, h2, ?_, ?_⟩
    · simp only [g3, ho]
      exact Offsets.totals_take _ _ _ (Nat.le_of_lt hn)
    · simp only [h3]; exact (List.prefix_iff_eq_take.mp hpre).symm
  refine ⟨_, ?_, hm.toInv.1, hm.toInv.2⟩
  show truncate D R ⟨d, of⟩ n = _
  unfold truncate
  rw [show len D.toBuf (⟨d, of⟩ : OffsetsIn R.C D.C) = .ok rs.length from hv.len]
  simp only [hn, if_true]
  have hown : D.toColl.owned of n = _ :=
    LD.owned_some hd (by rw [ho]; exact totals_get 0 _ n (Nat.le_of_lt hn))
  rw [hown]
  simp only [Res.expect, Res.bind, asUsize_ofNat, Nat.zero_add]
  rw [strictAdd_one (by omega)]
  simp only [g1, h1]

theorem holdE {W : O → Prop} (hz : (D.extend D.empty [.item 0]).2 = .ok) (hk : HoldE W L)
    (hd : KeepE LD.toLawfulR) : HoldE (InRow W) (offsetsBG ow LD L hz).lawful :=
  leavesE hz (P := Half W L) hk hd
    (fun h => Half.of_inv _ (L := (offsetsBG ow LD L hz).lawful) h rfl)
    (fun h1 h2 h3 => half hz h1 h2 h3)

end OffsetsIn

end Narrow
