import Verif.Proof.Layout
import Verif.Spec.Env
import Verif.Spec.Reach

/-!
# Reserved capacity

`CapR`: growing within reserved capacity never depends on the allocator.
-/

namespace Narrow

open Spec

/-- `Cap c n`: `n` more items can be appended without allocating. -/
structure CapR {O : Type} {R : Realloc O} (L : LawfulR R) where
  Cap : R.C → Nat → Prop
  reserve : ∀ {w w' c c' n}, L.Inv c → R.tryReserve w c n = (c', .ok, w') → Cap c' n
  trunc : ∀ {c c' n m}, L.Inv c → Cap c n → R.truncate c m = (c', .ok) → Cap c' n
  ext : ∀ {c n s}, L.Inv c → Cap c n → s.panics = false → s.items.length ≤ n →
    ∃ c', Cap c' (n - s.items.length) ∧
      ∀ w, HonestLower w.oracle → ∃ w', R.tryExtend w c s = (c', .ok, w') ∧ w'.oracle = w.oracle

namespace RVec

variable {α : Type}

theorem tryExtendLoop_noalloc {lim len0 : Nat} {w : World} : ∀ (s : Src α) (v : RVec α),
    s.panics = false → v.items.length + s.items.length ≤ v.cap →
    tryExtendLoop lim len0 w v s = (⟨v.items ++ s.items, v.cap⟩, .ok, w)
  | [], v, _, _ => by simp [tryExtendLoop, Src.items]
  | .none :: s, v, _, _ => by simp [tryExtendLoop, Src.items]
  | .panic :: s, v, h, _ => by simp [Src.panics] at h
  | .item a :: s, v, h, hc => by
    simp only [Src.items, List.length_cons] at hc
    have h1 : v.items.length ≠ v.cap := by omega
    have h2 : v.items.length < v.cap := by omega
    simp only [tryExtendLoop, if_neg h1, pushWithin, if_pos h2]
    rw [tryExtendLoop_noalloc s _ (by simpa [Src.panics] using h) (by simp; omega)]
    simp [Src.items]

theorem tryExtend_noalloc {lim : Nat} {w : World} {s : Src α} {v : RVec α}
    (hw : HonestLower w.oracle) (hp : s.panics = false)
    (hc : v.items.length + s.items.length ≤ v.cap) :
    tryExtend lim w v s = (⟨v.items ++ s.items, v.cap⟩, .ok, w.next) := by
  have := hw w.tick s.items.length
  unfold tryExtend
  rw [tryReserve_noalloc (by simp only [World.lowerHint]; omega)]
  exact tryExtendLoop_noalloc s v hp hc

end RVec

/-- Capacity of vectors. -/
def vecCap {α : Type} (lim : Nat) (hlim : lim ≤ usizeMax) (d : α) : CapR (vecL lim hlim d) where
  Cap v n := v.items.length + n ≤ v.cap
  reserve hc h := (RVec.tryReserve_cap h hc).1
  trunc {c c' n m} _ hn h := by
    simp only [vecR, Prod.mk.injEq, and_true] at h
    subst h
    simp only [RVec.truncate, List.length_take]
    omega
  ext {c n s} _ hn hp hs :=
    ⟨⟨c.items ++ s.items, c.cap⟩, by simp; omega, fun w hw =>
      ⟨w.next, RVec.tryExtend_noalloc hw hp (by omega), rfl⟩⟩

namespace Bitmap

/-- Room for `n` more bits in the capacity of the buffer. -/
def Cap (b : Bitmap) (n : Nat) : Prop := bytesForBits (b.offset + b.bits + n) ≤ b.buffer.cap

theorem tryReserve_capacity {w w' : World} {b b' : Bitmap} {n : Nat} (hb : b.Inv)
    (h : tryReserve w b n = (b', .ok, w')) : Cap b' n := by
  obtain ⟨t, h1, h2, h3⟩ := trailingBits_ok hb
  have hle := hb.le
  have hcap := hb.wf.le_cap
  simp only [tryReserve, h1] at h
  unfold Cap bytesForBits
  split at h
  · next htn =>
    generalize hR : RVec.tryReserve byteMax w b.buffer (bytesForBits (n - t)) = R at h
    obtain ⟨buf, o, w1⟩ := R
    simp only [Prod.mk.injEq] at h
    obtain ⟨rfl, rfl, rfl⟩ := h
    have h4 := RVec.tryReserve_cap hR hb.wf
    have h5 := RVec.tryReserve_items byteMax w b.buffer (bytesForBits (n - t))
    rw [hR] at h5
    simp only at h5 ⊢
    rw [h5] at h4
    unfold bytesForBits at h4
    omega
  · simp only [Prod.mk.injEq, true_and] at h
    obtain ⟨rfl, rfl⟩ := h
    omega

theorem tryExtend_capacity {b : Bitmap} {n : Nat} {s : Src Bool} (hb : b.Inv) (hn : Cap b n)
    (hp : s.panics = false) (hs : s.items.length ≤ n) :
    ∃ b', Cap b' (n - s.items.length) ∧
      ∀ w, HonestLower w.oracle → ∃ w', tryExtend w b s = (b', .ok, w') ∧ w'.oracle = w.oracle := by
  obtain ⟨k, k1, k2, k3, k4, k5, k6, k7, k8, k9, k10⟩ := phase1_spec hb (Src.fused_fuse s)
  simp only [Src.items_fuse, Src.panics_fuse] at *
  unfold tryExtend
  generalize hP : phase1 b s.fuse = P at *
  obtain ⟨b1, s1, p⟩ := P
  simp only at *
  unfold Cap bytesForBits at *
  cases p with
  | true => exact absurd (k9 rfl).1 (by simp [hp])
  | false =>
    obtain ⟨f1, f2, f3, f4⟩ := k10 rfl
    rw [hp] at f3
    have hle := hb.le
    have hcap := hb.wf.le_cap
    have hle1 := k2.le
    have hb1 := k2.small'
    have halign : (s1.items ≠ [] ∨ s1.panics = true) → (b1.offset + b1.bits) % 8 = 0 := by
      intro h; rw [k3, k4]; apply f4
      rcases h with h | h
      · left; rw [f2] at h; simpa using h
      · simp [f3] at h
    obtain ⟨g1, g2⟩ := phase2_spec k2 f1 halign
    by_cases hdone : s1.items = []
    · dsimp only
      rw [g1 ⟨hdone, f3⟩]
      have : k = s.items.length := by
        rw [f2] at hdone; simp at hdone; omega
      exact ⟨b1, by rw [k3, k4, k7]; omega, fun w _ => ⟨w, rfl, rfl⟩⟩
    · obtain ⟨buf, packed, m, p, e1, e2, e3, e4, e5⟩ := g2 (.inl hdone)
      have hrest : s1.items.length + k = s.items.length := by rw [f2]; simp; omega
      dsimp only
      rw [e1]
      cases p with
      | true => exact absurd (e4 rfl) (by simp [f3])
      | false =>
        obtain ⟨q1, q2, q3, q4⟩ := e5 rfl
        rw [f3] at q2
        obtain ⟨u1, u2, u3⟩ := q4 f3
        unfold bytesForBits at q3
        have hfit : buf.length + packed.items.length ≤ b1.buffer.cap := by
          rw [e2, k6, k7]
          rw [k3, k4, k6] at q3
          omega
        have hlim := k2.wf.cap_lim
        have hsum : b1.bits + m ≤ usizeMax := by
          simp only [List.length_append] at u2
          unfold byteMax at hlim; unfold usizeMax; omega
        refine ⟨⟨⟨buf ++ packed.items, b1.buffer.cap⟩, b1.bits + m, b1.offset⟩, ?_, fun w hw => ?_⟩
        · simp only [k3, k4, k7, u1]
          omega
        · dsimp only
          rw [RVec.tryExtend_noalloc (v := ⟨buf, b1.buffer.cap⟩) hw q2 hfit]
          refine ⟨w.next, ?_, rfl⟩
          simp only [strictAdd_ok hsum]

/-- Capacity of bitmaps. -/
def cap : CapR bitmapL where
  Cap b n := Bitmap.Cap b n
  reserve hc h := tryReserve_capacity hc h
  trunc {c c' n m} _ hn h := by
    simp only [bitmapR, Prod.mk.injEq, and_true] at h
    subst h
    unfold truncate
    split
    · unfold Cap bytesForBits at *; simp only; omega
    · exact hn
  ext hc hn hp hs := tryExtend_capacity hc hn hp hs

end Bitmap

namespace Flatten

variable {O : Type} {R : Realloc O}

/-- Capacity of fixed-size lists. -/
def cap {L : LawfulR R} (K : CapR L) (n : Nat) (hn : 0 < n) : CapR (flattenL L n hn) where
  Cap c k := K.Cap c.child (k * n)
  reserve {w w' c c' k} hc h := by
    simp only [flattenR] at h
    split at h
    · simp at h
    · next m hm =>
      simp only [checkedMul] at hm
      split at hm <;> simp only [Option.some.injEq, reduceCtorEq] at hm
      subst hm
      simp only [Prod.mk.injEq] at h
      obtain ⟨rfl, h, rfl⟩ := h
      exact K.reserve hc.1 (Prod.ext rfl (Prod.ext h rfl))
  trunc {c c' k m} hc hk h := by
    simp only [flattenR] at h
    split at h
    · simp at h
    · split at h
      · split at h
        · simp at h
        · simp only [Prod.mk.injEq] at h
          obtain ⟨rfl, h⟩ := h
          exact K.trunc hc.1 hk (Prod.ext rfl h)
      · simp only [Prod.mk.injEq, and_true] at h
        subst h; exact hk
  ext {c k s} hc hk hp hs := by
    have hlen : (flatSrc s).items.length = s.items.length * n := by
      rw [items_flatSrc, flat_length]
    obtain ⟨c', h1, h2⟩ := K.ext (s := flatSrc s) hc.1 hk (by rw [panics_flatSrc]; exact hp)
      (by rw [hlen]; exact Nat.mul_le_mul_right n hs)
    refine ⟨⟨c'⟩, ?_, fun w hw => ?_⟩
    · rw [hlen, ← Nat.sub_mul] at h1; exact h1
    · obtain ⟨w', h3, h4⟩ := h2 w hw
      exact ⟨w', by simp only [flattenR, h3], h4⟩

end Flatten

namespace Validity

variable {O : Type} {R : Realloc O} {L : LawfulR R}

/-- Room for `n` more nullable items. -/
def Cap (K : CapR L) (v : Validity R.C) (n : Nat) : Prop :=
  K.Cap v.coll n ∧ ∃ b, v.bitmap = some b ∧ b.Cap n

theorem tryExtendLoop_capacity (K : CapR L) (len0 : Nat) (s : Src (Option O)) (hp : s.panics = false) :
    ∀ {n c b}, Mid (L := L) c b → K.Cap c n → b.Cap n → s.items.length ≤ n →
    ∃ v', Cap K v' (n - s.items.length) ∧ ∀ w, HonestLower w.oracle →
      ∃ w', tryExtendLoop R len0 w c b s = (v', .ok, w') ∧ w'.oracle = w.oracle := by
  intro n c b hm hc hb hs
  have htk := Src.takeChunk_items validityChunk s
  have htp := Src.takeChunk_panics validityChunk s
  rw [hp, Bool.false_and] at htp
  have hvl : (values R.dflt (Src.takeChunk validityChunk s).1).items.length =
      min validityChunk s.items.length := by rw [values_items, htk]; simp
  have hfl : (flags (Src.takeChunk validityChunk s).1).length =
      min validityChunk s.items.length := by simp [flags, htk]
  obtain ⟨c1, h1, h2⟩ := K.ext (s := values R.dflt (Src.takeChunk validityChunk s).1) hm.inv hc
    (by rw [values_panics, htp]) (by rw [hvl]; omega)
  obtain ⟨b1, h3, h4⟩ := Bitmap.tryExtend_capacity (s := Src.ofList (flags (Src.takeChunk validityChunk s).1))
    hm.binv hb (by simp) (by simp only [Src.items_ofList, hfl]; omega)
  simp only [Src.items_ofList, hfl] at h3
  rw [hvl] at h1
  by_cases hlast : (flags (Src.takeChunk validityChunk s).1).length < validityChunk
  · refine ⟨⟨c1, some b1⟩, ⟨?_, b1, rfl, ?_⟩, fun w hw => ?_⟩
    · rw [hfl] at hlast
      rw [show min validityChunk s.items.length = s.items.length by omega] at h1; exact h1
    · rw [hfl] at hlast
      rw [show min validityChunk s.items.length = s.items.length by omega] at h3; exact h3
    · obtain ⟨w1, e1, o1⟩ := h2 w hw
      obtain ⟨w2, e2, o2⟩ := h4 w1 (o1 ▸ hw)
      refine ⟨w2, ?_, o2.trans o1⟩
      rw [tryExtendLoop, e1]
      dsimp only
      rw [e2]
      dsimp only
      rw [dif_pos hlast]
  · have hge : validityChunk ≤ s.items.length := by rw [hfl] at hlast; omega
    obtain ⟨r1, r2⟩ := Src.takeChunk_rest_items validityChunk s hge
    have hmin : min validityChunk s.items.length = validityChunk := by omega
    rw [hmin] at h1 h3
    have hdec : (Src.takeChunk validityChunk s).2.length < List.length s := by
      have := takeChunk_length validityChunk s
      rw [htk, List.length_take, hmin] at this
      unfold validityChunk at this ⊢; omega
    -- the chunk leaves the collection and the bitmap in step
    have hmid : Mid (L := L) c1 b1 := by
      obtain ⟨w1, e1, o1⟩ := h2 ⟨⟨fun _ _ => none, fun _ _ => 0, fun _ _ => none⟩, 0⟩
        (fun _ _ => Nat.zero_le _)
      obtain ⟨w2, e2, o2⟩ := h4 ⟨⟨fun _ _ => none, fun _ _ => 0, fun _ _ => none⟩, 0⟩
        (fun _ _ => Nat.zero_le _)
      obtain ⟨i1, i2, -⟩ := L.tryExt_ok hm.inv e1
      obtain ⟨j1, -, -, j4, -⟩ := Bitmap.tryExtend_spec hm.binv e2
      have j5 := congrArg List.length (j4 rfl).1
      have i5 := congrArg List.length i2
      have := hm.len
      simp only [Bitmap.abs_length, List.length_append, Src.items_ofList, hfl] at j5
      rw [List.length_append, hvl] at i5
      exact ⟨i1, j1, by omega⟩
    obtain ⟨v', k1, k2⟩ := tryExtendLoop_capacity K len0 (Src.takeChunk validityChunk s).2
      (by rw [r2]; exact hp) hmid h1 h3 (by rw [r1]; simp; omega)
    refine ⟨v', ?_, fun w hw => ?_⟩
    · rw [r1, List.length_drop] at k1
      rwa [show n - validityChunk - (s.items.length - validityChunk) = n - s.items.length by omega] at k1
    · obtain ⟨w1, e1, o1⟩ := h2 w hw
      obtain ⟨w2, e2, o2⟩ := h4 w1 (o1 ▸ hw)
      obtain ⟨w3, e3, o3⟩ := k2 w2 (by rw [o2, o1]; exact hw)
      refine ⟨w3, ?_, o3.trans (o2.trans o1)⟩
      rw [tryExtendLoop, e1]
      dsimp only
      rw [e2]
      dsimp only
      rw [dif_neg hlast]
      exact e3
termination_by s.length

/-- Capacity of nullable collections. -/
def cap (K : CapR L) : CapR (validityL L) where
  Cap v n := Cap K v n
  reserve {w w' v v' n} hv h := by
    simp only [validityR, tryReserve] at h
    generalize hm : tryMaterialize R.toColl w v = M at *
    obtain ⟨t, w1⟩ := M
    cases t with
    | panic => simp at h
    | err => simp at h
    | ok b =>
      obtain ⟨m1, -, -, -⟩ := tryMaterialize_ok hv hm
      simp only at h
      generalize hR : R.tryReserve w1 v.coll n = Q at *
      obtain ⟨c, o, w2⟩ := Q
      cases o with
      | panic => simp at h
      | err => simp at h
      | ok =>
        simp only [Prod.mk.injEq] at h
        obtain ⟨rfl, h, rfl⟩ := h
        exact ⟨K.reserve m1.1 hR, _, rfl,
          Bitmap.tryReserve_capacity (m1.2 b rfl).1 (Prod.ext rfl (Prod.ext h rfl))⟩
  trunc {v v' n m} hv hn h := by
    simp only [validityR, truncate, Prod.mk.injEq] at h
    obtain ⟨rfl, h⟩ := h
    obtain ⟨h1, b, h2, h3⟩ := hn
    exact ⟨K.trunc hv.1 h1 (Prod.ext rfl h), b.truncate m, by simp [h2],
      Bitmap.cap.trunc (hv.2 b h2).1 h3 rfl⟩
  ext {v n s} hv hn hp hs := by
    obtain ⟨h1, b, h2, h3⟩ := hn
    obtain ⟨c, ob⟩ := v
    simp only at h2
    subst h2
    have hb : b.Inv ∧ b.bits ≤ (L.abs c).length := hv.2 b rfl
    have hlen : (abs L.toLawfulColl (⟨c, some b⟩ : Validity R.C)).length = b.bits := by
      have := hb.2
      simp only [abs, mask_length, Bitmap.abs_length]
      omega
    obtain ⟨c1, t1, t2, t3, -⟩ := L.trunc_ok b.bits hv.1
    have hmid : Mid (L := L) c1 b := ⟨t2, hb.1, by rw [t3]; simp; omega⟩
    obtain ⟨v', k1, k2⟩ := tryExtendLoop_capacity K b.bits s hp hmid (K.trunc hv.1 h1 t1) h3 hs
    refine ⟨v', k1, fun w hw => ?_⟩
    obtain ⟨w', e, o⟩ := k2 w hw
    refine ⟨w', ?_, o⟩
    show tryExtend R w ⟨c, some b⟩ s = _
    unfold tryExtend
    simp only [len_ok hv, hlen, tryMaterialize, t1]
    exact e

end Validity

/-- Capacity of possibly nullable collections. -/
def nullCap {O : Type} (nl : Bool) {R : Realloc O} {L : LawfulR R} (K : CapR L) : CapR (nullL nl L) :=
  match nl with
  | false => K
  | true => Validity.cap K

/-- Capacity of the layouts without variable-size lists. -/
def baseCap : (t : Ty) → (h : t.WF) → NoVec t → CapR (baseL t h)
  | .bool, _, _ => Bitmap.cap
  | .prim p, _, _ => vecCap p.lim p.lim_le 0#(8 * p.size)
  | .fsl n nl t, h, hv => Flatten.cap (nullCap nl (baseCap t h.2 hv)) n h.1

/-- Capacity of arrays without variable-size lists. -/
def arrayCap (nl : Bool) (t : Ty) (h : t.WF) (hv : NoVec t) : CapR (arrayL nl t h) :=
  nullCap nl (baseCap t h hv)

end Narrow
