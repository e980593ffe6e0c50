import Verif.Proof.Capacity
import Verif.Proof.Compose
import Verif.Spec.Room

/-!
# Room for given items

`HoldsR` refines `CapR` for all collections, lists included: the room is a list
of items rather than a number of items, and it comes from each of the calls that
reserve.
-/

namespace Narrow

open Spec

/-- `Covers n l`: reserving for `n` items makes room for `l`. `Holds c l`: `l` can
be appended to `c` without allocating. -/
structure HoldsR {O : Type} {R : Realloc O} (L : LawfulR R) where
  Covers : Nat → List O → Prop
  Holds : R.C → List O → Prop
  withCap : ∀ {n c l}, R.withCap n = .ok c → L.Room 0 l → Covers n l → Holds c l
  tryWithCap : ∀ {w w' n c l}, R.tryWithCap w n = (.ok c, w') → L.Room 0 l → Covers n l → Holds c l
  reserve : ∀ {c c' n l}, L.Inv c → L.Canon c → R.reserve c n = (c', .ok) →
    L.Room 0 (L.abs c ++ l) → Covers n l → Holds c' l
  tryReserve : ∀ {w w' c c' n l}, L.Inv c → L.Canon c → R.tryReserve w c n = (c', .ok, w') →
    L.Room 0 (L.abs c ++ l) → Covers n l → Holds c' l
  trunc : ∀ {c c' m l}, L.Inv c → Holds c l → R.truncate c m = (c', .ok) → Holds c' l
  ext : ∀ {c s l}, L.Inv c → Holds c (s.items ++ l) → s.panics = false →
    ∃ c', Holds c' l ∧
      ∀ w, HonestLower w.oracle → ∃ w', R.tryExtend w c s = (c', .ok, w') ∧ w'.oracle = w.oracle

/-- An environment with honest hints. -/
def calm : World := ⟨⟨fun _ _ => none, fun _ _ => 0, fun _ _ => none⟩, 0⟩

theorem calm_honest : HonestLower calm.oracle := fun _ _ => Nat.zero_le _

namespace RVec

variable {α : Type}

theorem reserve_room {lim : Nat} {v v' : RVec α} {n : Nat} (h : reserve lim v n = (v', .ok))
    (hv : v.WF lim) : v'.items.length + n ≤ v'.cap := by
  have := hv.le_cap
  unfold reserve at h
  split at h
  · simp only [Prod.mk.injEq, and_true] at h; subst h; omega
  · split at h
    · simp only [Prod.mk.injEq, and_true] at h; subst h; exact Nat.le_refl _
    · simp at h

theorem withCap_room {lim n : Nat} {v : RVec α} (h : withCap lim n = .ok v) :
    v.items = [] ∧ v.cap = n := by
  unfold withCap at h
  split at h
  · simp only [Try.ok.injEq] at h; subst h; exact ⟨rfl, rfl⟩
  · simp at h

theorem tryWithCap_room {lim n : Nat} {w w' : World} {v : RVec α}
    (h : tryWithCap lim w n = (.ok v, w')) : v.items = [] ∧ n ≤ v.cap := by
  unfold tryWithCap at h
  split at h
  · next v1 w1 h1 =>
    simp only [Prod.mk.injEq, Try.ok.injEq] at h
    obtain ⟨rfl, rfl⟩ := h
    have h2 := (tryReserve_cap h1 WF.empty).1
    have h3 := tryReserve_items lim w (empty : RVec α) n
    rw [h1] at h3
    have h3 : v1.items = [] := h3
    rw [h3] at h2
    exact ⟨h3, by simpa using h2⟩
  · simp at h

theorem extend_cap (lim : Nat) : ∀ (s : Src α) (v : RVec α), v.cap ≤ (extend lim v s).1.cap
  | [], v => Nat.le_refl _
  | .none :: _, v => Nat.le_refl _
  | .panic :: _, v => Nat.le_refl _
  | .item a :: s, v => by
    simp only [extend]
    split
    · exact Nat.le_trans (by simp [push]; omega) (extend_cap lim s (v.push a))
    · exact Nat.le_refl _

theorem tryReserve_grow {lim : Nat} {w : World} {v : RVec α} (n : Nat) (hv : v.WF lim) :
    v.cap ≤ (tryReserve lim w v n).1.cap := by
  have h1 := hv.le_cap
  have h2 := hv.cap_lim
  unfold tryReserve
  split
  · exact Nat.le_refl _
  · split
    · split
      · exact Nat.le_refl _
      · simp only; omega
    · exact Nat.le_refl _

theorem pushWithin_cap {v v' : RVec α} {a : α} (h : v.pushWithin a = some v') : v'.cap = v.cap := by
  unfold pushWithin at h
  split at h
  · simp only [Option.some.injEq] at h; subst h; rfl
  · simp at h

theorem pushWithin_wf {lim : Nat} {v v' : RVec α} {a : α} (h : v.pushWithin a = some v')
    (hv : v.WF lim) : v'.WF lim := by
  have h1 := hv.cap_lim
  unfold pushWithin at h
  split at h
  · simp only [Option.some.injEq] at h; subst h; exact ⟨by simp; omega, h1⟩
  · simp at h

theorem tryExtendLoop_cap {lim len0 : Nat} : ∀ (s : Src α) (w : World) (v : RVec α), v.WF lim →
    v.cap ≤ (tryExtendLoop lim len0 w v s).1.cap
  | [], _, _, _ => Nat.le_refl _
  | .none :: _, _, _, _ => Nat.le_refl _
  | .panic :: _, _, _, _ => Nat.le_refl _
  | .item a :: s, w, v, hv => by
    have hg := tryReserve_grow (w := w) 1 hv
    have hw := tryReserve_wf w 1 hv
    simp only [tryExtendLoop]
    split
    · generalize tryReserve lim w v 1 = Q at *
      obtain ⟨v1, o, w1⟩ := Q
      cases o with
      | err => exact hg
      | panic => exact hg
      | ok =>
        simp only
        split
        · next v2 h2 =>
          refine Nat.le_trans ?_ (tryExtendLoop_cap s w1 v2 (pushWithin_wf h2 hw))
          rw [pushWithin_cap h2]; exact hg
        · exact hg
    · split
      · next v2 h2 =>
        refine Nat.le_trans ?_ (tryExtendLoop_cap s w v2 (pushWithin_wf h2 hv))
        rw [pushWithin_cap h2]; exact Nat.le_refl _
      · exact Nat.le_refl _

theorem tryExtend_cap {lim : Nat} {v : RVec α} (w : World) (s : Src α) (hv : v.WF lim) :
    v.cap ≤ (tryExtend lim w v s).1.cap := by
  have hg := tryReserve_grow (w := w.next) (w.lowerHint s.items.length) hv
  have hw := tryReserve_wf w.next (w.lowerHint s.items.length) hv
  unfold tryExtend
  generalize tryReserve lim w.next v (w.lowerHint s.items.length) = Q at *
  obtain ⟨v1, o, w1⟩ := Q
  cases o with
  | err => exact hg
  | panic => exact hg
  | ok => exact Nat.le_trans hg (tryExtendLoop_cap s w1 v1 hw)

end RVec

/-- Room in vectors. -/
def vecHolds {α : Type} (lim : Nat) (hlim : lim ≤ usizeMax) (d : α) : HoldsR (vecL lim hlim d) where
  Covers n l := l.length ≤ n
  Holds v l := v.items.length + l.length ≤ v.cap
  withCap {n c l} h _ hl := by
    obtain ⟨h1, h2⟩ := RVec.withCap_room h
    simp only [h1, h2, List.length_nil]; omega
  tryWithCap {w w' n c l} h _ hl := by
    obtain ⟨h1, h2⟩ := RVec.tryWithCap_room h
    simp only [h1, List.length_nil]; omega
  reserve {c c' n l} hc _ h _ hl := by
    have : c'.items.length + n ≤ c'.cap := RVec.reserve_room h hc
    omega
  tryReserve {w w' c c' n l} hc _ h _ hl := by
    have : c'.items.length + n ≤ c'.cap := (RVec.tryReserve_cap h hc).1
    omega
  trunc {c c' m l} _ hn h := by
    simp only [vecR, Prod.mk.injEq, and_true] at h
    subst h
    simp only [RVec.truncate, List.length_take]
    omega
  ext {c s l} _ hn hp := by
    rw [List.length_append] at hn
    exact ⟨⟨c.items ++ s.items, c.cap⟩, by simp; omega, fun w hw =>
      ⟨w.next, RVec.tryExtend_noalloc hw hp (by omega), rfl⟩⟩

namespace Bitmap

theorem reserve_capacity {b b' : Bitmap} {n : Nat} (hb : b.Inv)
    (h : reserve b n = (b', .ok)) : Cap b' n := by
  obtain ⟨t, h1, h2, h3⟩ := trailingBits_ok hb
  have hle := hb.le
  have hcap := hb.wf.le_cap
  simp only [reserve, h1] at h
  unfold Cap bytesForBits
  split at h
  · next htn =>
    generalize hR : RVec.reserve byteMax b.buffer (bytesForBits (n - t)) = R at h
    obtain ⟨buf, o⟩ := R
    simp only [Prod.mk.injEq] at h
    obtain ⟨rfl, rfl⟩ := h
    have h4 := RVec.reserve_room hR hb.wf
    have h5 := RVec.reserve_items byteMax b.buffer (bytesForBits (n - t))
    rw [hR] at h5
    simp only at h5 ⊢
    rw [h5] at h4
    unfold bytesForBits at h4
    omega
  · simp only [Prod.mk.injEq, and_true] at h
    subst h
    omega

theorem withCap_capacity {n : Nat} {b : Bitmap} (h : withCap n = .ok b) : Cap b n := by
  unfold withCap at h
  split at h
  · next buf hb =>
    simp only [Try.ok.injEq] at h
    subst h
    obtain ⟨h1, h2⟩ := RVec.withCap_room hb
    simp [Cap, h2]
  · simp at h
  · simp at h

theorem tryWithCap_capacity {w w' : World} {n : Nat} {b : Bitmap}
    (h : tryWithCap w n = (.ok b, w')) : Cap b n := by
  unfold tryWithCap at h
  split at h
  · next buf w1 hb =>
    simp only [Prod.mk.injEq, Try.ok.injEq] at h
    obtain ⟨rfl, rfl⟩ := h
    obtain ⟨h1, h2⟩ := RVec.tryWithCap_room hb
    simpa [Cap] using h2
  · simp at h
  · simp at h

theorem Cap.mono {b : Bitmap} {m n : Nat} (h : Cap b n) (hm : m ≤ n) : Cap b m := by
  unfold Cap bytesForBits at *; omega

/-- Room in bitmaps. -/
def holds : HoldsR bitmapL where
  Covers n l := l.length ≤ n
  Holds b l := Cap b l.length
  withCap h _ hl := (withCap_capacity h).mono hl
  tryWithCap h _ hl := (tryWithCap_capacity h).mono hl
  reserve hc _ h _ hl := (reserve_capacity hc h).mono hl
  tryReserve hc _ h _ hl := (tryReserve_capacity hc h).mono hl
  trunc hc hn h := Bitmap.cap.trunc hc hn h
  ext {c s l} hc hn hp := by
    rw [List.length_append] at hn
    obtain ⟨b', h1, h2⟩ := tryExtend_capacity hc hn hp (by omega)
    exact ⟨b', by rwa [Nat.add_sub_cancel_left] at h1, h2⟩

end Bitmap

namespace Flatten

variable {O : Type} {R : Realloc O}

/-- Room in fixed-size lists. -/
def holds {L : LawfulR R} (K : HoldsR L) (n : Nat) (hn : 0 < n) : HoldsR (flattenL L n hn) where
  Covers k l := K.Covers (k * n) (flat l)
  Holds c l := K.Holds c.child (flat l)
  withCap {k c l} h hr hl := by
    have hr : L.Room (0 * n) (flat l) := hr
    rw [Nat.zero_mul] at hr
    simp only [flattenR, strictMul] at h
    split at h
    · simp at h
    · next m hm =>
      split at hm <;> simp only [Res.ok.injEq, reduceCtorEq] at hm
      subst hm
      exact K.withCap (wrapTry_ok h) hr hl
  tryWithCap {w w' k c l} h hr hl := by
    have hr : L.Room (0 * n) (flat l) := hr
    rw [Nat.zero_mul] at hr
    simp only [flattenR, checkedMul] at h
    split at h
    · simp at h
    · next m hm =>
      split at hm <;> simp only [Option.some.injEq, reduceCtorEq] at hm
      subst hm
      simp only [Prod.mk.injEq] at h
      obtain ⟨h, rfl⟩ := h
      exact K.tryWithCap (Prod.ext (wrapTry_ok h) rfl) hr hl
  reserve {c c' k l} hc hk h hr hl := by
    have hr : L.Room (0 * n) (flat (flatAbs L.toLawfulColl n c ++ l)) := hr
    rw [Nat.zero_mul, flat_append, flat_abs hn hc] at hr
    simp only [flattenR, strictMul] at h
    split at h
    · simp at h
    · next m hm =>
      split at hm <;> simp only [Res.ok.injEq, reduceCtorEq] at hm
      subst hm
      simp only [Prod.mk.injEq] at h
      obtain ⟨rfl, h⟩ := h
      exact K.reserve hc.1 hk (Prod.ext rfl h) hr hl
  tryReserve {w w' c c' k l} hc hk h hr hl := by
    have hr : L.Room (0 * n) (flat (flatAbs L.toLawfulColl n c ++ l)) := hr
    rw [Nat.zero_mul, flat_append, flat_abs hn hc] at hr
    simp only [flattenR, checkedMul] at h
    split at h
    · simp at h
    · next m hm =>
      split at hm <;> simp only [Option.some.injEq, reduceCtorEq] at hm
      subst hm
      simp only [Prod.mk.injEq] at h
      obtain ⟨rfl, h, rfl⟩ := h
      exact K.tryReserve hc.1 hk (Prod.ext rfl (Prod.ext h rfl)) hr hl
  trunc {c c' m l} hc hk h := by
    simp only [flattenR] at h
    split at h
    · simp at h
    · split at h
      · split at h
        · simp at h
        · simp only [Prod.mk.injEq] at h
          obtain ⟨rfl, h⟩ := h
          exact K.trunc hc.1 hk (Prod.ext rfl h)
      · simp only [Prod.mk.injEq, and_true] at h
        subst h; exact hk
  ext {c s l} hc hk hp := by
    obtain ⟨c', h1, h2⟩ := K.ext (s := flatSrc s) (l := flat l) hc.1
      (by rw [items_flatSrc]; simpa [flat] using hk) (by rw [panics_flatSrc]; exact hp)
    refine ⟨⟨c'⟩, h1, fun w hw => ?_⟩
    obtain ⟨w', h3, h4⟩ := h2 w hw
    exact ⟨w', by simp only [flattenR, h3], h4⟩

end Flatten

namespace Validity

variable {O : Type} {R : Realloc O} {L : LawfulR R}

/-- Room for nullable items. -/
def Holds (K : HoldsR L) (v : Validity R.C) (l : List (Option O)) : Prop :=
  K.Holds v.coll (l.map (·.getD R.dflt)) ∧ ∃ b, v.bitmap = some b ∧ b.Cap l.length

theorem tryExtendLoop_room (K : HoldsR L) (len0 : Nat) (l : List (Option O)) (s : Src (Option O))
    (hp : s.panics = false) :
    ∀ {c b}, Mid (L := L) c b → K.Holds c ((s.items ++ l).map (·.getD R.dflt)) →
    b.Cap (s.items ++ l).length →
    ∃ v', Holds K v' l ∧ ∀ w, HonestLower w.oracle →
      ∃ w', tryExtendLoop R len0 w c b s = (v', .ok, w') ∧ w'.oracle = w.oracle := by
  intro c b hm hc hb
  have htk := Src.takeChunk_items validityChunk s
  have htp := Src.takeChunk_panics validityChunk s
  rw [hp, Bool.false_and] at htp
  have hsplit : s.items ++ l = s.items.take validityChunk ++ (s.items.drop validityChunk ++ l) := by
    rw [← List.append_assoc, List.take_append_drop]
  have hvl : (values R.dflt (Src.takeChunk validityChunk s).1).items.length =
      min validityChunk s.items.length := by rw [values_items, htk]; simp
  have hfl : (flags (Src.takeChunk validityChunk s).1).length =
      min validityChunk s.items.length := by simp [flags, htk]
  obtain ⟨c1, h1, h2⟩ := K.ext (s := values R.dflt (Src.takeChunk validityChunk s).1)
    (l := (s.items.drop validityChunk ++ l).map (·.getD R.dflt)) hm.inv
    (by rw [values_items, htk, ← List.map_append, ← hsplit]; exact hc) (by rw [values_panics, htp])
  obtain ⟨b1, h3, h4⟩ := Bitmap.tryExtend_capacity (s := Src.ofList (flags (Src.takeChunk validityChunk s).1))
    hm.binv hb (by simp) (by simp only [Src.items_ofList, hfl, List.length_append]; omega)
  simp only [Src.items_ofList, hfl] at h3
  have hrest : (s.items ++ l).length - min validityChunk s.items.length =
      (s.items.drop validityChunk ++ l).length := by
    simp only [List.length_append, List.length_drop]; omega
  rw [hrest] at h3
  by_cases hlast : (flags (Src.takeChunk validityChunk s).1).length < validityChunk
  · have hnil : s.items.drop validityChunk = [] := by
      rw [hfl] at hlast
      exact List.drop_eq_nil_of_le (by omega)
    rw [hnil, List.nil_append] at h1 h3
    refine ⟨⟨c1, some b1⟩, ⟨h1, b1, rfl, h3⟩, fun w hw => ?_⟩
    obtain ⟨w1, e1, o1⟩ := h2 w hw
    obtain ⟨w2, e2, o2⟩ := h4 w1 (o1 ▸ hw)
    refine ⟨w2, ?_, o2.trans o1⟩
    rw [tryExtendLoop, e1]
    dsimp only
    rw [e2]
    dsimp only
    rw [dif_pos hlast]
  · have hge : validityChunk ≤ s.items.length := by rw [hfl] at hlast; omega
    obtain ⟨r1, r2⟩ := Src.takeChunk_rest_items validityChunk s hge
    have hmin : min validityChunk s.items.length = validityChunk := by omega
    have hdec : (Src.takeChunk validityChunk s).2.length < List.length s := by
      have := takeChunk_length validityChunk s
      rw [htk, List.length_take, hmin] at this
      unfold validityChunk at this ⊢; omega
    have hmid : Mid (L := L) c1 b1 := by
      obtain ⟨w1, e1, o1⟩ := h2 calm calm_honest
      obtain ⟨w2, e2, o2⟩ := h4 calm calm_honest
      obtain ⟨i1, i2, -⟩ := L.tryExt_ok hm.inv e1
      obtain ⟨j1, -, -, j4, -⟩ := Bitmap.tryExtend_spec hm.binv e2
      have j5 := congrArg List.length (j4 rfl).1
      have i5 := congrArg List.length i2
      have := hm.len
      simp only [Bitmap.abs_length, List.length_append, Src.items_ofList, hfl] at j5
      rw [List.length_append, hvl] at i5
      exact ⟨i1, j1, by omega⟩
    obtain ⟨v', k1, k2⟩ := tryExtendLoop_room K len0 l (Src.takeChunk validityChunk s).2
      (by rw [r2]; exact hp) hmid (by rw [r1]; exact h1) (by rw [r1]; exact h3)
    refine ⟨v', k1, fun w hw => ?_⟩
    obtain ⟨w1, e1, o1⟩ := h2 w hw
    obtain ⟨w2, e2, o2⟩ := h4 w1 (o1 ▸ hw)
    obtain ⟨w3, e3, o3⟩ := k2 w2 (by rw [o2, o1]; exact hw)
    refine ⟨w3, ?_, o3.trans (o2.trans o1)⟩
    rw [tryExtendLoop, e1]
    dsimp only
    rw [e2]
    dsimp only
    rw [dif_neg hlast]
    exact e3
termination_by s.length

/-- Room in nullable collections. -/
def holds (K : HoldsR L) : HoldsR (validityL L) where
  Covers n l := l.length ≤ n ∧ K.Covers n (l.map (·.getD R.dflt))
  Holds v l := Holds K v l
  withCap {n v l} h hr hl := by
    simp only [validityR, withCap] at h
    split at h
    · next c hc =>
      split at h
      · next b hb =>
        simp only [Try.ok.injEq] at h
        subst h
        exact ⟨K.withCap hc hr.2 hl.2, b, rfl, (Bitmap.withCap_capacity hb).mono hl.1⟩
      · simp at h
      · simp at h
    · simp at h
    · simp at h
  tryWithCap {w w' n v l} h hr hl := by
    simp only [validityR, tryWithCap] at h
    split at h
    · next c w1 hc =>
      split at h
      · next b w2 hb =>
        simp only [Prod.mk.injEq, Try.ok.injEq] at h
        obtain ⟨rfl, rfl⟩ := h
        exact ⟨K.tryWithCap hc hr.2 hl.2, b, rfl, (Bitmap.tryWithCap_capacity hb).mono hl.1⟩
      · simp at h
      · simp at h
    · simp at h
    · simp at h
  reserve {v v' n l} hv hk h hr hl := by
    have hr : Room L 0 (abs L.toLawfulColl v ++ l) := hr
    have hrc : L.Room 0 (L.abs v.coll ++ l.map (·.getD R.dflt)) := by
      have := hr.2
      rw [List.map_append] at this
      rw [hk.2.2]; exact this
    simp only [validityR, reserve] at h
    cases hm : materialize R.toColl v with
    | panic => simp [hm] at h
    | ok b =>
      rw [hm] at h
      obtain ⟨m1, -, -, -⟩ := materialize_ok hv hm
      simp only at h
      generalize hB : b.reserve n = B at *
      obtain ⟨b', o⟩ := B
      cases o with
      | panic => simp at h
      | err => simp at h
      | ok =>
        simp only [Prod.mk.injEq] at h
        obtain ⟨rfl, h⟩ := h
        exact ⟨K.reserve m1.1 hk.1 (Prod.ext rfl h) hrc hl.2, b', rfl,
          (Bitmap.reserve_capacity (m1.2 b rfl).1 hB).mono hl.1⟩
  tryReserve {w w' v v' n l} hv hk h hr hl := by
    have hr : Room L 0 (abs L.toLawfulColl v ++ l) := hr
    have hrc : L.Room 0 (L.abs v.coll ++ l.map (·.getD R.dflt)) := by
      have := hr.2
      rw [List.map_append] at this
      rw [hk.2.2]; exact this
    simp only [validityR, tryReserve] at h
    generalize hm : tryMaterialize R.toColl w v = M at *
    obtain ⟨t, w1⟩ := M
    cases t with
    | panic => simp at h
    | err => simp at h
    | ok b =>
      obtain ⟨m1, -, -, -⟩ := tryMaterialize_ok hv hm
      simp only at h
      generalize hR : R.tryReserve w1 v.coll n = Q at *
      obtain ⟨c, o, w2⟩ := Q
      cases o with
      | panic => simp at h
      | err => simp at h
      | ok =>
        simp only [Prod.mk.injEq] at h
        obtain ⟨rfl, h, rfl⟩ := h
        exact ⟨K.tryReserve m1.1 hk.1 hR hrc hl.2, _, rfl,
          (Bitmap.tryReserve_capacity (m1.2 b rfl).1 (Prod.ext rfl (Prod.ext h rfl))).mono hl.1⟩
  trunc {v v' m l} hv hn h := by
    simp only [validityR, truncate, Prod.mk.injEq] at h
    obtain ⟨rfl, h⟩ := h
    obtain ⟨h1, b, h2, h3⟩ := hn
    exact ⟨K.trunc hv.1 h1 (Prod.ext rfl h), b.truncate m, by simp [h2],
      Bitmap.cap.trunc (hv.2 b h2).1 h3 rfl⟩
  ext {v s l} hv hn hp := by
    obtain ⟨h1, b, h2, h3⟩ := hn
    obtain ⟨c, ob⟩ := v
    simp only at h2
    subst h2
    have hb : b.Inv ∧ b.bits ≤ (L.abs c).length := hv.2 b rfl
    have hlen : (abs L.toLawfulColl (⟨c, some b⟩ : Validity R.C)).length = b.bits := by
      have := hb.2
      simp only [abs, mask_length, Bitmap.abs_length]
      omega
    obtain ⟨c1, t1, t2, t3, -⟩ := L.trunc_ok b.bits hv.1
    have hmid : Mid (L := L) c1 b := ⟨t2, hb.1, by rw [t3]; simp; omega⟩
    obtain ⟨v', k1, k2⟩ := tryExtendLoop_room K b.bits l s hp hmid (K.trunc hv.1 h1 t1) h3
    refine ⟨v', k1, fun w hw => ?_⟩
    obtain ⟨w', e, o⟩ := k2 w hw
    refine ⟨w', ?_, o⟩
    show tryExtend R w ⟨c, some b⟩ s = _
    unfold tryExtend
    simp only [len_ok hv, hlen, tryMaterialize, t1]
    exact e

end Validity

namespace Offsets

variable {O : Type} {R : Realloc O} {L : LawfulR R} {ow : OffW}

/-- Room for rows: for their offsets and for their elements, within the offset type. -/
structure Holds (K : HoldsR L) (ow : OffW) (c : Offsets R.C) (l : List (List O)) : Prop where
  offsets : c.offsets.items.length + l.length ≤ c.offsets.cap
  total : (abs L.toLawfulColl c).flatten.length + l.flatten.length ≤ ow.max
  data : K.Holds c.data l.flatten

theorem ow_max_le (ow : OffW) : ow.max ≤ usizeMax := by cases ow <;> simp [OffW.max, usizeMax]

theorem tryExtendLoop_room (K : HoldsR L) (n0 d0 : Nat) (l : List (List O)) : ∀ (s : Src (List O))
    (c : Offsets R.C) (rows : List (List O)), s.panics = false → Mid L ow c rows →
    Holds K ow c (s.items ++ l) →
    ∃ c', Holds K ow c' l ∧ ∀ w, HonestLower w.oracle → ∃ w',
      tryExtendLoop ow R n0 d0 w c.data c.offsets (rows.flatten.length : Int) s = (c', .ok, w') ∧
        w'.oracle = w.oracle
  | [], c, rows, _, _, h => ⟨c, h, fun w _ => ⟨w, rfl, rfl⟩⟩
  | .none :: _, c, rows, _, _, h => ⟨c, h, fun w _ => ⟨w, rfl, rfl⟩⟩
  | .panic :: _, _, _, hp, _, _ => by simp [Src.panics] at hp
  | .item r :: s, c, rows, hp, hm, h => by
    have hp' : Src.panics s = false := by simpa [Src.panics] using hp
    obtain ⟨h1, h2, h3⟩ := h
    rw [hm.toInv.2] at h2
    simp only [Src.items, List.cons_append, List.length_cons, List.length_append,
      List.flatten_cons] at h1 h2 h3
    obtain ⟨d1, g1, g2⟩ := K.ext (s := Src.ofList r) (l := (Src.items s ++ l).flatten) hm.inv
      (by rw [Src.items_ofList]; exact h3) (by simp)
    have hmax := ow_max_le ow
    obtain ⟨w1, e1, -⟩ := g2 calm calm_honest
    obtain ⟨i1, i2, -⟩ := L.tryExt_ok hm.inv e1
    rw [Src.items_ofList] at i2
    have hm' : Mid L ow ⟨d1, ⟨c.offsets.items ++ [((rows.flatten.length + r.length : Nat) : Int)],
        c.offsets.cap⟩⟩ (rows ++ [r]) := by
      refine ⟨⟨by simp; omega, hm.wf.cap_lim⟩, i1, ?_, ?_⟩
      · simp only [hm.items, totals_snoc]; simp
      · simp only [i2, hm.data]; simp
    obtain ⟨c', k1, k2⟩ := tryExtendLoop_room K n0 d0 l s _ _ hp' hm'
      ⟨by simp; omega, by rw [hm'.toInv.2]; simp at h2 ⊢; omega, g1⟩
    refine ⟨c', k1, fun w hw => ?_⟩
    obtain ⟨w1, e1, o1⟩ := g2 w hw
    obtain ⟨w2, e2, o2⟩ := k2 w1.next (by rw [show w1.next.oracle = w1.oracle from rfl, o1]; exact hw)
    refine ⟨w2, ?_, o2.trans o1⟩
    have e3 : RVec.tryExtend ow.lim w1 c.offsets
        [.item (((rows.flatten.length + r.length : Nat)) : Int)] = _ :=
      RVec.tryExtend_noalloc (o1 ▸ hw) rfl (by simp [Src.items]; omega)
    simp only [tryExtendLoop, asUsize_ofNat]
    rw [if_pos (by omega), e1]
    dsimp only
    rw [e3]
    simp only [List.flatten_append, List.flatten_cons, List.flatten_nil, List.append_nil,
      List.length_append] at e2
    exact e2

/-- Room in variable-size lists. -/
def holds (K : HoldsR L) (ow : OffW) : HoldsR (offsetsL ow L) where
  Covers n l := l.length ≤ n ∧ K.Covers n l.flatten
  Holds c l := Holds K ow c l
  withCap {n c l} h hr hl := by
    have hr : Room L ow 0 l := hr
    have hm := (withCap_ok (L := L) h).1
    simp only [offsetsR, withCap, strictAdd] at h
    split at h
    · simp at h
    · simp at h
    · next d hd =>
      split at h
      · simp at h
      · next k hk =>
        split at hk <;> simp only [Res.ok.injEq, reduceCtorEq] at hk
        subst hk
        split at h
        · simp at h
        · simp at h
        · next of hof =>
          obtain ⟨o1, o2⟩ := RVec.withCap_room hof
          split at h
          · next of' hof' =>
            simp only [Try.ok.injEq] at h
            subst h
            refine ⟨?_, ?_, K.withCap hd (L.room_mono (Nat.zero_le _) hr.2.2) hl.2⟩
            · have h1 := RVec.extend_ok hof'
              have h2 := RVec.extend_cap ow.lim [.item 0] of
              rw [hof'] at h2
              simp only at h2
              simp only [h1.1, o1, Src.items]
              simp; have := hl.1; omega
            · rw [hm.toInv.2]; simpa using hr.1
          · simp at h
  tryWithCap {w w' n c l} h hr hl := by
    have hr : Room L ow 0 l := hr
    have hm := (tryWithCap_ok (L := L) h).1
    simp only [offsetsR, tryWithCap, checkedAdd] at h
    split at h
    · simp at h
    · next k hk =>
      split at hk <;> simp only [Option.some.injEq, reduceCtorEq] at hk
      subst hk
      split at h
      · simp at h
      · simp at h
      · next d w1 hd =>
        split at h
        · simp at h
        · simp at h
        · next of w2 hof =>
          obtain ⟨o1, o2⟩ := RVec.tryWithCap_room hof
          split at h
          · next of' w3 hof' =>
            simp only [Prod.mk.injEq, Try.ok.injEq] at h
            obtain ⟨rfl, rfl⟩ := h
            refine ⟨?_, ?_, K.tryWithCap hd (L.room_mono (Nat.zero_le _) hr.2.2) hl.2⟩
            · have h1 : of'.items = [0] := by simpa [totals] using hm.items
              have h2 := RVec.tryExtend_cap w2 [.item 0] (RVec.tryWithCap_ok hof).2.1
              rw [hof'] at h2
              simp only at h2
              simp only [h1]
              simp; have := hl.1; omega
            · rw [hm.toInv.2]; simpa using hr.1
          · simp at h
          · simp at h
  reserve {c c' n l} hc hk h hr hl := by
    have hr : Room L ow 0 (abs L.toLawfulColl c ++ l) := hr
    have habs := (reserve_spec hc h).2.1
    have hroom := hr.2.2
    rw [List.flatten_append, ← hk.2] at hroom
    simp only [offsetsR, reserve] at h
    split at h
    · next d hd =>
      simp only [Prod.mk.injEq] at h
      obtain ⟨rfl, h⟩ := h
      refine ⟨?_, ?_, K.reserve hc.2.inv hk.1 hd (L.room_mono (Nat.zero_le _) hroom) hl.2⟩
      · have := RVec.reserve_room (Prod.ext rfl h) hc.1
        exact Nat.le_trans (Nat.add_le_add_left hl.1 _) this
      · rw [habs]; have := hr.1; simpa using this
    · next d o hd => simp at h; simp_all
  tryReserve {w w' c c' n l} hc hk h hr hl := by
    have hr : Room L ow 0 (abs L.toLawfulColl c ++ l) := hr
    have habs := (tryReserve_spec hc h).2.1
    have hroom := hr.2.2
    rw [List.flatten_append, ← hk.2] at hroom
    simp only [offsetsR, tryReserve] at h
    split at h
    · next d w1 hd =>
      simp only [Prod.mk.injEq] at h
      obtain ⟨rfl, h, rfl⟩ := h
      refine ⟨?_, ?_, K.tryReserve hc.2.inv hk.1 hd (L.room_mono (Nat.zero_le _) hroom) hl.2⟩
      · have := (RVec.tryReserve_cap (Prod.ext rfl (Prod.ext h rfl)) hc.1).1
        exact Nat.le_trans (Nat.add_le_add_left hl.1 _) this
      · rw [habs]; have := hr.1; simpa using this
    · next d o hd => simp at h; simp_all
  trunc {c c' m l} hc hn h := by
    obtain ⟨c1, t1, -, t3, -⟩ := trunc_ok m hc
    have h' : truncate R c m = (c', .ok) := h
    rw [t1, Prod.mk.injEq] at h'
    obtain ⟨rfl, -⟩ := h'
    obtain ⟨h1, h2, h3⟩ := hn
    have htot : (abs L.toLawfulColl c1).flatten.length + l.flatten.length ≤ ow.max := by
      have h4 := congrArg (fun x => List.length (List.flatten x)) (List.take_append_drop m (abs L.toLawfulColl c))
      simp only [List.flatten_append, List.length_append] at h4
      rw [t3]; omega
    simp only [offsetsR, truncate] at h
    split at h
    · simp at h
    · split at h
      · split at h
        · simp at h
        · split at h
          · simp at h
          · split at h
            · simp at h
            · simp only [Prod.mk.injEq] at h
              obtain ⟨rfl, h⟩ := h
              refine ⟨?_, htot, K.trunc hc.2.inv h3 (Prod.ext rfl h)⟩
              simp only [RVec.truncate, List.length_take]; omega
      · simp only [Prod.mk.injEq, and_true] at h
        subst h; exact ⟨h1, h2, h3⟩
  ext {c s l} hc hn hp := by
    obtain ⟨d, t1, t2, t3, -⟩ := L.trunc_ok (abs L.toLawfulColl c).flatten.length hc.2.inv
    have hm := Mid.of_inv hc t2 t3
    obtain ⟨c', k1, k2⟩ := tryExtendLoop_room K (abs L.toLawfulColl c).length
      (abs L.toLawfulColl c).flatten.length l s ⟨d, c.offsets⟩ _ hp hm
      ⟨hn.offsets, by rw [hm.toInv.2]; exact hn.total, K.trunc hc.2.inv hn.data t1⟩
    refine ⟨c', k1, fun w hw => ?_⟩
    obtain ⟨w', e, o⟩ := k2 w hw
    refine ⟨w', ?_, o⟩
    show tryExtend ow R w c s = _
    unfold tryExtend
    simp only [hc.len_ok, last_ok hc.2.items, asUsize_ofNat, t1]
    exact e

end Offsets

/-- Room in possibly nullable collections. -/
def nullHolds {O : Type} (nl : Bool) {R : Realloc O} {L : LawfulR R} (K : HoldsR L) :
    HoldsR (nullL nl L) :=
  match nl with
  | false => K
  | true => Validity.holds K

/-- Room in the non-nullable layouts. -/
def baseHolds : (t : Ty) → (h : t.WF) → HoldsR (baseL t h)
  | .bool, _ => Bitmap.holds
  | .prim p, _ => vecHolds p.lim p.lim_le 0#(8 * p.size)
  | .fsl n nl t, h => Flatten.holds (nullHolds nl (baseHolds t h.2)) n h.1
  | .vsl ow nl t, h => Offsets.holds (nullHolds nl (baseHolds t h)) ow

/-- Room in arrays. -/
def arrayHolds (nl : Bool) (t : Ty) (h : t.WF) : HoldsR (arrayL nl t h) := nullHolds nl (baseHolds t h)

theorem covers_base : (t : Ty) → (h : t.WF) → (n : Nat) → (l : List (Val t)) →
    (Covers.base t n l ↔ (baseHolds t h).Covers n l)
  | .bool, _, _, _ => Iff.rfl
  | .prim _, _, _, _ => Iff.rfl
  | .fsl k false t, h, n, l => covers_base t h.2 (n * k) (l.flatMap Subtype.val)
  | .fsl k true t, h, n, _ => and_congr Iff.rfl (covers_base t h.2 (n * k) _)
  | .vsl _ false t, h, n, l => and_congr Iff.rfl (covers_base t h n l.flatten)
  | .vsl _ true t, h, n, _ => and_congr Iff.rfl (and_congr Iff.rfl (covers_base t h n _))

theorem covers_iff {nl : Bool} {t : Ty} (h : t.WF) (n : Nat) (l : List (ItemVal nl (Val t))) :
    Covers nl t n l ↔ (arrayHolds nl t h).Covers n l := by
  cases nl
  · exact covers_base t h n l
  · exact and_congr Iff.rfl (covers_base t h n _)

/-- Room in compositions. -/
def compHolds : {O : Type} → (k : Comp O) → HoldsR (compL k)
  | _, .vec lim h d => vecHolds lim h d
  | _, .bitmap => Bitmap.holds
  | _, .flatten n h k => Flatten.holds (compHolds k) n h
  | _, .validity k => Validity.holds (compHolds k)
  | _, .offsets ow k => Offsets.holds (compHolds k) ow

theorem ccovers_iff : {O : Type} → (k : Comp O) → (n : Nat) → (l : List O) →
    (CCovers k n l ↔ (compHolds k).Covers n l)
  | _, .vec _ _ _, _, _ => Iff.rfl
  | _, .bitmap, _, _ => Iff.rfl
  | _, .flatten m _ k, n, l => ccovers_iff k (n * m) (l.flatMap Subtype.val)
  | _, .validity k, n, _ => and_congr Iff.rfl (ccovers_iff k n _)
  | _, .offsets _ k, n, l => and_congr Iff.rfl (ccovers_iff k n l.flatten)

/-- Calls that use up room return the same whatever the allocator answers. -/
theorem HoldsR.uses {O : Type} {R : Realloc O} {L : LawfulR R} (K : HoldsR L) :
    ∀ (us : List (Use O)) {c : R.C}, L.Inv c → K.Holds c (appended us) → Calm us →
      ∃ c', L.Inv c' ∧ L.abs c' = listUses (L.abs c) us ∧
        ∀ w, HonestLower w.oracle → ∃ w', runUses R w c us = (c', .ok, w')
  | [], c, hc, _, _ => ⟨c, hc, rfl, fun w _ => ⟨w, rfl⟩⟩
  | .tryExtend s :: us, c, hc, hh, hp => by
    obtain ⟨c1, h1, h2⟩ := K.ext hc hh hp.1
    obtain ⟨w1, e1, -⟩ := h2 calm calm_honest
    obtain ⟨i1, i2, -⟩ := L.tryExt_ok hc e1
    obtain ⟨c2, j1, j2, j3⟩ := K.uses us i1 h1 hp.2
    refine ⟨c2, j1, by rw [j2, i2]; rfl, fun w hw => ?_⟩
    obtain ⟨w', e, o⟩ := h2 w hw
    obtain ⟨w'', e'⟩ := j3 w' (o ▸ hw)
    exact ⟨w'', by simp only [runUses, e, e']⟩
  | .truncate m :: us, c, hc, hh, hp => by
    obtain ⟨c1, t1, t2, t3, -⟩ := L.trunc_ok m hc
    obtain ⟨c2, j1, j2, j3⟩ := K.uses us t2 (K.trunc hc hh t1) hp
    refine ⟨c2, j1, by rw [j2, t3]; rfl, fun w hw => ?_⟩
    obtain ⟨w', e⟩ := j3 w hw
    exact ⟨w', by simp only [runUses, t1, e]⟩

/-- Reserving makes room. -/
theorem HoldsR.reserved {O : Type} {R : Realloc O} {L : LawfulR R} (K : HoldsR L)
    {Made : R.C → List O → Prop} (hm : ∀ {c l}, Made c l → L.Inv c ∧ L.Canon c ∧ L.abs c = l)
    {n : Nat} {c : R.C} {l m : List O} (h : Reserved R Made n c l) (hr : L.Room 0 (l ++ m))
    (hc : K.Covers n m) : L.Inv c ∧ L.abs c = l ∧ K.Holds c m := by
  cases h with
  | withCap e =>
    obtain ⟨h1, h2, -⟩ := L.withCap_ok e
    exact ⟨h1, h2, K.withCap e hr hc⟩
  | tryWithCap e =>
    obtain ⟨h1, h2, -⟩ := L.tryWithCap_ok e
    exact ⟨h1, h2, K.tryWithCap e hr hc⟩
  | reserve hg e =>
    obtain ⟨h1, h2, rfl⟩ := hm hg
    obtain ⟨i1, i2, -, -⟩ := L.reserve_ok h1 e
    exact ⟨i1, i2, K.reserve h1 h2 e hr hc⟩
  | tryReserve hg e =>
    obtain ⟨h1, h2, rfl⟩ := hm hg
    obtain ⟨i1, i2, -, -⟩ := L.tryReserve_ok h1 e
    exact ⟨i1, i2, K.tryReserve h1 h2 e hr hc⟩

end Narrow
