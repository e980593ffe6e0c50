import Verif.Proof.Room
import Verif.Proof.Refill
import Verif.Spec.UserRoom

/-! # Room reserved in compositions over any storage -/

namespace Narrow

open Spec

/-- `Hold c l`: the items `l` can be appended to `c` whatever the allocator answers. -/
structure HoldsU {O : Type} {R : Realloc O} (L : LawfulR R) (Canon : R.C → Prop)
    (Fit : List O → Prop) (Covers : Nat → List O → Prop) (Hold : R.C → List O → Prop) : Prop where
  withCap : ∀ {n c l}, R.withCap n = .ok c → Fit l → Covers n l → Hold c l
  tryWithCap : ∀ {w w' n c l}, R.tryWithCap w n = (.ok c, w') → Fit l → Covers n l → Hold c l
  reserve : ∀ {c c' n l}, L.Inv c → Canon c → R.reserve c n = (c', .ok) →
    Fit (L.abs c ++ l) → Covers n l → Hold c' l
  tryReserve : ∀ {w w' c c' n l}, L.Inv c → Canon c → R.tryReserve w c n = (c', .ok, w') →
    Fit (L.abs c ++ l) → Covers n l → Hold c' l
  trunc : ∀ {c c' m l}, L.Inv c → Hold c l → R.truncate c m = (c', .ok) → Hold c' l
  ext : ∀ {w c s l}, L.Inv c → Hold c (s.items ++ l) → s.panics = false → HonestLower w.oracle →
    ∃ c' w', R.tryExtend w c s = (c', .ok, w') ∧ HonestLower w'.oracle ∧ Hold c' l

/-- A collection that makes room. -/
theorem holds_leaf {α : Type} {R : Realloc α} {Good : R.C → Prop} {Space : R.C → Nat → Prop}
    (M : MakesRoom R Good Space) {L : LawfulR R} (hL : ∀ {c}, L.Inv c → Good c) :
    HoldsU L (fun _ => True) (fun _ => True) (fun n l => l.length ≤ n)
      (fun c l => Space c l.length) where
  withCap h _ hl := M.less hl (M.withCap h)
  tryWithCap h _ hl := M.less hl (M.tryWithCap h)
  reserve hc _ h _ hl := M.less hl (M.reserve (hL hc) h)
  tryReserve hc _ h _ hl := M.less hl (M.tryReserve (hL hc) h)
  trunc hc hh h := M.truncate (hL hc) hh h
  ext {w c s l} hc hh hp hw := by
    rw [List.length_append] at hh
    obtain ⟨c', w', h1, h2⟩ := M.granted (hL hc) (M.less (Nat.le_add_right _ _) hh) hp hw
    exact ⟨c', w', h1, h2, M.tryExtend (hL hc) hh h1⟩

/-! ## Bitmaps -/

namespace BitmapOf

variable {B : Backing Byte} {Good : B.C → Prop} {Space : B.C → Nat → Prop}

/-- Room for `n` more bits. -/
def Free (Space : B.C → Nat → Prop) (b : BitmapOf B.C) (n : Nat) : Prop :=
  ∃ m, Space b.buffer m ∧ bytesForBits (b.offset + b.bits + n) ≤ (B.borrow b.buffer).length + m

theorem Free.mono {b : BitmapOf B.C} {m n : Nat} (h : Free Space b n) (hm : m ≤ n) :
    Free Space b m := by
  obtain ⟨k, h1, h2⟩ := h
  exact ⟨k, h1, by unfold bytesForBits at *; omega⟩

variable {L : LawfulB B} (M : MakesRoomBuf B Good Space) (hL : ∀ {c}, L.Inv c → Good c)

include M

theorem withCap_free {n : Nat} {b : BitmapOf B.C} (h : withCap B n = .ok b) : Free Space b n := by
  obtain ⟨buf, h1, rfl⟩ := around_ok h
  exact ⟨_, M.withCap h1, by simp⟩

theorem tryWithCap_free {w w' : World} {n : Nat} {b : BitmapOf B.C}
    (h : tryWithCap B w n = (.ok b, w')) : Free Space b n := by
  simp only [tryWithCap, Prod.mk.injEq] at h
  obtain ⟨buf, h1, rfl⟩ := around_ok h.1
  exact ⟨_, M.tryWithCap (Prod.ext h1 rfl), by simp⟩

include hL

theorem reserve_free {b b' : BitmapOf B.C} {n : Nat} (hb : b.Inv L)
    (h : reserve B b n = (b', .ok)) : Free Space b' n := by
  obtain ⟨t, ht, h1, h2⟩ := Bitmap.trailingBits_ok hb.seen
  have h2 : (b.offset + b.bits + t) % 8 = 0 := h2
  have hle := hb.le
  rw [← L.borrow_ok hb.buf] at hle
  simp only [reserve, ht] at h
  split at h
  · next htn =>
    simp only [Prod.mk.injEq] at h
    obtain ⟨rfl, h⟩ := h
    have hR : B.reserve b.buffer (bytesForBits (n - t)) = (_, .ok) := Prod.ext rfl h
    obtain ⟨i1, i2, -⟩ := L.reserve_ok hb.buf hR
    refine ⟨_, M.reserve (hL hb.buf) hR, ?_⟩
    simp only [L.borrow_ok i1, i2]
    rw [L.borrow_ok hb.buf] at hle
    unfold bytesForBits; omega
  · simp only [Prod.mk.injEq, and_true] at h
    subst h
    exact ⟨0, M.nothing (hL hb.buf), by unfold bytesForBits; omega⟩

theorem tryReserve_free {w w' : World} {b b' : BitmapOf B.C} {n : Nat} (hb : b.Inv L)
    (h : tryReserve B w b n = (b', .ok, w')) : Free Space b' n := by
  obtain ⟨t, ht, h1, h2⟩ := Bitmap.trailingBits_ok hb.seen
  have h2 : (b.offset + b.bits + t) % 8 = 0 := h2
  have hle := hb.le
  rw [← L.borrow_ok hb.buf] at hle
  simp only [tryReserve, ht] at h
  split at h
  · next htn =>
    simp only [Prod.mk.injEq] at h
    obtain ⟨rfl, h, rfl⟩ := h
    have hR : B.tryReserve w b.buffer (bytesForBits (n - t)) = (_, .ok, _) :=
      Prod.ext rfl (Prod.ext h rfl)
    obtain ⟨i1, i2, -⟩ := L.tryReserve_ok hb.buf hR
    refine ⟨_, M.tryReserve (hL hb.buf) hR, ?_⟩
    simp only [L.borrow_ok i1, i2]
    rw [L.borrow_ok hb.buf] at hle
    unfold bytesForBits; omega
  · simp only [Prod.mk.injEq, and_true] at h
    obtain ⟨rfl, -⟩ := h
    exact ⟨0, M.nothing (hL hb.buf), by unfold bytesForBits; omega⟩

omit M hL in
theorem truncate_free {b : BitmapOf B.C} {n : Nat} (m : Nat) (h : Free Space b n) :
    Free Space (b.truncate m) n := by
  obtain ⟨k, h1, h2⟩ := h
  unfold truncate
  split
  · exact ⟨k, h1, by unfold bytesForBits at *; simp only; omega⟩
  · exact ⟨k, h1, h2⟩

theorem tryExtend_free {w : World} {b : BitmapOf B.C} {s : Src Bool} {n : Nat} (hb : b.Inv L)
    (hf : Free Space b (s.items.length + n)) (hp : s.panics = false) (hw : HonestLower w.oracle) :
    ∃ b' w', tryExtend B w b s = (b', .ok, w') ∧ HonestLower w'.oracle ∧ Free Space b' n := by
  obtain ⟨free, hf1, hf2⟩ := hf
  have hI := hb.seen
  obtain ⟨k, k1, k2, k3, k4, k5, k6, k7, k8, k9, k10⟩ := Bitmap.phase1_spec hI (Src.fused_fuse s)
  simp only [Src.items_fuse, Src.panics_fuse] at *
  have hlen : (b.seen B.toBuf).buffer.items.length = (L.abs b.buffer).length := by
    rw [seen_items hb.buf]
  have hlb : (B.borrow b.buffer).length = (L.abs b.buffer).length := by rw [L.borrow_ok hb.buf]
  have hoff : (b.seen B.toBuf).offset = b.offset := rfl
  have hbits : (b.seen B.toBuf).bits = b.bits := rfl
  have hle := hb.le
  unfold tryExtend
  generalize hP : Bitmap.phase1 (b.seen B.toBuf) s.fuse = P at *
  obtain ⟨b1, s1, p⟩ := P
  simp only at *
  cases p with
  | true => exact absurd (k9 rfl).1 (by simp [hp])
  | false =>
    obtain ⟨f1, f2, f3, f4⟩ := k10 rfl
    rw [hp] at f3
    have hle1 := k2.le
    have halign : (s1.items ≠ [] ∨ s1.panics = true) → (b1.offset + b1.bits) % 8 = 0 := by
      intro h; rw [k3, k4]; apply f4
      rcases h with h | h
      · left; rw [f2] at h; simpa using h
      · simp [f3] at h
    obtain ⟨g1, g2⟩ := Bitmap.phase2_spec k2 f1 halign
    by_cases hdone : s1.items = []
    · dsimp only
      rw [g1 ⟨hdone, f3⟩]
      have hk : k = s.items.length := by
        rw [f2] at hdone; simp at hdone; omega
      have hl1 : b1.buffer.items.length = (B.borrow b.buffer).length := by omega
      obtain ⟨w1, w2⟩ := L.write_ok hb.buf (hl1.trans hlb)
      refine ⟨_, _, rfl, hw, free, M.write (hL hb.buf) hf1 hl1, ?_⟩
      simp only [L.borrow_ok w1, w2, hl1]
      unfold bytesForBits at *; omega
    · obtain ⟨buf, packed, m, p, e1, e2, e3, e4, e5⟩ := g2 (.inl hdone)
      have hrest : s1.items.length + k = s.items.length := by rw [f2]; simp; omega
      dsimp only
      rw [e1]
      cases p with
      | true => exact absurd (e4 rfl) (by simp [f3])
      | false =>
        obtain ⟨q1, q2, q3, q4⟩ := e5 rfl
        rw [f3] at q2
        obtain ⟨u1, u2, u3⟩ := q4 f3
        simp only [List.length_append] at u2
        have hl1 : buf.length = (B.borrow b.buffer).length := by omega
        obtain ⟨w1, w2⟩ := L.write_ok hb.buf (hl1.trans hlb)
        have hs := M.write (hL hb.buf) hf1 hl1
        have hfit : packed.items.length ≤ free := by
          unfold bytesForBits at *; omega
        have hs : Space (B.write b.buffer buf) (packed.items.length + (free - packed.items.length)) := by
          rwa [Nat.add_sub_cancel' hfit]
        obtain ⟨buf', w', hR, hw'⟩ := M.granted (hL w1) (M.less (Nat.le_add_right _ _) hs) q2 hw
        obtain ⟨t1, t2, -⟩ := L.tryExt_ok w1 hR
        have hbm := L.small t1
        have hlen' : (L.abs buf').length = buf.length + packed.items.length := by
          rw [t2, w2, List.length_append]
        have hsum : b1.bits + m ≤ usizeMax := by
          unfold byteMax at hbm; unfold usizeMax; omega
        simp only [hR, Bitmap.strictAdd_ok hsum]
        refine ⟨_, _, rfl, hw', _, M.tryExtend (hL w1) hs hR, ?_⟩
        simp only [L.borrow_ok t1, hlen']
        unfold bytesForBits at *; omega

end BitmapOf

theorem holds_bitmap {B : Backing Byte} {Good : B.C → Prop} {Space : B.C → Nat → Prop}
    (M : MakesRoomBuf B Good Space) {L : LawfulB B} (hL : ∀ {c}, L.Inv c → Good c) :
    HoldsU (bitmapBG L).lawful BitmapOf.Zero (fun _ => True) (fun n l => l.length ≤ n)
      (fun b l => BitmapOf.Free Space b l.length) where
  withCap h _ hl := (BitmapOf.withCap_free M h).mono hl
  tryWithCap h _ hl := (BitmapOf.tryWithCap_free M h).mono hl
  reserve hc _ h _ hl := (BitmapOf.reserve_free M hL hc h).mono hl
  tryReserve hc _ h _ hl := (BitmapOf.tryReserve_free M hL hc h).mono hl
  trunc {c c' m l} _ hh h := by
    simp only [Prod.mk.injEq, and_true] at h
    subst h
    exact BitmapOf.truncate_free m hh
  ext {w c s l} hc hh hp hw :=
    BitmapOf.tryExtend_free M hL hc (by rwa [List.length_append] at hh) hp hw

/-! ## Groups -/

section Flatten

open Flatten

theorem holds_flatten {O : Type} {R : Realloc O} {L : LawfulR R} {Canon : R.C → Prop}
    {Fit : List O → Prop} {Covers : Nat → List O → Prop} {Hold : R.C → List O → Prop}
    (K : HoldsU L Canon Fit Covers Hold) (n : Nat) (hn : 0 < n) :
    HoldsU (flattenL L n hn) (fun c => Canon c.child) (fun l => Fit (flat l))
      (fun k l => Covers (k * n) (flat l)) (fun c l => Hold c.child (flat l)) where
  withCap {k c l} h hr hl := by
    simp only [flattenR, strictMul] at h
    split at h
    · simp at h
    · next m hm =>
      split at hm <;> simp only [Res.ok.injEq, reduceCtorEq] at hm
      subst hm
      exact K.withCap (wrapTry_ok h) hr hl
  tryWithCap {w w' k c l} h hr hl := by
    simp only [flattenR, checkedMul] at h
    split at h
    · simp at h
    · next m hm =>
      split at hm <;> simp only [Option.some.injEq, reduceCtorEq] at hm
      subst hm
      simp only [Prod.mk.injEq] at h
      obtain ⟨h, rfl⟩ := h
      exact K.tryWithCap (Prod.ext (wrapTry_ok h) rfl) hr hl
  reserve {c c' k l} hc hk h hr hl := by
    have hr : Fit (flat (flatAbs L.toLawfulColl n c ++ l)) := hr
    rw [flat_append, flat_abs hn hc] at hr
    simp only [flattenR, strictMul] at h
    split at h
    · simp at h
    · next m hm =>
      split at hm <;> simp only [Res.ok.injEq, reduceCtorEq] at hm
      subst hm
      simp only [Prod.mk.injEq] at h
      obtain ⟨rfl, h⟩ := h
      exact K.reserve hc.1 hk (Prod.ext rfl h) hr hl
  tryReserve {w w' c c' k l} hc hk h hr hl := by
    have hr : Fit (flat (flatAbs L.toLawfulColl n c ++ l)) := hr
    rw [flat_append, flat_abs hn hc] at hr
    simp only [flattenR, checkedMul] at h
    split at h
    · simp at h
    · next m hm =>
      split at hm <;> simp only [Option.some.injEq, reduceCtorEq] at hm
      subst hm
      simp only [Prod.mk.injEq] at h
      obtain ⟨rfl, h, rfl⟩ := h
      exact K.tryReserve hc.1 hk (Prod.ext rfl (Prod.ext h rfl)) hr hl
  trunc {c c' m l} hc hk h := by
    simp only [flattenR] at h
    split at h
    · simp at h
    · split at h
      · split at h
        · simp at h
        · simp only [Prod.mk.injEq] at h
          obtain ⟨rfl, h⟩ := h
          exact K.trunc hc.1 hk (Prod.ext rfl h)
      · simp only [Prod.mk.injEq, and_true] at h
        subst h; exact hk
  ext {w c s l} hc hk hp hw := by
    obtain ⟨c', w', h1, h2, h3⟩ := K.ext (w := w) (s := flatSrc s) (l := flat l) hc.1
      (by rw [items_flatSrc]; simpa [flat] using hk) (by rw [panics_flatSrc]; exact hp) hw
    exact ⟨⟨c'⟩, w', by simp only [flattenR, h1], h2, h3⟩

end Flatten

/-! ## Nullable items -/

namespace ValidityOf

open Validity (mask values values_items values_panics flags takeChunk_length)

variable {O : Type} {R : Realloc O} {L : LawfulR R} {Canon : R.C → Prop}
  {Fit : List O → Prop} {Covers : Nat → List O → Prop} {Hold : R.C → List O → Prop}
  {B : Backing Byte} {Good : B.C → Prop} {Space : B.C → Nat → Prop} {LB : LawfulB B}

/-- Room for nullable items. -/
def Free (Space : B.C → Nat → Prop) (Hold : R.C → List O → Prop) (v : Of B R)
    (l : List (Option O)) : Prop :=
  Hold v.coll (l.map (·.getD R.dflt)) ∧ ∃ b, v.bitmap = some b ∧ BitmapOf.Free Space b l.length

theorem tryExtendLoop_free (K : HoldsU L Canon Fit Covers Hold) (M : MakesRoomBuf B Good Space)
    (hL : ∀ {c}, LB.Inv c → Good c) (len0 : Nat) (l : List (Option O)) (s : Src (Option O))
    (hp : s.panics = false) :
    ∀ {w c b}, Mid LB L c b → Hold c ((s.items ++ l).map (·.getD R.dflt)) →
    BitmapOf.Free Space b (s.items ++ l).length → HonestLower w.oracle →
    ∃ v' w', tryExtendLoop B R len0 w c b s = (v', .ok, w') ∧ HonestLower w'.oracle ∧
      Free Space Hold v' l := by
  intro w c b hm hc hb hw
  have htk := Src.takeChunk_items validityChunk s
  have htp := Src.takeChunk_panics validityChunk s
  rw [hp, Bool.false_and] at htp
  have hsplit : s.items ++ l = s.items.take validityChunk ++ (s.items.drop validityChunk ++ l) := by
    rw [← List.append_assoc, List.take_append_drop]
  have hfl : flags (Src.takeChunk validityChunk s).1 = (s.items.take validityChunk).map Option.isSome := by
    simp [flags, htk]
  obtain ⟨c1, w1, e1, hw1, h1⟩ := K.ext (w := w)
    (s := values R.dflt (Src.takeChunk validityChunk s).1)
    (l := (s.items.drop validityChunk ++ l).map (·.getD R.dflt)) hm.inv
    (by rw [values_items, htk, ← List.map_append, ← hsplit]; exact hc) (by rw [values_panics, htp]) hw
  obtain ⟨b1, w2, e2, hw2, h2⟩ := BitmapOf.tryExtend_free (w := w1) M hL
    (s := Src.ofList ((s.items.take validityChunk).map Option.isSome))
    (n := (s.items.drop validityChunk ++ l).length) hm.binv
    (by rw [Src.items_ofList, List.length_map, ← List.length_append, ← hsplit]; exact hb)
    (by simp) hw1
  rw [tryExtendLoop, e1]
  dsimp only
  rw [hfl, e2]
  dsimp only
  by_cases hlast : ((s.items.take validityChunk).map Option.isSome).length < validityChunk
  · have hnil : s.items.drop validityChunk = [] := by
      rw [List.length_map, List.length_take] at hlast
      exact List.drop_eq_nil_of_le (by omega)
    rw [hnil, List.nil_append] at h1 h2
    rw [dif_pos hlast]
    exact ⟨_, _, rfl, hw2, h1, b1, rfl, h2⟩
  · have hge : validityChunk ≤ s.items.length := by
      rw [List.length_map, List.length_take] at hlast; omega
    obtain ⟨r1, r2⟩ := Src.takeChunk_rest_items validityChunk s hge
    have hdec : (Src.takeChunk validityChunk s).2.length < List.length s := by
      have := takeChunk_length validityChunk s
      rw [htk, List.length_take, Nat.min_eq_left hge] at this
      unfold validityChunk at this ⊢; omega
    have hmid : Mid LB L c1 b1 := by
      obtain ⟨i1, i2, -⟩ := L.tryExt_ok hm.inv e1
      obtain ⟨j2, -⟩ := BitmapOf.tryExtend_spec hm.binv e2
      obtain ⟨j1, j3, -⟩ := j2 rfl
      rw [values_items, htk] at i2
      rw [Src.items_ofList] at j3
      exact (hm.step i1 i2 j1 j3).1
    rw [dif_neg hlast]
    exact tryExtendLoop_free K M hL len0 l (Src.takeChunk validityChunk s).2
      (by rw [r2]; exact hp) hmid (by rw [r1]; exact h1) (by rw [r1]; exact h2) hw2
termination_by s.length

end ValidityOf

theorem holds_validity {O : Type} {R : Realloc O} {L : LawfulR R} {Canon : R.C → Prop}
    {Fit : List O → Prop} {Covers : Nat → List O → Prop} {Hold : R.C → List O → Prop}
    (K : HoldsU L Canon Fit Covers Hold) {B : Backing Byte} {Good : B.C → Prop}
    {Space : B.C → Nat → Prop} (M : MakesRoomBuf B Good Space) {LB : LawfulB B}
    (hL : ∀ {c}, LB.Inv c → Good c) (env : World) :
    HoldsU (validityBG env LB L).lawful (ValidityOf.Neat LB BitmapOf.Zero L Canon)
      (fun l => Fit (l.map (·.getD R.dflt)))
      (fun n l => l.length ≤ n ∧ Covers n (l.map (·.getD R.dflt)))
      (fun v l => ValidityOf.Free Space Hold v l) where
  withCap {n v l} h hr hl := by
    have h : ValidityOf.withCap B R n = .ok v := h
    unfold ValidityOf.withCap at h
    split at h
    · next c hc =>
      split at h
      · next b hb =>
        simp only [Try.ok.injEq] at h
        subst h
        exact ⟨K.withCap hc hr hl.2, b, rfl, (BitmapOf.withCap_free M hb).mono hl.1⟩
      · simp at h
      · simp at h
    · simp at h
    · simp at h
  tryWithCap {w w' n v l} h hr hl := by
    have h : ValidityOf.tryWithCap B R w n = (.ok v, w') := h
    unfold ValidityOf.tryWithCap at h
    split at h
    · next c w1 hc =>
      split at h
      · next b w2 hb =>
        simp only [Prod.mk.injEq, Try.ok.injEq] at h
        obtain ⟨rfl, rfl⟩ := h
        exact ⟨K.tryWithCap hc hr hl.2, b, rfl, (BitmapOf.tryWithCap_free M hb).mono hl.1⟩
      · simp at h
      · simp at h
    · simp at h
    · simp at h
  reserve {v v' n l} hv hk h hr hl := by
    have hr : Fit ((ValidityOf.holds LB L v ++ l).map (·.getD R.dflt)) := hr
    rw [List.map_append, ← hk.2.2] at hr
    have hv : ValidityOf.Ok LB L v := hv
    have h : ValidityOf.reserve B R env v n = (v', .ok) := h
    unfold ValidityOf.reserve at h
    cases hm : ValidityOf.materialize B R env v with
    | panic => simp [hm] at h
    | ok b =>
      rw [hm] at h
      obtain ⟨m1, -, -⟩ := ValidityOf.materialize_ok hv hm
      simp only at h
      generalize hB : BitmapOf.reserve B b n = Q at *
      obtain ⟨b', o⟩ := Q
      cases o with
      | panic => simp at h
      | err => simp at h
      | ok =>
        simp only [Prod.mk.injEq] at h
        obtain ⟨rfl, ho⟩ := h
        exact ⟨K.reserve hv.1 hk.1 (Prod.ext rfl ho) hr hl.2, b', rfl,
          (BitmapOf.reserve_free M hL m1.bits.1 hB).mono hl.1⟩
  tryReserve {w w' v v' n l} hv hk h hr hl := by
    have hr : Fit ((ValidityOf.holds LB L v ++ l).map (·.getD R.dflt)) := hr
    rw [List.map_append, ← hk.2.2] at hr
    have hv : ValidityOf.Ok LB L v := hv
    have h : ValidityOf.tryReserve B R w v n = (v', .ok, w') := h
    unfold ValidityOf.tryReserve at h
    generalize hm : ValidityOf.tryMaterialize B R w v = T at *
    obtain ⟨t, w1⟩ := T
    cases t with
    | panic => simp at h
    | err => simp at h
    | ok b =>
      obtain ⟨m1, -, -⟩ := ValidityOf.tryMaterialize_ok hv hm
      simp only at h
      generalize hR : R.tryReserve w1 v.coll n = Q at *
      obtain ⟨c, o, w2⟩ := Q
      cases o with
      | panic => simp at h
      | err => simp at h
      | ok =>
        simp only [Prod.mk.injEq] at h
        obtain ⟨rfl, ho, rfl⟩ := h
        exact ⟨K.tryReserve hv.1 hk.1 hR hr hl.2, _, rfl,
          (BitmapOf.tryReserve_free M hL m1.bits.1 (Prod.ext rfl (Prod.ext ho rfl))).mono hl.1⟩
  trunc {v v' m l} hv hn h := by
    have h : ValidityOf.truncate B R v m = (v', .ok) := h
    simp only [ValidityOf.truncate, Prod.mk.injEq] at h
    obtain ⟨rfl, ho⟩ := h
    obtain ⟨h1, b, h2, h3⟩ := hn
    exact ⟨K.trunc hv.1 h1 (Prod.ext rfl ho), b.truncate m, by simp [h2],
      BitmapOf.truncate_free m h3⟩
  ext {w v s l} hv hn hp hw := by
    have hv : ValidityOf.Ok LB L v := hv
    obtain ⟨h1, b, h2, h3⟩ := hn
    obtain ⟨c, ob⟩ := v
    simp only at h2
    subst h2
    have hlen := ValidityOf.own_bits hv
    obtain ⟨c1, t1, t2, t3, -⟩ := L.trunc_ok b.bits hv.1
    obtain ⟨hmid, -⟩ := ValidityOf.Mid.of_trunc hv t2 t3
    obtain ⟨v', w', e, hw', k⟩ := ValidityOf.tryExtendLoop_free K M hL b.bits l s hp hmid
      (K.trunc hv.1 h1 t1) h3 hw
    refine ⟨v', w', ?_, hw', k⟩
    show ValidityOf.tryExtend B R w ⟨c, some b⟩ s = _
    unfold ValidityOf.tryExtend
    simp only [ValidityOf.len_ok hv, ← hlen, ValidityOf.tryMaterialize, t1]
    exact e

/-! ## Lists -/

namespace OffsetsIn

open Offsets (totals_snoc asUsize_ofNat)

variable {O : Type} {R : Realloc O} {L : LawfulR R} {Canon : R.C → Prop}
  {Fit : List O → Prop} {Covers : Nat → List O → Prop} {Hold : R.C → List O → Prop}
  {D : Backing Int} {Good : D.C → Prop} {Space : D.C → Nat → Prop} {LD : LawfulB D} {ow : OffW}

/-- Room for rows: for their offsets and for their elements, within the offset type. -/
structure Free (ow : OffW) (LD : LawfulB D) (L : LawfulR R) (Space : D.C → Nat → Prop)
    (Hold : R.C → List O → Prop) (c : Of D R) (l : List (List O)) : Prop where
  offsets : Space c.offsets l.length
  total : (rows LD L c).flatten.length + l.flatten.length ≤ ow.max
  data : Hold c.data l.flatten

theorem tryExtendLoop_free (K : HoldsU L Canon Fit Covers Hold) (M : MakesRoomBuf D Good Space)
    (hL : ∀ {c}, LD.Inv c → Good c) (n0 d0 : Nat) (l : List (List O)) : ∀ (s : Src (List O))
    (w : World) (c : Of D R) (rs : List (List O)), s.panics = false → Mid LD L c rs →
    Free ow LD L Space Hold c (s.items ++ l) → HonestLower w.oracle →
    ∃ c' w', tryExtendLoop ow D R n0 d0 w c.data c.offsets (rs.flatten.length : Int) s = (c', .ok, w') ∧
      HonestLower w'.oracle ∧ Free ow LD L Space Hold c' l
  | [], w, c, rs, _, _, h, hw => ⟨c, w, rfl, hw, h⟩
  | .none :: _, w, c, rs, _, _, h, hw => ⟨c, w, rfl, hw, h⟩
  | .panic :: _, _, _, _, hp, _, _, _ => by simp [Src.panics] at hp
  | .item r :: s, w, c, rs, hp, hm, h, hw => by
    have hp' : Src.panics s = false := by simpa [Src.panics] using hp
    obtain ⟨h1, h2, h3⟩ := h
    rw [hm.toInv.2] at h2
    simp only [Src.items, List.cons_append, List.length_cons, List.length_append,
      List.flatten_cons] at h1 h2 h3
    obtain ⟨d1, w1, e1, hw1, g1⟩ := K.ext (w := w) (s := Src.ofList r)
      (l := (Src.items s ++ l).flatten) hm.inv (by rw [Src.items_ofList]; exact h3) (by simp) hw
    obtain ⟨i1, i2, -⟩ := L.tryExt_ok hm.inv e1
    rw [Src.items_ofList] at i2
    have hmax := Offsets.ow_max_le ow
    generalize hz : (((rs.flatten.length + r.length : Nat)) : Int) = z
    have h1' : Space c.offsets ((Src.items [Ev.item z]).length + (Src.items s ++ l).length) :=
      M.less (by simp [Src.items]; omega) h1
    obtain ⟨of1, w2, e2, hw2⟩ := M.granted (w := w1) (s := [Ev.item z]) (hL hm.off)
      (M.less (Nat.le_add_right _ _) h1') rfl hw1
    obtain ⟨o1, o2, -⟩ := LD.tryExt_ok hm.off e2
    have hm' : Mid LD L ⟨d1, of1⟩ (rs ++ [r]) := by
      refine ⟨o1, i1, ?_, ?_⟩
      · simp only [o2, hm.items, totals_snoc, Src.items, ← hz]; simp
      · simp only [i2, hm.data]; simp
    obtain ⟨c', w', e3, hw3, k⟩ := tryExtendLoop_free K M hL n0 d0 l s w2 ⟨d1, of1⟩ (rs ++ [r]) hp' hm'
      ⟨M.tryExtend (hL hm.off) h1' e2, by rw [hm'.toInv.2]; simp at h2 ⊢; omega, g1⟩ hw2
    refine ⟨c', w', ?_, hw3, k⟩
    simp only [tryExtendLoop, asUsize_ofNat]
    rw [if_pos (by omega), e1]
    dsimp only
    rw [hz, e2]
    simp only [List.flatten_append, List.flatten_cons, List.flatten_nil, List.append_nil,
      List.length_append, hz] at e3
    exact e3

end OffsetsIn

theorem holds_offsets {O : Type} {R : Realloc O} {L : LawfulR R} {Canon : R.C → Prop}
    {Fit : List O → Prop} {Covers : Nat → List O → Prop} {Hold : R.C → List O → Prop}
    (K : HoldsU L Canon Fit Covers Hold) {D : Backing Int} {Good : D.C → Prop}
    {Space : D.C → Nat → Prop} (M : MakesRoomBuf D Good Space) {LD : LawfulB D}
    (hL : ∀ {c}, LD.Inv c → Good c) (ow : OffW) (hz : (D.extend D.empty [.item 0]).2 = .ok) :
    HoldsU (offsetsBG ow LD L hz).lawful (OffsetsIn.Neat LD L Canon)
      (fun l => l.flatten.length ≤ ow.max ∧ Fit l.flatten)
      (fun n l => l.length ≤ n ∧ Covers n l.flatten)
      (fun c l => OffsetsIn.Free ow LD L Space Hold c l) where
  withCap {n c l} h hr hl := by
    have h : OffsetsIn.withCap D R n = .ok c := h
    have hm := OffsetsIn.withCap_ok (LD := LD) (L := L) h
    unfold OffsetsIn.withCap strictAdd at h
    split at h
    · simp at h
    · simp at h
    · next d hd =>
      split at h
      · simp at h
      · next k hk =>
        split at hk <;> simp only [Res.ok.injEq, reduceCtorEq] at hk
        subst hk
        split at h
        · simp at h
        · simp at h
        · next of hof =>
          split at h
          · next of' hof' =>
            simp only [Try.ok.injEq] at h
            subst h
            refine ⟨?_, ?_, K.withCap hd hr.2 hl.2⟩
            · refine M.less hl.1 (M.extend (hL (LD.withCap_ok hof).1) ?_ hof')
              exact M.less (by simp [Src.items]; omega) (M.withCap hof)
            · rw [hm.toInv.2]; simpa using hr.1
          · simp at h
  tryWithCap {w w' n c l} h hr hl := by
    have h : OffsetsIn.tryWithCap D R w n = (.ok c, w') := h
    have hm := OffsetsIn.tryWithCap_ok (LD := LD) (L := L) h
    unfold OffsetsIn.tryWithCap checkedAdd at h
    split at h
    · simp at h
    · next k hk =>
      split at hk <;> simp only [Option.some.injEq, reduceCtorEq] at hk
      subst hk
      split at h
      · simp at h
      · simp at h
      · next d w1 hd =>
        split at h
        · simp at h
        · simp at h
        · next of w2 hof =>
          split at h
          · next of' w3 hof' =>
            simp only [Prod.mk.injEq, Try.ok.injEq] at h
            obtain ⟨rfl, rfl⟩ := h
            refine ⟨?_, ?_, K.tryWithCap hd hr.2 hl.2⟩
            · refine M.less hl.1 (M.tryExtend (hL (LD.tryWithCap_ok hof).1) ?_ hof')
              exact M.less (by simp [Src.items]; omega) (M.tryWithCap hof)
            · rw [hm.toInv.2]; simpa using hr.1
          · simp at h
          · simp at h
  reserve {c c' n l} hc hk h hr hl := by
    have hc : OffsetsIn.Ok LD L c := hc
    have h : OffsetsIn.reserve D R c n = (c', .ok) := h
    have hr : (OffsetsIn.rows LD L c ++ l).flatten.length ≤ ow.max ∧
      Fit (OffsetsIn.rows LD L c ++ l).flatten := hr
    have habs := (OffsetsIn.reserve_spec hc h).2.1
    obtain ⟨hr1, hr2⟩ := hr
    rw [List.flatten_append] at hr1 hr2
    rw [← hk.2] at hr2
    unfold OffsetsIn.reserve at h
    split at h
    · next d hd =>
      simp only [Prod.mk.injEq] at h
      obtain ⟨rfl, ho⟩ := h
      refine ⟨M.less hl.1 (M.reserve (hL hc.off) (Prod.ext rfl ho)), ?_,
        K.reserve hc.inv hk.1 hd hr2 hl.2⟩
      rw [habs]; simpa using hr1
    · next d o hd _ => simp at h; simp_all
  tryReserve {w w' c c' n l} hc hk h hr hl := by
    have hc : OffsetsIn.Ok LD L c := hc
    have h : OffsetsIn.tryReserve D R w c n = (c', .ok, w') := h
    have hr : (OffsetsIn.rows LD L c ++ l).flatten.length ≤ ow.max ∧
      Fit (OffsetsIn.rows LD L c ++ l).flatten := hr
    have habs := (OffsetsIn.tryReserve_spec hc h).2.1
    obtain ⟨hr1, hr2⟩ := hr
    rw [List.flatten_append] at hr1 hr2
    rw [← hk.2] at hr2
    unfold OffsetsIn.tryReserve at h
    split at h
    · next d w1 hd =>
      simp only [Prod.mk.injEq] at h
      obtain ⟨rfl, ho, rfl⟩ := h
      refine ⟨M.less hl.1 (M.tryReserve (hL hc.off) (Prod.ext rfl (Prod.ext ho rfl))), ?_,
        K.tryReserve hc.inv hk.1 hd hr2 hl.2⟩
      rw [habs]; simpa using hr1
    · next d o hd _ => simp at h; simp_all
  trunc {c c' m l} hc hn h := by
    have hc : OffsetsIn.Ok LD L c := hc
    have h : OffsetsIn.truncate D R c m = (c', .ok) := h
    obtain ⟨c1, t1, -, t3⟩ := OffsetsIn.trunc_ok m hc
    have h' := h
    rw [t1, Prod.mk.injEq] at h'
    obtain ⟨rfl, -⟩ := h'
    obtain ⟨h1, h2, h3⟩ := hn
    have htot : (OffsetsIn.rows LD L c1).flatten.length + l.flatten.length ≤ ow.max := by
      have h4 := congrArg (fun x => List.length (List.flatten x))
        (List.take_append_drop m (OffsetsIn.rows LD L c))
      simp only [List.flatten_append, List.length_append] at h4
      rw [t3]; omega
    unfold OffsetsIn.truncate at h
    split at h
    · simp at h
    · split at h
      · split at h
        · simp at h
        · split at h
          · simp at h
          · split at h
            · next of hof =>
              simp only [Prod.mk.injEq] at h
              obtain ⟨rfl, ho⟩ := h
              exact ⟨M.truncate (hL hc.off) h1 hof, htot, K.trunc hc.inv h3 (Prod.ext rfl ho)⟩
            · simp only [Prod.mk.injEq] at h
              simp_all
      · simp only [Prod.mk.injEq, and_true] at h
        subst h; exact ⟨h1, h2, h3⟩
  ext {w c s l} hc hn hp hw := by
    have hc : OffsetsIn.Ok LD L c := hc
    obtain ⟨d, t1, t2, t3, -⟩ := L.trunc_ok (OffsetsIn.rows LD L c).flatten.length hc.inv
    have hm := OffsetsIn.Mid.of_inv hc t2 t3
    obtain ⟨c', w', e, hw', k⟩ := OffsetsIn.tryExtendLoop_free K M hL (OffsetsIn.rows LD L c).length
      (OffsetsIn.rows LD L c).flatten.length l s w ⟨d, c.offsets⟩ _ hp hm
      ⟨hn.offsets, by rw [hm.toInv.2]; exact hn.total, K.trunc hc.inv hn.data t1⟩ hw
    refine ⟨c', w', ?_, hw', k⟩
    show OffsetsIn.tryExtend ow D R w c s = _
    unfold OffsetsIn.tryExtend
    rw [OffsetsIn.last_ok hc.off hc.items, hc.len_ok]
    simp only [Offsets.asUsize_ofNat]
    simp only [t1]
    exact e

/-! ## Compositions -/

theorem HoldsU.weaken {O : Type} {R : Realloc O} {L : LawfulR R} {P Q : R.C → Prop}
    {Fit : List O → Prop} {Covers : Nat → List O → Prop} {Hold : R.C → List O → Prop}
    (K : HoldsU L P Fit Covers Hold) (hq : ∀ {c}, Q c → P c) : HoldsU L Q Fit Covers Hold :=
  { K with
    reserve := fun h1 h2 => K.reserve h1 (hq h2)
    tryReserve := fun h1 h2 => K.tryReserve h1 (hq h2) }

theorem scomp_holds : {O : Type} → (k : SComp O) → (h : Sound k) → Providing k →
    ∃ Hold, HoldsU (scompL k h) (sloose k h) (TotalsFit k) (SCovers k) Hold
  | _, .leaf _ _ _, h, hp => by
    obtain ⟨_, M⟩ := hp
    exact ⟨_, holds_leaf M (L := (honoursG h).lawful) id⟩
  | _, .bitmap _ _, h, hp => by
    obtain ⟨_, M⟩ := hp
    exact ⟨_, holds_bitmap M (L := honoursB h) id⟩
  | _, .flatten n hn k, h, hp => by
    obtain ⟨H, K⟩ := scomp_holds k h hp
    exact ⟨_, holds_flatten K n hn⟩
  | _, .validity env _ _ k, h, hp => by
    obtain ⟨⟨_, M⟩, hp⟩ := hp
    obtain ⟨H, K⟩ := scomp_holds k h.2 hp
    exact ⟨_, holds_validity K M (LB := honoursB h.1) id env⟩
  | _, .offsets ow _ _ k, h, hp => by
    obtain ⟨⟨_, M⟩, hp⟩ := hp
    obtain ⟨H, K⟩ := scomp_holds k h.2.2 hp
    exact ⟨_, (holds_offsets (K.weaken (sfirms k h.2.2).weaken) M (LD := honoursB h.1) id ow
      h.2.1).weaken And.left⟩

/-- Calls that use up room return. -/
theorem HoldsU.uses {O : Type} {R : Realloc O} {L : LawfulR R} {Canon : R.C → Prop}
    {Fit : List O → Prop} {Covers : Nat → List O → Prop} {Hold : R.C → List O → Prop}
    (K : HoldsU L Canon Fit Covers Hold) :
    ∀ (us : List (Use O)) {w : World} {c : R.C}, L.Inv c → Hold c (appended us) → Calm us →
      HonestLower w.oracle →
      ∃ c' w', runUses R w c us = (c', .ok, w') ∧ L.Inv c' ∧ L.abs c' = listUses (L.abs c) us
  | [], w, c, hc, _, _, _ => ⟨c, w, rfl, hc, rfl⟩
  | .tryExtend s :: us, w, c, hc, hh, hp, hw => by
    obtain ⟨c1, w1, e1, hw1, h1⟩ := K.ext hc hh hp.1 hw
    obtain ⟨i1, i2, -⟩ := L.tryExt_ok hc e1
    obtain ⟨c2, w2, e2, j1, j2⟩ := K.uses us i1 h1 hp.2 hw1
    exact ⟨c2, w2, by simp only [runUses, e1, e2], j1, by rw [j2, i2]; rfl⟩
  | .truncate m :: us, w, c, hc, hh, hp, hw => by
    obtain ⟨c1, t1, t2, t3, -⟩ := L.trunc_ok m hc
    obtain ⟨c2, w2, e2, j1, j2⟩ := K.uses us t2 (K.trunc hc hh t1) hp hw
    exact ⟨c2, w2, by simp only [runUses, t1, e2], j1, by rw [j2, t3]; rfl⟩

/-- Reserving makes room. -/
theorem HoldsU.reserved {O : Type} {R : Realloc O} {L : LawfulR R} {Canon : R.C → Prop}
    {Fit : List O → Prop} {Covers : Nat → List O → Prop} {Hold : R.C → List O → Prop}
    (K : HoldsU L Canon Fit Covers Hold)
    {Made : R.C → List O → Prop} (hm : ∀ {c l}, Made c l → L.Inv c ∧ Canon c ∧ L.abs c = l)
    {n : Nat} {c : R.C} {l m : List O} (h : Reserved R Made n c l) (hr : Fit (l ++ m))
    (hc : Covers n m) : L.Inv c ∧ L.abs c = l ∧ Hold c m := by
  cases h with
  | withCap e =>
    obtain ⟨h1, h2, -⟩ := L.withCap_ok e
    exact ⟨h1, h2, K.withCap e hr hc⟩
  | tryWithCap e =>
    obtain ⟨h1, h2, -⟩ := L.tryWithCap_ok e
    exact ⟨h1, h2, K.tryWithCap e hr hc⟩
  | reserve hg e =>
    obtain ⟨h1, h2, rfl⟩ := hm hg
    obtain ⟨i1, i2, -, -⟩ := L.reserve_ok h1 e
    exact ⟨i1, i2, K.reserve h1 h2 e hr hc⟩
  | tryReserve hg e =>
    obtain ⟨h1, h2, rfl⟩ := hm hg
    obtain ⟨i1, i2, -, -⟩ := L.tryReserve_ok h1 e
    exact ⟨i1, i2, K.tryReserve h1 h2 e hr hc⟩

end Narrow
