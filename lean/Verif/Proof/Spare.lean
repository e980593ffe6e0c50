import Verif.Spec.Spare
import Verif.Proof.BackendComp

/-! # Room in bitmaps and grouped collections over any storage -/

namespace Narrow

open Spec

theorem Kind.next {w : World} (h : Kind w) : Kind w.next := h

theorem tight_capHint {w : World} (h : TightHints w.oracle) (n : Nat) : w.capHint n ≤ n :=
  (h w.tick n).2

/-- Growing keeps the form `Canon`. -/
structure Tidy {O : Type} {R : Realloc O} (L : LawfulR R) (Canon : R.C → Prop) : Prop where
  empty : Canon R.empty
  withCap : ∀ {n c}, R.withCap n = .ok c → Canon c
  tryWithCap : ∀ {w w' n c}, R.tryWithCap w n = (.ok c, w') → Canon c
  fromIter : ∀ {w w' s c}, s.Fused → R.fromIter w s = (.ok c, w') → Canon c
  fromIterIn : ∀ {w w' s c}, s.Fused → R.fromIterIn w s = (.ok c, w') → Canon c
  tryFromIter : ∀ {w w' s c}, s.Fused → R.tryFromIter w s = (.ok c, w') → Canon c
  ext : ∀ {c c' s}, L.Inv c → Canon c → R.extend c s = (c', .ok) → Canon c'
  tryExt : ∀ {w w' c c' s}, L.Inv c → Canon c → R.tryExtend w c s = (c', .ok, w') → Canon c'
  reserve : ∀ {c c' n o}, L.Inv c → Canon c → R.reserve c n = (c', o) → Canon c'
  tryReserve : ∀ {w w' c c' n o}, L.Inv c → Canon c → R.tryReserve w c n = (c', o, w') → Canon c'
  trunc : ∀ {c c' n o}, L.Inv c → Canon c → (L.abs c).length ≤ n → R.truncate c n = (c', o) → Canon c'

/-- Dropping items keeps the form `Canon`. -/
structure Shrinks {O : Type} {R : Realloc O} (L : LawfulR R) (Canon : R.C → Prop) : Prop where
  trunc : ∀ {c c' n o}, L.Inv c → Canon c → R.truncate c n = (c', o) → Canon c'
  tryExtErr : ∀ {w w' c c' s}, L.Inv c → Canon c → R.tryExtend w c s = (c', .err, w') → Canon c'

/-- With room, `try_extend` of a collection of the form `Canon` succeeds. -/
structure TryGrows {O : Type} {R : Realloc O} (L : LawfulR R) (Canon : R.C → Prop)
    (Room : List O → Prop) : Prop where
  pre : ∀ {l m}, Room (l ++ m) → Room l
  tryExt : ∀ {w c s}, Kind w → L.Inv c → Canon c → s.panics = false →
    Room (L.abs c ++ s.items) → ∃ c' w', R.tryExtend w c s = (c', .ok, w') ∧ Kind w'

/-- With room, `extend` of a collection of the form `Canon` returns, too. -/
structure ExtGrows {O : Type} {R : Realloc O} (L : LawfulR R) (Canon : R.C → Prop)
    (Room : List O → Prop) : Prop extends TryGrows L Canon Room where
  ext : ∀ {c s}, L.Inv c → Canon c → s.panics = false → Room (L.abs c ++ s.items) →
    (R.extend c s).2 = .ok

/-- With room, collections of the form `Canon` grow, and reservations are granted. -/
structure Roomy {O : Type} {R : Realloc O} (L : LawfulR R) (Canon : R.C → Prop)
    (Room : List O → Prop) (Spare : Nat → List O → Prop) : Prop extends ExtGrows L Canon Room where
  mono : ∀ {n n' l}, n' ≤ n → Spare n l → Spare n' l
  size : ∀ {n l}, Spare n l → n ≤ usizeMax
  withCap : ∀ {n}, Spare n [] → R.withCap n ≠ .panic
  fromIter : ∀ {w s}, TightHints w.oracle → s.Fused → s.panics = false → Room s.items →
    (R.fromIter w s).1 ≠ .panic
  fromIterIn : ∀ {w s}, TightHints w.oracle → s.Fused → s.panics = false → Room s.items →
    Spare s.items.length [] → (R.fromIterIn w s).1 ≠ .panic
  reserve : ∀ {c n}, L.Inv c → Canon c → Spare n (L.abs c) → (R.reserve c n).2 = .ok
  tryWithCap : ∀ {w n}, Kind w → Spare n [] → ∃ c w', R.tryWithCap w n = (.ok c, w') ∧ Kind w'
  tryFromIter : ∀ {w s}, Kind w → s.Fused → s.panics = false → Room s.items →
    Spare s.items.length [] → ∃ c w', R.tryFromIter w s = (.ok c, w') ∧ Kind w'
  tryReserve : ∀ {w c n}, Kind w → L.Inv c → Canon c → Spare n (L.abs c) →
    ∃ c' w', R.tryReserve w c n = (c', .ok, w') ∧ Kind w'

/-! ## Collections written by users -/

/-- A collection that takes `cap` items. -/
abbrev Takes {O : Type} {R : Realloc O} (L : LawfulR R) (cap : Nat) : Prop :=
  Roomy L (fun _ => True) (fun l => l.length ≤ cap) (fun n l => l.length + n ≤ cap)

theorem tidy_true {O : Type} {R : Realloc O} (L : LawfulR R) : Tidy L fun _ => True := by
  constructor <;> intros <;> trivial

theorem shrinks_true {O : Type} {R : Realloc O} (L : LawfulR R) : Shrinks L fun _ => True := by
  constructor <;> intros <;> trivial

theorem takes_of {α : Type} {R : Realloc α} {L : LawfulR R} {cap : Nat}
    (h : Holds R L.Inv L.abs cap) : Takes L cap where
  pre h := by simp only [List.length_append] at h; omega
  mono h1 h2 := by omega
  size h1 := by have := h.size; omega
  withCap h1 := h.withCap (by simpa using h1)
  fromIter ht hs hp h1 := h.fromIter ht hs hp h1
  fromIterIn ht hs hp h1 _ := h.fromIterIn ht hs hp h1
  ext hc _ hp h1 := h.extend hc hp (by simpa using h1)
  reserve hc _ h1 := h.reserve hc h1
  tryWithCap hw h1 := h.tryWithCap hw (by simpa using h1)
  tryFromIter hw hs hp h1 _ := h.tryFromIter hw hs hp h1
  tryExt hw hc _ hp h1 := h.tryExtend hw hc hp (by simpa using h1)
  tryReserve hw hc _ h1 := h.tryReserve hw hc h1

/-! ## Bitmaps -/

namespace BitmapOf

variable {B : Backing Byte}

/-- No byte beyond the bits. -/
def Exact (L : LawfulB B) (b : BitmapOf B.C) : Prop :=
  b.offset = 0 ∧ (L.abs b.buffer).length = bytesForBits b.bits

variable {L : LawfulB B}

theorem exact_zero {buf : B.C} (h : L.abs buf = []) : Exact L ⟨buf, 0, 0⟩ :=
  ⟨rfl, by simp [h, bytesForBits]⟩

theorem exact_packed {s : Src Bool} {b : BitmapOf B.C} {buf : B.C} (hs : s.Fused)
    (hb : b = ⟨buf, (pack s).2, 0⟩) (h2 : L.abs buf = (pack s).1.items)
    (h3 : (pack s).1.panics = false) : Exact L b := by
  obtain ⟨p1, p2, p3, p4, p5⟩ := pack_spec s hs
  rw [p2] at h3
  obtain ⟨q1, q2⟩ := p3 h3
  subst hb
  exact ⟨rfl, by simp only [h2, q1, q2]⟩

/-- What `extend` and `try_extend` do with their source. -/
theorem phases {b : BitmapOf B.C} {s : Src Bool} (hb : b.Inv L) (he : Exact L b)
    (hp : s.panics = false) :
    (∃ b1 s1, Bitmap.phase1 (b.seen B.toBuf) s.fuse = (b1, s1, false) ∧ b1.offset = 0 ∧
      ((Bitmap.phase2 b1 s1 = none ∧ b1.buffer.items.length = (L.abs b.buffer).length ∧
        b1.bits = b.bits + s.items.length ∧
        (L.abs b.buffer).length = bytesForBits (b.bits + s.items.length)) ∨
       (∃ buf packed n, Bitmap.phase2 b1 s1 = some (buf, packed, n, false) ∧
        buf.length = (L.abs b.buffer).length ∧ packed.panics = false ∧
        b1.bits + n = b.bits + s.items.length ∧
        (L.abs b.buffer).length + packed.items.length = bytesForBits (b.bits + s.items.length)))) := by
  have hI := hb.seen
  obtain ⟨k, k1, k2, k3, k4, k5, k6, k7, k8, k9, k10⟩ := Bitmap.phase1_spec hI (Src.fused_fuse s)
  simp only [Src.items_fuse, Src.panics_fuse] at *
  have hlen : (b.seen B.toBuf).buffer.items.length = (L.abs b.buffer).length := by
    rw [seen_items hb.buf]
  have hoff : (b.seen B.toBuf).offset = 0 := he.1
  have hbits : (b.seen B.toBuf).bits = b.bits := rfl
  have hex := he.2
  generalize hP : Bitmap.phase1 (b.seen B.toBuf) s.fuse = P at *
  obtain ⟨b1, s1, p⟩ := P
  simp only at *
  cases p with
  | true => have := (k9 rfl).1; rw [hp] at this; cases this
  | false =>
    obtain ⟨f1, f2, f3, f4⟩ := k10 rfl
    have hle1 := k2.le
    have halign : (s1.items ≠ [] ∨ s1.panics = true) → (b1.offset + b1.bits) % 8 = 0 := by
      intro h; rw [k3, k4]; apply f4
      rcases h with h | h
      · left; rw [f2] at h; simpa using h
      · right; rwa [f3] at h
    obtain ⟨g1, g2⟩ := Bitmap.phase2_spec k2 f1 halign
    refine ⟨b1, s1, rfl, by omega, ?_⟩
    have hslen : s1.items.length = s.items.length - k := by rw [f2]; simp
    by_cases hdone : s1.items = []
    · left
      have hk : k = s.items.length := by rw [hdone] at hslen; simp at hslen; omega
      refine ⟨g1 ⟨hdone, by rw [f3]; exact hp⟩, by omega, by omega, ?_⟩
      unfold bytesForBits at *; omega
    · right
      obtain ⟨buf, packed, n, p, e1, e2, e3, e4, e5⟩ := g2 (.inl hdone)
      have hal := halign (.inl hdone)
      have hpf : p = false := by
        cases p with
        | false => rfl
        | true => have := e4 rfl; rw [f3, hp] at this; cases this
      subst hpf
      obtain ⟨q1, q2, q3, q4⟩ := e5 rfl
      obtain ⟨u1, u2, -⟩ := q4 (by rw [f3]; exact hp)
      simp only [List.length_append] at u2
      refine ⟨buf, packed, n, e1, by omega, by rw [q2, f3]; exact hp, by omega, ?_⟩
      have hsz : b1.offset + b1.bits + s1.items.length = b.bits + s.items.length := by omega
      rw [hsz] at q3 u2
      unfold bytesForBits at *; omega

theorem ext_exact {b b' : BitmapOf B.C} {s : Src Bool} (hb : b.Inv L) (he : Exact L b)
    (h : extend B b s = (b', .ok)) : Exact L b' := by
  obtain ⟨-, -, hp⟩ := (extend_spec (s := s) hb).2 (by rw [h])
  obtain ⟨b1, s1, p1, p0, p2 | ⟨buf, packed, n, p2, p3, p4, p5, p6⟩⟩ := phases hb he hp
  · obtain ⟨p2, p3, p4, p5⟩ := p2
    simp only [extend, p1, p2, Prod.mk.injEq] at h
    obtain ⟨rfl, -⟩ := h
    obtain ⟨w1, w2⟩ := L.write_ok hb.buf p3
    exact ⟨p0, by simp only [w2, p3, p4, p5]⟩
  · simp only [extend, p1, p2] at h
    obtain ⟨w1, w2⟩ := L.write_ok hb.buf p3
    generalize hR : B.extend (B.write b.buffer buf) packed = R at *
    obtain ⟨buf', o⟩ := R
    cases o with
    | err => simp at h
    | panic => simp at h
    | ok =>
      obtain ⟨t1, t2, t3⟩ := L.ext_ok w1 hR
      simp only at h
      split at h
      · next bits hs =>
        simp only [Prod.mk.injEq] at h
        obtain ⟨rfl, -⟩ := h
        have hbits : bits = b1.bits + n := by
          unfold strictAdd at hs; split at hs <;> simp at hs; omega
        exact ⟨p0, by simp only [t2, w2, hbits, p5, List.length_append, p3, p6]⟩
      · simp at h

theorem tryExt_exact {w w' : World} {b b' : BitmapOf B.C} {s : Src Bool} (hb : b.Inv L)
    (he : Exact L b) (h : tryExtend B w b s = (b', .ok, w')) : Exact L b' := by
  obtain ⟨-, -, hp⟩ := (tryExtend_spec hb h).1 rfl
  obtain ⟨b1, s1, p1, p0, p2 | ⟨buf, packed, n, p2, p3, p4, p5, p6⟩⟩ := phases hb he hp
  · obtain ⟨p2, p3, p4, p5⟩ := p2
    simp only [tryExtend, p1, p2, Prod.mk.injEq] at h
    obtain ⟨rfl, -⟩ := h
    obtain ⟨w1, w2⟩ := L.write_ok hb.buf p3
    exact ⟨p0, by simp only [w2, p3, p4, p5]⟩
  · simp only [tryExtend, p1, p2] at h
    obtain ⟨w1, w2⟩ := L.write_ok hb.buf p3
    generalize hR : B.tryExtend w (B.write b.buffer buf) packed = R at *
    obtain ⟨buf', o, w2'⟩ := R
    cases o with
    | err => simp at h
    | panic => simp at h
    | ok =>
      obtain ⟨t1, t2, t3⟩ := L.tryExt_ok w1 hR
      simp only at h
      split at h
      · next bits hs =>
        simp only [Prod.mk.injEq] at h
        obtain ⟨rfl, -⟩ := h
        have hbits : bits = b1.bits + n := by
          unfold strictAdd at hs; split at hs <;> simp at hs; omega
        exact ⟨p0, by simp only [t2, w2, hbits, p5, List.length_append, p3, p6]⟩
      · simp at h

theorem ext_live {cap : Nat} (T : Takes L.toLawfulR cap) {b : BitmapOf B.C} {s : Src Bool}
    (hb : b.Inv L) (he : Exact L b) (hp : s.panics = false)
    (hr : b.bits + s.items.length ≤ 8 * cap) : (extend B b s).2 = .ok := by
  obtain ⟨b1, s1, p1, p0, p2 | ⟨buf, packed, n, p2, p3, p4, p5, p6⟩⟩ := phases hb he hp
  · simp only [extend, p1, p2.1]
  · obtain ⟨w1, w2⟩ := L.write_ok hb.buf p3
    have hok := T.ext (c := B.write b.buffer buf) (s := packed) w1 trivial p4 (by
      rw [List.length_append, w2, p3, p6]; unfold bytesForBits; omega)
    simp only [extend, p1, p2]
    generalize hR : B.extend (B.write b.buffer buf) packed = R at *
    obtain ⟨buf', o⟩ := R
    simp only at hok
    subst hok
    obtain ⟨t1, t2, t3⟩ := L.ext_ok w1 hR
    have hbm := L.small t1
    have hsum : b1.bits + n ≤ usizeMax := by
      rw [t2, List.length_append, w2, p3, p6] at hbm
      unfold bytesForBits byteMax at hbm; unfold usizeMax; omega
    simp only [Bitmap.strictAdd_ok hsum]

theorem tryExt_live {cap : Nat} (T : Takes L.toLawfulR cap) {w : World} {b : BitmapOf B.C}
    {s : Src Bool} (hw : Kind w) (hb : b.Inv L) (he : Exact L b) (hp : s.panics = false)
    (hr : b.bits + s.items.length ≤ 8 * cap) :
    ∃ b' w', tryExtend B w b s = (b', .ok, w') ∧ Kind w' := by
  obtain ⟨b1, s1, p1, p0, p2 | ⟨buf, packed, n, p2, p3, p4, p5, p6⟩⟩ := phases hb he hp
  · simp only [tryExtend, p1, p2.1]
    exact ⟨_, _, rfl, hw⟩
  · obtain ⟨w1, w2⟩ := L.write_ok hb.buf p3
    obtain ⟨buf', w', hR, hk⟩ := T.tryExt (c := B.write b.buffer buf) (s := packed) hw w1 trivial p4 (by
      rw [List.length_append, w2, p3, p6]; unfold bytesForBits; omega)
    obtain ⟨t1, t2, t3⟩ := L.tryExt_ok w1 hR
    have hbm := L.small t1
    have hsum : b1.bits + n ≤ usizeMax := by
      rw [t2, List.length_append, w2, p3, p6] at hbm
      unfold bytesForBits byteMax at hbm; unfold usizeMax; omega
    simp only [tryExtend, p1, p2, hR, Bitmap.strictAdd_ok hsum]
    exact ⟨_, _, rfl, hk⟩

theorem reserve_exact {b b' : BitmapOf B.C} {n : Nat} {o : Out} (hb : b.Inv L) (he : Exact L b)
    (h : reserve B b n = (b', o)) : Exact L b' := by
  obtain ⟨t, ht, -⟩ := Bitmap.trailingBits_ok hb.seen
  simp only [reserve, ht] at h
  split at h
  · simp only [Prod.mk.injEq] at h
    obtain ⟨rfl, rfl⟩ := h
    obtain ⟨h1, h2, h3, -⟩ := L.reserve_ok hb.buf (n := bytesForBits (n - t)) rfl
    exact ⟨he.1, by simp only [h2]; exact he.2⟩
  · simp only [Prod.mk.injEq] at h
    obtain ⟨rfl, rfl⟩ := h
    exact he

theorem tryReserve_exact {w w' : World} {b b' : BitmapOf B.C} {n : Nat} {o : Out} (hb : b.Inv L)
    (he : Exact L b) (h : tryReserve B w b n = (b', o, w')) : Exact L b' := by
  obtain ⟨t, ht, -⟩ := Bitmap.trailingBits_ok hb.seen
  simp only [tryReserve, ht] at h
  split at h
  · simp only [Prod.mk.injEq] at h
    obtain ⟨rfl, rfl, rfl⟩ := h
    obtain ⟨h1, h2, h3, -⟩ := L.tryReserve_ok hb.buf (w := w) (n := bytesForBits (n - t)) rfl
    exact ⟨he.1, by simp only [h2]; exact he.2⟩
  · simp only [Prod.mk.injEq] at h
    obtain ⟨rfl, rfl, rfl⟩ := h
    exact he

theorem Exact.bytes {b : BitmapOf B.C} {t n cap : Nat} (he : Exact L b) (h1 : t < 8)
    (h2 : (b.offset + b.bits + t) % 8 = 0) (hr : b.bits + n ≤ 8 * cap) (h : t ≤ n) :
    (L.abs b.buffer).length + bytesForBits (n - t) ≤ cap := by
  have := he.1
  rw [he.2]
  unfold bytesForBits; omega

theorem reserve_live {cap : Nat} (T : Takes L.toLawfulR cap) {b : BitmapOf B.C} {n : Nat}
    (hb : b.Inv L) (he : Exact L b) (hr : b.bits + n ≤ 8 * cap) : (reserve B b n).2 = .ok := by
  obtain ⟨t, ht, h1, h2⟩ := Bitmap.trailingBits_ok hb.seen
  simp only [reserve, ht]
  split
  · next h => exact T.reserve hb.buf trivial (he.bytes h1 h2 hr h)
  · rfl

theorem tryReserve_live {cap : Nat} (T : Takes L.toLawfulR cap) {w : World} {b : BitmapOf B.C}
    {n : Nat} (hw : Kind w) (hb : b.Inv L) (he : Exact L b) (hr : b.bits + n ≤ 8 * cap) :
    ∃ b' w', tryReserve B w b n = (b', .ok, w') ∧ Kind w' := by
  obtain ⟨t, ht, h1, h2⟩ := Bitmap.trailingBits_ok hb.seen
  simp only [tryReserve, ht]
  split
  · next h =>
    obtain ⟨buf, w', h3, h4⟩ := T.tryReserve hw hb.buf trivial (he.bytes h1 h2 hr h)
    simp only [h3]
    exact ⟨_, _, rfl, h4⟩
  · exact ⟨_, _, rfl, hw⟩

theorem allSet_exact {w w' : World} {n : Nat} {b : BitmapOf B.C} (h : allSet B w n = (.ok b, w')) :
    Exact L b := by
  simp only [allSet, Prod.mk.injEq] at h
  obtain ⟨buf, h1, rfl⟩ := around_ok h.1
  obtain ⟨h3, h4, h5, -⟩ := L.fromIterIn_ok (Src.fused_ofList _) (w := w) (w' := w') (Prod.ext h1 h.2)
  exact ⟨rfl, by simp only [h4, Src.items_ofList, Bitmap.allSetBytes_length]⟩

theorem tryAllSet_exact {w w' : World} {n : Nat} {b : BitmapOf B.C}
    (h : tryAllSet B w n = (.ok b, w')) : Exact L b := by
  simp only [tryAllSet, Prod.mk.injEq] at h
  obtain ⟨buf, h1, rfl⟩ := around_ok h.1
  obtain ⟨h3, h4, h5, -⟩ := L.tryFromIter_ok (Src.fused_ofList _) (w := w) (w' := w') (Prod.ext h1 h.2)
  exact ⟨rfl, by simp only [h4, Src.items_ofList, Bitmap.allSetBytes_length]⟩

theorem allSet_live {cap : Nat} (T : Takes L.toLawfulR cap) {w : World} {n : Nat}
    (hw : TightHints w.oracle) (h : n ≤ 8 * cap) : (allSet B w n).1 ≠ .panic :=
  around_ne_panic (T.fromIterIn hw (Src.fused_ofList _) (by simp)
    (by simp [Bitmap.allSetBytes_length, bytesForBits]; omega)
    (by simp [Bitmap.allSetBytes_length, bytesForBits]; omega))

theorem tryAllSet_live {cap : Nat} (T : Takes L.toLawfulR cap) {w : World} {n : Nat}
    (hw : Kind w) (h : n ≤ 8 * cap) : ∃ b w', tryAllSet B w n = (.ok b, w') ∧ Kind w' := by
  obtain ⟨buf, w', h1, h2⟩ := T.tryFromIter (s := Src.ofList (Bitmap.allSetBytes n)) hw
    (Src.fused_ofList _) (by simp)
    (by simp [Bitmap.allSetBytes_length, bytesForBits]; omega)
    (by simp [Bitmap.allSetBytes_length, bytesForBits]; omega)
  simp only [tryAllSet, h1, around]
  exact ⟨_, _, rfl, h2⟩

theorem withCap_live {cap : Nat} (T : Takes L.toLawfulR cap) {n : Nat} (h : n ≤ 8 * cap) :
    withCap B n ≠ .panic :=
  around_ne_panic (T.withCap (by simp [bytesForBits]; omega))

theorem tryWithCap_live {cap : Nat} (T : Takes L.toLawfulR cap) {w : World} {n : Nat} (hw : Kind w)
    (h : n ≤ 8 * cap) : ∃ b w', tryWithCap B w n = (.ok b, w') ∧ Kind w' := by
  obtain ⟨buf, w', h1, h2⟩ := T.tryWithCap (n := bytesForBits n) hw (by simp [bytesForBits]; omega)
  simp only [tryWithCap, h1, around]
  exact ⟨_, _, rfl, h2⟩

theorem truncate_exact {b : BitmapOf B.C} {n : Nat} (he : Exact L b) (h : b.bits ≤ n) :
    Exact L (b.truncate n) := by
  unfold truncate
  rw [if_neg (by omega)]
  exact he

end BitmapOf

open BitmapOf in
theorem bitmap_tidy {B : Backing Byte} (L : LawfulB B) :
    Tidy (bitmapBG L).lawful (BitmapOf.Exact L) where
  empty := exact_zero L.empty_ok.2.1
  withCap h := by
    obtain ⟨buf, h1, rfl⟩ := around_ok h
    exact exact_zero (L.withCap_ok h1).2.1
  tryWithCap {w w' n c} h := by
    have h : BitmapOf.tryWithCap B w n = (.ok c, w') := h
    simp only [BitmapOf.tryWithCap, Prod.mk.injEq] at h
    obtain ⟨buf, h1, rfl⟩ := around_ok h.1
    exact exact_zero (L.tryWithCap_ok (w := w) (w' := w') (Prod.ext h1 h.2)).2.1
  fromIter hs h := by
    obtain ⟨buf, h0, h1, h2, h3⟩ := fromIter_cases (L := L) h
    exact exact_packed hs h0 h2 h3
  fromIterIn hs h := by
    obtain ⟨buf, h0, h1, h2, h3⟩ := fromIterIn_cases (L := L) h
    exact exact_packed hs h0 h2 h3
  tryFromIter hs h := by
    obtain ⟨buf, h0, h1, h2, h3⟩ := tryFromIter_cases (L := L) h
    exact exact_packed hs h0 h2 h3
  ext hc he h := ext_exact hc he h
  tryExt hc he h := tryExt_exact hc he h
  reserve hc he h := reserve_exact hc he h
  tryReserve hc he h := tryReserve_exact hc he h
  trunc {c c' n o} hc he hn h := by
    simp only [Prod.mk.injEq] at h
    obtain ⟨rfl, -⟩ := h
    exact truncate_exact he (by rw [← bits_length]; exact hn)

/-- Bitmaps of all set bits have the form `X`, too. -/
structure BTidy {B : Backing Byte} (L : LawfulB B) (X : BitmapOf B.C → Prop) : Prop
    extends Tidy (bitmapBG L).lawful X where
  allSet : ∀ {w w' n b}, BitmapOf.allSet B w n = (.ok b, w') → X b
  tryAllSet : ∀ {w w' n b}, BitmapOf.tryAllSet B w n = (.ok b, w') → X b

theorem bitmap_exact {B : Backing Byte} (L : LawfulB B) : BTidy L (BitmapOf.Exact L) where
  toTidy := bitmap_tidy L
  allSet := BitmapOf.allSet_exact
  tryAllSet := BitmapOf.tryAllSet_exact

open BitmapOf in
theorem bitmap_roomy {B : Backing Byte} {L : LawfulB B} {cap : Nat} (T : Takes L.toLawfulR cap)
    (hcap : 8 * cap ≤ usizeMax) :
    Roomy (bitmapBG L).lawful (BitmapOf.Exact L) (fun l => l.length ≤ 8 * cap)
      (fun n l => l.length + n ≤ 8 * cap) where
  pre h := by simp only [List.length_append] at h; omega
  mono h1 h2 := by omega
  size h := by omega
  withCap h := withCap_live T (by simpa using h)
  fromIter {w s} ht hs hp h := by
    obtain ⟨p1, p2, p3, p4, p5⟩ := pack_spec s hs
    exact around_ne_panic (T.fromIter ht p1 (by rw [p2]; exact hp)
      (by unfold bytesForBits at p4; omega))
  fromIterIn {w s} ht hs hp h _ := by
    obtain ⟨p1, p2, p3, p4, p5⟩ := pack_spec s hs
    exact around_ne_panic (T.fromIterIn ht p1 (by rw [p2]; exact hp)
      (by unfold bytesForBits at p4; omega) (by unfold bytesForBits at p4; simp; omega))
  ext {c s} hc he hp h := ext_live T hc he hp (by
    rw [List.length_append] at h; rw [← bits_length]; exact h)
  reserve {c n} hc he h := reserve_live T hc he (by rw [← bits_length]; exact h)
  tryWithCap hw h := tryWithCap_live T hw (by simpa using h)
  tryFromIter {w s} hw hs hp h _ := by
    obtain ⟨p1, p2, p3, p4, p5⟩ := pack_spec s hs
    obtain ⟨buf, w', h1, h2⟩ := T.tryFromIter hw p1 (by rw [p2]; exact hp)
      (by unfold bytesForBits at p4; omega) (by unfold bytesForBits at p4; simp; omega)
    refine ⟨⟨buf, (pack s).2, 0⟩, w', ?_, h2⟩
    show BitmapOf.tryFromIter B w s = _
    simp only [BitmapOf.tryFromIter, h1, around]
  tryExt {w c s} hw hc he hp h := tryExt_live T hw hc he hp (by
    rw [List.length_append] at h; rw [← bits_length]; exact h)
  tryReserve {w c n} hw hc he h := tryReserve_live T hw hc he (by rw [← bits_length]; exact h)

/-! ## Arrays of fixed length -/

section Flatten

variable {O : Type} {R : Realloc O} {L : LawfulR R} {n : Nat}

open Flatten

theorem flatten_tidy {Canon : R.C → Prop} (hn : 0 < n) (T : Tidy L Canon) :
    Tidy (flattenL L n hn) fun c => Canon c.child where
  empty := T.empty
  withCap {k c} h := by
    simp only [flattenR] at h
    split at h
    · simp at h
    · exact T.withCap (wrapTry_ok h)
  tryWithCap {w w' k c} h := by
    simp only [flattenR] at h
    split at h
    · simp at h
    · simp only [Prod.mk.injEq] at h
      exact T.tryWithCap (Prod.ext (wrapTry_ok h.1) rfl)
  fromIter {w w' s c} _ h := by
    simp only [flattenR, Prod.mk.injEq] at h
    exact T.fromIter (flatSrc_fused s) (Prod.ext (wrapTry_ok h.1) rfl)
  fromIterIn {w w' s c} _ h := by
    simp only [flattenR, Prod.mk.injEq] at h
    exact T.fromIterIn (flatSrc_fused s) (Prod.ext (wrapTry_ok h.1) rfl)
  tryFromIter {w w' s c} _ h := by
    simp only [flattenR, Prod.mk.injEq] at h
    exact T.tryFromIter (flatSrc_fused s) (Prod.ext (wrapTry_ok h.1) rfl)
  ext {c c' s} hc hk h := by
    simp only [flattenR, Prod.mk.injEq] at h
    obtain ⟨rfl, h⟩ := h
    exact T.ext hc.1 hk (Prod.ext rfl h)
  tryExt {w w' c c' s} hc hk h := by
    simp only [flattenR, Prod.mk.injEq] at h
    obtain ⟨rfl, h, rfl⟩ := h
    exact T.tryExt hc.1 hk (Prod.ext rfl (Prod.ext h rfl))
  reserve {c c' k o} hc hk h := by
    simp only [flattenR] at h
    split at h
    · simp only [Prod.mk.injEq] at h
      obtain ⟨rfl, rfl⟩ := h
      exact hk
    · simp only [Prod.mk.injEq] at h
      obtain ⟨rfl, rfl⟩ := h
      exact T.reserve hc.1 hk (Prod.ext rfl rfl)
  tryReserve {w w' c c' k o} hc hk h := by
    simp only [flattenR] at h
    split at h
    · simp only [Prod.mk.injEq] at h
      obtain ⟨rfl, rfl, rfl⟩ := h
      exact hk
    · simp only [Prod.mk.injEq] at h
      obtain ⟨rfl, rfl, rfl⟩ := h
      exact T.tryReserve hc.1 hk (Prod.ext rfl (Prod.ext rfl rfl))
  trunc {c c' k o} hc hk hle h := by
    have hle : (flatAbs L.toLawfulColl n c).length ≤ k := hle
    simp only [flattenR, flat_len_ok hn hc] at h
    rw [if_neg (Nat.not_lt.mpr hle)] at h
    simp only [Prod.mk.injEq] at h
    obtain ⟨rfl, rfl⟩ := h
    exact hk

theorem flatten_shrinks {Canon : R.C → Prop} (hn : 0 < n) (T : Shrinks L Canon) :
    Shrinks (flattenL L n hn) fun c => Canon c.child where
  trunc {c c' k o} hc hk h := by
    simp only [flattenR, flat_len_ok hn hc] at h
    split at h
    · split at h
      · simp only [Prod.mk.injEq] at h
        obtain ⟨rfl, rfl⟩ := h
        exact hk
      · simp only [Prod.mk.injEq] at h
        obtain ⟨rfl, rfl⟩ := h
        exact T.trunc hc.1 hk (Prod.ext rfl rfl)
    · simp only [Prod.mk.injEq] at h
      obtain ⟨rfl, rfl⟩ := h
      exact hk
  tryExtErr {w w' c c' s} hc hk h := by
    simp only [flattenR, Prod.mk.injEq] at h
    obtain ⟨rfl, h, rfl⟩ := h
    exact T.tryExtErr hc.1 hk (Prod.ext rfl (Prod.ext h rfl))

theorem wrapTry_ne_panic {C : Type} {x : Try C} (h : x ≠ .panic) : wrapTry x ≠ .panic :=
  fun e => h (wrapTry_panic e)

theorem flatten_roomy {Canon : R.C → Prop} {Rm : List O → Prop} {Sp : Nat → List O → Prop}
    (hn : 0 < n) (T : Roomy L Canon Rm Sp) :
    Roomy (flattenL L n hn) (fun c => Canon c.child) (fun l => Rm (flat l))
      (fun k l => Sp (k * n) (flat l)) where
  pre h := T.pre (by simpa using h)
  mono h1 h2 := T.mono (Nat.mul_le_mul_right n h1) h2
  size h := Nat.le_trans (Nat.le_mul_of_pos_right _ hn) (T.size h)
  withCap {k} h := by
    simp only [flattenR, strictMul_ok (T.size h)]
    exact wrapTry_ne_panic (T.withCap h)
  fromIter {w s} ht _ hp h :=
    wrapTry_ne_panic (T.fromIter ht (flatSrc_fused s) (by simpa using hp)
      (by rw [items_flatSrc]; exact h))
  fromIterIn {w s} ht _ hp h h2 :=
    wrapTry_ne_panic (T.fromIterIn ht (flatSrc_fused s) (by simpa using hp)
      (by rw [items_flatSrc]; exact h) (by rw [items_flatSrc, flat_length]; exact h2))
  ext {c s} hc hk hp hr := by
    refine T.ext hc.1 hk (by simpa using hp) ?_
    rw [items_flatSrc, ← flat_abs hn hc, ← flat_append]; exact hr
  reserve {c k} hc hk hr := by
    simp only [flattenR, strictMul_ok (T.size hr)]
    apply T.reserve hc.1 hk
    rw [← flat_abs hn hc]; exact hr
  tryWithCap {w k} hw h := by
    obtain ⟨c, w', h1, h2⟩ := T.tryWithCap hw h
    refine ⟨⟨c⟩, w', ?_, h2⟩
    simp only [flattenR, checkedMul, if_pos (T.size h), h1, wrapTry]
  tryFromIter {w s} hw _ hp h h2 := by
    obtain ⟨c, w', h3, h4⟩ := T.tryFromIter hw (flatSrc_fused s) (by simpa using hp)
      (by rw [items_flatSrc]; exact h) (by rw [items_flatSrc, flat_length]; exact h2)
    refine ⟨⟨c⟩, w', ?_, h4⟩
    simp only [flattenR, h3, wrapTry]
  tryExt {w c s} hw hc hk hp hr := by
    obtain ⟨c', w', h1, h2⟩ := T.tryExt (s := flatSrc s) hw hc.1 hk (by simpa using hp)
      (by rw [items_flatSrc, ← flat_abs hn hc, ← flat_append]; exact hr)
    refine ⟨⟨c'⟩, w', ?_, h2⟩
    simp only [flattenR, h1]
  tryReserve {w c k} hw hc hk hr := by
    obtain ⟨c', w', h1, h2⟩ := T.tryReserve (n := k * n) hw hc.1 hk
      (by rw [← flat_abs hn hc]; exact hr)
    refine ⟨⟨c'⟩, w', ?_, h2⟩
    simp only [flattenR, checkedMul, if_pos (T.size hr), h1]

end Flatten

end Narrow
