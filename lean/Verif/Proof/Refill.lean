import Verif.Spec.Refill
import Verif.Proof.SpareComp

/-! # Refilling collections over any storage -/

namespace Narrow

open Spec
open BitmapOf (bitsAre bits_length)

/-! ## Bitmaps -/

namespace BitmapOf

variable {B : Backing Byte} {L : LawfulB B}

/-- The bitmap begins at the first bit of its storage. -/
def Zero (b : BitmapOf B.C) : Prop := b.offset = 0

theorem phase1_offset (b : Bitmap) (s : Src Bool) : (Bitmap.phase1 b s).1.offset = b.offset := by
  unfold Bitmap.phase1
  split
  · split
    · rfl
    · split <;> rfl
  · rfl

theorem extend_offset (b : BitmapOf B.C) (s : Src Bool) : (extend B b s).1.offset = b.offset := by
  have h := phase1_offset (b.seen B.toBuf) s.fuse
  unfold extend
  generalize Bitmap.phase1 (b.seen B.toBuf) s.fuse = P at *
  obtain ⟨b1, s1, p⟩ := P
  have h : b1.offset = b.offset := h
  cases p with
  | true => exact h
  | false =>
    simp only
    split
    · exact h
    · exact h
    · split
      · split <;> exact h
      · exact h

theorem tryExtend_offset (w : World) (b : BitmapOf B.C) (s : Src Bool) :
    (tryExtend B w b s).1.offset = b.offset := by
  have h := phase1_offset (b.seen B.toBuf) s.fuse
  unfold tryExtend
  generalize Bitmap.phase1 (b.seen B.toBuf) s.fuse = P at *
  obtain ⟨b1, s1, p⟩ := P
  have h : b1.offset = b.offset := h
  cases p with
  | true => exact h
  | false =>
    simp only
    split
    · exact h
    · exact h
    · split
      · exact h
      · exact h
      · split <;> exact h

theorem reserve_offset (b : BitmapOf B.C) (n : Nat) : (reserve B b n).1.offset = b.offset := by
  unfold reserve
  split
  · rfl
  · split <;> rfl

theorem tryReserve_offset (w : World) (b : BitmapOf B.C) (n : Nat) :
    (tryReserve B w b n).1.offset = b.offset := by
  unfold tryReserve
  split
  · rfl
  · split <;> rfl

theorem truncate_offset (b : BitmapOf B.C) (n : Nat) : (b.truncate n).offset = b.offset := by
  unfold truncate
  split <;> rfl

theorem around_offset {n : Nat} {x : Try B.C} {b : BitmapOf B.C} (h : around n x = .ok b) :
    b.offset = 0 := by
  obtain ⟨buf, -, rfl⟩ := around_ok h
  rfl

/-- What `extend` and `try_extend` do with their source: bytes of dropped bits are
written over. -/
theorem reuse {b : BitmapOf B.C} {s : Src Bool} (hb : b.Inv L) (he : Zero b)
    (hp : s.panics = false) :
    ∃ b1 s1, Bitmap.phase1 (b.seen B.toBuf) s.fuse = (b1, s1, false) ∧
      (Bitmap.phase2 b1 s1 = none ∨
       ∃ buf packed n, Bitmap.phase2 b1 s1 = some (buf, packed, n, false) ∧
        buf.length = (L.abs b.buffer).length ∧ packed.panics = false ∧
        b1.bits + n = b.bits + s.items.length ∧
        b.bits + s.items.length ≤ 8 * ((L.abs b.buffer).length + packed.items.length) ∧
        (L.abs b.buffer).length + packed.items.length ≤
          max (L.abs b.buffer).length (bytesForBits (b.bits + s.items.length))) := by
  have hI := hb.seen
  obtain ⟨k, k1, k2, k3, k4, k5, k6, k7, k8, k9, k10⟩ := Bitmap.phase1_spec hI (Src.fused_fuse s)
  simp only [Src.items_fuse, Src.panics_fuse] at *
  have hlen : (b.seen B.toBuf).buffer.items.length = (L.abs b.buffer).length := by
    rw [seen_items hb.buf]
  have hoff : (b.seen B.toBuf).offset = 0 := he
  have hbits : (b.seen B.toBuf).bits = b.bits := rfl
  generalize hP : Bitmap.phase1 (b.seen B.toBuf) s.fuse = P at *
  obtain ⟨b1, s1, p⟩ := P
  simp only at *
  cases p with
  | true => have := (k9 rfl).1; rw [hp] at this; cases this
  | false =>
    obtain ⟨f1, f2, f3, f4⟩ := k10 rfl
    have hle1 := k2.le
    have halign : (s1.items ≠ [] ∨ s1.panics = true) → (b1.offset + b1.bits) % 8 = 0 := by
      intro h; rw [k3, k4]; apply f4
      rcases h with h | h
      · left; rw [f2] at h; simpa using h
      · right; rwa [f3] at h
    obtain ⟨g1, g2⟩ := Bitmap.phase2_spec k2 f1 halign
    refine ⟨b1, s1, rfl, ?_⟩
    have hslen : s1.items.length = s.items.length - k := by rw [f2]; simp
    by_cases hdone : s1.items = []
    · left
      exact g1 ⟨hdone, by rw [f3]; exact hp⟩
    · right
      obtain ⟨buf, packed, n, p, e1, e2, e3, e4, e5⟩ := g2 (.inl hdone)
      have hpf : p = false := by
        cases p with
        | false => rfl
        | true => have := e4 rfl; rw [f3, hp] at this; cases this
      subst hpf
      obtain ⟨q1, q2, q3, q4⟩ := e5 rfl
      obtain ⟨u1, u2, -⟩ := q4 (by rw [f3]; exact hp)
      simp only [List.length_append] at u2
      have hsz : b1.offset + b1.bits + s1.items.length = b.bits + s.items.length := by omega
      rw [hsz] at q3 u2
      exact ⟨buf, packed, n, e1, by omega, by rw [q2, f3]; exact hp, by omega, by omega, by omega⟩

theorem ext_reuse {cap : Nat} (T : Takes L.toLawfulR cap)
    (hl : ∀ c, L.Inv c → (L.abs c).length ≤ cap) {b : BitmapOf B.C} {s : Src Bool}
    (hb : b.Inv L) (he : Zero b) (hp : s.panics = false)
    (hr : b.bits + s.items.length ≤ 8 * cap) : (extend B b s).2 = .ok := by
  have hlim := hl _ hb.buf
  obtain ⟨b1, s1, p1, p2 | ⟨buf, packed, n, p2, p3, p4, p5, p6, p7⟩⟩ := reuse hb he hp
  · simp only [extend, p1, p2]
  · obtain ⟨w1, w2⟩ := L.write_ok hb.buf p3
    have hok := T.ext (c := B.write b.buffer buf) (s := packed) w1 trivial p4 (by
      rw [List.length_append, w2, p3]; unfold bytesForBits at p7; omega)
    simp only [extend, p1, p2]
    generalize hR : B.extend (B.write b.buffer buf) packed = R at *
    obtain ⟨buf', o⟩ := R
    simp only at hok
    subst hok
    obtain ⟨t1, t2, t3⟩ := L.ext_ok w1 hR
    have hbm := L.small t1
    have hsum : b1.bits + n ≤ usizeMax := by
      rw [t2, List.length_append, w2, p3] at hbm
      unfold byteMax at hbm; unfold usizeMax; omega
    simp only [Bitmap.strictAdd_ok hsum]

theorem tryExt_reuse {cap : Nat} (T : Takes L.toLawfulR cap)
    (hl : ∀ c, L.Inv c → (L.abs c).length ≤ cap) {w : World} {b : BitmapOf B.C} {s : Src Bool}
    (hw : Kind w) (hb : b.Inv L) (he : Zero b) (hp : s.panics = false)
    (hr : b.bits + s.items.length ≤ 8 * cap) :
    ∃ b' w', tryExtend B w b s = (b', .ok, w') ∧ Kind w' := by
  have hlim := hl _ hb.buf
  obtain ⟨b1, s1, p1, p2 | ⟨buf, packed, n, p2, p3, p4, p5, p6, p7⟩⟩ := reuse hb he hp
  · simp only [tryExtend, p1, p2]
    exact ⟨_, _, rfl, hw⟩
  · obtain ⟨w1, w2⟩ := L.write_ok hb.buf p3
    obtain ⟨buf', w', hR, hk⟩ := T.tryExt (c := B.write b.buffer buf) (s := packed) hw w1 trivial p4 (by
      rw [List.length_append, w2, p3]; unfold bytesForBits at p7; omega)
    obtain ⟨t1, t2, t3⟩ := L.tryExt_ok w1 hR
    have hbm := L.small t1
    have hsum : b1.bits + n ≤ usizeMax := by
      rw [t2, List.length_append, w2, p3] at hbm
      unfold byteMax at hbm; unfold usizeMax; omega
    simp only [tryExtend, p1, p2, hR, Bitmap.strictAdd_ok hsum]
    exact ⟨_, _, rfl, hk⟩

end BitmapOf

open BitmapOf in
theorem bitmap_zero {B : Backing Byte} (L : LawfulB B) : BTidy L BitmapOf.Zero where
  empty := rfl
  withCap h := around_offset h
  tryWithCap {w w' n c} h := around_offset (congrArg Prod.fst h)
  fromIter {w w' s c} _ h := around_offset (congrArg Prod.fst h)
  fromIterIn {w w' s c} _ h := around_offset (congrArg Prod.fst h)
  tryFromIter {w w' s c} _ h := around_offset (congrArg Prod.fst h)
  ext {c c' s} _ hk h := by
    have := extend_offset c s
    rw [show BitmapOf.extend B c s = (c', .ok) from h] at this
    exact this.trans hk
  tryExt {w w' c c' s} _ hk h := by
    have := tryExtend_offset w c s
    rw [show BitmapOf.tryExtend B w c s = (c', .ok, w') from h] at this
    exact this.trans hk
  reserve {c c' n o} _ hk h := by
    have := reserve_offset c n
    rw [show BitmapOf.reserve B c n = (c', o) from h] at this
    exact this.trans hk
  tryReserve {w w' c c' n o} _ hk h := by
    have := tryReserve_offset w c n
    rw [show BitmapOf.tryReserve B w c n = (c', o, w') from h] at this
    exact this.trans hk
  trunc {c c' n o} _ hk _ h := by
    simp only [Prod.mk.injEq] at h
    obtain ⟨rfl, -⟩ := h
    exact (truncate_offset c n).trans hk
  allSet h := around_offset (congrArg Prod.fst h)
  tryAllSet h := around_offset (congrArg Prod.fst h)

open BitmapOf in
theorem bitmap_shrinks {B : Backing Byte} (L : LawfulB B) :
    Shrinks (bitmapBG L).lawful BitmapOf.Zero where
  trunc {c c' n o} _ hk h := by
    simp only [Prod.mk.injEq] at h
    obtain ⟨rfl, -⟩ := h
    exact (truncate_offset c n).trans hk
  tryExtErr {w w' c c' s} _ hk h := by
    have := tryExtend_offset w c s
    rw [show BitmapOf.tryExtend B w c s = (c', .err, w') from h] at this
    exact this.trans hk

open BitmapOf in
theorem bitmap_grows {B : Backing Byte} {L : LawfulB B} {cap : Nat} (T : Takes L.toLawfulR cap)
    (hl : ∀ c, L.Inv c → (L.abs c).length ≤ cap) :
    ExtGrows (bitmapBG L).lawful BitmapOf.Zero fun l => l.length ≤ 8 * cap where
  pre h := by simp only [List.length_append] at h; omega
  ext {c s} hc he hp h := ext_reuse T hl hc he hp (by
    rw [List.length_append] at h; rw [← bits_length]; exact h)
  tryExt {w c s} hw hc he hp h := tryExt_reuse T hl hw hc he hp (by
    rw [List.length_append] at h; rw [← bits_length]; exact h)

/-! ## Arrays of fixed length -/

section Flatten

variable {O : Type} {R : Realloc O} {L : LawfulR R} {n : Nat} {Canon : R.C → Prop}
  {Rm : List O → Prop}

open Flatten

theorem flatten_tryGrows (hn : 0 < n) (T : TryGrows L Canon Rm) :
    TryGrows (flattenL L n hn) (fun c => Canon c.child) (fun l => Rm (flat l)) where
  pre h := T.pre (by simpa using h)
  tryExt {w c s} hw hc hk hp hr := by
    obtain ⟨c', w', h1, h2⟩ := T.tryExt (s := flatSrc s) hw hc.1 hk (by simpa using hp)
      (by rw [items_flatSrc, ← flat_abs hn hc, ← flat_append]; exact hr)
    refine ⟨⟨c'⟩, w', ?_, h2⟩
    simp only [flattenR, h1]

theorem flatten_grows (hn : 0 < n) (T : ExtGrows L Canon Rm) :
    ExtGrows (flattenL L n hn) (fun c => Canon c.child) (fun l => Rm (flat l)) where
  toTryGrows := flatten_tryGrows hn T.toTryGrows
  ext {c s} hc hk hp hr := by
    refine T.ext hc.1 hk (by simpa using hp) ?_
    rw [items_flatSrc, ← flat_abs hn hc, ← flat_append]; exact hr

end Flatten

/-! ## Nullable collections -/

section Validity

variable {O : Type} {B : Backing Byte} {R : Realloc O} {LB : LawfulB B} {L : LawfulR R}
  {Canon : R.C → Prop} {X : BitmapOf B.C → Prop} {Rm : List O → Prop} {env : World}

open ValidityOf
open Validity (mask mask_append_left values values_items flags takeChunk_length)

namespace ValidityOf

theorem truncate_neat (SX : Shrinks (bitmapBG LB).lawful X) (S : Shrinks L Canon) {v v' : Of B R}
    {n : Nat} {o : Out} (hv : Ok LB L v) (hk : Canon v.coll) (hx : ∀ b, v.bitmap = some b → X b)
    (hd : (L.abs v.coll).take n = ((holds LB L v).map (·.getD R.dflt)).take n)
    (h : truncate B R v n = (v', o)) : Neat LB X L Canon v' := by
  obtain ⟨v1, t1, t2, t3⟩ := trunc_ok n hv
  rw [t1] at h
  simp only [Prod.mk.injEq] at h
  obtain ⟨rfl, -⟩ := h
  obtain ⟨c', c1, c2, c3, -⟩ := L.trunc_ok n hv.1
  simp only [truncate, c1, Prod.mk.injEq, and_true] at t1
  subst t1
  refine ⟨S.trunc hv.1 hk c1, ?_, ?_⟩
  · intro b hb
    simp only [Option.map_eq_some_iff] at hb
    obtain ⟨b0, hb0, rfl⟩ := hb
    exact SX.trunc (n := n) (hv.2 _ hb0).1 (hx _ hb0) rfl
  · rw [t3]
    show L.abs c' = _
    rw [c3, hd, List.map_take]

theorem rollback_neat (SX : Shrinks (bitmapBG LB).lawful X) (S : Shrinks L Canon) {v v' : Of B R}
    {n : Nat} {w w' : World} (hv : Ok LB L v) (hk : Canon v.coll)
    (hx : ∀ b, v.bitmap = some b → X b)
    (hd : (L.abs v.coll).take n = ((holds LB L v).map (·.getD R.dflt)).take n)
    (h : rollback B R v n w = (v', .err, w')) : Neat LB X L Canon v' := by
  unfold rollback at h
  split at h
  · next v1 e =>
    simp only [Prod.mk.injEq, true_and] at h
    obtain ⟨rfl, -⟩ := h
    exact truncate_neat SX S hv hk hx hd e
  · next v1 o _ e =>
    simp only [Prod.mk.injEq] at h
    obtain ⟨rfl, -⟩ := h
    exact truncate_neat SX S hv hk hx hd e

theorem tryExtendLoop_err (TX : BTidy LB X) (SX : Shrinks (bitmapBG LB).lawful X) (T : Tidy L Canon)
    (S : Shrinks L Canon) (len0 : Nat) (s : Src (Option O)) :
    ∀ (w : World) (c : R.C) (b : BitmapOf B.C), Held LB X L Canon c b → len0 ≤ b.bits →
    ∀ v' w', tryExtendLoop B R len0 w c b s = (v', .err, w') → Neat LB X L Canon v' := by
  intro w c b hm hlen v' w' h
  rw [tryExtendLoop] at h
  have htk := Src.takeChunk_items validityChunk s
  generalize hE : R.tryExtend w c (values R.dflt (Src.takeChunk validityChunk s).1) = E at *
  obtain ⟨c1, o1, w1⟩ := E
  cases o1 with
  | panic => simp at h
  | err =>
    simp only at h
    obtain ⟨e1, e2⟩ := L.tryExt_err hm.mid.inv hE
    have hm1 : Mid LB L c1 b := ⟨e1, hm.mid.binv, by rw [e2]; exact hm.mid.len⟩
    refine rollback_neat SX S hm1.ok (S.tryExtErr hm.mid.inv hm.canon hE) ?_ ?_ h
    · intro b' hb
      simp only [Option.some.injEq] at hb
      subst hb
      exact hm.exact
    · rw [holds_some, e2, ← hm.vals]
  | ok =>
    simp only at h
    obtain ⟨e1, e2, e3⟩ := L.tryExt_ok hm.mid.inv hE
    rw [values_items, htk] at e2
    have hfl : flags (Src.takeChunk validityChunk s).1 = (s.items.take validityChunk).map Option.isSome := by
      simp [flags, htk]
    rw [hfl] at h
    generalize hF : BitmapOf.tryExtend B w1 b (Src.ofList (List.map Option.isSome (List.take validityChunk s.items))) = F at *
    obtain ⟨bb, o2, w2⟩ := F
    obtain ⟨b4, b5, b6⟩ := BitmapOf.tryExtend_spec hm.mid.binv hF
    simp only [Src.items_ofList, Src.panics_ofList] at b4 b6
    cases o2 with
    | panic => simp at h
    | err =>
      simp only at h
      obtain ⟨b1, b5⟩ := b5 rfl
      have hbits : bb.bits = b.bits := by
        have := congrArg List.length b5
        rwa [bits_length, bits_length] at this
      have hmask : mask (L.abs c1) (bitsAre bb) = mask (L.abs c) (bitsAre b) := by
        rw [e2, b5, mask_append_left (by rw [bits_length, hm.mid.len]; exact Nat.le_refl _)]
      have hi1 : Ok LB L ⟨c1, some bb⟩ := ok_mk e1 b1 (by rw [e2, hbits]; simp [hm.mid.len])
      refine rollback_neat SX S hi1 (T.tryExt hm.mid.inv hm.canon hE) ?_ ?_ h
      · intro b' hb
        simp only [Option.some.injEq] at hb
        subst hb
        exact SX.tryExtErr hm.mid.binv hm.exact hF
      · rw [holds_some, hmask, ← hm.vals, e2, List.take_append_of_le_length]
        rw [hm.mid.len]; exact hlen
    | ok =>
      simp only at h
      obtain ⟨b1, b4, -⟩ := b4 rfl
      have hst := hm.step e1 e2 (T.tryExt hm.mid.inv hm.canon hE) b1 b4
        (TX.tryExt hm.mid.binv hm.exact hF)
      have hbits : bb.bits = b.bits + (s.items.take validityChunk).length := by
        have := congrArg List.length b4
        rw [bits_length, List.length_append, bits_length] at this; simpa using this
      split at h
      · simp at h
      · next hge =>
        have hge' : validityChunk ≤ s.items.length := by
          simp only [List.length_map, List.length_take] at hge; omega
        have hdec : (Src.takeChunk validityChunk s).2.length < List.length s := by
          have := takeChunk_length validityChunk s
          rw [htk, List.length_take, Nat.min_eq_left hge'] at this
          unfold validityChunk at this ⊢; omega
        exact tryExtendLoop_err TX SX T S len0 (Src.takeChunk validityChunk s).2 w2 c1 bb hst
          (by omega) v' w' h
termination_by s.length

theorem tryExtend_err (TX : BTidy LB X) (SX : Shrinks (bitmapBG LB).lawful X) (T : Tidy L Canon)
    (S : Shrinks L Canon) {w w' : World} {v v' : Of B R} {s : Src (Option O)}
    (hv : Ok LB L v) (hn : Neat LB X L Canon v) (h : tryExtend B R w v s = (v', .err, w')) :
    Neat LB X L Canon v' := by
  unfold tryExtend at h
  simp only [len_ok hv] at h
  generalize hm : tryMaterialize B R w v = M at *
  obtain ⟨t, w1⟩ := M
  cases t with
  | panic => simp at h
  | err =>
    simp only [Prod.mk.injEq] at h
    obtain ⟨rfl, -⟩ := h
    exact hn
  | ok b =>
    obtain ⟨m1, m2, m3⟩ := tryMaterialize_ok hv hm
    obtain ⟨c, h1, h2, h3, -⟩ := L.trunc_ok (holds LB L v).length hv.1
    simp only [h1] at h
    exact tryExtendLoop_err TX SX T S _ s w1 c b
      (held_of T m1 (tryMaterialize_neat TX hv hn hm) m3.symm h1).1 (Nat.le_of_eq m3.symm) v' w' h

end ValidityOf

theorem validity_shrinks (TX : BTidy LB X) (SX : Shrinks (bitmapBG LB).lawful X) (T : Tidy L Canon)
    (S : Shrinks L Canon) : Shrinks (validityBG env LB L).lawful (ValidityOf.Neat LB X L Canon) where
  trunc {v v' n o} hv hk h :=
    ValidityOf.truncate_neat SX S hv hk.1 hk.2.1 (by rw [← hk.2.2]) h
  tryExtErr {w w' v v' s} hv hk h := ValidityOf.tryExtend_err TX SX T S hv hk h

theorem validity_tryGrows {cap : Nat} (TB : Takes LB.toLawfulR cap) (TX : BTidy LB X)
    (GX : TryGrows (bitmapBG LB).lawful X fun l => l.length ≤ 8 * cap) (T : Tidy L Canon)
    (Q : TryGrows L Canon Rm) :
    TryGrows (validityBG env LB L).lawful (ValidityOf.Neat LB X L Canon)
      (fun l => l.length ≤ 8 * cap ∧ Rm (l.map (·.getD R.dflt))) where
  pre h := by
    obtain ⟨h1, h2⟩ := h
    rw [List.length_append] at h1
    rw [List.map_append] at h2
    exact ⟨by omega, Q.pre h2⟩
  tryExt hw hc hk hp h := ValidityOf.tryExtend_live TB TX GX T Q hw hc hk hp h.1 h.2

theorem validity_grows {cap : Nat} (he : TightHints env.oracle) (TB : Takes LB.toLawfulR cap)
    (TX : BTidy LB X) (GX : ExtGrows (bitmapBG LB).lawful X fun l => l.length ≤ 8 * cap)
    (T : Tidy L Canon) (Q : ExtGrows L Canon Rm) :
    ExtGrows (validityBG env LB L).lawful (ValidityOf.Neat LB X L Canon)
      (fun l => l.length ≤ 8 * cap ∧ Rm (l.map (·.getD R.dflt))) where
  toTryGrows := validity_tryGrows TB TX GX.toTryGrows T Q.toTryGrows
  ext hc hk hp h := ValidityOf.extend_live TB TX GX T Q he hc hk hp h.1 h.2

end Validity

/-! ## Lists -/

section Offsets

variable {O : Type} {D : Backing Int} {R : Realloc O} {LD : LawfulB D} {L : LawfulR R} {ow : OffW}
  {Canon : R.C → Prop} {Rm : List O → Prop}

theorem offsets_tryGrows {cap : Nat} (how : ow.max ≤ usizeMax)
    (hz : (D.extend D.empty [.item 0]).2 = .ok) (TD : Takes LD.toLawfulR cap) (T : Tidy L Canon)
    (Q : TryGrows L Canon Rm) :
    TryGrows (offsetsBG ow LD L hz).lawful (OffsetsIn.Neat LD L Canon)
      (fun l => l.length + 1 ≤ cap ∧ l.flatten.length ≤ ow.max ∧ Rm l.flatten) where
  pre {l m} h := by
    obtain ⟨h1, h2, h3⟩ := h
    rw [List.flatten_append] at h2 h3
    rw [List.length_append] at h1 h2
    exact ⟨by omega, by omega, Q.pre h3⟩
  tryExt hw hc hk hp h := OffsetsIn.tryExtend_live (Sp := fun _ _ => True) TD T Q how hw hc hk hp
    ⟨h.1, h.2.1, h.2.2, fun _ _ _ _ => trivial⟩

end Offsets

/-! ## Forms -/

section Forms

variable {O : Type} {R : Realloc O} {L : LawfulR R} {P Q : R.C → Prop}

theorem Tidy.and (h1 : Tidy L P) (h2 : Tidy L Q) : Tidy L fun c => P c ∧ Q c where
  empty := ⟨h1.empty, h2.empty⟩
  withCap h := ⟨h1.withCap h, h2.withCap h⟩
  tryWithCap h := ⟨h1.tryWithCap h, h2.tryWithCap h⟩
  fromIter hs h := ⟨h1.fromIter hs h, h2.fromIter hs h⟩
  fromIterIn hs h := ⟨h1.fromIterIn hs h, h2.fromIterIn hs h⟩
  tryFromIter hs h := ⟨h1.tryFromIter hs h, h2.tryFromIter hs h⟩
  ext hc hk h := ⟨h1.ext hc hk.1 h, h2.ext hc hk.2 h⟩
  tryExt hc hk h := ⟨h1.tryExt hc hk.1 h, h2.tryExt hc hk.2 h⟩
  reserve hc hk h := ⟨h1.reserve hc hk.1 h, h2.reserve hc hk.2 h⟩
  tryReserve hc hk h := ⟨h1.tryReserve hc hk.1 h, h2.tryReserve hc hk.2 h⟩
  trunc hc hk hn h := ⟨h1.trunc hc hk.1 hn h, h2.trunc hc hk.2 hn h⟩

theorem Shrinks.and (h1 : Shrinks L P) (h2 : Shrinks L Q) : Shrinks L fun c => P c ∧ Q c where
  trunc hc hk h := ⟨h1.trunc hc hk.1 h, h2.trunc hc hk.2 h⟩
  tryExtErr hc hk h := ⟨h1.tryExtErr hc hk.1 h, h2.tryExtErr hc hk.2 h⟩

theorem TryGrows.weaken {Rm : List O → Prop} (h : TryGrows L P Rm) (hw : ∀ {c}, Q c → P c) :
    TryGrows L Q Rm where
  pre := h.pre
  tryExt hk hc hq hp hr := h.tryExt hk hc (hw hq) hp hr

/-- Extending brings a collection from the form `P` into the form `Q`. -/
structure Firms (L : LawfulR R) (P Q : R.C → Prop) : Prop where
  weaken : ∀ {c}, Q c → P c
  ext : ∀ {c c' s}, L.Inv c → P c → R.extend c s = (c', .ok) → Q c'
  tryExt : ∀ {w w' c c' s}, L.Inv c → P c → R.tryExtend w c s = (c', .ok, w') → Q c'

theorem Tidy.firms (h : Tidy L P) : Firms L P P := ⟨id, h.ext, h.tryExt⟩

end Forms

/-! ## Bitmaps that exist -/

section Dense

variable {O : Type} {B : Backing Byte} {R : Realloc O} {LB : LawfulB B} {L : LawfulR R}
  {X : BitmapOf B.C → Prop} {P Q : R.C → Prop} {env : World}

open ValidityOf
open Validity (values values_items flags takeChunk_length)

namespace ValidityOf

/-- Without a bitmap there are no items. -/
def Dense (L : LawfulR R) (v : Of B R) : Prop := v.bitmap = none → L.abs v.coll = []

theorem dense_some {c : R.C} {b : BitmapOf B.C} : Dense L ⟨c, some b⟩ := fun h => by simp at h

theorem extendLoop_dense (s : Src (Option O)) : ∀ (c : R.C) (b : BitmapOf B.C) {v' o},
    extendLoop B R c b s = (v', o) → Dense L v' := by
  intro c b v' o h
  rw [extendLoop] at h
  split at h
  · split at h
    · split at h
      · simp only [Prod.mk.injEq] at h
        rw [← h.1]; exact dense_some
      · next hge =>
        have hdec : (Src.takeChunk validityChunk s).2.length < List.length s := by
          have := takeChunk_length validityChunk s
          simp only [flags, List.length_map, validityChunk] at *
          omega
        exact extendLoop_dense _ _ _ h
    · simp only [Prod.mk.injEq] at h
      rw [← h.1]; exact dense_some
  · simp only [Prod.mk.injEq] at h
    rw [← h.1]; exact dense_some
termination_by s.length

theorem rollback_dense {c : R.C} {b : BitmapOf B.C} {n : Nat} {w w' : World} {v' : Of B R} {o : Out}
    (h : rollback B R ⟨c, some b⟩ n w = (v', o, w')) : Dense L v' := by
  unfold rollback truncate at h
  split at h
  · next e =>
    simp only [Prod.mk.injEq] at h e
    rw [← h.1, ← e.1]; exact dense_some
  · next e =>
    simp only [Prod.mk.injEq] at h e
    rw [← h.1, ← e.1]; exact dense_some

theorem tryExtendLoop_dense (len0 : Nat) (s : Src (Option O)) : ∀ (w : World) (c : R.C)
    (b : BitmapOf B.C) {v' o w'}, tryExtendLoop B R len0 w c b s = (v', o, w') → Dense L v' := by
  intro w c b v' o w' h
  rw [tryExtendLoop] at h
  split at h
  · split at h
    · split at h
      · simp only [Prod.mk.injEq] at h
        rw [← h.1]; exact dense_some
      · next hge =>
        have hdec : (Src.takeChunk validityChunk s).2.length < List.length s := by
          have := takeChunk_length validityChunk s
          simp only [flags, List.length_map, validityChunk] at *
          omega
        exact tryExtendLoop_dense len0 _ _ _ _ h
    · exact rollback_dense h
    · simp only [Prod.mk.injEq] at h
      rw [← h.1]; exact dense_some
  · exact rollback_dense h
  · simp only [Prod.mk.injEq] at h
    rw [← h.1]; exact dense_some
termination_by s.length

theorem extend_dense {v v' : Of B R} {s : Src (Option O)} (h : extend B R env v s = (v', .ok)) :
    Dense L v' := by
  unfold extend at h
  split at h
  · simp at h
  · split at h
    · exact extendLoop_dense _ _ _ h
    · simp only [Prod.mk.injEq] at h
      rw [← h.1]; exact dense_some

theorem tryExtend_dense {w w' : World} {v v' : Of B R} {s : Src (Option O)}
    (h : tryExtend B R w v s = (v', .ok, w')) : Dense L v' := by
  unfold tryExtend at h
  split at h
  · simp at h
  · split at h
    · simp at h
    · simp at h
    · split at h
      · exact tryExtendLoop_dense _ _ _ _ _ h
      · simp only [Prod.mk.injEq] at h
        rw [← h.1]; exact dense_some

theorem tryExtendErr_dense {w w' : World} {v v' : Of B R} {s : Src (Option O)} (hd : Dense L v)
    (h : tryExtend B R w v s = (v', .err, w')) : Dense L v' := by
  unfold tryExtend at h
  split at h
  · simp at h
  · split at h
    · simp at h
    · simp only [Prod.mk.injEq] at h
      rw [← h.1]; exact hd
    · split at h
      · exact tryExtendLoop_dense _ _ _ _ _ h
      · simp only [Prod.mk.injEq] at h
        rw [← h.1]; exact dense_some

theorem truncate_dense {v v' : Of B R} {n : Nat} {o : Out} (hv : Ok LB L v) (hd : Dense L v)
    (h : truncate B R v n = (v', o)) : Dense L v' := by
  obtain ⟨c', c1, c2, c3, -⟩ := L.trunc_ok n hv.1
  simp only [truncate, c1, Prod.mk.injEq] at h
  rw [← h.1]
  intro hn
  simp only [Option.map_eq_none_iff] at hn
  show L.abs c' = []
  rw [c3, hd hn, List.take_nil]

theorem fromIterWith_dense {mk : World → Src O → Try R.C × World} {w w' : World}
    {s : Src (Option O)} {v : Of B R} (h : fromIterWith B R mk w s = (.ok v, w')) : Dense L v := by
  unfold fromIterWith at h
  split at h
  · split at h
    · split at h
      · simp only [Prod.mk.injEq, Try.ok.injEq] at h
        rw [← h.1]; exact dense_some
      · simp at h
    · simp at h
    · simp at h
  · simp at h

theorem tryExtendLoop_firms (TX : BTidy LB X) (F : Firms L P Q) (len0 : Nat) (s : Src (Option O)) :
    ∀ (w : World) (c : R.C) (b : BitmapOf B.C), Held LB X L P c b →
    ∀ v' w', tryExtendLoop B R len0 w c b s = (v', .ok, w') → Neat LB X L Q v' := by
  intro w c b hm v' w' h
  rw [tryExtendLoop] at h
  have htk := Src.takeChunk_items validityChunk s
  generalize hE : R.tryExtend w c (values R.dflt (Src.takeChunk validityChunk s).1) = E at *
  obtain ⟨c1, o1, w1⟩ := E
  have hroll : ∀ {v : Of B R} {w}, rollback B R v len0 w ≠ (v', .ok, w') := by
    intro v w hr
    unfold rollback at hr
    split at hr
    · simp at hr
    · next hx he => simp only [Prod.mk.injEq] at hr; exact hx hr.2.1
  cases o1 with
  | err => exact absurd h hroll
  | panic => simp at h
  | ok =>
    simp only at h
    obtain ⟨e1, e2, e3⟩ := L.tryExt_ok hm.mid.inv hE
    rw [values_items, htk] at e2
    have hfl : flags (Src.takeChunk validityChunk s).1 = (s.items.take validityChunk).map Option.isSome := by
      simp [flags, htk]
    rw [hfl] at h
    generalize hF : BitmapOf.tryExtend B w1 b (Src.ofList (List.map Option.isSome (List.take validityChunk s.items))) = F2 at *
    obtain ⟨bb, o2, w2⟩ := F2
    have b4 := (BitmapOf.tryExtend_spec hm.mid.binv hF).1
    simp only [Src.items_ofList, Src.panics_ofList] at b4
    cases o2 with
    | err => exact absurd h hroll
    | panic => simp at h
    | ok =>
      simp only at h
      obtain ⟨b1, b4, -⟩ := b4 rfl
      have hq := F.tryExt hm.mid.inv hm.canon hE
      have hst := hm.step e1 e2 (F.weaken hq) b1 b4 (TX.tryExt hm.mid.binv hm.exact hF)
      split at h
      · simp only [Prod.mk.injEq, true_and] at h
        obtain ⟨rfl, rfl⟩ := h
        exact neat_mk hq hst.exact hst.vals
      · next hge =>
        have hge' : validityChunk ≤ s.items.length := by
          simp only [List.length_map, List.length_take] at hge; omega
        have hdec : (Src.takeChunk validityChunk s).2.length < List.length s := by
          have := takeChunk_length validityChunk s
          rw [htk, List.length_take, Nat.min_eq_left hge'] at this
          unfold validityChunk at this ⊢; omega
        exact tryExtendLoop_firms TX F len0 (Src.takeChunk validityChunk s).2 w2 c1 bb hst v' w' h
termination_by s.length

theorem extendLoop_firms (TX : BTidy LB X) (F : Firms L P Q) (s : Src (Option O)) :
    ∀ (c : R.C) (b : BitmapOf B.C), Held LB X L P c b →
    ∀ v', extendLoop B R c b s = (v', .ok) → Neat LB X L Q v' := by
  intro c b hm v' h
  rw [extendLoop] at h
  have htk := Src.takeChunk_items validityChunk s
  generalize hE : R.extend c (values R.dflt (Src.takeChunk validityChunk s).1) = E at *
  obtain ⟨c1, o1⟩ := E
  cases o1 with
  | err => simp at h
  | panic => simp at h
  | ok =>
    simp only at h
    obtain ⟨e1, e2, e3⟩ := L.ext_ok hm.mid.inv hE
    rw [values_items, htk] at e2
    have hfl : flags (Src.takeChunk validityChunk s).1 = (s.items.take validityChunk).map Option.isSome := by
      simp [flags, htk]
    rw [hfl] at h
    obtain ⟨b3, b4⟩ := BitmapOf.extend_spec
      (s := Src.ofList ((s.items.take validityChunk).map Option.isSome)) hm.mid.binv
    simp only [Src.items_ofList, Src.panics_ofList] at b4
    generalize hF : BitmapOf.extend B b (Src.ofList (List.map Option.isSome (List.take validityChunk s.items))) = F2 at *
    obtain ⟨bb, o2⟩ := F2
    cases o2 with
    | err => simp at h
    | panic => simp at h
    | ok =>
      simp only at h
      obtain ⟨b1, b4, -⟩ := b4 rfl
      have hq := F.ext hm.mid.inv hm.canon hE
      have hst := hm.step e1 e2 (F.weaken hq) b1 b4 (TX.ext hm.mid.binv hm.exact hF)
      split at h
      · simp only [Prod.mk.injEq, and_true] at h
        subst h
        exact neat_mk hq hst.exact hst.vals
      · next hge =>
        have hge' : validityChunk ≤ s.items.length := by
          simp only [List.length_map, List.length_take] at hge; omega
        have hdec : (Src.takeChunk validityChunk s).2.length < List.length s := by
          have := takeChunk_length validityChunk s
          rw [htk, List.length_take, Nat.min_eq_left hge'] at this
          unfold validityChunk at this ⊢; omega
        exact extendLoop_firms TX F (Src.takeChunk validityChunk s).2 c1 bb hst v' h
termination_by s.length

end ValidityOf

theorem validity_dense : Tidy (validityBG env LB L).lawful (ValidityOf.Dense L) where
  empty := fun _ => L.empty_ok.2.1
  withCap {n c} h := by
    have h : ValidityOf.withCap B R n = .ok c := h
    unfold ValidityOf.withCap at h
    split at h
    · split at h
      · simp only [Try.ok.injEq] at h
        subst h
        exact dense_some
      · simp at h
      · simp at h
    · simp at h
    · simp at h
  tryWithCap {w w' n c} h := by
    have h : ValidityOf.tryWithCap B R w n = (.ok c, w') := h
    unfold ValidityOf.tryWithCap at h
    split at h
    · split at h
      · simp only [Prod.mk.injEq, Try.ok.injEq] at h
        obtain ⟨rfl, rfl⟩ := h
        exact dense_some
      · simp at h
      · simp at h
    · simp at h
    · simp at h
  fromIter _ h := ValidityOf.fromIterWith_dense h
  fromIterIn _ h := ValidityOf.fromIterWith_dense h
  tryFromIter {w w' s c} hs h := by
    have h : ValidityOf.tryFromIter B R w s = (.ok c, w') := h
    unfold ValidityOf.tryFromIter at h
    split at h
    · split at h
      · next he =>
        simp only [Prod.mk.injEq, Try.ok.injEq] at h
        obtain ⟨rfl, rfl⟩ := h
        exact ValidityOf.tryExtend_dense he
      · simp at h
      · simp at h
    · simp at h
    · simp at h
  ext _ _ h := ValidityOf.extend_dense h
  tryExt _ _ h := ValidityOf.tryExtend_dense h
  reserve {v v' n o} _ hk h := by
    have h : ValidityOf.reserve B R env v n = (v', o) := h
    unfold ValidityOf.reserve at h
    split at h
    · simp only [Prod.mk.injEq] at h
      rw [← h.1]; exact hk
    · split at h
      · simp only [Prod.mk.injEq] at h
        rw [← h.1]; exact dense_some
      · simp only [Prod.mk.injEq] at h
        rw [← h.1]; exact dense_some
  tryReserve {w w' v v' n o} _ hk h := by
    have h : ValidityOf.tryReserve B R w v n = (v', o, w') := h
    unfold ValidityOf.tryReserve at h
    split at h
    · simp only [Prod.mk.injEq] at h
      rw [← h.1]; exact hk
    · simp only [Prod.mk.injEq] at h
      rw [← h.1]; exact hk
    · split at h
      · simp only [Prod.mk.injEq] at h
        rw [← h.1]; exact dense_some
      · simp only [Prod.mk.injEq] at h
        rw [← h.1]; exact dense_some
  trunc hv hk _ h := ValidityOf.truncate_dense hv hk h

theorem validity_dense_shrinks : Shrinks (validityBG env LB L).lawful (ValidityOf.Dense L) where
  trunc hv hk h := ValidityOf.truncate_dense hv hk h
  tryExtErr _ hk h := ValidityOf.tryExtendErr_dense hk h

theorem validity_firms (TX : BTidy LB X) (T : Tidy L P) (F : Firms L P Q) :
    Firms (validityBG env LB L).lawful (ValidityOf.Neat LB X L P)
      (fun v => ValidityOf.Neat LB X L Q v ∧ ValidityOf.Dense L v) where
  weaken h := ⟨F.weaken h.1.1, h.1.2⟩
  ext {v v' s} hv hn h := by
    have hv : Ok LB L v := hv
    have h : ValidityOf.extend B R env v s = (v', .ok) := h
    refine ⟨?_, ValidityOf.extend_dense h⟩
    unfold ValidityOf.extend at h
    cases hm : materialize B R env v with
    | panic => rw [hm] at h; simp at h
    | ok b =>
      rw [hm] at h
      obtain ⟨m1, m2, m3⟩ := materialize_ok hv hm
      obtain ⟨c, h1, h2, h3, -⟩ := L.trunc_ok b.bits hv.1
      simp only [h1] at h
      exact extendLoop_firms TX F s c b (held_of T m1 (materialize_neat TX hv hn hm) rfl h1).1 v' h
  tryExt {w w' v v' s} hv hn h := by
    have hv : Ok LB L v := hv
    have h : ValidityOf.tryExtend B R w v s = (v', .ok, w') := h
    refine ⟨?_, ValidityOf.tryExtend_dense h⟩
    unfold ValidityOf.tryExtend at h
    simp only [len_ok hv] at h
    generalize hm : tryMaterialize B R w v = M at *
    obtain ⟨t, w1⟩ := M
    cases t with
    | panic => simp at h
    | err => simp at h
    | ok b =>
      obtain ⟨m1, m2, m3⟩ := tryMaterialize_ok hv hm
      obtain ⟨c, h1, h2, h3, -⟩ := L.trunc_ok (holds LB L v).length hv.1
      simp only [h1] at h
      exact tryExtendLoop_firms TX F _ s w1 c b
        (held_of T m1 (tryMaterialize_neat TX hv hn hm) m3.symm h1).1 v' w' h

end Dense

theorem flatten_firms {O : Type} {R : Realloc O} {L : LawfulR R} {n : Nat} {P Q : R.C → Prop}
    (hn : 0 < n) (F : Firms L P Q) :
    Firms (flattenL L n hn) (fun c => P c.child) (fun c => Q c.child) where
  weaken h := F.weaken h
  ext {c c' s} hc hk h := by
    simp only [flattenR, Prod.mk.injEq] at h
    obtain ⟨rfl, h⟩ := h
    exact F.ext hc.1 hk (Prod.ext rfl h)
  tryExt {w w' c c' s} hc hk h := by
    simp only [flattenR, Prod.mk.injEq] at h
    obtain ⟨rfl, h, rfl⟩ := h
    exact F.tryExt hc.1 hk (Prod.ext rfl (Prod.ext h rfl))

/-! ## Offsets in range -/

section Short

variable {O : Type} {D : Backing Int} {R : Realloc O} {LD : LawfulB D} {L : LawfulR R} {ow : OffW}

open OffsetsIn

namespace OffsetsIn

/-- The length of the data fits the offset type. -/
def Short (ow : OffW) (LD : LawfulB D) (L : LawfulR R) (c : Of D R) : Prop :=
  (rows LD L c).flatten.length ≤ ow.max

theorem short_nil {c : Of D R} (h : Mid LD L c []) : Short ow LD L c := by
  unfold Short; rw [h.toInv.2]; exact Nat.zero_le _

theorem extendLoop_short : ∀ (s : Src (List O)) (d : R.C) (of : D.C) (p : Int) {c'}, p ≤ ow.max →
    extendLoop ow D R d of p s = (c', .ok) → p + s.items.flatten.length ≤ ow.max
  | [], d, of, p, c', hp, h => by simpa [Src.items] using hp
  | .none :: s, d, of, p, c', hp, h => by simpa [Src.items] using hp
  | .panic :: s, d, of, p, c', hp, h => by simp [extendLoop] at h
  | .item r :: s, d, of, p, c', hp, h => by
    simp only [extendLoop] at h
    split at h
    · next hr =>
      split at h
      · split at h
        · split at h
          · have := extendLoop_short s _ _ _ hr.2 h
            simp only [Src.items, List.flatten_cons, List.length_append]
            omega
          · next hx _ => simp only [Prod.mk.injEq] at h; exact absurd h.2 hx
        · next hx _ => simp only [Prod.mk.injEq] at h; exact absurd h.2 hx
      · next hx _ => simp only [Prod.mk.injEq] at h; exact absurd h.2 hx
    · simp at h

theorem tryExtendLoop_short (n m : Nat) : ∀ (s : Src (List O)) (w : World) (d : R.C) (of : D.C)
    (p : Nat) {c' w'}, p ≤ ow.max → tryExtendLoop ow D R n m w d of (p : Int) s = (c', .ok, w') →
    p + s.items.flatten.length ≤ ow.max
  | [], w, d, of, p, c', w', hp, h => by simpa [Src.items] using hp
  | .none :: s, w, d, of, p, c', w', hp, h => by simpa [Src.items] using hp
  | .panic :: s, w, d, of, p, c', w', hp, h => by simp [tryExtendLoop] at h
  | .item r :: s, w, d, of, p, c', w', hp, h => by
    have hroll : ∀ {d : R.C} {of : D.C} {w}, rollback D R d of n m w ≠ (c', .ok, w') := by
      intro d of w hr
      unfold rollback at hr
      split at hr
      · simp at hr
      · split at hr
        · split at hr
          · simp at hr
          · next hx _ => simp only [Prod.mk.injEq] at hr; exact hx hr.2.1
        · next hx _ => simp only [Prod.mk.injEq] at hr; exact hx hr.2.1
    simp only [tryExtendLoop, Offsets.asUsize_ofNat] at h
    split at h
    · next hr =>
      split at h
      · split at h
        · have := tryExtendLoop_short n m s _ _ _ _ hr.2 h
          simp only [Src.items, List.flatten_cons, List.length_append]
          omega
        · exact absurd h hroll
        · simp at h
      · exact absurd h hroll
      · simp at h
    · exact absurd h hroll

theorem extend_short {c c' : Of D R} {s : Src (List O)} (hc : Ok LD L c) (hk : Short ow LD L c)
    (h : extend ow D R c s = (c', .ok)) : Short ow LD L c' := by
  have hm := ((extend_spec hc h).2 rfl).1
  unfold Short at *
  rw [hm.toInv.2, List.flatten_append, List.length_append]
  unfold extend at h
  rw [last_ok hc.off hc.items] at h
  simp only [Offsets.asUsize_ofNat] at h
  obtain ⟨d, h1, h2, h3, -⟩ := L.trunc_ok (rows LD L c).flatten.length hc.inv
  simp only [h1] at h
  have := extendLoop_short s d c.offsets _ (by exact_mod_cast hk) h
  exact_mod_cast this

theorem tryExtend_short {w w' : World} {c c' : Of D R} {s : Src (List O)} (hc : Ok LD L c)
    (hk : Short ow LD L c) (h : tryExtend ow D R w c s = (c', .ok, w')) : Short ow LD L c' := by
  have hm := ((tryExtend_spec hc h).1 rfl).1
  unfold Short at *
  rw [hm.toInv.2, List.flatten_append, List.length_append]
  unfold tryExtend at h
  rw [last_ok hc.off hc.items, hc.len_ok] at h
  simp only [Offsets.asUsize_ofNat] at h
  obtain ⟨d, h1, h2, h3, -⟩ := L.trunc_ok (rows LD L c).flatten.length hc.inv
  simp only [h1] at h
  exact tryExtendLoop_short _ _ s w d c.offsets _ hk h

theorem truncate_short {c c' : Of D R} {n : Nat} {o : Out} (hc : Ok LD L c) (hk : Short ow LD L c)
    (h : truncate D R c n = (c', o)) : Short ow LD L c' := by
  obtain ⟨c1, t1, t2, t3⟩ := trunc_ok n hc
  rw [t1] at h
  simp only [Prod.mk.injEq] at h
  obtain ⟨rfl, -⟩ := h
  unfold Short at *
  rw [t3]
  refine Nat.le_trans ?_ hk
  have : (rows LD L c).flatten = ((rows LD L c).take n).flatten ++ ((rows LD L c).drop n).flatten := by
    rw [← List.flatten_append, List.take_append_drop]
  rw [this, List.length_append]
  omega

end OffsetsIn

theorem offsets_short (hz : (D.extend D.empty [.item 0]).2 = .ok) :
    Tidy (offsetsBG ow LD L hz).lawful (OffsetsIn.Short ow LD L) where
  empty := short_nil (empty_mid hz)
  withCap h := short_nil (OffsetsIn.withCap_ok h)
  tryWithCap h := short_nil (OffsetsIn.tryWithCap_ok h)
  fromIter {w w' s c} hs h := by
    simp only [Prod.mk.injEq] at h
    obtain ⟨h, -⟩ := h
    unfold OffsetsIn.fromIter at h
    split at h
    · split at h
      · next c' heq =>
        simp only [Try.ok.injEq] at h
        subst h
        have hm : Mid LD L (OffsetsIn.empty D R) [] := empty_mid hz
        exact extend_short hm.toInv.1 (short_nil hm) heq
      · simp at h
    · simp at h
  fromIterIn {w w' s c} hs h := by
    have h : OffsetsIn.fromIterIn ow D R w s = (.ok c, w') := h
    unfold OffsetsIn.fromIterIn at h
    split at h
    · next c0 heq0 =>
      have hm : Mid LD L c0 [] := OffsetsIn.withCap_ok heq0
      split at h
      · next c' heq =>
        simp only [Prod.mk.injEq, Try.ok.injEq] at h
        obtain ⟨rfl, rfl⟩ := h
        exact extend_short hm.toInv.1 (short_nil hm) heq
      · simp at h
    · simp at h
    · simp at h
  tryFromIter {w w' s c} hs h := by
    have h : OffsetsIn.tryFromIter ow D R w s = (.ok c, w') := h
    unfold OffsetsIn.tryFromIter at h
    split at h
    · next c0 w1 heq0 =>
      have hm : Mid LD L c0 [] := OffsetsIn.tryWithCap_ok heq0
      split at h
      · next c' w2 heq =>
        simp only [Prod.mk.injEq, Try.ok.injEq] at h
        obtain ⟨rfl, rfl⟩ := h
        exact tryExtend_short hm.toInv.1 (short_nil hm) heq
      · simp at h
      · simp at h
    · simp at h
    · simp at h
  ext hc hk h := extend_short hc hk h
  tryExt hc hk h := tryExtend_short hc hk h
  reserve hc hk h := by
    have := (OffsetsIn.reserve_spec hc h).2.1
    unfold OffsetsIn.Short at *
    rw [this]; exact hk
  tryReserve hc hk h := by
    have := (OffsetsIn.tryReserve_spec hc h).2.1
    unfold OffsetsIn.Short at *
    rw [this]; exact hk
  trunc hc hk _ h := truncate_short hc hk h

theorem offsets_short_shrinks (hz : (D.extend D.empty [.item 0]).2 = .ok) :
    Shrinks (offsetsBG ow LD L hz).lawful (OffsetsIn.Short ow LD L) where
  trunc hc hk h := truncate_short hc hk h
  tryExtErr hc hk h := by
    have := ((OffsetsIn.tryExtend_spec hc h).2.1 rfl).toInv.2
    unfold OffsetsIn.Short at *
    rw [this]; exact hk

end Short

/-! ## Compositions -/

/-- The form in which calls that extend leave a composition. -/
@[reducible] def sfirm : {O : Type} → (k : SComp O) → Sound k → (scompR k).C → Prop
  | _, .leaf _ _ _, _ => fun _ => True
  | _, .bitmap _ _, _ => BitmapOf.Zero
  | _, .flatten _ _ k, h => fun c => sfirm k h c.child
  | _, .validity _ _ _ k, h => fun v =>
    ValidityOf.Neat (honoursB h.1) BitmapOf.Zero (scompL k h.2) (sfirm k h.2) v ∧
      ValidityOf.Dense (scompL k h.2) v
  | _, .offsets ow _ _ k, h => fun c =>
    OffsetsIn.Neat (honoursB h.1) (scompL k h.2.2) (sfirm k h.2.2) c ∧
      OffsetsIn.Short ow (honoursB h.1) (scompL k h.2.2) c

/-- The form in which calls leave a composition. -/
@[reducible] def sloose : {O : Type} → (k : SComp O) → Sound k → (scompR k).C → Prop
  | _, .leaf _ _ _, _ => fun _ => True
  | _, .bitmap _ _, _ => BitmapOf.Zero
  | _, .flatten _ _ k, h => fun c => sloose k h c.child
  | _, .validity _ _ _ k, h =>
    ValidityOf.Neat (honoursB h.1) BitmapOf.Zero (scompL k h.2) (sloose k h.2)
  | _, .offsets ow D Good k, h => sfirm (.offsets ow D Good k) h

theorem sfirm_tidy : {O : Type} → (k : SComp O) → (h : Sound k) → Tidy (scompL k h) (sfirm k h)
  | _, .leaf _ _ _, _ => tidy_true _
  | _, .bitmap _ _, h => (bitmap_zero (honoursB h)).toTidy
  | _, .flatten _ hn k, h => flatten_tidy hn (sfirm_tidy k h)
  | _, .validity _ _ _ k, h => (validity_tidy (bitmap_zero _) (sfirm_tidy k h.2)).and validity_dense
  | _, .offsets _ _ _ k, h => (offsets_tidy h.2.1 (sfirm_tidy k h.2.2)).and (offsets_short h.2.1)

theorem sloose_tidy : {O : Type} → (k : SComp O) → (h : Sound k) → Tidy (scompL k h) (sloose k h)
  | _, .leaf _ _ _, _ => tidy_true _
  | _, .bitmap _ _, h => (bitmap_zero (honoursB h)).toTidy
  | _, .flatten _ hn k, h => flatten_tidy hn (sloose_tidy k h)
  | _, .validity _ _ _ k, h => validity_tidy (bitmap_zero _) (sloose_tidy k h.2)
  | _, .offsets ow D Good k, h => sfirm_tidy (.offsets ow D Good k) h

theorem sfirm_shrinks : {O : Type} → (k : SComp O) → (h : Sound k) →
    Shrinks (scompL k h) (sfirm k h)
  | _, .leaf _ _ _, _ => shrinks_true _
  | _, .bitmap _ _, h => bitmap_shrinks (honoursB h)
  | _, .flatten _ hn k, h => flatten_shrinks hn (sfirm_shrinks k h)
  | _, .validity _ _ _ k, h =>
    (validity_shrinks (bitmap_zero _) (bitmap_shrinks _) (sfirm_tidy k h.2)
      (sfirm_shrinks k h.2)).and validity_dense_shrinks
  | _, .offsets _ _ _ k, h =>
    (offsets_shrinks h.2.1 (sfirm_tidy k h.2.2) (sfirm_shrinks k h.2.2)).and
      (offsets_short_shrinks h.2.1)

theorem sloose_shrinks : {O : Type} → (k : SComp O) → (h : Sound k) →
    Shrinks (scompL k h) (sloose k h)
  | _, .leaf _ _ _, _ => shrinks_true _
  | _, .bitmap _ _, h => bitmap_shrinks (honoursB h)
  | _, .flatten _ hn k, h => flatten_shrinks hn (sloose_shrinks k h)
  | _, .validity _ _ _ k, h =>
    validity_shrinks (bitmap_zero _) (bitmap_shrinks _) (sloose_tidy k h.2) (sloose_shrinks k h.2)
  | _, .offsets ow D Good k, h => sfirm_shrinks (.offsets ow D Good k) h

/-- Extending makes a composition firm. -/
theorem sfirms : {O : Type} → (k : SComp O) → (h : Sound k) →
    Firms (scompL k h) (sloose k h) (sfirm k h)
  | _, .leaf _ _ _, _ => (tidy_true _).firms
  | _, .bitmap _ _, h => (bitmap_zero (honoursB h)).toTidy.firms
  | _, .flatten _ hn k, h => flatten_firms hn (sfirms k h)
  | _, .validity _ _ _ k, h => validity_firms (bitmap_zero _) (sloose_tidy k h.2) (sfirms k h.2)
  | _, .offsets ow D Good k, h => (sfirm_tidy (.offsets ow D Good k) h).firms

theorem sloose_tryGrows : {O : Type} → (k : SComp O) → (h : Sound k) → {caps : Caps k} →
    Accepts k caps → Limits k caps → TryGrows (scompL k h) (sloose k h) (Fitting k caps)
  | _, .leaf _ _ _, h, _, ha, _ => (takes_of (L := (honoursG h).lawful) ha).toTryGrows
  | _, .bitmap _ _, h, _, ha, hl => (bitmap_grows (buf_takes h ha) hl).toTryGrows
  | _, .flatten _ hn k, h, _, ha, hl => flatten_tryGrows hn (sloose_tryGrows k h ha hl)
  | _, .validity _ _ _ k, h, _, ha, hl =>
    validity_tryGrows (buf_takes h.1 ha.1) (bitmap_zero _)
      (bitmap_grows (buf_takes h.1 ha.1) hl.1).toTryGrows (sloose_tidy k h.2)
      (sloose_tryGrows k h.2 ha.2.2 hl.2)
  | _, .offsets ow _ _ k, h, _, ha, hl =>
    (offsets_tryGrows (ow_max_le ow) h.2.1 (buf_takes h.1 ha.1) (sfirm_tidy k h.2.2)
      ((sloose_tryGrows k h.2.2 ha.2 hl.2).weaken (sfirms k h.2.2).weaken)).weaken And.left

theorem sloose_grows : {O : Type} → (k : SComp O) → (h : Sound k) → {caps : Caps k} →
    Accepts k caps → Limits k caps → NoLists k →
    ExtGrows (scompL k h) (sloose k h) (Fitting k caps)
  | _, .leaf _ _ _, h, _, ha, _, _ => (takes_of (L := (honoursG h).lawful) ha).toExtGrows
  | _, .bitmap _ _, h, _, ha, hl, _ => bitmap_grows (buf_takes h ha) hl
  | _, .flatten _ hn k, h, _, ha, hl, hn' => flatten_grows hn (sloose_grows k h ha hl hn')
  | _, .validity _ _ _ k, h, _, ha, hl, hn' =>
    validity_grows ha.2.1 (buf_takes h.1 ha.1) (bitmap_zero _)
      (bitmap_grows (buf_takes h.1 ha.1) hl.1) (sloose_tidy k h.2)
      (sloose_grows k h.2 ha.2.2 hl.2 hn')
  | _, .offsets _ _ _ _, _, _, _, _, hn' => hn'.elim

/-- What a firm composition holds fits. -/
theorem sfirm_fits : {O : Type} → (k : SComp O) → (h : Sound k) → {caps : Caps k} → Limits k caps →
    {c : (scompR k).C} → (scompL k h).Inv c → sfirm k h c → Fitting k caps ((scompL k h).abs c)
  | _, .leaf _ _ _, h, _, hl, c, hc, _ => hl c hc
  | _, .bitmap B Good, h, cap, hl, c, hc, _ => by
    have hc : c.Inv (honoursB h) := hc
    show (bitsAre c).length ≤ 8 * cap
    have h1 := hl _ hc.buf
    have h2 := hc.le
    have h3 : (honoursB h).abs c.buffer = B.borrow c.buffer := rfl
    rw [h3] at h2
    rw [bits_length]
    omega
  | _, .flatten n hn k, h, caps, hl, c, hc, hf => by
    have hc : flatInv (scompL k h).toLawfulColl n c := hc
    have := sfirm_fits k h hl hc.1 hf
    rw [← flat_abs hn hc] at this
    exact this
  | _, .validity env B Good k, h, caps, hl, v, hv, hf => by
    have hv : ValidityOf.Ok (honoursB h.1) (scompL k h.2) v := hv
    obtain ⟨⟨f1, f2, f3⟩, f4⟩ := hf
    have hr := sfirm_fits k h.2 hl.2 hv.1 f1
    rw [f3] at hr
    refine ⟨?_, hr⟩
    show (ValidityOf.holds (honoursB h.1) (scompL k h.2) v).length ≤ _
    have hlen := congrArg List.length f3
    rw [List.length_map] at hlen
    rw [← hlen]
    obtain ⟨c, ob⟩ := v
    cases ob with
    | none =>
      have : (scompL k h.2).abs c = [] := f4 rfl
      show ((scompL k h.2).abs c).length ≤ _
      rw [this]; exact Nat.zero_le _
    | some b =>
      have hb := hv.bits
      have hown := ValidityOf.own_bits hv
      have h1 := hl.1 _ hb.1.buf
      have h2 := hb.1.le
      have h3 : (honoursB h.1).abs b.buffer = B.borrow b.buffer := rfl
      rw [h3] at h2
      omega
  | _, .offsets ow D Good k, h, caps, hl, c, hc, hf => by
    have hc : OffsetsIn.Ok (honoursB h.1) (scompL k h.2.2) c := hc
    obtain ⟨⟨f1, f2⟩, f3⟩ := hf
    have hr := sfirm_fits k h.2.2 hl.2 hc.inv f1
    rw [f2] at hr
    refine ⟨?_, f3, hr⟩
    have h1 := hl.1 _ hc.off
    have h2 := OffsetsIn.Ok.offsets_length hc
    have h3 : (honoursB h.1).abs c.offsets = D.borrow c.offsets := rfl
    rw [h3] at h2
    show (OffsetsIn.rows (honoursB h.1) (scompL k h.2.2) c).length + 1 ≤ _
    omega

/-! ## Histories -/

theorem Spec.SReused.built {O : Type} {k : SComp O} {c : (scompR k).C} {l : List O}
    (h : SReused k c l) : SBuilt k c l := by
  induction h with
  | empty => exact .empty
  | withCap e => exact .withCap e
  | tryWithCap e => exact .tryWithCap e
  | fromIter hf e => exact .fromIter hf e
  | fromIterIn hf e => exact .fromIterIn hf e
  | tryFromIter hf e => exact .tryFromIter hf e
  | extend _ e ih => exact .extend ih e
  | tryExtend _ e ih => exact .tryExtend ih e
  | tryExtendErr _ e ih => exact .tryExtendErr ih e
  | reserve _ e ih => exact .reserve ih e
  | tryReserve _ e ih => exact .tryReserve ih e
  | truncate _ e ih => exact .truncate ih e
  | leaf hg => exact .leaf hg
  | @bitmapParts B Good buffer bits b hg e =>
    have := SBuilt.bitmapParts (B := B) (Good := Good) hg e
    simpa using this
  | flattenParts _ e hg ih => exact .flattenParts ih e hg
  | flattenChild _ ih => exact .flattenChild ih
  | fromCollection _ ih => exact .fromCollection ih

theorem sreused_loose {O : Type} {k : SComp O} {c : (scompR k).C} {l : List O} (h : SReused k c l) :
    ∀ hs : Sound k, sloose k hs c := by
  induction h with
  | empty => intro hs; exact (sloose_tidy _ hs).empty
  | withCap e => intro hs; exact (sloose_tidy _ hs).withCap e
  | tryWithCap e => intro hs; exact (sloose_tidy _ hs).tryWithCap e
  | fromIter hf e => intro hs; exact (sloose_tidy _ hs).fromIter hf e
  | fromIterIn hf e => intro hs; exact (sloose_tidy _ hs).fromIterIn hf e
  | tryFromIter hf e => intro hs; exact (sloose_tidy _ hs).tryFromIter hf e
  | extend hb e ih => intro hs; exact (sloose_tidy _ hs).ext (sbuilt_inv hb.built hs).1 (ih hs) e
  | tryExtend hb e ih =>
    intro hs; exact (sloose_tidy _ hs).tryExt (sbuilt_inv hb.built hs).1 (ih hs) e
  | tryExtendErr hb e ih =>
    intro hs; exact (sloose_shrinks _ hs).tryExtErr (sbuilt_inv hb.built hs).1 (ih hs) e
  | reserve hb e ih =>
    intro hs; exact (sloose_tidy _ hs).reserve (sbuilt_inv hb.built hs).1 (ih hs) e
  | tryReserve hb e ih =>
    intro hs; exact (sloose_tidy _ hs).tryReserve (sbuilt_inv hb.built hs).1 (ih hs) e
  | truncate hb e ih =>
    intro hs; exact (sloose_shrinks _ hs).trunc (sbuilt_inv hb.built hs).1 (ih hs) e
  | leaf hg => intro hs; trivial
  | bitmapParts hg e =>
    intro hs
    obtain ⟨rfl, -⟩ := BitmapOf.tryFromParts_inv (L := (honoursB hs).buf) hg e
    rfl
  | flattenParts hb e hg ih =>
    intro hs
    unfold Flatten.tryFromParts at e
    have h1 := (sbuilt_inv hb.built hs).1
    rw [LawfulColl.len_ok _ h1] at e
    simp only [Res.map, Res.ok.injEq] at e
    split at e
    · simp at e
    · split at e
      · simp only [Except.ok.injEq] at e
        subst e
        exact ih hs
      · simp at e
  | flattenChild _ ih => intro hs; exact ih hs
  | fromCollection hb ih =>
    intro hs
    refine ⟨ih hs.2, by simp [ValidityOf.fromCollection], ?_⟩
    show (scompL _ hs.2).abs _ = (((scompL _ hs.2).abs _).map some).map _
    rw [List.map_map]
    exact (List.map_id _).symm

/-- Items for which a reservation is granted fit. -/
theorem room_fitting : {O : Type} → (k : SComp O) → {caps : Caps k} → {l : List O} →
    Room k caps l → Fitting k caps l
  | _, .leaf _ _ _, _, _, h => h
  | _, .bitmap _ _, _, _, h => h
  | _, .flatten _ _ k, _, _, h => room_fitting k h
  | _, .validity _ _ _ k, _, _, h => ⟨h.1, room_fitting k h.2⟩
  | _, .offsets _ _ _ k, _, _, h => ⟨h.1, h.2.1, room_fitting k h.2.2.1⟩

/-- Without lists, and in lists of such items, there is no difference. -/
theorem fitting_room : {O : Type} → (k : SComp O) → {caps : Caps k} → NoLists k → {l : List O} →
    Fitting k caps l → Room k caps l
  | _, .leaf _ _ _, _, _, _, h => h
  | _, .bitmap _ _, _, _, _, h => h
  | _, .flatten _ _ k, _, hn, _, h => fitting_room k hn h
  | _, .validity _ _ _ k, _, hn, _, h => ⟨h.1, fitting_room k hn h.2⟩
  | _, .offsets _ _ _ _, _, hn, _, _ => hn.elim

end Narrow
