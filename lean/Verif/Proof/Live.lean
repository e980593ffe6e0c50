import Verif.Spec.Env
import Verif.Proof.Layout

/-!
# When nothing fails

With an allocator that grants everything and size hints that promise no more
items than there are, fallible operations and constructors succeed as long as
the items fit.
-/

namespace Narrow

open Spec

namespace RVec

variable {α : Type}

theorem tryWithCap_live {lim n : Nat} {w : World} (hg : Generous w.oracle) (h : n ≤ lim) :
    (tryWithCap lim w n : Try (RVec α) × World).1 ≠ .err := by
  have := tryReserve_live (v := (empty : RVec α)) (w := w) (n := n) (lim := lim) hg
    (by simpa [empty] using h)
  unfold tryWithCap
  split
  · simp
  · next hne heq => rw [heq] at this; simp only at this; subst this; exact absurd rfl hne

theorem tryWithCap_oracle (lim n : Nat) (w : World) :
    (tryWithCap lim w n : Try (RVec α) × World).2.oracle = w.oracle := by
  have := tryReserve_oracle lim w (empty : RVec α) n
  unfold tryWithCap
  split <;> next h => rw [h] at this; exact this

theorem tryFromIterLoop_live (lim : Nat) : ∀ (s : Src α) (w : World) (v : RVec α), v.WF lim →
    Generous w.oracle → v.items.length + s.items.length ≤ lim →
    (tryFromIterLoop lim w v s).1 ≠ .err
  | [], w, v, _, _, _ => by simp [tryFromIterLoop]
  | .none :: s, w, v, _, _, _ => by simp [tryFromIterLoop]
  | .panic :: s, w, v, _, _, _ => by simp [tryFromIterLoop]
  | .item a :: s, w, v, hv, hg, hl => by
    simp only [Src.items, List.length_cons] at hl
    have h1 := tryReserve_live (v := v) (w := w) (n := 1) (lim := lim) hg (by omega)
    have ho := tryReserve_oracle lim w v 1
    have hi := tryReserve_items lim w v 1
    have hw := tryReserve_wf (lim := lim) w 1 hv
    simp only [tryFromIterLoop]
    split
    · next v1 w1 heq =>
      have hc := tryReserve_cap heq hv
      rw [heq] at hi hw ho
      simp only at hi hw ho
      rw [pushWithin, if_pos (by omega)]
      exact tryFromIterLoop_live lim s w1 _ ⟨by simp; omega, hw.cap_lim⟩ (ho ▸ hg)
        (by simp [hi]; omega)
    · next hne heq => rw [heq] at h1; simp only at h1; subst h1; exact absurd rfl hne

theorem tryFromIterLoop_oracle (lim : Nat) : ∀ (s : Src α) (w : World) (v : RVec α),
    (tryFromIterLoop lim w v s).2.oracle = w.oracle
  | [], w, v => by simp [tryFromIterLoop]
  | .none :: s, w, v => by simp [tryFromIterLoop]
  | .panic :: s, w, v => by simp [tryFromIterLoop]
  | .item a :: s, w, v => by
    have ho := tryReserve_oracle lim w v 1
    simp only [tryFromIterLoop]
    split
    · next v1 w1 heq =>
      rw [heq] at ho
      split
      · rw [tryFromIterLoop_oracle]; exact ho
      · exact ho
    · next heq => rw [heq] at ho; exact ho

theorem tryFromIter_live {lim : Nat} {w : World} {s : Src α} (hg : Generous w.oracle)
    (ht : TightHints w.oracle) (hl : s.items.length ≤ lim) : (tryFromIter lim w s).1 ≠ .err := by
  have hh := (ht w.tick s.items.length).1
  have h1 := tryWithCap_live (α := α) (w := w.next) (n := w.lowerHint s.items.length) (lim := lim) hg
    (by unfold World.lowerHint; omega)
  have h2 := tryWithCap_ne_panic (α := α) lim (w.lowerHint s.items.length) w.next
  have ho := tryWithCap_oracle (α := α) lim (w.lowerHint s.items.length) w.next
  unfold tryFromIter
  split
  · next v w1 heq =>
    rw [heq] at ho
    obtain ⟨i1, i2, -⟩ := tryWithCap_ok heq
    exact tryFromIterLoop_live lim s w1 v i2 (by rw [ho]; exact hg) (by simpa [i1] using hl)
  · next t w1 hne heq =>
    rw [heq] at h1 h2
    cases t <;> simp_all

theorem tryFromIter_oracle (lim : Nat) (w : World) (s : Src α) :
    (tryFromIter lim w s).2.oracle = w.oracle := by
  have ho := tryWithCap_oracle (α := α) lim (w.lowerHint s.items.length) w.next
  unfold tryFromIter
  split
  · next heq => rw [heq] at ho; rw [tryFromIterLoop_oracle]; exact ho
  · next heq => rw [heq] at ho; exact ho

theorem tryExtend_live {lim : Nat} {w : World} {v : RVec α} {s : Src α} (hg : Generous w.oracle)
    (ht : TightHints w.oracle) (hv : v.WF lim) (hl : v.items.length + s.items.length ≤ lim) :
    (tryExtend lim w v s).2.1 ≠ .err := by
  have hh := (ht w.tick s.items.length).1
  have h1 := tryReserve_live (v := v) (w := w.next) (n := w.lowerHint s.items.length) (lim := lim) hg
    (by unfold World.lowerHint; omega)
  have ho := tryReserve_oracle lim w.next v (w.lowerHint s.items.length)
  have hi := tryReserve_items lim w.next v (w.lowerHint s.items.length)
  have hw := tryReserve_wf (lim := lim) w.next (w.lowerHint s.items.length) hv
  unfold tryExtend
  split
  · next v1 w1 heq =>
    rw [heq] at ho hi hw
    simp only at ho hi hw
    obtain ⟨-, -, -, -, -, -, i7, -⟩ :=
      tryExtendLoop_spec lim v.items.length s w1 v1 hw (by rw [hi]; exact Nat.le_refl _) _ _ _ rfl
    exact i7 (by rw [ho]; exact hg) (by rw [hi]; exact hl)
  · next hne heq => rw [heq] at h1; simp only at h1; subst h1; exact absurd rfl hne

theorem tryExtend_oracle {lim : Nat} {w : World} {v : RVec α} {s : Src α} (hv : v.WF lim) :
    (tryExtend lim w v s).2.2.oracle = w.oracle :=
  (tryExtend_spec (s := s) (w := w) hv rfl).2.2.2.2

theorem withCap_live {lim n : Nat} (h : n ≤ lim) : (withCap lim n : Try (RVec α)) ≠ .panic := by
  simp [withCap, h]

end RVec

/-- What succeeds. -/
structure LiveR {O : Type} {R : Realloc O} (L : LawfulR R) : Prop where
  withCap : ∀ {n}, L.Room n [] → R.withCap n ≠ .panic
  fromIter : ∀ {w s}, TightHints w.oracle → s.Fused → s.panics = false → L.Room 0 s.items →
    (R.fromIter w s).1 ≠ .panic
  fromIterIn : ∀ {w s}, TightHints w.oracle → s.Fused → s.panics = false → L.Room 0 s.items →
    (R.fromIterIn w s).1 ≠ .panic
  fromIter_oracle : ∀ w s, (R.fromIter w s).2.oracle = w.oracle
  fromIterIn_oracle : ∀ w s, (R.fromIterIn w s).2.oracle = w.oracle
  tryWithCap_oracle : ∀ w n, (R.tryWithCap w n).2.oracle = w.oracle
  tryFromIter_oracle : ∀ w s, (R.tryFromIter w s).2.oracle = w.oracle
  tryReserve_oracle : ∀ {w c n}, L.Inv c → (R.tryReserve w c n).2.2.oracle = w.oracle
  tryExt_oracle : ∀ {w c s}, L.Inv c → (R.tryExtend w c s).2.2.oracle = w.oracle
  tryWithCap : ∀ {w n}, Generous w.oracle → TightHints w.oracle → L.Room n [] → (R.tryWithCap w n).1 ≠ .err
  tryFromIter : ∀ {w s}, Generous w.oracle → TightHints w.oracle → s.Fused → L.Room 0 s.items →
    (R.tryFromIter w s).1 ≠ .err
  tryReserve : ∀ {w c n}, Generous w.oracle → TightHints w.oracle → L.Inv c → L.Canon c → L.Room n (L.abs c) →
    (R.tryReserve w c n).2.1 ≠ .err
  tryExt : ∀ {w c s}, Generous w.oracle → TightHints w.oracle → L.Inv c → L.Canon c →
    L.Room 0 (L.abs c ++ s.items) → (R.tryExtend w c s).2.1 ≠ .err

theorem vec_live {α : Type} (lim : Nat) (hl : lim ≤ usizeMax) (d : α) : LiveR (vecL lim hl d) where
  withCap {n} h := by
    have h : n ≤ lim := by simpa [vecL] using h
    exact RVec.withCap_live h
  fromIter {w s} _ _ hp h := by
    have h : (Src.items s).length ≤ lim := by simpa [vecL] using h
    obtain ⟨v, hv, -⟩ := RVec.fromIter_live h hp
    show RVec.fromIter lim s ≠ .panic
    rw [hv]; simp
  fromIterIn {w s} _ _ hp h := by
    have h : (Src.items s).length ≤ lim := by simpa [vecL] using h
    obtain ⟨v, hv, -⟩ := RVec.fromIter_live h hp
    show RVec.fromIter lim s ≠ .panic
    rw [hv]; simp
  fromIter_oracle _ _ := rfl
  fromIterIn_oracle _ _ := rfl
  tryWithCap_oracle w n := RVec.tryWithCap_oracle lim n w
  tryFromIter_oracle w s := RVec.tryFromIter_oracle lim w s
  tryReserve_oracle {w c n} _ := RVec.tryReserve_oracle lim w c n
  tryExt_oracle h := RVec.tryExtend_oracle h
  tryWithCap hg _ h := RVec.tryWithCap_live hg (by simpa [vecL] using h)
  tryFromIter {w s} hg ht _ h := by
    have h : (Src.items s).length ≤ lim := by simpa [vecL] using h
    exact RVec.tryFromIter_live hg ht h
  tryReserve {w c n} hg _ _ _ h := by
    have := RVec.tryReserve_live (v := c) (n := n) (lim := lim) hg h
    show (RVec.tryReserve lim w c n).2.1 ≠ .err
    rw [this]; simp
  tryExt {w c s} hg ht hi _ h := by
    refine RVec.tryExtend_live hg ht hi ?_
    simpa [vecL] using h

/-! ## Bitmaps -/

namespace Bitmap

theorem withCap_live {n : Nat} (h : n ≤ 8 * byteMax) : withCap n ≠ .panic := by
  have := RVec.withCap_live (α := Byte) (lim := byteMax) (n := bytesForBits n)
    (by unfold bytesForBits; omega)
  unfold withCap
  split <;> simp_all

theorem tryWithCap_live {w : World} {n : Nat} (hg : Generous w.oracle) (h : n ≤ 8 * byteMax) :
    (tryWithCap w n).1 ≠ .err := by
  have := RVec.tryWithCap_live (α := Byte) (w := w) (lim := byteMax) (n := bytesForBits n) hg
    (by unfold bytesForBits; omega)
  unfold tryWithCap
  split <;> simp_all

theorem tryWithCap_oracle (w : World) (n : Nat) : (tryWithCap w n).2.oracle = w.oracle := by
  have := RVec.tryWithCap_oracle (α := Byte) byteMax (bytesForBits n) w
  unfold tryWithCap
  split <;> simp_all

theorem tryFromIter_live {w : World} {s : Src Bool} (hg : Generous w.oracle)
    (ht : TightHints w.oracle) (hs : s.Fused) (h : s.items.length ≤ 8 * byteMax) :
    (tryFromIter w s).1 ≠ .err := by
  obtain ⟨p1, p2, p3, p4, p5⟩ := pack_spec s hs
  have := RVec.tryFromIter_live (w := w) (s := (pack s).1) (lim := byteMax) hg ht
    (by unfold bytesForBits at p4; omega)
  unfold tryFromIter
  split <;> simp_all

theorem tryFromIter_oracle (w : World) (s : Src Bool) : (tryFromIter w s).2.oracle = w.oracle := by
  have := RVec.tryFromIter_oracle byteMax w (pack s).1
  unfold tryFromIter
  split <;> simp_all

theorem tryAllSet_live {w : World} {n : Nat} (hg : Generous w.oracle)
    (ht : TightHints w.oracle) (h : n ≤ 8 * byteMax) : (tryAllSet w n).1 ≠ .err := by
  have := RVec.tryFromIter_live (w := w) (s := Src.ofList (allSetBytes n)) (lim := byteMax) hg ht
    (by simp only [Src.items_ofList, allSetBytes_length, bytesForBits]; omega)
  unfold tryAllSet
  split <;> simp_all

theorem tryAllSet_oracle (w : World) (n : Nat) : (tryAllSet w n).2.oracle = w.oracle := by
  have := RVec.tryFromIter_oracle byteMax w (Src.ofList (allSetBytes n))
  unfold tryAllSet
  split <;> simp_all

theorem tryReserve_live {w : World} {b : Bitmap} {n : Nat} (hg : Generous w.oracle) (hb : b.Inv)
    (h : b.buffer.items.length + bytesForBits n ≤ byteMax) : (tryReserve w b n).2.1 ≠ .err := by
  obtain ⟨t, ht, -⟩ := trailingBits_ok hb
  unfold tryReserve
  rw [ht]
  simp only
  split
  · have := RVec.tryReserve_live (v := b.buffer) (w := w) (n := bytesForBits (n - t)) (lim := byteMax) hg
      (by unfold bytesForBits at *; omega)
    simp [this]
  · simp

/-- With room, `try_extend` on a bitmap fails only if growing the buffer does. -/
theorem tryExtend_buffer {w : World} {b : Bitmap} {s : Src Bool} (hb : b.Inv)
    (h : (tryExtend w b s).2.1 = .err) :
    ∃ (buf : RVec Byte) (packed : Src Byte), buf.WF byteMax ∧ buf.cap = b.buffer.cap ∧
      buf.items.length + packed.items.length ≤
        max b.buffer.items.length (bytesForBits (b.offset + b.bits + s.items.length)) ∧
      (RVec.tryExtend byteMax w buf packed).2.1 = .err := by
  obtain ⟨k, k1, k2, k3, k4, k5, k6, k7, k8, k9, k10⟩ := phase1_spec hb (Src.fused_fuse s)
  simp only [Src.items_fuse, Src.panics_fuse] at *
  unfold tryExtend at h
  generalize hP : phase1 b s.fuse = P at *
  obtain ⟨b1, s1, p⟩ := P
  simp only at *
  cases p with
  | true => simp at h
  | false =>
    obtain ⟨f1, f2, f3, f4⟩ := k10 rfl
    have halign : (s1.items ≠ [] ∨ s1.panics = true) → (b1.offset + b1.bits) % 8 = 0 := by
      intro h; rw [k3, k4]; apply f4
      rcases h with h | h
      · left; rw [f2] at h; simpa using h
      · right; rwa [f3] at h
    obtain ⟨g1, g2⟩ := phase2_spec k2 f1 halign
    simp only at h
    by_cases hdone : s1.items = [] ∧ s1.panics = false
    · rw [g1 hdone] at h; simp at h
    · have hmore : s1.items ≠ [] ∨ s1.panics = true := by
        by_cases h : s1.items = []
        · right; simpa [h] using hdone
        · left; exact h
      obtain ⟨buf, packed, n, p, e1, e2, e3, e4, e5⟩ := g2 hmore
      have hrest : s1.items.length + k = s.items.length := by rw [f2]; simp; omega
      rw [e1] at h
      cases p with
      | true => simp at h
      | false =>
        obtain ⟨q1, q2, q3, q4⟩ := e5 rfl
        have hwf : (⟨buf, b1.buffer.cap⟩ : RVec Byte).WF byteMax :=
          ⟨by rw [e2]; exact k2.wf.le_cap, k2.wf.cap_lim⟩
        have hbound : buf.length + packed.items.length ≤
            max b.buffer.items.length (bytesForBits (b.offset + b.bits + s.items.length)) := by
          rw [e2, k6] at *
          rw [k3, k4, show b.offset + (b.bits + k) + s1.items.length =
            b.offset + b.bits + s.items.length by omega] at q3
          omega
        simp only at h
        refine ⟨⟨buf, b1.buffer.cap⟩, packed, hwf, k7, hbound, ?_⟩
        generalize hR : RVec.tryExtend byteMax w ⟨buf, b1.buffer.cap⟩ packed = R at *
        obtain ⟨buf', o', w1⟩ := R
        cases o' with
        | err => rfl
        | panic => simp at h
        | ok =>
          simp only at h
          split at h <;> simp at h

theorem tryExtend_live {w : World} {b : Bitmap} {s : Src Bool} (hg : Generous w.oracle)
    (ht : TightHints w.oracle) (hb : b.Inv) (h : b.offset + b.bits + s.items.length ≤ 8 * byteMax) :
    (tryExtend w b s).2.1 ≠ .err := by
  intro he
  obtain ⟨buf, packed, h1, -, h2, h3⟩ := tryExtend_buffer hb he
  refine RVec.tryExtend_live (w := w) (v := buf) (s := packed) (lim := byteMax) hg ht h1 ?_ h3
  have := hb.bytes_le
  unfold bytesForBits at h2
  omega

end Bitmap

theorem bitmap_live : LiveR bitmapL where
  withCap {n} h := by
    have h : n ≤ 2 ^ 61 := by simpa [bitmapL] using h
    exact Bitmap.withCap_live (by unfold byteMax; omega)
  fromIter {w s} _ hs hp h := by
    have h : (Src.items s).length ≤ 2 ^ 61 := by simpa [bitmapL] using h
    obtain ⟨b, hb⟩ := Bitmap.fromIter_live hs hp (by unfold byteMax; omega)
    show Bitmap.fromIter s ≠ .panic
    rw [hb]; simp
  fromIterIn {w s} _ hs hp h := by
    have h : (Src.items s).length ≤ 2 ^ 61 := by simpa [bitmapL] using h
    obtain ⟨b, hb⟩ := Bitmap.fromIter_live hs hp (by unfold byteMax; omega)
    show Bitmap.fromIter s ≠ .panic
    rw [hb]; simp
  fromIter_oracle _ _ := rfl
  fromIterIn_oracle _ _ := rfl
  tryWithCap_oracle w n := Bitmap.tryWithCap_oracle w n
  tryFromIter_oracle w s := Bitmap.tryFromIter_oracle w s
  tryReserve_oracle {w c n} h := (Bitmap.tryReserve_ok (w := w) (n := n) h rfl).2.2.2.2.2.2
  tryExt_oracle {w c s} h := (Bitmap.tryExtend_spec (w := w) (s := s) h rfl).2.2.1
  tryWithCap {w n} hg _ h := by
    have h : n ≤ 2 ^ 61 := by simpa [bitmapL] using h
    exact Bitmap.tryWithCap_live hg (by unfold byteMax; omega)
  tryFromIter {w s} hg ht hs h := by
    have h : (Src.items s).length ≤ 2 ^ 61 := by simpa [bitmapL] using h
    exact Bitmap.tryFromIter_live hg ht hs (by unfold byteMax; omega)
  tryReserve {w c n} hg _ hi hk h := by
    have hk : Bitmap.offset c = 0 ∧ (Bitmap.buffer c).items.length ≤ 2 ^ 59 := hk
    have h : (Bitmap.abs c).length + n ≤ 2 ^ 61 := h
    refine Bitmap.tryReserve_live hg hi ?_
    have := hk.2
    unfold bytesForBits byteMax; omega
  tryExt {w c s} hg ht hi hk h := by
    have hk : Bitmap.offset c = 0 ∧ (Bitmap.buffer c).items.length ≤ 2 ^ 59 := hk
    have h : (Bitmap.abs c ++ Src.items s).length + 0 ≤ 2 ^ 61 := h
    simp only [List.length_append, Bitmap.abs_length] at h
    exact Bitmap.tryExtend_live hg ht hi (by have := hk.1; unfold byteMax; omega)

/-! ## Fixed-width grouping -/

theorem Flatten.wrapTry_ne_panic {C : Type} {x : Try C} (h : x ≠ .panic) : Flatten.wrapTry x ≠ .panic :=
  fun e => h (wrapTry_panic e)

theorem Flatten.wrapTry_ne_err {C : Type} {x : Try C} (h : x ≠ .err) : Flatten.wrapTry x ≠ .err :=
  fun e => h (wrapTry_err e)

open Flatten in
theorem flatten_live {O : Type} {R : Realloc O} {L : LawfulR R} (V : LiveR L) (n : Nat) (hn : 0 < n) :
    LiveR (flattenL L n hn) where
  withCap {k} h := by
    have h : L.Room (k * n) [] := h
    have hl := L.room_len h
    show (match strictMul k n with
      | .panic => Try.panic
      | .ok m => wrapTry (R.withCap m)) ≠ .panic
    rw [strictMul_ok (by simpa using hl)]
    exact wrapTry_ne_panic (V.withCap h)
  fromIter {w s} ht _ hp h := by
    have h : L.Room (0 * n) (flat (Src.items s)) := h
    exact wrapTry_ne_panic (V.fromIter ht (flatSrc_fused s) (by simpa using hp)
      (by rw [items_flatSrc]; simpa using h))
  fromIterIn {w s} ht _ hp h := by
    have h : L.Room (0 * n) (flat (Src.items s)) := h
    exact wrapTry_ne_panic (V.fromIterIn ht (flatSrc_fused s) (by simpa using hp)
      (by rw [items_flatSrc]; simpa using h))
  fromIter_oracle w s := V.fromIter_oracle w _
  fromIterIn_oracle w s := V.fromIterIn_oracle w _
  tryWithCap_oracle w k := by
    show (match checkedMul k n with
      | none => (Try.err, w)
      | some m => (wrapTry (R.tryWithCap w m).1, (R.tryWithCap w m).2)).2.oracle = w.oracle
    split
    · rfl
    · exact V.tryWithCap_oracle w _
  tryFromIter_oracle w s := V.tryFromIter_oracle w _
  tryReserve_oracle {w c k} h := by
    show (match checkedMul k n with
      | none => (c, Out.err, w)
      | some m => ((⟨(R.tryReserve w c.child m).1⟩ : Flatten R.C), (R.tryReserve w c.child m).2.1,
          (R.tryReserve w c.child m).2.2)).2.2.oracle = w.oracle
    split
    · rfl
    · exact V.tryReserve_oracle h.1
  tryExt_oracle h := V.tryExt_oracle h.1
  tryWithCap {w k} hg ht h := by
    have h : L.Room (k * n) [] := h
    have hl := L.room_len h
    show (match checkedMul k n with
      | none => (Try.err, w)
      | some m => (wrapTry (R.tryWithCap w m).1, (R.tryWithCap w m).2)).1 ≠ .err
    rw [checkedMul, if_pos (by simpa using hl)]
    exact wrapTry_ne_err (V.tryWithCap hg ht h)
  tryFromIter {w s} hg ht _ h := by
    have h : L.Room (0 * n) (flat (Src.items s)) := h
    exact wrapTry_ne_err (V.tryFromIter hg ht (flatSrc_fused s)
      (by rw [items_flatSrc]; simpa using h))
  tryReserve {w c k} hg ht hi hk h := by
    have hf := flat_abs hn hi
    have h : L.Room (k * n) (flat (group n (L.abs c.child))) := h
    rw [show flat (group n (L.abs c.child)) = L.abs c.child from hf] at h
    have hl := L.room_len h
    show (match checkedMul k n with
      | none => (c, Out.err, w)
      | some m => ((⟨(R.tryReserve w c.child m).1⟩ : Flatten R.C), (R.tryReserve w c.child m).2.1,
          (R.tryReserve w c.child m).2.2)).2.1 ≠ .err
    rw [checkedMul, if_pos (by omega)]
    exact V.tryReserve hg ht hi.1 hk h
  tryExt {w c s} hg ht hi hk h := by
    have hf := flat_abs hn hi
    have h : L.Room (0 * n) (flat (group n (L.abs c.child) ++ Src.items s)) := h
    rw [flat_append, show flat (group n (L.abs c.child)) = L.abs c.child from hf, Nat.zero_mul] at h
    exact V.tryExt hg ht hi.1 hk (by rw [items_flatSrc]; exact h)

/-! ## Nullable collections -/

namespace Validity

variable {O : Type} {R : Realloc O} {L : LawfulR R}

theorem tryMaterialize_oracle {K : Coll O} (w : World) (v : Validity K.C) :
    (tryMaterialize K w v).2.oracle = w.oracle := by
  unfold tryMaterialize
  split
  · rfl
  · split
    · rfl
    · exact Bitmap.tryAllSet_oracle w _

theorem tryMaterialize_live {w : World} {v : Validity R.C} (hg : Generous w.oracle)
    (ht : TightHints w.oracle) (hv : Inv L.toLawfulColl v)
    (h : (abs L.toLawfulColl v).length ≤ 2 ^ 61) : (tryMaterialize R.toColl w v).1 ≠ .err := by
  obtain ⟨c, ob⟩ := v
  unfold tryMaterialize
  cases ob with
  | some b => simp
  | none =>
    simp only [L.len_ok hv.1]
    refine Bitmap.tryAllSet_live hg ht ?_
    simp only [abs, List.length_map] at h
    unfold byteMax; omega

theorem tryExtendLoop_oracle (V : LiveR L) (len0 : Nat) (s : Src (Option O)) :
    ∀ (w : World) (c : R.C) (b : Bitmap), Mid (L := L) c b →
    (tryExtendLoop R len0 w c b s).2.2.oracle = w.oracle := by
  intro w c b hm
  rw [tryExtendLoop]
  have ho := V.tryExt_oracle (w := w) (s := values R.dflt (Src.takeChunk validityChunk s).1) hm.inv
  have hroll : ∀ (v : Validity R.C) (w' : World), (rollback R v len0 w').2.2 = w' := by
    intro v w'; unfold rollback; split <;> rfl
  generalize hE : R.tryExtend w c (values R.dflt (Src.takeChunk validityChunk s).1) = E at *
  obtain ⟨c1, o1, w1⟩ := E
  simp only at ho
  cases o1 with
  | panic => exact ho
  | err => simp only [hroll]; exact ho
  | ok =>
    obtain ⟨e1, e2, e3⟩ := L.tryExt_ok hm.inv hE
    rw [values_items] at e2
    simp only
    generalize hF : b.tryExtend w1 (Src.ofList (flags (Src.takeChunk validityChunk s).1)) = F at *
    obtain ⟨bb, o2, w2⟩ := F
    obtain ⟨b1, b2, b3, b4, -⟩ := Bitmap.tryExtend_spec hm.binv hF
    rw [ho] at b3
    cases o2 with
    | panic => exact b3
    | err => simp only [hroll]; exact b3
    | ok =>
      simp only [Src.items_ofList] at b4
      simp only
      split
      · exact b3
      · next hge =>
        obtain ⟨m1, -⟩ := hm.step e1 e2 b1 (b4 trivial).1
        rw [tryExtendLoop_oracle V len0 _ w2 c1 bb m1, b3]
termination_by s.length
decreasing_by
  have h1 := takeChunk_length validityChunk s
  simp only [flags, List.length_map, validityChunk] at *
  omega

theorem tryExtendLoop_live (V : LiveR L) (len0 : Nat) (s : Src (Option O)) :
    ∀ (w : World) (c : R.C) (b : Bitmap), Generous w.oracle → TightHints w.oracle →
    Mid (L := L) c b → Clean L c b → Room L 0 (mask (L.abs c) b.abs ++ s.items) →
    (tryExtendLoop R len0 w c b s).2.1 ≠ .err := by
  intro w c b hg ht hm hk hr
  rw [tryExtendLoop]
  have htk := Src.takeChunk_items validityChunk s
  have hA := hm.mask_len
  have hroomC : L.Room 0 (L.abs c ++ (values R.dflt (Src.takeChunk validityChunk s).1).items) := by
    have := (room_chunk (n := validityChunk) hr).2
    rwa [List.map_append, ← hk.2.2, ← htk, ← values_items] at this
  have ho := V.tryExt_oracle (w := w) (s := values R.dflt (Src.takeChunk validityChunk s).1) hm.inv
  have hl := V.tryExt hg ht hm.inv hk.1 hroomC
  generalize hE : R.tryExtend w c (values R.dflt (Src.takeChunk validityChunk s).1) = E at *
  obtain ⟨c1, o1, w1⟩ := E
  simp only at ho hl
  cases o1 with
  | panic => simp
  | err => exact absurd rfl hl
  | ok =>
    obtain ⟨e1, e2, e3⟩ := L.tryExt_ok hm.inv hE
    rw [values_items, htk] at e2
    have hfl : flags (Src.takeChunk validityChunk s).1 = (s.items.take validityChunk).map Option.isSome := by
      simp [flags, htk]
    simp only [hfl]
    have hroomB : b.bits + (List.map Option.isSome (List.take validityChunk s.items)).length ≤ 2 ^ 61 := by
      have := (room_chunk (n := validityChunk) hr).1
      simp only [List.length_append, hA] at this
      simpa using this
    have hbl := Bitmap.tryExtend_live (w := w1) (b := b)
      (s := Src.ofList (List.map Option.isSome (List.take validityChunk s.items)))
      (by rw [ho]; exact hg) (by rw [ho]; exact ht) hm.binv
      (by rw [Src.items_ofList]; have := hk.2.1.1; unfold byteMax; omega)
    generalize hF : b.tryExtend w1 (Src.ofList (List.map Option.isSome (List.take validityChunk s.items))) = F at *
    obtain ⟨bb, o2, w2⟩ := F
    obtain ⟨b1, b2, b3, b4, b5, b6, b7⟩ := Bitmap.tryExtend_spec hm.binv hF
    simp only [Src.items_ofList, Src.panics_ofList] at b4 b6 b7
    cases o2 with
    | panic => simp
    | err => exact absurd rfl hbl
    | ok =>
      obtain ⟨b4, -⟩ := b4 rfl
      obtain ⟨m1, m2⟩ := hm.step e1 e2 b1 b4
      have hclean : Clean L c1 bb := clean_step hm e2 b4 hk
        (L.tryExt_canon hm.inv hk.1 hroomC hE (by simp)) (bcanon_ext b2 b7 hk.2.1 hroomB)
      simp only
      split
      · simp
      · next hge =>
        have hge' : validityChunk ≤ s.items.length := by
          simp only [List.length_map, List.length_take] at hge; omega
        obtain ⟨r1, r2⟩ := Src.takeChunk_rest_items validityChunk s hge'
        have hdec : (Src.takeChunk validityChunk s).2.length < List.length s := by
          have := takeChunk_length validityChunk s
          rw [htk, List.length_take, Nat.min_eq_left hge'] at this
          unfold validityChunk at this ⊢; omega
        refine tryExtendLoop_live V len0 (Src.takeChunk validityChunk s).2 w2 c1 bb
          (by rw [b3, ho]; exact hg) (by rw [b3, ho]; exact ht) m1 hclean ?_
        rw [m2, r1]; simpa using hr
termination_by s.length

theorem tryExtend_oracle (V : LiveR L) {w : World} {v : Validity R.C} {s : Src (Option O)}
    (hv : Inv L.toLawfulColl v) : (tryExtend R w v s).2.2.oracle = w.oracle := by
  unfold tryExtend
  simp only [len_ok hv]
  have ho := tryMaterialize_oracle (K := R.toColl) w v
  generalize hm : tryMaterialize R.toColl w v = M at *
  obtain ⟨t, w1⟩ := M
  cases t with
  | panic => exact ho
  | err => exact ho
  | ok b =>
    obtain ⟨m1, m2, m3, m4⟩ := tryMaterialize_ok hv hm
    obtain ⟨c, h1, h2, h3, h4⟩ := L.trunc_ok (abs L.toLawfulColl v).length hv.1
    simp only [h1]
    rw [← m3] at h3
    obtain ⟨d1, d2⟩ := Mid.of_trunc m1 h2 h3
    rw [tryExtendLoop_oracle V _ s w1 c b d1]; exact ho

theorem tryExtend_live (V : LiveR L) {w : World} {v : Validity R.C} {s : Src (Option O)}
    (hg : Generous w.oracle) (ht : TightHints w.oracle)
    (hv : Inv L.toLawfulColl v) (hk : Canon L v) (hr : Room L 0 (abs L.toLawfulColl v ++ s.items)) :
    (tryExtend R w v s).2.1 ≠ .err := by
  unfold tryExtend
  simp only [len_ok hv]
  have ho := tryMaterialize_oracle (K := R.toColl) w v
  have hl := tryMaterialize_live hg ht hv (by have := hr.1; simp at this; omega)
  generalize hm : tryMaterialize R.toColl w v = M at *
  obtain ⟨t, w1⟩ := M
  cases t with
  | panic => simp
  | err => exact absurd rfl hl
  | ok b =>
    obtain ⟨m1, m2, m3, m4⟩ := tryMaterialize_ok hv hm
    obtain ⟨c, h1, h2, h3, h4⟩ := L.trunc_ok (abs L.toLawfulColl v).length hv.1
    simp only [h1]
    rw [← m3] at h3
    obtain ⟨d1, d2⟩ := Mid.of_trunc m1 h2 h3
    simp only at ho
    exact tryExtendLoop_live V _ s w1 c b (by rw [ho]; exact hg) (by rw [ho]; exact ht) d1
      (Mid.clean_of_trunc m1 h3 h4 (canon_mat hk m2 m4)) (by rw [d2, m2]; exact hr)

theorem tryReserve_oracle (V : LiveR L) {w : World} {v : Validity R.C} {n : Nat}
    (hv : Inv L.toLawfulColl v) : (tryReserve R w v n).2.2.oracle = w.oracle := by
  unfold tryReserve
  have ho := tryMaterialize_oracle (K := R.toColl) w v
  generalize hm : tryMaterialize R.toColl w v = M at *
  obtain ⟨t, w1⟩ := M
  cases t with
  | panic => exact ho
  | err => exact ho
  | ok b =>
    obtain ⟨m1, m2, m3, m4⟩ := tryMaterialize_ok hv hm
    simp only at ho ⊢
    have h1 := V.tryReserve_oracle (w := w1) (n := n) hv.1
    generalize hC : R.tryReserve w1 v.coll n = C at *
    obtain ⟨c, o1, w2⟩ := C
    simp only at h1
    cases o1 with
    | panic => exact h1.trans ho
    | err => exact h1.trans ho
    | ok =>
      simp only
      have hb := (m1.2 b rfl).1
      generalize hF : b.tryReserve w2 n = F
      obtain ⟨b', o2, w3⟩ := F
      have h5 := (Bitmap.tryReserve_ok hb hF).2.2.2.2.2.2
      simp only at h5 ⊢
      rw [h5, h1, ho]

theorem tryReserve_live (V : LiveR L) {w : World} {v : Validity R.C} {n : Nat}
    (hg : Generous w.oracle) (ht : TightHints w.oracle)
    (hv : Inv L.toLawfulColl v) (hk : Canon L v) (hr : Room L n (abs L.toLawfulColl v)) :
    (tryReserve R w v n).2.1 ≠ .err := by
  unfold tryReserve
  have ho := tryMaterialize_oracle (K := R.toColl) w v
  have hl := tryMaterialize_live hg ht hv (by have := hr.1; omega)
  generalize hm : tryMaterialize R.toColl w v = M at *
  obtain ⟨t, w1⟩ := M
  cases t with
  | panic => simp
  | err => exact absurd rfl hl
  | ok b =>
    obtain ⟨m1, m2, m3, m4⟩ := tryMaterialize_ok hv hm
    simp only at ho ⊢
    have h1 := V.tryReserve_oracle (w := w1) (n := n) hv.1
    have h2 := V.tryReserve (w := w1) (n := n) (by rw [ho]; exact hg) (by rw [ho]; exact ht) hv.1 hk.1
      (by rw [hk.2.2]; exact hr.2)
    generalize hC : R.tryReserve w1 v.coll n = C at *
    obtain ⟨c, o1, w2⟩ := C
    simp only at h1 h2
    cases o1 with
    | panic => simp
    | err => exact absurd rfl h2
    | ok =>
      simp only
      refine Bitmap.tryReserve_live (by rw [h1, ho]; exact hg) (m1.2 b rfl).1 ?_
      have h3 := (canon_mat hk m2 m4).2.1.2
      have h4 := hr.1
      unfold bytesForBits byteMax; omega

theorem pushBits_live : ∀ (l : List Bool) {b : Bitmap}, b.Inv →
    b.offset + b.bits + l.length ≤ 8 * byteMax → (pushBits b l).2 = .ok
  | [], b, _, _ => rfl
  | x :: l, b, hb, h => by
    simp only [List.length_cons] at h
    obtain ⟨b1, b2, b3, b4, b5, b6, b7⟩ := Bitmap.extend_spec (s := [.item x]) hb
    simp only [pushBits]
    generalize hE : b.extend [.item x] = E at *
    obtain ⟨bb, o1⟩ := E
    simp only at b1 b2 b3 b4 b5 b6 b7
    have := b6 (by simp [Src.items]; omega)
    simp only [Src.panics] at this
    subst this
    have b4 := (b4 rfl).1
    have hbits : bb.bits = b.bits + 1 := by
      have := congrArg List.length b4; simpa [Src.items] using this
    exact pushBits_live l b1 (by omega)

theorem fromIterWith_live {mk : World → Src O → Try R.C × World}
    (hmk : ∀ {w s}, TightHints w.oracle → s.Fused → s.panics = false → L.Room 0 s.items →
      (mk w s).1 ≠ .panic) {w : World}
    {s : Src (Option O)} (ht : TightHints w.oracle) (hs : s.Fused) (hp : s.panics = false)
    (hr : Room L 0 s.items) : (fromIterWith R mk w s).1 ≠ .panic := by
  have hcap := (ht w.tick s.items.length).2
  have hr1 := hr.1
  have h0 := Bitmap.withCap_live (n := w.capHint s.items.length)
    (by unfold byteMax World.capHint; omega)
  have h0' := Bitmap.withCap_ne (w.capHint s.items.length)
  unfold fromIterWith
  generalize hB : Bitmap.withCap (w.capHint s.items.length) = B at *
  cases B with
  | err => exact absurd rfl h0'
  | panic => exact absurd rfl h0
  | ok b =>
    obtain ⟨q1, q2, q3, q4⟩ := Bitmap.withCap_ok hB
    have hbits0 : b.bits = 0 := by have := congrArg List.length q2; simpa using this
    have h1 := hmk (w := w.next) (s := values R.dflt s) ht (by unfold values; exact hs.map)
      (by rw [values_panics]; exact hp) (by rw [values_items]; exact hr.2)
    simp only
    generalize hC : mk w.next (values R.dflt s) = C at *
    obtain ⟨t, w1⟩ := C
    cases t with
    | err => simp
    | panic => exact absurd rfl h1
    | ok c =>
      have h2 := pushBits_live ((R.pulled s).map Option.isSome) q1
        (by rw [L.pulled_fused hs, List.length_map]; unfold byteMax; omega)
      simp only
      generalize hP : pushBits b ((R.pulled s).map Option.isSome) = P at *
      obtain ⟨b', o⟩ := P
      simp only at h2
      subst h2
      simp

theorem fromIterWith_oracle {mk : World → Src O → Try R.C × World}
    (hmk : ∀ w s, (mk w s).2.oracle = w.oracle) (w : World) (s : Src (Option O)) :
    (fromIterWith R mk w s).2.oracle = w.oracle := by
  unfold fromIterWith
  have h1 := hmk w.next (values R.dflt s)
  split
  · split
    · next heq => rw [heq] at h1; split <;> exact h1
    · next heq => rw [heq] at h1; exact h1
    · next heq => rw [heq] at h1; exact h1
  · rfl

theorem tryWithCap_oracle (V : LiveR L) (w : World) (n : Nat) :
    (tryWithCap R w n).2.oracle = w.oracle := by
  unfold tryWithCap
  have h1 := V.tryWithCap_oracle w n
  split
  · next c w1 hc =>
    rw [hc] at h1
    have h2 := Bitmap.tryWithCap_oracle w1 n
    split <;> next heq => rw [heq] at h2; exact h2.trans h1
  · next hc => rw [hc] at h1; exact h1
  · next hc => rw [hc] at h1; exact h1

theorem tryWithCap_live (V : LiveR L) {w : World} {n : Nat} (hg : Generous w.oracle)
    (ht : TightHints w.oracle) (hr : Room L n []) : (tryWithCap R w n).1 ≠ .err := by
  unfold tryWithCap
  have h1 := V.tryWithCap hg ht hr.2
  have ho := V.tryWithCap_oracle w n
  split
  · next c w1 hc =>
    rw [hc] at ho
    have h2 := Bitmap.tryWithCap_live (w := w1) (n := n) (by rw [ho]; exact hg)
      (by have := hr.1; unfold byteMax; simp at this; omega)
    split
    · simp
    · next heq => rw [heq] at h2; exact absurd rfl h2
    · simp
  · next hc => rw [hc] at h1; exact absurd rfl h1
  · simp

theorem withCap_live (V : LiveR L) {n : Nat} (hr : Room L n []) : withCap R n ≠ .panic := by
  unfold withCap
  have h1 := V.withCap hr.2
  have h2 := Bitmap.withCap_live (n := n) (by have := hr.1; unfold byteMax; simp at this; omega)
  split
  · split
    · simp
    · simp
    · next heq => exact absurd heq h2
  · simp
  · next heq => exact absurd heq h1

theorem room_hint {n : Nat} {l : List (Option O)} (h : Room L 0 l) (hn : n ≤ l.length) : Room L n [] := by
  refine ⟨by have := h.1; simp; omega, ?_⟩
  have : L.Room (0 + (l.map (·.getD R.dflt)).length) [] := L.room_prefix (by simpa using h.2)
  exact L.room_mono (by simpa using hn) this

theorem tryFromIter_oracle (V : LiveR L) (w : World) (s : Src (Option O)) :
    (tryFromIter R w s).2.oracle = w.oracle := by
  unfold tryFromIter
  have h0 := tryWithCap_oracle V w.next (w.capHint s.items.length)
  split
  · next v0 w1 hv =>
    obtain ⟨h1, h2, h3⟩ := tryWithCap_ok (L := L) hv
    have h4 := tryExtend_oracle V (w := w1) (s := s) h1
    rw [hv] at h0
    split <;> next he => rw [he] at h4; exact h4.trans h0
  · next hv => rw [hv] at h0; exact h0
  · next hv => rw [hv] at h0; exact h0

theorem tryFromIter_live (V : LiveR L) {w : World} {s : Src (Option O)} (hg : Generous w.oracle)
    (ht : TightHints w.oracle) (hr : Room L 0 s.items) : (tryFromIter R w s).1 ≠ .err := by
  unfold tryFromIter
  have ho := tryWithCap_oracle V w.next (w.capHint s.items.length)
  have hl := tryWithCap_live V (w := w.next) (n := w.capHint s.items.length) hg ht
    (room_hint hr (ht w.tick s.items.length).2)
  split
  · next v0 w1 hv =>
    obtain ⟨h1, h2, h3⟩ := tryWithCap_ok (L := L) hv
    rw [hv] at ho
    have h4 := tryExtend_live V (w := w1) (s := s) (by rw [ho]; exact hg) (by rw [ho]; exact ht) h1 h3
      (by rw [h2]; exact hr)
    split
    · simp
    · next he => rw [he] at h4; exact absurd rfl h4
    · simp
  · next hv => rw [hv] at hl; exact absurd rfl hl
  · simp

end Validity

open Validity in
theorem validity_live {O : Type} {R : Realloc O} {L : LawfulR R} (V : LiveR L) :
    LiveR (validityL L) where
  withCap h := withCap_live V h
  fromIter ht hs hp h := fromIterWith_live (fun a b c d => V.fromIter a b c d) ht hs hp h
  fromIterIn ht hs hp h := fromIterWith_live (fun a b c d => V.fromIterIn a b c d) ht hs hp h
  fromIter_oracle w s := fromIterWith_oracle V.fromIter_oracle w s
  fromIterIn_oracle w s := fromIterWith_oracle V.fromIterIn_oracle w s
  tryWithCap_oracle w n := tryWithCap_oracle V w n
  tryFromIter_oracle w s := tryFromIter_oracle V w s
  tryReserve_oracle h := tryReserve_oracle V h
  tryExt_oracle h := tryExtend_oracle V h
  tryWithCap hg ht h := tryWithCap_live V hg ht h
  tryFromIter hg ht _ h := tryFromIter_live V hg ht h
  tryReserve hg ht hi hk h := tryReserve_live V hg ht hi hk h
  tryExt hg ht hi hk h := tryExtend_live V hg ht hi hk h

/-! ## Variable-length grouping -/

namespace Offsets

variable {O : Type} {R : Realloc O} {L : LawfulR R} {ow : OffW}

theorem rollback_world (R : Realloc O) (d : R.C) (of : RVec Int) (n m : Nat) (w : World) :
    (rollback R d of n m w).2.2 = w := by
  unfold rollback
  split
  · rfl
  · split <;> rfl

theorem tryExtendLoop_oracle (V : LiveR L) (n m : Nat) : ∀ (s : Src (List O)) (w : World)
    (d : R.C) (of : RVec Int) (p : Int), L.Inv d → of.WF ow.lim →
    (tryExtendLoop ow R n m w d of p s).2.2.oracle = w.oracle
  | [], w, d, of, p, _, _ => rfl
  | .none :: s, w, d, of, p, _, _ => rfl
  | .panic :: s, w, d, of, p, _, _ => rfl
  | .item r :: s, w, d, of, p, hd, hw => by
    simp only [tryExtendLoop]
    split
    · rfl
    · next k _ =>
      split
      · have h1 := V.tryExt_oracle (w := w) (s := Src.ofList r) hd
        generalize hE : R.tryExtend w d (Src.ofList r) = E at *
        obtain ⟨d1, o1, w1⟩ := E
        simp only at h1
        cases o1 with
        | panic => exact h1
        | err => simp only [rollback_world]; exact h1
        | ok =>
          simp only
          obtain ⟨e1, -, -⟩ := L.tryExt_ok hd hE
          have h2 := RVec.tryExtend_oracle (lim := ow.lim) (w := w1)
            (s := [.item ((k + r.length : Nat) : Int)]) hw
          generalize hF : RVec.tryExtend ow.lim w1 of [.item ((k + r.length : Nat) : Int)] = F at *
          obtain ⟨of', o2, w2⟩ := F
          simp only at h2
          cases o2 with
          | panic => exact h2.trans h1
          | err => simp only [rollback_world]; exact h2.trans h1
          | ok =>
            simp only
            rw [tryExtendLoop_oracle V n m s w2 d1 of' _ e1 (RVec.tryExtend_spec hw hF).1]
            exact h2.trans h1
      · rw [rollback_world]

theorem tryExtendLoop_live (V : LiveR L) (n m : Nat) : ∀ (s : Src (List O)) (w : World)
    (c : Offsets R.C) (rows : List (List O)), Generous w.oracle → TightHints w.oracle →
    Mid L ow c rows → L.Canon c.data → Room L ow 0 (rows ++ s.items) →
    (tryExtendLoop ow R n m w c.data c.offsets (rows.flatten.length : Int) s).2.1 ≠ .err
  | [], w, c, rows, _, _, _, _, _ => by simp [tryExtendLoop]
  | .none :: s, w, c, rows, _, _, _, _, _ => by simp [tryExtendLoop]
  | .panic :: s, w, c, rows, _, _, _, _, _ => by simp [tryExtendLoop]
  | .item r :: s, w, c, rows, hg, ht, hm, hk, hr => by
    obtain ⟨r1, r2, r3, r4⟩ := room_row hr
    have hmx : ow.max ≤ usizeMax := by cases ow <;> simp [OffW.max, usizeMax]
    have hfit : rows.flatten.length + r.length ≤ usizeMax ∧ rows.flatten.length + r.length ≤ ow.max :=
      ⟨by omega, r3⟩
    simp only [tryExtendLoop, asUsize_ofNat, if_pos hfit]
    have hroom : L.Room 0 (L.abs c.data ++ (Src.ofList r).items) := by
      rw [hm.data, Src.items_ofList]; exact r1
    have h1 := V.tryExt_oracle (w := w) (s := Src.ofList r) hm.inv
    have h1' := V.tryExt hg ht hm.inv hk hroom
    generalize hE : R.tryExtend w c.data (Src.ofList r) = E at *
    obtain ⟨d1, o1, w1⟩ := E
    simp only at h1 h1'
    cases o1 with
    | panic => simp
    | err => exact absurd rfl h1'
    | ok =>
      simp only
      obtain ⟨e1, e2, -⟩ := L.tryExt_ok hm.inv hE
      have e3 := L.tryExt_canon hm.inv hk hroom hE (by simp)
      rw [hm.data, Src.items_ofList] at e2
      have hl : c.offsets.items.length + (Src.items [Ev.item (((rows.flatten.length + r.length : Nat)) : Int)]).length ≤ ow.lim := by
        rw [hm.items, totals_length]; simp [Src.items]; omega
      have h2 := RVec.tryExtend_oracle (lim := ow.lim) (w := w1)
        (s := [.item ((rows.flatten.length + r.length : Nat) : Int)]) hm.wf
      have h2' := RVec.tryExtend_live (lim := ow.lim) (w := w1)
        (s := [.item ((rows.flatten.length + r.length : Nat) : Int)]) (by rw [h1]; exact hg)
        (by rw [h1]; exact ht) hm.wf hl
      generalize hF : RVec.tryExtend ow.lim w1 c.offsets
        [.item ((rows.flatten.length + r.length : Nat) : Int)] = F at *
      obtain ⟨of', o2, w2⟩ := F
      simp only at h2 h2'
      cases o2 with
      | panic => simp
      | err => exact absurd rfl h2'
      | ok =>
        simp only
        obtain ⟨k1, k2, -⟩ := RVec.tryExtend_spec hm.wf hF
        have hm' : Mid L ow ⟨d1, of'⟩ (rows ++ [r]) := by
          refine ⟨k1, e1, ?_, by simp [e2]⟩
          simp only [(k2 rfl).1, hm.items, totals_snoc]
          simp [Src.items]
        have hpos : (rows.flatten.length + r.length : Nat) = (rows ++ [r]).flatten.length := by
          simp
        rw [hpos]
        exact tryExtendLoop_live V n m s w2 ⟨d1, of'⟩ (rows ++ [r]) (by rw [h2, h1]; exact hg)
          (by rw [h2, h1]; exact ht) hm' e3 (by simpa [Src.items] using hr)

theorem tryExtend_oracle (V : LiveR L) {w : World} {c : Offsets R.C} {s : Src (List O)}
    (hc : Inv L.toLawfulColl ow c) : (tryExtend ow R w c s).2.2.oracle = w.oracle := by
  unfold tryExtend
  rw [last_ok hc.2.items, hc.len_ok]
  simp only [asUsize_ofNat]
  obtain ⟨d, h1, h2, h3, h4⟩ := L.trunc_ok (abs L.toLawfulColl c).flatten.length hc.2.inv
  simp only [h1]
  exact tryExtendLoop_oracle V _ _ s w d c.offsets _ h2 hc.1

theorem tryExtend_live (V : LiveR L) {w : World} {c : Offsets R.C} {s : Src (List O)}
    (hg : Generous w.oracle) (ht : TightHints w.oracle) (hc : Inv L.toLawfulColl ow c)
    (hk : L.Canon c.data) (hr : Room L ow 0 (abs L.toLawfulColl c ++ s.items)) :
    (tryExtend ow R w c s).2.1 ≠ .err := by
  unfold tryExtend
  rw [last_ok hc.2.items, hc.len_ok]
  simp only [asUsize_ofNat]
  obtain ⟨d, h1, h2, h3, h4⟩ := L.trunc_ok (abs L.toLawfulColl c).flatten.length hc.2.inv
  simp only [h1]
  exact tryExtendLoop_live V _ _ s w ⟨d, c.offsets⟩ _ hg ht (Mid.of_inv hc h2 h3) (h4 hk) hr

theorem withCap_live (V : LiveR L) {n : Nat} (hr : Room L ow n []) : withCap ow R n ≠ .panic := by
  have h1 := V.withCap (n := n) (by simpa using hr.2.2)
  have hl := hr.2.1
  have := OffW.lim_le ow
  simp only [List.length_nil] at hl
  unfold withCap
  rw [strictAdd_one (by omega)]
  split
  · simp
  · next h => exact absurd h h1
  · next d hd =>
    simp only
    have h2 := RVec.withCap_live (α := Int) (lim := ow.lim) (n := n + 1) (by omega)
    split
    · simp
    · next h => exact absurd h h2
    · next of hof =>
      obtain ⟨o1, o2, o3⟩ := RVec.withCap_ok hof
      have h3 := RVec.extend_live (lim := ow.lim) (v := of) (s := [.item 0])
        (by simp [o1, Src.items]; omega)
      split
      · simp
      · next hne => exact (hne (RVec.extend ow.lim of [.item 0]).1 (Prod.ext rfl h3.2)).elim

theorem extend_ok_live {c : Offsets R.C} {s : Src (List O)} (hm : Mid L ow c [])
    (hk : L.Canon c.data) (hp : s.panics = false) (hr : Room L ow 0 s.items) :
    (extend ow R c s).2 = .ok := by
  generalize hE : extend ow R c s = E
  obtain ⟨c', o⟩ := E
  obtain ⟨-, -, e3⟩ := extend_spec hm.toInv.1 hE
  rw [hm.toInv.2] at e3
  exact (e3 hk (by simpa using hr)).2 hp

theorem room_hint {n : Nat} {l : List (List O)} (h : Room L ow 0 l) (hn : n ≤ l.length) :
    Room L ow n [] := by
  obtain ⟨h1, h2, h3⟩ := h
  refine ⟨by simp, by simp; omega, ?_⟩
  have : L.Room (l.length + 0) ([] ++ l.flatten) := by simpa using h3
  exact L.room_mono (by simp; omega) (L.room_prefix this)

theorem fromIter_live {s : Src (List O)} (hp : s.panics = false) (hr : Room L ow 0 s.items) :
    fromIter ow R s ≠ .panic := by
  have := extend_ok_live (empty_mid (L := L) (ow := ow)).1 empty_mid.2 hp hr
  unfold fromIter
  split
  · simp
  · next hne => exact (hne (extend ow R (empty ow R) s).1 (Prod.ext rfl this)).elim

theorem fromIterIn_live (V : LiveR L) {w : World} {s : Src (List O)} (ht : TightHints w.oracle)
    (hp : s.panics = false) (hr : Room L ow 0 s.items) : (fromIterIn ow R w s).1 ≠ .panic := by
  have h1 := withCap_live V (room_hint hr (ht w.tick s.items.length).2)
  unfold fromIterIn
  split
  · next c hc =>
    obtain ⟨c1, c2⟩ := withCap_ok (L := L) hc
    have := extend_ok_live c1 c2 hp hr
    split
    · simp
    · next hne => exact (hne (extend ow R c s).1 (Prod.ext rfl this)).elim
  · simp
  · next h => exact absurd h h1

theorem fromIterIn_oracle (w : World) (s : Src (List O)) :
    (fromIterIn ow R w s).2.oracle = w.oracle := by
  unfold fromIterIn
  split
  · split <;> rfl
  · rfl
  · rfl

theorem tryWithCap_oracle (V : LiveR L) (w : World) (n : Nat) :
    (tryWithCap ow R w n).2.oracle = w.oracle := by
  unfold tryWithCap
  split
  · rfl
  · next k _ =>
    have h1 := V.tryWithCap_oracle w n
    split
    · next h => rw [h] at h1; exact h1
    · next h => rw [h] at h1; exact h1
    · next d w1 h =>
      rw [h] at h1
      have h2 := RVec.tryWithCap_oracle (α := Int) ow.lim k w1
      split
      · next h => rw [h] at h2; exact h2.trans h1
      · next h => rw [h] at h2; exact h2.trans h1
      · next of w2 h =>
        obtain ⟨o1, o2, o3⟩ := RVec.tryWithCap_ok h
        rw [h] at h2
        have h3 := RVec.tryExtend_oracle (lim := ow.lim) (w := w2) (s := [.item 0]) o2
        split <;> next h => rw [h] at h3; exact (h3.trans h2).trans h1

theorem tryWithCap_live (V : LiveR L) {w : World} {n : Nat} (hg : Generous w.oracle)
    (ht : TightHints w.oracle) (hr : Room L ow n []) : (tryWithCap ow R w n).1 ≠ .err := by
  have hl := hr.2.1
  have hlim := OffW.lim_le ow
  simp only [List.length_nil] at hl
  unfold byteMax at hlim
  unfold tryWithCap
  rw [checkedAdd, if_pos (by unfold usizeMax; omega)]
  simp only
  have h1 := V.tryWithCap (n := n) hg ht (by simpa using hr.2.2)
  have h1o := V.tryWithCap_oracle w n
  split
  · next h => rw [h] at h1; exact absurd rfl h1
  · simp
  · next d w1 h =>
    rw [h] at h1o
    have h2 := RVec.tryWithCap_live (α := Int) (lim := ow.lim) (n := n + 1) (w := w1)
      (by rw [h1o]; exact hg) (by omega)
    have h2o := RVec.tryWithCap_oracle (α := Int) ow.lim (n + 1) w1
    split
    · next h => rw [h] at h2; exact absurd rfl h2
    · simp
    · next of w2 h =>
      obtain ⟨o1, o2, o3⟩ := RVec.tryWithCap_ok h
      rw [h] at h2o
      have h3 := RVec.tryExtend_live (lim := ow.lim) (w := w2) (s := [.item 0])
        (by rw [h2o, h1o]; exact hg) (by rw [h2o, h1o]; exact ht) o2 (by simp [o1, Src.items]; omega)
      split
      · simp
      · next h => rw [h] at h3; exact absurd rfl h3
      · simp

theorem tryFromIter_oracle (V : LiveR L) (w : World) (s : Src (List O)) :
    (tryFromIter ow R w s).2.oracle = w.oracle := by
  unfold tryFromIter
  have h0 := tryWithCap_oracle (ow := ow) V w.next (w.capHint s.items.length)
  split
  · next v0 w1 hv =>
    obtain ⟨h1, h2⟩ := tryWithCap_ok (L := L) hv
    have h4 := tryExtend_oracle V (w := w1) (s := s) h1.toInv.1
    rw [hv] at h0
    split <;> next he => rw [he] at h4; exact h4.trans h0
  · next hv => rw [hv] at h0; exact h0
  · next hv => rw [hv] at h0; exact h0

theorem tryFromIter_live (V : LiveR L) {w : World} {s : Src (List O)} (hg : Generous w.oracle)
    (ht : TightHints w.oracle) (hr : Room L ow 0 s.items) : (tryFromIter ow R w s).1 ≠ .err := by
  unfold tryFromIter
  have ho := tryWithCap_oracle (ow := ow) V w.next (w.capHint s.items.length)
  have hl := tryWithCap_live V (ow := ow) (w := w.next) (n := w.capHint s.items.length) hg ht
    (room_hint hr (ht w.tick s.items.length).2)
  split
  · next v0 w1 hv =>
    obtain ⟨h1, h2⟩ := tryWithCap_ok (L := L) hv
    rw [hv] at ho
    have h4 := tryExtend_live V (w := w1) (s := s) (by rw [ho]; exact hg) (by rw [ho]; exact ht)
      h1.toInv.1 h2 (by rw [h1.toInv.2]; exact hr)
    split
    · simp
    · next he => rw [he] at h4; exact absurd rfl h4
    · simp
  · next hv => rw [hv] at hl; exact absurd rfl hl
  · simp

theorem tryReserve_oracle (V : LiveR L) {w : World} {c : Offsets R.C} {n : Nat}
    (hc : Inv L.toLawfulColl ow c) : (tryReserve ow R w c n).2.2.oracle = w.oracle := by
  unfold tryReserve
  have h1 := V.tryReserve_oracle (w := w) (n := n) hc.2.inv
  split
  · next h => rw [h] at h1; exact (RVec.tryReserve_oracle _ _ _ _).trans h1
  · next h => rw [h] at h1; exact h1

theorem tryReserve_live (V : LiveR L) {w : World} {c : Offsets R.C} {n : Nat}
    (hg : Generous w.oracle) (ht : TightHints w.oracle) (hc : Inv L.toLawfulColl ow c) (hk : Canon L c)
    (hr : Room L ow n (abs L.toLawfulColl c)) : (tryReserve ow R w c n).2.1 ≠ .err := by
  unfold tryReserve
  have h0 := V.tryReserve_oracle (w := w) (n := n) hc.2.inv
  have h1 := V.tryReserve (w := w) (n := n) hg ht hc.2.inv hk.1
    (by rw [hk.2]; exact L.room_mono (by omega) hr.2.2)
  split
  · next d w1 h =>
    rw [h] at h0
    have h2 := RVec.tryReserve_live (v := c.offsets) (w := w1) (n := n) (lim := ow.lim)
      (by rw [h0]; exact hg) (by rw [hc.2.items, totals_length]; have := hr.2.1; omega)
    simp only [h2]; simp
  · next hne heq => rw [heq] at h1; exact h1

end Offsets

open Offsets in
theorem offsets_live {O : Type} {R : Realloc O} {L : LawfulR R} (ow : OffW) (V : LiveR L) :
    LiveR (offsetsL ow L) where
  withCap h := withCap_live V h
  fromIter _ _ hp h := fromIter_live hp h
  fromIterIn ht _ hp h := fromIterIn_live V ht hp h
  fromIter_oracle _ _ := rfl
  fromIterIn_oracle w s := fromIterIn_oracle w s
  tryWithCap_oracle w n := tryWithCap_oracle V w n
  tryFromIter_oracle w s := tryFromIter_oracle V w s
  tryReserve_oracle h := tryReserve_oracle V h
  tryExt_oracle h := tryExtend_oracle V h
  tryWithCap hg ht h := tryWithCap_live V hg ht h
  tryFromIter hg ht _ h := tryFromIter_live V hg ht h
  tryReserve hg ht hi hk h := tryReserve_live V hg ht hi hk h
  tryExt hg ht hi hk h := tryExtend_live V hg ht hi hk.1 h

theorem null_live {O : Type} (nl : Bool) {R : Realloc O} {L : LawfulR R} (V : LiveR L) :
    LiveR (nullL nl L) :=
  match nl with
  | false => V
  | true => validity_live V

theorem base_live : (t : Ty) → (h : t.WF) → LiveR (baseL t h)
  | .bool, _ => bitmap_live
  | .prim p, _ => vec_live p.lim p.lim_le 0#(8 * p.size)
  | .fsl n nl t, h => flatten_live (null_live nl (base_live t h.2)) n h.1
  | .vsl ow nl t, h => offsets_live ow (null_live nl (base_live t h))

theorem array_live (nl : Bool) (t : Ty) (h : t.WF) : LiveR (arrayL nl t h) :=
  null_live nl (base_live t h)

end Narrow
