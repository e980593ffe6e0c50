import Verif.Model.Base

/-! # Lemmas about sources and `Vec` -/

namespace Narrow

namespace Src

variable {α β : Type}

@[simp] theorem items_ofList (l : List α) : (ofList l).items = l := by
  induction l with
  | nil => rfl
  | cons a l ih => simpa [ofList, items] using ih

@[simp] theorem panics_ofList (l : List α) : (ofList l).panics = false := by
  induction l with
  | nil => rfl
  | cons a l ih => simpa [ofList, panics] using ih

@[simp] theorem items_ofListPanic (l : List α) : (ofListPanic l).items = l := by
  induction l with
  | nil => rfl
  | cons a l ih => simpa [ofListPanic, items] using ih

@[simp] theorem panics_ofListPanic (l : List α) : (ofListPanic l).panics = true := by
  induction l with
  | nil => rfl
  | cons a l ih => simpa [ofListPanic, panics] using ih

@[simp] theorem fused_ofList (l : List α) : Fused (ofList l) := by
  induction l with
  | nil => rfl
  | cons a l ih => simpa [Fused, ofList, fuse] using ih

@[simp] theorem items_fuse (s : Src α) : s.fuse.items = s.items := by
  induction s with
  | nil => rfl
  | cons e s ih => cases e <;> simp [fuse, items, ih]

@[simp] theorem panics_fuse (s : Src α) : s.fuse.panics = s.panics := by
  induction s with
  | nil => rfl
  | cons e s ih => cases e <;> simp [fuse, panics, ih]

@[simp] theorem fuse_fuse (s : Src α) : s.fuse.fuse = s.fuse := by
  induction s with
  | nil => rfl
  | cons e s ih => cases e <;> simp [fuse, ih]

@[simp] theorem fused_fuse (s : Src α) : Fused s.fuse := fuse_fuse s

/-- A fused source is determined by its items and whether it panics. -/
theorem fuse_eq (s : Src α) :
    s.fuse = if s.panics then ofListPanic s.items else ofList s.items := by
  induction s with
  | nil => rfl
  | cons e s ih =>
    cases e with
    | none => rfl
    | panic => rfl
    | item a =>
      simp only [fuse, panics, items, ih]
      by_cases h : panics s <;> simp [h, ofList, ofListPanic]

@[simp] theorem items_map (f : α → β) (s : Src α) : (s.map f).items = s.items.map f := by
  induction s with
  | nil => rfl
  | cons e s ih => cases e <;> simp_all [map, items]

@[simp] theorem panics_map (f : α → β) (s : Src α) : (s.map f).panics = s.panics := by
  induction s with
  | nil => rfl
  | cons e s ih => cases e <;> simp_all [map, panics]

theorem fuse_map (f : α → β) (s : Src α) : (s.map f).fuse = s.fuse.map f := by
  induction s with
  | nil => rfl
  | cons e s ih => cases e <;> simp_all [map, fuse]

theorem Fused.map {f : α → β} {s : Src α} (h : Fused s) : Fused (s.map f) := by
  unfold Fused at *; rw [fuse_map, h]

/-- Items of a chunk and of the rest. -/
theorem takeChunk_items : ∀ (n : Nat) (s : Src α),
    (takeChunk n s).1.items = s.items.take n
  | 0, s => by simp [takeChunk, items]
  | n + 1, [] => by simp [takeChunk, items]
  | n + 1, .none :: s => by simp [takeChunk, items]
  | n + 1, .panic :: s => by simp [takeChunk, items]
  | n + 1, .item a :: s => by simp [takeChunk, items, takeChunk_items n s]

theorem takeChunk_panics : ∀ (n : Nat) (s : Src α),
    (takeChunk n s).1.panics = (s.panics && decide (s.items.length < n))
  | 0, s => by simp [takeChunk, panics]
  | n + 1, [] => by simp [takeChunk, panics]
  | n + 1, .none :: s => by simp [takeChunk, panics]
  | n + 1, .panic :: s => by simp [takeChunk, panics, items]
  | n + 1, .item a :: s => by
    simp [takeChunk, panics, items, takeChunk_panics n s]

theorem takeChunk_rest_items : ∀ (n : Nat) (s : Src α), n ≤ s.items.length →
    (takeChunk n s).2.items = s.items.drop n ∧ (takeChunk n s).2.panics = s.panics
  | 0, s, _ => by simp [takeChunk]
  | n + 1, [], h => by simp [items] at h
  | n + 1, .none :: s, h => by simp [items] at h
  | n + 1, .panic :: s, h => by simp [items] at h
  | n + 1, .item a :: s, h => by
    have := takeChunk_rest_items n s (by simpa [items] using h)
    simpa [takeChunk, items, panics] using this

end Src

namespace RVec

variable {α : Type}

theorem WF.le_lim {lim : Nat} {v : RVec α} (h : v.WF lim) : v.items.length ≤ lim :=
  Nat.le_trans h.le_cap h.cap_lim

theorem WF.empty {lim : Nat} : (RVec.empty : RVec α).WF lim := ⟨by simp [RVec.empty], by simp [RVec.empty]⟩

theorem push_wf {lim : Nat} {v : RVec α} {a : α} (hv : v.WF lim) (h : v.items.length < lim) :
    (v.push a).WF lim :=
  ⟨by simp [push]; omega, by have := hv.cap_lim; simp [push]; omega⟩

theorem extend_items (lim : Nat) : ∀ (s : Src α) (v : RVec α),
    ∃ k, k ≤ s.items.length ∧ (extend lim v s).1.items = v.items ++ s.items.take k ∧
      ((extend lim v s).2 = .ok → k = s.items.length ∧ s.panics = false) ∧
      (extend lim v s).2 ≠ .err ∧
      (v.items.length + s.items.length ≤ lim →
        k = s.items.length ∧ (extend lim v s).2 = if s.panics then .panic else .ok) ∧
      (v.WF lim → (extend lim v s).1.WF lim)
  | [], v => ⟨0, by simp [extend, Src.items, Src.panics]⟩
  | .none :: s, v => ⟨0, by simp [extend, Src.items, Src.panics]⟩
  | .panic :: s, v => ⟨0, by simp [extend, Src.items, Src.panics]⟩
  | .item a :: s, v => by
    simp only [extend, Src.items, Src.panics]
    split
    · next h =>
      obtain ⟨k, h1, h2, h3, h4, h5, h6⟩ := extend_items lim s (v.push a)
      refine ⟨k + 1, by simp; omega, ?_, ?_, h4, ?_, ?_⟩
      · rw [h2]; simp [push]
      · intro h; have := h3 h; simp [this.1, this.2]
      · intro hl
        have := h5 (by simp [push] at *; omega)
        exact ⟨by simp [this.1], this.2⟩
      · intro hv; exact h6 (push_wf hv h)
    · next h =>
      refine ⟨0, by simp, by simp, by simp, by simp, ?_, fun hv => hv⟩
      intro hl; simp at hl; omega

theorem extend_ok {lim : Nat} {s : Src α} {v v' : RVec α} (h : extend lim v s = (v', .ok)) :
    v'.items = v.items ++ s.items ∧ s.panics = false := by
  obtain ⟨k, h1, h2, h3, h4, h5, h6⟩ := extend_items lim s v
  rw [h] at h2 h3
  have := h3 rfl
  simp [this.1] at h2
  exact ⟨h2, this.2⟩

theorem extend_ne_err (lim : Nat) (s : Src α) (v : RVec α) : (extend lim v s).2 ≠ .err := by
  obtain ⟨k, h1, h2, h3, h4, h5, h6⟩ := extend_items lim s v
  exact h4

theorem extend_prefix (lim : Nat) (s : Src α) (v : RVec α) :
    ∃ k, (extend lim v s).1.items = v.items ++ s.items.take k := by
  obtain ⟨k, h1, h2, h3, h4, h5, h6⟩ := extend_items lim s v
  exact ⟨k, h2⟩

theorem extend_wf {lim : Nat} {s : Src α} {v : RVec α} (hv : v.WF lim) :
    (extend lim v s).1.WF lim := by
  obtain ⟨k, h1, h2, h3, h4, h5, h6⟩ := extend_items lim s v
  exact h6 hv

theorem extend_live {lim : Nat} {s : Src α} {v : RVec α}
    (h : v.items.length + s.items.length ≤ lim) :
    (extend lim v s).1.items = v.items ++ s.items ∧
      (extend lim v s).2 = if s.panics then .panic else .ok := by
  obtain ⟨k, h1, h2, h3, h4, h5, h6⟩ := extend_items lim s v
  have := h5 h
  simp [this.1] at h2
  exact ⟨h2, this.2⟩

theorem reserve_items (lim : Nat) (v : RVec α) (n : Nat) :
    (reserve lim v n).1.items = v.items := by
  unfold reserve; split
  · rfl
  · split <;> rfl

theorem reserve_wf {lim : Nat} {v : RVec α} (n : Nat) (hv : v.WF lim) :
    (reserve lim v n).1.WF lim := by
  have h1 := hv.le_lim
  have h2 := hv.le_cap
  unfold reserve; split
  · exact hv
  · split
    · exact ⟨by simp, by assumption⟩
    · exact hv

theorem reserve_ne_err (lim : Nat) (v : RVec α) (n : Nat) : (reserve lim v n).2 ≠ .err := by
  unfold reserve; split
  · simp
  · split <;> simp

theorem reserve_live {lim : Nat} {v : RVec α} {n : Nat} (h : v.items.length + n ≤ lim) :
    (reserve lim v n).2 = .ok := by
  unfold reserve; split
  · rfl
  · simp

theorem tryReserve_items (lim : Nat) (w : World) (v : RVec α) (n : Nat) :
    (tryReserve lim w v n).1.items = v.items := by
  unfold tryReserve; split
  · rfl
  · split
    · split <;> rfl
    · rfl

theorem tryReserve_wf {lim : Nat} {v : RVec α} (w : World) (n : Nat) (hv : v.WF lim) :
    (tryReserve lim w v n).1.WF lim := by
  have h1 := hv.le_lim
  have h2 := hv.le_cap
  unfold tryReserve; split
  · exact hv
  · split
    · split
      · exact hv
      · exact ⟨by simp; omega, by simp; omega⟩
    · exact hv

theorem tryReserve_ne_panic (lim : Nat) (w : World) (v : RVec α) (n : Nat) :
    (tryReserve lim w v n).2.1 ≠ .panic := by
  unfold tryReserve; split
  · simp
  · split
    · split <;> simp
    · simp

/-- After a successful reservation the capacity suffices. -/
theorem tryReserve_cap {lim : Nat} {w : World} {v v' : RVec α} {n : Nat} {w' : World}
    (h : tryReserve lim w v n = (v', .ok, w')) (hv : v.WF lim) :
    v'.items.length + n ≤ v'.cap ∧ v.cap ≤ v'.cap := by
  have h2 := hv.le_cap
  have h3 := hv.cap_lim
  unfold tryReserve at h
  split at h
  · simp only [Prod.mk.injEq] at h; obtain ⟨rfl, -⟩ := h; omega
  · split at h
    · split at h
      · simp at h
      · simp only [Prod.mk.injEq] at h; obtain ⟨rfl, -⟩ := h; simp; omega
    · simp at h

/-- No request is made when the spare capacity suffices. -/
theorem tryReserve_noalloc {lim : Nat} {w : World} {v : RVec α} {n : Nat}
    (h : n ≤ v.cap - v.items.length) : tryReserve lim w v n = (v, .ok, w) := by
  simp [tryReserve, h]

/-- Everything granted, within the limit: the reservation succeeds. -/
theorem tryReserve_live {lim : Nat} {w : World} {v : RVec α} {n : Nat}
    (hg : ∀ t c, (w.oracle.grant t c).isSome) (h : v.items.length + n ≤ lim) :
    (tryReserve lim w v n).2.1 = .ok := by
  unfold tryReserve; split
  · rfl
  · have := hg w.tick (v.items.length + n)
    split
    · next h => simp [h] at this
    · rfl

theorem tryReserve_oracle (lim : Nat) (w : World) (v : RVec α) (n : Nat) :
    (tryReserve lim w v n).2.2.oracle = w.oracle := by
  unfold tryReserve; split
  · rfl
  · split
    · split <;> rfl
    · rfl

theorem truncate_items (v : RVec α) (n : Nat) : (v.truncate n).items = v.items.take n := rfl

theorem truncate_wf {lim : Nat} {v : RVec α} (n : Nat) (hv : v.WF lim) : (v.truncate n).WF lim := by
  have h1 := hv.le_lim
  have h2 := hv.le_cap
  exact ⟨by simp [truncate]; omega, hv.cap_lim⟩

theorem withCap_ok {lim n : Nat} {v : RVec α} (h : withCap lim n = .ok v) :
    v.items = [] ∧ v.WF lim ∧ n ≤ v.cap := by
  unfold withCap at h; split at h
  · simp at h; subst h; exact ⟨rfl, ⟨by simp, by assumption⟩, Nat.le_refl _⟩
  · simp at h

theorem withCap_ne_err (lim n : Nat) : (withCap lim n : Try (RVec α)) ≠ .err := by
  unfold withCap; split <;> simp

theorem tryWithCap_ok {lim n : Nat} {w w' : World} {v : RVec α}
    (h : tryWithCap lim w n = (.ok v, w')) : v.items = [] ∧ v.WF lim ∧ n ≤ v.cap := by
  unfold tryWithCap at h
  split at h
  · next v' w1 heq =>
    simp only [Prod.mk.injEq, Try.ok.injEq] at h
    obtain ⟨rfl, rfl⟩ := h
    have hi := tryReserve_items lim w (empty : RVec α) n
    have hw := tryReserve_wf (lim := lim) w n (WF.empty (α := α))
    have hc := tryReserve_cap heq WF.empty
    rw [heq] at hi hw
    exact ⟨hi, hw, by omega⟩
  · simp at h

theorem tryWithCap_ne_panic (lim n : Nat) (w : World) :
    (tryWithCap lim w n : Try (RVec α) × World).1 ≠ .panic := by
  unfold tryWithCap; split <;> simp

/-- The fallible construction loop. -/
theorem tryFromIterLoop_spec (lim : Nat) : ∀ (s : Src α) (w : World) (v : RVec α), v.WF lim →
    (∀ v' w', tryFromIterLoop lim w v s = (.ok v', w') →
      v'.items = v.items ++ s.items ∧ s.panics = false ∧ v'.WF lim) ∧
    (s.panics = false → (tryFromIterLoop lim w v s).1 ≠ .panic)
  | [], w, v, hv => by simpa [tryFromIterLoop, Src.items, Src.panics] using hv
  | .none :: s, w, v, hv => by
    simpa [tryFromIterLoop, Src.items, Src.panics] using hv
  | .panic :: s, w, v, hv => by simp [tryFromIterLoop, Src.panics]
  | .item a :: s, w, v, hv => by
    simp only [tryFromIterLoop, Src.items, Src.panics]
    split
    · next v1 w1 heq =>
      have hi := tryReserve_items lim w v 1
      have hw := tryReserve_wf (lim := lim) w 1 hv
      have hc := tryReserve_cap heq hv
      rw [heq] at hi hw
      simp only at hi hw
      rw [pushWithin, if_pos (by omega)]
      have hw2 : (⟨v1.items ++ [a], v1.cap⟩ : RVec α).WF lim :=
        ⟨by simp; omega, hw.cap_lim⟩
      obtain ⟨h1, h2⟩ := tryFromIterLoop_spec lim s w1 _ hw2
      refine ⟨?_, h2⟩
      intro v' w' h
      obtain ⟨h3, h4, h5⟩ := h1 v' w' h
      exact ⟨by simp [h3, hi], h4, h5⟩
    · simp

theorem tryFromIter_spec (lim : Nat) (s : Src α) (w : World) :
    (∀ v' w', tryFromIter lim w s = (.ok v', w') →
      v'.items = s.items ∧ s.panics = false ∧ v'.WF lim) ∧
    (s.panics = false → (tryFromIter lim w s).1 ≠ .panic) := by
  unfold tryFromIter
  split
  · next v w1 heq =>
    obtain ⟨h1, h2, h3⟩ := tryWithCap_ok heq
    have := tryFromIterLoop_spec lim s w1 v h2
    simpa [h1] using this
  · simp

theorem fromIter_ok {lim : Nat} {s : Src α} {v : RVec α} (h : fromIter lim s = .ok v) :
    v.items = s.items ∧ s.panics = false ∧ v.WF lim := by
  unfold fromIter at h
  split at h
  · next v' heq =>
    simp only [Try.ok.injEq] at h
    subst h
    have h1 := extend_ok heq
    have h2 := extend_wf (s := s) (WF.empty (lim := lim) (α := α))
    rw [heq] at h2
    exact ⟨by simpa [RVec.empty] using h1.1, h1.2, h2⟩
  · simp at h

theorem fromIter_ne_err (lim : Nat) (s : Src α) : fromIter lim s ≠ .err := by
  unfold fromIter; split <;> simp

theorem fromIter_live {lim : Nat} {s : Src α} (h : s.items.length ≤ lim)
    (hp : s.panics = false) : ∃ v, fromIter lim s = .ok v ∧ v.items = s.items ∧ v.WF lim := by
  have h1 := extend_live (v := (empty : RVec α)) (s := s) (lim := lim) (by simpa [RVec.empty] using h)
  cases hf : fromIter lim s with
  | ok v => have := fromIter_ok hf; exact ⟨v, rfl, this.1, this.2.2⟩
  | err => exact absurd hf (fromIter_ne_err lim s)
  | panic =>
    unfold fromIter at hf
    split at hf
    · simp at hf
    · next hx => 
      exfalso
      apply hx (extend lim (empty : RVec α) s).1
      exact Prod.ext rfl (h1.2.trans (by simp [hp]))

/-- The fallible extension loop: contents on success, rollback on failure,
committed prefix on a source panic. -/
theorem tryExtendLoop_spec (lim len0 : Nat) : ∀ (s : Src α) (w : World) (v : RVec α),
    v.WF lim → len0 ≤ v.items.length →
    ∀ v' o w', tryExtendLoop lim len0 w v s = (v', o, w') →
      v'.WF lim ∧ v.cap ≤ v'.cap ∧
      (o = .ok → v'.items = v.items ++ s.items ∧ s.panics = false) ∧
      (o = .err → v'.items = v.items.take len0) ∧
      (o = .panic → v'.items = v.items ++ s.items ∧ s.panics = true) ∧
      (v.items.length + s.items.length ≤ v.cap → o ≠ .err ∧ w' = w ∧ v'.cap = v.cap) ∧
      ((∀ t c, (w.oracle.grant t c).isSome) → v.items.length + s.items.length ≤ lim → o ≠ .err) ∧
      w'.oracle = w.oracle
  | [], w, v, hv, _ => by
    intro v' o w' h
    simp only [tryExtendLoop, Prod.mk.injEq] at h
    obtain ⟨rfl, rfl, rfl⟩ := h
    simp [Src.items, Src.panics, hv]
  | .none :: s, w, v, hv, _ => by
    intro v' o w' h
    simp only [tryExtendLoop, Prod.mk.injEq] at h
    obtain ⟨rfl, rfl, rfl⟩ := h
    simp [Src.items, Src.panics, hv]
  | .panic :: s, w, v, hv, _ => by
    intro v' o w' h
    simp only [tryExtendLoop, Prod.mk.injEq] at h
    obtain ⟨rfl, rfl, rfl⟩ := h
    simp [Src.items, Src.panics, hv]
  | .item a :: s, w, v, hv, hl => by
    intro v' o w' h
    simp only [tryExtendLoop] at h
    have hle := hv.le_cap
    have hcl := hv.cap_lim
    simp only [Src.items, Src.panics]
    split at h
    · next hfull =>
      split at h
      · next v1 w1 heq =>
        have hi := tryReserve_items lim w v 1
        have hw := tryReserve_wf (lim := lim) w 1 hv
        have hc := tryReserve_cap heq hv
        have ho := tryReserve_oracle lim w v 1
        rw [heq] at hi hw ho
        simp only at hi hw ho
        rw [pushWithin, if_pos (by omega)] at h
        have hw2 : (⟨v1.items ++ [a], v1.cap⟩ : RVec α).WF lim :=
          ⟨by simp; omega, hw.cap_lim⟩
        have := tryExtendLoop_spec lim len0 s w1 _ hw2 (by simp [hi]; omega) v' o w' h
        obtain ⟨i1, i2, i3, i4, i5, i6, i7, i8⟩ := this
        refine ⟨i1, by simp only at i2; omega, ?_, ?_, ?_, ?_, ?_, by rw [i8, ho]⟩
        · intro hok; have := i3 hok; simp [this.1, this.2, hi]
        · intro he; rw [i4 he]; simp only [hi]
          rw [List.take_append_of_le_length hl]
        · intro hok; have := i5 hok; simp [this.1, this.2, hi]
        · intro hcap; simp at hcap; omega
        · intro hg hlim
          apply i7
          · rw [ho]; exact hg
          · simp [hi] at hlim ⊢; omega
      · next v1 o1 w1 hne heq =>
        simp only [Prod.mk.injEq] at h
        obtain ⟨rfl, rfl, rfl⟩ := h
        have hi := tryReserve_items lim w v 1
        have hw := tryReserve_wf (lim := lim) w 1 hv
        have ho := tryReserve_oracle lim w v 1
        rw [heq] at hi hw ho
        simp only at hi hw ho
        have hcap : v.cap ≤ v1.cap := by
          unfold tryReserve at heq
          split at heq
          · simp only [Prod.mk.injEq] at heq; simp [heq.1]
          · split at heq
            · split at heq
              · simp only [Prod.mk.injEq] at heq; simp [heq.1]
              · simp only [Prod.mk.injEq] at heq; rw [← heq.1]; simp; omega
            · simp only [Prod.mk.injEq] at heq; simp [heq.1]
        refine ⟨truncate_wf _ hw, hcap, by simp, ?_, by simp, ?_, ?_, ho⟩
        · intro _; simp [truncate_items, hi]
        · intro hcap; simp at hcap; omega
        · intro hg hlim
          exfalso
          have := tryReserve_live (lim := lim) (v := v) (n := 1) hg (by simp at hlim; omega)
          rw [heq] at this
          simp only at this
          subst this
          exact hne rfl
    · next hfull =>
      rw [pushWithin, if_pos (by omega)] at h
      have hw2 : (⟨v.items ++ [a], v.cap⟩ : RVec α).WF lim :=
        ⟨by simp; omega, hv.cap_lim⟩
      have := tryExtendLoop_spec lim len0 s w _ hw2 (by simp; omega) v' o w' h
      obtain ⟨i1, i2, i3, i4, i5, i6, i7, i8⟩ := this
      refine ⟨i1, i2, ?_, ?_, ?_, ?_, ?_, i8⟩
      · intro hok; have := i3 hok; simp [this.1, this.2]
      · intro he; rw [i4 he]
        rw [List.take_append_of_le_length hl]
      · intro hok; have := i5 hok; simp [this.1, this.2]
      · intro hcap; apply i6; simp at hcap ⊢; omega
      · intro hg hlim
        apply i7 hg
        simp at hlim ⊢; omega

/-- `try_extend` on a `Vec`. -/
theorem tryExtend_spec {lim : Nat} {s : Src α} {w w' : World} {v v' : RVec α} {o : Out}
    (hv : v.WF lim) (h : tryExtend lim w v s = (v', o, w')) :
    v'.WF lim ∧
      (o = .ok → v'.items = v.items ++ s.items ∧ s.panics = false) ∧
      (o = .err → v'.items = v.items) ∧
      (o = .panic → v'.items = v.items ++ s.items ∧ s.panics = true) ∧
      w'.oracle = w.oracle := by
  unfold tryExtend at h
  have hi := tryReserve_items lim w.next v (w.lowerHint s.items.length)
  have hw := tryReserve_wf (lim := lim) w.next (w.lowerHint s.items.length) hv
  have ho := tryReserve_oracle lim w.next v (w.lowerHint s.items.length)
  split at h
  · next v1 w1 heq =>
    rw [heq] at hi hw ho
    simp only at hi hw ho
    obtain ⟨i1, i2, i3, i4, i5, i6, i7, i8⟩ :=
      tryExtendLoop_spec lim _ s w1 v1 hw (by rw [hi]; exact Nat.le_refl _) v' o w' h
    refine ⟨i1, ?_, ?_, ?_, by rw [i8, ho]; rfl⟩
    · rw [hi] at i3; exact i3
    · intro he; rw [i4 he, hi]; simp
    · rw [hi] at i5; exact i5
  · next v1 o1 w1 hne heq =>
    rw [heq] at hi hw ho
    simp only at hi hw ho
    simp only [Prod.mk.injEq] at h
    obtain ⟨rfl, rfl, rfl⟩ := h
    exact ⟨hw, by simp, fun _ => hi, by simp, by rw [ho]; rfl⟩

end RVec

end Narrow
