import Verif.Proof.Lawful

/-! # `Vec` is lawful -/

namespace Narrow

namespace RVec

variable {α : Type}

theorem extend_fuse (lim : Nat) : ∀ (s : Src α) (v : RVec α),
    extend lim v s = extend lim v s.fuse
  | [], v => rfl
  | .none :: s, v => rfl
  | .panic :: s, v => rfl
  | .item a :: s, v => by
    simp only [extend, Src.fuse]
    split
    · exact extend_fuse lim s _
    · rfl

theorem tryExtendLoop_fuse (lim len0 : Nat) : ∀ (s : Src α) (w : World) (v : RVec α),
    tryExtendLoop lim len0 w v s = tryExtendLoop lim len0 w v s.fuse
  | [], w, v => rfl
  | .none :: s, w, v => rfl
  | .panic :: s, w, v => rfl
  | .item a :: s, w, v => by
    simp only [tryExtendLoop, Src.fuse, tryExtendLoop_fuse lim len0 s]

theorem tryExtend_fuse (lim : Nat) (w : World) (v : RVec α) (s : Src α) :
    tryExtend lim w v s = tryExtend lim w v s.fuse := by
  simp only [tryExtend, Src.items_fuse]
  rw [show tryExtendLoop lim v.items.length = fun w v s => tryExtendLoop lim _ w v s from rfl]
  simp only [tryExtendLoop_fuse lim v.items.length s]

end RVec

/-- `Vec` satisfies the laws. -/
def vecL {α : Type} (lim : Nat) (hlim : lim ≤ usizeMax) (d : α) : LawfulR (vecR lim d) where
  Inv v := RVec.WF lim v
  abs v := v.items
  VRep v o := v = o
  IRep it l := it = l
  JRep it l := it = l
  len_ok _ := rfl
  len_le h := Nat.le_trans h.le_lim hlim
  view_some {c i} _ hi := ⟨c.items[i], by simp [vecR], rfl⟩
  owned_ok h := by subst h; rfl
  iter_ok {c} _ := ⟨c.items, rfl, rfl⟩
  inext_nil h := by subst h; exact ⟨[], rfl, rfl⟩
  inext_cons {it o l} h := by subst h; exact ⟨o, l, rfl, rfl, rfl⟩
  ilen_ok h := by subst h; rfl
  into_ok {c} _ := ⟨c.items, rfl, rfl⟩
  jnext_nil h := by subst h; exact ⟨[], rfl, rfl⟩
  jnext_cons {it o l} h := by subst h; exact ⟨l, rfl, rfl⟩
  jlen_ok h := by subst h; rfl
  Canon _ := True
  Room e l := l.length + e ≤ lim
  room_prefix h := by simp at h ⊢; omega
  room_mono h1 h2 := by omega
  room_len h := by omega
  empty_ok := ⟨RVec.WF.empty, rfl, trivial⟩
  pulled_fused _ := rfl
  pulled_map f s := by simp
  fromIter_any h := by
    simp only [vecR, Prod.mk.injEq] at h
    have := RVec.fromIter_ok h.1
    exact ⟨this.2.2, by rw [this.1]⟩
  fromIterIn_any h := by
    simp only [vecR, Prod.mk.injEq] at h
    have := RVec.fromIter_ok h.1
    exact ⟨this.2.2, by rw [this.1]⟩
  tryFromIter_any {w w' s c} h := ((RVec.tryFromIter_spec lim s w).1 c w' h).2.2
  withCap_ok h := by have := RVec.withCap_ok h; exact ⟨this.2.1, this.1, trivial⟩
  withCap_ne n := RVec.withCap_ne_err lim n
  fromIter_ok _ h := by
    simp only [vecR, Prod.mk.injEq] at h
    have := RVec.fromIter_ok h.1
    exact ⟨this.2.2, this.1, this.2.1, fun _ => trivial⟩
  fromIter_ne w s := RVec.fromIter_ne_err lim s
  fromIterIn_ok _ h := by
    simp only [vecR, Prod.mk.injEq] at h
    have := RVec.fromIter_ok h.1
    exact ⟨this.2.2, this.1, this.2.1, fun _ => trivial⟩
  fromIterIn_ne w s := RVec.fromIter_ne_err lim s
  tryWithCap_ok h := by have := RVec.tryWithCap_ok h; exact ⟨this.2.1, this.1, trivial⟩
  tryWithCap_np w n := RVec.tryWithCap_ne_panic lim n w
  tryFromIter_ok {w w' s c} _ h := by
    have := (RVec.tryFromIter_spec lim s w).1 c w' h
    exact ⟨this.2.2, this.1, this.2.1, fun _ => trivial⟩
  tryFromIter_np {w s} _ hp := (RVec.tryFromIter_spec lim s w).2 hp
  ext_ok {c c' s} hc h := by
    have h1 := RVec.extend_ok h
    have h2 := RVec.extend_wf (s := s) hc
    rw [show RVec.extend lim c s = (c', .ok) from h] at h2
    exact ⟨h2, h1⟩
  ext_ne {c} s _ := RVec.extend_ne_err lim s c
  ext_canon _ _ _ _ := trivial
  ext_live {c s} _ _ hp hr := by
    have h := (RVec.extend_live (lim := lim) (s := s) (v := c)
      (by simpa using hr)).2
    rw [hp] at h
    exact h
  ext_fuse c s := RVec.extend_fuse lim s c
  reserve_ok {c c' n o} hc h := by
    have h1 := RVec.reserve_items lim c n
    have h2 := RVec.reserve_wf (lim := lim) n hc
    have h3 := RVec.reserve_ne_err lim c n
    rw [show RVec.reserve lim c n = (c', o) from h] at h1 h2 h3
    exact ⟨h2, h1, h3, fun _ => trivial⟩
  reserve_live _ _ hr := RVec.reserve_live hr
  tryReserve_ok {w w' c c' n o} hc h := by
    have h1 := RVec.tryReserve_items lim w c n
    have h2 := RVec.tryReserve_wf (lim := lim) w n hc
    have h3 := RVec.tryReserve_ne_panic lim w c n
    rw [show RVec.tryReserve lim w c n = (c', o, w') from h] at h1 h2 h3
    exact ⟨h2, h1, h3, fun _ => trivial⟩
  tryExt_ok hc h := by
    have := RVec.tryExtend_spec hc h
    exact ⟨this.1, this.2.1 rfl⟩
  tryExt_canon _ _ _ _ _ := trivial
  tryExt_err hc h := by
    have := RVec.tryExtend_spec hc h
    exact ⟨this.1, this.2.2.1 rfl⟩
  tryExt_np {w c s} hc hp hpan := by
    have := (RVec.tryExtend_spec (w := w) (s := s) hc rfl).2.2.2.1 hpan
    simp [hp] at this
  tryExt_fuse w c s := RVec.tryExtend_fuse lim w c s
  trunc_ok {c} n hc := ⟨_, rfl, RVec.truncate_wf n hc, rfl, fun _ => trivial⟩

end Narrow
