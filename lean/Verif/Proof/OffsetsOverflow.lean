import Verif.Proof.Offsets

/-! # Offset overflow -/

namespace Narrow.Offsets

variable {O : Type} {R : Realloc O} {L : LawfulR R} {ow : OffW}

/-- A row that makes the running total exceed the offset type's maximum: the rows
before it are kept, then `extend` panics. -/
theorem extendLoop_overflow : ∀ (s : Src (List O)) (c : Offsets R.C) (rows : List (List O)) (k : Nat)
    (_ : k < s.items.length), Mid L ow c rows → L.Canon c.data →
    Room L ow 0 (rows ++ s.items.take k) →
    ow.max < (rows ++ s.items.take (k + 1)).flatten.length →
    ∃ c', extendLoop ow R c.data c.offsets (rows.flatten.length : Int) s = (c', .panic) ∧
      Mid L ow c' (rows ++ s.items.take k) ∧ L.Canon c'.data
  | [], c, rows, k, hk, _, _, _, _ => by simp [Src.items] at hk
  | .none :: s, c, rows, k, hk, _, _, _, _ => by simp [Src.items] at hk
  | .panic :: s, c, rows, k, hk, _, _, _, _ => by simp [Src.items] at hk
  | .item r :: s, c, rows, 0, hk, hm, hc, hr, ho => by
    refine ⟨c, ?_, by simpa [Src.items] using hm, hc⟩
    simp only [extendLoop]
    rw [if_neg]
    simp only [Src.items, List.take_succ_cons, List.take_zero, List.flatten_append, List.flatten_cons,
      List.flatten_nil, List.append_nil, List.length_append] at ho
    omega
  | .item r :: s, c, rows, k + 1, hk, hm, hc, hr, ho => by
    have hr' : Room L ow 0 (rows ++ r :: (Src.items s).take k) := by simpa [Src.items] using hr
    obtain ⟨r1, r2, r3, r4⟩ := room_row hr'
    simp only [extendLoop]
    rw [if_pos ⟨by omega, by omega⟩]
    have hlive := L.reserve_live (n := r.length) hm.inv hc (by rw [hm.data]; exact r2)
    generalize hV : R.reserve c.data r.length = V at *
    obtain ⟨d1, o1⟩ := V
    obtain ⟨v1, v2, v3, v4⟩ := L.reserve_ok hm.inv hV
    simp only at hlive
    subst hlive
    have hlive2 := L.ext_live (s := Src.ofList r) v1 (v4 hc) (by simp)
      (by rw [v2, hm.data, Src.items_ofList]; exact r1)
    have hcan := fun d2 => L.ext_canon (c' := d2) (s := Src.ofList r) v1 (v4 hc)
      (by rw [v2, hm.data, Src.items_ofList]; exact r1)
    simp only
    generalize hE : R.extend d1 (Src.ofList r) = E at *
    obtain ⟨d2, o2⟩ := E
    simp only at hlive2
    subst hlive2
    obtain ⟨e1, e2, -⟩ := L.ext_ok v1 hE
    rw [v2, hm.data, Src.items_ofList] at e2
    simp only
    obtain ⟨j, k1, k2, k3, k4, k5, k6⟩ := RVec.extend_items ow.lim
      [.item ((rows.flatten.length : Int) + r.length)] c.offsets
    have k7 := (k5 (by rw [hm.items]; simp [Src.items]; omega)).2
    replace k6 := k6 hm.wf
    generalize hF : RVec.extend ow.lim c.offsets [.item ((rows.flatten.length : Int) + r.length)] = F at *
    obtain ⟨of, o3⟩ := F
    have h3 : o3 = .ok := k7
    subst h3
    obtain ⟨rfl, -⟩ := k3 rfl
    have hm' : Mid L ow ⟨d2, of⟩ (rows ++ [r]) := by
      refine ⟨k6, e1, ?_, by simp [e2]⟩
      simp only at k2
      simp only [k2, hm.items, totals_snoc]
      simp [Src.items]
    have hpos : ((rows.flatten.length : Int) + r.length) = (((rows ++ [r]).flatten.length : Nat) : Int) := by
      simp
    have := extendLoop_overflow s ⟨d2, of⟩ (rows ++ [r]) k (by simpa [Src.items] using hk) hm'
      (hcan d2 rfl) (by simpa using hr') (by simpa [Src.items] using ho)
    simpa [hpos, Src.items] using this

theorem extend_overflow {c : Offsets R.C} {s : Src (List O)} {k : Nat} (hk : k < s.items.length)
    (hc : Inv L.toLawfulColl ow c) (hcan : L.Canon c.data)
    (hr : Room L ow 0 (abs L.toLawfulColl c ++ s.items.take k))
    (ho : ow.max < (abs L.toLawfulColl c ++ s.items.take (k + 1)).flatten.length) :
    ∃ c', extend ow R c s = (c', .panic) ∧ Mid L ow c' (abs L.toLawfulColl c ++ s.items.take k) ∧
      L.Canon c'.data := by
  unfold extend
  rw [last_ok hc.2.items]
  simp only [asUsize_ofNat]
  obtain ⟨d, h1, h2, h3, h4⟩ := L.trunc_ok (abs L.toLawfulColl c).flatten.length hc.2.inv
  simp only [h1]
  exact extendLoop_overflow s ⟨d, c.offsets⟩ _ k hk (Mid.of_inv hc h2 h3) (h4 hcan) hr ho

/-- What is appended never exceeds the offset type's maximum. -/
theorem extendLoop_bound : ∀ (s : Src (List O)) (c : Offsets R.C) (rows : List (List O)),
    Mid L ow c rows → ∀ c', extendLoop ow R c.data c.offsets (rows.flatten.length : Int) s = (c', .ok) →
      s.items = [] ∨ (rows ++ s.items).flatten.length ≤ ow.max
  | [], c, rows, hm, c', h => by simp [Src.items]
  | .none :: s, c, rows, hm, c', h => by simp [Src.items]
  | .panic :: s, c, rows, hm, c', h => by simp [extendLoop] at h
  | .item r :: s, c, rows, hm, c', h => by
    simp only [extendLoop] at h
    split at h
    · next hfit =>
      generalize hV : R.reserve c.data r.length = V at *
      obtain ⟨d1, o1⟩ := V
      obtain ⟨v1, v2, v3, v4⟩ := L.reserve_ok hm.inv hV
      cases o1 with
      | err => exact absurd rfl v3
      | panic => simp at h
      | ok =>
        simp only at h
        generalize hE : R.extend d1 (Src.ofList r) = E at *
        obtain ⟨d2, o2⟩ := E
        cases o2 with
        | err => simp at h
        | panic => simp at h
        | ok =>
          obtain ⟨e1, e2, -⟩ := L.ext_ok v1 hE
          rw [v2, hm.data, Src.items_ofList] at e2
          simp only at h
          obtain ⟨j, k1, k2, k3, k4, k5, k6⟩ := RVec.extend_items ow.lim
            [.item ((rows.flatten.length : Int) + r.length)] c.offsets
          replace k6 := k6 hm.wf
          generalize hF : RVec.extend ow.lim c.offsets [.item ((rows.flatten.length : Int) + r.length)] = F at *
          obtain ⟨of, o3⟩ := F
          cases o3 with
          | err => simp at h
          | panic => simp at h
          | ok =>
            obtain ⟨rfl, -⟩ := k3 rfl
            have hm' : Mid L ow ⟨d2, of⟩ (rows ++ [r]) := by
              refine ⟨k6, e1, ?_, by simp [e2]⟩
              simp only at k2
              simp only [k2, hm.items, totals_snoc]
              simp [Src.items]
            have hpos : ((rows.flatten.length : Int) + r.length) = (((rows ++ [r]).flatten.length : Nat) : Int) := by
              simp
            simp only [hpos] at h
            right
            rcases extendLoop_bound s ⟨d2, of⟩ (rows ++ [r]) hm' c' h with h | h
            · simp only [Src.items, h, List.flatten_append, List.flatten_cons, List.flatten_nil,
                List.append_nil, List.length_append]
              omega
            · simpa [Src.items] using h
    · simp at h

theorem tryExtendLoop_bound (n m : Nat) : ∀ (s : Src (List O)) (w w' : World) (c c' : Offsets R.C)
    (p : Nat),
    tryExtendLoop ow R n m w c.data c.offsets (p : Int) s = (c', .ok, w') →
      s.items = [] ∨ p + s.items.flatten.length ≤ ow.max
  | [], w, w', c, c', p, h => by simp [Src.items]
  | .none :: s, w, w', c, c', p, h => by simp [Src.items]
  | .panic :: s, w, w', c, c', p, h => by simp [tryExtendLoop] at h
  | .item r :: s, w, w', c, c', p, h => by
    have hroll : ∀ (d : R.C) (of : RVec Int) (w w' : World) (c' : Offsets R.C),
        rollback R d of n m w ≠ (c', .ok, w') := by
      intro d of w w' c' h
      unfold rollback at h
      split at h
      · simp at h
      · split at h
        · simp at h
        · next hno _ =>
          simp only [Prod.mk.injEq] at h
          obtain ⟨-, rfl, -⟩ := h
          exact hno rfl
    simp only [tryExtendLoop, asUsize_ofNat] at h
    split at h
    · next hfit =>
      split at h
      · next d1 w1 _ =>
        split at h
        · next of w2 _ =>
          right
          rcases tryExtendLoop_bound n m s w2 w' ⟨d1, of⟩ c' (p + r.length) h with h | h
          · simp only [Src.items, h, List.flatten_cons, List.length_append, List.flatten_nil,
              List.length_nil]
            omega
          · simp only [Src.items, List.flatten_cons, List.length_append]; omega
        · exact absurd h (hroll _ _ _ _ _)
        · simp at h
      · exact absurd h (hroll _ _ _ _ _)
      · simp at h
    · exact absurd h (hroll _ _ _ _ _)

theorem extend_bound {c c' : Offsets R.C} {s : Src (List O)} (hc : Inv L.toLawfulColl ow c)
    (h : extend ow R c s = (c', .ok)) :
    s.items = [] ∨ (abs L.toLawfulColl c ++ s.items).flatten.length ≤ ow.max := by
  unfold extend at h
  rw [last_ok hc.2.items] at h
  simp only [asUsize_ofNat] at h
  obtain ⟨d, h1, h2, h3, h4⟩ := L.trunc_ok (abs L.toLawfulColl c).flatten.length hc.2.inv
  simp only [h1] at h
  exact extendLoop_bound s ⟨d, c.offsets⟩ _ (Mid.of_inv hc h2 h3) c' h

theorem tryExtend_bound {w w' : World} {c c' : Offsets R.C} {s : Src (List O)}
    (hc : Inv L.toLawfulColl ow c) (h : tryExtend ow R w c s = (c', .ok, w')) :
    s.items = [] ∨ (abs L.toLawfulColl c ++ s.items).flatten.length ≤ ow.max := by
  unfold tryExtend at h
  rw [hc.len_ok, last_ok hc.2.items] at h
  simp only [asUsize_ofNat] at h
  obtain ⟨d, h1, h2, h3, h4⟩ := L.trunc_ok (abs L.toLawfulColl c).flatten.length hc.2.inv
  simp only [h1] at h
  have := tryExtendLoop_bound _ _ s w w' ⟨d, c.offsets⟩ c' (abs L.toLawfulColl c).flatten.length h
  rcases this with h | h
  · exact .inl h
  · right
    rw [List.flatten_append, List.length_append]
    exact h

end Narrow.Offsets
