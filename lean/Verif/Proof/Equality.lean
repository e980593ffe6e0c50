import Verif.Model.Equality
import Verif.Spec.Equal
import Verif.Proof.Layout

/-! # Comparing views compares the items -/

namespace Narrow

open Spec

theorem zipAll_ok {O O' : Type} {K : Coll O} {K' : Coll O'} (L : LawfulColl K) (L' : LawfulColl K')
    {eq : K.V → K'.V → Res Bool} {e : O → O' → Bool}
    (he : ∀ {x o y o'}, L.VRep x o → L'.VRep y o' → eq x y = .ok (e o o')) :
    ∀ (fuel : Nat) {a : K.I} {b : K'.I} {l : List O} {m : List O'}, L.IRep a l → L'.IRep b m →
      l.length = m.length → l.length < fuel →
      zipAll K.inext K'.inext eq fuel a b = .ok ((l.zip m).all fun p => e p.1 p.2)
  | 0, _, _, _, _, _, _, _, h => by omega
  | fuel + 1, a, b, [], m, ha, hb, _, _ => by
    obtain ⟨a', h1, -⟩ := L.inext_nil ha
    simp [zipAll, h1]
  | fuel + 1, a, b, x :: l, [], ha, hb, h, _ => by simp at h
  | fuel + 1, a, b, x :: l, y :: m, ha, hb, h, hf => by
    obtain ⟨v, a', h1, h2, h3⟩ := L.inext_cons ha
    obtain ⟨v', b', h4, h5, h6⟩ := L'.inext_cons hb
    simp only [zipAll, h1, h4, he h2 h5]
    cases hx : e x y with
    | false => simp [hx]
    | true =>
      simp only [List.zip_cons_cons, List.all_cons, hx, Bool.true_and]
      exact zipAll_ok L L' he fuel h3 h6 (by simpa using h) (by simpa using hf)

theorem OffsetView.eq_ok {O O' : Type} {K : Coll O} {K' : Coll O'} {L : LawfulColl K}
    {L' : LawfulColl K'} {eq : K.V → K'.V → Res Bool} {e : O → O' → Bool}
    (he : ∀ {x o y o'}, L.VRep x o → L'.VRep y o' → eq x y = .ok (e o o'))
    {v : OffsetView K.C} {row : List O} {c : K'.C} (hv : OffsetView.Rep L v row) (hc : L'.Inv c) :
    OffsetView.eq K K' eq v c = .ok (sameList e row (L'.abs c)) := by
  have hrow : (offsetViewCL L).abs v = row := by
    obtain ⟨h1, h2, h3, h4⟩ := hv
    show ((L.abs v.coll.data).drop v.start).take (v.stop - v.start) = row
    rw [h2, Nat.add_sub_cancel_left]; exact (List.prefix_iff_eq_take.mp h3).symm
  obtain ⟨a, ha, ha'⟩ := (offsetViewCL L).iter_ok (c := v) ⟨row, hv⟩
  obtain ⟨b, hb, hb'⟩ := L'.iter_ok hc
  rw [hrow] at ha'
  unfold OffsetView.eq
  rw [OffsetView.len_ok hv, L'.len_ok hc, ha, hb]
  show (if row.length = (L'.abs c).length then
    zipAll (offsetViewC K).inext K'.inext eq (row.length + 1) a b else .ok false) = _
  split
  · next h =>
    rw [zipAll_ok (offsetViewCL L) L' (eq := eq) he (row.length + 1) ha' hb' h (by omega)]
    simp [sameList, h]
  · next h => simp [sameList, h]

theorem listEq_ok {α O : Type} {P : α → O → Prop} {eq : α → α → Res Bool} {e : O → O → Bool}
    (he : ∀ {x o y o'}, P x o → P y o' → eq x y = .ok (e o o')) :
    ∀ {xs ys : List α} {l m : List O}, xs.length = l.length → ys.length = m.length →
      (∀ i (h : i < xs.length) (h' : i < l.length), P xs[i] l[i]) →
      (∀ i (h : i < ys.length) (h' : i < m.length), P ys[i] m[i]) →
      listEq eq xs ys = .ok ((l.zip m).all fun p => e p.1 p.2)
  | [], ys, l, m, h, _, _, _ => by
    have : l = [] := List.length_eq_zero_iff.mp (by simpa using h.symm)
    subst this; simp [listEq]
  | x :: xs, [], l, m, _, h, _, _ => by
    have : m = [] := List.length_eq_zero_iff.mp (by simpa using h.symm)
    subst this; simp [listEq]
  | x :: xs, y :: ys, [], m, h, _, _, _ => by simp at h
  | x :: xs, y :: ys, o :: l, [], _, h, _, _ => by simp at h
  | x :: xs, y :: ys, o :: l, o' :: m, h1, h2, hx, hy => by
    have hx0 := hx 0 (by simp) (by simp)
    have hy0 := hy 0 (by simp) (by simp)
    simp only [List.getElem_cons_zero] at hx0 hy0
    simp only [listEq, he hx0 hy0]
    cases h : e o o' with
    | false => simp [h]
    | true =>
      simp only [List.zip_cons_cons, List.all_cons, h, Bool.true_and]
      exact listEq_ok (P := P) (eq := eq) (e := e) he (by simpa using h1) (by simpa using h2)
        (fun i h h' => hx (i + 1) (Nat.succ_lt_succ h) (Nat.succ_lt_succ h'))
        (fun i h h' => hy (i + 1) (Nat.succ_lt_succ h) (Nat.succ_lt_succ h'))

theorem nullEq_ok {O : Type} {R : Realloc O} {L : LawfulR R} {eq : R.V → R.V → Res Bool}
    {e : O → O → Bool} (nl : Bool)
    (he : ∀ {x o y o'}, L.VRep x o → L.VRep y o' → eq x y = .ok (e o o')) :
    ∀ {x o y o'}, (nullL nl L).VRep x o → (nullL nl L).VRep y o' →
      nullEq nl R eq x y = .ok (sameItem nl e o o') := by
  cases nl with
  | false => exact fun h1 h2 => he h1 h2
  | true =>
    intro x o y o' h1 h2
    replace h1 : (validityL L).VRep x o := h1
    replace h2 : (validityL L).VRep y o' := h2
    show optEq eq x y = .ok (sameOpt e o o')
    cases x <;> cases o <;> cases y <;> cases o' <;>
      first | rfl | exact h1.elim | exact h2.elim | exact he h1 h2

theorem baseEq_ok (primEq : (p : Prim) → PrimVal p → PrimVal p → Bool) : (t : Ty) → (ht : t.WF) →
    ∀ {x o y o'}, (baseL t ht).VRep x o → (baseL t ht).VRep y o' →
      baseEq primEq t x y = .ok (same primEq t o o')
  | .bool, _, x, o, y, o', h1, h2 => by
    replace h1 : x = o := h1
    replace h2 : y = o' := h2
    subst h1 h2; rfl
  | .prim p, _, x, o, y, o', h1, h2 => by
    replace h1 : x = o := h1
    replace h2 : y = o' := h2
    subst h1 h2; rfl
  | .fsl n nl t, ht, x, o, y, o', h1, h2 => by
    replace h1 : FixArr.Rel (nullL nl (baseL t ht.2)).VRep x o := h1
    replace h2 : FixArr.Rel (nullL nl (baseL t ht.2)).VRep y o' := h2
    show listEq (nullEq nl (baseR t) (baseEq primEq t)) _ _ = .ok (sameList _ _ _)
    have hx : x.1.length = n := x.2
    have ho : o.1.length = n := o.2
    have hy : y.1.length = n := y.2
    have ho' : o'.1.length = n := o'.2
    have := listEq_ok (P := (nullL nl (baseL t ht.2)).VRep) (eq := nullEq nl (baseR t) (baseEq primEq t))
      (e := sameItem nl (same primEq t)) (fun h h' => nullEq_ok nl (baseEq_ok primEq t ht.2) h h')
      (xs := x.1) (ys := y.1) (l := o.1) (m := o'.1) (hx.trans ho.symm) (hy.trans ho'.symm)
      (fun i h h' => h1 i h h') (fun i h h' => h2 i h h')
    refine this.trans (congrArg Res.ok ?_)
    show _ = (o.1.length == o'.1.length && _)
    rw [show (o.1.length == o'.1.length) = true from by rw [ho, ho']; exact beq_self_eq_true n]
    rfl
  | .vsl ow nl t, ht, x, o, y, o', h1, h2 => by
    replace h1 : OffsetView.Rep (nullL nl (baseL t ht)).toLawfulColl x o := h1
    replace h2 : OffsetView.Rep (nullL nl (baseL t ht)).toLawfulColl y o' := h2
    show OffsetView.eq (nullR nl (baseR t)).toColl (offsetViewC (nullR nl (baseR t)).toColl)
      (nullEq nl (baseR t) (baseEq primEq t)) x y = .ok (sameList (sameItem nl (same primEq t)) o o')
    have hrow : (offsetViewCL (nullL nl (baseL t ht)).toLawfulColl).abs y = o' := by
      obtain ⟨k1, k2, k3, k4⟩ := h2
      show (((nullL nl (baseL t ht)).abs y.coll.data).drop y.start).take (y.stop - y.start) = o'
      rw [k2, Nat.add_sub_cancel_left]; exact (List.prefix_iff_eq_take.mp k3).symm
    have := OffsetView.eq_ok (L := (nullL nl (baseL t ht)).toLawfulColl)
      (L' := offsetViewCL (nullL nl (baseL t ht)).toLawfulColl)
      (eq := nullEq nl (baseR t) (baseEq primEq t)) (e := sameItem nl (same primEq t))
      (fun h h' => nullEq_ok nl (baseEq_ok primEq t ht) h h') h1 (c := y) ⟨o', h2⟩
    rw [hrow] at this
    exact this

/-- With a primitive comparison that is equality, equal items are the same. -/
theorem sameList_iff {α : Type} {e : α → α → Bool} (he : ∀ x y, e x y = true ↔ x = y) (xs ys : List α) :
    sameList e xs ys = true ↔ xs = ys := by
  unfold sameList
  induction xs generalizing ys with
  | nil => cases ys <;> simp
  | cons x xs ih =>
    cases ys with
    | nil => simp
    | cons y ys =>
      have := ih ys
      simp only [Bool.and_eq_true, beq_iff_eq] at this
      simp only [List.length_cons, List.zip_cons_cons, List.all_cons, Bool.and_eq_true, beq_iff_eq,
        List.cons.injEq, he, ← this, Nat.add_right_cancel_iff]
      constructor
      · exact fun h => ⟨h.2.1, h.1, h.2.2⟩
      · exact fun h => ⟨h.2.1, h.1, h.2.2⟩

theorem sameItem_iff {α : Type} {e : α → α → Bool} (nl : Bool) (he : ∀ x y, e x y = true ↔ x = y)
    (x y : ItemVal nl α) : sameItem nl e x y = true ↔ x = y := by
  cases nl with
  | false => exact he x y
  | true =>
    match x, y with
    | none, none => exact ⟨fun _ => rfl, fun _ => rfl⟩
    | some a, none =>
      exact ⟨fun h => absurd (show false = true from h) (by simp),
        fun h => absurd (show (some a : Option α) = none from h) (by simp)⟩
    | none, some b =>
      exact ⟨fun h => absurd (show false = true from h) (by simp),
        fun h => absurd (show (none : Option α) = some b from h) (by simp)⟩
    | some a, some b =>
      exact (he a b).trans ⟨fun h => congrArg some h, fun h => Option.some.inj h⟩

theorem same_iff (t : Ty) (x y : Val t) :
    same (fun _ a b => a == b) t x y = true ↔ x = y := by
  induction t with
  | bool => exact @beq_iff_eq Bool _ _ x y
  | prim p => exact @beq_iff_eq (PrimVal p) _ _ x y
  | fsl n nl t ih =>
    refine (sameList_iff (sameItem_iff nl ih) x.1 y.1).trans ⟨fun h => Subtype.ext h, fun h => h ▸ rfl⟩
  | vsl ow nl t ih => exact sameList_iff (sameItem_iff nl ih) x y

end Narrow
