import Verif.Proof.Spare

/-! # Room in collections of lists over any storage -/

namespace Narrow

open Spec
open Offsets (totals totals_length totals_get totals_getLast totals_snoc totals_take asUsize_ofNat)

variable {O : Type}

namespace OffsetsIn

variable {D : Backing Int} {R : Realloc O} {LD : LawfulB D} {L : LawfulR R} {ow : OffW}
  {Canon : R.C → Prop}

/-- No data beyond the rows. -/
def Neat (LD : LawfulB D) (L : LawfulR R) (Canon : R.C → Prop) (c : Of D R) : Prop :=
  Canon c.data ∧ L.abs c.data = (rows LD L c).flatten

theorem neat_mid {c : Of D R} {rs : List (List O)} (h : Mid LD L c rs) (hk : Canon c.data) :
    Neat LD L Canon c := ⟨hk, by rw [h.toInv.2]; exact h.data⟩

/-- Truncating the data drops nothing. -/
theorem Neat.start {c : Of D R} {d : R.C} (T : Tidy L Canon) (hc : Ok LD L c)
    (hn : Neat LD L Canon c) (h : R.truncate c.data (rows LD L c).flatten.length = (d, .ok)) :
    Mid LD L ⟨d, c.offsets⟩ (rows LD L c) ∧ Canon d := by
  obtain ⟨d', h1, h2, h3, -⟩ := L.trunc_ok (rows LD L c).flatten.length hc.inv
  rw [h] at h1
  simp only [Prod.mk.injEq, and_true] at h1
  subst h1
  exact ⟨Mid.of_inv hc h2 h3, T.trunc hc.inv hn.1 (by rw [hn.2]; exact Nat.le_refl _) h⟩

theorem extendLoop_canon (T : Tidy L Canon) : ∀ (s : Src (List O)) (c : Of D R) (p : Int),
    L.Inv c.data → Canon c.data → ∀ c',
    extendLoop ow D R c.data c.offsets p s = (c', .ok) → Canon c'.data
  | [], c, p, hi, hk, c', h => by
    simp only [extendLoop, Prod.mk.injEq, and_true] at h
    subst h
    exact hk
  | .none :: s, c, p, hi, hk, c', h => by
    simp only [extendLoop, Prod.mk.injEq, and_true] at h
    subst h
    exact hk
  | .panic :: s, c, p, hi, hk, c', h => by simp [extendLoop] at h
  | .item r :: s, c, p, hi, hk, c', h => by
    simp only [extendLoop] at h
    split at h
    · generalize hV : R.reserve c.data r.length = V at *
      obtain ⟨d1, o1⟩ := V
      obtain ⟨v1, v2, v3, -⟩ := L.reserve_ok hi hV
      cases o1 with
      | err => simp at h
      | panic => simp at h
      | ok =>
        simp only at h
        generalize hE : R.extend d1 (Src.ofList r) = E at *
        obtain ⟨d2, o2⟩ := E
        cases o2 with
        | err => simp at h
        | panic => simp at h
        | ok =>
          simp only at h
          split at h
          · next of hof =>
            exact extendLoop_canon T s ⟨d2, of⟩ _ (L.ext_ok v1 hE).1
              (T.ext v1 (T.reserve hi hk hV) hE) c' h
          · next hno => simp only [Prod.mk.injEq] at h; exact absurd h.2 (by intro e; simp_all)
    · simp at h

/-- Whatever happens, the data has been extended and cut. -/
theorem tryExtendLoop_canon (T : Tidy L Canon) (n m : Nat) : ∀ (s : Src (List O)) (w : World)
    (c : Of D R) (p : Int), L.Inv c.data → Canon c.data → ∀ c' w',
    tryExtendLoop ow D R n m w c.data c.offsets p s = (c', .ok, w') → Canon c'.data
  | [], w, c, p, hi, hk, c', w', h => by
    simp only [tryExtendLoop, Prod.mk.injEq, true_and] at h
    rw [← h.1]; exact hk
  | .none :: s, w, c, p, hi, hk, c', w', h => by
    simp only [tryExtendLoop, Prod.mk.injEq, true_and] at h
    rw [← h.1]; exact hk
  | .panic :: s, w, c, p, hi, hk, c', w', h => by simp [tryExtendLoop] at h
  | .item r :: s, w, c, p, hi, hk, c', w', h => by
    have hroll : ∀ {d : R.C} {of : D.C} {w}, rollback D R d of n m w ≠ (c', .ok, w') := by
      intro d of w hr
      unfold rollback at hr
      split at hr
      · simp at hr
      · split at hr
        · split at hr
          · simp at hr
          · next hx _ => simp only [Prod.mk.injEq] at hr; exact hx hr.2.1
        · next hx _ => simp only [Prod.mk.injEq] at hr; exact hx hr.2.1
    simp only [tryExtendLoop] at h
    split at h
    · simp at h
    · next k _ =>
      split at h
      · generalize hE : R.tryExtend w c.data (Src.ofList r) = E at *
        obtain ⟨d1, o1, w1⟩ := E
        cases o1 with
        | panic => simp at h
        | err => exact absurd h hroll
        | ok =>
          simp only at h
          split at h
          · next of w2 hof =>
            exact tryExtendLoop_canon T n m s w2 ⟨d1, of⟩ _ (L.tryExt_ok hi hE).1
              (T.tryExt hi hk hE) c' w' h
          · exact absurd h hroll
          · simp at h
      · exact absurd h hroll

theorem rollback_canon (S : Shrinks L Canon) {d : R.C} {of : D.C} {n m : Nat} {w w' : World}
    {c' : Of D R} (hi : L.Inv d) (hk : Canon d) (h : rollback D R d of n m w = (c', .err, w')) :
    Canon c'.data := by
  unfold rollback at h
  split at h
  · simp at h
  · split at h
    · split at h
      · next d' hd =>
        simp only [Prod.mk.injEq, true_and] at h
        rw [← h.1]; exact S.trunc hi hk hd
      · next d' o hx hd =>
        simp only [Prod.mk.injEq] at h
        rw [← h.1]; exact S.trunc hi hk hd
    · simp only [Prod.mk.injEq] at h
      rw [← h.1]; exact hk

theorem tryExtendLoop_err (T : Tidy L Canon) (S : Shrinks L Canon) (n m : Nat) :
    ∀ (s : Src (List O)) (w : World)
    (c : Of D R) (p : Int), L.Inv c.data → Canon c.data → ∀ c' w',
    tryExtendLoop ow D R n m w c.data c.offsets p s = (c', .err, w') → Canon c'.data
  | [], w, c, p, hi, hk, c', w', h => by simp [tryExtendLoop] at h
  | .none :: s, w, c, p, hi, hk, c', w', h => by simp [tryExtendLoop] at h
  | .panic :: s, w, c, p, hi, hk, c', w', h => by simp [tryExtendLoop] at h
  | .item r :: s, w, c, p, hi, hk, c', w', h => by
    simp only [tryExtendLoop] at h
    split at h
    · simp at h
    · next k _ =>
      split at h
      · generalize hE : R.tryExtend w c.data (Src.ofList r) = E at *
        obtain ⟨d1, o1, w1⟩ := E
        cases o1 with
        | panic => simp at h
        | err => exact rollback_canon S (L.tryExt_err hi hE).1 (S.tryExtErr hi hk hE) h
        | ok =>
          have hi1 := (L.tryExt_ok hi hE).1
          have hk1 := T.tryExt hi hk hE
          simp only at h
          split at h
          · next of w2 hof => exact tryExtendLoop_err T S n m s w2 ⟨d1, of⟩ _ hi1 hk1 c' w' h
          · exact rollback_canon S hi1 hk1 h
          · simp at h
      · exact rollback_canon S hi hk h

theorem extend_neat (T : Tidy L Canon) {c c' : Of D R} {s : Src (List O)} (hc : Ok LD L c)
    (hn : Neat LD L Canon c) (h : extend ow D R c s = (c', .ok)) : Neat LD L Canon c' := by
  refine neat_mid ((extend_spec hc h).2 rfl).1 ?_
  unfold extend at h
  rw [last_ok hc.off hc.items] at h
  simp only [asUsize_ofNat] at h
  obtain ⟨d, h1, h2, h3, -⟩ := L.trunc_ok (rows LD L c).flatten.length hc.inv
  simp only [h1] at h
  exact extendLoop_canon T s ⟨d, c.offsets⟩ _ h2 (hn.start T hc h1).2 c' h

theorem tryExtend_neat (T : Tidy L Canon) {w w' : World} {c c' : Of D R} {s : Src (List O)}
    (hc : Ok LD L c) (hn : Neat LD L Canon c) (h : tryExtend ow D R w c s = (c', .ok, w')) :
    Neat LD L Canon c' := by
  refine neat_mid ((tryExtend_spec hc h).1 rfl).1 ?_
  unfold tryExtend at h
  rw [last_ok hc.off hc.items, hc.len_ok] at h
  simp only [asUsize_ofNat] at h
  obtain ⟨d, h1, h2, h3, -⟩ := L.trunc_ok (rows LD L c).flatten.length hc.inv
  simp only [h1] at h
  exact tryExtendLoop_canon T _ _ s w ⟨d, c.offsets⟩ _ h2 (hn.start T hc h1).2 c' w' h

theorem tryExtend_err (T : Tidy L Canon) (S : Shrinks L Canon) {w w' : World} {c c' : Of D R}
    {s : Src (List O)} (hc : Ok LD L c) (hn : Neat LD L Canon c)
    (h : tryExtend ow D R w c s = (c', .err, w')) : Neat LD L Canon c' := by
  refine neat_mid ((tryExtend_spec hc h).2.1 rfl) ?_
  unfold tryExtend at h
  rw [last_ok hc.off hc.items, hc.len_ok] at h
  simp only [asUsize_ofNat] at h
  obtain ⟨d, h1, h2, h3, -⟩ := L.trunc_ok (rows LD L c).flatten.length hc.inv
  simp only [h1] at h
  exact tryExtendLoop_err T S _ _ s w ⟨d, c.offsets⟩ _ h2 (hn.start T hc h1).2 c' w' h

theorem neat_same {c : Of D R} (hc : Ok LD L c) (hn : Neat LD L Canon c) {d : R.C} {of : D.C}
    (h1 : L.Inv d) (h2 : L.abs d = L.abs c.data) (h3 : LD.Inv of) (h4 : LD.abs of = LD.abs c.offsets)
    (hk : Canon d) : Neat LD L Canon ⟨d, of⟩ :=
  ⟨hk, by rw [(same hc h1 h2 h3 h4).2, ← hn.2]; exact h2⟩

theorem reserve_neat (T : Tidy L Canon) {c c' : Of D R} {n : Nat} {o : Out} (hc : Ok LD L c)
    (hn : Neat LD L Canon c) (h : reserve D R c n = (c', o)) : Neat LD L Canon c' := by
  unfold reserve at h
  generalize hV : R.reserve c.data n = V at *
  obtain ⟨d, o1⟩ := V
  obtain ⟨v1, v2, v3, -⟩ := L.reserve_ok hc.inv hV
  have hk := T.reserve hc.inv hn.1 hV
  cases o1 with
  | err => exact absurd rfl v3
  | panic =>
    simp only [Prod.mk.injEq] at h
    obtain ⟨rfl, rfl⟩ := h
    exact neat_same hc hn v1 v2 hc.off rfl hk
  | ok =>
    simp only [Prod.mk.injEq] at h
    obtain ⟨rfl, rfl⟩ := h
    obtain ⟨w1, w2, w3, -⟩ := LD.reserve_ok hc.off (n := n) rfl
    exact neat_same hc hn v1 v2 w1 w2 hk

theorem tryReserve_neat (T : Tidy L Canon) {w w' : World} {c c' : Of D R} {n : Nat} {o : Out}
    (hc : Ok LD L c) (hn : Neat LD L Canon c) (h : tryReserve D R w c n = (c', o, w')) :
    Neat LD L Canon c' := by
  unfold tryReserve at h
  generalize hV : R.tryReserve w c.data n = V at *
  obtain ⟨d, o1, w1⟩ := V
  obtain ⟨v1, v2, v3, -⟩ := L.tryReserve_ok hc.inv hV
  have hk := T.tryReserve hc.inv hn.1 hV
  cases o1 with
  | panic => exact absurd rfl v3
  | err =>
    simp only [Prod.mk.injEq] at h
    obtain ⟨rfl, rfl, rfl⟩ := h
    exact neat_same hc hn v1 v2 hc.off rfl hk
  | ok =>
    simp only [Prod.mk.injEq] at h
    obtain ⟨rfl, rfl, rfl⟩ := h
    obtain ⟨u1, u2, u3, -⟩ := LD.tryReserve_ok hc.off (w := w1) (n := n) rfl
    exact neat_same hc hn v1 v2 u1 u2 hk

theorem truncate_neat (S : Shrinks L Canon) {c c' : Of D R} {n : Nat} {o : Out}
    (hc : Ok LD L c) (hn : Neat LD L Canon c) (h : truncate D R c n = (c', o)) :
    Neat LD L Canon c' := by
  unfold truncate at h
  rw [hc.len_ok] at h
  simp only at h
  split at h
  · next hlt =>
    have hs := hc.small
    have hown : D.toColl.owned c.offsets n = _ :=
      LD.owned_some hc.off (by rw [hc.items]; exact totals_get 0 _ n (Nat.le_of_lt hlt))
    rw [hown] at h
    simp only [Res.expect, Res.bind, asUsize_ofNat, Nat.zero_add] at h
    rw [strictAdd_one (by omega)] at h
    obtain ⟨of, g1, g2, g3, -⟩ := LD.trunc_ok (n + 1) hc.off
    obtain ⟨d, h1, h2, h3, -⟩ := L.trunc_ok ((rows LD L c).take n).flatten.length hc.inv
    simp only [g1, h1, Prod.mk.injEq] at h
    obtain ⟨rfl, rfl⟩ := h
    have hpre : ((rows LD L c).take n).flatten <+: L.abs c.data := by
      refine List.IsPrefix.trans ⟨((rows LD L c).drop n).flatten, ?_⟩ hc.pre
      rw [← List.flatten_append, List.take_append_drop]
    have hm : Mid LD L ⟨d, of⟩ ((rows LD L c).take n) := by
      refine ⟨g2, h2, ?_, ?_⟩
      · simp only [g3, hc.items]
        exact totals_take _ _ _ (Nat.le_of_lt hlt)
      · simp only [h3]; exact (List.prefix_iff_eq_take.mp hpre).symm
    exact neat_mid hm (S.trunc hc.inv hn.1 h1)
  · simp only [Prod.mk.injEq] at h
    obtain ⟨rfl, rfl⟩ := h
    exact hn

/-! ## Liveness -/

variable {Rm : List O → Prop} {Sp : Nat → List O → Prop}

/-- The rows fit. -/
def Fits (ow : OffW) (cap : Nat) (Rm : List O → Prop) (Sp : Nat → List O → Prop)
    (l : List (List O)) : Prop :=
  l.length + 1 ≤ cap ∧ l.flatten.length ≤ ow.max ∧ Rm l.flatten ∧
    ∀ (before : List (List O)) (x : List O) (after : List (List O)), l = before ++ x :: after →
      Sp x.length before.flatten

theorem Fits.pre {cap : Nat} {l m : List (List O)} (Q : TryGrows L Canon Rm)
    (h : Fits ow cap Rm Sp (l ++ m)) : Fits ow cap Rm Sp l := by
  obtain ⟨h1, h2, h3, h4⟩ := h
  rw [List.flatten_append] at h2 h3
  rw [List.length_append] at h1 h2
  exact ⟨by omega, by omega, Q.pre h3, fun before x after e => h4 before x (after ++ m) (by simp [e])⟩

theorem extendLoop_live {cap : Nat} (TD : Takes LD.toLawfulR cap) (T : Tidy L Canon)
    (Q : Roomy L Canon Rm Sp) : ∀ (s : Src (List O)) (c : Of D R) (rs : List (List O)),
    Mid LD L c rs → Canon c.data → s.panics = false → Fits ow cap Rm Sp (rs ++ s.items) →
    (extendLoop ow D R c.data c.offsets (rs.flatten.length : Int) s).2 = .ok
  | [], c, rs, hm, hk, hp, hf => by simp [extendLoop]
  | .none :: s, c, rs, hm, hk, hp, hf => by simp [extendLoop]
  | .panic :: s, c, rs, hm, hk, hp, hf => by simp [Src.panics] at hp
  | .item r :: s, c, rs, hm, hk, hp, hf => by
    have hsnoc : rs ++ Src.items (.item r :: s) = (rs ++ [r]) ++ Src.items s := by simp [Src.items]
    rw [hsnoc] at hf
    obtain ⟨f1, f2, f3, f4⟩ := Fits.pre Q.toTryGrows hf
    simp only [List.flatten_append, List.flatten_cons, List.flatten_nil, List.append_nil,
      List.length_append, List.length_cons, List.length_nil] at f1 f2 f3
    simp only [extendLoop]
    rw [if_pos (by omega)]
    have hok1 := Q.reserve (n := r.length) hm.inv hk (by rw [hm.data]; exact f4 rs r [] rfl)
    generalize hV : R.reserve c.data r.length = V at *
    obtain ⟨d1, o1⟩ := V
    simp only at hok1
    subst hok1
    obtain ⟨v1, v2, v3, -⟩ := L.reserve_ok hm.inv hV
    have hk1 := T.reserve hm.inv hk hV
    simp only
    have hok2 := Q.ext (s := Src.ofList r) v1 hk1 (by simp)
      (by rw [v2, hm.data, Src.items_ofList]; exact f3)
    generalize hE : R.extend d1 (Src.ofList r) = E at *
    obtain ⟨d2, o2⟩ := E
    simp only at hok2
    subst hok2
    obtain ⟨e1, e2, -⟩ := L.ext_ok v1 hE
    rw [v2, hm.data, Src.items_ofList] at e2
    simp only
    have hok3 := TD.ext (s := [.item ((rs.flatten.length : Int) + r.length)]) hm.off trivial rfl
      (by rw [List.length_append, hm.items, totals_length]; simp [Src.items]; omega)
    generalize hF : D.extend c.offsets [.item ((rs.flatten.length : Int) + r.length)] = F at *
    obtain ⟨of, o3⟩ := F
    simp only at hok3
    subst hok3
    obtain ⟨k1, k2, -⟩ := LD.ext_ok hm.off hF
    have hm' : Mid LD L ⟨d2, of⟩ (rs ++ [r]) := by
      refine ⟨k1, e1, ?_, by simp [e2]⟩
      simp only [k2, hm.items, totals_snoc]
      simp [Src.items]
    have hpos : ((rs.flatten.length : Int) + r.length) = (((rs ++ [r]).flatten.length : Nat) : Int) := by
      simp
    simp only [hpos]
    exact extendLoop_live TD T Q s ⟨d2, of⟩ (rs ++ [r]) hm' (T.ext v1 hk1 hE)
      (by simpa [Src.panics] using hp) hf

theorem tryExtendLoop_live {cap : Nat} (TD : Takes LD.toLawfulR cap) (T : Tidy L Canon)
    (Q : TryGrows L Canon Rm) (how : ow.max ≤ usizeMax) (n m : Nat) : ∀ (s : Src (List O)) (w : World)
    (c : Of D R) (rs : List (List O)), Kind w →
    Mid LD L c rs → Canon c.data → s.panics = false → Fits ow cap Rm Sp (rs ++ s.items) →
    ∃ c' w', tryExtendLoop ow D R n m w c.data c.offsets (rs.flatten.length : Int) s = (c', .ok, w') ∧
      Kind w'
  | [], w, c, rs, hw, hm, hk, hp, hf => ⟨_, _, rfl, hw⟩
  | .none :: s, w, c, rs, hw, hm, hk, hp, hf => ⟨_, _, rfl, hw⟩
  | .panic :: s, w, c, rs, hw, hm, hk, hp, hf => by simp [Src.panics] at hp
  | .item r :: s, w, c, rs, hw, hm, hk, hp, hf => by
    have hsnoc : rs ++ Src.items (.item r :: s) = (rs ++ [r]) ++ Src.items s := by simp [Src.items]
    rw [hsnoc] at hf
    obtain ⟨f1, f2, f3, f4⟩ := Fits.pre Q hf
    simp only [List.flatten_append, List.flatten_cons, List.flatten_nil, List.append_nil,
      List.length_append, List.length_cons, List.length_nil] at f1 f2 f3
    simp only [tryExtendLoop, asUsize_ofNat]
    rw [if_pos (by omega)]
    obtain ⟨d1, w1, hE, hw1⟩ := Q.tryExt (s := Src.ofList r) hw hm.inv hk (by simp)
      (by rw [hm.data, Src.items_ofList]; exact f3)
    obtain ⟨e1, e2, -⟩ := L.tryExt_ok hm.inv hE
    rw [hm.data, Src.items_ofList] at e2
    obtain ⟨of, w2, hF, hw2⟩ := TD.tryExt (s := [.item ((rs.flatten.length + r.length : Nat) : Int)])
      hw1 hm.off trivial rfl
      (by rw [List.length_append, hm.items, totals_length]; simp [Src.items]; omega)
    obtain ⟨k1, k2, -⟩ := LD.tryExt_ok hm.off hF
    simp only [hE, hF]
    have hm' : Mid LD L ⟨d1, of⟩ (rs ++ [r]) := by
      refine ⟨k1, e1, ?_, by simp [e2]⟩
      simp only [k2, hm.items, totals_snoc]
      simp [Src.items]
    have hpos : (rs.flatten.length + r.length : Nat) = (rs ++ [r]).flatten.length := by simp
    rw [hpos]
    exact tryExtendLoop_live TD T Q how n m s w2 ⟨d1, of⟩ (rs ++ [r]) hw2 hm' (T.tryExt hm.inv hk hE)
      (by simpa [Src.panics] using hp) hf

theorem extend_live {cap : Nat} (TD : Takes LD.toLawfulR cap) (T : Tidy L Canon)
    (Q : Roomy L Canon Rm Sp) {c : Of D R} {s : Src (List O)} (hc : Ok LD L c)
    (hn : Neat LD L Canon c) (hp : s.panics = false)
    (hf : Fits ow cap Rm Sp (rows LD L c ++ s.items)) : (extend ow D R c s).2 = .ok := by
  unfold extend
  rw [last_ok hc.off hc.items]
  simp only [asUsize_ofNat]
  obtain ⟨d, h1, h2, h3, -⟩ := L.trunc_ok (rows LD L c).flatten.length hc.inv
  obtain ⟨s1, s2⟩ := hn.start T hc h1
  simp only [h1]
  exact extendLoop_live TD T Q s ⟨d, c.offsets⟩ _ s1 s2 hp hf

theorem tryExtend_live {cap : Nat} (TD : Takes LD.toLawfulR cap) (T : Tidy L Canon)
    (Q : TryGrows L Canon Rm) (how : ow.max ≤ usizeMax) {w : World} {c : Of D R} {s : Src (List O)}
    (hw : Kind w) (hc : Ok LD L c) (hn : Neat LD L Canon c) (hp : s.panics = false)
    (hf : Fits ow cap Rm Sp (rows LD L c ++ s.items)) :
    ∃ c' w', tryExtend ow D R w c s = (c', .ok, w') ∧ Kind w' := by
  unfold tryExtend
  rw [last_ok hc.off hc.items, hc.len_ok]
  simp only [asUsize_ofNat]
  obtain ⟨d, h1, h2, h3, -⟩ := L.trunc_ok (rows LD L c).flatten.length hc.inv
  obtain ⟨s1, s2⟩ := hn.start T hc h1
  simp only [h1]
  exact tryExtendLoop_live TD T Q how _ _ s w ⟨d, c.offsets⟩ _ hw s1 s2 hp hf

theorem Ok.offsets_length {c : Of D R} (hc : Ok LD L c) :
    (LD.abs c.offsets).length = (rows LD L c).length + 1 := by
  have := congrArg List.length hc.items
  rw [totals_length] at this; exact this

theorem reserve_live {cap : Nat} (TD : Takes LD.toLawfulR cap) (Q : Roomy L Canon Rm Sp)
    {c : Of D R} {n : Nat} (hc : Ok LD L c) (hn : Neat LD L Canon c)
    (h1 : (rows LD L c).length + 1 + n ≤ cap) (h2 : Sp n (rows LD L c).flatten) :
    (reserve D R c n).2 = .ok := by
  rw [← hn.2] at h2
  have hok := Q.reserve hc.inv hn.1 h2
  unfold reserve
  generalize hV : R.reserve c.data n = V at *
  obtain ⟨d, o1⟩ := V
  simp only at hok
  subst hok
  exact TD.reserve hc.off trivial (by rw [Ok.offsets_length hc]; exact h1)

theorem tryReserve_live {cap : Nat} (TD : Takes LD.toLawfulR cap) (Q : Roomy L Canon Rm Sp)
    {w : World} {c : Of D R} {n : Nat} (hw : Kind w) (hc : Ok LD L c) (hn : Neat LD L Canon c)
    (h1 : (rows LD L c).length + 1 + n ≤ cap) (h2 : Sp n (rows LD L c).flatten) :
    ∃ c' w', tryReserve D R w c n = (c', .ok, w') ∧ Kind w' := by
  rw [← hn.2] at h2
  obtain ⟨d, w1, e1, hw1⟩ := Q.tryReserve hw hc.inv hn.1 h2
  obtain ⟨of, w2, e2, hw2⟩ := TD.tryReserve (n := n) hw1 hc.off trivial
    (by rw [Ok.offsets_length hc]; exact h1)
  simp only [tryReserve, e1, e2]
  exact ⟨_, _, rfl, hw2⟩

theorem withCap_canon (T : Tidy L Canon) {n : Nat} {c : Of D R} (h : withCap D R n = .ok c) :
    Canon c.data := by
  unfold withCap at h
  split at h
  · simp at h
  · simp at h
  · next d hd =>
    split at h
    · simp at h
    · split at h
      · simp at h
      · simp at h
      · split at h
        · simp only [Try.ok.injEq] at h
          subst h
          exact T.withCap hd
        · simp at h

theorem tryWithCap_canon (T : Tidy L Canon) {w w' : World} {n : Nat} {c : Of D R}
    (h : tryWithCap D R w n = (.ok c, w')) : Canon c.data := by
  unfold tryWithCap at h
  split at h
  · simp at h
  · split at h
    · simp at h
    · simp at h
    · next d w1 hd =>
      split at h
      · simp at h
      · simp at h
      · split at h
        · simp only [Prod.mk.injEq, Try.ok.injEq] at h
          rw [← h.1]
          exact T.tryWithCap hd
        · simp at h
        · simp at h

theorem withCap_live {cap : Nat} (TD : Takes LD.toLawfulR cap) (Q : Roomy L Canon Rm Sp) {n : Nat}
    (h1 : 1 + n ≤ cap) (h2 : Sp n []) : ∃ c, withCap D R n = .ok c := by
  have hsz := TD.size (n := n + 1) (l := []) (by simp; omega)
  have e1 := Q.withCap h2
  have e2 := L.withCap_ne n
  have e3 := TD.withCap (n := n + 1) (by simp; omega)
  have e4 := LD.withCap_ne (n + 1)
  simp only [withCap, strictAdd_one hsz]
  cases hd : R.withCap n with
  | err => exact absurd hd e2
  | panic => exact absurd hd e1
  | ok d =>
    cases ho : D.withCap (n + 1) with
    | err => exact absurd ho e4
    | panic => exact absurd ho e3
    | ok of =>
      obtain ⟨o1, o2, -⟩ := LD.withCap_ok ho
      have e5 := TD.ext (s := [.item 0]) o1 trivial rfl (by
        rw [o2]; simp [Src.items]; omega)
      simp only
      generalize hF : D.extend of [.item 0] = F at *
      obtain ⟨of', o3⟩ := F
      simp only at e5
      subst e5
      exact ⟨_, rfl⟩

theorem tryWithCap_live {cap : Nat} (TD : Takes LD.toLawfulR cap) (Q : Roomy L Canon Rm Sp) {n : Nat}
    {w : World} (hw : Kind w) (h1 : 1 + n ≤ cap) (h2 : Sp n []) :
    ∃ c w', tryWithCap D R w n = (.ok c, w') ∧ Kind w' := by
  have hsz := TD.size (n := n + 1) (l := []) (by simp; omega)
  obtain ⟨d, w1, e1, hw1⟩ := Q.tryWithCap hw h2
  obtain ⟨of, w2, e2, hw2⟩ := TD.tryWithCap (n := n + 1) hw1 (by simp; omega)
  obtain ⟨o1, o2, -⟩ := LD.tryWithCap_ok e2
  obtain ⟨of', w3, e3, hw3⟩ := TD.tryExt (s := [.item 0]) hw2 o1 trivial rfl (by
    rw [o2]; simp [Src.items]; omega)
  simp only [tryWithCap, checkedAdd, if_pos hsz, e1, e2, e3]
  exact ⟨_, _, rfl, hw3⟩

end OffsetsIn

open OffsetsIn

section
variable {D : Backing Int} {R : Realloc O} {LD : LawfulB D} {L : LawfulR R} {ow : OffW}
  {Canon : R.C → Prop}

theorem offsets_tidy (hz : (D.extend D.empty [.item 0]).2 = .ok) (T : Tidy L Canon) :
    Tidy (offsetsBG ow LD L hz).lawful (Neat LD L Canon) where
  empty := neat_mid (empty_mid hz) T.empty
  withCap h := neat_mid (OffsetsIn.withCap_ok h) (withCap_canon T h)
  tryWithCap h := neat_mid (OffsetsIn.tryWithCap_ok h) (tryWithCap_canon T h)
  fromIter {w w' s c} hs h := by
    simp only [Prod.mk.injEq] at h
    obtain ⟨h, -⟩ := h
    unfold OffsetsIn.fromIter at h
    split at h
    · split at h
      · next c' heq =>
        simp only [Try.ok.injEq] at h
        subst h
        have hm : Mid LD L (OffsetsIn.empty D R) [] := empty_mid hz
        exact extend_neat T hm.toInv.1 (neat_mid hm T.empty) heq
      · simp at h
    · simp at h
  fromIterIn {w w' s c} hs h := by
    have h : OffsetsIn.fromIterIn ow D R w s = (.ok c, w') := h
    unfold OffsetsIn.fromIterIn at h
    split at h
    · next c0 heq0 =>
      have hm : Mid LD L c0 [] := OffsetsIn.withCap_ok heq0
      split at h
      · next c' heq =>
        simp only [Prod.mk.injEq, Try.ok.injEq] at h
        obtain ⟨rfl, rfl⟩ := h
        exact extend_neat T hm.toInv.1 (neat_mid hm (withCap_canon T heq0)) heq
      · simp at h
    · simp at h
    · simp at h
  tryFromIter {w w' s c} hs h := by
    have h : OffsetsIn.tryFromIter ow D R w s = (.ok c, w') := h
    unfold OffsetsIn.tryFromIter at h
    split at h
    · next c0 w1 heq0 =>
      have hm : Mid LD L c0 [] := OffsetsIn.tryWithCap_ok heq0
      split at h
      · next c' w2 heq =>
        simp only [Prod.mk.injEq, Try.ok.injEq] at h
        obtain ⟨rfl, rfl⟩ := h
        exact tryExtend_neat T hm.toInv.1 (neat_mid hm (tryWithCap_canon T heq0)) heq
      · simp at h
      · simp at h
    · simp at h
    · simp at h
  ext hc hk h := extend_neat T hc hk h
  tryExt hc hk h := tryExtend_neat T hc hk h
  reserve hc hk h := reserve_neat T hc hk h
  tryReserve hc hk h := tryReserve_neat T hc hk h
  trunc {c c' n o} hc hk hle h := by
    have hc : Ok LD L c := hc
    have hle : (rows LD L c).length ≤ n := hle
    have h : OffsetsIn.truncate D R c n = (c', o) := h
    unfold OffsetsIn.truncate at h
    rw [hc.len_ok] at h
    simp only at h
    rw [if_neg (Nat.not_lt.mpr hle)] at h
    simp only [Prod.mk.injEq] at h
    obtain ⟨rfl, rfl⟩ := h
    exact hk

theorem offsets_shrinks (hz : (D.extend D.empty [.item 0]).2 = .ok) (T : Tidy L Canon)
    (S : Shrinks L Canon) : Shrinks (offsetsBG ow LD L hz).lawful (Neat LD L Canon) where
  trunc hc hk h := truncate_neat S hc hk h
  tryExtErr hc hk h := tryExtend_err T S hc hk h

theorem offsets_roomy {cap : Nat} {Rm : List O → Prop} {Sp : Nat → List O → Prop}
    (how : ow.max ≤ usizeMax) (hz : (D.extend D.empty [.item 0]).2 = .ok)
    (TD : Takes LD.toLawfulR cap) (T : Tidy L Canon) (Q : Roomy L Canon Rm Sp) :
    Roomy (offsetsBG ow LD L hz).lawful (Neat LD L Canon) (Fits ow cap Rm Sp)
      (fun n l => l.length + 1 + n ≤ cap ∧ Sp n l.flatten) where
  pre h := Fits.pre Q.toTryGrows h
  mono h1 h2 := ⟨by omega, Q.mono h1 h2.2⟩
  size h := Q.size h.2
  withCap {n} h := by
    obtain ⟨c, e⟩ := withCap_live TD Q (by simpa using h.1) h.2
    show OffsetsIn.withCap D R n ≠ .panic
    rw [e]; simp
  fromIter {w s} ht hs hp h := by
    show OffsetsIn.fromIter ow D R s ≠ .panic
    have hm : Mid LD L (OffsetsIn.empty D R) [] := empty_mid hz
    have hok := extend_live (s := s) TD T Q hm.toInv.1 (neat_mid hm T.empty) hp
      (by rw [hm.toInv.2]; exact h)
    unfold OffsetsIn.fromIter
    simp only [hz]
    generalize OffsetsIn.extend ow D R (OffsetsIn.empty D R) s = F at *
    obtain ⟨c, o⟩ := F
    simp only at hok
    subst hok
    simp
  fromIterIn {w s} ht hs hp h h2 := by
    show (OffsetsIn.fromIterIn ow D R w s).1 ≠ .panic
    have hhint := tight_capHint ht s.items.length
    obtain ⟨c, e⟩ := withCap_live (n := w.capHint s.items.length) TD Q
      (by have := h2.1; simp only [List.length_nil] at this; omega) (Q.mono hhint h2.2)
    have hm : Mid LD L c [] := OffsetsIn.withCap_ok e
    have hok := extend_live (s := s) TD T Q hm.toInv.1 (neat_mid hm (withCap_canon T e)) hp
      (by rw [hm.toInv.2]; exact h)
    unfold OffsetsIn.fromIterIn
    simp only [e]
    generalize OffsetsIn.extend ow D R c s = F at *
    obtain ⟨c, o⟩ := F
    simp only at hok
    subst hok
    simp
  ext hc hk hp h := extend_live TD T Q hc hk hp h
  reserve hc hk h := reserve_live TD Q hc hk h.1 h.2
  tryWithCap hw h := tryWithCap_live TD Q hw (by simpa using h.1) h.2
  tryFromIter {w s} hw hs hp h h2 := by
    have hhint := tight_capHint hw.2 s.items.length
    obtain ⟨c, w1, e, hw1⟩ := tryWithCap_live (w := w.next) (n := w.capHint s.items.length) TD Q hw
      (by have := h2.1; simp only [List.length_nil] at this; omega) (Q.mono hhint h2.2)
    have hm : Mid LD L c [] := OffsetsIn.tryWithCap_ok e
    obtain ⟨c', w2, e2, hw2⟩ := tryExtend_live (s := s) TD T Q.toTryGrows how hw1 hm.toInv.1
      (neat_mid hm (tryWithCap_canon T e)) hp (by rw [hm.toInv.2]; exact h)
    refine ⟨c', w2, ?_, hw2⟩
    show OffsetsIn.tryFromIter ow D R w s = _
    simp only [OffsetsIn.tryFromIter, e, e2]
  tryExt hw hc hk hp h := tryExtend_live TD T Q.toTryGrows how hw hc hk hp h
  tryReserve hw hc hk h := tryReserve_live TD Q hw hc hk h.1 h.2

end

end Narrow
