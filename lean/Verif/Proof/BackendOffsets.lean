import Verif.Proof.Backend

/-! # Lists with offsets in any storage are lawful -/

namespace Narrow

open Offsets (totals totals_length totals_get totals_getLast totals_snoc totals_take totals_cons
  slices slices_totals flatten_take_succ prefix_row asUsize_ofNat collectRange_ok)

variable {O : Type}

/-- Owned items of a lawful collection. -/
theorem LawfulColl.owned_some {K : Coll O} (L : LawfulColl K) {c : K.C} (h : L.Inv c) {i : Nat} {o : O}
    (hi : (L.abs c)[i]? = some o) : K.owned c i = .ok (some o) := by
  obtain ⟨hlt, he⟩ := List.getElem?_eq_some_iff.mp hi
  obtain ⟨v, h1, h2⟩ := L.view_some h hlt
  unfold Coll.owned
  rw [h1]
  simp only [L.owned_ok h2, Res.map, he]

namespace RowView

variable {K : Coll O} (L : LawfulColl K)

/-- A list view denotes a slice of the data. -/
def Rep (v : RowView K.C) (row : List O) : Prop :=
  L.Inv v.data ∧ v.stop = v.start + row.length ∧
    row <+: (L.abs v.data).drop v.start ∧ v.stop ≤ (L.abs v.data).length

variable {L}

theorem view_ok {v : RowView K.C} {row : List O} (h : Rep L v row) {i : Nat} (hi : i < row.length) :
    ∃ x, view K v i = .ok (some x) ∧ L.VRep x row[i] := by
  obtain ⟨h1, h2, h3, h4⟩ := h
  obtain ⟨hd, he⟩ := OffsetView.prefix_get h3 hi
  obtain ⟨x, hx, hr⟩ := L.view_some h1 hd
  refine ⟨x, ?_, by rw [← he]; exact hr⟩
  have := L.len_le h1
  unfold view strictAdd
  rw [if_pos (by omega)]
  simp only [Res.bind]
  rw [if_pos (by omega), hx]

theorem len_ok {v : RowView K.C} {row : List O} (h : Rep L v row) : v.len = .ok row.length := by
  obtain ⟨h1, h2, h3, h4⟩ := h
  unfold len strictSub
  rw [if_pos (by omega)]; congr 1; omega

theorem toOwned_ok {v : RowView K.C} {row : List O} (h : Rep L v row) :
    toOwned K v = .ok row := by
  unfold toOwned
  rw [len_ok h]
  simp only [Res.bind]
  refine collectRange_ok row 0 fun j hj => ?_
  obtain ⟨x, h1, h2⟩ := view_ok h hj
  rw [Nat.zero_add, h1]
  simp [Res.expect, L.owned_ok h2]

theorem view_none {v : RowView K.C} {row : List O} (h : Rep L v row) {i : Nat}
    (hi : row.length ≤ i) : view K v i = if v.start + i ≤ usizeMax then .ok none else .panic := by
  obtain ⟨h1, h2, h3, h4⟩ := h
  unfold view strictAdd
  split
  · simp only [Res.bind]
    rw [if_neg (by omega)]
  · rfl

end RowView

/-- A list view is a lawful collection of its elements. -/
@[reducible] def rowViewCL {K : Coll O} (L : LawfulColl K) : LawfulColl (rowViewC K) where
  Inv v := ∃ row, RowView.Rep L v row
  abs v := ((L.abs v.data).drop v.start).take (v.stop - v.start)
  VRep x o := L.VRep x o
  IRep it l := ∃ row, RowView.Rep L it.c row ∧ it.stop = row.length ∧ it.start ≤ it.stop ∧
    l = row.drop it.start
  JRep it l := ∃ row, RowView.Rep L it.c row ∧ it.stop = row.length ∧ it.start ≤ it.stop ∧
    l = row.drop it.start
  len_ok {v} h := by
    obtain ⟨row, h⟩ := h
    refine (RowView.len_ok h).trans ?_
    obtain ⟨h1, h2, h3, h4⟩ := h
    simp; omega
  len_le {v} h := by
    obtain ⟨row, h1, h2, h3, h4⟩ := h
    have := L.len_le h1
    simp; omega
  view_some {v i} h hi := by
    obtain ⟨row, h⟩ := h
    have hrow : ((L.abs v.data).drop v.start).take (v.stop - v.start) = row := by
      obtain ⟨h1, h2, h3, h4⟩ := h
      rw [h2, Nat.add_sub_cancel_left]; exact (List.prefix_iff_eq_take.mp h3).symm
    obtain ⟨x, h1, h2⟩ := RowView.view_ok h (i := i) (by rw [← hrow]; exact hi)
    refine ⟨x, h1, ?_⟩
    simp only [hrow]; exact h2
  owned_ok h := L.owned_ok h
  iter_ok {v} h := by
    obtain ⟨row, h⟩ := h
    refine ⟨⟨0, row.length, v⟩, by simp [RowView.len_ok h, Res.map], row, h, rfl, by simp, ?_⟩
    obtain ⟨h1, h2, h3, h4⟩ := h
    rw [h2, Nat.add_sub_cancel_left]; exact (List.prefix_iff_eq_take.mp h3).symm
  inext_nil {it} h := by
    obtain ⟨row, h1, h2, h3, h4⟩ := h
    have : ¬ it.start < it.stop := by
      have := congrArg List.length h4; simp at this; omega
    exact ⟨it, by simp [RangeIter.next, this], row, h1, h2, h3, h4⟩
  inext_cons {it o l} h := by
    obtain ⟨row, h1, h2, h3, h4⟩ := h
    have hlt : it.start < it.stop := by
      have := congrArg List.length h4; simp at this; omega
    obtain ⟨v, hv, hr⟩ := RowView.view_ok h1 (i := it.start) (by omega)
    rw [List.drop_eq_getElem_cons (by omega)] at h4
    simp only [List.cons.injEq] at h4
    refine ⟨v, { it with start := it.start + 1 }, ?_, ?_, row, h1, h2, by simp only; omega, h4.2⟩
    · simp [RangeIter.next, hlt, hv, Res.expect, Res.map]
    · rw [h4.1]; exact hr
  ilen_ok {it l} h := by
    obtain ⟨row, h1, h2, h3, h4⟩ := h
    simp [RangeIter.len, h4, h2]
  into_ok {v} h := by
    obtain ⟨row, h⟩ := h
    refine ⟨⟨0, row.length, v⟩, by simp [RowView.len_ok h, Res.map], row, h, rfl, by simp, ?_⟩
    obtain ⟨h1, h2, h3, h4⟩ := h
    rw [h2, Nat.add_sub_cancel_left]; exact (List.prefix_iff_eq_take.mp h3).symm
  jnext_nil {it} h := by
    obtain ⟨row, h1, h2, h3, h4⟩ := h
    have : ¬ it.start < it.stop := by
      have := congrArg List.length h4; simp at this; omega
    exact ⟨it, by simp [RangeIter.next, this], row, h1, h2, h3, h4⟩
  jnext_cons {it o l} h := by
    obtain ⟨row, h1, h2, h3, h4⟩ := h
    have hlt : it.start < it.stop := by
      have := congrArg List.length h4; simp at this; omega
    obtain ⟨v, hv, hr⟩ := RowView.view_ok h1 (i := it.start) (by omega)
    rw [List.drop_eq_getElem_cons (by omega)] at h4
    simp only [List.cons.injEq] at h4
    refine ⟨{ it with start := it.start + 1 }, ?_, row, h1, h2, by simp only; omega, h4.2⟩
    simp [RangeIter.next, hlt, hv, Res.expect, Res.map, L.owned_ok hr, h4.1]
  jlen_ok {it l} h := by
    obtain ⟨row, h1, h2, h3, h4⟩ := h
    simp [RangeIter.len, h4, h2]

theorem rowView_abs {K : Coll O} {L : LawfulColl K} {v : RowView K.C} {row : List O}
    (h : RowView.Rep L v row) : (rowViewCL L).abs v = row := by
  obtain ⟨h1, h2, h3, h4⟩ := h
  show ((L.abs v.data).drop v.start).take (v.stop - v.start) = row
  rw [h2, Nat.add_sub_cancel_left]; exact (List.prefix_iff_eq_take.mp h3).symm

namespace OffsetsIn

/-! ## Reading -/

section
variable {D : Buf Int} {K : Coll O} (LD : LawfulColl D.toColl) (L : LawfulColl K)

/-- The offsets are the running totals of rows stored at the front of the data. -/
structure Rep (c : OffsetsIn K.C D.C) (rows : List (List O)) : Prop where
  off : LD.Inv c.offsets
  inv : L.Inv c.data
  items : LD.abs c.offsets = totals 0 rows
  pre : rows.flatten <+: L.abs c.data

/-- The rows. -/
def abs (c : OffsetsIn K.C D.C) : List (List O) := slices (L.abs c.data) (LD.abs c.offsets)

/-- The invariant. -/
def Inv (c : OffsetsIn K.C D.C) : Prop := Rep LD L c (abs LD L c)

variable {LD L}

theorem Rep.abs_eq {c : OffsetsIn K.C D.C} {rows : List (List O)} (h : Rep LD L c rows) :
    abs LD L c = rows := by
  unfold abs
  rw [h.items]
  exact slices_totals _ 0 rows (by simpa using h.pre)

theorem Rep.toInv {c : OffsetsIn K.C D.C} {rows : List (List O)} (h : Rep LD L c rows) :
    Inv LD L c ∧ abs LD L c = rows := by
  have := h.abs_eq
  exact ⟨by unfold Inv; rw [this]; exact h, this⟩

theorem Inv.small {c : OffsetsIn K.C D.C} (h : Inv LD L c) : (abs LD L c).length + 1 ≤ usizeMax := by
  have := LD.len_le h.off
  rwa [h.items, totals_length] at this

theorem strictAdd_one {n : Nat} (h : n + 1 ≤ usizeMax) : strictAdd n 1 = .ok (n + 1) := by
  unfold strictAdd; rw [if_pos h]

theorem Inv.len_ok {c : OffsetsIn K.C D.C} (h : Inv LD L c) : len D c = .ok (abs LD L c).length := by
  unfold len
  rw [LD.len_ok h.off, h.items, totals_length]
  simp [Res.bind, strictSub]

theorem view_eq {c : OffsetsIn K.C D.C} (h : Inv LD L c) {i : Nat} (hi : i < (abs LD L c).length) :
    view D c i = .ok (some ⟨c.data, (((abs LD L c).take i).flatten).length,
      (((abs LD L c).take (i + 1)).flatten).length⟩) := by
  have hs := h.small
  unfold view
  rw [LD.owned_some h.off (by rw [h.items]; exact totals_get _ _ i (by omega))]
  simp only [Res.bind]
  rw [strictAdd_one (by omega)]
  simp only
  rw [LD.owned_some h.off (by rw [h.items]; exact totals_get _ _ (i + 1) (by omega))]
  simp [asUsize_ofNat, Res.map]

theorem view_rep {c : OffsetsIn K.C D.C} (h : Inv LD L c) {i : Nat} (hi : i < (abs LD L c).length) :
    ∃ v, view D c i = .ok (some v) ∧ RowView.Rep L v (abs LD L c)[i] := by
  refine ⟨_, view_eq h hi, h.inv, ?_, prefix_row h.pre hi, ?_⟩
  · rw [flatten_take_succ _ _ hi, List.length_append]
  · have h1 : (((abs LD L c).take (i + 1)).flatten) <+: (abs LD L c).flatten := by
      refine ⟨((abs LD L c).drop (i + 1)).flatten, ?_⟩
      rw [← List.flatten_append, List.take_append_drop]
    exact (List.IsPrefix.trans h1 h.pre).length_le

/-- The owning iterator over the remaining rows. -/
def IntoRep (LD : LawfulColl D.toColl) (L : LawfulColl K) (it : OffsetIntoIterOf K.C D.J)
    (rows : List (List O)) : Prop :=
  ∃ (p : Nat) (rest : List Int), L.Inv it.data ∧ it.position = (p : Int) ∧
    LD.JRep it.offsets rest ∧ (p : Int) :: rest = totals p rows ∧
    rows.flatten <+: (L.abs it.data).drop p

theorem intoNext_nil {it : OffsetIntoIterOf K.C D.J} (h : IntoRep LD L it []) :
    ∃ it', intoNext D K it = .ok (none, it') ∧ IntoRep LD L it' [] := by
  obtain ⟨p, rest, h1, h2, h5, h3, h4⟩ := h
  have : rest = [] := by simpa [totals] using h3
  subst this
  obtain ⟨o, e1, e2⟩ := LD.jnext_nil h5
  exact ⟨⟨it.data, o, it.position⟩, by simp [intoNext, e1, Res.bind], p, [], h1, h2, e2, h3, h4⟩

theorem intoNext_cons {it : OffsetIntoIterOf K.C D.J} {r : List O} {rows : List (List O)}
    (h : IntoRep LD L it (r :: rows)) :
    ∃ it', intoNext D K it = .ok (some r, it') ∧ IntoRep LD L it' rows := by
  obtain ⟨p, rest, h1, h2, h5, h3, h4⟩ := h
  simp only [totals, List.cons.injEq, true_and] at h3
  obtain ⟨t, ht⟩ := totals_cons (p + r.length) rows
  rw [ht] at h3
  subst h3
  obtain ⟨o, e1, e2⟩ := LD.jnext_cons h5
  have hr : r <+: (L.abs it.data).drop p := List.IsPrefix.trans (by simp) h4
  refine ⟨⟨it.data, o, ((p + r.length : Nat) : Int)⟩, ?_, p + r.length, t, h1, rfl, e2, ht.symm, ?_⟩
  · unfold intoNext
    rw [e1, h2]
    simp only [asUsize_ofNat, Res.bind, Nat.add_sub_cancel_left]
    rw [collectRange_ok r p fun j hj => ?_]
    · rfl
    · obtain ⟨hd, he⟩ := OffsetView.prefix_get hr hj
      obtain ⟨x, hx, hv⟩ := L.view_some h1 hd
      rw [hx]
      simp only [Res.expect]
      rw [L.owned_ok hv, he]
  · obtain ⟨t, ht⟩ := h4
    refine ⟨t, ?_⟩
    rw [← List.drop_drop, ← ht, List.flatten_cons, List.append_assoc, List.drop_left]

end

end OffsetsIn

/-- Lists are read lawfully. -/
def offsetsBL {D : Buf Int} {K : Coll O} (LD : LawfulColl D.toColl) (L : LawfulColl K) :
    LawfulColl (offsetsBC D K) where
  Inv c := OffsetsIn.Inv LD L c
  abs c := OffsetsIn.abs LD L c
  VRep v row := RowView.Rep L v row
  IRep it l := OffsetsIn.Inv LD L it.c ∧ it.stop = (OffsetsIn.abs LD L it.c).length ∧
    it.start ≤ it.stop ∧ l = (OffsetsIn.abs LD L it.c).drop it.start
  JRep it l := OffsetsIn.IntoRep LD L it l
  len_ok h := OffsetsIn.Inv.len_ok h
  len_le h := by have := OffsetsIn.Inv.small h; omega
  view_some h hi := OffsetsIn.view_rep h hi
  owned_ok h := RowView.toOwned_ok h
  iter_ok {c} h := ⟨⟨0, (OffsetsIn.abs LD L c).length, c⟩,
    by simp [OffsetsIn.Inv.len_ok h, Res.map], h, rfl, by simp, by simp⟩
  inext_nil {it} h := by
    obtain ⟨h1, h2, h3, h4⟩ := h
    have : ¬ it.start < it.stop := by
      have := congrArg List.length h4; simp at this; omega
    exact ⟨it, by simp [RangeIter.next, this], h1, h2, h3, h4⟩
  inext_cons {it o l} h := by
    obtain ⟨h1, h2, h3, h4⟩ := h
    have hlt : it.start < it.stop := by
      have := congrArg List.length h4; simp at this; omega
    obtain ⟨v, hv, hr⟩ := OffsetsIn.view_rep h1 (i := it.start) (by omega)
    rw [List.drop_eq_getElem_cons (by omega)] at h4
    simp only [List.cons.injEq] at h4
    refine ⟨v, { it with start := it.start + 1 }, ?_, ?_, h1, h2, by simp only; omega, h4.2⟩
    · simp [RangeIter.next, hlt, hv, Res.expect, Res.map]
    · rw [h4.1]; exact hr
  ilen_ok {it l} h := by
    obtain ⟨h1, h2, h3, h4⟩ := h
    simp [RangeIter.len, h4, h2]
  into_ok {c} h := by
    obtain ⟨t, ht⟩ := totals_cons 0 (OffsetsIn.abs LD L c)
    obtain ⟨it, e1, e2⟩ := LD.into_ok h.off
    rw [h.items, ht] at e2
    obtain ⟨it', e3, e4⟩ := LD.jnext_cons e2
    refine ⟨⟨c.data, it', 0⟩, ?_, 0, t, h.inv, rfl, e4, ht.symm, by simpa using h.pre⟩
    simp [OffsetsIn.into, e1, Res.bind, e3]
  jnext_nil h := OffsetsIn.intoNext_nil h
  jnext_cons h := OffsetsIn.intoNext_cons h
  jlen_ok {it l} h := by
    obtain ⟨p, rest, h1, h2, h5, h3, h4⟩ := h
    have := congrArg List.length h3
    simp at this
    exact (LD.jlen_ok h5).trans (by rw [this])

namespace OffsetsIn

/-! ## Growing -/

variable {D : Backing Int} {R : Realloc O} {LD : LawfulB D} {L : LawfulR R} {ow : OffW}

variable (LD L) in
/-- Invariant of a collection of lists. -/
abbrev Ok (c : Of D R) : Prop := Inv (D := D.toBuf) LD.toLawfulColl L.toLawfulColl c

variable (LD L) in
/-- Its rows. -/
abbrev rows (c : Of D R) : List (List O) := abs (D := D.toBuf) LD.toLawfulColl L.toLawfulColl c

/-- State between two rows: no data beyond the rows. -/
structure Mid (LD : LawfulB D) (L : LawfulR R) (c : Of D R) (rs : List (List O)) : Prop where
  off : LD.Inv c.offsets
  inv : L.Inv c.data
  items : LD.abs c.offsets = totals 0 rs
  data : L.abs c.data = rs.flatten

theorem Mid.toInv {c : Of D R} {rs : List (List O)} (h : Mid LD L c rs) :
    Ok LD L c ∧ rows LD L c = rs :=
  Rep.toInv (D := D.toBuf) (LD := LD.toLawfulColl) (L := L.toLawfulColl)
    ⟨h.off, h.inv, h.items, by rw [h.data]; exact List.prefix_refl _⟩

theorem extendLoop_spec : ∀ (s : Src (List O)) (c : Of D R) (rs : List (List O)),
    Mid LD L c rs → ∀ c' o,
    extendLoop ow D R c.data c.offsets (rs.flatten.length : Int) s = (c', o) →
      o ≠ .err ∧ (o = .ok → Mid LD L c' (rs ++ s.items) ∧ s.panics = false)
  | [], c, rs, hm, c', o, h => by
    simp only [extendLoop, Prod.mk.injEq] at h
    obtain ⟨rfl, rfl⟩ := h
    exact ⟨by simp, fun _ => ⟨by simpa [Src.items] using hm, rfl⟩⟩
  | .none :: s, c, rs, hm, c', o, h => by
    simp only [extendLoop, Prod.mk.injEq] at h
    obtain ⟨rfl, rfl⟩ := h
    exact ⟨by simp, fun _ => ⟨by simpa [Src.items] using hm, rfl⟩⟩
  | .panic :: s, c, rs, hm, c', o, h => by
    simp only [extendLoop, Prod.mk.injEq] at h
    obtain ⟨rfl, rfl⟩ := h
    exact ⟨by simp, by simp⟩
  | .item r :: s, c, rs, hm, c', o, h => by
    simp only [extendLoop] at h
    split at h
    · next hfit =>
      generalize hV : R.reserve c.data r.length = V at *
      obtain ⟨d1, o1⟩ := V
      obtain ⟨v1, v2, v3, -⟩ := L.reserve_ok hm.inv hV
      cases o1 with
      | err => exact absurd rfl v3
      | panic =>
        simp only [Prod.mk.injEq] at h
        obtain ⟨rfl, rfl⟩ := h
        exact ⟨by simp, by simp⟩
      | ok =>
        simp only at h
        have hne := L.ext_ne (Src.ofList r) v1
        generalize hE : R.extend d1 (Src.ofList r) = E at *
        obtain ⟨d2, o2⟩ := E
        cases o2 with
        | err => exact absurd rfl hne
        | panic =>
          simp only [Prod.mk.injEq] at h
          obtain ⟨rfl, rfl⟩ := h
          exact ⟨by simp, by simp⟩
        | ok =>
          simp only at h
          obtain ⟨e1, e2, -⟩ := L.ext_ok v1 hE
          rw [v2, hm.data, Src.items_ofList] at e2
          have hne2 := LD.ext_ne [.item ((rs.flatten.length : Int) + r.length)] hm.off
          generalize hF : D.extend c.offsets [.item ((rs.flatten.length : Int) + r.length)] = F at *
          obtain ⟨of, o3⟩ := F
          simp only at h hne2
          cases o3 with
          | err => exact absurd rfl hne2
          | panic =>
            simp only [Prod.mk.injEq] at h
            obtain ⟨rfl, rfl⟩ := h
            exact ⟨by simp, by simp⟩
          | ok =>
            obtain ⟨k1, k2, -⟩ := LD.ext_ok hm.off hF
            have hm' : Mid LD L ⟨d2, of⟩ (rs ++ [r]) := by
              refine ⟨k1, e1, ?_, by simp [e2]⟩
              simp only [k2, hm.items, totals_snoc]
              simp [Src.items]
            have hpos : ((rs.flatten.length : Int) + r.length) = (((rs ++ [r]).flatten.length : Nat) : Int) := by
              simp
            simp only [hpos] at h
            obtain ⟨i1, i2⟩ := extendLoop_spec s ⟨d2, of⟩ (rs ++ [r]) hm' c' o h
            simp only [List.append_assoc, List.singleton_append] at i2
            exact ⟨i1, i2⟩
    · next hfit =>
      simp only [Prod.mk.injEq] at h
      obtain ⟨rfl, rfl⟩ := h
      exact ⟨by simp, by simp⟩

theorem last_ok {c : Of D R} {rs : List (List O)} (h0 : LD.Inv c.offsets)
    (h : LD.abs c.offsets = totals 0 rs) : last D c = .ok (rs.flatten.length : Int) := by
  simp [last, LD.borrow_ok h0, h, totals_getLast]

/-- Dropping unreferenced data. -/
theorem Mid.of_inv {c : Of D R} {d : R.C} (h : Ok LD L c) (h2 : L.Inv d)
    (h3 : L.abs d = (L.abs c.data).take (rows LD L c).flatten.length) :
    Mid LD L ⟨d, c.offsets⟩ (rows LD L c) :=
  ⟨h.off, h2, h.items, by rw [h3]; exact (List.prefix_iff_eq_take.mp h.pre).symm⟩

theorem extend_spec {c c' : Of D R} {s : Src (List O)} {o : Out}
    (hc : Ok LD L c) (h : extend ow D R c s = (c', o)) :
    o ≠ .err ∧ (o = .ok → Mid LD L c' (rows LD L c ++ s.items) ∧ s.panics = false) := by
  unfold extend at h
  rw [last_ok hc.off hc.items] at h
  simp only [asUsize_ofNat] at h
  obtain ⟨d, h1, h2, h3, -⟩ := L.trunc_ok (rows LD L c).flatten.length hc.inv
  simp only [h1] at h
  exact extendLoop_spec s ⟨d, c.offsets⟩ _ (Mid.of_inv hc h2 h3) c' o h

theorem extendLoop_fuse : ∀ (s : Src (List O)) (d : R.C) (of : D.C) (p : Int),
    extendLoop ow D R d of p s = extendLoop ow D R d of p s.fuse
  | [], d, of, p => rfl
  | .none :: s, d, of, p => rfl
  | .panic :: s, d, of, p => rfl
  | .item r :: s, d, of, p => by
    simp only [extendLoop, Src.fuse, extendLoop_fuse s]

theorem tryExtendLoop_fuse (n m : Nat) : ∀ (s : Src (List O)) (w : World) (d : R.C) (of : D.C)
    (p : Int), tryExtendLoop ow D R n m w d of p s = tryExtendLoop ow D R n m w d of p s.fuse
  | [], w, d, of, p => rfl
  | .none :: s, w, d, of, p => rfl
  | .panic :: s, w, d, of, p => rfl
  | .item r :: s, w, d, of, p => by
    simp only [tryExtendLoop, Src.fuse, tryExtendLoop_fuse n m s]

/-- Rolling back to the first rows. -/
theorem rollback_spec {d : R.C} {of : D.C} {w w' : World} {c' : Of D R} {o : Out}
    {rs more : List (List O)} (hw : LD.Inv of) (hd : L.Inv d)
    (hi : LD.abs of = totals 0 (rs ++ more)) (hp : rs.flatten <+: L.abs d)
    (h : rollback D R d of rs.length rs.flatten.length w = (c', o, w')) :
    o = .err ∧ Mid LD L c' rs := by
  have hs := LD.len_le hw
  rw [hi, totals_length, List.length_append] at hs
  unfold rollback at h
  rw [strictAdd_one (by omega)] at h
  obtain ⟨of', g1, g2, g3, -⟩ := LD.trunc_ok (rs.length + 1) hw
  obtain ⟨d', h1, h2, h3, -⟩ := L.trunc_ok rs.flatten.length hd
  simp only [g1, h1, Prod.mk.injEq] at h
  obtain ⟨rfl, rfl, rfl⟩ := h
  refine ⟨rfl, ⟨g2, h2, ?_, ?_⟩⟩
  · simp only [g3, hi]
    rw [totals_take _ _ _ (by simp), List.take_left']
    rfl
  · simp only [h3]; exact (List.prefix_iff_eq_take.mp hp).symm

theorem tryExtendLoop_spec (rows0 : List (List O)) : ∀ (s : Src (List O)) (w : World)
    (c : Of D R) (more : List (List O)), Mid LD L c (rows0 ++ more) → ∀ c' o w',
    tryExtendLoop ow D R rows0.length rows0.flatten.length w c.data c.offsets
        ((rows0 ++ more).flatten.length : Int) s = (c', o, w') →
      (o = .ok → Mid LD L c' (rows0 ++ more ++ s.items) ∧ s.panics = false) ∧
      (o = .err → Mid LD L c' rows0) ∧
      (s.panics = false → o ≠ .panic)
  | [], w, c, more, hm, c', o, w', h => by
    simp only [tryExtendLoop, Prod.mk.injEq] at h
    obtain ⟨rfl, rfl, rfl⟩ := h
    exact ⟨fun _ => ⟨by simpa [Src.items] using hm, rfl⟩, by simp, by simp⟩
  | .none :: s, w, c, more, hm, c', o, w', h => by
    simp only [tryExtendLoop, Prod.mk.injEq] at h
    obtain ⟨rfl, rfl, rfl⟩ := h
    exact ⟨fun _ => ⟨by simpa [Src.items] using hm, rfl⟩, by simp, by simp⟩
  | .panic :: s, w, c, more, hm, c', o, w', h => by
    simp only [tryExtendLoop, Prod.mk.injEq] at h
    obtain ⟨rfl, rfl, rfl⟩ := h
    exact ⟨by simp, by simp, by simp [Src.panics]⟩
  | .item r :: s, w, c, more, hm, c', o, w', h => by
    simp only [tryExtendLoop, asUsize_ofNat] at h
    split at h
    · next hfit =>
      have hnp := L.tryExt_np (w := w) (s := Src.ofList r) hm.inv (by simp)
      generalize hE : R.tryExtend w c.data (Src.ofList r) = E at *
      obtain ⟨d1, o1, w1⟩ := E
      cases o1 with
      | panic => exact absurd rfl hnp
      | err =>
        simp only at h
        obtain ⟨e1, e2⟩ := L.tryExt_err hm.inv hE
        obtain ⟨rfl, r2⟩ := rollback_spec (L := L) hm.off e1 hm.items
          (by rw [e2, hm.data]; simp) h
        exact ⟨by simp, fun _ => r2, by simp⟩
      | ok =>
        simp only at h
        obtain ⟨e1, e2, -⟩ := L.tryExt_ok hm.inv hE
        rw [hm.data, Src.items_ofList] at e2
        have hnp2 := LD.tryExt_np (w := w1)
          (s := [.item ((((rows0 ++ more).flatten.length + r.length : Nat)) : Int)]) hm.off (by simp [Src.panics])
        generalize hF : D.tryExtend w1 c.offsets
          [.item ((((rows0 ++ more).flatten.length + r.length : Nat)) : Int)] = F at *
        obtain ⟨of, o2, w2⟩ := F
        cases o2 with
        | panic => exact absurd rfl hnp2
        | err =>
          simp only at h
          obtain ⟨k1, k2⟩ := LD.tryExt_err hm.off hF
          obtain ⟨rfl, r2⟩ := rollback_spec (L := L) (more := more) k1 e1
            (by rw [k2]; exact hm.items) (by rw [e2, List.flatten_append, List.append_assoc]; exact List.prefix_append _ _) h
          exact ⟨by simp, fun _ => r2, by simp⟩
        | ok =>
          simp only at h
          obtain ⟨k1, k2, -⟩ := LD.tryExt_ok hm.off hF
          have hm' : Mid LD L ⟨d1, of⟩ (rows0 ++ (more ++ [r])) := by
            rw [← List.append_assoc]
            refine ⟨k1, e1, ?_, by simp [e2]⟩
            simp only [k2, hm.items, totals_snoc]
            simp [Src.items]; omega
          have hpos : ((rows0 ++ more).flatten.length + r.length : Nat) =
              (rows0 ++ (more ++ [r])).flatten.length := by
            simp only [List.flatten_append, List.length_append]; simp; omega
          rw [hpos] at h
          obtain ⟨i1, i2, i3⟩ := tryExtendLoop_spec rows0 s w2 ⟨d1, of⟩ (more ++ [r]) hm' c' o w' h
          have hass : rows0 ++ (more ++ [r]) ++ Src.items s = rows0 ++ more ++ Src.items (.item r :: s) := by
            simp [Src.items]
          rw [hass] at i1
          exact ⟨i1, i2, i3⟩
    · next hfit =>
      obtain ⟨rfl, r2⟩ := rollback_spec (L := L) hm.off hm.inv hm.items
        (by rw [hm.data]; simp) h
      exact ⟨by simp, fun _ => r2, by simp⟩

theorem tryExtend_spec {w w' : World} {c c' : Of D R} {s : Src (List O)} {o : Out}
    (hc : Ok LD L c) (h : tryExtend ow D R w c s = (c', o, w')) :
    (o = .ok → Mid LD L c' (rows LD L c ++ s.items) ∧ s.panics = false) ∧
    (o = .err → Mid LD L c' (rows LD L c)) ∧
    (s.panics = false → o ≠ .panic) := by
  unfold tryExtend at h
  rw [last_ok hc.off hc.items, hc.len_ok] at h
  simp only [asUsize_ofNat] at h
  obtain ⟨d, h1, h2, h3, -⟩ := L.trunc_ok (rows LD L c).flatten.length hc.inv
  simp only [h1] at h
  have hm := Mid.of_inv hc h2 h3
  obtain ⟨e1, e2, e3⟩ := tryExtendLoop_spec (L := L) (rows LD L c) s w ⟨d, c.offsets⟩ []
    (by simpa using hm) c' o w' (by simpa using h)
  simp only [List.append_nil] at e1
  exact ⟨e1, e2, e3⟩

/-- Storage replaced without changing contents. -/
theorem same {c : Of D R} (hc : Ok LD L c) {d : R.C} {of : D.C} (h1 : L.Inv d)
    (h2 : L.abs d = L.abs c.data) (h3 : LD.Inv of) (h4 : LD.abs of = LD.abs c.offsets) :
    Ok LD L ⟨d, of⟩ ∧ rows LD L ⟨d, of⟩ = rows LD L c :=
  Rep.toInv (D := D.toBuf) (LD := LD.toLawfulColl) (L := L.toLawfulColl)
    ⟨h3, h1, h4.trans hc.items, by simp only [h2]; exact hc.pre⟩

theorem reserve_spec {c c' : Of D R} {n : Nat} {o : Out} (hc : Ok LD L c)
    (h : reserve D R c n = (c', o)) :
    Ok LD L c' ∧ rows LD L c' = rows LD L c ∧ o ≠ .err := by
  unfold reserve at h
  generalize hV : R.reserve c.data n = V at *
  obtain ⟨d, o1⟩ := V
  obtain ⟨v1, v2, v3, -⟩ := L.reserve_ok hc.inv hV
  cases o1 with
  | err => exact absurd rfl v3
  | panic =>
    simp only [Prod.mk.injEq] at h
    obtain ⟨rfl, rfl⟩ := h
    obtain ⟨k1, k2⟩ := same hc v1 v2 hc.off rfl
    exact ⟨k1, k2, by simp⟩
  | ok =>
    simp only [Prod.mk.injEq] at h
    obtain ⟨rfl, rfl⟩ := h
    obtain ⟨w1, w2, w3, -⟩ := LD.reserve_ok hc.off (n := n) rfl
    obtain ⟨k1, k2⟩ := same hc v1 v2 w1 w2
    exact ⟨k1, k2, w3⟩

theorem tryReserve_spec {w w' : World} {c c' : Of D R} {n : Nat} {o : Out}
    (hc : Ok LD L c) (h : tryReserve D R w c n = (c', o, w')) :
    Ok LD L c' ∧ rows LD L c' = rows LD L c ∧ o ≠ .panic := by
  unfold tryReserve at h
  generalize hV : R.tryReserve w c.data n = V at *
  obtain ⟨d, o1, w1⟩ := V
  obtain ⟨v1, v2, v3, -⟩ := L.tryReserve_ok hc.inv hV
  cases o1 with
  | panic => exact absurd rfl v3
  | err =>
    simp only [Prod.mk.injEq] at h
    obtain ⟨rfl, rfl, rfl⟩ := h
    obtain ⟨k1, k2⟩ := same hc v1 v2 hc.off rfl
    exact ⟨k1, k2, by simp⟩
  | ok =>
    simp only [Prod.mk.injEq] at h
    obtain ⟨rfl, rfl, rfl⟩ := h
    obtain ⟨u1, u2, u3, -⟩ := LD.tryReserve_ok hc.off (w := w1) (n := n) rfl
    obtain ⟨k1, k2⟩ := same hc v1 v2 u1 u2
    exact ⟨k1, k2, u3⟩

theorem trunc_ok {c : Of D R} (n : Nat) (hc : Ok LD L c) :
    ∃ c', truncate D R c n = (c', .ok) ∧ Ok LD L c' ∧ rows LD L c' = (rows LD L c).take n := by
  unfold truncate
  rw [hc.len_ok]
  simp only
  split
  · next hn =>
    have hs := hc.small
    have hown : D.toColl.owned c.offsets n = _ :=
      LD.owned_some hc.off (by rw [hc.items]; exact totals_get 0 _ n (Nat.le_of_lt hn))
    rw [hown]
    simp only [Res.expect, Res.bind, asUsize_ofNat, Nat.zero_add]
    rw [strictAdd_one (by omega)]
    obtain ⟨of, g1, g2, g3, -⟩ := LD.trunc_ok (n + 1) hc.off
    obtain ⟨d, h1, h2, h3, -⟩ := L.trunc_ok ((rows LD L c).take n).flatten.length hc.inv
    simp only [g1, h1]
    have hpre : ((rows LD L c).take n).flatten <+: L.abs c.data := by
      refine List.IsPrefix.trans ⟨((rows LD L c).drop n).flatten, ?_⟩ hc.pre
      rw [← List.flatten_append, List.take_append_drop]
    have hm : Mid LD L ⟨d, of⟩ ((rows LD L c).take n) := by
      refine ⟨g2, h2, ?_, ?_⟩
      · simp only [g3, hc.items]
        exact totals_take _ _ _ (Nat.le_of_lt hn)
      · simp only [h3]; exact (List.prefix_iff_eq_take.mp hpre).symm
    exact ⟨_, rfl, hm.toInv.1, hm.toInv.2⟩
  · next hn =>
    exact ⟨c, rfl, hc, (List.take_of_length_le (Nat.le_of_not_lt hn)).symm⟩

theorem mid_nil {d : R.C} {of : D.C} (hd : L.Inv d ∧ L.abs d = []) (hw : LD.Inv of)
    (hi : LD.abs of = [0]) : Mid LD L ⟨d, of⟩ [] :=
  ⟨hw, hd.1, by simp [hi, totals], by simp [hd.2]⟩

theorem withCap_ok {n : Nat} {c : Of D R} (h : withCap D R n = .ok c) : Mid LD L c [] := by
  unfold withCap at h
  split at h
  · simp at h
  · simp at h
  · next d hd =>
    obtain ⟨d1, d2, -⟩ := L.withCap_ok hd
    split at h
    · simp at h
    · split at h
      · simp at h
      · simp at h
      · next of hof =>
        obtain ⟨o1, o2, -⟩ := LD.withCap_ok hof
        split at h
        · next of' hof' =>
          simp only [Try.ok.injEq] at h
          subst h
          obtain ⟨h1, h2, -⟩ := LD.ext_ok o1 hof'
          exact mid_nil ⟨d1, d2⟩ h1 (by rw [h2, o2]; rfl)
        · simp at h

theorem withCap_ne (LD : LawfulB D) (L : LawfulR R) (n : Nat) : withCap D R n ≠ .err := by
  unfold withCap
  have h1 := L.withCap_ne n
  split
  · simp_all
  · simp
  · split
    · simp
    · next k _ =>
      have h2 := LD.withCap_ne k
      split
      · simp_all
      · simp
      · split <;> simp

theorem empty_mid (hz : (D.extend D.empty [.item 0]).2 = .ok) : Mid LD L (empty D R) [] := by
  obtain ⟨h1, h2, -⟩ := L.empty_ok
  obtain ⟨g1, g2, -⟩ := LD.empty_ok
  obtain ⟨k1, k2, -⟩ := LD.ext_ok g1 (Prod.ext rfl hz)
  exact mid_nil ⟨h1, h2⟩ k1 (by rw [k2, g2]; rfl)

/-- The result of a constructor that collects a source. -/
theorem collect_ok {c c' : Of D R} {s : Src (List O)} (hm : Mid LD L c [])
    (h : extend ow D R c s = (c', .ok)) :
    Ok LD L c' ∧ rows LD L c' = s.items ∧ s.panics = false := by
  obtain ⟨-, e2⟩ := extend_spec hm.toInv.1 h
  rw [hm.toInv.2, List.nil_append] at e2
  obtain ⟨m1, m2⟩ := e2 rfl
  exact ⟨m1.toInv.1, m1.toInv.2, m2⟩

theorem fromIter_ok {s : Src (List O)} {c : Of D R} (h : fromIter ow D R s = .ok c) :
    Ok LD L c ∧ rows LD L c = s.items ∧ s.panics = false := by
  unfold fromIter at h
  split at h
  · next hz =>
    split at h
    · next c' heq =>
      simp only [Try.ok.injEq] at h
      subst h
      exact collect_ok (empty_mid hz) heq
    · simp at h
  · simp at h

theorem fromIterIn_ok {w w' : World} {s : Src (List O)} {c : Of D R}
    (h : fromIterIn ow D R w s = (.ok c, w')) :
    Ok LD L c ∧ rows LD L c = s.items ∧ s.panics = false := by
  unfold fromIterIn at h
  split at h
  · next c0 heq0 =>
    have h1 := withCap_ok (LD := LD) (L := L) heq0
    split at h
    · next c' heq =>
      simp only [Prod.mk.injEq, Try.ok.injEq] at h
      obtain ⟨rfl, rfl⟩ := h
      exact collect_ok h1 heq
    · simp at h
  · simp at h
  · simp at h

theorem fromIterIn_ne (LD : LawfulB D) (L : LawfulR R) (w : World) (s : Src (List O)) :
    (fromIterIn ow D R w s).1 ≠ .err := by
  unfold fromIterIn
  have := withCap_ne LD L (w.capHint s.items.length)
  split
  · split <;> simp
  · simp_all
  · simp

theorem tryWithCap_ok {w w' : World} {n : Nat} {c : Of D R}
    (h : tryWithCap D R w n = (.ok c, w')) : Mid LD L c [] := by
  unfold tryWithCap at h
  split at h
  · simp at h
  · split at h
    · simp at h
    · simp at h
    · next d w1 hd =>
      obtain ⟨d1, d2, -⟩ := L.tryWithCap_ok hd
      split at h
      · simp at h
      · simp at h
      · next of w2 hof =>
        obtain ⟨o1, o2, -⟩ := LD.tryWithCap_ok hof
        split at h
        · next of' w3 hof' =>
          simp only [Prod.mk.injEq, Try.ok.injEq] at h
          obtain ⟨rfl, rfl⟩ := h
          obtain ⟨k1, k2, -⟩ := LD.tryExt_ok o1 hof'
          exact mid_nil ⟨d1, d2⟩ k1 (by rw [k2, o2]; rfl)
        · simp at h
        · simp at h

theorem tryWithCap_np (LD : LawfulB D) (L : LawfulR R) (w : World) (n : Nat) :
    (tryWithCap D R w n).1 ≠ .panic := by
  unfold tryWithCap
  split
  · simp
  · next k _ =>
    have h1 := L.tryWithCap_np w n
    split
    · simp
    · next heq => rw [heq] at h1; simp at h1
    · next d w1 hd =>
      have h2 := LD.tryWithCap_np w1 k
      split
      · simp
      · next heq => rw [heq] at h2; simp at h2
      · next of w2 hof =>
        obtain ⟨o1, o2, -⟩ := LD.tryWithCap_ok hof
        have h3 := LD.tryExt_np (w := w2) (s := [.item 0]) o1 rfl
        split
        · simp
        · simp
        · next heq => rw [heq] at h3; simp at h3

theorem tryFromIter_ok {w w' : World} {s : Src (List O)} {c : Of D R}
    (h : tryFromIter ow D R w s = (.ok c, w')) :
    Ok LD L c ∧ rows LD L c = s.items ∧ s.panics = false := by
  unfold tryFromIter at h
  split at h
  · next c0 w1 heq0 =>
    have h1 := tryWithCap_ok (LD := LD) (L := L) heq0
    split at h
    · next c' w2 heq =>
      simp only [Prod.mk.injEq, Try.ok.injEq] at h
      obtain ⟨rfl, rfl⟩ := h
      obtain ⟨e1, -, -⟩ := tryExtend_spec h1.toInv.1 heq
      rw [h1.toInv.2, List.nil_append] at e1
      obtain ⟨m1, m2⟩ := e1 rfl
      exact ⟨m1.toInv.1, m1.toInv.2, m2⟩
    · simp at h
    · simp at h
  · simp at h
  · simp at h

theorem tryFromIter_np (LD : LawfulB D) (L : LawfulR R) {w : World} {s : Src (List O)}
    (hp : s.panics = false) : (tryFromIter ow D R w s).1 ≠ .panic := by
  unfold tryFromIter
  have h0 := tryWithCap_np LD L w.next (w.capHint s.items.length)
  split
  · next c0 w1 heq0 =>
    have h1 := tryWithCap_ok (LD := LD) (L := L) heq0
    split
    · simp
    · simp
    · next he => exact absurd rfl ((tryExtend_spec h1.toInv.1 he).2.2 hp)
  · simp
  · next heq0 => rw [heq0] at h0; simp at h0

end OffsetsIn

open OffsetsIn in
theorem offsetsBG {D : Backing Int} {R : Realloc O} (ow : OffW) (LD : LawfulB D) (L : LawfulR R)
    (hz : (D.extend D.empty [.item 0]).2 = .ok) :
    Grows (offsetsBR ow D R) (offsetsBL (D := D.toBuf) LD.toLawfulColl L.toLawfulColl) where
  empty_ok := (empty_mid (LD := LD) (L := L) hz).toInv
  pulled_fused _ := rfl
  pulled_map f s := by simp
  fromIter_any h := by
    simp only [Prod.mk.injEq] at h
    have := OffsetsIn.fromIter_ok (LD := LD) (L := L) h.1
    exact ⟨this.1, congrArg List.length this.2.1⟩
  fromIterIn_any h := by
    have := OffsetsIn.fromIterIn_ok (LD := LD) (L := L) h
    exact ⟨this.1, congrArg List.length this.2.1⟩
  tryFromIter_any h := (OffsetsIn.tryFromIter_ok (LD := LD) (L := L) h).1
  withCap_ok h := (OffsetsIn.withCap_ok (LD := LD) (L := L) h).toInv
  withCap_ne n := OffsetsIn.withCap_ne LD L n
  fromIter_ok _ h := by
    simp only [Prod.mk.injEq] at h
    exact OffsetsIn.fromIter_ok (LD := LD) (L := L) h.1
  fromIter_ne w s := by
    show OffsetsIn.fromIter ow D R s ≠ .err
    unfold OffsetsIn.fromIter
    split
    · split <;> simp
    · simp
  fromIterIn_ok _ h := OffsetsIn.fromIterIn_ok (LD := LD) (L := L) h
  fromIterIn_ne w s := OffsetsIn.fromIterIn_ne LD L w s
  tryWithCap_ok h := (OffsetsIn.tryWithCap_ok (LD := LD) (L := L) h).toInv
  tryWithCap_np w n := OffsetsIn.tryWithCap_np LD L w n
  tryFromIter_ok _ h := OffsetsIn.tryFromIter_ok (LD := LD) (L := L) h
  tryFromIter_np _ hp := OffsetsIn.tryFromIter_np LD L hp
  ext_ok hc h := by
    obtain ⟨m1, m2⟩ := (OffsetsIn.extend_spec (LD := LD) (L := L) hc h).2 rfl
    exact ⟨m1.toInv.1, m1.toInv.2, m2⟩
  ext_ne s hc := (OffsetsIn.extend_spec (LD := LD) (L := L) hc (s := s) (Prod.ext rfl rfl)).1
  ext_fuse c s := by
    show OffsetsIn.extend ow D R c s = OffsetsIn.extend ow D R c s.fuse
    unfold OffsetsIn.extend
    simp only [OffsetsIn.extendLoop_fuse s]
  reserve_ok hc h := OffsetsIn.reserve_spec (LD := LD) (L := L) hc h
  tryReserve_ok hc h := OffsetsIn.tryReserve_spec (LD := LD) (L := L) hc h
  tryExt_ok hc h := by
    obtain ⟨m1, m2⟩ := (OffsetsIn.tryExtend_spec (LD := LD) (L := L) hc h).1 rfl
    exact ⟨m1.toInv.1, m1.toInv.2, m2⟩
  tryExt_err hc h := ((OffsetsIn.tryExtend_spec (LD := LD) (L := L) hc h).2.1 rfl).toInv
  tryExt_np hc hp :=
    (OffsetsIn.tryExtend_spec (LD := LD) (L := L) hc (Prod.ext rfl (Prod.ext rfl rfl))).2.2 hp
  tryExt_fuse w c s := by
    show OffsetsIn.tryExtend ow D R w c s = OffsetsIn.tryExtend ow D R w c s.fuse
    unfold OffsetsIn.tryExtend
    simp only [OffsetsIn.tryExtendLoop_fuse _ _ s]
  trunc_ok n hc := OffsetsIn.trunc_ok (LD := LD) (L := L) n hc

end Narrow
