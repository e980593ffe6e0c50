import Verif.Model.Offsets
import Verif.Proof.Vec

/-! # Variable-length grouping preserves the laws -/

namespace Narrow

variable {O : Type}

namespace Offsets

/-- Running totals of row lengths, starting at `p`. -/
def totals (p : Nat) : List (List O) → List Int
  | [] => [(p : Int)]
  | r :: rs => (p : Int) :: totals (p + r.length) rs

@[simp] theorem totals_length : ∀ (p : Nat) (rs : List (List O)), (totals p rs).length = rs.length + 1
  | _, [] => rfl
  | p, r :: rs => by simp [totals, totals_length _ rs]

theorem totals_get : ∀ (p : Nat) (rs : List (List O)) (i : Nat), i ≤ rs.length →
    (totals p rs)[i]? = some ((p + ((rs.take i).flatten).length : Nat) : Int)
  | p, [], i, h => by
    have : i = 0 := by simpa using h
    subst this; simp [totals]
  | p, r :: rs, 0, _ => by simp [totals]
  | p, r :: rs, i + 1, h => by
    simp only [totals, List.getElem?_cons_succ, List.take_succ_cons, List.flatten_cons,
      List.length_append]
    rw [totals_get _ rs i (by simpa using h)]
    simp only [Nat.add_assoc]

theorem totals_getLast (p : Nat) (rs : List (List O)) :
    (totals p rs).getLast? = some ((p + rs.flatten.length : Nat) : Int) := by
  rw [List.getLast?_eq_getElem?, totals_length, Nat.add_sub_cancel, totals_get p rs _ (Nat.le_refl _),
    List.take_length]

theorem totals_snoc (p : Nat) (rs : List (List O)) (r : List O) :
    totals p (rs ++ [r]) = totals p rs ++ [((p + (rs.flatten ++ r).length : Nat) : Int)] := by
  induction rs generalizing p with
  | nil => simp [totals]
  | cons r' rs ih => simp [totals, ih, Nat.add_assoc]

theorem totals_take (p : Nat) (rs : List (List O)) (n : Nat) (h : n ≤ rs.length) :
    (totals p rs).take (n + 1) = totals p (rs.take n) := by
  induction rs generalizing p n with
  | nil => simp at h; subst h; simp [totals]
  | cons r rs ih =>
    cases n with
    | zero => simp [totals]
    | succ n => simp [totals, ih _ n (by simpa using h)]

/-- The rows delimited by offsets. -/
def slices (data : List O) : List Int → List (List O)
  | s :: e :: rest => (data.drop s.toNat).take (e.toNat - s.toNat) :: slices data (e :: rest)
  | _ => []

theorem slices_totals (data : List O) : ∀ (p : Nat) (rs : List (List O)),
    rs.flatten <+: data.drop p → slices data (totals p rs) = rs
  | p, [], _ => by simp [totals, slices]
  | p, [r], h => by
    simp only [totals, slices, Int.toNat_natCast, Nat.add_sub_cancel_left, List.cons.injEq, and_true]
    have h1 : r <+: data.drop p := by simpa using h
    exact (List.prefix_iff_eq_take.mp h1).symm
  | p, r :: r' :: rs, h => by
    have h1 : r <+: data.drop p := List.IsPrefix.trans (by simp) h
    have h2 : (r' :: rs).flatten <+: data.drop (p + r.length) := by
      obtain ⟨t, ht⟩ := h
      refine ⟨t, ?_⟩
      rw [← List.drop_drop, ← ht, List.flatten_cons (l := r), List.append_assoc, List.drop_left]
    have ih := slices_totals data (p + r.length) (r' :: rs) h2
    simp only [totals] at ih ⊢
    simp only [slices, Int.toNat_natCast, Nat.add_sub_cancel_left, List.cons.injEq] at ih ⊢
    refine ⟨(List.prefix_iff_eq_take.mp h1).symm, ih⟩

section
variable {K : Coll O} (L : LawfulColl K)

/-- The offsets are the running totals of rows stored at the front of the data. -/
structure Rep (c : Offsets K.C) (rows : List (List O)) : Prop where
  inv : L.Inv c.data
  items : c.offsets.items = totals 0 rows
  pre : rows.flatten <+: L.abs c.data

/-- The rows. -/
def abs (c : Offsets K.C) : List (List O) := slices (L.abs c.data) c.offsets.items

/-- The invariant, with the buffer within memory. -/
def Inv (ow : OffW) (c : Offsets K.C) : Prop := c.offsets.WF ow.lim ∧ Rep L c (abs L c)

variable {L} {ow : OffW}

theorem OffW.lim_le (ow : OffW) : ow.lim ≤ byteMax := by
  cases ow <;> simp [OffW.lim, byteMax]

theorem Rep.abs_eq {c : Offsets K.C} {rows : List (List O)} (h : Rep L c rows) : abs L c = rows := by
  unfold abs
  rw [h.items]
  exact slices_totals _ 0 rows (by simpa using h.pre)

theorem Rep.toInv {c : Offsets K.C} {rows : List (List O)} (hw : c.offsets.WF ow.lim)
    (h : Rep L c rows) : Inv L ow c ∧ abs L c = rows := by
  have := h.abs_eq
  exact ⟨⟨hw, by rw [this]; exact h⟩, this⟩

theorem Inv.small {c : Offsets K.C} (h : Inv L ow c) : (abs L c).length + 1 ≤ byteMax := by
  have := h.1.le_lim
  rw [h.2.items, totals_length] at this
  exact Nat.le_trans this (OffW.lim_le ow)

theorem strictAdd_one {n : Nat} (h : n + 1 ≤ byteMax) : strictAdd n 1 = .ok (n + 1) := by
  unfold strictAdd usizeMax; unfold byteMax at h; rw [if_pos (by omega)]

theorem Inv.len_ok {c : Offsets K.C} (h : Inv L ow c) : c.len = .ok (abs L c).length := by
  simp [len, strictSub, h.2.items]

theorem asUsize_ofNat (n : Nat) : asUsize (n : Int) = .ok n := by simp [asUsize]

theorem flatten_take_succ (rows : List (List O)) (i : Nat) (h : i < rows.length) :
    (rows.take (i + 1)).flatten = (rows.take i).flatten ++ rows[i] := by
  rw [List.take_succ_eq_append_getElem h, List.flatten_append]; simp

theorem view_eq {c : Offsets K.C} (h : Inv L ow c) {i : Nat} (hi : i < (abs L c).length) :
    c.view i = .ok (some ⟨c, (((abs L c).take i).flatten).length,
      (((abs L c).take (i + 1)).flatten).length⟩) := by
  have hs := h.small
  unfold view
  rw [strictAdd_one (by omega)]
  simp only [Res.bind]
  rw [h.2.items, totals_get _ _ _ (by omega), totals_get _ _ _ (by omega)]
  simp [asUsize_ofNat, Res.map]

theorem view_oob {c : Offsets K.C} (h : Inv L ow c) {i : Nat} (hi : (abs L c).length ≤ i)
    (hm : i < usizeMax) : c.view i = .ok none := by
  unfold view strictAdd
  rw [if_pos (by omega)]
  simp only [Res.bind]
  have : c.offsets.items[i + 1]? = none := by
    rw [h.2.items]; simp; omega
  rw [this]
  split
  · simp_all
  · rfl

end

theorem collectRange_ok {f : Nat → Res O} : ∀ (l : List O) (start : Nat),
    (∀ j (h : j < l.length), f (start + j) = .ok l[j]) → collectRange f start l.length = .ok l
  | [], _, _ => rfl
  | a :: l, start, h => by
    have h0 := h 0 (by simp)
    simp only [Nat.add_zero, List.getElem_cons_zero] at h0
    have ih := collectRange_ok l (start + 1) (fun j hj => by
      have := h (j + 1) (by simpa using hj)
      rw [show start + 1 + j = start + (j + 1) by omega]
      simpa using this)
    simp [collectRange, h0, ih, Res.map]

end Offsets

namespace OffsetView

variable {K : Coll O} (L : LawfulColl K)

/-- A list view denotes a slice of the data. -/
def Rep (v : OffsetView K.C) (row : List O) : Prop :=
  L.Inv v.coll.data ∧ v.stop = v.start + row.length ∧
    row <+: (L.abs v.coll.data).drop v.start ∧ v.stop ≤ (L.abs v.coll.data).length

variable {L}

theorem prefix_get {row data : List O} {s : Nat} (h : row <+: data.drop s) {i : Nat}
    (hi : i < row.length) : ∃ hd : s + i < data.length, data[s + i] = row[i] := by
  have hl := h.length_le
  simp at hl
  refine ⟨by omega, ?_⟩
  have := List.IsPrefix.getElem h hi
  rw [this]; simp

theorem view_ok {v : OffsetView K.C} {row : List O} (h : Rep L v row) {i : Nat} (hi : i < row.length) :
    ∃ x, view K v i = .ok (some x) ∧ L.VRep x row[i] := by
  obtain ⟨h1, h2, h3, h4⟩ := h
  obtain ⟨hd, he⟩ := prefix_get h3 hi
  obtain ⟨x, hx, hr⟩ := L.view_some h1 hd
  refine ⟨x, ?_, by rw [← he]; exact hr⟩
  have := L.len_le h1
  unfold view strictAdd
  rw [if_pos (by omega)]
  simp only [Res.bind]
  rw [if_pos (by omega), hx]

theorem view_none {v : OffsetView K.C} {row : List O} (h : Rep L v row) {i : Nat}
    (hi : row.length ≤ i) (hm : v.start + i ≤ usizeMax) : view K v i = .ok none := by
  obtain ⟨h1, h2, h3, h4⟩ := h
  unfold view strictAdd
  rw [if_pos hm]
  simp only [Res.bind]
  rw [if_neg (by omega)]

theorem len_ok {v : OffsetView K.C} {row : List O} (h : Rep L v row) : v.len = .ok row.length := by
  obtain ⟨h1, h2, h3, h4⟩ := h
  unfold len strictSub
  rw [if_pos (by omega)]; congr 1; omega

theorem toOwned_ok {v : OffsetView K.C} {row : List O} (h : Rep L v row) :
    toOwned K v = .ok row := by
  unfold toOwned
  rw [len_ok h]
  simp only [Res.bind]
  refine Offsets.collectRange_ok row 0 fun j hj => ?_
  obtain ⟨x, h1, h2⟩ := view_ok h hj
  rw [Nat.zero_add, h1]
  simp [Res.expect, L.owned_ok h2]

end OffsetView

namespace Offsets

section
variable {K : Coll O} {L : LawfulColl K} {ow : OffW}

theorem prefix_row {rows : List (List O)} {data : List O} (h : rows.flatten <+: data) {i : Nat}
    (hi : i < rows.length) : rows[i] <+: data.drop ((rows.take i).flatten).length := by
  have h1 : (rows.take (i + 1)).flatten <+: rows.flatten := by
    refine ⟨(rows.drop (i + 1)).flatten, ?_⟩
    rw [← List.flatten_append, List.take_append_drop]
  obtain ⟨t, ht⟩ := List.IsPrefix.trans h1 h
  refine ⟨t, ?_⟩
  rw [← ht, flatten_take_succ _ _ hi, List.append_assoc, List.drop_left]

theorem view_rep {c : Offsets K.C} (h : Inv L ow c) {i : Nat} (hi : i < (abs L c).length) :
    ∃ v, c.view i = .ok (some v) ∧ OffsetView.Rep L v (abs L c)[i] ∧ v.coll = c := by
  refine ⟨_, view_eq h hi, ⟨h.2.inv, ?_, prefix_row h.2.pre hi, ?_⟩, rfl⟩
  · rw [flatten_take_succ _ _ hi, List.length_append]
  · have h1 : (((abs L c).take (i + 1)).flatten) <+: (abs L c).flatten := by
      refine ⟨((abs L c).drop (i + 1)).flatten, ?_⟩
      rw [← List.flatten_append, List.take_append_drop]
    exact (List.IsPrefix.trans h1 h.2.pre).length_le

/-- The owning iterator over the remaining rows. -/
def IntoRep (L : LawfulColl K) (it : OffsetIntoIter K.C) (rows : List (List O)) : Prop :=
  ∃ p : Nat, L.Inv it.data ∧ it.position = (p : Int) ∧ (p : Int) :: it.offsets = totals p rows ∧
    rows.flatten <+: (L.abs it.data).drop p

theorem intoNext_nil {it : OffsetIntoIter K.C} (h : IntoRep L it []) :
    ∃ it', intoNext K it = .ok (none, it') ∧ IntoRep L it' [] := by
  obtain ⟨p, h1, h2, h3, h4⟩ := h
  have : it.offsets = [] := by simpa [totals] using h3
  exact ⟨it, by simp [intoNext, this], p, h1, h2, h3, h4⟩

theorem totals_cons (p : Nat) (rs : List (List O)) : ∃ t, totals p rs = (p : Int) :: t := by
  cases rs <;> simp [totals]

theorem intoNext_cons {it : OffsetIntoIter K.C} {r : List O} {rows : List (List O)}
    (h : IntoRep L it (r :: rows)) :
    ∃ it', intoNext K it = .ok (some r, it') ∧ IntoRep L it' rows := by
  obtain ⟨p, h1, h2, h3, h4⟩ := h
  simp only [totals, List.cons.injEq, true_and] at h3
  obtain ⟨t, ht⟩ := totals_cons (p + r.length) rows
  rw [ht] at h3
  have hr : r <+: (L.abs it.data).drop p := List.IsPrefix.trans (by simp) h4
  refine ⟨⟨it.data, t, ((p + r.length : Nat) : Int)⟩, ?_, p + r.length, h1, rfl, ht.symm, ?_⟩
  · unfold intoNext
    rw [h3, h2]
    simp only [asUsize_ofNat, Res.bind, Nat.add_sub_cancel_left]
    rw [collectRange_ok r p fun j hj => ?_]
    · rfl
    · obtain ⟨hd, he⟩ := OffsetView.prefix_get hr hj
      obtain ⟨x, hx, hv⟩ := L.view_some h1 hd
      rw [hx]
      simp only [Res.expect]
      rw [L.owned_ok hv, he]
  · obtain ⟨t, ht⟩ := h4
    refine ⟨t, ?_⟩
    rw [← List.drop_drop, ← ht, List.flatten_cons, List.append_assoc, List.drop_left]

end

end Offsets

/-- `Offsets` preserves the laws of reading. -/
@[reducible] def offsetsCL {K : Coll O} (ow : OffW) (L : LawfulColl K) : LawfulColl (offsetsC K) where
  Inv c := Offsets.Inv L ow c
  abs c := Offsets.abs L c
  VRep v row := OffsetView.Rep L v row
  IRep it l := Offsets.Inv L ow it.c ∧ it.stop = (Offsets.abs L it.c).length ∧ it.start ≤ it.stop ∧
    l = (Offsets.abs L it.c).drop it.start
  JRep it l := Offsets.IntoRep L it l
  len_ok h := Offsets.Inv.len_ok h
  len_le h := by have := Offsets.Inv.small h; unfold byteMax at this; unfold usizeMax; omega
  view_some h hi := by
    obtain ⟨v, h1, h2, -⟩ := Offsets.view_rep h hi
    exact ⟨v, h1, h2⟩
  owned_ok h := OffsetView.toOwned_ok h
  iter_ok {c} h := ⟨⟨0, (Offsets.abs L c).length, c⟩, by simp [Offsets.Inv.len_ok h, Res.map],
    h, rfl, by simp, by simp⟩
  inext_nil {it} h := by
    obtain ⟨h1, h2, h3, h4⟩ := h
    have : ¬ it.start < it.stop := by
      have := congrArg List.length h4; simp at this; omega
    exact ⟨it, by simp [RangeIter.next, this], h1, h2, h3, h4⟩
  inext_cons {it o l} h := by
    obtain ⟨h1, h2, h3, h4⟩ := h
    have hlt : it.start < it.stop := by
      have := congrArg List.length h4; simp at this; omega
    obtain ⟨v, hv, hr, -⟩ := Offsets.view_rep h1 (i := it.start) (by omega)
    rw [List.drop_eq_getElem_cons (by omega)] at h4
    simp only [List.cons.injEq] at h4
    refine ⟨v, { it with start := it.start + 1 }, ?_, ?_, h1, h2, by simp only; omega, h4.2⟩
    · simp [RangeIter.next, hlt, hv, Res.expect, Res.map]
    · rw [h4.1]; exact hr
  ilen_ok {it l} h := by
    obtain ⟨h1, h2, h3, h4⟩ := h
    simp [RangeIter.len, h4, h2]
  into_ok {c} h := by
    obtain ⟨t, ht⟩ := Offsets.totals_cons 0 (Offsets.abs L c)
    refine ⟨⟨c.data, t, 0⟩, ?_, 0, h.2.inv, rfl, ht.symm, by simpa using h.2.pre⟩
    have := h.2.items
    rw [ht] at this
    simp [Offsets.into, this]
  jnext_nil h := Offsets.intoNext_nil h
  jnext_cons h := Offsets.intoNext_cons h
  jlen_ok {it l} h := by
    obtain ⟨p, h1, h2, h3, h4⟩ := h
    have := congrArg List.length h3
    simp at this
    simp [this]

/-- A list view is a lawful collection of its elements. -/
@[reducible] def offsetViewCL {K : Coll O} (L : LawfulColl K) : LawfulColl (offsetViewC K) where
  Inv v := ∃ row, OffsetView.Rep L v row
  abs v := ((L.abs v.coll.data).drop v.start).take (v.stop - v.start)
  VRep x o := L.VRep x o
  IRep it l := ∃ row, OffsetView.Rep L it.c row ∧ it.stop = row.length ∧ it.start ≤ it.stop ∧
    l = row.drop it.start
  JRep it l := ∃ row, OffsetView.Rep L it.c row ∧ it.stop = row.length ∧ it.start ≤ it.stop ∧
    l = row.drop it.start
  len_ok {v} h := by
    obtain ⟨row, h⟩ := h
    refine (OffsetView.len_ok h).trans ?_
    obtain ⟨h1, h2, h3, h4⟩ := h
    simp; omega
  len_le {v} h := by
    obtain ⟨row, h1, h2, h3, h4⟩ := h
    have := L.len_le h1
    simp; omega
  view_some {v i} h hi := by
    obtain ⟨row, h⟩ := h
    have hrow : ((L.abs v.coll.data).drop v.start).take (v.stop - v.start) = row := by
      obtain ⟨h1, h2, h3, h4⟩ := h
      rw [h2, Nat.add_sub_cancel_left]; exact (List.prefix_iff_eq_take.mp h3).symm
    obtain ⟨x, h1, h2⟩ := OffsetView.view_ok h (i := i) (by rw [← hrow]; exact hi)
    refine ⟨x, h1, ?_⟩
    simp only [hrow]; exact h2
  owned_ok h := L.owned_ok h
  iter_ok {v} h := by
    obtain ⟨row, h⟩ := h
    refine ⟨⟨0, row.length, v⟩, by simp [OffsetView.len_ok h, Res.map], row, h, rfl, by simp, ?_⟩
    obtain ⟨h1, h2, h3, h4⟩ := h
    rw [h2, Nat.add_sub_cancel_left]; exact (List.prefix_iff_eq_take.mp h3).symm
  inext_nil {it} h := by
    obtain ⟨row, h1, h2, h3, h4⟩ := h
    have : ¬ it.start < it.stop := by
      have := congrArg List.length h4; simp at this; omega
    exact ⟨it, by simp [RangeIter.next, this], row, h1, h2, h3, h4⟩
  inext_cons {it o l} h := by
    obtain ⟨row, h1, h2, h3, h4⟩ := h
    have hlt : it.start < it.stop := by
      have := congrArg List.length h4; simp at this; omega
    obtain ⟨v, hv, hr⟩ := OffsetView.view_ok h1 (i := it.start) (by omega)
    rw [List.drop_eq_getElem_cons (by omega)] at h4
    simp only [List.cons.injEq] at h4
    refine ⟨v, { it with start := it.start + 1 }, ?_, ?_, row, h1, h2, by simp only; omega, h4.2⟩
    · simp [RangeIter.next, hlt, hv, Res.expect, Res.map]
    · rw [h4.1]; exact hr
  ilen_ok {it l} h := by
    obtain ⟨row, h1, h2, h3, h4⟩ := h
    simp [RangeIter.len, h4, h2]
  into_ok {v} h := by
    obtain ⟨row, h⟩ := h
    refine ⟨⟨0, row.length, v⟩, by simp [OffsetView.len_ok h, Res.map], row, h, rfl, by simp, ?_⟩
    obtain ⟨h1, h2, h3, h4⟩ := h
    rw [h2, Nat.add_sub_cancel_left]; exact (List.prefix_iff_eq_take.mp h3).symm
  jnext_nil {it} h := by
    obtain ⟨row, h1, h2, h3, h4⟩ := h
    have : ¬ it.start < it.stop := by
      have := congrArg List.length h4; simp at this; omega
    exact ⟨it, by simp [RangeIter.next, this], row, h1, h2, h3, h4⟩
  jnext_cons {it o l} h := by
    obtain ⟨row, h1, h2, h3, h4⟩ := h
    have hlt : it.start < it.stop := by
      have := congrArg List.length h4; simp at this; omega
    obtain ⟨v, hv, hr⟩ := OffsetView.view_ok h1 (i := it.start) (by omega)
    rw [List.drop_eq_getElem_cons (by omega)] at h4
    simp only [List.cons.injEq] at h4
    refine ⟨{ it with start := it.start + 1 }, ?_, row, h1, h2, by simp only; omega, h4.2⟩
    simp [RangeIter.next, hlt, hv, Res.expect, Res.map, L.owned_ok hr, h4.1]
  jlen_ok {it l} h := by
    obtain ⟨row, h1, h2, h3, h4⟩ := h
    simp [RangeIter.len, h4, h2]

namespace Offsets

section
variable {R : Realloc O} {L : LawfulR R} {ow : OffW}

/-- State between two rows: no data beyond the rows. -/
structure Mid (L : LawfulR R) (ow : OffW) (c : Offsets R.C) (rows : List (List O)) : Prop where
  wf : c.offsets.WF ow.lim
  inv : L.Inv c.data
  items : c.offsets.items = totals 0 rows
  data : L.abs c.data = rows.flatten

theorem Mid.toInv {c : Offsets R.C} {rows : List (List O)} (h : Mid L ow c rows) :
    Inv L.toLawfulColl ow c ∧ abs L.toLawfulColl c = rows :=
  Rep.toInv h.wf ⟨h.inv, h.items, by rw [h.data]; exact List.prefix_refl _⟩

/-- Canonical: the data is exactly the rows. -/
def Canon (L : LawfulR R) (c : Offsets R.C) : Prop :=
  L.Canon c.data ∧ L.abs c.data = (abs L.toLawfulColl c).flatten

theorem Mid.canon {c : Offsets R.C} {rows : List (List O)} (h : Mid L ow c rows)
    (hc : L.Canon c.data) : Canon L c := ⟨hc, by rw [h.toInv.2]; exact h.data⟩

/-- Room for rows. -/
def Room (L : LawfulR R) (ow : OffW) (e : Nat) (l : List (List O)) : Prop :=
  l.flatten.length ≤ ow.max ∧ l.length + e + 1 ≤ ow.lim ∧ L.Room (l.length + e) l.flatten

theorem room_prefix {e : Nat} {l m : List (List O)} (h : Room L ow e (l ++ m)) :
    Room L ow (e + m.length) l := by
  obtain ⟨h1, h2, h3⟩ := h
  refine ⟨by simp at h1 ⊢; omega, by simp at h2; omega, ?_⟩
  rw [List.flatten_append] at h3
  refine L.room_mono ?_ (L.room_prefix h3)
  simp; omega

theorem room_row {e : Nat} {l m : List (List O)} {r : List O} (h : Room L ow e (l ++ r :: m)) :
    L.Room 0 (l.flatten ++ r) ∧ L.Room r.length l.flatten ∧ l.flatten.length + r.length ≤ ow.max ∧
      l.length + 2 ≤ ow.lim := by
  have h' : Room L ow e ((l ++ [r]) ++ m) := by simpa using h
  obtain ⟨h1, h2, h3⟩ := room_prefix h'
  have h4 : L.Room 0 (l.flatten ++ r) := L.room_mono (Nat.zero_le _) (by simpa using h3)
  refine ⟨h4, L.room_mono (by omega) (L.room_prefix h4), by simpa using h1, by simp at h2; omega⟩

theorem extendLoop_spec : ∀ (s : Src (List O)) (c : Offsets R.C) (rows : List (List O)),
    Mid L ow c rows → ∀ c' o,
    extendLoop ow R c.data c.offsets (rows.flatten.length : Int) s = (c', o) →
      o ≠ .err ∧
      (o = .ok → Mid L ow c' (rows ++ s.items) ∧ s.panics = false) ∧
      (L.Canon c.data → Room L ow 0 (rows ++ s.items) →
        (o = .ok → L.Canon c'.data) ∧ (s.panics = false → o = .ok))
  | [], c, rows, hm, c', o, h => by
    simp only [extendLoop, Prod.mk.injEq] at h
    obtain ⟨rfl, rfl⟩ := h
    exact ⟨by simp, fun _ => ⟨by simpa [Src.items] using hm, rfl⟩, fun hk _ => ⟨fun _ => hk, fun _ => rfl⟩⟩
  | .none :: s, c, rows, hm, c', o, h => by
    simp only [extendLoop, Prod.mk.injEq] at h
    obtain ⟨rfl, rfl⟩ := h
    exact ⟨by simp, fun _ => ⟨by simpa [Src.items] using hm, rfl⟩, fun hk _ => ⟨fun _ => hk, fun _ => rfl⟩⟩
  | .panic :: s, c, rows, hm, c', o, h => by
    simp only [extendLoop, Prod.mk.injEq] at h
    obtain ⟨rfl, rfl⟩ := h
    exact ⟨by simp, by simp, fun _ _ => ⟨by simp, by simp [Src.panics]⟩⟩
  | .item r :: s, c, rows, hm, c', o, h => by
    simp only [extendLoop] at h
    have hroom : Room L ow 0 (rows ++ Src.items (.item r :: s)) →
        L.Room 0 (rows.flatten ++ r) ∧ L.Room r.length rows.flatten ∧
          rows.flatten.length + r.length ≤ ow.max ∧ rows.length + 2 ≤ ow.lim :=
      fun hr => room_row (by simpa [Src.items] using hr)
    split at h
    · next hfit =>
      have hlive := L.reserve_live (n := r.length) hm.inv
      generalize hV : R.reserve c.data r.length = V at *
      obtain ⟨d1, o1⟩ := V
      obtain ⟨v1, v2, v3, v4⟩ := L.reserve_ok hm.inv hV
      cases o1 with
      | err => exact absurd rfl v3
      | panic =>
        simp only [Prod.mk.injEq] at h
        obtain ⟨rfl, rfl⟩ := h
        refine ⟨by simp, by simp, fun hk hr => ⟨by simp, fun _ => ?_⟩⟩
        exact hlive hk (by rw [hm.data]; exact (hroom hr).2.1)
      | ok =>
        simp only at h
        have hlive2 := L.ext_live (s := Src.ofList r) v1
        have hne := L.ext_ne (Src.ofList r) v1
        generalize hE : R.extend d1 (Src.ofList r) = E at *
        obtain ⟨d2, o2⟩ := E
        rw [v2, hm.data, Src.items_ofList] at hlive2
        cases o2 with
        | err => exact absurd rfl hne
        | panic =>
          simp only [Prod.mk.injEq] at h
          obtain ⟨rfl, rfl⟩ := h
          refine ⟨by simp, by simp, fun hk hr => ⟨by simp, fun _ => ?_⟩⟩
          exact hlive2 (v4 hk) (by simp) (hroom hr).1
        | ok =>
          simp only at h
          obtain ⟨e1, e2, -⟩ := L.ext_ok v1 hE
          rw [v2, hm.data, Src.items_ofList] at e2
          have hcan := L.ext_canon v1 (c' := d2) (s := Src.ofList r)
          rw [v2, hm.data, Src.items_ofList] at hcan
          obtain ⟨k, k1, k2, k3, k4, k5, k6⟩ := RVec.extend_items ow.lim
            [.item ((rows.flatten.length : Int) + r.length)] c.offsets
          replace k6 := k6 hm.wf
          generalize hF : RVec.extend ow.lim c.offsets [.item ((rows.flatten.length : Int) + r.length)] = F at *
          obtain ⟨of, o3⟩ := F
          simp only at h k1 k2 k3 k4 k5 k6
          cases o3 with
          | err => exact absurd rfl k4
          | panic =>
            simp only [Prod.mk.injEq] at h
            obtain ⟨rfl, rfl⟩ := h
            refine ⟨by simp, by simp, fun hk hr => ⟨by simp, fun _ => ?_⟩⟩
            have := (k5 (by rw [hm.items]; simp [Src.items]; have := (hroom hr).2.2.2; omega)).2
            simp [Src.panics] at this
          | ok =>
            obtain ⟨rfl, -⟩ := k3 rfl
            have hm' : Mid L ow ⟨d2, of⟩ (rows ++ [r]) := by
              refine ⟨k6, e1, ?_, by simp [e2]⟩
              simp only [k2, hm.items, totals_snoc]
              simp [Src.items]
            have hpos : ((rows.flatten.length : Int) + r.length) = (((rows ++ [r]).flatten.length : Nat) : Int) := by
              simp
            simp only [hpos] at h
            obtain ⟨i1, i2, i3⟩ := extendLoop_spec s ⟨d2, of⟩ (rows ++ [r]) hm' c' o h
            simp only [List.append_assoc, List.singleton_append] at i2 i3
            exact ⟨i1, i2, fun hk hr => i3 (hcan (v4 hk) (hroom hr).1 hE) hr⟩
    · next hfit =>
      simp only [Prod.mk.injEq] at h
      obtain ⟨rfl, rfl⟩ := h
      refine ⟨by simp, by simp, fun hk hr => ⟨by simp, fun _ => ?_⟩⟩
      have := (hroom hr).2.2.1
      exact absurd ⟨by omega, by omega⟩ hfit

theorem last_ok {c : Offsets R.C} {rows : List (List O)} (h : c.offsets.items = totals 0 rows) :
    c.last = .ok (rows.flatten.length : Int) := by
  simp [last, h, totals_getLast]

/-- Dropping unreferenced data. -/
theorem Mid.of_inv {c : Offsets R.C} {d : R.C} (h : Inv L.toLawfulColl ow c)
    (h2 : L.Inv d) (h3 : L.abs d = (L.abs c.data).take (abs L.toLawfulColl c).flatten.length) :
    Mid L ow ⟨d, c.offsets⟩ (abs L.toLawfulColl c) :=
  ⟨h.1, h2, h.2.items, by rw [h3]; exact (List.prefix_iff_eq_take.mp h.2.pre).symm⟩

theorem extend_spec {c c' : Offsets R.C} {s : Src (List O)} {o : Out}
    (hc : Inv L.toLawfulColl ow c) (h : extend ow R c s = (c', o)) :
    o ≠ .err ∧
    (o = .ok → Mid L ow c' (abs L.toLawfulColl c ++ s.items) ∧ s.panics = false) ∧
    (L.Canon c.data → Room L ow 0 (abs L.toLawfulColl c ++ s.items) →
      (o = .ok → L.Canon c'.data) ∧ (s.panics = false → o = .ok)) := by
  unfold extend at h
  rw [last_ok hc.2.items] at h
  simp only [asUsize_ofNat] at h
  obtain ⟨d, h1, h2, h3, h4⟩ := L.trunc_ok (abs L.toLawfulColl c).flatten.length hc.2.inv
  simp only [h1] at h
  obtain ⟨e1, e2, e3⟩ := extendLoop_spec s ⟨d, c.offsets⟩ _ (Mid.of_inv hc h2 h3) c' o h
  exact ⟨e1, e2, fun hk => e3 (h4 hk)⟩

theorem extendLoop_fuse : ∀ (s : Src (List O)) (d : R.C) (of : RVec Int) (p : Int),
    extendLoop ow R d of p s = extendLoop ow R d of p s.fuse
  | [], d, of, p => rfl
  | .none :: s, d, of, p => rfl
  | .panic :: s, d, of, p => rfl
  | .item r :: s, d, of, p => by
    simp only [extendLoop, Src.fuse, extendLoop_fuse s]

theorem tryExtendLoop_fuse (n m : Nat) : ∀ (s : Src (List O)) (w : World) (d : R.C) (of : RVec Int)
    (p : Int), tryExtendLoop ow R n m w d of p s = tryExtendLoop ow R n m w d of p s.fuse
  | [], w, d, of, p => rfl
  | .none :: s, w, d, of, p => rfl
  | .panic :: s, w, d, of, p => rfl
  | .item r :: s, w, d, of, p => by
    simp only [tryExtendLoop, Src.fuse, tryExtendLoop_fuse n m s]

/-- Rolling back to the first rows. -/
theorem rollback_spec {d : R.C} {of : RVec Int} {w w' : World} {c' : Offsets R.C} {o : Out}
    {rows more : List (List O)} (hw : of.WF ow.lim) (hd : L.Inv d)
    (hi : of.items = totals 0 (rows ++ more)) (hp : rows.flatten <+: L.abs d)
    (h : rollback R d of rows.length rows.flatten.length w = (c', o, w')) :
    o = .err ∧ Mid L ow c' rows ∧ (L.Canon d → L.Canon c'.data) := by
  have hs := hw.le_lim
  rw [hi, totals_length, List.length_append] at hs
  have := OffW.lim_le ow
  unfold rollback at h
  rw [strictAdd_one (by omega)] at h
  obtain ⟨d', h1, h2, h3, h4⟩ := L.trunc_ok rows.flatten.length hd
  simp only [h1, Prod.mk.injEq] at h
  obtain ⟨rfl, rfl, rfl⟩ := h
  refine ⟨rfl, ⟨RVec.truncate_wf _ hw, h2, ?_, ?_⟩, h4⟩
  · simp only [RVec.truncate_items, hi]
    rw [totals_take _ _ _ (by simp), List.take_left']
    rfl
  · simp only [h3]; exact (List.prefix_iff_eq_take.mp hp).symm

theorem tryExtendLoop_spec (rows0 : List (List O)) : ∀ (s : Src (List O)) (w : World)
    (c : Offsets R.C) (more : List (List O)), Mid L ow c (rows0 ++ more) → ∀ c' o w',
    tryExtendLoop ow R rows0.length rows0.flatten.length w c.data c.offsets
        ((rows0 ++ more).flatten.length : Int) s = (c', o, w') →
      (o = .ok → Mid L ow c' (rows0 ++ more ++ s.items) ∧ s.panics = false) ∧
      (o = .err → Mid L ow c' rows0) ∧
      (s.panics = false → o ≠ .panic) ∧
      (L.Canon c.data → Room L ow 0 (rows0 ++ more ++ s.items) → o ≠ .panic → L.Canon c'.data)
  | [], w, c, more, hm, c', o, w', h => by
    simp only [tryExtendLoop, Prod.mk.injEq] at h
    obtain ⟨rfl, rfl, rfl⟩ := h
    exact ⟨fun _ => ⟨by simpa [Src.items] using hm, rfl⟩, by simp, by simp, fun hk _ _ => hk⟩
  | .none :: s, w, c, more, hm, c', o, w', h => by
    simp only [tryExtendLoop, Prod.mk.injEq] at h
    obtain ⟨rfl, rfl, rfl⟩ := h
    exact ⟨fun _ => ⟨by simpa [Src.items] using hm, rfl⟩, by simp, by simp, fun hk _ _ => hk⟩
  | .panic :: s, w, c, more, hm, c', o, w', h => by
    simp only [tryExtendLoop, Prod.mk.injEq] at h
    obtain ⟨rfl, rfl, rfl⟩ := h
    exact ⟨by simp, by simp, by simp [Src.panics], by simp⟩
  | .item r :: s, w, c, more, hm, c', o, w', h => by
    simp only [tryExtendLoop, asUsize_ofNat] at h
    have hroom : Room L ow 0 (rows0 ++ more ++ Src.items (.item r :: s)) →
        L.Room 0 ((rows0 ++ more).flatten ++ r) := fun hr => (room_row hr).1
    split at h
    · next hfit =>
      have hnp := L.tryExt_np (w := w) (s := Src.ofList r) hm.inv (by simp)
      generalize hE : R.tryExtend w c.data (Src.ofList r) = E at *
      obtain ⟨d1, o1, w1⟩ := E
      have hcan : L.Canon c.data → Room L ow 0 (rows0 ++ more ++ Src.items (.item r :: s)) →
          o1 ≠ .panic → L.Canon d1 := fun hk hr ho =>
        L.tryExt_canon hm.inv hk (by rw [hm.data, Src.items_ofList]; exact hroom hr) hE ho
      cases o1 with
      | panic => exact absurd rfl hnp
      | err =>
        simp only at h
        obtain ⟨e1, e2⟩ := L.tryExt_err hm.inv hE
        obtain ⟨rfl, r2, r3⟩ := rollback_spec (L := L) hm.wf e1 hm.items
          (by rw [e2, hm.data]; simp) h
        exact ⟨by simp, fun _ => r2, by simp, fun hk hr _ => r3 (hcan hk hr (by simp))⟩
      | ok =>
        simp only at h
        obtain ⟨e1, e2, -⟩ := L.tryExt_ok hm.inv hE
        rw [hm.data, Src.items_ofList] at e2
        generalize hF : RVec.tryExtend ow.lim w1 c.offsets
          [.item ((((rows0 ++ more).flatten.length + r.length : Nat)) : Int)] = F at *
        obtain ⟨of, o2, w2⟩ := F
        obtain ⟨k1, k2, k3, k4, -⟩ := RVec.tryExtend_spec hm.wf hF
        cases o2 with
        | panic => exact absurd (k4 rfl).2 (by simp [Src.panics])
        | err =>
          simp only at h
          obtain ⟨rfl, r2, r3⟩ := rollback_spec (L := L) (more := more) k1 e1
            (by rw [k3 rfl]; exact hm.items) (by rw [e2, List.flatten_append, List.append_assoc]; exact List.prefix_append _ _) h
          exact ⟨by simp, fun _ => r2, by simp, fun hk hr _ => r3 (hcan hk hr (by simp))⟩
        | ok =>
          simp only at h
          have hm' : Mid L ow ⟨d1, of⟩ (rows0 ++ (more ++ [r])) := by
            rw [← List.append_assoc]
            refine ⟨k1, e1, ?_, by simp [e2]⟩
            simp only [(k2 rfl).1, hm.items, totals_snoc]
            simp [Src.items]; omega
          have hpos : ((rows0 ++ more).flatten.length + r.length : Nat) =
              (rows0 ++ (more ++ [r])).flatten.length := by
            simp only [List.flatten_append, List.length_append]; simp; omega
          rw [hpos] at h
          obtain ⟨i1, i2, i3, i4⟩ := tryExtendLoop_spec rows0 s w2 ⟨d1, of⟩ (more ++ [r]) hm' c' o w' h
          have hass : rows0 ++ (more ++ [r]) ++ Src.items s = rows0 ++ more ++ Src.items (.item r :: s) := by
            simp [Src.items]
          rw [hass] at i1 i4
          exact ⟨i1, i2, i3, fun hk hr => i4 (hcan hk hr (by simp)) hr⟩
    · next hfit =>
      obtain ⟨rfl, r2, r3⟩ := rollback_spec (L := L) hm.wf hm.inv hm.items
        (by rw [hm.data]; simp) h
      exact ⟨by simp, fun _ => r2, by simp, fun hk hr _ => r3 hk⟩

theorem tryExtend_spec {w w' : World} {c c' : Offsets R.C} {s : Src (List O)} {o : Out}
    (hc : Inv L.toLawfulColl ow c) (h : tryExtend ow R w c s = (c', o, w')) :
    (o = .ok → Mid L ow c' (abs L.toLawfulColl c ++ s.items) ∧ s.panics = false) ∧
    (o = .err → Mid L ow c' (abs L.toLawfulColl c)) ∧
    (s.panics = false → o ≠ .panic) ∧
    (L.Canon c.data → Room L ow 0 (abs L.toLawfulColl c ++ s.items) → o ≠ .panic →
      L.Canon c'.data) := by
  unfold tryExtend at h
  rw [last_ok hc.2.items, hc.len_ok] at h
  simp only [asUsize_ofNat] at h
  obtain ⟨d, h1, h2, h3, h4⟩ := L.trunc_ok (abs L.toLawfulColl c).flatten.length hc.2.inv
  simp only [h1] at h
  have hm := Mid.of_inv hc h2 h3
  obtain ⟨e1, e2, e3, e4⟩ := tryExtendLoop_spec (L := L) (abs L.toLawfulColl c) s w ⟨d, c.offsets⟩ []
    (by simpa using hm) c' o w' (by simpa using h)
  simp only [List.append_nil] at e1 e4
  exact ⟨e1, e2, e3, fun hk => e4 (h4 hk)⟩

theorem reserve_spec {c c' : Offsets R.C} {n : Nat} {o : Out} (hc : Inv L.toLawfulColl ow c)
    (h : reserve ow R c n = (c', o)) :
    Inv L.toLawfulColl ow c' ∧ abs L.toLawfulColl c' = abs L.toLawfulColl c ∧ o ≠ .err ∧
      (Canon L c → Canon L c') ∧ (Canon L c → Room L ow n (abs L.toLawfulColl c) → o = .ok) := by
  unfold reserve at h
  have hlive := L.reserve_live (n := n) hc.2.inv
  generalize hV : R.reserve c.data n = V at *
  obtain ⟨d, o1⟩ := V
  obtain ⟨v1, v2, v3, v4⟩ := L.reserve_ok hc.2.inv hV
  have hlive' : Canon L c → Room L ow n (abs L.toLawfulColl c) → o1 = .ok := fun hk hr =>
    hlive hk.1 (by rw [hk.2]; exact L.room_mono (by omega) hr.2.2)
  have key : ∀ of : RVec Int, of.WF ow.lim → of.items = c.offsets.items →
      Inv L.toLawfulColl ow ⟨d, of⟩ ∧ abs L.toLawfulColl ⟨d, of⟩ = abs L.toLawfulColl c ∧
        (Canon L c → Canon L ⟨d, of⟩) := by
    intro of hw hi
    have hr : Rep L.toLawfulColl ⟨d, of⟩ (abs L.toLawfulColl c) :=
      ⟨v1, hi.trans hc.2.items, by simp only [v2]; exact hc.2.pre⟩
    have := Rep.toInv hw hr
    refine ⟨this.1, this.2, fun hk => ⟨v4 hk.1, ?_⟩⟩
    rw [this.2]; simp only [v2]; exact hk.2
  cases o1 with
  | err => exact absurd rfl v3
  | panic =>
    simp only [Prod.mk.injEq] at h
    obtain ⟨rfl, rfl⟩ := h
    obtain ⟨k1, k2, k3⟩ := key c.offsets hc.1 rfl
    exact ⟨k1, k2, by simp, k3, hlive'⟩
  | ok =>
    simp only [Prod.mk.injEq] at h
    obtain ⟨rfl, rfl⟩ := h
    obtain ⟨k1, k2, k3⟩ := key _ (RVec.reserve_wf n hc.1) (RVec.reserve_items ow.lim c.offsets n)
    refine ⟨k1, k2, RVec.reserve_ne_err _ _ _, k3, fun hk hr => RVec.reserve_live ?_⟩
    rw [hc.2.items, totals_length]; have := hr.2.1; omega

theorem tryReserve_spec {w w' : World} {c c' : Offsets R.C} {n : Nat} {o : Out}
    (hc : Inv L.toLawfulColl ow c) (h : tryReserve ow R w c n = (c', o, w')) :
    Inv L.toLawfulColl ow c' ∧ abs L.toLawfulColl c' = abs L.toLawfulColl c ∧ o ≠ .panic ∧
      (Canon L c → Canon L c') := by
  unfold tryReserve at h
  generalize hV : R.tryReserve w c.data n = V at *
  obtain ⟨d, o1, w1⟩ := V
  obtain ⟨v1, v2, v3, v4⟩ := L.tryReserve_ok hc.2.inv hV
  have key : ∀ of : RVec Int, of.WF ow.lim → of.items = c.offsets.items →
      Inv L.toLawfulColl ow ⟨d, of⟩ ∧ abs L.toLawfulColl ⟨d, of⟩ = abs L.toLawfulColl c ∧
        (Canon L c → Canon L ⟨d, of⟩) := by
    intro of hw hi
    have hr : Rep L.toLawfulColl ⟨d, of⟩ (abs L.toLawfulColl c) :=
      ⟨v1, hi.trans hc.2.items, by simp only [v2]; exact hc.2.pre⟩
    have := Rep.toInv hw hr
    refine ⟨this.1, this.2, fun hk => ⟨v4 hk.1, ?_⟩⟩
    rw [this.2]; simp only [v2]; exact hk.2
  cases o1 with
  | panic => exact absurd rfl v3
  | err =>
    simp only [Prod.mk.injEq] at h
    obtain ⟨rfl, rfl, rfl⟩ := h
    obtain ⟨k1, k2, k3⟩ := key c.offsets hc.1 rfl
    exact ⟨k1, k2, by simp, k3⟩
  | ok =>
    simp only [Prod.mk.injEq] at h
    obtain ⟨rfl, rfl, rfl⟩ := h
    obtain ⟨k1, k2, k3⟩ := key _ (RVec.tryReserve_wf w1 n hc.1)
      (RVec.tryReserve_items ow.lim w1 c.offsets n)
    exact ⟨k1, k2, RVec.tryReserve_ne_panic _ _ _ _, k3⟩

theorem trunc_ok {c : Offsets R.C} (n : Nat) (hc : Inv L.toLawfulColl ow c) :
    ∃ c', truncate R c n = (c', .ok) ∧ Inv L.toLawfulColl ow c' ∧
      abs L.toLawfulColl c' = (abs L.toLawfulColl c).take n ∧ (Canon L c → Canon L c') := by
  unfold truncate
  rw [hc.len_ok]
  simp only
  split
  · next hn =>
    have hs := hc.small
    rw [hc.2.items, totals_get _ _ _ (by omega)]
    simp only [asUsize_ofNat, Nat.zero_add]
    rw [strictAdd_one (by omega)]
    obtain ⟨d, h1, h2, h3, h4⟩ := L.trunc_ok ((abs L.toLawfulColl c).take n).flatten.length hc.2.inv
    simp only [h1]
    have hpre : ((abs L.toLawfulColl c).take n).flatten <+: L.abs c.data := by
      refine List.IsPrefix.trans ⟨((abs L.toLawfulColl c).drop n).flatten, ?_⟩ hc.2.pre
      rw [← List.flatten_append, List.take_append_drop]
    have hm : Mid L ow ⟨d, c.offsets.truncate (n + 1)⟩ ((abs L.toLawfulColl c).take n) := by
      refine ⟨RVec.truncate_wf _ hc.1, h2, ?_, ?_⟩
      · simp only [RVec.truncate_items, hc.2.items]
        exact totals_take _ _ _ (by omega)
      · simp only [h3]; exact (List.prefix_iff_eq_take.mp hpre).symm
    exact ⟨_, rfl, hm.toInv.1, hm.toInv.2, fun hk => hm.canon (h4 hk.1)⟩
  · next hn =>
    exact ⟨c, rfl, hc, (List.take_of_length_le (by omega)).symm, id⟩

theorem ow_lim_pos (ow : OffW) : 1 ≤ ow.lim := by cases ow <;> simp [OffW.lim, byteMax]

theorem mid_nil {d : R.C} {of : RVec Int} (hd : L.Inv d ∧ L.abs d = []) (hw : of.WF ow.lim)
    (hi : of.items = [0]) : Mid L ow ⟨d, of⟩ [] := ⟨hw, hd.1, by simp [hi, totals], by simp [hd.2]⟩

theorem withCap_ok {n : Nat} {c : Offsets R.C} (h : withCap ow R n = .ok c) :
    Mid L ow c [] ∧ L.Canon c.data := by
  unfold withCap at h
  split at h
  · simp at h
  · simp at h
  · next d hd =>
    obtain ⟨d1, d2, d3⟩ := L.withCap_ok hd
    split at h
    · simp at h
    · split at h
      · simp at h
      · simp at h
      · next of hof =>
        obtain ⟨o1, o2, o3⟩ := RVec.withCap_ok hof
        split at h
        · next of' hof' =>
          simp only [Try.ok.injEq] at h
          subst h
          have h1 := RVec.extend_ok hof'
          have h2 := RVec.extend_wf (s := [.item 0]) o2
          rw [hof'] at h2
          exact ⟨mid_nil ⟨d1, d2⟩ h2 (by rw [h1.1, o1]; rfl), d3⟩
        · simp at h

theorem withCap_ne (L : LawfulR R) (n : Nat) : withCap ow R n ≠ .err := by
  unfold withCap
  have h1 := L.withCap_ne n
  split
  · simp_all
  · simp
  · split
    · simp
    · next k _ =>
      have h2 := RVec.withCap_ne_err (α := Int) ow.lim k
      split
      · simp_all
      · simp
      · split <;> simp

theorem empty_mid : Mid L ow (empty ow R) [] ∧ L.Canon (empty ow R).data := by
  obtain ⟨h1, h2, h3⟩ := L.empty_ok
  refine ⟨mid_nil ⟨h1, h2⟩ (RVec.extend_wf RVec.WF.empty) ?_, h3⟩
  have := ow_lim_pos ow
  simp [RVec.extend, RVec.empty, RVec.push, show 0 < ow.lim by omega]

/-- The result of a constructor that collects a source. -/
theorem collect_ok {c c' : Offsets R.C} {s : Src (List O)} (hm : Mid L ow c [])
    (hk : L.Canon c.data) (h : extend ow R c s = (c', .ok)) :
    Inv L.toLawfulColl ow c' ∧ abs L.toLawfulColl c' = s.items ∧ s.panics = false ∧
      (Room L ow 0 s.items → Canon L c') := by
  obtain ⟨-, e2, e3⟩ := extend_spec hm.toInv.1 h
  rw [hm.toInv.2, List.nil_append] at e2 e3
  obtain ⟨m1, m2⟩ := e2 rfl
  exact ⟨m1.toInv.1, m1.toInv.2, m2, fun hr => m1.canon ((e3 hk hr).1 rfl)⟩

theorem fromIter_ok {s : Src (List O)} {c : Offsets R.C} (h : fromIter ow R s = .ok c) :
    Inv L.toLawfulColl ow c ∧ abs L.toLawfulColl c = s.items ∧ s.panics = false ∧
      (Room L ow 0 s.items → Canon L c) := by
  unfold fromIter at h
  split at h
  · next c' heq =>
    simp only [Try.ok.injEq] at h
    subst h
    exact collect_ok empty_mid.1 empty_mid.2 heq
  · simp at h

theorem fromIterIn_ok {w w' : World} {s : Src (List O)} {c : Offsets R.C}
    (h : fromIterIn ow R w s = (.ok c, w')) :
    Inv L.toLawfulColl ow c ∧ abs L.toLawfulColl c = s.items ∧ s.panics = false ∧
      (Room L ow 0 s.items → Canon L c) := by
  unfold fromIterIn at h
  split at h
  · next c0 heq0 =>
    obtain ⟨h1, h2⟩ := withCap_ok (L := L) heq0
    split at h
    · next c' heq =>
      simp only [Prod.mk.injEq, Try.ok.injEq] at h
      obtain ⟨rfl, rfl⟩ := h
      exact collect_ok h1 h2 heq
    · simp at h
  · simp at h
  · simp at h

theorem fromIterIn_ne (L : LawfulR R) (w : World) (s : Src (List O)) :
    (fromIterIn ow R w s).1 ≠ .err := by
  unfold fromIterIn
  have := withCap_ne (ow := ow) L (w.capHint s.items.length)
  split
  · split <;> simp
  · simp_all
  · simp

theorem tryWithCap_ok {w w' : World} {n : Nat} {c : Offsets R.C}
    (h : tryWithCap ow R w n = (.ok c, w')) : Mid L ow c [] ∧ L.Canon c.data := by
  unfold tryWithCap at h
  split at h
  · simp at h
  · split at h
    · simp at h
    · simp at h
    · next d w1 hd =>
      obtain ⟨d1, d2, d3⟩ := L.tryWithCap_ok hd
      split at h
      · simp at h
      · simp at h
      · next of w2 hof =>
        obtain ⟨o1, o2, o3⟩ := RVec.tryWithCap_ok hof
        split at h
        · next of' w3 hof' =>
          simp only [Prod.mk.injEq, Try.ok.injEq] at h
          obtain ⟨rfl, rfl⟩ := h
          obtain ⟨k1, k2, -⟩ := RVec.tryExtend_spec o2 hof'
          exact ⟨mid_nil ⟨d1, d2⟩ k1 (by rw [(k2 rfl).1, o1]; rfl), d3⟩
        · simp at h
        · simp at h

theorem tryWithCap_np (L : LawfulR R) (w : World) (n : Nat) : (tryWithCap ow R w n).1 ≠ .panic := by
  unfold tryWithCap
  split
  · simp
  · next k _ =>
    have h1 := L.tryWithCap_np w n
    split
    · simp
    · next heq => rw [heq] at h1; simp at h1
    · next d w1 hd =>
      have h2 := RVec.tryWithCap_ne_panic (α := Int) ow.lim k w1
      split
      · simp
      · next heq => rw [heq] at h2; simp at h2
      · next of w2 hof =>
        obtain ⟨o1, o2, o3⟩ := RVec.tryWithCap_ok hof
        split
        · simp
        · simp
        · next heq =>
          obtain ⟨-, -, -, k4, -⟩ := RVec.tryExtend_spec o2 heq
          exact absurd (k4 rfl).2 (by simp [Src.panics])

theorem tryFromIter_ok {w w' : World} {s : Src (List O)} {c : Offsets R.C}
    (h : tryFromIter ow R w s = (.ok c, w')) :
    Inv L.toLawfulColl ow c ∧ abs L.toLawfulColl c = s.items ∧ s.panics = false ∧
      (Room L ow 0 s.items → Canon L c) := by
  unfold tryFromIter at h
  split at h
  · next c0 w1 heq0 =>
    obtain ⟨h1, h2⟩ := tryWithCap_ok (L := L) heq0
    split at h
    · next c' w2 heq =>
      simp only [Prod.mk.injEq, Try.ok.injEq] at h
      obtain ⟨rfl, rfl⟩ := h
      obtain ⟨e1, -, -, e4⟩ := tryExtend_spec h1.toInv.1 heq
      rw [h1.toInv.2, List.nil_append] at e1 e4
      obtain ⟨m1, m2⟩ := e1 rfl
      exact ⟨m1.toInv.1, m1.toInv.2, m2, fun hr => m1.canon (e4 h2 hr (by simp))⟩
    · simp at h
    · simp at h
  · simp at h
  · simp at h

theorem tryFromIter_np (L : LawfulR R) {w : World} {s : Src (List O)} (hp : s.panics = false) :
    (tryFromIter ow R w s).1 ≠ .panic := by
  unfold tryFromIter
  have h0 := tryWithCap_np (ow := ow) L w.next (w.capHint s.items.length)
  split
  · next c0 w1 heq0 =>
    obtain ⟨h1, h2⟩ := tryWithCap_ok (L := L) heq0
    split
    · simp
    · simp
    · next he => exact absurd rfl ((tryExtend_spec h1.toInv.1 he).2.2.1 hp)
  · simp
  · next heq0 => rw [heq0] at h0; simp at h0

end

end Offsets

/-- `Offsets` preserves the laws of growing. -/
@[reducible] def offsetsL {R : Realloc O} (ow : OffW) (L : LawfulR R) : LawfulR (offsetsR ow R) where
  toLawfulColl := offsetsCL ow L.toLawfulColl
  Canon c := Offsets.Canon L c
  Room e l := Offsets.Room L ow e l
  room_prefix h := Offsets.room_prefix h
  room_mono h1 h2 := ⟨h2.1, by have := h2.2.1; omega, L.room_mono (by omega) h2.2.2⟩
  room_len h := by
    have h1 := h.2.1
    have h2 := Offsets.OffW.lim_le ow
    unfold byteMax at h2; unfold usizeMax; omega
  empty_ok := by
    obtain ⟨h1, h2⟩ := Offsets.empty_mid (L := L) (ow := ow)
    exact ⟨h1.toInv.1, h1.toInv.2, h1.canon h2⟩
  pulled_fused _ := rfl
  pulled_map f s := by simp
  fromIter_any h := by
    simp only [Prod.mk.injEq] at h
    have := Offsets.fromIter_ok (L := L) h.1
    exact ⟨this.1, congrArg List.length this.2.1⟩
  fromIterIn_any h := by
    have := Offsets.fromIterIn_ok (L := L) h
    exact ⟨this.1, congrArg List.length this.2.1⟩
  tryFromIter_any h := (Offsets.tryFromIter_ok (L := L) h).1
  withCap_ok h := by
    obtain ⟨h1, h2⟩ := Offsets.withCap_ok (L := L) h
    exact ⟨h1.toInv.1, h1.toInv.2, h1.canon h2⟩
  withCap_ne n := Offsets.withCap_ne L n
  fromIter_ok _ h := by
    simp only [Prod.mk.injEq] at h
    exact Offsets.fromIter_ok h.1
  fromIter_ne w s := by
    show Offsets.fromIter ow R s ≠ .err
    unfold Offsets.fromIter; split <;> simp
  fromIterIn_ok _ h := Offsets.fromIterIn_ok h
  fromIterIn_ne w s := Offsets.fromIterIn_ne L w s
  tryWithCap_ok h := by
    obtain ⟨h1, h2⟩ := Offsets.tryWithCap_ok (L := L) h
    exact ⟨h1.toInv.1, h1.toInv.2, h1.canon h2⟩
  tryWithCap_np w n := Offsets.tryWithCap_np L w n
  tryFromIter_ok _ h := Offsets.tryFromIter_ok h
  tryFromIter_np _ hp := Offsets.tryFromIter_np L hp
  ext_ok hc h := by
    obtain ⟨m1, m2⟩ := (Offsets.extend_spec hc h).2.1 rfl
    exact ⟨m1.toInv.1, m1.toInv.2, m2⟩
  ext_ne s hc := (Offsets.extend_spec hc (s := s) (Prod.ext rfl rfl)).1
  ext_canon hc hk hr h := by
    obtain ⟨-, h2, h3⟩ := Offsets.extend_spec hc h
    exact (h2 rfl).1.canon ((h3 hk.1 hr).1 rfl)
  ext_live hc hk hp hr := ((Offsets.extend_spec hc (Prod.ext rfl rfl)).2.2 hk.1 hr).2 hp
  ext_fuse c s := by
    show Offsets.extend ow R c s = Offsets.extend ow R c s.fuse
    unfold Offsets.extend
    simp only [Offsets.extendLoop_fuse s]
  reserve_ok hc h := by
    obtain ⟨h1, h2, h3, h4, -⟩ := Offsets.reserve_spec hc h
    exact ⟨h1, h2, h3, h4⟩
  reserve_live hc hk hr := (Offsets.reserve_spec hc (Prod.ext rfl rfl)).2.2.2.2 hk hr
  tryReserve_ok hc h := Offsets.tryReserve_spec hc h
  tryExt_ok hc h := by
    obtain ⟨m1, m2⟩ := (Offsets.tryExtend_spec hc h).1 rfl
    exact ⟨m1.toInv.1, m1.toInv.2, m2⟩
  tryExt_canon {w w' c c' s o} hc hk hr h ho := by
    obtain ⟨h1, h2, -, h4⟩ := Offsets.tryExtend_spec hc h
    have := h4 hk.1 hr ho
    cases o with
    | ok => exact (h1 rfl).1.canon this
    | err => exact (h2 rfl).canon this
    | panic => exact absurd rfl ho
  tryExt_err hc h := by
    have := (Offsets.tryExtend_spec hc h).2.1 rfl
    exact this.toInv
  tryExt_np hc hp := (Offsets.tryExtend_spec hc (Prod.ext rfl (Prod.ext rfl rfl))).2.2.1 hp
  tryExt_fuse w c s := by
    show Offsets.tryExtend ow R w c s = Offsets.tryExtend ow R w c s.fuse
    unfold Offsets.tryExtend
    simp only [Offsets.tryExtendLoop_fuse _ _ s]
  trunc_ok n hc := Offsets.trunc_ok n hc

end Narrow
