import Verif.Props.Nulls
import Verif.Proof.Equality
import Verif.Proof.OffsetsOverflow
import Verif.Spec.Rows

/-!
# Properties of list arrays (C23 to C28)

A list array is an `Offsets` over the array of its elements:
`arrayR false (.vsl ow nl t)` over `arrayR nl t`.
-/

namespace Narrow.Props

open Spec

variable {ow : OffW} {nl : Bool} {t : Ty}

theorem rowsOf_eq {α : Type} (data : List α) : ∀ offsets : List Int,
    rowsOf data offsets = Offsets.slices data offsets
  | [] => rfl
  | [_] => rfl
  | s :: e :: rest => by
    have := rowsOf_eq data (e :: rest)
    simp only [rowsOf, List.tail_cons, List.zipWith_cons_cons, Offsets.slices] at this ⊢
    rw [this]

theorem offsetsOf_eq {α : Type} (rows : List (List α)) : offsetsOf rows = Offsets.totals 0 rows := by
  apply List.ext_getElem?
  intro i
  by_cases h : i ≤ rows.length
  · rw [Offsets.totals_get 0 rows i h]
    have : i < rows.length + 1 := by omega
    simp [offsetsOf, this]
  · rw [List.getElem?_eq_none (by simp [offsetsOf]; omega),
      List.getElem?_eq_none (by rw [Offsets.totals_length]; omega)]

/-! ## C23 -/

/-- C23. `try_from_parts` accepts exactly valid offsets, and `into_parts` gives
the parts back. -/
theorem C23_accepts (ht : t.WF) {c : (arrayR nl t).C} {xs : List (ItemVal nl (Val t))}
    {offsets : RVec Int} (hc : Reach nl t c) (hx : Shows nl t c xs) :
    (∃ f, Offsets.tryFromParts (arrayR nl t).toColl c offsets = .ok (.ok f) ∧
      f.intoParts = (c, offsets)) ↔ ValidOffsets offsets.items xs.length := by
  have hi := reach_inv hc ht
  have he : (arrayL nl t ht).abs c = xs := hx.abs_eq hi
  constructor
  · rintro ⟨f, hf, -⟩
    refine Classical.byContradiction fun hn => ?_
    rw [← he] at hn
    obtain ⟨e, h, -⟩ := Offsets.tryFromParts_invalid (L := (arrayL nl t ht).toLawfulColl) hi hn
    have := h.symm.trans hf
    simp at this
  · intro h
    rw [← he] at h
    exact ⟨_, Offsets.tryFromParts_valid (L := (arrayL nl t ht).toLawfulColl) hi h, rfl⟩

/-- C23. Invalid offsets are rejected with the first violation. -/
theorem C23_rejects (ht : t.WF) {c : (arrayR nl t).C} {xs : List (ItemVal nl (Val t))}
    {offsets : RVec Int} (hc : Reach nl t c) (hx : Shows nl t c xs)
    (hn : ¬ ValidOffsets offsets.items xs.length) :
    ∃ e, Offsets.tryFromParts (arrayR nl t).toColl c offsets = .ok (.error e) ∧
      FirstViolation offsets.items xs.length e := by
  have hi := reach_inv hc ht
  have he : (arrayL nl t ht).abs c = xs := hx.abs_eq hi
  rw [← he] at hn ⊢
  exact Offsets.tryFromParts_invalid (L := (arrayL nl t ht).toLawfulColl) hi hn

theorem good_take {l : List Int} (h : GoodOffsets l) (n : Nat) : GoodOffsets (l.take n) where
  first x hx := by
    cases n with
    | zero => simp at hx
    | succ n => exact h.first x (by simpa [List.head?_take] using hx)
  nonneg x hx := h.nonneg x (List.mem_of_mem_take hx)
  sorted i j hi hj hij := by
    simp only [List.getElem_take]
    exact h.sorted i j _ _ hij

/-- Bad position: the offsets up to `i` are good, those including `i` are not. -/
theorem good_boundary {l : List Int} {i j : Nat} (hi : GoodOffsets (l.take i))
    (hni : ¬ GoodOffsets (l.take (i + 1))) (hj : GoodOffsets (l.take j))
    (hnj : ¬ GoodOffsets (l.take (j + 1))) : i = j := by
  rcases Nat.lt_trichotomy i j with h | h | h
  · exact absurd (by simpa [List.take_take, Nat.min_eq_left (show i + 1 ≤ j from h)] using good_take hj (i + 1)) hni
  · exact h
  · exact absurd (by simpa [List.take_take, Nat.min_eq_left (show j + 1 ≤ i from h)] using good_take hi (j + 1)) hnj

theorem neg_bad {l : List Int} {i : Nat} (h : i < l.length) (hn : l[i] < 0) :
    ¬ GoodOffsets (l.take (i + 1)) := fun hg => by
  have := hg.nonneg l[i] (by rw [List.mem_take_iff_getElem]; exact ⟨i, by omega, rfl⟩)
  omega

theorem first_bad {l : List Int} (h : 0 < l.length) (hn : 0 < l[0]) : ¬ GoodOffsets (l.take (0 + 1)) :=
  fun hg => by
    have := hg.first l[0] (by simp [List.head?_eq_getElem?])
    omega

theorem mono_bad {l : List Int} {i : Nat} (h : i + 1 < l.length) (hn : l[i + 1] < l[i]) :
    ¬ GoodOffsets (l.take (i + 1 + 1)) := fun hg => by
  have := hg.sorted i (i + 1) (by simp; omega) (by simp; omega) (by omega)
  simp only [List.getElem_take] at this
  omega

/-- The position of the violation, if it is inside the offsets. -/
theorem violation_at {l : List Int} {d : Nat} {e : OffsetsError} (h : FirstViolation l d e) :
    (l = [] ∧ e = .empty) ∨
    (∃ i, ∃ hi : i < l.length, GoodOffsets (l.take i) ∧ ¬ GoodOffsets (l.take (i + 1)) ∧
      e = if l[i] < 0 then .negative i else if i = 0 then .nonZeroFirst l[i].toNat else .nonMonotonic i) ∨
    (∃ hl : l ≠ [], GoodOffsets l ∧ d < l.getLast hl ∧ e = .outOfBounds (l.getLast hl).toNat d) := by
  cases h with
  | empty h => exact .inl ⟨h, rfl⟩
  | negative i h hg hn =>
    exact .inr (.inl ⟨i, h, hg, neg_bad h hn, by rw [if_pos hn]⟩)
  | nonZeroFirst h hn =>
    refine .inr (.inl ⟨0, h, ⟨by simp, by simp, by simp⟩, first_bad h hn, ?_⟩)
    rw [if_neg (by omega), if_pos rfl]
  | nonMonotonic i h hg h0 hn =>
    refine .inr (.inl ⟨i + 1, h, hg, mono_bad h hn, ?_⟩)
    rw [if_neg (by omega), if_neg (by omega)]
  | outOfBounds h hg hd => exact .inr (.inr ⟨h, hg, hd, rfl⟩)

/-- C23. There is only one first violation, and only invalid offsets have one:
together with `C23_rejects` the error is determined by the offsets. -/
theorem C23_violation_unique {l : List Int} {d : Nat} {e e' : OffsetsError}
    (h : FirstViolation l d e) (h' : FirstViolation l d e') : e = e' ∧ ¬ ValidOffsets l d := by
  constructor
  · rcases violation_at h with ⟨h1, h2⟩ | ⟨i, hi, h1, h2, h3⟩ | ⟨hl, h1, h2, h3⟩ <;>
      rcases violation_at h' with ⟨k1, k2⟩ | ⟨j, hj, k1, k2, k3⟩ | ⟨kl, k1, k2, k3⟩
    · rw [h2, k2]
    · subst h1; simp at hj
    · exact absurd h1 kl
    · subst k1; simp at hi
    · obtain rfl := good_boundary h1 h2 k1 k2
      rw [h3, k3]
    · exact absurd (good_take k1 _) h2
    · exact absurd k1 hl
    · exact absurd (good_take h1 _) k2
    · rw [h3, k3]
  · rintro ⟨v1, v2, v3⟩
    rcases violation_at h with ⟨h1, -⟩ | ⟨i, hi, h1, h2, -⟩ | ⟨hl, h1, h2, -⟩
    · exact v1 h1
    · exact h2 (good_take v2 _)
    · omega

/-! ## C24 -/

/-- C24. An accepted collection shows the slices between consecutive offsets, all
of them within the data; together they are the data up to the last offset. -/
theorem C24_slices (ht : t.WF) {c : (arrayR nl t).C} {xs : List (ItemVal nl (Val t))}
    {offsets : RVec Int} {f : Offsets (arrayR nl t).C} (hc : Reach nl t c) (hx : Shows nl t c xs)
    (hw : offsets.WF ow.lim) (hin : ∀ o ∈ offsets.items, -(ow.max : Int) - 1 ≤ o ∧ o ≤ ow.max)
    (h : Offsets.tryFromParts (arrayR nl t).toColl c offsets = .ok (.ok f)) :
    Reach false (.vsl ow nl t) f ∧
    Shows false (.vsl ow nl t) f (rowsOf xs offsets.items) ∧
    (∀ o ∈ offsets.items, 0 ≤ o ∧ o ≤ xs.length) ∧
    (rowsOf xs offsets.items).length + 1 = offsets.items.length ∧
    ∃ last, offsets.items.getLast? = some last ∧
      (rowsOf xs offsets.items).flatten = xs.take last.toNat := by
  have hi := reach_inv hc ht
  have he : (arrayL nl t ht).abs c = xs := hx.abs_eq hi
  obtain ⟨rfl, hv, hinv⟩ := Offsets.tryFromParts_inv (L := (arrayL nl t ht).toLawfulColl) (ow := ow) hi hw h
  have hr : Reach false (.vsl ow nl t) ⟨c, offsets⟩ := .offsetsParts hc hw hin h
  have habs : Offsets.abs (arrayL nl t ht).toLawfulColl ⟨c, offsets⟩ = rowsOf xs offsets.items := by
    rw [rowsOf_eq, ← he]; rfl
  have hitems := hinv.2.items
  have hpre := hinv.2.pre
  rw [habs] at hitems hpre
  rw [he] at hv
  rw [show (arrayL nl t ht).abs c = xs from he] at hpre
  refine ⟨hr, shows_of_inv (t := .vsl ow nl t) ht hinv habs, ?_, ?_, ?_⟩
  · intro o ho
    refine ⟨hv.good.nonneg o ho, ?_⟩
    obtain ⟨i, hi, rfl⟩ := List.getElem_of_mem ho
    refine Int.le_trans ?_ hv.bounded
    rw [List.getLast_eq_getElem]
    exact hv.good.sorted _ _ _ _ (by omega)
  · rw [show offsets.items.length = _ from congrArg List.length hitems, Offsets.totals_length]
  · refine ⟨_, (congrArg List.getLast? hitems).trans (Offsets.totals_getLast 0 _), ?_⟩
    rw [Int.toNat_natCast, Nat.zero_add]
    exact List.prefix_iff_eq_take.mp hpre

/-! ## C25 -/

/-- The parts of a list array that holds `rows` and nothing else. -/
def Encodes (ow : OffW) (nl : Bool) (t : Ty) (f : Offsets (arrayR nl t).C)
    (rows : List (List (ItemVal nl (Val t)))) : Prop :=
  Shows nl t f.intoParts.1 rows.flatten ∧ f.intoParts.2.items = offsetsOf rows ∧
  f.intoParts.2.WF ow.lim

theorem encodes_of (ht : t.WF) {f : Offsets (arrayR nl t).C} {rows : List (List (ItemVal nl (Val t)))}
    (h : Offsets.Mid (arrayL nl t ht) ow f rows) : Encodes ow nl t f rows :=
  ⟨shows_of_inv ht h.inv h.data, by rw [offsetsOf_eq]; exact h.items, h.wf⟩

section
variable {O : Type} {R : Realloc O} {L : LawfulR R}

theorem empty_mid : Offsets.Mid L ow (Offsets.empty ow R) [] := by
  cases ow <;>
    exact ⟨⟨Nat.le_of_ble_eq_true rfl, Nat.le_of_ble_eq_true rfl⟩, L.empty_ok.1, rfl, L.empty_ok.2.1⟩

theorem mid_nil_of {c : Offsets R.C} (h : Offsets.Inv L.toLawfulColl ow c)
    (ha : Offsets.abs L.toLawfulColl c = []) (hk : Offsets.Canon L c) : Offsets.Mid L ow c [] := by
  refine ⟨h.1, h.2.inv, ha ▸ h.2.items, ?_⟩
  have := hk.2
  rw [ha] at this; exact this

theorem fromIter_mid {s : Src (List O)} {c : Offsets R.C}
    (h : Offsets.fromIter ow R s = .ok c) : Offsets.Mid L ow c s.items := by
  unfold Offsets.fromIter at h
  generalize hE : Offsets.extend ow R (Offsets.empty ow R) s = E at h
  obtain ⟨c', o⟩ := E
  have hm := (empty_mid (L := L) (ow := ow)).toInv
  obtain ⟨-, h2, -⟩ := Offsets.extend_spec (L := L) hm.1 hE
  cases o with
  | err => simp at h
  | panic => simp at h
  | ok =>
    simp only [Try.ok.injEq] at h
    subst h
    have := (h2 rfl).1
    rw [hm.2] at this
    exact this

theorem fromIterIn_mid {w w' : World} {s : Src (List O)} {c : Offsets R.C}
    (h : Offsets.fromIterIn ow R w s = (.ok c, w')) : Offsets.Mid L ow c s.items := by
  unfold Offsets.fromIterIn at h
  generalize hW : Offsets.withCap ow R (w.capHint s.items.length) = W at h
  cases W with
  | err => simp at h
  | panic => simp at h
  | ok c0 =>
    simp only at h
    obtain ⟨a1, a2, a3⟩ := (offsetsL ow L).withCap_ok hW
    generalize hE : Offsets.extend ow R c0 s = E at h
    obtain ⟨c', o⟩ := E
    obtain ⟨-, h2, -⟩ := Offsets.extend_spec (L := L) a1 hE
    cases o with
    | err => simp at h
    | panic => simp at h
    | ok =>
      simp only [Prod.mk.injEq, Try.ok.injEq] at h
      obtain ⟨rfl, -⟩ := h
      have := (h2 rfl).1
      rw [show Offsets.abs L.toLawfulColl c0 = [] from a2] at this
      exact this

theorem tryFromIter_mid {w w' : World} {s : Src (List O)} {c : Offsets R.C}
    (h : Offsets.tryFromIter ow R w s = (.ok c, w')) : Offsets.Mid L ow c s.items := by
  unfold Offsets.tryFromIter at h
  generalize hW : Offsets.tryWithCap ow R w.next (w.capHint s.items.length) = W at h
  obtain ⟨x, w1⟩ := W
  cases x with
  | err => simp at h
  | panic => simp at h
  | ok c0 =>
    simp only at h
    obtain ⟨a1, a2, a3⟩ := (offsetsL ow L).tryWithCap_ok hW
    generalize hE : Offsets.tryExtend ow R w1 c0 s = E at h
    obtain ⟨c', o, w2⟩ := E
    obtain ⟨h2, -⟩ := Offsets.tryExtend_spec (L := L) a1 hE
    cases o with
    | err => simp at h
    | panic => simp at h
    | ok =>
      simp only [Prod.mk.injEq, Try.ok.injEq] at h
      obtain ⟨rfl, -⟩ := h
      have := (h2 rfl).1
      rw [show Offsets.abs L.toLawfulColl c0 = [] from a2] at this
      exact this

end

/-- C25. Collecting lists, by any of the three constructors and from any
iterator: the offsets are the running totals and the data is the concatenation. -/
theorem C25_collect (ht : t.WF) {w w' : World} {s : Src (List (ItemVal nl (Val t)))}
    {c : (arrayR false (.vsl ow nl t)).C}
    (h : (arrayR false (.vsl ow nl t)).fromIter w s = (.ok c, w') ∨
      (arrayR false (.vsl ow nl t)).fromIterIn w s = (.ok c, w') ∨
      (arrayR false (.vsl ow nl t)).tryFromIter w s = (.ok c, w')) :
    Encodes ow nl t c s.items ∧ Shows false (.vsl ow nl t) c s.items := by
  have hm : Offsets.Mid (arrayL nl t ht) ow c s.items := by
    rcases h with h | h | h
    · replace h : (Offsets.fromIter ow (arrayR nl t) s, w) = (.ok c, w') := h
      exact fromIter_mid (Prod.mk.inj h).1
    · exact fromIterIn_mid (w := w) (w' := w') h
    · exact tryFromIter_mid (w := w) (w' := w') h
  exact ⟨encodes_of ht hm, shows_of_inv (t := .vsl ow nl t) ht hm.toInv.1 hm.toInv.2⟩

/-- C25. The same holds after any history of growing, shrinking and reserving
within memory limits. -/
theorem C25_histories (ht : t.WF) {c : Offsets (arrayR nl t).C} {rows : List (List (ItemVal nl (Val t)))}
    (hg : Grown false (.vsl ow nl t) c) (hl : Shows false (.vsl ow nl t) c rows) :
    Encodes ow nl t c rows := by
  obtain ⟨hi, hk⟩ := grown_canon hg (show (Ty.vsl ow nl t).WF from ht)
  replace hi : Offsets.Inv (arrayL nl t ht).toLawfulColl ow c := hi
  replace hk : Offsets.Canon (arrayL nl t ht) c := hk
  have he : Offsets.abs (arrayL nl t ht).toLawfulColl c = rows :=
    Reads.abs_eq (L := (arrayL false (.vsl ow nl t) ht).toLawfulColl) hl hi
  refine encodes_of ht ⟨hi.1, hi.2.inv, he ▸ hi.2.items, ?_⟩
  have := hk.2
  rw [he] at this; exact this

/-! ## C26 -/

theorem list_inv (ht : t.WF) {c : Offsets (arrayR nl t).C} {rows : List (List (ItemVal nl (Val t)))}
    (hr : Reach false (.vsl ow nl t) c) (hl : Shows false (.vsl ow nl t) c rows) :
    Offsets.Inv (arrayL nl t ht).toLawfulColl ow c ∧ Offsets.abs (arrayL nl t ht).toLawfulColl c = rows :=
  ⟨reach_inv (t := .vsl ow nl t) hr ht,
    Reads.abs_eq (L := (arrayL false (.vsl ow nl t) ht).toLawfulColl) hl (reach_inv hr ht)⟩

/-- The largest `i32` and `i64`. -/
def maxOffset : OffW → Nat
  | .i32 => 2147483647
  | .i64 => 9223372036854775807

theorem maxOffset_eq : maxOffset ow = ow.max := by cases ow <;> rfl

/-- C26. `extend` never returns when the total would exceed the offset type's
maximum, whatever the array and the source: it panics. -/
theorem C26_extend_never_wraps (ht : t.WF) {c c' : Offsets (arrayR nl t).C}
    {rows : List (List (ItemVal nl (Val t)))} {s : Src (List (ItemVal nl (Val t)))} {o : Out}
    (hr : Reach false (.vsl ow nl t) c) (hl : Shows false (.vsl ow nl t) c rows)
    (hs : s.items ≠ []) (hmax : maxOffset ow < (rows ++ s.items).flatten.length)
    (h : (arrayR false (.vsl ow nl t)).extend c s = (c', o)) : o = .panic := by
  rw [maxOffset_eq] at hmax
  obtain ⟨hi, he⟩ := list_inv ht hr hl
  replace h : Offsets.extend ow (arrayR nl t) c s = (c', o) := h
  cases o with
  | panic => rfl
  | err => exact absurd rfl (Offsets.extend_spec (L := arrayL nl t ht) hi h).1
  | ok =>
    rcases Offsets.extend_bound (L := arrayL nl t ht) hi h with h | h
    · exact absurd h hs
    · rw [he] at h; omega

/-- C26. On an array within memory limits, the panic happens at the list that
makes the total exceed the maximum, and the lists before it are kept. -/
theorem C26_extend_keeps (ht : t.WF) {c : Offsets (arrayR nl t).C}
    {rows : List (List (ItemVal nl (Val t)))} {s : Src (List (ItemVal nl (Val t)))} {k : Nat}
    (hg : Grown false (.vsl ow nl t) c) (hl : Shows false (.vsl ow nl t) c rows)
    (hk : k < s.items.length) (hf : Fits false (.vsl ow nl t) 0 (rows ++ s.items.take k))
    (hmax : maxOffset ow < (rows ++ s.items.take (k + 1)).flatten.length) :
    ∃ c', (arrayR false (.vsl ow nl t)).extend c s = (c', .panic) ∧
      Shows false (.vsl ow nl t) c' (rows ++ s.items.take k) ∧
      Encodes ow nl t c' (rows ++ s.items.take k) := by
  rw [maxOffset_eq] at hmax
  obtain ⟨hi, he⟩ := list_inv ht hg.reach hl
  have hcan : Offsets.Canon (arrayL nl t ht) c := (grown_canon hg (show (Ty.vsl ow nl t).WF from ht)).2
  have hroom : Offsets.Room (arrayL nl t ht) ow 0 (rows ++ s.items.take k) :=
    (fits_iff (nl := false) (t := .vsl ow nl t) ht 0 _).mp hf
  rw [← he] at hmax hroom ⊢
  obtain ⟨c', h1, h2, -⟩ := Offsets.extend_overflow (L := arrayL nl t ht) hk hi hcan.1 hroom hmax
  exact ⟨c', h1, shows_of_inv (t := .vsl ow nl t) ht h2.toInv.1 h2.toInv.2, encodes_of ht h2⟩

/-- C26. `try_extend` reports an error when the total would exceed the maximum,
and leaves the items as they were, whatever the array, the allocator and the
(non-panicking) source. -/
theorem C26_try_extend_err (ht : t.WF) {c : Offsets (arrayR nl t).C} {w : World}
    {rows : List (List (ItemVal nl (Val t)))} {s : Src (List (ItemVal nl (Val t)))}
    (hr : Reach false (.vsl ow nl t) c) (hl : Shows false (.vsl ow nl t) c rows)
    (hp : s.panics = false) (hs : s.items ≠ []) (hmax : maxOffset ow < (rows ++ s.items).flatten.length) :
    ∃ c' w', (arrayR false (.vsl ow nl t)).tryExtend w c s = (c', .err, w') ∧
      Shows false (.vsl ow nl t) c' rows := by
  rw [maxOffset_eq] at hmax
  obtain ⟨hi, he⟩ := list_inv ht hr hl
  generalize hE : (arrayR false (.vsl ow nl t)).tryExtend w c s = E
  obtain ⟨c', o, w'⟩ := E
  rcases C12_try_extend_all_or_nothing (t := .vsl ow nl t) ht hr hl hE with h | h | h
  · obtain ⟨rfl, -⟩ := h
    rcases Offsets.tryExtend_bound (L := arrayL nl t ht) hi hE with h | h
    · exact absurd h hs
    · rw [he] at h; omega
  · obtain ⟨rfl, -, h⟩ := h
    exact ⟨c', w', rfl, h⟩
  · exact absurd (hp.symm.trans h.2) (by simp)

/-- C26. Within the maximum and memory limits both succeed. -/
theorem C26_succeeds (ht : t.WF) {c : (arrayR false (.vsl ow nl t)).C} {w : World}
    {rows : List (List (ItemVal nl (Val t)))} {s : Src (List (ItemVal nl (Val t)))}
    (hg : Grown false (.vsl ow nl t) c) (hl : Shows false (.vsl ow nl t) c rows)
    (hf : Fits false (.vsl ow nl t) 0 (rows ++ s.items)) (hp : s.panics = false) :
    (∃ c', (arrayR false (.vsl ow nl t)).extend c s = (c', .ok) ∧
      Shows false (.vsl ow nl t) c' (rows ++ s.items)) ∧
    (Generous w.oracle → TightHints w.oracle →
      ∃ c' w', (arrayR false (.vsl ow nl t)).tryExtend w c s = (c', .ok, w') ∧
        Shows false (.vsl ow nl t) c' (rows ++ s.items)) := by
  constructor
  · obtain ⟨c', h1, -, h2⟩ := C10_extend_returns (nl := false) (t := .vsl ow nl t) ht hg hl hf hp
    exact ⟨c', h1, h2⟩
  · intro h1 h2
    obtain ⟨c', w', h3, -, h4⟩ :=
      C12_try_extend_succeeds (nl := false) (t := .vsl ow nl t) ht hg hl h1 h2 hf hp
    exact ⟨c', w', h3, h4⟩

/-! ## C27 -/

/-- C27. Extending drops the data beyond the last offset, whatever it is: the new
lists read back as given, and the data holds the lists and nothing else. -/
theorem C27_extend (ht : t.WF) {c c' : Offsets (arrayR nl t).C}
    {rows : List (List (ItemVal nl (Val t)))} {s : Src (List (ItemVal nl (Val t)))}
    (hr : Reach false (.vsl ow nl t) c) (hl : Shows false (.vsl ow nl t) c rows)
    (h : (arrayR false (.vsl ow nl t)).extend c s = (c', .ok)) :
    Shows false (.vsl ow nl t) c' (rows ++ s.items) ∧ Encodes ow nl t c' (rows ++ s.items) := by
  obtain ⟨hi, he⟩ := list_inv ht hr hl
  have := ((Offsets.extend_spec (L := arrayL nl t ht) hi h).2.1 rfl).1
  rw [he] at this
  exact ⟨shows_of_inv (t := .vsl ow nl t) ht this.toInv.1 this.toInv.2, encodes_of ht this⟩

/-- C27. The same for `try_extend`, which drops the unreferenced data even when it
reports an error. -/
theorem C27_try_extend (ht : t.WF) {c c' : Offsets (arrayR nl t).C} {w w' : World} {o : Out}
    {rows : List (List (ItemVal nl (Val t)))} {s : Src (List (ItemVal nl (Val t)))}
    (hr : Reach false (.vsl ow nl t) c) (hl : Shows false (.vsl ow nl t) c rows)
    (h : (arrayR false (.vsl ow nl t)).tryExtend w c s = (c', o, w')) :
    (o = .ok → Shows false (.vsl ow nl t) c' (rows ++ s.items) ∧ Encodes ow nl t c' (rows ++ s.items)) ∧
    (o = .err → Shows false (.vsl ow nl t) c' rows ∧ Encodes ow nl t c' rows) := by
  obtain ⟨hi, he⟩ := list_inv ht hr hl
  obtain ⟨h1, h2, -⟩ := Offsets.tryExtend_spec (L := arrayL nl t ht) hi h
  rw [he] at h1 h2
  exact ⟨fun ho => ⟨shows_of_inv (t := .vsl ow nl t) ht (h1 ho).1.toInv.1 (h1 ho).1.toInv.2,
      encodes_of ht (h1 ho).1⟩,
    fun ho => ⟨shows_of_inv (t := .vsl ow nl t) ht (h2 ho).toInv.1 (h2 ho).toInv.2,
      encodes_of ht (h2 ho)⟩⟩

/-! ## C28 -/

theorem view_abs {O : Type} {K : Coll O} {L : LawfulColl K} {v : OffsetView K.C} {row : List O}
    (h : OffsetView.Rep L v row) : (offsetViewCL L).abs v = row := by
  obtain ⟨h1, h2, h3, h4⟩ := h
  show ((L.abs v.coll.data).drop v.start).take (v.stop - v.start) = row
  rw [h2, Nat.add_sub_cancel_left]; exact (List.prefix_iff_eq_take.mp h3).symm

theorem view_at (ht : t.WF) {c : Offsets (arrayR nl t).C} {rows : List (List (ItemVal nl (Val t)))}
    {i : Nat} (hr : Reach false (.vsl ow nl t) c) (hl : Shows false (.vsl ow nl t) c rows)
    (hi : i < rows.length) :
    ∃ v, (arrayR false (.vsl ow nl t)).view c i = .ok (some v) ∧
      OffsetView.Rep (arrayL nl t ht).toLawfulColl v rows[i] ∧
      (v : OffsetView (arrayR nl t).C).start = (rows.take i).flatten.length := by
  obtain ⟨hv, he⟩ := list_inv ht hr hl
  subst he
  obtain ⟨v, h1, h2, -⟩ := Offsets.view_rep hv hi
  have h3 := Offsets.view_eq hv hi
  refine ⟨v, h1, h2, ?_⟩
  have := h1.symm.trans h3
  simp only [Res.ok.injEq, Option.some.injEq] at this
  rw [this]

/-- C28. The view of list `i` exists; it reads as that list by length, by index
and through both iterators, and converts into that list. -/
theorem C28_view_reads (ht : t.WF) {c : Offsets (arrayR nl t).C}
    {rows : List (List (ItemVal nl (Val t)))} {i : Nat} (hr : Reach false (.vsl ow nl t) c)
    (hl : Shows false (.vsl ow nl t) c rows) (hi : i < rows.length) :
    ∃ v, (arrayR false (.vsl ow nl t)).view c i = .ok (some v) ∧
      Reads (offsetViewC (arrayR nl t).toColl) v rows[i] ∧
      OffsetView.toOwned (arrayR nl t).toColl v = .ok rows[i] := by
  obtain ⟨v, h1, h2, -⟩ := view_at ht hr hl hi
  refine ⟨v, h1, ?_, OffsetView.toOwned_ok h2⟩
  have := reads_abs (offsetViewCL (arrayL nl t ht).toLawfulColl) (c := v) ⟨_, h2⟩
  rw [view_abs h2] at this
  exact this

/-- C28. Past its end a list view returns `None`, unless the position in the data
exceeds `usize::MAX`, in which case it panics: the element positions of list `i`
are counted from the total length of the lists before it. -/
theorem C28_view_past_end (ht : t.WF) {c : Offsets (arrayR nl t).C}
    {rows : List (List (ItemVal nl (Val t)))} {i j : Nat} (hr : Reach false (.vsl ow nl t) c)
    (hl : Shows false (.vsl ow nl t) c rows) (hi : i < rows.length) (hj : rows[i].length ≤ j) :
    ∃ v, (arrayR false (.vsl ow nl t)).view c i = .ok (some v) ∧
      OffsetView.view (arrayR nl t).toColl v j =
        if (rows.take i).flatten.length + j ≤ usizeMax then .ok none else .panic := by
  obtain ⟨v, h1, h2, h3⟩ := view_at ht hr hl hi
  refine ⟨v, h1, ?_⟩
  split
  · next h => exact OffsetView.view_none h2 hj (by rw [h3]; exact h)
  · next h =>
    unfold OffsetView.view strictAdd
    rw [h3, if_neg h]; rfl

/-- C28. A list view compared with another array of the same items: equal exactly
when the lengths agree and the elements do, whatever `==` of the primitive types
is. No comparison panics. -/
theorem C28_equals_array (primEq : (p : Prim) → PrimVal p → PrimVal p → Bool) (ht : t.WF)
    {c : Offsets (arrayR nl t).C} {rows : List (List (ItemVal nl (Val t)))} {i : Nat}
    {d : (arrayR nl t).C} {xs : List (ItemVal nl (Val t))}
    (hr : Reach false (.vsl ow nl t) c) (hl : Shows false (.vsl ow nl t) c rows) (hi : i < rows.length)
    (hd : Reach nl t d) (hx : Shows nl t d xs) :
    ∃ v, (arrayR false (.vsl ow nl t)).view c i = .ok (some v) ∧
      OffsetView.eq (arrayR nl t).toColl (arrayR nl t).toColl (nullEq nl (baseR t) (baseEq primEq t)) v d =
        .ok (sameList (sameItem nl (same primEq t)) rows[i] xs) := by
  obtain ⟨v, h1, h2, -⟩ := view_at ht hr hl hi
  refine ⟨v, h1, ?_⟩
  have h3 := reach_inv hd ht
  have he : (arrayL nl t ht).abs d = xs := hx.abs_eq h3
  rw [← he]
  exact OffsetView.eq_ok (L := (arrayL nl t ht).toLawfulColl) (L' := (arrayL nl t ht).toLawfulColl)
    (fun h h' => nullEq_ok nl (baseEq_ok primEq t ht) h h') h2 h3

/-- C28. Two list views, of any two list arrays with these items. -/
theorem C28_equals_view (primEq : (p : Prim) → PrimVal p → PrimVal p → Bool) (ht : t.WF) {ow' : OffW}
    {c : Offsets (arrayR nl t).C} {rows : List (List (ItemVal nl (Val t)))} {i : Nat}
    {c' : Offsets (arrayR nl t).C} {rows' : List (List (ItemVal nl (Val t)))} {i' : Nat}
    (hr : Reach false (.vsl ow nl t) c) (hl : Shows false (.vsl ow nl t) c rows) (hi : i < rows.length)
    (hr' : Reach false (.vsl ow' nl t) c') (hl' : Shows false (.vsl ow' nl t) c' rows')
    (hi' : i' < rows'.length) :
    ∃ v v', (arrayR false (.vsl ow nl t)).view c i = .ok (some v) ∧
      (arrayR false (.vsl ow' nl t)).view c' i' = .ok (some v') ∧
      OffsetView.eq (arrayR nl t).toColl (offsetViewC (arrayR nl t).toColl)
        (nullEq nl (baseR t) (baseEq primEq t)) v v' =
        .ok (sameList (sameItem nl (same primEq t)) rows[i] rows'[i']) := by
  obtain ⟨v, h1, h2, -⟩ := view_at ht hr hl hi
  obtain ⟨v', h1', h2', -⟩ := view_at ht hr' hl' hi'
  refine ⟨v, v', h1, h1', ?_⟩
  have := OffsetView.eq_ok (L := (arrayL nl t ht).toLawfulColl)
    (L' := offsetViewCL (arrayL nl t ht).toLawfulColl) (eq := nullEq nl (baseR t) (baseEq primEq t))
    (e := sameItem nl (same primEq t))
    (fun h h' => nullEq_ok nl (baseEq_ok primEq t ht) h h') h2 (c := v') ⟨_, h2'⟩
  rw [view_abs h2'] at this
  exact this

/-- C28. If `==` of primitives is equality of values (all types except floating
point), list views are equal exactly when they are the same list. -/
theorem C28_same_iff (xs ys : List (ItemVal nl (Val t))) :
    sameList (sameItem nl (same (fun _ a b => a == b) t)) xs ys = true ↔ xs = ys :=
  sameList_iff (sameItem_iff nl (same_iff t)) xs ys

/-! ## Concrete cases -/

namespace Ints

/-- Five bytes. -/
def data : RVec (BitVec 8) := ⟨[1#8, 2#8, 3#8, 4#8, 5#8], 5⟩

theorem data_reach : Reach false (.prim .u8) data := .vec (p := .u8) (v := data) ⟨by decide, by decide⟩

theorem data_shows : Shows false (.prim .u8) data data.items :=
  shows_of_inv (t := .prim .u8) trivial (reach_inv data_reach trivial) rfl

/-- Offsets of three lists, one of them empty; the last byte is unreferenced. -/
def offs : RVec Int := ⟨[0, 2, 2, 4], 4⟩

theorem offs_wf : offs.WF OffW.i32.lim := ⟨Nat.le_of_ble_eq_true rfl, Nat.le_of_ble_eq_true rfl⟩

/-- `Vec<u8>` -/
abbrev T : Ty := .vsl .i32 false (.prim .u8)

/-- The list array. -/
def lists : Offsets (RVec (BitVec 8)) := ⟨data, offs⟩

theorem lists_made : Offsets.tryFromParts (arrayR false (.prim .u8)).toColl data offs = .ok (.ok lists) := rfl

theorem lists_reads : Reach false T lists ∧
    Shows false T lists ([[1#8, 2#8], [], [3#8, 4#8]] : List (List (BitVec 8))) :=
  have h := C24_slices (ow := .i32) (t := .prim .u8) trivial data_reach data_shows offs_wf
    (by simp only [offs]; decide) lists_made
  ⟨h.1, h.2.1⟩

end Ints

/-- C23: these offsets are accepted; each violation is found. -/
example : ValidOffsets Ints.offs.items 5 ∧
    Offsets.tryFromParts (arrayR false (.prim .u8)).toColl Ints.data ⟨[0, 2, 1, -1], 4⟩ =
      .ok (.error (.nonMonotonic 2)) ∧
    Offsets.tryFromParts (arrayR false (.prim .u8)).toColl Ints.data ⟨[0, 2, -1, 1], 4⟩ =
      .ok (.error (.negative 2)) ∧
    Offsets.tryFromParts (arrayR false (.prim .u8)).toColl Ints.data ⟨[1, -2], 2⟩ =
      .ok (.error (.nonZeroFirst 1)) ∧
    Offsets.tryFromParts (arrayR false (.prim .u8)).toColl Ints.data ⟨[0, 6], 2⟩ =
      .ok (.error (.outOfBounds 6 5)) ∧
    Offsets.tryFromParts (arrayR false (.prim .u8)).toColl Ints.data ⟨[], 2⟩ = .ok (.error .empty) :=
  ⟨(C23_accepts (t := .prim .u8) trivial Ints.data_reach Ints.data_shows).mp ⟨_, Ints.lists_made, rfl⟩,
    rfl, rfl, rfl, rfl, rfl⟩

/-- C25: the nested sample, inside its validity. -/
example : ∃ c w', (arrayR false Ints.T).fromIter Sample.world
      (Src.ofList ([[1#8], [], [2#8, 3#8]] : List (List (BitVec 8)))) = (.ok c, w') ∧
    (c : Offsets (RVec (BitVec 8))).intoParts.2.items = [0, 1, 1, 3] :=
  ⟨_, _, rfl, rfl⟩

/-- C27: the unreferenced byte 5 is not part of the appended list. -/
example : ∃ c', (arrayR false Ints.T).extend Ints.lists
      (Src.ofList ([[9#8]] : List (List (BitVec 8)))) = (c', .ok) ∧
    Shows false Ints.T c' ([[1#8, 2#8], [], [3#8, 4#8], [9#8]] : List (List (BitVec 8))) :=
  ⟨_, rfl, (C27_extend (ow := .i32) (nl := false) (t := .prim .u8)
    (s := Src.ofList ([[9#8]] : List (List (BitVec 8)))) trivial Ints.lists_reads.1
    Ints.lists_reads.2 rfl).1⟩

/-- C28: list 2 is `[3, 4]`, not equal to the whole data. -/
example : ∃ v, (arrayR false Ints.T).view Ints.lists 2 = .ok (some v) ∧
    Reads (offsetViewC (arrayR false (.prim .u8)).toColl) v ([3#8, 4#8] : List (BitVec 8)) ∧
    OffsetView.eq (arrayR false (.prim .u8)).toColl (arrayR false (.prim .u8)).toColl
      (nullEq false (baseR (.prim .u8)) (baseEq (fun _ a b => a == b) (.prim .u8))) v Ints.data = .ok false := by
  obtain ⟨v, h1, h2, -⟩ := C28_view_reads (i := 2) (t := .prim .u8) trivial Ints.lists_reads.1
    Ints.lists_reads.2 (by decide)
  obtain ⟨v', h3, h4⟩ := C28_equals_array (fun _ a b => a == b) (i := 2) (t := .prim .u8) trivial
    Ints.lists_reads.1 Ints.lists_reads.2 (by decide) Ints.data_reach Ints.data_shows
  have := h1.symm.trans h3
  simp only [Res.ok.injEq, Option.some.injEq] at this
  subst this
  exact ⟨v, h1, h2, h4⟩

/-- C28: reading far past the end of list 2 panics instead of returning `None`. -/
example : ∃ v, (arrayR false Ints.T).view Ints.lists 2 = .ok (some v) ∧
    OffsetView.view (arrayR false (.prim .u8)).toColl v usizeMax = .panic ∧
    OffsetView.view (arrayR false (.prim .u8)).toColl v 2 = .ok none := ⟨_, rfl, rfl, rfl⟩

namespace Units

/-- `[u8; 0]`, of size zero. -/
abbrev U : Ty := .prim (.array 0 .u8)

/-- `Vec<[u8; 0]>` -/
abbrev T : Ty := .vsl .i32 false U

/-- The only value. -/
def unit : Val U := (0#(8 * 0) : BitVec (8 * 0))

theorem empty_shows : Shows false T (arrayR false T).empty ([] : List (List (Val U))) :=
  shows_of_inv (t := T) trivial (arrayL false T trivial).empty_ok.1 (arrayL false T trivial).empty_ok.2.1

theorem long_exists : ∃ l : List (Val U), l.length = OffW.i32.max :=
  ⟨List.replicate OffW.i32.max unit, List.length_replicate⟩

theorem too_long {l : List (Val U)} (h : l.length = OffW.i32.max) :
    maxOffset .i32 < (([] : List (List (Val U))) ++ [l, [unit]]).flatten.length := by
  simp only [List.nil_append, List.flatten_cons, List.length_append, List.length_cons,
    List.flatten_nil, List.length_nil, h, maxOffset_eq]
  omega

theorem first_fits {l : List (Val U)} (h : l.length = OffW.i32.max) :
    Fits false T 0 (([] : List (List (Val U))) ++ [l]) := by
  have h1 : (([] : List (List (Val U))) ++ [l]).flatten.length = OffW.i32.max := by
    simp only [List.nil_append, List.flatten_cons, List.flatten_nil, List.append_nil, h]
  have h2 : (([] : List (List (Val U))) ++ [l]).length = 1 := rfl
  have : (([] : List (List (Val U))) ++ [l]).flatten.length ≤ OffW.i32.max ∧
      (([] : List (List (Val U))) ++ [l]).length + 0 + 1 ≤ OffW.i32.lim ∧
      (([] : List (List (Val U))) ++ [l]).flatten.length +
        ((([] : List (List (Val U))) ++ [l]).length + 0) ≤ Prim.lim (.array 0 .u8) := by
    rw [h1, h2]
    exact ⟨Nat.le_of_ble_eq_true rfl, Nat.le_of_ble_eq_true rfl, Nat.le_of_ble_eq_true rfl⟩
  exact this

end Units

/-- C26: a list of `i32::MAX` zero-sized elements is kept, the next one does not
fit; `try_extend` keeps nothing. -/
example : ∃ l : List (Val Units.U), l.length = 2147483647 ∧
    (∃ c', (arrayR false Units.T).extend (arrayR false Units.T).empty (Src.ofList [l, [Units.unit]]) =
      (c', .panic) ∧ Shows false Units.T c' ([l] : List (List (Val Units.U)))) ∧
    (∃ c' w', (arrayR false Units.T).tryExtend Sample.world (arrayR false Units.T).empty
      (Src.ofList [l, [Units.unit]]) = (c', .err, w') ∧ Shows false Units.T c' ([] : List (List (Val Units.U)))) := by
  obtain ⟨l, hl⟩ := Units.long_exists
  refine ⟨l, hl, ?_, ?_⟩
  · obtain ⟨c', h1, h2, -⟩ := C26_extend_keeps (ow := .i32) (nl := false) (t := Units.U)
      (s := Src.ofList [l, [Units.unit]]) (k := 1) trivial .empty Units.empty_shows
      (Nat.le_of_ble_eq_true rfl) (Units.first_fits hl) (Units.too_long hl)
    exact ⟨c', h1, h2⟩
  · exact C26_try_extend_err (ow := .i32) (nl := false) (t := Units.U)
      (s := Src.ofList [l, [Units.unit]])
      trivial .empty Units.empty_shows rfl (fun h => nomatch h) (Units.too_long hl)

end Narrow.Props
