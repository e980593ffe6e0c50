import Verif.Props.Panics
import Verif.Spec.Visible
import Verif.Proof.Drain

/-!
# C16, for every item type: what a caught panic leaves visible, and how to recover

`C16_fixed_size_list_breaks` shows that an array of fixed-size lists can be
damaged by a caught panic. The damage cannot be seen by reading the array by
reference, and truncating the array below its length removes it.
-/

namespace Narrow.Props

open Spec

variable {nl : Bool} {t : Ty}

/-- C16, every item type, reading: right after a caught panic of `extend`, whatever its
cause, `len`, `owned(i)` and `iter_views` show the previous items followed by a prefix of
the yielded ones, and `into_iter_owned` yields these. Missing: asking it for more (see
`C16_shown_after_panic_partial`), and growing the array further (see
`C16_fixed_size_list_breaks`). -/
theorem C16_seen_after_panic_partial (ht : t.WF) {c c' : (arrayR nl t).C}
    {l : List (ItemVal nl (Val t))} {s : Src (ItemVal nl (Val t))} (hr : Reach nl t c)
    (hl : Shows nl t c l) (h : (arrayR nl t).extend c s = (c', .panic)) :
    ∃ k, Sees (arrayR nl t).toColl c' (l ++ s.items.take k) ∧
      Drains (arrayR nl t).toColl c' (l ++ s.items.take k) := by
  have hi := reach_inv hr ht
  obtain ⟨k, hk⟩ := readyE_array ht hi h
  rw [hl.abs_eq hi] at hk
  exact ⟨k, hk.vis.sees, hk.drains⟩

/-- The same for `try_extend`. -/
theorem C16_seen_after_try_panic_partial (ht : t.WF) {w w' : World} {c c' : (arrayR nl t).C}
    {l : List (ItemVal nl (Val t))} {s : Src (ItemVal nl (Val t))} (hr : Reach nl t c)
    (hl : Shows nl t c l) (h : (arrayR nl t).tryExtend w c s = (c', .panic, w')) :
    ∃ k, Sees (arrayR nl t).toColl c' (l ++ s.items.take k) ∧
      Drains (arrayR nl t).toColl c' (l ++ s.items.take k) := by
  have hi := reach_inv hr ht
  obtain ⟨k, hk⟩ := readyT_array ht hi h
  rw [hl.abs_eq hi] at hk
  exact ⟨k, hk.vis.sees, hk.drains⟩

/-- C16, reading in full: unless the items are fixed-size lists and not nullable, every way
of reading shows the previous items followed by a prefix of the yielded ones, whatever lies
inside the items. Missing: growing the array further (see `C16_nullable_breaks`), and the
others (see `C16_consuming_panics`). -/
theorem C16_shown_after_panic_partial (ht : t.WF) (hs : ¬Grouped nl t) {c c' : (arrayR nl t).C}
    {l : List (ItemVal nl (Val t))} {s : Src (ItemVal nl (Val t))} (hr : Reach nl t c)
    (hl : Shows nl t c l) (h : (arrayR nl t).extend c s = (c', .panic)) :
    ∃ k, Shows nl t c' (l ++ s.items.take k) := by
  have hi := reach_inv hr ht
  obtain ⟨k, hk⟩ := fullE_array nl t ht hs hi h
  rw [hl.abs_eq hi] at hk
  exact ⟨k, hk.reads⟩

/-- The same for `try_extend`. -/
theorem C16_shown_after_try_panic_partial (ht : t.WF) (hs : ¬Grouped nl t) {w w' : World}
    {c c' : (arrayR nl t).C}
    {l : List (ItemVal nl (Val t))} {s : Src (ItemVal nl (Val t))} (hr : Reach nl t c)
    (hl : Shows nl t c l) (h : (arrayR nl t).tryExtend w c s = (c', .panic, w')) :
    ∃ k, Shows nl t c' (l ++ s.items.take k) := by
  have hi := reach_inv hr ht
  obtain ⟨k, hk⟩ := fullT_array nl t ht hs hi h
  rw [hl.abs_eq hi] at hk
  exact ⟨k, hk.reads⟩

theorem mend_of_half {W : ItemVal nl (Val t) → Prop} {ht : t.WF} {c' : (arrayR nl t).C}
    {l : List (ItemVal nl (Val t))} (hk : Half W (arrayL nl t ht) c' l) {n : Nat}
    (hn : ∃ x ∈ l.drop n, W x) :
    ∃ c'', (arrayR nl t).truncate c' n = (c'', .ok) ∧ Shows nl t c'' (l.take n) := by
  obtain ⟨c'', h1, h2, h3⟩ := hk.trunc n hn
  exact ⟨c'', h1, shows_of_inv ht h2 h3⟩

/-- C16, recovery, every item type: after a caught panic of `extend`, truncating the
array leaves an array that holds exactly the items before, is reachable, and so behaves
as all the other theorems say, if the truncation drops an item that contains fixed-size
lists wherever the item type has them within variable-size lists. -/
theorem C16_dropping_mends_partial (ht : t.WF) {c c' : (arrayR nl t).C}
    {l : List (ItemVal nl (Val t))} {s : Src (ItemVal nl (Val t))} (hr : Reach nl t c)
    (hl : Shows nl t c l) (h : (arrayR nl t).extend c s = (c', .panic)) :
    ∃ k, Sees (arrayR nl t).toColl c' (l ++ s.items.take k) ∧
      ∀ n, (∃ x ∈ (l ++ s.items.take k).drop n, Clears nl t x) →
        ∃ c'', (arrayR nl t).truncate c' n = (c'', .ok) ∧ Reach nl t c'' ∧
          Shows nl t c'' ((l ++ s.items.take k).take n) := by
  have hi := reach_inv hr ht
  obtain ⟨k, hk⟩ := holdE_array ht hi h
  rw [hl.abs_eq hi] at hk
  refine ⟨k, hk.vis.sees, fun n hn => ?_⟩
  obtain ⟨c'', h1, h2⟩ := mend_of_half hk hn
  exact ⟨c'', h1, .extendMend hr h hk.vis.sees hn h1, h2⟩

/-- C16, recovery: after a caught panic of `extend`, truncating to any length
below the one reported leaves an array that holds exactly that many of the items,
is reachable, and so behaves as all the other theorems say. Missing: fixed-size
lists within variable-size lists. -/
theorem C16_truncate_mends_partial (ht : t.WF) (hs : Mends t) {c c' : (arrayR nl t).C}
    {l : List (ItemVal nl (Val t))} {s : Src (ItemVal nl (Val t))} (hr : Reach nl t c)
    (hl : Shows nl t c l) (h : (arrayR nl t).extend c s = (c', .panic)) :
    ∃ k, Sees (arrayR nl t).toColl c' (l ++ s.items.take k) ∧
      ∀ n, n < (l ++ s.items.take k).length →
        ∃ c'', (arrayR nl t).truncate c' n = (c'', .ok) ∧ Reach nl t c'' ∧
          Shows nl t c'' ((l ++ s.items.take k).take n) := by
  obtain ⟨k, h1, h2⟩ := C16_dropping_mends_partial ht hr hl h
  refine ⟨k, h1, fun n hn => h2 n ?_⟩
  obtain ⟨x, hx, -⟩ := exists_drop hn
  exact ⟨x, hx, clears_of_mends ht hs x⟩

/-- The same for `try_extend`, for every item type. -/
theorem C16_truncate_mends_try_partial (ht : t.WF) {w w' : World} {c c' : (arrayR nl t).C}
    {l : List (ItemVal nl (Val t))} {s : Src (ItemVal nl (Val t))} (hr : Reach nl t c)
    (hl : Shows nl t c l) (h : (arrayR nl t).tryExtend w c s = (c', .panic, w')) :
    ∃ k, Sees (arrayR nl t).toColl c' (l ++ s.items.take k) ∧
      ∀ n, n < (l ++ s.items.take k).length →
        ∃ c'', (arrayR nl t).truncate c' n = (c'', .ok) ∧ Reach nl t c'' ∧
          Shows nl t c'' ((l ++ s.items.take k).take n) := by
  have hi := reach_inv hr ht
  obtain ⟨k, hk⟩ := holdT_array ht hi h
  rw [hl.abs_eq hi] at hk
  refine ⟨k, hk.vis.sees, fun n hn => ?_⟩
  obtain ⟨c'', h1, h2⟩ := mend_of_half hk (exists_drop hn)
  exact ⟨c'', h1, .tryExtendMend hr h hk.vis.len hn h1, h2⟩

theorem Broken.sees_two {k : Nat} (h : Sees (arrayR false Broken.B3).toColl Broken.left
    (show List (ItemVal false (Val Broken.B3)) from
      [Broken.tri true false true] ++ (Src.items (α := FixArr Bool 3) Broken.src).take k)) :
    Sees (arrayR false Broken.B3).toColl Broken.left
      [Broken.tri true false true, Broken.tri true true true] := by
  have h3 := h.len.symm.trans (show (arrayR false Broken.B3).len Broken.left = .ok 2 from rfl)
  injection h3 with h3
  match k, h, h3 with
  | 0, _, h3 => exact absurd h3 (by decide)
  | 1, h, _ => exact h
  | k + 2, _, h3 =>
    have h4 : ([Broken.tri true false true] ++
      List.take (k + 2) [Broken.tri true true true, Broken.tri true true true]).length = 2 := h3
    simp at h4

/-- The damaged array of `C16_fixed_size_list_breaks` still shows the old item and
one of the yielded ones. -/
example : Sees (arrayR false Broken.B3).toColl Broken.left
    [Broken.tri true false true, Broken.tri true true true] := by
  obtain ⟨k, h⟩ := C16_seen_after_panic_partial (t := Broken.B3) ⟨by decide, trivial⟩
    Broken.one_reach Broken.one_shows Broken.extend_one
  exact Broken.sees_two h.1

/-- The same after `try_extend`. -/
example : Sees (arrayR false Broken.B3).toColl Broken.left
    [Broken.tri true false true, Broken.tri true true true] := by
  obtain ⟨k, h⟩ := C16_seen_after_try_panic_partial (t := Broken.B3) ⟨by decide, trivial⟩
    Broken.one_reach Broken.one_shows Broken.tryExtend_one
  exact Broken.sees_two h.1

/-- Truncating it to one item leaves a sound array with the old item. -/
example : ∃ c'', (arrayR false Broken.B3).truncate Broken.left 1 = (c'', .ok) ∧
    Reach false Broken.B3 c'' ∧ Shows false Broken.B3 c'' [Broken.tri true false true] := by
  obtain ⟨k, h1, h2⟩ := C16_truncate_mends_partial (t := Broken.B3) ⟨by decide, trivial⟩ trivial
    Broken.one_reach Broken.one_shows Broken.extend_one
  have h3 := h1.len.symm.trans (show (arrayR false Broken.B3).len Broken.left = .ok 2 from rfl)
  injection h3 with h3
  obtain ⟨c'', t1, t2, t3⟩ := h2 1 (Nat.lt_of_lt_of_eq (by decide) h3.symm)
  exact ⟨c'', t1, t2, t3⟩

/-- So does truncating what `try_extend` left. -/
example : ∃ c'', (arrayR false Broken.B3).truncate Broken.left 1 = (c'', .ok) ∧
    Reach false Broken.B3 c'' ∧ Shows false Broken.B3 c'' [Broken.tri true false true] := by
  obtain ⟨k, h1, h2⟩ := C16_truncate_mends_try_partial (t := Broken.B3) ⟨by decide, trivial⟩
    Broken.one_reach Broken.one_shows Broken.tryExtend_one
  have h3 := h1.len.symm.trans (show (arrayR false Broken.B3).len Broken.left = .ok 2 from rfl)
  injection h3 with h3
  obtain ⟨c'', t1, t2, t3⟩ := h2 1 (Nat.lt_of_lt_of_eq (by decide) h3.symm)
  exact ⟨c'', t1, t2, t3⟩

namespace Nulled

open Broken (B3 tri)

/-- `[false, false, false]` -/
def fff : ItemVal true (Val B3) := some (tri false false false)

/-- `[true, true, true]` -/
def ttt : ItemVal true (Val B3) := some (tri true true true)

/-- An array of two items, six bits. -/
def two : (arrayR true B3).C :=
  (⟨⟨⟨⟨[0#8], 1⟩, 6, 0⟩⟩, some ⟨⟨[3#8], 1⟩, 2, 0⟩⟩ : Validity (Flatten Bitmap))

/-- What a source leaves that yields an item and panics: eight bits. -/
def left : (arrayR true B3).C :=
  (⟨⟨⟨⟨[0b11000000#8], 1⟩, 8, 0⟩⟩, some ⟨⟨[3#8], 1⟩, 2, 0⟩⟩ : Validity (Flatten Bitmap))

/-- What extending that by one item leads to. -/
def after : (arrayR true B3).C :=
  (⟨⟨⟨⟨[0b11000000#8, 0#8], 2⟩, 11, 0⟩⟩, some ⟨⟨[7#8], 1⟩, 3, 0⟩⟩ : Validity (Flatten Bitmap))

theorem extend_empty : (arrayR true B3).extend (arrayR true B3).empty (Src.ofList [fff, fff]) =
    (two, .ok) := by with_unfolding_all rfl

theorem extend_two : (arrayR true B3).extend two [.item ttt, .panic] = (left, .panic) := by
  with_unfolding_all rfl

theorem tryExtend_two : (arrayR true B3).tryExtend Sample.world two [.item ttt, .panic] =
    (left, .panic, ⟨Sample.oracle, 1⟩) := by with_unfolding_all rfl

theorem extend_left : (arrayR true B3).extend left (Src.ofList [fff]) = (after, .ok) := by
  with_unfolding_all rfl

theorem wf : B3.WF := ⟨by decide, trivial⟩

theorem fits : Fits true B3 0 [fff, fff] := by
  refine ⟨by decide, ?_⟩
  show (List.flatMap _ _).length + 0 * 3 ≤ 2 ^ 61
  decide

theorem two_grown : Grown true B3 two :=
  .extend (s := Src.ofList [fff, fff]) .empty (empty_shows (t := B3) wf) fits extend_empty

theorem two_shows : Shows true B3 two [fff, fff] :=
  (C10_extend_appends (s := Src.ofList [fff, fff]) wf .empty (empty_shows (t := B3) wf) extend_empty).2.1

theorem after_owned : (arrayR true B3).owned after 2 = .ok (some (some (tri true true false))) := rfl

end Nulled

/-- The array of two optional items that `C16_nullable_breaks` damages can be consumed. -/
example : ∃ k, Shows true Broken.B3 Nulled.left
    ([Nulled.fff, Nulled.fff] ++ [Nulled.ttt].take k) :=
  C16_shown_after_panic_partial (nl := true) (t := Broken.B3) (s := [.item Nulled.ttt, .panic])
    Nulled.wf id Nulled.two_grown.reach Nulled.two_shows Nulled.extend_two

/-- The same after `try_extend`. -/
example : ∃ k, Shows true Broken.B3 Nulled.left
    ([Nulled.fff, Nulled.fff] ++ [Nulled.ttt].take k) :=
  C16_shown_after_try_panic_partial (nl := true) (t := Broken.B3) (s := [.item Nulled.ttt, .panic])
    Nulled.wf id Nulled.two_grown.reach Nulled.two_shows Nulled.tryExtend_two

/-- C16 is false of `Array<Option<[bool; 3]>>`, too, even within memory limits: the array
holds `[false, false, false]` twice, the source yields `[true, true, true]` and panics, and
the panic is caught. The array then reads as before. Extending it by
`[false, false, false]` works, but the new item comes out as `[true, true, false]`, which
nobody ever passed in. -/
theorem C16_nullable_breaks :
    ∃ (c c' c'' : (arrayR true (.fsl 3 false .bool)).C)
      (l new : List (ItemVal true (Val (.fsl 3 false .bool))))
      (s : Src (ItemVal true (Val (.fsl 3 false .bool)))),
      Grown true (.fsl 3 false .bool) c ∧ Shows true (.fsl 3 false .bool) c l ∧
      (arrayR true (.fsl 3 false .bool)).extend c s = (c', .panic) ∧
      Shows true (.fsl 3 false .bool) c' l ∧
      (arrayR true (.fsl 3 false .bool)).extend c' (Src.ofList new) = (c'', .ok) ∧
      ∃ x, (arrayR true (.fsl 3 false .bool)).owned c'' l.length = .ok (some x) ∧
        x ∉ l ∧ x ∉ s.items ∧ x ∉ new := by
  refine ⟨Nulled.two, Nulled.left, Nulled.after, [Nulled.fff, Nulled.fff], [Nulled.fff],
    [.item Nulled.ttt, .panic], Nulled.two_grown, Nulled.two_shows, Nulled.extend_two, ?_,
    Nulled.extend_left, some (Broken.tri true true false), Nulled.after_owned, ?_, ?_, ?_⟩
  · obtain ⟨k, h⟩ := C16_shown_after_panic_partial (nl := true) (t := Broken.B3)
      (s := [.item Nulled.ttt, .panic])
      Nulled.wf id Nulled.two_grown.reach Nulled.two_shows Nulled.extend_two
    have h1 := h.len.symm.trans (show (arrayR true Broken.B3).len Nulled.left = .ok 2 from rfl)
    injection h1 with h1
    cases k with
    | zero => exact h
    | succ k => exact absurd h1 (by simp [Src.items])
  · show some (Broken.tri true true false) ∉
      [some (Broken.tri false false false), some (Broken.tri false false false)]
    decide
  · show some (Broken.tri true true false) ∉ [some (Broken.tri true true true)]
    decide
  · show some (Broken.tri true true false) ∉ [some (Broken.tri false false false)]
    decide

/-- Consuming the damaged array yields the items that reading by reference shows, and
then panics instead of ending. -/
theorem C16_consuming_panics :
    ∃ (c c' : (arrayR false (.fsl 3 false .bool)).C) (l : List (FixArr Bool 3))
      (s : Src (FixArr Bool 3)) (m : Nat) (it : (arrayR false (.fsl 3 false .bool)).J),
      Reach false (.fsl 3 false .bool) c ∧ Shows false (.fsl 3 false .bool) c l ∧
      (arrayR false (.fsl 3 false .bool)).extend c s = (c', .panic) ∧
      (arrayR false (.fsl 3 false .bool)).len c' = .ok m ∧
      (arrayR false (.fsl 3 false .bool)).into c' = .ok it ∧
      (∃ r, polls (arrayR false (.fsl 3 false .bool)).jnext m it = .ok r) ∧
      polls (arrayR false (.fsl 3 false .bool)).jnext (m + 1) it = .panic :=
  ⟨Broken.one, Broken.left, [Broken.tri true false true], Broken.src, 2, _, Broken.one_reach,
    Broken.one_shows, Broken.extend_one, rfl, rfl, ⟨_, rfl⟩, rfl⟩

/-- Truncating the damaged array to the length it reports does not repair it:
nothing is dropped, and the next item still comes out wrong. -/
theorem C16_truncate_to_length_does_not_mend :
    ∃ (c c' c'' c3 : (arrayR false (.fsl 3 false .bool)).C) (l new : List (FixArr Bool 3))
      (s : Src (FixArr Bool 3)) (m : Nat),
      Reach false (.fsl 3 false .bool) c ∧ Shows false (.fsl 3 false .bool) c l ∧
      (arrayR false (.fsl 3 false .bool)).extend c s = (c', .panic) ∧
      (arrayR false (.fsl 3 false .bool)).len c' = .ok m ∧
      (arrayR false (.fsl 3 false .bool)).truncate c' m = (c'', .ok) ∧
      (arrayR false (.fsl 3 false .bool)).extend c'' (Src.ofList new) = (c3, .ok) ∧
      (∃ x, (arrayR false (.fsl 3 false .bool)).owned c3 2 = .ok (some x) ∧
        x ∉ l ∧ x ∉ s.items ∧ x ∉ new) :=
  ⟨Broken.one, Broken.left, Broken.left, Broken.after, [Broken.tri true false true],
    [Broken.tri false false false], Broken.src, 2, Broken.one_reach, Broken.one_shows,
    Broken.extend_one, rfl, rfl, Broken.extend_left, Broken.tri true true false, Broken.after_owned,
    by decide, by decide, by decide⟩

end Narrow.Props
