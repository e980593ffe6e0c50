import Verif.Proof.ListItems
import Verif.Proof.Unreadable
import Verif.Props.Compose
import Verif.Props.Room

/-!
# Lists with items other than `Vec` (C54)

`Offsets<T, OffsetItem, Storage, U>` takes and returns its items as collections of
type `U`, for example `Offsets<Bitmap, i32, VecBuffer, Bitmap>`. Whatever `U` is,
an item contributes the list it shows, and reading an item back gives a
collection that shows it.
-/

namespace Narrow.Props

open Spec

variable {O : Type} {k u : Comp O} {ow : OffW}

/-- C54. Growing and constructing from items of any collection type does exactly
what it does with `Vec` items showing the same lists: same resulting storage, same
outcome, same use of the allocator. The storage `R` and the item type `U` are
arbitrary. -/
theorem C54_same_as_vec {R U : Realloc O} {s : Src U.C} {ls : Src (List O)}
    (h : SameRows U.toColl s ls) (w v : World) (c : Offsets R.C) :
    (offsetsOfR ow R U v).extend c s = (offsetsR ow R).extend c ls ∧
    (offsetsOfR ow R U v).tryExtend w c s = (offsetsR ow R).tryExtend w c ls ∧
    (offsetsOfR ow R U v).fromIter w s = (offsetsR ow R).fromIter w ls ∧
    (offsetsOfR ow R U v).fromIterIn w s = (offsetsR ow R).fromIterIn w ls ∧
    (offsetsOfR ow R U v).tryFromIter w s = (offsetsR ow R).tryFromIter w ls :=
  ⟨extend_same h c, tryExtend_same h w c, congrArg (·, w) (fromIter_same h), fromIterIn_same h w,
    tryFromIter_same h w⟩

/-- C54. Extending appends the lists the items show. -/
theorem C54_extend_appends {U : Realloc O} {s : Src U.C} {ls : Src (List O)} {v : World}
    {c c' : Offsets (compR k).C} {l : List (List O)} (h : SameRows U.toColl s ls)
    (hb : Built (.offsets ow k) c l) (e : (offsetsOfR ow (compR k) U v).extend c s = (c', .ok)) :
    Built (.offsets ow k) c' (l ++ ls.items) :=
  .extend hb ((C54_same_as_vec (ow := ow) (R := compR k) h v v c).1.symm.trans e)

/-- C54. `try_extend` appends them, or returns an error and changes nothing. -/
theorem C54_try_extend_appends {U : Realloc O} {s : Src U.C} {ls : Src (List O)} {v w w' : World}
    {c c' : Offsets (compR k).C} {l : List (List O)} {o : Out} (h : SameRows U.toColl s ls)
    (hb : Built (.offsets ow k) c l)
    (e : (offsetsOfR ow (compR k) U v).tryExtend w c s = (c', o, w')) :
    (o = .ok → Built (.offsets ow k) c' (l ++ ls.items)) ∧
    (o = .err → Built (.offsets ow k) c' l) := by
  have e' := (C54_same_as_vec (ow := ow) (R := compR k) h w v c).2.1.symm.trans e
  constructor <;> rintro rfl
  · exact .tryExtend hb e'
  · exact .tryExtendErr hb e'

/-- C54. Collecting stores the lists the items show. -/
theorem C54_collect {U : Realloc O} {s : Src U.C} {ls : Src (List O)} {v w w' : World}
    {c : Offsets (compR k).C} (h : SameRows U.toColl s ls) (hf : ls.Fused)
    (e : (offsetsOfR ow (compR k) U v).fromIter w s = (.ok c, w')) :
    Built (.offsets ow k) c ls.items :=
  .fromIter hf
    ((C54_same_as_vec (ow := ow) (R := compR k) h w v (Offsets.empty ow _)).2.2.1.symm.trans e)

/-- C54. An item that cannot be read, after items that show `ls`: `extend` panics.
Whatever was stored shows the previous lists and a prefix of `ls`, nothing of the
unreadable item, and truncating it to drop a suitable list (see
`C52_any_item_clears`) leaves exactly the lists before, for every reader. -/
theorem C54_unreadable_item {U : Realloc O} {us : List U.C} {ls : List (List O)} {bad : U.C}
    {rest : Src U.C} {v : World} {c c' : Offsets (compR k).C} {l : List (List O)} {o : Out}
    (hs : ShowRows U.toColl us ls) (hl : ∀ x ∈ ls, x.length ≤ usizeMax)
    (hbad : Unreadable U.toColl bad) (hb : Built (.offsets ow k) c l)
    (e : (offsetsOfR ow (compR k) U v).extend c (Src.ofList us ++ .item bad :: rest) = (c', o)) :
    o = .panic ∧ ∃ n, Sees (compR (.offsets ow k)).toColl c' (l ++ ls.take n) ∧
      ∀ m, (∃ x ∈ (l ++ ls.take n).drop m, ∃ y ∈ x, CClears k y) →
        ∃ c'', (compR (.offsets ow k)).truncate c' m = (c'', .ok) ∧
          Reads (compR (.offsets ow k)).toColl c'' ((l ++ ls.take n).take m) := by
  obtain ⟨h1, h2⟩ := built_inv hb
  obtain ⟨rfl, n, hn⟩ := Offsets.extend_unreadable (U := U.toColl) (ow := ow) (comp_holdE k) hbad
    (sameRows_of hs hl) h1 e
  have hn' : Half (InRow (CClears k)) (compL (.offsets ow k)) c' (l ++ ls.take n) := by
    have e : Offsets.abs (compL k).toLawfulColl c = l := h2
    rw [e] at hn
    exact hn
  refine ⟨rfl, n, hn'.vis.sees, fun m hm => ?_⟩
  obtain ⟨c'', h3, h4, h5⟩ := hn'.trunc m hm
  exact ⟨c'', h3, h5 ▸ reads_abs _ h4⟩

/-- C54. `try_extend` then panics, with exactly the lists before the unreadable item
stored, or returns an error (a length that does not fit, refused memory) and changes
nothing. -/
theorem C54_unreadable_item_try {U : Realloc O} {us : List U.C} {ls : List (List O)} {bad : U.C}
    {rest : Src U.C} {v w w' : World} {c c' : Offsets (compR k).C} {l : List (List O)} {o : Out}
    (hs : ShowRows U.toColl us ls) (hl : ∀ x ∈ ls, x.length ≤ usizeMax)
    (hbad : Unreadable U.toColl bad) (hb : Built (.offsets ow k) c l)
    (e : (offsetsOfR ow (compR k) U v).tryExtend w c (Src.ofList us ++ .item bad :: rest) =
      (c', o, w')) :
    (o = .panic ∧ Sees (compR (.offsets ow k)).toColl c' (l ++ ls)) ∨
    (o = .err ∧ Reads (compR (.offsets ow k)).toColl c' l) := by
  obtain ⟨h1, h2⟩ := built_inv hb
  have e2 : Offsets.abs (compL k).toLawfulColl c = l := h2
  rcases Offsets.tryExtend_unreadable (U := U.toColl) (ow := ow) (comp_holdT k) hbad
    (sameRows_of hs hl) h1 e with ⟨rfl, hn⟩ | ⟨rfl, hm⟩
  · rw [e2] at hn
    exact .inl ⟨rfl, hn.vis.sees⟩
  · rw [e2] at hm
    have h3 : (compL (.offsets ow k)).abs c' = l := hm.toInv.2
    exact .inr ⟨rfl, h3 ▸ reads_abs _ hm.toInv.1⟩

/-- C54. Nothing is constructed from items of which one cannot be read: collecting
panics, and `try_from_iter_in` panics or returns an error. -/
theorem C54_unreadable_collect {U : Realloc O} {us : List U.C} {ls : List (List O)} {bad : U.C}
    {rest : Src U.C} (hs : ShowRows U.toColl us ls) (hl : ∀ x ∈ ls, x.length ≤ usizeMax)
    (hbad : Unreadable U.toColl bad) (v w : World) :
    ((offsetsOfR ow (compR k) U v).fromIter w (Src.ofList us ++ .item bad :: rest)).1 = .panic ∧
    ((offsetsOfR ow (compR k) U v).fromIterIn w (Src.ofList us ++ .item bad :: rest)).1 = .panic ∧
    ∀ c, ((offsetsOfR ow (compR k) U v).tryFromIter w (Src.ofList us ++ .item bad :: rest)).1 ≠
      .ok c := by
  have hx : ∀ c, Built (.offsets ow k) c [] →
      (OffsetsOf.extend ow (compR k) U.toColl c (Src.ofList us ++ .item bad :: rest)).2 = .panic :=
    fun c hb => (C54_unreadable_item (v := v) hs hl hbad hb rfl).1
  refine ⟨?_, ?_, fun c => ?_⟩
  · have := hx (Offsets.empty ow (compR k)) .empty
    simp only [OffsetsOf.fromIter]
    generalize OffsetsOf.extend ow (compR k) U.toColl _ _ = r at this
    obtain ⟨c, o⟩ := r
    cases this
    rfl
  · simp only [OffsetsOf.fromIterIn]
    have hn := (compL (.offsets ow k)).withCap_ne (w.capHint
      (Src.items (Src.ofList us ++ .item bad :: rest)).length)
    change Offsets.withCap ow (compR k) _ ≠ .err at hn
    cases hc : Offsets.withCap ow (compR k) (w.capHint
      (Src.items (Src.ofList us ++ .item bad :: rest)).length) with
    | err => exact absurd hc hn
    | panic => rfl
    | ok c0 =>
      have := hx c0 (.withCap hc)
      simp only
      generalize OffsetsOf.extend ow (compR k) U.toColl _ _ = r at this
      obtain ⟨c, o⟩ := r
      cases this
      rfl
  · simp only [OffsetsOf.tryFromIter]
    cases hc : Offsets.tryWithCap ow (compR k) w.next (w.capHint
      (Src.items (Src.ofList us ++ .item bad :: rest)).length) with
    | mk t w1 =>
      cases t with
      | err => exact nofun
      | panic => exact nofun
      | ok c0 =>
        simp only
        cases ht : OffsetsOf.tryExtend ow (compR k) U.toColl w1 c0
            (Src.ofList us ++ .item bad :: rest) with
        | mk c1 r =>
          obtain ⟨o, w2⟩ := r
          have hb : Built (.offsets ow k) c0 [] := .tryWithCap (k := .offsets ow k) hc
          rcases C54_unreadable_item_try (v := v) hs hl hbad hb ht with
            ⟨rfl, -⟩ | ⟨rfl, -⟩ <;> exact nofun

theorem collect_row {l : List O} {w : World} {x : (compR u).C}
    (h : OffsetsOf.collect (compR u) w (Src.ofList l) = .ok x) : Reads (compR u).toColl x l := by
  unfold OffsetsOf.collect at h
  split at h
  · rename_i e
    injection h with h
    subst h
    have := C52_built_reads (.fromIter (Src.fused_ofList l) e)
    simpa using this
  · cases h

theorem collect_row_returns {l : List O} {w : World} (hh : TightHints w.oracle)
    (hf : CFits u 0 l) : ∃ x, OffsetsOf.collect (compR u) w (Src.ofList l) = .ok x := by
  obtain ⟨x, w', h, -⟩ := C52_collect_returns (k := u) (w := w) (s := Src.ofList l)
    (Src.fused_ofList l) (by simp) hh (by simpa using hf)
  exact ⟨x, by simp only [OffsetsOf.collect, h]⟩

/-- C54. Whatever item reading returns shows the right list. -/
theorem C54_item_read {c : Offsets (compR k).C} {l : List (List O)} {w : World} {i : Nat}
    {x : (compR u).C} (hb : Built (.offsets ow k) c l) (hi : i < l.length)
    (h : (offsetsOfC (compR k).toColl (compR u) w).owned c i = .ok (some x)) :
    Reads (compR u).toColl x l[i] := by
  have h1 := (C52_built_reads hb).owned i hi
  simp only [Coll.owned] at h1 h
  generalize Offsets.view c i = y at h1 h
  cases y with
  | panic => cases h
  | ok y =>
    cases y with
    | none => simp at h
    | some v =>
      simp only at h1 h
      cases hv : OffsetView.toOwned (compR k).toColl v with
      | panic => rw [hv] at h1; cases h1
      | ok m =>
        rw [hv] at h1
        simp only [Res.map, Res.ok.injEq, Option.some.injEq] at h1
        subst h1
        rw [toOwned_of hv] at h
        cases hx : OffsetsOf.collect (compR u) w (Src.ofList l[i]) with
        | panic => rw [hx] at h; cases h
        | ok x' =>
          rw [hx] at h
          simp only [Res.map, Res.ok.injEq, Option.some.injEq] at h
          exact h ▸ collect_row hx

/-- C54. Every way of reading returns collections that show the lists, when each
list fits into the item type. -/
theorem C54_reads {c : Offsets (compR k).C} {l : List (List O)} {w : World}
    (hb : Built (.offsets ow k) c l) (hh : TightHints w.oracle) (hf : ∀ x ∈ l, CFits u 0 x) :
    ∃ us, Reads (offsetsOfC (compR k).toColl (compR u) w) c us ∧
      ShowRows (compR u).toColl us l := by
  classical
  let g : List O → (compR u).C := fun x =>
    if h : ∃ y, OffsetsOf.collect (compR u) w (Src.ofList x) = .ok y then h.choose
    else (compR u).empty
  have hg : ∀ x ∈ l, OffsetsOf.collect (compR u) w (Src.ofList x) = .ok (g x) := by
    intro x hx
    have h := collect_row_returns (u := u) hh (hf x hx)
    simp only [g, dif_pos h]
    exact h.choose_spec
  refine ⟨l.map g, reads_rows (C52_built_reads hb) hg, by simp, fun i h h' => ?_⟩
  rw [List.getElem_map]
  exact collect_row (hg _ (List.getElem_mem h'))

theorem showRows_unique {U : Coll O} {us : List U.C} {l m : List (List O)}
    (hl : ShowRows U us l) (hm : ShowRows U us m) : l = m :=
  List.ext_getElem (hl.1.symm.trans hm.1) fun i h h' =>
    (hl.2 i (hl.1 ▸ h) h).unique (hm.2 i (hm.1 ▸ h') h')

/-- C54. Any run of `try_extend` and `truncate` calls does what it does with `Vec` items. -/
theorem C54_runs_same {R U : Realloc O} {v : World} {us : List (Use U.C)}
    {vs : List (Use (List O))} (h : SameUses U.toColl us vs) (w : World) (c : Offsets R.C) :
    runUses (offsetsOfR ow R U v) w c us = runUses (offsetsR ow R) w c vs := by
  induction h generalizing w c with
  | nil => rfl
  | tryExtend hs _ ih =>
    have := (C54_same_as_vec (ow := ow) (R := R) hs w v c).2.1
    simp only [runUses] at this ⊢
    rw [this]
    simp only [ih]
    generalize Offsets.tryExtend ow R w c _ = r
    obtain ⟨c', o, w'⟩ := r
    cases o <;> rfl
  | truncate _ ih =>
    simp only [runUses, ih]
    generalize Offsets.truncate R c _ = r
    obtain ⟨c', o⟩ := r
    cases o <;> rfl

theorem reserved_cases {α : Type} {R : Realloc α} {Made : R.C → List α → Prop} {n : Nat} {c : R.C}
    {l : List α} (h : Reserved R Made n c l) :
    (l = [] ∧ R.withCap n = .ok c) ∨ (l = [] ∧ ∃ w w', R.tryWithCap w n = (.ok c, w')) ∨
    (∃ c0, Made c0 l ∧ R.reserve c0 n = (c, .ok)) ∨
    (∃ c0 w w', Made c0 l ∧ R.tryReserve w c0 n = (c, .ok, w')) := by
  cases h with
  | withCap e => exact .inl ⟨rfl, e⟩
  | tryWithCap e => exact .inr (.inl ⟨rfl, _, _, e⟩)
  | reserve hm e => exact .inr (.inr (.inl ⟨_, hm, e⟩))
  | tryReserve hm e => exact .inr (.inr (.inr ⟨_, _, _, hm, e⟩))

/-- C54. Every reserving call makes room, as it does for `Vec` items (C55): after it,
items covered by `n` are appended whatever the allocator answers. -/
theorem C54_reserving_makes_room {U : Realloc O} {v : World} {n : Nat}
    {c : Offsets (compR k).C} {rows : List U.C} {l : List (List O)}
    {us : List (Use U.C)} {vs : List (Use (List O))}
    (h : Reserved (offsetsOfR ow (compR k) U v)
      (fun c rows => ∃ l, ShowRows U.toColl rows l ∧ Within (.offsets ow k) c l) n c rows)
    (hl : ShowRows U.toColl rows l) (hu : SameUses U.toColl us vs) (hp : Calm vs)
    (hc : CCovers (.offsets ow k) n (appended vs)) (hf : CFits (.offsets ow k) 0 (l ++ appended vs)) :
    ∃ c', Reads (compR (.offsets ow k)).toColl c' (listUses l vs) ∧
      ∀ w, HonestLower w.oracle →
        ∃ w', runUses (offsetsOfR ow (compR k) U v) w c us = (c', .ok, w') := by
  have h' : Reserved (compR (.offsets ow k)) (Within (.offsets ow k)) n c l := by
    rcases reserved_cases h with ⟨rfl, e⟩ | ⟨rfl, w, w', e⟩ | ⟨c0, ⟨l', h1, h2⟩, e⟩ |
      ⟨c0, w, w', ⟨l', h1, h2⟩, e⟩
    · exact (List.eq_nil_of_length_eq_zero hl.1.symm : l = []) ▸ .withCap e
    · exact (List.eq_nil_of_length_eq_zero hl.1.symm : l = []) ▸ .tryWithCap e
    · exact showRows_unique hl h1 ▸ .reserve h2 e
    · exact showRows_unique hl h1 ▸ .tryReserve h2 e
  obtain ⟨c', h1, h2⟩ := C55_composed h' hp hc hf
  refine ⟨c', h1, fun w hw => ?_⟩
  obtain ⟨w', h3⟩ := h2 w hw
  exact ⟨w', (C54_runs_same (ow := ow) (R := compR k) hu w c).trans h3⟩

namespace BitLists

/-- `Offsets<Bitmap, i32, VecBuffer, Bitmap>`: lists of bits given as bitmaps. -/
abbrev kind : Comp (List Bool) := .offsets .i32 .bitmap

/-- The bits 1, 0, 1 at bit offset 2 of a byte with other bits set. -/
def odd : Bitmap := ⟨⟨[0b11010111#8], 1⟩, 3, 2⟩

theorem odd_reads : Reads bitmapR.toColl odd [true, false, true] := by
  have h : Built .bitmap odd _ := .bitmapParts (buffer := ⟨[0b11010111#8], 1⟩) (bits := 3) (offset := 2)
    ⟨by decide, by decide⟩ (Bitmap.tryFromParts_ok ⟨by decide, by decide⟩ (by decide))
  exact C52_built_reads h

theorem none_reads : Reads bitmapR.toColl bitmapR.empty [] := C52_built_reads (k := .bitmap) .empty

/-- Two bitmaps and a panic that is never reached. -/
def rows : Src bitmapR.C := [.item odd, .item bitmapR.empty, .item odd, .none, .panic]

/-- The lists they show. -/
def lists : Src (List Bool) :=
  [.item [true, false, true], .item [], .item [true, false, true], .none, .panic]

theorem same : SameRows bitmapR.toColl rows lists :=
  .item odd_reads (by decide) (.item none_reads (by decide) (.item odd_reads (by decide)
    (.none (.panic .nil))))

end BitLists

/-- Appending bitmaps with a bit offset to existing lists and reading the rows
back as bitmaps. -/
example : ∃ c us, (offsetsOfR .i32 bitmapR bitmapR Sample.world).extend
      (compR BitLists.kind).empty BitLists.rows = (c, .ok) ∧
    Reads (offsetsOfC bitmapR.toColl bitmapR Sample.world) c us ∧
    ShowRows bitmapR.toColl us [[true, false, true], [], [true, false, true]] := by
  have h0 : Within BitLists.kind (compR BitLists.kind).empty [] := .empty
  obtain ⟨c, h1, h2⟩ := C52_extend_returns (s := BitLists.lists) h0 rfl
    ⟨Nat.le_of_ble_eq_true rfl, Nat.le_of_ble_eq_true rfl, Nat.le_of_ble_eq_true rfl⟩
  have h3 := (C54_same_as_vec (ow := .i32) (R := bitmapR) (U := bitmapR) BitLists.same Sample.world
    Sample.world (compR BitLists.kind).empty).1.trans h1
  have h4 := C54_extend_appends (k := .bitmap) BitLists.same .empty h3
  obtain ⟨us, h5, h6⟩ := C54_reads (u := .bitmap) (w := Sample.world) h4 Sample.tight (by
    intro x hx
    simp [BitLists.lists, Src.items] at hx
    rcases hx with rfl | rfl | rfl <;> exact Nat.le_of_ble_eq_true rfl)
  exact ⟨c, us, h3, h5, h6⟩

/-- The hypotheses of `C54_reserving_makes_room` hold: `with_capacity(6)` of lists of
bits, and three bitmaps with six bits together. -/
example : ∃ c c' w', Reserved (offsetsOfR .i32 bitmapR bitmapR Sample.world)
      (fun c rows => ∃ l, ShowRows bitmapR.toColl rows l ∧ Within BitLists.kind c l) 6 c [] ∧
    runUses (offsetsOfR .i32 bitmapR bitmapR Sample.world) Room.refusing c
      [.tryExtend BitLists.rows, .truncate 1] = (c', .ok, w') ∧
    Reads (compR BitLists.kind).toColl c' [[true, false, true]] := by
  have h : Reserved (offsetsOfR .i32 bitmapR bitmapR Sample.world)
    (fun c rows => ∃ l, ShowRows bitmapR.toColl rows l ∧ Within BitLists.kind c l) 6 _ [] :=
    .withCap (c := _) rfl
  obtain ⟨c', h1, h2⟩ := C54_reserving_makes_room (k := .bitmap) (l := [])
    (vs := [.tryExtend BitLists.lists, .truncate 1]) h ⟨rfl, fun i hi => by cases hi⟩
    (.tryExtend BitLists.same (.truncate .nil)) ⟨rfl, trivial⟩
    ⟨Nat.le_of_ble_eq_true rfl, Nat.le_of_ble_eq_true rfl⟩
    ⟨Nat.le_of_ble_eq_true rfl, Nat.le_of_ble_eq_true rfl, Nat.le_of_ble_eq_true rfl⟩
  obtain ⟨w', h2⟩ := h2 Room.refusing Room.refusing_honest
  exact ⟨_, c', w', h, h2, h1⟩

namespace BitLists

/-- Bitmaps whose owned iterator panics once it has given `n` items. -/
def faulty (n : Nat) : Realloc Bool :=
  { bitmapR with
    J := bitmapR.J × Nat
    into := fun c => (bitmapR.into c).map (·, n)
    jnext := fun it => if it.2 = 0 then .panic
      else (bitmapR.jnext it.1).map fun r => (r.1, (r.2, it.2 - 1))
    jlen := fun it => bitmapR.jlen it.1 }

end BitLists

/-- A list of bits whose iterator panics after its first bit is not stored: `extend`
panics, and so does `try_extend` as there is enough memory. -/
example : ∃ c c' w', (offsetsOfR .i32 bitmapR (BitLists.faulty 1) Sample.world).extend
      (compR BitLists.kind).empty (Src.ofList [] ++ [.item BitLists.odd]) = (c, .panic) ∧
    Sees (compR BitLists.kind).toColl c [] ∧
    (offsetsOfR .i32 bitmapR (BitLists.faulty 1) Sample.world).tryExtend Sample.world
      (compR BitLists.kind).empty (Src.ofList [] ++ [.item BitLists.odd]) = (c', .panic, w') ∧
    Sees (compR BitLists.kind).toColl c' [] := by
  have hbad : Unreadable (BitLists.faulty 1).toColl BitLists.odd :=
    .next (m := 1) (n := 3) (it := _) (it' := _) (xs := [some true]) rfl rfl (by decide) rfl
      (by simp) rfl
  have hs : ShowRows (BitLists.faulty 1).toColl [] [] := ⟨rfl, fun i h => by cases h⟩
  cases he : (offsetsOfR .i32 bitmapR (BitLists.faulty 1) Sample.world).extend
      (compR BitLists.kind).empty (Src.ofList [] ++ [.item BitLists.odd]) with
  | mk c o =>
    obtain ⟨rfl, n, h1, -⟩ := C54_unreadable_item (k := .bitmap) hs (by simp) hbad .empty he
    cases ht : (offsetsOfR .i32 bitmapR (BitLists.faulty 1) Sample.world).tryExtend Sample.world
        (compR BitLists.kind).empty (Src.ofList [] ++ [.item BitLists.odd]) with
    | mk c' r =>
      obtain ⟨o', w'⟩ := r
      have ho : o' = .panic := by
        have : ((offsetsOfR .i32 bitmapR (BitLists.faulty 1) Sample.world).tryExtend Sample.world
          (compR BitLists.kind).empty (Src.ofList [] ++ [.item BitLists.odd])).2.1 = .panic := by
          decide +kernel
        rw [ht] at this
        exact this
      subst ho
      rcases C54_unreadable_item_try (k := .bitmap) hs (by simp) hbad .empty ht with
        ⟨-, h2⟩ | ⟨h2, -⟩
      · exact ⟨c, c', w', rfl, by simpa using h1, rfl, h2⟩
      · exact nomatch h2

end Narrow.Props
