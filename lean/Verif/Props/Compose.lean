import Verif.Proof.Compose
import Verif.Props.Panics

/-!
# Compositions of collections behave like lists (C52)

Not only the collections behind arrays: every nesting of `Vec<T>`, `Bitmap`,
`Flatten`, `Validity` and `Offsets`, in any order and for any element type `T` with views (`AsView`).
-/

namespace Narrow.Props

open Spec

variable {O : Type} {k : Comp O}

/-- C52. Whatever calls built a composed collection, reading it shows the list
the same calls build on plain lists. -/
theorem C52_built_reads {c : (compR k).C} {l : List O} (h : Built k c l) :
    Reads (compR k).toColl c l :=
  (built_inv h).2 ▸ reads_abs _ (built_inv h).1

/-- C52. `truncate` always returns. -/
theorem C52_truncate_returns {c : (compR k).C} {l : List O} (h : Built k c l) (n : Nat) :
    ((compR k).truncate c n).2 = .ok := by
  obtain ⟨c', h1, -⟩ := (compL k).trunc_ok n (built_inv h).1
  rw [h1]

/-- C52. The fallible calls do not panic, unless the source does. -/
theorem C52_fallible_calls_return {c : (compR k).C} {l : List O} (h : Built k c l) (w : World)
    (n : Nat) {s : Src O} (hs : s.panics = false) :
    ((compR k).tryReserve w c n).2.1 ≠ .panic ∧ ((compR k).tryExtend w c s).2.1 ≠ .panic ∧
      ((compR k).tryWithCap w n).1 ≠ .panic ∧ (s.Fused → ((compR k).tryFromIter w s).1 ≠ .panic) :=
  ⟨((compL k).tryReserve_ok (built_inv h).1 rfl).2.2.1, (compL k).tryExt_np (built_inv h).1 hs,
    (compL k).tryWithCap_np w n, fun hf => (compL k).tryFromIter_np hf hs⟩

/-- C52. Right after a caught panic of `extend`, reading the collection by
reference shows the previous items followed by a prefix of the yielded ones. -/
theorem C52_seen_after_panic {c c' : (compR k).C} {l : List O} {s : Src O} (h : Built k c l)
    (e : (compR k).extend c s = (c', .panic)) :
    ∃ n, Sees (compR k).toColl c' (l ++ s.items.take n) := by
  obtain ⟨n, hn⟩ := comp_holdE k (built_inv h).1 e
  rw [(built_inv h).2] at hn
  exact ⟨n, hn.vis.sees⟩

/-- C52. Truncating it to drop a suitable one of the items shown then leaves exactly
the items before, for every reader. Dropping any item is suitable if there is no
`Flatten` inside of `Offsets`, see `C52_any_item_clears`. -/
theorem C52_mends_after_panic {c c' : (compR k).C} {l : List O} {s : Src O} (h : Built k c l)
    (e : (compR k).extend c s = (c', .panic)) :
    ∃ n, Sees (compR k).toColl c' (l ++ s.items.take n) ∧
      ∀ m, (∃ x ∈ (l ++ s.items.take n).drop m, CClears k x) →
        ∃ c'', (compR k).truncate c' m = (c'', .ok) ∧
          Reads (compR k).toColl c'' ((l ++ s.items.take n).take m) := by
  obtain ⟨n, hn⟩ := comp_holdE k (built_inv h).1 e
  rw [(built_inv h).2] at hn
  refine ⟨n, hn.vis.sees, fun m hm => ?_⟩
  obtain ⟨c'', h1, h2, h3⟩ := hn.trunc m hm
  exact ⟨c'', h1, h3 ▸ reads_abs _ h2⟩

/-- C52. Every item is suitable if there is no `Flatten` inside of `Offsets`. -/
theorem C52_any_item_clears (hk : UnflatLists k) (x : O) : CClears k x := cclears_all k hk x

/-- C52. The same after a caught panic of `try_extend`; and truncating below the
reported length then leaves exactly that many of the items, for every reader. -/
theorem C52_mends_after_try_panic {c c' : (compR k).C} {l : List O} {s : Src O} {w w' : World}
    (h : Built k c l) (e : (compR k).tryExtend w c s = (c', .panic, w')) :
    ∃ n, Sees (compR k).toColl c' (l ++ s.items.take n) ∧
      ∀ m, m < (l ++ s.items.take n).length → ∃ c'', (compR k).truncate c' m = (c'', .ok) ∧
        Reads (compR k).toColl c'' ((l ++ s.items.take n).take m) := by
  obtain ⟨n, hn⟩ := comp_holdT k (built_inv h).1 e
  rw [(built_inv h).2] at hn
  refine ⟨n, hn.vis.sees, fun m hm => ?_⟩
  obtain ⟨c'', h1, h2, h3⟩ := hn.trunc m (exists_drop hm)
  exact ⟨c'', h1, h3 ▸ reads_abs _ h2⟩

/-- C52. Collecting returns when the items fit, the source does not panic and
hints are not exaggerated. -/
theorem C52_collect_returns {w : World} {s : Src O} (hs : s.Fused) (hp : s.panics = false)
    (hh : TightHints w.oracle) (hf : CFits k 0 s.items) :
    ∃ c w', (compR k).fromIter w s = (.ok c, w') ∧ Within k c s.items := by
  have h1 := (comp_live k).fromIter hh hs hp ((cfits_iff k _ _).mp hf)
  have h2 := (compL k).fromIter_ne w s
  generalize hE : (compR k).fromIter w s = E at *
  obtain ⟨x, w'⟩ := E
  cases x with
  | err => exact absurd rfl h2
  | panic => exact absurd rfl h1
  | ok c => exact ⟨c, w', rfl, .fromIter hs hf hE⟩

/-- C52. `extend` returns when the items fit and the source does not panic. -/
theorem C52_extend_returns {c : (compR k).C} {l : List O} {s : Src O} (h : Within k c l)
    (hp : s.panics = false) (hf : CFits k 0 (l ++ s.items)) :
    ∃ c', (compR k).extend c s = (c', .ok) ∧ Within k c' (l ++ s.items) := by
  obtain ⟨h1, h2⟩ := built_inv h.built
  have := (compL k).ext_live h1 (within_canon h) hp (by rw [h2]; exact (cfits_iff k _ _).mp hf)
  have e : (compR k).extend c s = (((compR k).extend c s).1, .ok) := Prod.ext rfl this
  exact ⟨_, e, .extend h hf e⟩

/-- C52. `reserve` returns when the reserved items fit. -/
theorem C52_reserve_returns {c : (compR k).C} {l : List O} {n : Nat} (h : Within k c l)
    (hf : CFits k n l) : ((compR k).reserve c n).2 = .ok := by
  obtain ⟨h1, h2⟩ := built_inv h.built
  exact (compL k).reserve_live h1 (within_canon h) (by rw [h2]; exact (cfits_iff k _ _).mp hf)

/-- C52. `try_extend` and `try_reserve` succeed when the allocator grants, hints
are not exaggerated, the items fit and the source does not panic. -/
theorem C52_try_calls_succeed {w : World} {c : (compR k).C} {l : List O} {s : Src O} {n : Nat}
    (h : Within k c l) (hw : Generous w.oracle) (hh : TightHints w.oracle) (hp : s.panics = false)
    (hf : CFits k 0 (l ++ s.items)) (hn : CFits k n l) :
    ((compR k).tryExtend w c s).2.1 = .ok ∧ ((compR k).tryReserve w c n).2.1 = .ok := by
  obtain ⟨h1, h2⟩ := built_inv h.built
  have e1 := (comp_live k).tryExt (s := s) hw hh h1 (within_canon h)
    (by rw [h2]; exact (cfits_iff k _ _).mp hf)
  have e2 := (comp_live k).tryReserve hw hh h1 (within_canon h)
    (by rw [h2]; exact (cfits_iff k _ _).mp hn)
  obtain ⟨e3, e4, -⟩ := C52_fallible_calls_return h.built w n hp
  constructor
  · cases h : ((compR k).tryExtend w c s).2.1 <;> simp_all
  · cases h : ((compR k).tryReserve w c n).2.1 <;> simp_all

namespace Composed

/-- `Vec<Vec<String>>` -/
abbrev strings : Comp (List String) := .vec (2 ^ 58) (Nat.le_of_ble_eq_true rfl) []

/-- `Offsets<Validity<Validity<Flatten<Vec<Vec<String>>, 2>>>, i32>`: not the storage
of any item type, with a non-primitive element. -/
def kind : Comp (List (Option (Option (FixArr (List String) 2)))) :=
  .offsets .i32 (.validity (.validity (.flatten 2 (by decide) strings)))

/-- `Flatten<Bitmap, 3>` -/
abbrev triples : Comp (FixArr Bool 3) := .flatten 3 (by decide) .bitmap

/-- One item. -/
def triple : (compR triples).C := Broken.one

/-- Items of that collection. -/
def items : List (List (Option (Option (FixArr (List String) 2)))) :=
  [[some (some ⟨[["a", "b"], []], rfl⟩), none], [], [some none]]

/-- More of them. -/
def more : List (List (Option (Option (FixArr (List String) 2)))) := [[none], [some (some ⟨[["c"], ["d"]], rfl⟩)]]

theorem fits : CFits kind 0 items :=
  ⟨Nat.le_of_ble_eq_true rfl, Nat.le_of_ble_eq_true rfl, Nat.le_of_ble_eq_true rfl,
    Nat.le_of_ble_eq_true rfl, Nat.le_of_ble_eq_true rfl⟩

theorem fits_more : CFits kind 0 (items ++ more) :=
  ⟨Nat.le_of_ble_eq_true rfl, Nat.le_of_ble_eq_true rfl, Nat.le_of_ble_eq_true rfl,
    Nat.le_of_ble_eq_true rfl, Nat.le_of_ble_eq_true rfl⟩

theorem fits_reserve : CFits kind 7 items :=
  ⟨Nat.le_of_ble_eq_true rfl, Nat.le_of_ble_eq_true rfl, Nat.le_of_ble_eq_true rfl,
    Nat.le_of_ble_eq_true rfl, Nat.le_of_ble_eq_true rfl⟩

end Composed

/-- Collected, extended and truncated. -/
example : ∃ c c' c'' w', (compR Composed.kind).fromIter Sample.world (Src.ofList Composed.items) = (.ok c, w') ∧
    (compR Composed.kind).extend c (Src.ofList Composed.more) = (c', .ok) ∧
    (compR Composed.kind).truncate c' 4 = (c'', .ok) ∧
    Reads (compR Composed.kind).toColl c'' [[some (some ⟨[["a", "b"], []], rfl⟩), none], [], [some none], [none]] := by
  obtain ⟨c, w', h1, h2⟩ := C52_collect_returns (k := Composed.kind) (w := Sample.world)
    (s := Src.ofList Composed.items) rfl (by simp) Sample.tight (by simpa using Composed.fits)
  simp only [Src.items_ofList] at h2
  obtain ⟨c', h3, h4⟩ := C52_extend_returns (s := Src.ofList Composed.more) h2 (by simp)
    (by simpa using Composed.fits_more)
  simp only [Src.items_ofList] at h4
  have h5 := C52_truncate_returns h4.built 4
  have e : (compR Composed.kind).truncate c' 4 = (((compR Composed.kind).truncate c' 4).1, .ok) :=
    Prod.ext rfl h5
  exact ⟨c, c', _, w', h1, h3, e, C52_built_reads (.truncate h4.built e)⟩

/-- Built from parts: `Offsets<Validity<Vec<Vec<String>>>, i64>`. -/
example : ∃ c, Built (.offsets .i64 (.validity Composed.strings)) c
      [[some ["a"]], [], [none, some ["b", "c"]]] ∧
    Reads (compR (.offsets .i64 (.validity Composed.strings))).toColl c
      [[some ["a"]], [], [none, some ["b", "c"]]] := by
  have h1 : Built Composed.strings (RVec.mk [["a"], [], ["b", "c"]] 4) _ :=
    .vec ⟨by decide, by decide⟩
  have h2 : Built .bitmap (Bitmap.mk ⟨[0b1010], 1⟩ 3 1) _ :=
    .bitmapParts ⟨by decide, by decide⟩ (Bitmap.tryFromParts_ok ⟨by decide, by decide⟩ (by decide))
  have h3 := Built.validityParts h1 h2 (v := _) rfl
  have h4 := Built.offsetsParts (ow := .i64) (offsets := ⟨[0, 1, 1, 3], 4⟩) h3 ⟨by decide, by decide⟩ (f := _) rfl
  exact ⟨_, h4, C52_built_reads h4⟩

/-- Reserving, and the fallible calls with a granting and with a hostile
environment. -/
example : ∃ c, Within Composed.kind c Composed.items ∧ ((compR Composed.kind).reserve c 7).2 = .ok ∧
    ((compR Composed.kind).tryExtend Sample.world c (Src.ofList Composed.more)).2.1 = .ok ∧
    ((compR Composed.kind).tryReserve Sample.world c 7).2.1 = .ok ∧
    ((compR Composed.kind).tryExtend Sample.hostile c (Src.ofList Composed.more)).2.1 ≠ .panic := by
  obtain ⟨c, w', -, h2⟩ := C52_collect_returns (k := Composed.kind) (w := Sample.world)
    (s := Src.ofList Composed.items) rfl (by simp) Sample.tight (by simpa using Composed.fits)
  simp only [Src.items_ofList] at h2
  have h3 := C52_try_calls_succeed (w := Sample.world) (s := Src.ofList Composed.more) (n := 7) h2
    Sample.generous Sample.tight (by simp) (by simpa using Composed.fits_more) Composed.fits_reserve
  exact ⟨c, h2, C52_reserve_returns h2 Composed.fits_reserve, h3.1, h3.2,
    (C52_fallible_calls_return h2.built Sample.hostile 0 (by simp)).2.1⟩

/-- A caught panic of `extend`: only items before it are seen. -/
example : ∃ c' n, (compR Composed.kind).extend (compR Composed.kind).empty
      (Src.ofList Composed.items ++ [.panic]) = (c', .panic) ∧
    Sees (compR Composed.kind).toColl c' (Composed.items.take n) := by
  have h0 : Built Composed.kind (compR Composed.kind).empty [] := .empty
  generalize hE : (compR Composed.kind).extend (compR Composed.kind).empty
      (Src.ofList Composed.items ++ [.panic]) = E
  obtain ⟨c', o⟩ := E
  have : o = .panic := by
    cases o with
    | panic => rfl
    | err => exact absurd (by rw [hE]) ((compL Composed.kind).ext_ne _ (built_inv h0).1)
    | ok =>
      have := ((compL Composed.kind).ext_ok (built_inv h0).1 hE).2.2
      cases this
  subst this
  obtain ⟨n, hn⟩ := C52_seen_after_panic h0 hE
  exact ⟨c', n, rfl, hn⟩

/-- A caught panic of `try_extend` on a `Flatten<Bitmap, 3>` and truncating to one
item. -/
example : ∃ c'' w', (compR Composed.triples).tryExtend Sample.world Composed.triple Broken.src =
      (Broken.left, .panic, w') ∧
    (compR Composed.triples).truncate Broken.left 1 = (c'', .ok) ∧
    Reads (compR Composed.triples).toColl c'' [Broken.tri true false true] := by
  have h0 : Built Composed.triples Composed.triple [Broken.tri true false true] := by
    refine .flattenParts (k := .bitmap) (c := Bitmap.mk ⟨[0b101#8], 1⟩ 3 0)
      (.bitmapParts ⟨by decide, by decide⟩ (Bitmap.tryFromParts_ok ⟨by decide, by decide⟩ (by decide))) rfl ⟨rfl, ?_⟩
    intro i h
    obtain rfl : i = 0 := by simpa using h
    rfl
  have e : (compR Composed.triples).tryExtend Sample.world Composed.triple Broken.src =
      (Broken.left, .panic, ⟨Sample.oracle, 1⟩) := Broken.tryExtend_one
  obtain ⟨n, h1, h2⟩ := C52_mends_after_try_panic h0 e
  obtain ⟨c'', h3, h4⟩ := h2 1 (by
    have h5 : (compR Composed.triples).len Broken.left = .ok 2 := rfl
    have h6 := h1.len.symm.trans h5
    injection h6 with h6
    omega)
  exact ⟨c'', _, e, h3, h4⟩

/-- The same after `extend`: any item of a `Flatten<Bitmap, 3>` is suitable. -/
example : ∃ c'' n, (compR Composed.triples).extend Composed.triple Broken.src = (Broken.left, .panic) ∧
    (compR Composed.triples).truncate Broken.left 1 = (c'', .ok) ∧
    Reads (compR Composed.triples).toColl c''
      (([Broken.tri true false true] ++ (Src.items (α := FixArr Bool 3) Broken.src).take n).take 1) := by
  have h0 : Built Composed.triples Composed.triple [Broken.tri true false true] := by
    refine .flattenParts (k := .bitmap) (c := Bitmap.mk ⟨[0b101#8], 1⟩ 3 0)
      (.bitmapParts ⟨by decide, by decide⟩ (Bitmap.tryFromParts_ok ⟨by decide, by decide⟩ (by decide))) rfl ⟨rfl, ?_⟩
    intro i h
    obtain rfl : i = 0 := by simpa using h
    rfl
  have e : (compR Composed.triples).extend Composed.triple Broken.src = (Broken.left, .panic) :=
    Broken.extend_one
  obtain ⟨n, h1, h2⟩ := C52_mends_after_panic h0 e
  have h5 : (compR Composed.triples).len Broken.left = .ok 2 := rfl
  have h6 := h1.len.symm.trans h5
  injection h6 with h6
  obtain ⟨x, hx, -⟩ := exists_drop (n := 1) (show 1 < ([Broken.tri true false true] ++
    (Src.items (α := FixArr Bool 3) Broken.src).take n).length by omega)
  obtain ⟨c'', h3, h4⟩ := h2 1 ⟨x, hx, C52_any_item_clears (k := Composed.triples) trivial x⟩
  exact ⟨c'', n, e, h3, h4⟩

end Narrow.Props
