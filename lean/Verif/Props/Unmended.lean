import Verif.Props.Visible

/-!
# C16: truncating does not always repair an array of lists of fixed-size lists

The item type is `Vec<[Vec<u8>; 2]>`. Offsets are 32 bits wide, so that the bytes of
all inner lists are at most `2^31 - 1`. A pair of lists that exceeds this at its second
list leaves its first list behind; dropping an empty `Vec<[Vec<u8>; 2]>` does not drop it.
-/

namespace Narrow.Props

open Spec

namespace Unmended

/-- `Vec<u8>` -/
abbrev U8s : Ty := .vsl .i32 false (.prim .u8)

/-- `Vec<[Vec<u8>; 2]>` -/
abbrev T : Ty := .vsl .i32 false (.fsl 2 false U8s)

/-- One byte less than fits. -/
def bytes : List Byte := List.replicate 2147483646 0

theorem bytes_length : bytes.length = 2147483646 := List.length_replicate ..

/-- A pair of lists. -/
def pr (a b : List Byte) : FixArr (List Byte) 2 := ⟨[a, b], rfl⟩

variable {xs : List Byte}

/-- The collections the array consists of. -/
abbrev R0 : Realloc Byte := vecR Prim.u8.lim 0#8
/-- Lists of bytes. -/
abbrev R1 : Realloc (List Byte) := offsetsR .i32 R0
/-- Pairs of these. -/
abbrev R2 : Realloc (FixArr (List Byte) 2) := flattenR 2 R1

/-- Inner lists with bytes `xs` and the given offsets. -/
def inner (xs : List Byte) (offsets : List Int) : R1.C := ⟨⟨xs, 2147483650⟩, ⟨offsets, 8⟩⟩

/-- An array with these inner lists. -/
def arr (xs : List Byte) (offsets rows : List Int) : (arrayR false T).C :=
  show Offsets R2.C from ⟨⟨inner xs offsets⟩, ⟨rows, 8⟩⟩

/-- The items `[[xs, []]]` and `[]`. -/
def two (xs : List Byte) : (arrayR false T).C := arr xs [0, 2147483646, 2147483646] [0, 1, 1]

/-- The same after the panic, with an additional list. -/
def torn (xs : List Byte) : (arrayR false T).C :=
  arr (xs ++ [7#8]) [0, 2147483646, 2147483646, 2147483647] [0, 1, 1]

theorem inner_reserve (h : xs.length = 2147483646) :
    R1.reserve (inner xs [0, 2147483646, 2147483646]) 2 =
      (inner xs [0, 2147483646, 2147483646], .ok) := by
  simp [inner, Offsets.reserve, RVec.reserve, h]

theorem inner_extend (h : xs.length = 2147483646) :
    R1.extend (inner xs [0, 2147483646, 2147483646]) [.item [7#8], .item [8#8]] =
      (inner (xs ++ [7#8]) [0, 2147483646, 2147483646, 2147483647], .panic) := by
  have h1 : xs.take 2147483646 = xs := List.take_of_length_le (by omega)
  simp [inner, Offsets.extend, Offsets.last, asUsize, Offsets.extendLoop, OffW.max, RVec.reserve, h,
    Src.ofList, h1, RVec.truncate, RVec.extend, RVec.push, OffW.lim, byteMax, Prim.lim, Prim.size]

theorem outer_trunc {I : R1.C} {n : Nat} (h : R1.len I = .ok n) (hn : n / 2 ≤ 1) :
    R2.truncate ⟨I⟩ 1 = (⟨I⟩, .ok) := by
  have h1 : Flatten.len R1.toColl 2 ⟨I⟩ = .ok (n / 2) := by
    unfold Flatten.len
    rw [h]
    rfl
  simp only [h1]
  rw [if_neg (by omega)]

theorem outer_ok {O : Type} {ow : OffW} {R : Realloc O} {d d2 : R.C} {of of' : RVec Int} {p : Int}
    {q : Nat} {row : List O} (hl : of.items.getLast? = some p) (hp : asUsize p = .ok q)
    (h1 : row.length ≤ ow.max ∧ p + row.length ≤ ow.max) (h2 : R.truncate d q = (d, .ok))
    (h4 : R.reserve d row.length = (d, .ok)) (h5 : R.extend d (Src.ofList row) = (d2, .ok))
    (h6 : RVec.extend ow.lim of [.item (p + row.length)] = (of', .ok)) :
    Offsets.extend ow R ⟨d, of⟩ [.item row] = (⟨d2, of'⟩, .ok) := by
  simp only [Offsets.extend, Offsets.last, hl, hp, h2, Offsets.extendLoop, h1, h4, h5, h6,
    and_self, if_true]

theorem outer_panic {O : Type} {ow : OffW} {R : Realloc O} {d d2 : R.C} {of : RVec Int} {p : Int}
    {q : Nat} {row : List O} (hl : of.items.getLast? = some p) (hp : asUsize p = .ok q)
    (h1 : row.length ≤ ow.max ∧ p + row.length ≤ ow.max) (h2 : R.truncate d q = (d, .ok))
    (h4 : R.reserve d row.length = (d, .ok)) (h5 : R.extend d (Src.ofList row) = (d2, .panic)) :
    Offsets.extend ow R ⟨d, of⟩ [.item row] = (⟨d2, of⟩, .panic) := by
  simp only [Offsets.extend, Offsets.last, hl, hp, h2, Offsets.extendLoop, h1, h4, h5, and_self,
    if_true]

theorem pair_reserve {I : R1.C} (h : R1.reserve I 2 = (I, .ok)) : R2.reserve ⟨I⟩ 1 = (⟨I⟩, .ok) := by
  show (Flatten.mk (R1.reserve I 2).1, (R1.reserve I 2).2) = _
  rw [h]

theorem pair_extend {I I' : R1.C} {a b : List Byte} {o : Out}
    (h : R1.extend I [.item a, .item b] = (I', o)) :
    R2.extend ⟨I⟩ (Src.ofList [pr a b]) = (⟨I'⟩, o) := by
  show (Flatten.mk (R1.extend I [.item a, .item b]).1, (R1.extend I [.item a, .item b]).2) = _
  rw [h]

theorem extend_two (h : xs.length = 2147483646) :
    (arrayR false T).extend (two xs) [.item [pr [7#8] [8#8]]] = (torn xs, .panic) :=
  outer_panic (ow := .i32) (R := R2) (of := ⟨[0, 1, 1], 8⟩) (p := 1) (q := 1) rfl rfl (by decide) (outer_trunc (n := 2) rfl (by decide))
    (pair_reserve (inner_reserve h)) (pair_extend (inner_extend h))

/-- Truncated to one item. -/
def cut (xs : List Byte) : (arrayR false T).C :=
  arr (xs ++ [7#8]) [0, 2147483646, 2147483646, 2147483647] [0, 1]

theorem truncate_torn : (arrayR false T).truncate (torn xs) 1 = (cut xs, .ok) := by
  show Offsets.truncate R2 (⟨⟨inner (xs ++ [7#8]) [0, 2147483646, 2147483646, 2147483647]⟩, ⟨[0, 1, 1], 8⟩⟩ : Offsets R2.C) 1 = _
  have h1 := outer_trunc (I := inner (xs ++ [7#8]) [0, 2147483646, 2147483646, 2147483647]) (n := 3)
    rfl (by decide)
  unfold Offsets.truncate
  show ((⟨(R2.truncate _ 1).1, _⟩ : Offsets R2.C), (R2.truncate _ 1).2) = _
  rw [h1]
  rfl

/-- Extended with `[[[], []]]`. -/
def final (xs : List Byte) : (arrayR false T).C :=
  arr (xs ++ [7#8]) [0, 2147483646, 2147483646, 2147483647, 2147483647, 2147483647] [0, 1, 2]

theorem inner_reserve' (h : xs.length = 2147483646) :
    R1.reserve (inner (xs ++ [7#8]) [0, 2147483646, 2147483646, 2147483647]) 2 =
      (inner (xs ++ [7#8]) [0, 2147483646, 2147483646, 2147483647], .ok) := by
  simp [inner, Offsets.reserve, RVec.reserve, h]

theorem inner_extend' (h : xs.length = 2147483646) :
    R1.extend (inner (xs ++ [7#8]) [0, 2147483646, 2147483646, 2147483647]) [.item [], .item []] =
      (inner (xs ++ [7#8]) [0, 2147483646, 2147483646, 2147483647, 2147483647, 2147483647], .ok) := by
  have h1 : (xs ++ [7#8]).take 2147483647 = xs ++ [7#8] := List.take_of_length_le (by simp; omega)
  simp [inner, Offsets.extend, Offsets.last, asUsize, Offsets.extendLoop, OffW.max, RVec.reserve,
    Src.ofList, h1, RVec.truncate, RVec.extend, RVec.push, OffW.lim, byteMax]

theorem extend_cut (h : xs.length = 2147483646) :
    (arrayR false T).extend (cut xs) [.item [pr [] []]] = (final xs, .ok) :=
  outer_ok (ow := .i32) (R := R2) (of := ⟨[0, 1], 8⟩) (p := 1) (q := 1) rfl rfl (by decide) (outer_trunc (n := 3) rfl (by decide))
    (pair_reserve (inner_reserve' h)) (pair_extend (inner_extend' h)) rfl

theorem inner_reach {ys : List Byte} {offsets : List Int} (hy : ys.length ≤ 2147483650)
    (ho : offsets.length ≤ 8) (hb : ∀ o ∈ offsets, 0 ≤ o ∧ o ≤ 2147483647)
    (hv : ValidOffsets offsets ys.length) : Reach false U8s (inner ys offsets) := by
  have h1 : Reach false (.prim .u8) (⟨ys, 2147483650⟩ : RVec Byte) :=
    .vec (p := .u8) ⟨hy, by simp [Prim.lim, Prim.size, byteMax]⟩
  refine .offsetsParts (ow := .i32) (nl := false) (t := .prim .u8) (offsets := ⟨offsets, 8⟩) h1
    ⟨ho, by simp [OffW.lim, byteMax]⟩ (fun o h => ?_) ?_
  · have := hb o h
    simp only [OffW.max]
    omega
  · exact Offsets.tryFromParts_valid (L := (baseL (.prim .u8) trivial).toLawfulColl)
      (reach_inv h1 trivial) hv

theorem good (l : List Int) (h : Offsets.Asc (0 :: l)) : GoodOffsets (0 :: l) := Offsets.good_cons.mpr h

theorem two_reach (h : xs.length = 2147483646) : Reach false T (two xs) := by
  have h2 : Reach false U8s (inner xs [0, 2147483646, 2147483646]) :=
    inner_reach (by omega) (by simp) (by simp) ⟨by simp, good _ (by
      intro i hi
      match i, hi with
      | 0, _ => simp
      | 1, _ => simp
      | i + 2, hi => simp at hi; omega), by simp [h]⟩
  have h3 : Reach false (.fsl 2 false U8s) (⟨inner xs [0, 2147483646, 2147483646]⟩ : Flatten R1.C) :=
    .flattenParts (nl := false) (t := U8s) h2 (by
      show Flatten.tryFromParts R1.toColl 2 _ = _
      unfold Flatten.tryFromParts
      rw [show R1.len (inner xs [0, 2147483646, 2147483646]) = .ok 2 from rfl]
      rfl)
  refine .offsetsParts (ow := .i32) (nl := false) (t := .fsl 2 false U8s)
    (offsets := ⟨[0, 1, 1], 8⟩) h3 ⟨by decide, by simp [OffW.lim, byteMax]⟩ (by simp [OffW.max]) ?_
  have hi := reach_inv h3 (t := .fsl 2 false U8s) ⟨by decide, trivial⟩
  refine Offsets.tryFromParts_valid
    (L := (baseL (.fsl 2 false U8s) ⟨by decide, trivial⟩).toLawfulColl) hi ?_
  have hl : ((baseL (.fsl 2 false U8s) ⟨by decide, trivial⟩).abs
      (⟨inner xs [0, 2147483646, 2147483646]⟩ : Flatten R1.C)).length = 1 := by
    show (Flatten.group 2 (Offsets.slices xs [0, 2147483646, 2147483646])).length = 1
    rw [group_length (by decide)]
    simp [Offsets.slices]
  refine ⟨by simp, good _ (by
      intro i hi
      match i, hi with
      | 0, _ => simp
      | 1, _ => simp
      | i + 2, hi => simp at hi; omega), ?_⟩
  exact Int.le_of_eq (congrArg Nat.cast hl.symm)

theorem two_shows (h : xs.length = 2147483646) : Shows false T (two xs) [[pr xs []], []] := by
  refine shows_of_inv (t := T) ⟨by decide, trivial⟩ (reach_inv (two_reach h) _) ?_
  show Offsets.slices (Flatten.group 2 (Offsets.slices xs [0, 2147483646, 2147483646])) [0, 1, 1] = _
  have h1 : xs.take 2147483646 = xs := List.take_of_length_le (by omega)
  have h2 : Offsets.slices xs [0, 2147483646, 2147483646] = [xs, []] := by
    simp [Offsets.slices, h1]
  rw [h2]
  have h3 : Flatten.group 2 [xs, []] = [pr xs []] := by
    simp [Flatten.group, pr]
  rw [h3]
  simp [Offsets.slices]
  rfl

theorem final_sees (h : xs.length = 2147483646) :
    Sees (arrayR false T).toColl (final xs) [[pr xs []], [pr [7#8] []]] := by
  have hl : (xs ++ [7#8]).length = 2147483647 := by simp [h]
  have h2 : Reach false U8s (inner (xs ++ [7#8])
      [0, 2147483646, 2147483646, 2147483647, 2147483647, 2147483647]) :=
    inner_reach (by omega) (by simp) (by simp) ⟨by simp, good _ (by
      intro i hi
      match i, hi with
      | 0, _ => simp
      | 1, _ => simp
      | 2, _ => simp
      | 3, _ => simp
      | 4, _ => simp
      | i + 5, hi => simp at hi; omega), by rw [hl]; simp⟩
  have h3 := Vis.of_inv (K := R1.toColl) (baseL U8s trivial).toLawfulColl (reach_inv h2 trivial)
  have h1 : xs.take 2147483646 = xs := List.take_of_length_le (by omega)
  have h4 : (baseL U8s trivial).abs (inner (xs ++ [7#8])
      [0, 2147483646, 2147483646, 2147483647, 2147483647, 2147483647]) = [xs, [], [7#8], [], []] := by
    show Offsets.slices (xs ++ [7#8])
      [0, 2147483646, 2147483646, 2147483647, 2147483647, 2147483647] = _
    have h5 : (xs ++ [7#8]).drop 2147483646 = [7#8] := by rw [← h, List.drop_left]
    have h6 : (xs ++ [7#8]).take 2147483646 = xs := by rw [← h, List.take_left]
    simp [Offsets.slices, h5, h6]
  rw [h4] at h3
  have h7 := vis_flatten (n := 2) (by decide) h3
  have h8 : Flatten.group 2 [xs, [], [7#8], [], []] = [pr xs [], pr [7#8] []] := by
    simp [Flatten.group, pr]
  rw [h8] at h7
  exact (vis_offsets (rows := [[pr xs []], [pr [7#8] []]]) (x := []) (of := ⟨[0, 1, 2], 8⟩) h7 rfl
    (by simp [byteMax])).sees

theorem fresh_old (h : xs.length = 2147483646) : [pr [7#8] []] ∉ [[pr xs []], []] := by
  intro h1
  simp [pr] at h1
  rw [← h1] at h
  simp at h

theorem fresh_new : [pr [7#8] []] ∉ [[pr [7#8] [8#8]]] ∧ [pr [7#8] []] ∉ [[pr [] []]] := by
  simp [pr]

theorem torn_sees (h : xs.length = 2147483646) :
    Sees (arrayR false T).toColl (torn xs) [[pr xs []], []] := by
  obtain ⟨k, hk, -⟩ := C16_seen_after_panic_partial (t := T) ⟨by decide, trivial⟩
    (two_reach h) (two_shows h) (extend_two h)
  have h1 := hk.len.symm.trans (show (arrayR false T).len (torn xs) = .ok 2 from rfl)
  injection h1 with h1
  match k, hk, h1 with
  | 0, hk, _ => exact hk
  | k + 1, _, h1 =>
    replace h1 : ([[pr xs []], []] ++ List.take (k + 1) [[pr [7#8] [8#8]]]).length = 2 := h1
    simp at h1

end Unmended

/-- Truncating it to no items at all drops a pair, and repairs it. -/
example {xs : List Byte} (h : xs.length = 2147483646) :
    ∃ c'', (arrayR false Unmended.T).truncate (Unmended.torn xs) 0 = (c'', .ok) ∧
      Reach false Unmended.T c'' ∧ Shows false Unmended.T c'' [] := by
  obtain ⟨k, h1, h2⟩ := C16_dropping_mends_partial (t := Unmended.T) ⟨by decide, trivial⟩
    (Unmended.two_reach h) (Unmended.two_shows h) (Unmended.extend_two h)
  obtain ⟨c'', t1, t2, t3⟩ := h2 0 ⟨[Unmended.pr xs []], List.mem_cons_self,
    .inr ⟨Unmended.pr xs [], List.mem_cons_self, xs, List.mem_cons_self, .inl trivial⟩⟩
  exact ⟨c'', t1, t2, t3⟩

/-- Truncating the array below its length need not repair it, if the dropped item has
no fixed-size lists in it: the item type is `Vec<[Vec<u8>; 2]>`, the dropped item is
`[]`. Afterwards the array accepts an item and shows another one. -/
theorem C16_truncate_may_not_mend :
    ∃ (c c' c'' c3 : (arrayR false Unmended.T).C) (l new : List (List (FixArr (List Byte) 2)))
      (s : Src (List (FixArr (List Byte) 2))) (n : Nat),
      Reach false Unmended.T c ∧ Shows false Unmended.T c l ∧
      (arrayR false Unmended.T).extend c s = (c', .panic) ∧
      Sees (arrayR false Unmended.T).toColl c' l ∧ n < l.length ∧
      (arrayR false Unmended.T).truncate c' n = (c'', .ok) ∧
      (arrayR false Unmended.T).extend c'' (Src.ofList new) = (c3, .ok) ∧
      (∃ x, (arrayR false Unmended.T).owned c3 n = .ok (some x) ∧ x ∉ l ∧ x ∉ s.items ∧ x ∉ new) := by
  have h := Unmended.bytes_length
  generalize Unmended.bytes = xs at h
  refine ⟨Unmended.two xs, Unmended.torn xs, Unmended.cut xs, Unmended.final xs,
    [[Unmended.pr xs []], []], [[Unmended.pr [] []]], [.item [Unmended.pr [7#8] [8#8]]], 1,
    Unmended.two_reach h, Unmended.two_shows h, Unmended.extend_two h, Unmended.torn_sees h,
    Nat.lt_succ_self 1, Unmended.truncate_torn, Unmended.extend_cut h, [Unmended.pr [7#8] []],
    (Unmended.final_sees h).owned 1 (Nat.lt_succ_self 1), Unmended.fresh_old h,
    Unmended.fresh_new.1, Unmended.fresh_new.2⟩

end Narrow.Props
