import Verif.Props.Panics
import Verif.Proof.Kept

/-!
# C16: how many of the yielded items a caught panic keeps, and which types it damages

`C16_try_extend_panic_partial` says that some prefix of the yielded items stays. Here: how
long it is. And the converse: the item types that these theorems leave out are damaged,
whatever their width, by every long enough source.
-/

namespace Narrow.Props

open Spec

variable {nl : Bool} {t : Ty}

/-- C16, `try_extend`, exact: of `n` items that the source yields before it panics,
`kept t nl n` stay. Missing: item types for which `TrySafe` is false (see
`C16_fixed_size_lists_split`), and arrays of booleans, for which `kept` says nothing. -/
theorem C16_try_extend_keeps_partial (ht : t.WF) {w w' : World} {c c' : (arrayR nl t).C}
    {l : List (ItemVal nl (Val t))} {s : Src (ItemVal nl (Val t))} {k : Nat} (hs : TrySafe t)
    (hr : Reach nl t c) (hl : Shows nl t c l) (hk : kept t nl s.items.length = some k)
    (h : (arrayR nl t).tryExtend w c s = (c', .panic, w')) :
    Reach nl t c' ∧ Shows nl t c' (l ++ s.items.take k) := by
  have hi := reach_inv hr ht
  obtain ⟨h1, -, h2⟩ := countT_array ht hs hi (Nat.one_dvd _) hk h
  rw [hl.abs_eq hi] at h2
  exact ⟨.tryExtendPanic hs hr h, shows_of_inv ht h1 h2⟩

/-- C16 is false of all fixed-size lists, nested or not, of more than one boolean, and of
nullable items whose number neither divides 1024 nor is a multiple of it: some empty
array, extended from any source that panics after `1024 / width t + 1` items that fit,
cannot be consumed any more once the panic is caught: after some number of items,
`into_iter_owned` panics. -/
theorem C16_fixed_size_lists_split (ht : t.WF) (hs : Splits t) {s : Src (Val t)}
    (hp : s.panics = true) (hn : s.items.length = 1024 / width t + 1) (hf : Fits false t 0 s.items) :
    ∃ c c', Reach false t c ∧ Shows false t c [] ∧
      (arrayR false t).extend c s = (c', .panic) ∧
      (∃ it m, (arrayR false t).into c' = .ok it ∧ polls (arrayR false t).jnext m it = .panic) ∧
      ∀ l, ¬Shows false t c' l := by
  obtain ⟨c, c', h1, h2, h3, h4⟩ := splits_go t ht 1 Nat.one_pos
    (by rw [Nat.one_mul]; exact hs) s hp (by rw [Nat.one_mul, Nat.mul_one]; exact hn) hf
  rcases h4 with ⟨it, h5, m, h6⟩ | ⟨-, h5⟩
  · refine ⟨c, c', h1, shows_of_inv ht (reach_inv h1 ht) h2, h3, ⟨it, m, h5, h6⟩, fun l hl => ?_⟩
    obtain ⟨it', h7, h8⟩ := hl.into
    obtain ⟨as, it2, h9, -⟩ := h8 m
    have h10 : (Res.ok it : Res (arrayR false t).J) = .ok it' := h5.symm.trans h7
    cases h10
    have h11 := h6.symm.trans h9
    cases h11
  · exact absurd (Nat.one_dvd _) h5

/-- C16 is false of all fixed-size lists, nested or not, of a number of booleans that
neither divides 8 nor is a multiple of it, however the array was built: an array of one
item, extended from any source that panics after two or more items that fit, cannot be
consumed any more once the panic is caught. -/
theorem C16_grown_flags_split (ht : t.WF) (hb : Flags t) (hw : ¬(width t ∣ 8 ∨ 8 ∣ width t))
    {c : (arrayR false t).C} {x : Val t} {s : Src (Val t)} (hg : Grown false t c)
    (hl : Shows false t c [x]) (hp : s.panics = true) (hn : 2 ≤ s.items.length)
    (hf : Fits false t 0 (x :: s.items)) :
    ∃ c', (arrayR false t).extend c s = (c', .panic) ∧
      (∃ it m, (arrayR false t).into c' = .ok it ∧ polls (arrayR false t).jnext m it = .panic) ∧
      ∀ l, ¬Shows false t c' l := by
  obtain ⟨hi, hk⟩ := grown_canon hg ht
  have ha : (baseL t ht).abs c = [x] := hl.abs_eq hi
  have hr : (arrayL false t ht).Room 0 ([x] ++ s.items) := (fits_iff ht 0 _).mp hf
  obtain ⟨c', h3, h4⟩ := flags_stuck t ht hb 1 Nat.one_pos (by rw [Nat.one_mul]; exact hw) c s hi hk
    (by rw [ha]; exact hr) (by rw [ha]; rfl) hp hn
  rcases h4 with ⟨it, h5, m, h6⟩ | ⟨-, h5⟩
  · refine ⟨c', h3, ⟨it, m, h5, h6⟩, fun l hl => ?_⟩
    obtain ⟨it', h7, h8⟩ := hl.into
    obtain ⟨as, it2, h9, -⟩ := h8 m
    have h10 : (Res.ok it : Res (arrayR false t).J) = .ok it' := h5.symm.trans h7
    cases h10
    have h11 := h6.symm.trans h9
    cases h11
  · exact absurd (Nat.one_dvd _) h5

namespace Kept

/-- A source that yields the items of a list and panics. -/
def stop {α : Type} (l : List α) : Src α := Src.ofList l ++ [.panic]

theorem stop_panics {α : Type} : ∀ l : List α, (stop l).panics = true
  | [] => rfl
  | _ :: l => stop_panics l

theorem stop_items {α : Type} : ∀ l : List α, (stop l).items = l
  | [] => rfl
  | a :: l => congrArg (a :: ·) (stop_items l)

/-- `[Option<u8>; 4]` -/
abbrev Q : Ty := .fsl 4 true (.prim .u8)

/-- `[Option<u8>; 3]` -/
abbrev T : Ty := .fsl 3 true (.prim .u8)

theorem q_wf : Q.WF := ⟨by decide, trivial⟩

theorem q_safe : TrySafe Q := ⟨.inl ⟨256, rfl⟩, trivial⟩

theorem fsl_fits {n : Nat} (l : List (ItemVal false (Val (.fsl n true (.prim .u8)))))
    (h : l.length * n ≤ 2000) : Fits false (.fsl n true (.prim .u8)) 0 l := by
  have hl : (List.flatMap (fun x : FixArr (Option (Val (.prim .u8))) n => x.1) l).length =
      l.length * n := Flatten.flat_length (O := Option (Val (.prim .u8))) (n := n) l
  have hb : 2000 ≤ Prim.lim .u8 := by decide
  refine ⟨?_, ?_⟩
  · have h1 : l.length * n + 0 * n ≤ 2 ^ 61 := by omega
    exact Nat.le_trans (Nat.le_of_eq (congrArg (· + 0 * n) hl)) h1
  · refine Nat.le_trans (Nat.le_of_eq ?_) (Nat.le_trans h hb)
    refine (congrArg (· + 0 * n) (List.length_map ..)).trans ?_
    rw [Nat.zero_mul]; exact hl

theorem q_kept {l : List (ItemVal false (Val Q))} (h : l.length = 300) :
    kept Q false (stop l).items.length = some 256 := by
  rw [stop_items, h]; rfl

/-- Of 300 items of `[Option<u8>; 4]`, 1200 nullable elements, 1024 elements stay: 256
items. -/
example (l : List (ItemVal false (Val Q))) (hl : l.length = 300) :
    ∃ c', (arrayR false Q).extend (arrayR false Q).empty (stop l) = (c', .panic) ∧
      Reach false Q c' ∧ Shows false Q c' (l.take 256) := by
  obtain ⟨c', h⟩ := extend_panics (nl := false) (t := Q) (s := stop l) q_wf .empty (stop_panics l)
  obtain ⟨h1, -, h2⟩ := C16_extend_source_panic_partial (nl := false) (s := stop l) q_wf
    (grow_of_try q_safe) .empty (empty_shows (t := Q) q_wf)
    (by rw [List.nil_append, stop_items]; exact fsl_fits (n := 4) l (by rw [hl]; decide)) h
  rw [List.nil_append, stop_items, hl] at h2
  exact ⟨c', h, h1, h2⟩

/-- The same with `try_extend`. -/
example (l : List (ItemVal false (Val Q))) (hl : l.length = 300) :
    ∃ c' w', (arrayR false Q).tryExtend Sample.world (arrayR false Q).empty (stop l) =
        (c', .panic, w') ∧
      Reach false Q c' ∧ Shows false Q c' (l.take 256) := by
  obtain ⟨c', o, w', h, ho⟩ := try_extend_panics (nl := false) (t := Q) (w := Sample.world)
    (s := stop l) q_wf .empty (stop_panics l)
  obtain ⟨e1, e2, e3⟩ := (arrayL false Q q_wf).empty_ok
  have hf : Fits false Q 0 l := fsl_fits (n := 4) l (by rw [hl]; decide)
  rw [fits_iff q_wf] at hf
  have := (array_live _ _ q_wf).tryExt (s := stop l) Sample.generous Sample.tight e1 e3
    (by rw [e2, stop_items]; exact hf)
  rw [h] at this
  rcases ho with rfl | rfl
  · obtain ⟨h1, h2⟩ := C16_try_extend_keeps_partial (nl := false) (s := stop l) q_wf q_safe .empty
      (empty_shows (t := Q) q_wf) (q_kept hl) h
    rw [List.nil_append, stop_items] at h2
    exact ⟨c', w', h, h1, h2⟩
  · exact absurd rfl this

/-- Of 1500 items of an array of `Option<Vec<bool>>`, 1024 stay; of one of `Vec<bool>`, all. -/
example : kept (.vsl .i32 false .bool) true 1500 = some 1024 ∧
    kept (.vsl .i32 false .bool) false 1500 = some 1500 := ⟨rfl, rfl⟩

/-- `[[Option<u8>; 3]; 1024]` is safe, although `[Option<u8>; 3]` is not. -/
example : TrySafe (.fsl 1024 false T) ∧ ¬TrySafe T :=
  ⟨⟨.inr ⟨3, rfl⟩, trivial⟩, by simp [TrySafe, Whole]⟩

theorem t_splits : Splits T := ⟨by simp [width], trivial⟩

/-- Of 342 items of `[Option<u8>; 3]`, 1024 of the 1026 elements stay, and the array cannot
be consumed. -/
example (l : List (Val T)) (hl : l.length = 342) :
    ∃ c c', Reach false T c ∧ Shows false T c [] ∧
      (arrayR false T).extend c (stop l) = (c', .panic) ∧ ∀ l', ¬Shows false T c' l' := by
  obtain ⟨c, c', h1, h2, h3, -, h4⟩ := C16_fixed_size_lists_split (t := T) ⟨by decide, trivial⟩
    t_splits (s := stop l) (stop_panics l) (by rw [stop_items, hl]; rfl)
    (by rw [stop_items]; exact fsl_fits (n := 3) l (Nat.le_trans (Nat.le_of_eq (congrArg (· * 3) hl)) (by decide)))
  exact ⟨c, c', h1, h2, h3, h4⟩

/-- Other types that are damaged: `[bool; 8]`, `[[bool; 1]; 2]`, `[[Option<Vec<u8>>; 2]; 3]`. -/
example : Splits (.fsl 8 false .bool) ∧ Splits (.fsl 2 false (.fsl 1 false .bool)) ∧
    Splits (.fsl 3 false (.fsl 2 true (.vsl .i32 false (.prim .u8)))) :=
  ⟨by simp [Splits, Splits.go, width], by simp [Splits, Splits.go, width],
    by simp [width], trivial⟩

/-- `[bool; 4]` -/
abbrev N : Ty := .fsl 4 false .bool

/-- `[bool; 3]` -/
abbrev M : Ty := .fsl 3 false .bool

theorem flags_fits {n : Nat} (l : List (ItemVal false (Val (.fsl n false .bool))))
    (h : l.length * n ≤ 2000) : Fits false (.fsl n false .bool) 0 l := by
  have hl : (List.flatMap (fun x : FixArr (Val .bool) n => x.1) l).length =
      l.length * n := Flatten.flat_length (O := Val .bool) (n := n) l
  have h1 : l.length * n + 0 * n ≤ 2 ^ 61 := by omega
  exact Nat.le_trans (Nat.le_of_eq (congrArg (· + 0 * n) hl)) h1

/-- An array of one item. -/
theorem one {n : Nat} (hn : 0 < n) (h2 : n ≤ 2000) (x : ItemVal false (Val (.fsl n false .bool))) :
    ∃ c, Grown false (.fsl n false .bool) c ∧ Shows false (.fsl n false .bool) c [x] := by
  have ht : (Ty.fsl n false .bool).WF := ⟨hn, trivial⟩
  have hf : Fits false (.fsl n false .bool) 0 [x] :=
    flags_fits (n := n) [x] (by simpa using h2)
  obtain ⟨c, -, h2⟩ := C10_extend_returns (s := Src.ofList [x]) ht .empty
    (empty_shows (t := .fsl n false .bool) ht) hf rfl
  exact ⟨c, h2⟩

/-- An array of one `[bool; 4]`, four bits of a byte: of two more that are yielded, the
first fills the byte and stays, and the array is as good as new. -/
example (x y z : ItemVal false (Val N)) : ∃ c c', Grown false N c ∧ Shows false N c [x] ∧
    (arrayR false N).extend c (stop [y, z]) = (c', .panic) ∧ Grown false N c' ∧
    Shows false N c' [x, y] := by
  obtain ⟨c, hg, hl⟩ := one (n := 4) (by decide) (by decide) x
  have ht : N.WF := ⟨by decide, trivial⟩
  obtain ⟨c', h⟩ := extend_panics (nl := false) (t := N) (s := stop [y, z]) ht hg.reach (stop_panics _)
  obtain ⟨-, h1, h2⟩ := C16_extend_source_panic_partial (nl := false) (s := stop [y, z]) ht
    (.inl ⟨2, rfl⟩) hg hl (flags_fits (n := 4) [x, y, z] (show 3 * 4 ≤ 2000 by decide)) h
  have hk : keptGrown N false 1 2 = 1 := rfl
  rw [stop_items, show [y, z].length = 2 from rfl, show [x].length = 1 from rfl, hk] at h2
  exact ⟨c, c', hg, hl, h, h1 trivial, h2⟩

/-- An array of one `[bool; 3]`, three bits of a byte: two more are yielded, five bits stay,
and the array cannot be consumed. -/
example (x y z : ItemVal false (Val M)) : ∃ c c', Grown false M c ∧ Shows false M c [x] ∧
    (arrayR false M).extend c (stop [y, z]) = (c', .panic) ∧ ∀ l, ¬Shows false M c' l := by
  obtain ⟨c, hg, hl⟩ := one (n := 3) (by decide) (by decide) x
  obtain ⟨c', h1, -, h2⟩ := C16_grown_flags_split (t := M) ⟨by decide, trivial⟩ trivial
    (by simp [width]) hg hl (s := stop [y, z]) rfl (Nat.le_refl 2)
    (flags_fits (n := 3) [x, y, z] (show 3 * 3 ≤ 2000 by decide))
  exact ⟨c, c', hg, hl, h1, h2⟩

/-- `[[bool; 2]; 2]`, `[bool; 16]` and `[Option<[bool; 2]>; 4]` are safe in such arrays. -/
example : GrowSafe (.fsl 2 false (.fsl 2 false .bool)) ∧ GrowSafe (.fsl 16 false .bool) ∧
    GrowSafe (.fsl 4 true (.fsl 2 false .bool)) :=
  ⟨.inl ⟨2, rfl⟩, .inr ⟨2, rfl⟩, .inl ⟨256, rfl⟩, .inl ⟨4, rfl⟩⟩

end Kept

end Narrow.Props
