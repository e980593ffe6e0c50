import Verif.Props.History
/-!
# C16: examples, and fixed-size lists after a caught panic
-/

namespace Narrow.Props
open Spec


namespace Broken

/-- `[bool; 3]` -/
abbrev B3 : Ty := .fsl 3 false .bool

/-- `[a, b, c]` -/
def tri (a b c : Bool) : FixArr Bool 3 := ⟨[a, b, c], rfl⟩

/-- An array holding `[true, false, true]`. -/
def one : (arrayR false B3).C := (⟨⟨⟨[0b101#8], 1⟩, 3, 0⟩⟩ : Flatten Bitmap)

/-- A source that yields two items and panics. -/
def src : Src (ItemVal false (Val B3)) :=
  [.item (tri true true true), .item (tri true true true), .panic]

/-- What the panic leaves behind: five of the six bits were committed. -/
def left : (arrayR false B3).C := (⟨⟨⟨[0b11111101#8], 1⟩, 8, 0⟩⟩ : Flatten Bitmap)

/-- What extending that by one item leads to. -/
def after : (arrayR false B3).C := (⟨⟨⟨[0b11111101#8, 0#8], 2⟩, 11, 0⟩⟩ : Flatten Bitmap)

theorem pack_panic : pack [.item true, .panic] = ([.panic], 0) := by
  unfold pack; rfl

theorem pack_three : pack [.item false, .item false, .item false] = ([.item 0#8], 3) := by
  unfold pack; simp [packRest, boolByte, pack]

/-- The bits of the two items, and the panic. -/
def bits : Src Bool := [.item true, .item true, .item true, .item true, .item true, .item true, .panic]

theorem phase1_bits : Bitmap.phase1 ⟨⟨[0b101#8], 1⟩, 3, 0⟩ bits.fuse =
    (⟨⟨[0b11111101#8], 1⟩, 8, 0⟩, [.item true, .panic], false) := rfl

theorem extend_bits : Bitmap.extend ⟨⟨[0b101#8], 1⟩, 3, 0⟩ bits = (⟨⟨[0b11111101#8], 1⟩, 8, 0⟩, .panic) := by
  simp only [Bitmap.extend, phase1_bits, Bitmap.phase2, pack_panic]
  rfl

theorem tryExtend_bits : Bitmap.tryExtend Sample.world ⟨⟨[0b101#8], 1⟩, 3, 0⟩ bits =
    (⟨⟨[0b11111101#8], 1⟩, 8, 0⟩, .panic, ⟨Sample.oracle, 1⟩) := by
  simp only [Bitmap.tryExtend, phase1_bits, Bitmap.phase2, pack_panic]
  rfl

theorem extend_left_bits : Bitmap.extend ⟨⟨[0b11111101#8], 1⟩, 8, 0⟩ [.item false, .item false, .item false] =
    (⟨⟨[0b11111101#8, 0#8], 2⟩, 11, 0⟩, .ok) := by
  have h1 : Bitmap.phase1 ⟨⟨[0b11111101#8], 1⟩, 8, 0⟩ (Src.fuse [.item false, .item false, .item false]) =
      (⟨⟨[0b11111101#8], 1⟩, 8, 0⟩, [.item false, .item false, .item false], false) := rfl
  simp only [Bitmap.extend, h1, Bitmap.phase2, pack_three]
  rfl

theorem extend_one : (arrayR false B3).extend one src = (left, .panic) :=
  congrArg (fun r : Bitmap × Out => (Flatten.mk r.1, r.2)) extend_bits

theorem tryExtend_one : (arrayR false B3).tryExtend Sample.world one src = (left, .panic, ⟨Sample.oracle, 1⟩) :=
  congrArg (fun r : Bitmap × Out × World => (Flatten.mk r.1, r.2)) tryExtend_bits

theorem extend_left : (arrayR false B3).extend left (Src.ofList [tri false false false]) = (after, .ok) :=
  congrArg (fun r : Bitmap × Out => (Flatten.mk r.1, r.2)) extend_left_bits

theorem one_reach : Reach false B3 one :=
  .flattenParts (t := .bool) (nl := false) (c := (⟨⟨[0b101#8], 1⟩, 3, 0⟩ : Bitmap))
    (.bitmapParts (buffer := ⟨[0b101#8], 1⟩) (bits := 3) (offset := 0)
      ⟨by decide, by decide⟩ rfl) rfl

theorem one_shows : Shows false B3 one [tri true false true] := by
  obtain ⟨l, hl, -⟩ := reach_reads (t := B3) ⟨by decide, trivial⟩ one_reach
  have h1 : l.length = 1 := by
    have := hl.len.symm.trans (show (arrayR false B3).len one = .ok 1 from rfl)
    injection this
  match l, h1, hl with
  | [a], _, hl =>
    have h2 := (hl.owned 0 (by simp)).symm.trans
      (show (arrayR false B3).owned one 0 = .ok (some (tri true false true)) from rfl)
    have h3 : a = tri true false true := by injection h2 with h2; injection h2
    exact h3 ▸ hl

theorem after_owned : (arrayR false B3).owned after 2 = .ok (some (tri true true false)) := rfl

theorem after_shows {l : List (FixArr Bool 3)} (h : Shows false B3 after l) :
    l.length = 3 ∧ l[2]? = some (tri true true false) := by
  have h1 : l.length = 3 := by
    have := h.len.symm.trans (show (arrayR false B3).len after = .ok 3 from rfl)
    injection this
  have h2 := (h.owned 2 (show 2 < l.length by omega)).symm.trans after_owned
  refine ⟨h1, ?_⟩
  injection h2 with h2
  exact (List.getElem?_eq_getElem (show 2 < l.length by omega)).trans h2

theorem after_wrong {xs : List (FixArr Bool 3)} : ¬Shows false B3 after
    ([tri true false true] ++ xs ++ [tri false false false]) := by
  intro h
  obtain ⟨h1, h2⟩ := after_shows h
  clear h
  match xs, h1, h2 with
  | [x], _, h2 => simp [tri] at h2
  | x :: y :: xs, h1, _ => simp at h1

end Broken

/-- C16 is false of `Array<[bool; 3]>`: the array holds `[true, false, true]`, the
source yields two items and panics, and the panic is caught. Extending the array
by `[false, false, false]` afterwards works, but then the array does not hold the
old item, a prefix of the yielded ones and the new item: its last item is
`[true, true, false]`, which nobody ever passed in. -/
theorem C16_fixed_size_list_breaks :
    ∃ (c c' c'' : (arrayR false (.fsl 3 false .bool)).C) (l new : List (FixArr Bool 3))
      (s : Src (FixArr Bool 3)),
      Reach false (.fsl 3 false .bool) c ∧ Shows false (.fsl 3 false .bool) c l ∧
      (arrayR false (.fsl 3 false .bool)).extend c s = (c', .panic) ∧
      (arrayR false (.fsl 3 false .bool)).extend c' (Src.ofList new) = (c'', .ok) ∧
      (∀ k, ¬Shows false (.fsl 3 false .bool) c'' (l ++ (Src.items s).take k ++ new)) ∧
      (∃ x, (arrayR false (.fsl 3 false .bool)).owned c'' 2 = .ok (some x) ∧
        x ∉ l ∧ x ∉ s.items ∧ x ∉ new) :=
  ⟨Broken.one, Broken.left, Broken.after, [Broken.tri true false true],
    [Broken.tri false false false], Broken.src, Broken.one_reach, Broken.one_shows,
    Broken.extend_one, Broken.extend_left, fun _ => Broken.after_wrong,
    Broken.tri true true false, Broken.after_owned, by decide, by decide, by decide⟩

/-- The same with `try_extend`. -/
theorem C16_fixed_size_list_try_extend_breaks :
    ∃ (w w' : World) (c c' c'' : (arrayR false (.fsl 3 false .bool)).C) (l new : List (FixArr Bool 3))
      (s : Src (FixArr Bool 3)),
      Reach false (.fsl 3 false .bool) c ∧ Shows false (.fsl 3 false .bool) c l ∧
      (arrayR false (.fsl 3 false .bool)).tryExtend w c s = (c', .panic, w') ∧
      (arrayR false (.fsl 3 false .bool)).extend c' (Src.ofList new) = (c'', .ok) ∧
      (∀ k, ¬Shows false (.fsl 3 false .bool) c'' (l ++ (Src.items s).take k ++ new)) :=
  ⟨Sample.world, _, Broken.one, Broken.left, Broken.after, [Broken.tri true false true],
    [Broken.tri false false false], Broken.src, Broken.one_reach, Broken.one_shows,
    Broken.tryExtend_one, Broken.extend_left, fun _ => Broken.after_wrong⟩

theorem empty_shows {nl : Bool} {t : Ty} (ht : t.WF) : Shows nl t (arrayR nl t).empty [] :=
  shows_of_inv ht (arrayL nl t ht).empty_ok.1 (arrayL nl t ht).empty_ok.2.1

/-- A panicking source always makes `extend` panic. -/
theorem extend_panics {nl : Bool} {t : Ty} (ht : t.WF) {c : (arrayR nl t).C}
    {s : Src (ItemVal nl (Val t))} (hr : Reach nl t c) (hp : s.panics = true) :
    ∃ c', (arrayR nl t).extend c s = (c', .panic) := by
  obtain ⟨l, hl, -⟩ := reach_reads ht hr
  generalize hE : (arrayR nl t).extend c s = E
  obtain ⟨c', o⟩ := E
  cases o with
  | ok => have := (C10_extend_appends ht hr hl hE).2.2; rw [hp] at this; cases this
  | err => exact absurd (congrArg Prod.snd hE) ((arrayL nl t ht).ext_ne s (reach_inv hr ht))
  | panic => exact ⟨c', rfl⟩

/-- The nested sample survives a source that panics after two items. -/
example : ∃ c c', Grown true Sample.ty c ∧
    (arrayR true Sample.ty).extend c (Src.ofList Sample.more ++ [.panic]) = (c', .panic) ∧
    Reach true Sample.ty c' ∧ Shows true Sample.ty c' (Sample.items ++ Sample.more.take 0) := by
  obtain ⟨c, hg, hr, hs⟩ := Sample.array
  obtain ⟨c', h⟩ := extend_panics (s := Src.ofList Sample.more ++ [.panic]) Sample.ty_wf hr rfl
  obtain ⟨h1, -, h2⟩ := C16_extend_source_panic_partial Sample.ty_wf trivial hg hs (show Fits true Sample.ty 0 (Sample.items ++ Src.items (Src.ofList Sample.more ++ [.panic])) from Sample.fits_more) h
  exact ⟨c, c', hg, h, h1, h2⟩

/-- So does an array of optional lists of optional booleans, whatever its state. -/
example : ∃ c', (arrayR true (.vsl .i64 true .bool)).extend (arrayR true (.vsl .i64 true .bool)).empty
      [.item none, .item (some [some true, none]), .panic] = (c', .panic) ∧
    Reach true (.vsl .i64 true .bool) c' ∧ ∃ k, Shows true (.vsl .i64 true .bool) c'
      ([] ++ ([none, some [some true, none]] : List (ItemVal true (Val (.vsl .i64 true .bool)))).take k) := by
  obtain ⟨c', h⟩ := extend_panics (nl := true) (t := .vsl .i64 true .bool)
    (s := [.item none, .item (some [some true, none]), .panic]) trivial .empty rfl
  obtain ⟨h1, h2⟩ := C16_extend_panic_partial (nl := true) (t := .vsl .i64 true .bool) trivial trivial .empty
    (empty_shows (t := .vsl .i64 true .bool) trivial) h
  exact ⟨c', h, h1, h2⟩

/-- A panicking source always makes `try_extend` panic, or fail before. -/
theorem try_extend_panics {nl : Bool} {t : Ty} (ht : t.WF) {w : World} {c : (arrayR nl t).C}
    {s : Src (ItemVal nl (Val t))} (hr : Reach nl t c) (hp : s.panics = true) :
    ∃ c' o w', (arrayR nl t).tryExtend w c s = (c', o, w') ∧ (o = .panic ∨ o = .err) := by
  obtain ⟨l, hl, -⟩ := reach_reads ht hr
  generalize hE : (arrayR nl t).tryExtend w c s = E
  obtain ⟨c', o, w'⟩ := E
  refine ⟨c', o, w', rfl, ?_⟩
  rcases C12_try_extend_all_or_nothing ht hr hl hE with ⟨-, -, -, h⟩ | h | h
  · rw [hp] at h; cases h
  · exact .inr h.1
  · exact .inl h.1

/-- `try_extend` on the nested sample, the source panicking. -/
example : ∃ c c' w', Reach true Sample.ty c ∧
    (arrayR true Sample.ty).tryExtend Sample.world c (Src.ofList Sample.more ++ [.panic]) = (c', .panic, w') ∧
    Reach true Sample.ty c' ∧ ∃ k, Shows true Sample.ty c' (Sample.items ++ Sample.more.take k) := by
  obtain ⟨c, hg, hr, hs⟩ := Sample.array
  obtain ⟨c', o, w', h, ho⟩ := try_extend_panics (w := Sample.world)
    (s := Src.ofList Sample.more ++ [.panic]) Sample.ty_wf hr rfl
  obtain ⟨i1, i2⟩ := grown_canon hg Sample.ty_wf
  have hf := Sample.fits_more
  rw [fits_iff Sample.ty_wf, ← hs.abs_eq i1] at hf
  have := (array_live _ _ Sample.ty_wf).tryExt (s := Src.ofList Sample.more ++ [.panic]) Sample.generous
    Sample.tight i1 i2 (show (arrayL true Sample.ty Sample.ty_wf).Room 0 (_ ++ Src.items (Src.ofList Sample.more ++ [.panic])) from hf)
  rw [h] at this
  rcases ho with rfl | rfl
  · obtain ⟨h1, h2⟩ := C16_try_extend_panic_partial Sample.ty_wf trivial hr hs h
    exact ⟨c, c', w', hr, h, h1, h2⟩
  · exact absurd rfl this

end Narrow.Props
