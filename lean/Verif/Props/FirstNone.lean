import Verif.Proof.FirstNone
import Verif.Props.Arrays

/-!
# C07: what a source yields after its first `None`

A source is the list of answers of its `next` calls. `before ++ .none :: after`
is a source that returns `None` once the answers `before` are used up (unless one
of them is a `None` or a panic already) and then goes on with `after`.
-/

namespace Narrow.Props

open Spec

variable {nl : Bool} {t : Ty}

theorem fuse_stop {α : Type} : ∀ (before after : Src α),
    (before ++ .none :: after).fuse = before.fuse
  | [], _ => rfl
  | .none :: _, _ => rfl
  | .panic :: _, _ => rfl
  | .item a :: s, after => by simp only [List.cons_append, Src.fuse, fuse_stop s after]

/-- C07. `extend` does exactly the same whatever the source would yield after its
first `None`: same array left behind, same outcome. -/
theorem C07_extend (ht : t.WF) (c : (arrayR nl t).C) (before after : Src (ItemVal nl (Val t))) :
    (arrayR nl t).extend c (before ++ .none :: after) = (arrayR nl t).extend c before := by
  rw [(arrayL nl t ht).ext_fuse c (before ++ _), fuse_stop, ← (arrayL nl t ht).ext_fuse]

/-- C07. The same for `try_extend`, under every allocator behaviour. -/
theorem C07_try_extend (ht : t.WF) (w : World) (c : (arrayR nl t).C)
    (before after : Src (ItemVal nl (Val t))) :
    (arrayR nl t).tryExtend w c (before ++ .none :: after) = (arrayR nl t).tryExtend w c before := by
  rw [(arrayL nl t ht).tryExt_fuse w c (before ++ _), fuse_stop, ← (arrayL nl t ht).tryExt_fuse]

/-- C07. The same for collecting with `from_iter` or `from_iter_in`, for every
array type except `Array<bool>` and `Array<Option<bool>>`, and with
`try_from_iter_in`, for every array type except `Array<bool>`. For the excepted
types the property is false, see `C07_bool_reads_past_none`. -/
theorem C07_collect_partial (ht : t.WF) (w : World) (before after : Src (ItemVal nl (Val t))) :
    (t ≠ .bool →
      (arrayR nl t).fromIter w (before ++ .none :: after) = (arrayR nl t).fromIter w before ∧
      (arrayR nl t).fromIterIn w (before ++ .none :: after) = (arrayR nl t).fromIterIn w before) ∧
    (nl = true ∨ t ≠ .bool →
      (arrayR nl t).tryFromIter w (before ++ .none :: after) =
        (arrayR nl t).tryFromIter w before) := by
  refine ⟨fun h => ⟨?_, ?_⟩, fun h => ?_⟩
  · rw [(array_stops nl t ht h).fromIter w (before ++ _), fuse_stop,
      ← (array_stops nl t ht h).fromIter]
  · rw [(array_stops nl t ht h).fromIterIn w (before ++ _), fuse_stop,
      ← (array_stops nl t ht h).fromIterIn]
  · rw [array_tryStops nl t ht h w (before ++ _), fuse_stop, ← array_tryStops nl t ht h]

/-- The source `Some(true)`, `None`, `Some(true)`. -/
def resumes : Src Bool := [.item true, .none, .item true]

/-- The bitmap collected from it. -/
def resumed : Bitmap := ⟨⟨[5#8], 1⟩, 2, 0⟩

theorem pack_resumes : pack resumes = ([.item 5#8], 2) := by
  unfold pack
  simp [resumes, packRest, pack, boolByte]

theorem resumed_inv : resumed.Inv := ⟨⟨by decide, by decide⟩, by decide⟩

theorem resumed_reads : Shows false .bool resumed [true, false] :=
  shows_of_inv (t := .bool) (nl := false) trivial resumed_inv
    (show Bitmap.abs resumed = [true, false] by decide)

theorem resumed_collected : Bitmap.fromIter resumes = .ok resumed := by
  simp only [Bitmap.fromIter, pack_resumes]; decide

/-- C07 is false for collecting booleans: collecting `true`, `None`, `true` with
`from_iter`, `from_iter_in` or `try_from_iter_in` gives an array of two items,
and its second item is not even the one the source yielded second. -/
theorem C07_bool_reads_past_none :
    (∃ c w', (arrayR false .bool).fromIter Sample.world resumes = (.ok c, w') ∧
      Shows false .bool c [true, false]) ∧
    (∃ c w', (arrayR false .bool).fromIterIn Sample.world resumes = (.ok c, w') ∧
      Shows false .bool c [true, false]) ∧
    (∃ c w', (arrayR false .bool).tryFromIter Sample.world resumes = (.ok c, w') ∧
      Shows false .bool c [true, false]) := by
  have h := resumed_collected
  refine ⟨⟨resumed, Sample.world, ?_, resumed_reads⟩, ⟨resumed, Sample.world, ?_, resumed_reads⟩,
    ⟨resumed, (Bitmap.tryFromIter Sample.world resumes).2, ?_, resumed_reads⟩⟩
  · exact congrArg (·, Sample.world) h
  · exact congrArg (·, Sample.world) h
  · show Bitmap.tryFromIter Sample.world resumes = _
    refine Prod.ext ?_ rfl
    simp only [Bitmap.tryFromIter, pack_resumes]; rfl

/-- C07 is false for collecting `Option<bool>` as well: `Some(true)`, end of
iteration, `Some(true)` gives two items, the second one wrong. -/
theorem C07_option_bool_reads_past_none :
    ∃ c w', (arrayR true .bool).fromIter Sample.world
        [.item (some true), .none, .item (some true)] = (.ok c, w') ∧
      Shows true .bool c [some true, some false] := by
  obtain ⟨b, h⟩ : ∃ b, Validity.pushBits ⟨⟨[], 1⟩, 0, 0⟩ [true, true] = (b, .ok) :=
    ⟨_, Prod.ext rfl (Validity.pushBits_live [true, true] (b := ⟨⟨[], 1⟩, 0, 0⟩)
      ⟨⟨by decide, by decide⟩, by decide⟩ (by decide))⟩
  obtain ⟨-, -, h2⟩ := Validity.pushBits_spec _ (b := ⟨⟨[], 1⟩, 0, 0⟩)
    ⟨⟨by decide, by decide⟩, by decide⟩ h
  obtain ⟨h2, h3, -⟩ := h2 rfl
  have hp : Bitmap.pulled [Ev.item (some true), .none, .item (some true)] =
      [some true, some true] := by
    rw [Bitmap.pulled]; simp [Bitmap.pullRest, Bitmap.pulled]
  refine ⟨⟨resumed, some b⟩, Sample.world.next, ?_, ?_⟩
  · show Validity.fromIterWith bitmapR bitmapR.fromIter Sample.world
        [Ev.item (some true), .none, .item (some true)] =
      (Try.ok (⟨resumed, some b⟩ : Validity Bitmap), Sample.world.next)
    unfold Validity.fromIterWith
    have h1 : Bitmap.withCap (Sample.world.capHint
        (Src.items [Ev.item (some true), .none, .item (some true)]).length) =
        .ok ⟨⟨[], 1⟩, 0, 0⟩ := by decide
    have h4 : Bitmap.fromIter (Validity.values false
        [Ev.item (some true), .none, .item (some true)]) = .ok resumed := resumed_collected
    rw [h1]
    dsimp only
    rw [h4]
    dsimp only
    rw [hp, show [some true, some true].map Option.isSome = [true, true] from rfl, h]
  · refine shows_of_inv (t := .bool) (nl := true) trivial (c := (⟨resumed, some b⟩ : Validity Bitmap))
      (show Validity.Inv bitmapL.toLawfulColl ⟨resumed, some b⟩ from ?_)
      (show Validity.abs bitmapL.toLawfulColl ⟨resumed, some b⟩ = [some true, some false] from ?_)
    · refine ⟨resumed_inv, fun b' hb' => ?_⟩
      cases hb'
      refine ⟨h2, ?_⟩
      have := congrArg List.length h3
      simp only [Bitmap.abs_length, List.length_append, List.length_cons, List.length_nil] at this
      rw [this]; exact Nat.le_refl 2
    · show Validity.mask (Bitmap.abs resumed) b.abs = [some true, some false]
      rw [h3]; decide

/-- C07, what collecting booleans does instead, for every source: only the answers of
every eighth call are checked for `None` (`StopsAt`). The array then has as many items as
were yielded until there, and item `j` is what call `j` of `next` returned, `false` if that
was a `None`. -/
theorem C07_bool_collect_exact {w w' : World} {s : Src Bool} {c : (arrayR false .bool).C}
    (h : (arrayR false .bool).fromIter w s = (.ok c, w') ∨
      (arrayR false .bool).fromIterIn w s = (.ok c, w') ∨
      (arrayR false .bool).tryFromIter w s = (.ok c, w')) :
    ∃ m, StopsAt s m ∧
      Shows false .bool c ((yields s m).mapIdx fun j _ => decide (answer s j = .item true)) := by
  have h : (∃ m, StopsAt s m ∧ Bitmap.Inv c ∧
      Bitmap.abs c = (yields s m).mapIdx fun j _ => decide (answer s j = .item true)) := by
    rcases h with h | h | h
    · exact bitmap_fromIter_exact (congrArg Prod.fst h)
    · exact bitmap_fromIter_exact (congrArg Prod.fst h)
    · exact bitmap_tryFromIter_exact h
  obtain ⟨m, h1, h2, h3⟩ := h
  exact ⟨m, h1, shows_of_inv (t := .bool) (nl := false) trivial h2 h3⟩

/-- C07, what collecting `Option<bool>` does instead, for every source: as for `bool`, and
item `j` is null if the `j`-th item yielded is. -/
theorem C07_option_bool_collect_exact {w w' : World} {s : Src (Option Bool)}
    {c : (arrayR true .bool).C}
    (h : (arrayR true .bool).fromIter w s = (.ok c, w') ∨
      (arrayR true .bool).fromIterIn w s = (.ok c, w')) :
    ∃ m, StopsAt s m ∧
      Shows true .bool c ((yields s m).mapIdx fun j o =>
        o.map fun _ => decide (answer s j = .item (some true))) := by
  have h : (∃ m, StopsAt s m ∧ Validity.Inv bitmapL.toLawfulColl c ∧
      Validity.abs bitmapL.toLawfulColl c = (yields s m).mapIdx fun j o =>
        o.map fun _ => decide (answer s j = .item (some true))) := by
    rcases h with h | h
    · exact validity_fromIter_exact (fun _ _ => rfl) h
    · exact validity_fromIter_exact (fun _ _ => rfl) h
  obtain ⟨m, h1, h2, h3⟩ := h
  exact ⟨m, h1, shows_of_inv (t := .bool) (nl := true) trivial h2 h3⟩

/-- C07 for collecting booleans, if the source yields a multiple of eight items before its
first `None`: only these are collected. -/
theorem C07_bool_collect_partial {w w' : World} {l : List Bool} {after : Src Bool}
    {c : (arrayR false .bool).C} (h8 : l.length % 8 = 0)
    (h : (arrayR false .bool).fromIter w (Src.ofList l ++ .none :: after) = (.ok c, w') ∨
      (arrayR false .bool).fromIterIn w (Src.ofList l ++ .none :: after) = (.ok c, w') ∨
      (arrayR false .bool).tryFromIter w (Src.ofList l ++ .none :: after) = (.ok c, w')) :
    Shows false .bool c l := by
  obtain ⟨m, h1, h2⟩ := C07_bool_collect_exact h
  have hl : (Src.ofList l).length = l.length := List.length_map ..
  have ha : ∀ j (hj : j < l.length), answer (Src.ofList l ++ .none :: after) j = .item l[j] := by
    intro j hj
    rw [answer, List.getElem?_append_left (by omega)]
    simp [Src.ofList, hj]
  have h3 : StopsAt (Src.ofList l ++ .none :: after) l.length := by
    refine ⟨h8, ?_, fun j hj _ => ⟨_, ha j hj⟩, fun j hj => by simp [ha j hj]⟩
    rw [answer, List.getElem?_append_right (by omega)]
    simp [hl]
  have := h1.unique h3
  subst this
  have hy : yields (Src.ofList l ++ .none :: after) l.length = l := by
    rw [yields, List.take_append_of_le_length (by omega), List.take_of_length_le (by omega), Src.ofList,
      List.filterMap_map]
    exact List.filterMap_some
  have he : ((yields (Src.ofList l ++ .none :: after) l.length).mapIdx fun j _ =>
      decide (answer (Src.ofList l ++ .none :: after) j = .item true)) = l := by
    rw [hy]
    apply List.ext_getElem
    · simp
    · intro j h1 h2
      rw [List.getElem_mapIdx, ha j h2]
      simp
  exact (congrArg (Shows false .bool c) he).mp h2

/-- The witness of `C07_bool_reads_past_none` stops after eight calls. -/
example : StopsAt resumes 8 ∧
    ((yields resumes 8).mapIdx fun j _ => decide (answer resumes j = .item true)) = [true, false] := by
  refine ⟨⟨rfl, rfl, fun j hj h8 => ?_, fun j hj => ?_⟩, by decide⟩
  · obtain rfl : j = 0 := by omega
    exact ⟨true, rfl⟩
  · revert j; decide

example : ∃ c w', (arrayR false .bool).fromIter Sample.world
      (Src.ofList [true, false, true, true, false, false, true, true] ++ .none :: [.item true]) = (.ok c, w') ∧
    Shows false .bool c [true, false, true, true, false, false, true, true] := by
  obtain ⟨c, h⟩ : ∃ c, Bitmap.fromIter
      (Src.ofList [true, false, true, true, false, false, true, true] ++ .none :: [.item true]) = .ok c := by
    have hp : pack (Src.ofList [true, false, true, true, false, false, true, true] ++ .none :: [.item true]) =
        ([.item 0xcd#8], 8) := by
      unfold pack
      simp [Src.ofList, packRest, pack, boolByte]
    refine ⟨⟨⟨[0xcd#8], 1⟩, 8, 0⟩, ?_⟩
    simp only [Bitmap.fromIter, hp]; decide
  exact ⟨c, Sample.world, congrArg (·, Sample.world) h,
    C07_bool_collect_partial (by decide) (.inl (congrArg (·, Sample.world) h))⟩

/-- The hypotheses of `C07_collect_partial` hold for the nested sample type, and
the source there resumes with further items. -/
example : (arrayR true Sample.ty).fromIter Sample.world
      (Src.ofList Sample.items ++ .none :: Src.ofList Sample.more) =
    (arrayR true Sample.ty).fromIter Sample.world (Src.ofList Sample.items) ∧
    ∃ c w', (arrayR true Sample.ty).fromIter Sample.world
        (Src.ofList Sample.items ++ .none :: Src.ofList Sample.more) = (.ok c, w') ∧
      Shows true Sample.ty c Sample.items := by
  have h := ((C07_collect_partial (nl := true) Sample.ty_wf Sample.world (Src.ofList Sample.items)
    (Src.ofList Sample.more)).1 (by simp)).1
  obtain ⟨c, w', h1, -, h2⟩ := Sample.built
  exact ⟨h, c, w', h.trans h1, h2⟩

/-- Extending a boolean array with a source that resumes appends only the items
before the first `None`. -/
example : (arrayR false .bool).extend Bitmap.empty resumes =
    (arrayR false .bool).extend Bitmap.empty [.item true] :=
  C07_extend (nl := false) (t := .bool) trivial Bitmap.empty [.item true] [.item true]

end Narrow.Props
