import Verif.Proof.Refill
import Verif.Props.Spare

/-!
# Collections in storages of fixed capacity can be emptied and refilled (C67)

If every collection and storage of a composition takes its number of items, and never
more, then which items a collection can take depends on the items it holds and on nothing
else: not on items that were dropped, on calls that failed, or on reservations.
-/

namespace Narrow.Props

open Spec

variable {O : Type} {k : SComp O} {caps : Caps k}

/-- C67. `try_extend` succeeds exactly if all items fit. -/
theorem C67_try_extend_exact (hs : Sound k) (ha : Accepts k caps) (hl : Limits k caps) {w : World}
    (hw : Kind w) {c : (scompR k).C} {l : List O} (h : SReused k c l) {s : Src O}
    (hp : s.panics = false) :
    (Fitting k caps (l ++ s.items) →
      ∃ c' w', (scompR k).tryExtend w c s = (c', .ok, w') ∧ Kind w' ∧ SReused k c' (l ++ s.items) ∧
        Reads (scompR k).toColl c' (l ++ s.items)) ∧
    (¬ Fitting k caps (l ++ s.items) →
      ∃ c' w', (scompR k).tryExtend w c s = (c', .err, w') ∧ SReused k c' l ∧
        Reads (scompR k).toColl c' l) := by
  obtain ⟨h1, h2⟩ := sbuilt_inv h.built hs
  constructor
  · intro hr
    obtain ⟨c', w', e, hk⟩ :=
      (sloose_tryGrows k hs ha hl).tryExt hw h1 (sreused_loose h hs) hp (by rw [h2]; exact hr)
    exact ⟨c', w', e, hk, .tryExtend h e, C56_built_reads hs (.tryExtend h.built e)⟩
  · intro hr
    have hnp := (scompL k hs).tryExt_np (w := w) h1 hp
    cases e : (scompR k).tryExtend w c s with
    | mk c' t =>
      obtain ⟨t, w'⟩ := t
      rw [e] at hnp
      cases t with
      | err => exact ⟨c', w', rfl, .tryExtendErr h e, C56_built_reads hs (.tryExtendErr h.built e)⟩
      | panic => exact absurd rfl hnp
      | ok =>
        refine absurd ?_ hr
        obtain ⟨i1, i2⟩ := sbuilt_inv (.tryExtend h.built e) hs
        have := sfirm_fits k hs hl i1 ((sfirms k hs).tryExt h1 (sreused_loose h hs) e)
        rwa [i2] at this

/-- C67. `extend` returns only if all items fit, whatever the allocator does. -/
theorem C67_extend_fits (hs : Sound k) (hl : Limits k caps) {c c' : (scompR k).C} {l : List O}
    (h : SReused k c l) {s : Src O} (e : (scompR k).extend c s = (c', .ok)) :
    Fitting k caps (l ++ s.items) := by
  obtain ⟨h1, -⟩ := sbuilt_inv h.built hs
  obtain ⟨i1, i2⟩ := sbuilt_inv (.extend h.built e) hs
  have := sfirm_fits k hs hl i1 ((sfirms k hs).ext h1 (sreused_loose h hs) e)
  rwa [i2] at this

/-- C67. Without lists, `extend` returns exactly if all items fit, and else panics. -/
theorem C67_extend_exact (hs : Sound k) (ha : Accepts k caps) (hl : Limits k caps)
    (hn : NoLists k) {c : (scompR k).C} {l : List O} (h : SReused k c l) {s : Src O}
    (hp : s.panics = false) :
    (Fitting k caps (l ++ s.items) →
      ∃ c', (scompR k).extend c s = (c', .ok) ∧ SReused k c' (l ++ s.items) ∧
        Reads (scompR k).toColl c' (l ++ s.items)) ∧
    (¬ Fitting k caps (l ++ s.items) → ((scompR k).extend c s).2 = .panic) := by
  obtain ⟨h1, h2⟩ := sbuilt_inv h.built hs
  constructor
  · intro hr
    have e : (scompR k).extend c s = (((scompR k).extend c s).1, .ok) := Prod.ext rfl
      ((sloose_grows k hs ha hl hn).ext h1 (sreused_loose h hs) hp (by rw [h2]; exact hr))
    exact ⟨_, e, .extend h e, C56_built_reads hs (.extend h.built e)⟩
  · intro hr
    have hne := (scompL k hs).ext_ne (s := s) h1
    cases e : (scompR k).extend c s with
    | mk c' t =>
      rw [e] at hne
      cases t with
      | ok => exact absurd (C67_extend_fits hs hl h e) hr
      | err => exact absurd rfl hne
      | panic => rfl

/-- C67. A collection that was filled can be emptied and filled again. -/
theorem C67_clear_refill (hs : Sound k) (ha : Accepts k caps) (hl : Limits k caps) {w : World}
    (hw : Kind w) {c : (scompR k).C} {l : List O} (h : SReused k c l) {s : Src O}
    (hp : s.panics = false) (hr : Fitting k caps s.items) :
    ∃ c0 c' w', (scompR k).truncate c 0 = (c0, .ok) ∧
      (scompR k).tryExtend w c0 s = (c', .ok, w') ∧ Kind w' ∧ SReused k c' s.items ∧
        Reads (scompR k).toColl c' s.items := by
  obtain ⟨h1, -⟩ := sbuilt_inv h.built hs
  obtain ⟨c0, e0, -⟩ := (scompL k hs).trunc_ok 0 h1
  have h0 : SReused k c0 [] := by simpa using SReused.truncate h e0
  obtain ⟨c', w', e, hk, hb, hrd⟩ := (C67_try_extend_exact hs ha hl hw h0 hp).1 (by simpa using hr)
  exact ⟨c0, c', w', e0, e, hk, by simpa using hb, by simpa using hrd⟩

/-- C67. Any number of items can be dropped from the end and replaced by as many others,
if these fit. -/
theorem C67_replace (hs : Sound k) (ha : Accepts k caps) (hl : Limits k caps) {w : World}
    (hw : Kind w) {c : (scompR k).C} {l : List O} (h : SReused k c l) (n : Nat) {s : Src O}
    (hp : s.panics = false) :
    ∃ c0, (scompR k).truncate c n = (c0, .ok) ∧
      (Fitting k caps (l.take n ++ s.items) ↔
        ∃ c' w', (scompR k).tryExtend w c0 s = (c', .ok, w') ∧
          Reads (scompR k).toColl c' (l.take n ++ s.items)) := by
  obtain ⟨h1, -⟩ := sbuilt_inv h.built hs
  obtain ⟨c0, e0, -⟩ := (scompL k hs).trunc_ok n h1
  have h0 : SReused k c0 (l.take n) := .truncate h e0
  refine ⟨c0, e0, fun hr => ?_, fun ⟨c', w', e, _⟩ => ?_⟩
  · obtain ⟨c', w', e, -, -, hrd⟩ := (C67_try_extend_exact hs ha hl hw h0 hp).1 hr
    exact ⟨c', w', e, hrd⟩
  · refine Classical.byContradiction fun hn => ?_
    obtain ⟨c2, w2, e2, -⟩ := (C67_try_extend_exact hs ha hl hw h0 hp).2 hn
    rw [e] at e2
    simp at e2

/-- C67. Collecting returns only if the items fit. -/
theorem C67_collect_fits (hs : Sound k) (hl : Limits k caps) {w w' : World} {c : (scompR k).C}
    {s : Src O} (hf : s.Fused) :
    ((scompR k).fromIter w s = (.ok c, w') → Fitting k caps s.items) ∧
    ((scompR k).fromIterIn w s = (.ok c, w') → Fitting k caps s.items) ∧
    ((scompR k).tryFromIter w s = (.ok c, w') → Fitting k caps s.items) := by
  refine ⟨fun e => ?_, fun e => ?_, fun e => ?_⟩
  · obtain ⟨i1, i2⟩ := sbuilt_inv (.fromIter hf e) hs
    have := sfirm_fits k hs hl i1 ((sfirm_tidy k hs).fromIter hf e)
    rwa [i2] at this
  · obtain ⟨i1, i2⟩ := sbuilt_inv (.fromIterIn hf e) hs
    have := sfirm_fits k hs hl i1 ((sfirm_tidy k hs).fromIterIn hf e)
    rwa [i2] at this
  · obtain ⟨i1, i2⟩ := sbuilt_inv (.tryFromIter hf e) hs
    have := sfirm_fits k hs hl i1 ((sfirm_tidy k hs).tryFromIter hf e)
    rwa [i2] at this

/-- C67. What fits beside a reservation (C65) fits, and without lists there is no
difference. -/
theorem C67_room_fits {l : List O} :
    (Room k caps l → Fitting k caps l) ∧ (NoLists k → (Room k caps l ↔ Fitting k caps l)) :=
  ⟨room_fitting k, fun hn => ⟨room_fitting k, fitting_room k hn⟩⟩

/-! ## Numbers of items -/

/-- C67. A `Vec` never holds more than its allocation limit allows. -/
theorem C67_vec {α : Type} (lim : Nat) (d : α) : Limits (.leaf (vecR lim d) (RVec.WF lim) RVec.items) lim :=
  fun _ h => Nat.le_trans h.1 h.2

namespace Backends

theorem kind_limits : Limits kind (1, 4, 4) := ⟨fun _ h => h, fun _ h => h, fun _ h => h⟩

/-- Four bytes of bits. -/
@[reducible] def flags : SComp Bool := .bitmap (slots 4 0#8) (fun c => c.length ≤ 4)

theorem flags_limits : Limits flags 4 := fun _ h => h

theorem held_reused : SReused flags held (List.replicate 32 true) :=
  .bitmapParts (B := slots 4 0#8) (Good := fun c : List Byte => c.length ≤ 4)
    (buffer := [255#8, 255#8, 255#8, 255#8]) (bits := 32) (by decide) rfl

theorem flagLists_sound : Sound flagLists :=
  ⟨slots_honours (by decide) _, rfl, slots_honours (by decide) _⟩

theorem flagLists_accepts : Accepts flagLists (3, 4) :=
  ⟨slots_holds (by decide) _, slots_holds (by decide) _⟩

theorem flagLists_limits : Limits flagLists (3, 4) := ⟨fun _ h => h, fun _ h => h⟩

end Backends

/-- Thirty-two bits, dropped and replaced by thirty-two others; a thirty-third does not
fit. -/
example : ∃ c0 c', (scompR Backends.flags).truncate Backends.held 0 = (c0, .ok) ∧
    (scompR Backends.flags).extend c0 (Src.ofList (List.replicate 32 false)) = (c', .ok) ∧
    Reads (scompR Backends.flags).toColl c' (List.replicate 32 false) ∧
    ((scompR Backends.flags).extend c' [.item true]).2 = .panic ∧
    ∃ c2 w2, (scompR Backends.flags).tryExtend Sample.world c' [.item true] = (c2, .err, w2) ∧
      Reads (scompR Backends.flags).toColl c2 (List.replicate 32 false) := by
  have hs : Sound Backends.flags := Backends.slots_honours (by decide) _
  have ha : Accepts Backends.flags 4 := Backends.slots_holds (by decide) _
  obtain ⟨c0, c', w', e0, -⟩ := C67_clear_refill hs ha Backends.flags_limits Backends.friendly
    Backends.held_reused (s := Src.ofList (List.replicate 32 false)) (by simp)
    (by show (Src.ofList (List.replicate 32 false)).items.length ≤ 32; decide)
  have h0 : SReused Backends.flags c0 [] := .truncate Backends.held_reused e0
  obtain ⟨c', e, hb, hrd⟩ := (C67_extend_exact hs ha Backends.flags_limits trivial h0
    (s := Src.ofList (List.replicate 32 false)) (by simp)).1
    (by show ([] ++ (Src.ofList (List.replicate 32 false)).items).length ≤ 32; decide)
  have hno : ¬ Fitting Backends.flags 4
      ([] ++ (Src.ofList (List.replicate 32 false)).items ++ [true]) := by
    show ¬ _ ≤ 32; decide
  refine ⟨c0, c', e0, e, by simpa using hrd,
    (C67_extend_exact hs ha Backends.flags_limits trivial hb (s := [.item true]) rfl).2 hno, ?_⟩
  obtain ⟨c2, w2, e2, -, h2⟩ := (C67_try_extend_exact hs ha Backends.flags_limits Backends.friendly hb
    (s := [.item true]) rfl).2 hno
  exact ⟨c2, w2, e2, by simpa using h2⟩

/-- Three nullable lists use every offset and every item. A fourth list does not fit, and
after the lists were dropped one with four items does. -/
example : ∃ c, SReused Backends.kind c [some [7#8, 8#8], none, some [9#8, 10#8]] ∧
    (∃ c' w', (scompR Backends.kind).tryExtend Sample.world c [.item none] = (c', .err, w')) ∧
    ∃ c0 c' w', (scompR Backends.kind).truncate c 0 = (c0, .ok) ∧
      (scompR Backends.kind).tryExtend Sample.world c0 [.item (some [1#8, 2#8, 3#8, 4#8])] =
        (c', .ok, w') ∧ Reads (scompR Backends.kind).toColl c' [some [1#8, 2#8, 3#8, 4#8]] := by
  obtain ⟨c, w, -, -, h, -⟩ := (C67_try_extend_exact Backends.kind_sound Backends.kind_accepts
    Backends.kind_limits Backends.friendly .empty
    (s := [.item (some [7#8, 8#8]), .item none, .item (some [9#8, 10#8])]) rfl).1
    ⟨by decide, by decide, by decide, by show 4 ≤ 4; decide⟩
  obtain ⟨c2, w2, e2, -⟩ := (C67_try_extend_exact Backends.kind_sound Backends.kind_accepts
    Backends.kind_limits Backends.friendly h (s := [.item none]) rfl).2
    (fun hf => absurd hf.2.1 (by decide))
  obtain ⟨c0, c', w', e0, e, -, -, hr⟩ := C67_clear_refill Backends.kind_sound Backends.kind_accepts
    Backends.kind_limits Backends.friendly h (s := [.item (some [1#8, 2#8, 3#8, 4#8])]) rfl
    ⟨by decide, by decide, by decide, by show 4 ≤ 4; decide⟩
  exact ⟨c, h, ⟨c2, w2, e2⟩, c0, c', w', e0, e, hr⟩

/-- Lists of flags, where `extend` panics after a drop (C65). -/
example : ∃ c c0, SReused Backends.flagLists c [List.replicate 32 true] ∧
    (scompR Backends.flagLists).truncate c 0 = (c0, .ok) ∧
    (Fitting Backends.flagLists (3, 4) ([List.replicate 32 true].take 0 ++ [[true], [false]]) ↔
      ∃ c' w', (scompR Backends.flagLists).tryExtend Sample.world c0 [.item [true], .item [false]] =
        (c', .ok, w') ∧ Reads (scompR Backends.flagLists).toColl c'
          ([List.replicate 32 true].take 0 ++ [[true], [false]])) := by
  obtain ⟨c, w, -, -, h, -⟩ := (C67_try_extend_exact Backends.flagLists_sound
    Backends.flagLists_accepts Backends.flagLists_limits Backends.friendly .empty
    (s := [.item (List.replicate 32 true)]) rfl).1
    ⟨by decide, by decide, by show _ ≤ 32; decide⟩
  obtain ⟨c0, e0, hr⟩ := C67_replace Backends.flagLists_sound Backends.flagLists_accepts
    Backends.flagLists_limits Backends.friendly h 0 (s := [.item [true], .item [false]]) rfl
  exact ⟨c, c0, h, e0, hr⟩

/-- What was collected fits. -/
example : Fitting Backends.kind (1, 4, 4) Backends.two := by
  obtain ⟨c, w, e, -⟩ := C65_collect_returns Backends.kind_sound Backends.kind_accepts
    (w := Sample.world) Sample.tight (s := Src.ofList Backends.two)
    (by simp [Src.Fused, Src.fuse, Src.ofList, Backends.two]) (by simp)
    (by simpa using Backends.two_fit)
  have := (C67_collect_fits Backends.kind_sound Backends.kind_limits
    (by simp [Src.Fused, Src.fuse, Src.ofList, Backends.two])).1 e
  simpa using this

example : Limits (.leaf (vecR 4 0#8) (RVec.WF 4) RVec.items) 4 := C67_vec 4 _

/-- C67. Why a bitmap has to begin at the first bit of its storage: the bits before it are
never used. Four bytes, of which 24 bits are skipped, take eight bits and not one more. -/
theorem C67_skipped_bits_occupy :
    ∃ b : BitmapOf (List Byte), BitmapOf.tryFromParts (Backends.slots 4 0#8).toBuf
        [255#8, 255#8, 255#8, 255#8] 8 24 = .ok b ∧
      SBuilt Backends.flags b (List.replicate 8 true) ∧
      Fitting Backends.flags 4 (List.replicate 8 true ++ [true]) ∧
      ((bitmapBR (Backends.slots 4 0#8)).extend b [.item true]).2 = .panic ∧
      ((bitmapBR (Backends.slots 4 0#8)).tryExtend Sample.world b [.item true]).2.1 = .err := by
  refine ⟨⟨[255#8, 255#8, 255#8, 255#8], 8, 24⟩, rfl, ?_, by show 9 ≤ 32; decide,
    by with_unfolding_all rfl, by with_unfolding_all rfl⟩
  exact .bitmapParts (B := Backends.slots 4 0#8) (Good := fun c : List Byte => c.length ≤ 4)
    (buffer := [255#8, 255#8, 255#8, 255#8]) (bits := 8) (offset := 24) (by decide) rfl

end Narrow.Props
