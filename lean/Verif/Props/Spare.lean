import Verif.Proof.SpareComp
import Verif.Proof.Live
import Verif.Props.Backends

/-!
# Storages written by users are used up to the last slot (C65)

If every collection and storage of a composition takes its number of items, and the
items fit into these numbers, then growing the composition does not panic, and
growing it fallibly does not fail.
-/

namespace Narrow.Props

open Spec

variable {O : Type} {k : SComp O} {caps : Caps k}

/-- C65. `extend` returns if the items fit. -/
theorem C65_extend_returns (hs : Sound k) (ha : Accepts k caps) {c : (scompR k).C} {l : List O}
    (h : SGrown k c l) {s : Src O} (hp : s.panics = false) (hr : Room k caps (l ++ s.items)) :
    ∃ c', (scompR k).extend c s = (c', .ok) ∧ SGrown k c' (l ++ s.items) ∧
      Reads (scompR k).toColl c' (l ++ s.items) := by
  obtain ⟨h1, h2⟩ := sbuilt_inv h.built hs
  have e : (scompR k).extend c s = (((scompR k).extend c s).1, .ok) := Prod.ext rfl
    ((scomp_roomy k hs ha).ext h1 (sgrown_canon h hs) hp (by rw [h2]; exact hr))
  exact ⟨_, e, .extend h e, C56_built_reads hs (.extend h.built e)⟩

/-- C65. `reserve` returns if there is that much space left. -/
theorem C65_reserve_returns (hs : Sound k) (ha : Accepts k caps) {c : (scompR k).C} {l : List O}
    (h : SGrown k c l) {n : Nat} (hr : Spare k caps n l) :
    ∃ c', (scompR k).reserve c n = (c', .ok) ∧ SGrown k c' l := by
  obtain ⟨h1, h2⟩ := sbuilt_inv h.built hs
  have e : (scompR k).reserve c n = (((scompR k).reserve c n).1, .ok) := Prod.ext rfl
    ((scomp_roomy k hs ha).reserve h1 (sgrown_canon h hs) (by rw [h2]; exact hr))
  exact ⟨_, e, .reserve h e⟩

/-- C65. `collect` returns if the items fit. -/
theorem C65_collect_returns (hs : Sound k) (ha : Accepts k caps) {w : World}
    (hw : TightHints w.oracle) {s : Src O} (hf : s.Fused) (hp : s.panics = false)
    (hr : Room k caps s.items) :
    ∃ c w', (scompR k).fromIter w s = (.ok c, w') ∧ SGrown k c s.items ∧
      Reads (scompR k).toColl c s.items := by
  have h1 := (scomp_roomy k hs ha).fromIter hw hf hp hr
  have h2 := (scompL k hs).fromIter_ne w s
  cases e : (scompR k).fromIter w s with
  | mk t w' =>
    rw [e] at h1 h2
    cases t with
    | ok c => exact ⟨c, w', rfl, .fromIter hf e, C56_built_reads hs (.fromIter hf e)⟩
    | err => exact absurd rfl h2
    | panic => exact absurd rfl h1

/-- C65. `from_iter_in` reserves first; it returns if that space is there, too. -/
theorem C65_collect_in_returns (hs : Sound k) (ha : Accepts k caps) {w : World}
    (hw : TightHints w.oracle) {s : Src O} (hf : s.Fused) (hp : s.panics = false)
    (hr : Room k caps s.items) (hc : Spare k caps s.items.length []) :
    ∃ c w', (scompR k).fromIterIn w s = (.ok c, w') ∧ SGrown k c s.items ∧
      Reads (scompR k).toColl c s.items := by
  have h1 := (scomp_roomy k hs ha).fromIterIn hw hf hp hr hc
  have h2 := (scompL k hs).fromIterIn_ne w s
  cases e : (scompR k).fromIterIn w s with
  | mk t w' =>
    rw [e] at h1 h2
    cases t with
    | ok c => exact ⟨c, w', rfl, .fromIterIn hf e, C56_built_reads hs (.fromIterIn hf e)⟩
    | err => exact absurd rfl h2
    | panic => exact absurd rfl h1

/-- C65. `with_capacity` returns if the space is there. -/
theorem C65_with_capacity_returns (hs : Sound k) (ha : Accepts k caps) {n : Nat}
    (hc : Spare k caps n []) :
    ∃ c, (scompR k).withCap n = .ok c ∧ SGrown k c [] ∧ Reads (scompR k).toColl c [] := by
  have h1 := (scomp_roomy k hs ha).withCap hc
  have h2 := (scompL k hs).withCap_ne n
  cases e : (scompR k).withCap n with
  | ok c => exact ⟨c, rfl, .withCap e, C56_built_reads hs (.withCap e)⟩
  | err => exact absurd e h2
  | panic => exact absurd e h1

/-- C65. `try_extend` succeeds if the items fit and the allocator refuses nothing. -/
theorem C65_try_extend_succeeds (hs : Sound k) (ha : Accepts k caps) {w : World} (hw : Kind w)
    {c : (scompR k).C} {l : List O} (h : SGrown k c l) {s : Src O} (hp : s.panics = false)
    (hr : Room k caps (l ++ s.items)) :
    ∃ c' w', (scompR k).tryExtend w c s = (c', .ok, w') ∧ Kind w' ∧ SGrown k c' (l ++ s.items) ∧
      Reads (scompR k).toColl c' (l ++ s.items) := by
  obtain ⟨h1, h2⟩ := sbuilt_inv h.built hs
  obtain ⟨c', w', e, hk⟩ :=
    (scomp_roomy k hs ha).tryExt hw h1 (sgrown_canon h hs) hp (by rw [h2]; exact hr)
  exact ⟨c', w', e, hk, .tryExtend h e, C56_built_reads hs (.tryExtend h.built e)⟩

/-- C65. `try_reserve` succeeds if there is that much space left. -/
theorem C65_try_reserve_succeeds (hs : Sound k) (ha : Accepts k caps) {w : World} (hw : Kind w)
    {c : (scompR k).C} {l : List O} (h : SGrown k c l) {n : Nat} (hr : Spare k caps n l) :
    ∃ c' w', (scompR k).tryReserve w c n = (c', .ok, w') ∧ Kind w' ∧ SGrown k c' l := by
  obtain ⟨h1, h2⟩ := sbuilt_inv h.built hs
  obtain ⟨c', w', e, hk⟩ :=
    (scomp_roomy k hs ha).tryReserve hw h1 (sgrown_canon h hs) (by rw [h2]; exact hr)
  exact ⟨c', w', e, hk, .tryReserve h e⟩

/-- C65. The fallible constructors succeed. -/
theorem C65_try_constructors_succeed (hs : Sound k) (ha : Accepts k caps) {w : World} (hw : Kind w) :
    (∀ {n}, Spare k caps n [] →
      ∃ c w', (scompR k).tryWithCap w n = (.ok c, w') ∧ Kind w' ∧ SGrown k c []) ∧
    (∀ {s : Src O}, s.Fused → s.panics = false → Room k caps s.items →
      Spare k caps s.items.length [] →
      ∃ c w', (scompR k).tryFromIter w s = (.ok c, w') ∧ Kind w' ∧ SGrown k c s.items ∧
        Reads (scompR k).toColl c s.items) := by
  refine ⟨fun hc => ?_, fun hf hp hr hc => ?_⟩
  · obtain ⟨c, w', e, hk⟩ := (scomp_roomy k hs ha).tryWithCap hw hc
    exact ⟨c, w', e, hk, .tryWithCap e⟩
  · obtain ⟨c, w', e, hk⟩ := (scomp_roomy k hs ha).tryFromIter hw hf hp hr hc
    exact ⟨c, w', e, hk, .tryFromIter hf e, C56_built_reads hs (.tryFromIter hf e)⟩

/-- C65. Without lists, space for items is space for a reservation of as many. -/
theorem C65_room_is_spare (hl : NoLists k) (l m : List O) :
    Room k caps (l ++ m) ↔ Spare k caps m.length l :=
  ⟨room_spare k hl, spare_room k hl⟩

/-- C65. Lists of such items fit if there is an offset for each list and one more, and
the items of all lists fit. -/
theorem C65_list_room {ow : OffW} {D : Backing Int} {Good : D.C → Prop} (hs : Sound k)
    (ha : Accepts k caps) (hl : NoLists k) (cap : Nat) (rows : List (List O)) :
    Room (.offsets ow D Good k) (cap, caps) rows ↔
      rows.length + 1 ≤ cap ∧ rows.flatten.length ≤ ow.max ∧ Room k caps rows.flatten := by
  refine ⟨fun h => ⟨h.1, h.2.1, h.2.2.1⟩, fun ⟨h1, h2, h3⟩ => ⟨h1, h2, h3, ?_⟩⟩
  intro before x after e
  refine room_spare k hl ((scomp_roomy k hs ha).pre (m := after.flatten) ?_)
  rw [e] at h3
  simpa using h3

/-! ## Numbers of items -/

/-- C65. A `Vec` takes what its allocation limit allows. -/
theorem C65_vec {α : Type} (lim : Nat) (h : lim ≤ usizeMax) (d : α) :
    Holds (vecR lim d) (RVec.WF lim) RVec.items lim where
  size := h
  withCap hn := RVec.withCap_live hn
  fromIter {w s} ht hf hp hr := (vec_live lim h d).fromIter ht hf hp (by simpa [vecL] using hr)
  fromIterIn {w s} ht hf hp hr := (vec_live lim h d).fromIterIn ht hf hp (by simpa [vecL] using hr)
  extend {c s} hc hp hr := (vecL lim h d).ext_live hc trivial hp (by
    show (c.items ++ s.items).length + 0 ≤ lim
    rw [List.length_append]; omega)
  reserve {c n} hc hr := (vecL lim h d).reserve_live hc trivial hr
  tryWithCap {w n} hw hn := by
    have h1 := (vec_live lim h d).tryWithCap (n := n) hw.1 hw.2 (by simpa [vecL] using hn)
    have h2 := (vecL lim h d).tryWithCap_np w n
    have h3 := (vec_live lim h d).tryWithCap_oracle w n
    cases e : (vecR lim d).tryWithCap w n with
    | mk t w' =>
      rw [e] at h1 h2 h3
      cases t with
      | ok c => exact ⟨c, w', rfl, by unfold Kind; rw [h3]; exact hw⟩
      | err => exact absurd rfl h1
      | panic => exact absurd rfl h2
  tryFromIter {w s} hw hf hp hr := by
    have h1 := (vec_live lim h d).tryFromIter (s := s) hw.1 hw.2 hf (by simpa [vecL] using hr)
    have h2 := (vecL lim h d).tryFromIter_np (w := w) hf hp
    have h3 := (vec_live lim h d).tryFromIter_oracle w s
    cases e : (vecR lim d).tryFromIter w s with
    | mk t w' =>
      rw [e] at h1 h2 h3
      cases t with
      | ok c => exact ⟨c, w', rfl, by unfold Kind; rw [h3]; exact hw⟩
      | err => exact absurd rfl h1
      | panic => exact absurd rfl h2
  tryExtend {w c s} hw hc hp hr := by
    have h1 := (vec_live lim h d).tryExt (s := s) hw.1 hw.2 hc trivial (by
      show (c.items ++ s.items).length + 0 ≤ lim
      rw [List.length_append]; omega)
    have h2 := (vecL lim h d).tryExt_np (w := w) hc hp
    have h3 := (vec_live lim h d).tryExt_oracle (w := w) (s := s) hc
    cases e : (vecR lim d).tryExtend w c s with
    | mk c' t =>
      obtain ⟨t, w'⟩ := t
      rw [e] at h1 h2 h3
      cases t with
      | ok => exact ⟨c', w', rfl, by unfold Kind; rw [h3]; exact hw⟩
      | err => exact absurd rfl h1
      | panic => exact absurd rfl h2
  tryReserve {w c n} hw hc hr := by
    have h1 := (vec_live lim h d).tryReserve (n := n) hw.1 hw.2 hc trivial hr
    have h2 : ((vecR lim d).tryReserve w c n).2.1 ≠ .panic :=
      ((vecL lim h d).tryReserve_ok (w := w) (n := n) hc rfl).2.2.1
    have h3 := (vec_live lim h d).tryReserve_oracle (w := w) (n := n) hc
    cases e : (vecR lim d).tryReserve w c n with
    | mk c' t =>
      obtain ⟨t, w'⟩ := t
      rw [e] at h1 h2 h3
      cases t with
      | ok => exact ⟨c', w', rfl, by unfold Kind; rw [h3]; exact hw⟩
      | err => exact absurd rfl h1
      | panic => exact absurd rfl h2

namespace Backends

/-- An array of `N` slots takes `N` items. -/
theorem slots_holds {α : Type} {N : Nat} (hN : N ≤ byteMax) (d : α) :
    Holds (slots N d).toRealloc (fun c => c.length ≤ N) (slots N d).borrow N where
  size := Nat.le_trans hN byteMax_le
  withCap hn := by simp [slots, hn]
  fromIter _ _ hp hr := by simp [slots, hp, hr]
  fromIterIn _ _ hp hr := by simp [slots, hp, hr]
  extend {c s} _ hp hr := if_pos ⟨hp, by rw [List.length_append]; exact hr⟩
  reserve _ hr := if_pos hr
  tryWithCap {w n} hw hn := ⟨[], w, by simp [slots, hn], hw⟩
  tryFromIter {w s} hw _ hp hr := ⟨s.items, w, by simp [slots, hp, hr], hw⟩
  tryExtend {w c s} hw _ hp hr := by
    refine ⟨c ++ s.items, w, ?_, hw⟩
    have : (c ++ s.items).length ≤ N := by rw [List.length_append]; exact hr
    show (if s.panics then _ else if (c ++ s.items).length ≤ N then _ else _) = _
    rw [if_pos this, hp]; rfl
  tryReserve {w c n} hw _ hr := ⟨c, w, Prod.ext rfl (Prod.ext (if_pos hr) rfl), hw⟩

/-- Nullable lists in one byte of validity, four offsets and four items. -/
theorem kind_accepts : Accepts kind (1, 4, 4) :=
  ⟨slots_holds (by decide) _, Sample.tight, slots_holds (by decide) _, slots_holds (by decide) _⟩

theorem friendly : Kind Sample.world := ⟨Sample.generous, Sample.tight⟩

/-- Two lists. -/
def two : List (Option (List Byte)) := [some [7#8, 8#8], none]

/-- Two lists and a third: every offset and every item is used. -/
theorem three_fit : Room kind (1, 4, 4) (two ++ [some [9#8, 10#8]]) :=
  ⟨by decide, ((C65_list_room kind_sound.2.2.2 kind_accepts.2.2.2 trivial 4
    [[7#8, 8#8], [], [9#8, 10#8]]).2 ⟨by decide, by decide, by show 4 ≤ 4; decide⟩)⟩

theorem two_fit : Room kind (1, 4, 4) two :=
  ⟨by decide, ((C65_list_room kind_sound.2.2.2 kind_accepts.2.2.2 trivial 4
    [[7#8, 8#8], []]).2 ⟨by decide, by decide, by show 2 ≤ 4; decide⟩)⟩

/-- Thirty-two bits. -/
def held : BitmapOf (List Byte) := ⟨[255#8, 255#8, 255#8, 255#8], 32, 0⟩

/-- `Offsets<Bitmap<Slots<4>>, i32, Slots<3>>` -/
def flagLists : SComp (List Bool) :=
  .offsets .i32 (slots 3 0) (fun c => c.length ≤ 3) (.bitmap (slots 4 0#8) (fun c => c.length ≤ 4))

/-- One list of thirty-two flags. -/
def heldLists : (scompR flagLists).C := ⟨held, [0, 32]⟩

/-- Thirty-two bits, dropped. -/
def dropped : BitmapOf (List Byte) := ⟨[255#8, 255#8, 255#8, 255#8], 0, 0⟩

end Backends

/-- Filled to the last offset and the last item in two steps. -/
example : ∃ c, SGrown Backends.kind c (Backends.two ++ [some [9#8, 10#8]]) ∧
    Reads (scompR Backends.kind).toColl c [some [7#8, 8#8], none, some [9#8, 10#8]] := by
  obtain ⟨c, w, -, h, -⟩ := C65_collect_returns Backends.kind_sound Backends.kind_accepts
    (w := Sample.world) Sample.tight (s := Src.ofList Backends.two) (by simp [Src.Fused, Src.fuse, Src.ofList, Backends.two]) (by simp)
    (by simpa using Backends.two_fit)
  rw [Src.items_ofList] at h
  obtain ⟨c', -, h', hr⟩ := C65_extend_returns Backends.kind_sound Backends.kind_accepts h
    (s := [.item (some [9#8, 10#8])]) rfl Backends.three_fit
  exact ⟨c', h', hr⟩

/-- The same, fallibly. -/
example : ∃ c, SGrown Backends.kind c (Backends.two ++ [some [9#8, 10#8]]) ∧
    Reads (scompR Backends.kind).toColl c [some [7#8, 8#8], none, some [9#8, 10#8]] := by
  obtain ⟨c, w, -, hk, h, -⟩ := (C65_try_constructors_succeed Backends.kind_sound
    Backends.kind_accepts Backends.friendly).2 (s := Src.ofList Backends.two) (by simp [Src.Fused, Src.fuse, Src.ofList, Backends.two])
    (by simp) (by simpa using Backends.two_fit) ⟨by decide, by decide, by show 2 ≤ 4; decide⟩
  rw [Src.items_ofList] at h
  obtain ⟨c', w', -, -, h', hr⟩ := C65_try_extend_succeeds Backends.kind_sound Backends.kind_accepts
    hk h (s := [.item (some [9#8, 10#8])]) rfl Backends.three_fit
  exact ⟨c', h', hr⟩

/-- Space for three lists: one offset is always in use. -/
example : (∃ c, (scompR Backends.kind).withCap 3 = .ok c ∧ SGrown Backends.kind c [] ∧
      Reads (scompR Backends.kind).toColl c []) ∧ (scompR Backends.kind).withCap 4 = .panic :=
  ⟨C65_with_capacity_returns Backends.kind_sound Backends.kind_accepts
    ⟨by decide, by decide, by show 3 ≤ 4; decide⟩, by with_unfolding_all rfl⟩

example : ∃ c', (scompR Backends.kind).reserve (scompR Backends.kind).empty 3 = (c', .ok) ∧
    SGrown Backends.kind c' [] :=
  C65_reserve_returns Backends.kind_sound Backends.kind_accepts .empty
    ⟨by decide, by decide, by show 3 ≤ 4; decide⟩

example : ∃ c' w', (scompR Backends.kind).tryReserve Sample.world (scompR Backends.kind).empty 3 =
    (c', .ok, w') ∧ Kind w' ∧ SGrown Backends.kind c' [] :=
  C65_try_reserve_succeeds Backends.kind_sound Backends.kind_accepts Backends.friendly .empty
    ⟨by decide, by decide, by show 3 ≤ 4; decide⟩

example : ∃ c w', (scompR Backends.kind).fromIterIn Sample.world (Src.ofList Backends.two) =
    (.ok c, w') ∧ Reads (scompR Backends.kind).toColl c Backends.two := by
  obtain ⟨c, w, e, -, h⟩ := C65_collect_in_returns Backends.kind_sound Backends.kind_accepts
    (w := Sample.world) Sample.tight (s := Src.ofList Backends.two) (by simp [Src.Fused, Src.fuse, Src.ofList, Backends.two]) (by simp)
    (by simpa using Backends.two_fit) ⟨by decide, by decide, by show 2 ≤ 4; decide⟩
  rw [Src.items_ofList] at h
  exact ⟨c, w, e, h⟩

/-- Eight flags in one byte. -/
example : Room (.bitmap (Backends.slots 1 0#8) (fun c => c.length ≤ 1)) 1 ([] ++ List.replicate 8 true) :=
  (C65_room_is_spare (k := .bitmap (Backends.slots 1 0#8) (fun c => c.length ≤ 1)) (caps := 1)
    trivial [] _).2 (by show 8 ≤ 8; decide)

example : Accepts (.leaf (vecR 4 0#8) (RVec.WF 4) RVec.items) 4 := C65_vec 4 (by decide) _

/-- C65. Why growing is part of the property: a bitmap keeps the bytes of dropped
bits, and `reserve` asks for bytes beside them. A storage of four bytes holds 32 bits,
which are all dropped. Reserving one bit panics, and reserving it fallibly fails, but
adding bits does neither. -/
theorem C65_dropped_bits_occupy :
    Accepts (.bitmap (Backends.slots 4 0#8) (fun c => c.length ≤ 4)) 4 ∧
    SBuilt (.bitmap (Backends.slots 4 0#8) (fun c => c.length ≤ 4)) Backends.held
      (List.replicate 32 true) ∧
    ∃ c, (bitmapBR (Backends.slots 4 0#8)).truncate Backends.held 0 = (c, .ok) ∧
      Spare (.bitmap (Backends.slots 4 0#8) (fun c => c.length ≤ 4)) 4 1 [] ∧
      ((bitmapBR (Backends.slots 4 0#8)).reserve c 1).2 = .panic ∧
      ((bitmapBR (Backends.slots 4 0#8)).tryReserve Sample.world c 1).2.1 = .err ∧
      ((bitmapBR (Backends.slots 4 0#8)).extend c [.item true]).2 = .ok := by
  refine ⟨Backends.slots_holds (by decide) _, ?_, Backends.dropped, by with_unfolding_all rfl,
    by show 1 ≤ 32; decide, by with_unfolding_all rfl, by with_unfolding_all rfl,
    by with_unfolding_all rfl⟩
  exact .bitmapParts (B := Backends.slots 4 0#8) (Good := fun c : List Byte => c.length ≤ 4)
    (buffer := [255#8, 255#8, 255#8, 255#8]) (bits := 32) (offset := 0) (by decide) rfl

/-- C65. Lists of flags reserve for every list that `extend` adds. After all lists
were dropped, one list of one flag does not fit: `extend` panics, although the storages
have room and `try_extend` adds the same list. -/
theorem C65_dropped_lists_occupy :
    ∃ c, ((scompR Backends.flagLists).truncate Backends.heldLists 0) = (c, .ok) ∧
      SBuilt Backends.flagLists Backends.heldLists [List.replicate 32 true] ∧
      Room Backends.flagLists (3, 4) [[true]] ∧
      ((scompR Backends.flagLists).extend c [.item [true]]).2 = .panic ∧
      ((scompR Backends.flagLists).tryExtend Sample.world c [.item [true]]).2.1 = .ok := by
  refine ⟨⟨Backends.dropped, [0]⟩, by with_unfolding_all rfl, ?_, ?_, by with_unfolding_all rfl,
    by with_unfolding_all rfl⟩
  · exact .offsetsParts (D := Backends.slots 3 0) (Good := fun c : List Int => c.length ≤ 3)
      C65_dropped_bits_occupy.2.1 (offsets := [0, 32]) (by decide) (by with_unfolding_all rfl)
  · exact (C65_list_room (k := .bitmap (Backends.slots 4 0#8) (fun c => c.length ≤ 4)) (caps := 4)
      (Backends.slots_honours (by decide) _) (Backends.slots_holds (by decide) _) trivial 3 _).2
      ⟨by decide, by decide, by show 1 ≤ 32; decide⟩

end Narrow.Props
