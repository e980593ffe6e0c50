import Verif.Proof.Part
import Verif.Props.RawExport

/-!
# Many exports at once (C75)

`Session env base h pieces out` (Spec/Session.lean): memory may be `h` after any
number of exports, of arrays whose bytes were `out`, while the consumer stores, moves
and drops structures in any order, takes children out of them or releases these in
place, and the rest of the program allocates. The consumer has `pieces`; `base` is what memory would be without the exports.
-/

namespace Narrow.Props

open Spec Narrow.Ffi Narrow.Ffi.Spec Narrow.Ffi.Raw

section

variable {env : Env} {base h : Heap} {pieces : List Piece} {out : List (List Byte)}

/-- C75. At any time any structure can be dropped, without undefined behaviour, and
dropping one that is released does nothing. -/
theorem C75_drop (hs : Session env base h pieces out) {x : Piece} (hx : x ∈ pieces) :
    ∃ h', x.drop env h = .ok h' ∧ (x.live = false → h' = h) := by
  obtain ⟨_, new, u⟩ := session_usable hs hx
  obtain ⟨h', w, _, _, _, e⟩ := u.drop
  exact ⟨h', w, e⟩

/-- C75. At any time any array can be exported: this succeeds or returns
`NonZeroOffset` as it would by itself, unless the allocator refuses. -/
theorem C75_export (hs : Session env base h pieces out) {x : Item} (hwf : x.t.WF) (hexp : Exportable x.t)
    (hr : Reach x.nl x.t x.c) {m : Mem} {place : APlace x.nl x.t} (hm : InMemory m x.nl x.t x.c place)
    (hP : Provided env base.mem x.nl x.t x.owner.length x.align)
    (hO : Owned base.mem x.nl x.t x.c x.owner x.align x.a) (origin : Nat) :
    exportAt env x.nl x.t x.c x.owner origin x.a h = .abort ∨
    ((∀ o ∈ bitOffsets x.nl x.t x.c, o = 0) ∧ ∃ r, exportAt env x.nl x.t x.c x.owner origin x.a h = .ok r) ∨
    ∃ before o after, bitOffsets x.nl x.t x.c = before ++ o :: after ∧ (∀ o ∈ before, o = 0) ∧ o ≠ 0 ∧
      ∃ h', exportAt env x.nl x.t x.c x.owner origin x.a h = .err (.nonZeroOffset o) h' := by
  obtain ⟨parts, i⟩ := session_divided hs
  exact C74_outcome hwf hexp hr hm (hP.mono i.ext) (hO.mono i.ext) i.tidy

/-- C75. As long as its `ArrowArray` is not released, whatever else was released,
moved or exported, the array is in memory with its buffers, aligned, and so are all
structures of its export. -/
theorem C75_array_stays (hs : Session env base h pieces out) {x : Item} {p : Nat}
    (hx : x.piece true p true ∈ pieces) :
    ∃ q arrayTree schemaTree, BytesAt h.mem q x.owner ∧ q % x.align = 0 ∧ InMemory h.mem x.nl x.t x.c (x.a q) ∧
      (exportArray x.nl x.t x.c (x.a q) 0).result = .ok (.ok (arrayTree, schemaTree)) ∧
      ∀ d, ArrayAt h.mem d p arrayTree := by
  obtain ⟨he, new, u⟩ := session_usable hs hx
  obtain ⟨q, a, s, h1, h2, _, h3⟩ := u.reads rfl he
  exact ⟨q, a, s, (h2 rfl).1, (h2 rfl).2.1, (h2 rfl).2.2, h1, h3 rfl⟩

/-- C75. And its schema, as long as the `ArrowSchema` is not released. -/
theorem C75_schema_stays (hs : Session env base h pieces out) {x : Item} {s : Nat}
    (hx : x.piece false s true ∈ pieces) {q next : Nat} {arrayTree : CArray} {schemaTree : CSchema}
    (he : (exportArray x.nl x.t x.c (x.a q) next).result = .ok (.ok (arrayTree, schemaTree))) (d : Nat) :
    SchemaAt h.mem d s schemaTree := by
  obtain ⟨hext, new, u⟩ := session_usable hs hx
  exact (u.reads rfl hext q next arrayTree schemaTree he).2 rfl d

/-- C75. The same of any `ArrowArray` that is not released, at any depth, whatever
became of the structures above it: it is the structure that the export made for that
depth. If its child was taken out or released, this says nothing of the child. If it is the one
that was exported, it has the array. -/
theorem C75_array_part_stays (hs : Session env base h pieces out) {x : Piece} (hx : x ∈ pieces)
    (live : x.live = true) (array : x.array = true) :
    ∃ q arrayTree schemaTree,
      (exportArray x.item.nl x.item.t x.item.c (x.item.a q) 0).result = .ok (.ok (arrayTree, schemaTree)) ∧
      (x.depth = 0 → BytesAt h.mem q x.item.owner ∧ q % x.item.align = 0 ∧
        InMemory h.mem x.item.nl x.item.t x.item.c (x.item.a q)) ∧
      ArrayFields h.mem x.addr (arrayBelow x.depth arrayTree) ∧
      (x.whole = true → ∀ d, ArrayAt h.mem d x.addr (arrayBelow x.depth arrayTree)) := by
  obtain ⟨he, new, u⟩ := session_usable hs hx
  have := u.reads live he
  rwa [Raw.Reads, if_pos array] at this

/-- C75. And of any `ArrowSchema`. -/
theorem C75_schema_part_stays (hs : Session env base h pieces out) {x : Piece} (hx : x ∈ pieces)
    (live : x.live = true) (schema : x.array = false) {q next : Nat} {arrayTree : CArray} {schemaTree : CSchema}
    (he : (exportArray x.item.nl x.item.t x.item.c (x.item.a q) next).result = .ok (.ok (arrayTree, schemaTree))) :
    SchemaFields h.mem x.addr (schemaBelow x.depth schemaTree) ∧
      (x.whole = true → ∀ d, SchemaAt h.mem d x.addr (schemaBelow x.depth schemaTree)) := by
  obtain ⟨hext, new, u⟩ := session_usable hs hx
  have := u.reads live hext
  rw [Raw.Reads, if_neg (by rw [schema]; nofun)] at this
  exact this _ _ _ _ he

/-- C75. At any time the child can be taken out of a structure that is not released:
its table of children leads to it. -/
theorem C75_take (hs : Session env base h pieces out) {x : Piece} (hx : x ∈ pieces) (live : x.live = true)
    (whole : x.whole = true) {nl : Bool} {t : Ty} (child : childOf x.t = some (nl, t)) :
    ∃ table slot l, Holds h.mem (x.addr + x.children) table ∧ Holds h.mem table slot ∧ l.length = x.size ∧
      BytesAt h.mem slot l := by
  obtain ⟨parts, i⟩ := session_divided hs
  obtain ⟨l1, l2, rfl⟩ := List.append_of_mem hx
  obtain ⟨new, _, i⟩ := i.first List.perm_middle
  obtain ⟨table, slot, l, _, _, _, h1, h2, h3, h4, _⟩ := i.child live whole child
  exact ⟨table, slot, l, h1, h2, h3, h4⟩

/-- C75. Or it can be released where it is, without undefined behaviour. -/
theorem C75_release_child (hs : Session env base h pieces out) {x : Piece} (hx : x ∈ pieces) (live : x.live = true)
    (whole : x.whole = true) {nl : Bool} {t : Ty} (child : childOf x.t = some (nl, t)) :
    ∃ table slot h', Holds h.mem (x.addr + x.children) table ∧ Holds h.mem table slot ∧
      (x.kid nl t slot).drop env h = .ok h' := by
  obtain ⟨parts, i⟩ := session_divided hs
  obtain ⟨l1, l2, rfl⟩ := List.append_of_mem hx
  obtain ⟨new, _, i⟩ := i.first List.perm_middle
  obtain ⟨table, slot, h1, h2, h', w⟩ := i.child_drop live whole child
  exact ⟨table, slot, h', h1, h2, w⟩

/-- C75. So at any time an import from two structures of the same array that are not
released gives back its items. -/
theorem C75_import (hs : Session env base h pieces out) {x : Item} {p s : Nat}
    (hp : x.piece true p true ∈ pieces) (hx : x.piece false s true ∈ pieces) (hwf : x.t.WF) (hexp : Exportable x.t)
    (hr : Reach x.nl x.t x.c) (hz : ∀ o ∈ bitOffsets x.nl x.t x.c, o = 0) (hc : Committed x.nl x.t x.c) :
    ∃ c' a' l, importAt h.mem x.t x.nl p s = .ok (c', a') ∧ Reach x.nl x.t c' ∧ Shows x.nl x.t x.c l ∧
      Shows x.nl x.t c' l := by
  obtain ⟨q, a, st, _, _, him, he, ha⟩ := C75_array_stays hs hp
  exact C73_round_trip hwf hexp hr him hz hc he (ha _) (C75_schema_stays hs hx he _)

/-- C75. Structures taken out of an export of an array, an `ArrowArray` and the
`ArrowSchema` of the same depth, are those of a child of the array. As long as the
buffers of the array are in memory, an import from them gives back the items of that
child, whatever became of the structures above. -/
theorem C75_import_part (hs : Session env base h pieces out) {x y : Piece} (hx : x ∈ pieces) (hy : y ∈ pieces)
    (array : x.array = true) (schema : y.array = false) (liveX : x.live = true) (liveY : y.live = true)
    (wholeX : x.whole = true) (wholeY : y.whole = true) (item : y.item = x.item) (depth : y.depth = x.depth)
    (hwf : x.item.t.WF) (hexp : Exportable x.item.t) (hr : Reach x.item.nl x.item.t x.item.c)
    (hz : ∀ o ∈ bitOffsets x.item.nl x.item.t x.item.c, o = 0) (hc : Committed x.item.nl x.item.t x.item.c) :
    ∃ q arrayTree schemaTree,
      (exportArray x.item.nl x.item.t x.item.c (x.item.a q) 0).result = .ok (.ok (arrayTree, schemaTree)) ∧
      (∀ d, ArrayAt h.mem d x.addr (arrayBelow x.depth arrayTree)) ∧
      (InMemory h.mem x.item.nl x.item.t x.item.c (x.item.a q) →
        ∃ c c' a' l, Part x.item.c x.depth x.nl x.t c ∧ importAt h.mem x.t x.nl x.addr y.addr = .ok (c', a') ∧
          Reach x.nl x.t c' ∧ Shows x.nl x.t c l ∧ Shows x.nl x.t c' l) := by
  obtain ⟨q, a, s, h1, _, _, h2⟩ := C75_array_part_stays hs hx liveX array
  refine ⟨q, a, s, h1, h2 wholeX, fun him => ?_⟩
  have h3 := (C75_schema_part_stays hs hy liveY schema (q := q) (next := 0) (by rw [item]; exact h1)).2 wholeY
  rw [depth] at h3
  obtain ⟨ht', c, a', p1, p2, p3, p4⟩ := part_below (ht := hwf) ⟨hexp, reach_inv hr hwf, him, hz, hc⟩
    (C33_describes hwf hexp hr him h1) (C34_export_points hwf hexp hr him h1) (session_ty hs x hx)
  obtain ⟨c', a', l, g1, g2, g3, g4⟩ := described_imports p2 p3 p4
  exact ⟨c, c', a', l, p1, (C73_imports_structures (h2 wholeX _) (h3 _) (by rw [g1]; nofun)).trans g1, g2, g3, g4⟩

/-- C75. So an import of a child that was taken out gives back the items of that child
as long as the `ArrowArray` it was taken out of is not released, for arrays whose
buffers are elsewhere than in the array itself. -/
theorem C75_import_child (hs : Session env base h pieces out) {x y z : Piece} (hx : x ∈ pieces) (hy : y ∈ pieces)
    (array : x.array = true) (schema : y.array = false) (liveX : x.live = true) (liveY : y.live = true)
    (wholeX : x.whole = true) (wholeY : y.whole = true) (item : y.item = x.item) (depth : y.depth = x.depth)
    (hz : z ∈ pieces) (top : z.depth = 0) (arrayZ : z.array = true) (liveZ : z.live = true) (itemZ : z.item = x.item)
    (elsewhere : ∀ q q', x.item.a q = x.item.a q')
    (hwf : x.item.t.WF) (hexp : Exportable x.item.t) (hr : Reach x.item.nl x.item.t x.item.c)
    (hzero : ∀ o ∈ bitOffsets x.item.nl x.item.t x.item.c, o = 0) (hc : Committed x.item.nl x.item.t x.item.c) :
    ∃ c c' a' l, Part x.item.c x.depth x.nl x.t c ∧ importAt h.mem x.t x.nl x.addr y.addr = .ok (c', a') ∧
      Reach x.nl x.t c' ∧ Shows x.nl x.t c l ∧ Shows x.nl x.t c' l := by
  obtain ⟨q, _, _, _, _, h1⟩ := C75_import_part hs hx hy array schema liveX liveY wholeX wholeY item depth hwf hexp hr hzero hc
  obtain ⟨q', _, _, _, h2, _⟩ := C75_array_part_stays hs hz liveZ arrayZ
  have h3 := (h2 top).2.2
  rw [itemZ, elsewhere q' q] at h3
  exact h1 h3

/-- C75. At any time, the arrays that were dropped, with their bytes intact, and those
of the exported `ArrowArray`s not yet released are exactly the arrays that were
exported: none is dropped twice, early, or not at all. Children hold no array. -/
theorem C75_once (hs : Session env base h pieces out) :
    ∃ D, h.dropped = base.dropped ++ D ∧
      (D.map (·.2) ++ (pieces.filter fun x => x.live && x.array && x.depth == 0).map (·.item.owner)).Perm out := by
  obtain ⟨parts, i⟩ := session_divided hs
  exact i.count

/-- C75. At any time the rest of the program finds its memory, and its blocks, as they
are without the exports. -/
theorem C75_others (hs : Session env base h pieces out) {q : Nat} (hq : base.mem.byte q ≠ none) :
    h.mem.byte q = base.mem.byte q ∧ h.blocks q = base.blocks q := by
  obtain ⟨parts, i⟩ := session_divided hs
  exact i.rest q fun r hr h => hq (i.own r hr q h).1

/-- C75. When all structures are released, nothing is left of the exports: memory
outside the structures and the allocated blocks are as they are without them, and all
exported arrays were dropped once. -/
theorem C75_no_leak (hs : Session env base h pieces out) (hd : ∀ x ∈ pieces, x.live = false) :
    (∀ q, (∀ x ∈ pieces, ¬ InBlock x.addr x.size q) → h.mem.byte q = base.mem.byte q ∧ h.blocks q = base.blocks q) ∧
      ∃ D, h.dropped = base.dropped ++ D ∧ (D.map (·.2)).Perm out := by
  obtain ⟨parts, i⟩ := session_divided hs
  refine ⟨fun q hq => i.rest q fun r hr => ?_, ?_⟩
  · have hm : r.1 ∈ pieces := i.perm.subset (List.mem_map_of_mem hr)
    exact fun h => h.elim (i.dead r hr (hd _ hm) q) (hq _ hm)
  · obtain ⟨D, e1, e2⟩ := i.count
    refine ⟨D, e1, ?_⟩
    rw [List.filter_eq_nil_iff.2 fun x hx => by simp [hd x hx]] at e2
    simpa using e2

end

/-! ## A concrete session -/

namespace SessionSample

/-- Storing bytes in free memory. -/
def store (h : Heap) (p : Nat) (l : List Byte) : Option Heap :=
  if hp : (p ≠ 0 ∧ p + l.length ≤ byteMax) ∧ ∀ i, i < l.length → h.mem.byte (p + i) = none then
    some ⟨put h.mem p l fun _ => hp.1, h.blocks, h.count, h.dropped⟩
  else none

theorem store_placed {h h' : Heap} {p : Nat} {l : List Byte} (hs : store h p l = some h') : Placed h p l h' := by
  unfold store at hs
  split at hs
  · next hp =>
    cases hs
    refine ⟨fun q hq => ?_, put_bytes (h := fun _ => hp.1), fun q hq => put_out (h := fun _ => hp.1) hq, fun _ => rfl, rfl⟩
    have := hp.2 (q - p) (by have := hq.1; have := hq.2; omega)
    rwa [Nat.add_sub_cancel' hq.1] at this
  · cases hs

/-- Giving memory back. -/
def vacate (h : Heap) (p n : Nat) : Heap := ⟨erase h.mem p n, h.blocks, h.count, h.dropped⟩

theorem vacate_vacated (h : Heap) (p n : Nat) : Vacated h p n (vacate h p n) :=
  ⟨fun _ hq => if_pos hq, fun _ hq => if_neg hq, fun _ => rfl, rfl⟩

/-- Six booleans held inline. -/
def bits : Item := ⟨false, .bool, FfiSample.bits, [49#8, 0#8, 0#8, 0#8, 0#8, 0#8, 0#8, 0#8], 8, fun q => q⟩

/-- Nullable lists. -/
def lists : Item := ⟨true, Sample.ty, FfiSample.coll, RawExportSample.owner, 8, fun _ => FfiSample.place⟩

/-- Exporting an array and storing the structures at `p` and `p + 80`. -/
def exportTo (x : Item) (p : Nat) (h : Heap) : Option Heap :=
  (RawExportSample.result (exportAt RawExportSample.env x.nl x.t x.c x.owner 7000 x.a h)).bind fun r =>
  (store r.2 p (arrayBytes r.1.1)).bind fun h => store h (p + 80) (schemaBytes r.1.2)

theorem exportTo_session {base h h' : Heap} {pieces : List Piece} {out : List (List Byte)} {x : Item} {p : Nat}
    (hs : Session RawExportSample.env base h pieces out)
    (hP : Provided RawExportSample.env base.mem x.nl x.t x.owner.length x.align)
    (hO : Owned base.mem x.nl x.t x.c x.owner x.align x.a) (he : exportTo x p h = some h') :
    Session RawExportSample.env base h' (x.piece true p true :: x.piece false (p + 80) true :: pieces) (x.owner :: out) := by
  obtain ⟨⟨⟨array, schema⟩, h1⟩, e1, he⟩ := Option.bind_eq_some_iff.1 he
  obtain ⟨h2, e2, e3⟩ := Option.bind_eq_some_iff.1 he
  refine .exported (origin := 7000) hs hP hO (array := array) (schema := schema) (h1 := h1) ?_ (store_placed e2) (store_placed e3)
  revert e1
  cases exportAt RawExportSample.env x.nl x.t x.c x.owner 7000 x.a h with
  | ok r => exact fun e => by cases e; rfl
  | err e h => nofun
  | panic => nofun
  | abort => nofun
  | ub => nofun

/-- Two exports, from the memory of `RawExportSample`. -/
theorem two : ∃ h, (exportTo bits 5000 RawExportSample.heap).bind (exportTo lists 5160) = some h ∧
    ∀ i, i < 80 → h.mem.byte (6000 + i) = none := by
  have h : ((exportTo bits 5000 RawExportSample.heap).bind (exportTo lists 5160)).any (fun h =>
      (List.range 80).all fun i => (h.mem.byte (6000 + i)).isNone) = true := by decide +kernel
  cases he : (exportTo bits 5000 RawExportSample.heap).bind (exportTo lists 5160) with
  | none => rw [he] at h; cases h
  | some h' =>
    rw [he] at h
    simp only [Option.any_some, List.all_eq_true, List.mem_range, Option.isNone_iff_eq_none] at h
    exact ⟨h', rfl, h⟩

/-- The consumer has both arrays and both schemas. -/
theorem session : ∃ h, Session RawExportSample.env RawExportSample.heap h
    [lists.piece true 5160 true, lists.piece false 5240 true, bits.piece true 5000 true, bits.piece false 5080 true]
    [lists.owner, bits.owner] ∧ ∀ i, i < 80 → h.mem.byte (6000 + i) = none := by
  obtain ⟨h, he, hfree⟩ := two
  obtain ⟨h1, e1, e2⟩ := Option.bind_eq_some_iff.1 he
  have s1 := exportTo_session (x := bits) (.start RawExportSample.tidy) (RawExportSample.provided false .bool)
    RawExportSample.inline e1
  exact ⟨h, exportTo_session (x := lists) s1 (RawExportSample.provided true Sample.ty) RawExportSample.owned e2, hfree⟩

/-- Dropping a piece. -/
theorem drop {base h : Heap} {pieces : List Piece} {out : List (List Byte)} {env : Env}
    (hs : Session env base h pieces out) (x : Piece) (rest : List Piece) (hp : pieces.Perm (x :: rest)) :
    ∃ h', Session env base h' ({ x with live := false } :: rest) out := by
  obtain ⟨h', w, _⟩ := C75_drop hs (hp.symm.subset List.mem_cons_self)
  exact ⟨h', .dropped hs hp w⟩

/-- Moving a piece to free memory. -/
theorem move {base h : Heap} {pieces : List Piece} {out : List (List Byte)} {env : Env}
    (hs : Session env base h pieces out) (x : Piece) (rest : List Piece) (hp : pieces.Perm (x :: rest)) {p : Nat}
    (h0 : p ≠ 0) (hM : p + x.size ≤ byteMax) (hfree : ∀ i, i < x.size → h.mem.byte (p + i) = none) :
    ∃ h', Session env base h' ({ x with addr := p } :: rest) out := by
  have hl : ((List.range x.size).map fun i => (h.mem.byte (x.addr + i)).getD 0#8).length = x.size := by simp
  have hst : store h p ((List.range x.size).map fun i => (h.mem.byte (x.addr + i)).getD 0#8) = some _ :=
    dif_pos ⟨⟨h0, by rw [hl]; exact hM⟩, fun i hi => hfree i (by omega)⟩
  refine ⟨_, .moved hs hp hl (fun i hi => ?_) (store_placed hst) (vacate_vacated _ _ _)⟩
  obtain ⟨parts, d⟩ := session_divided hs
  obtain ⟨new, _, d⟩ := d.first hp
  obtain ⟨b, hb⟩ := Option.ne_none_iff_exists'.1 (d.own _ List.mem_cons_self (x.addr + i)
    (.inr ⟨Nat.le_add_right _ _, Nat.add_lt_add_left (Nat.lt_of_lt_of_eq hi hl) _⟩)).2
  simp [hb]

/-- Taking the child out of a piece, to free memory. -/
theorem take {base h : Heap} {pieces : List Piece} {out : List (List Byte)} {env : Env}
    (hs : Session env base h pieces out) (x : Piece) (rest : List Piece) (hp : pieces.Perm (x :: rest)) {p : Nat}
    {nl : Bool} {t : Ty} (live : x.live = true) (whole : x.whole = true) (child : childOf x.t = some (nl, t))
    (h0 : p ≠ 0) (hM : p + x.size ≤ byteMax) (hfree : ∀ i, i < x.size → h.mem.byte (p + i) = none) :
    ∃ h', Session env base h' ({ x with whole := false } :: x.kid nl t p :: rest) out := by
  obtain ⟨table, slot, l, h1, h2, h3, h4⟩ := C75_take hs (hp.symm.subset List.mem_cons_self) live whole child
  have hst : store h p l = some _ := dif_pos ⟨⟨h0, by omega⟩, fun i hi => hfree i (by omega)⟩
  have hs2 : slot ≠ 0 ∧ slot + x.size ≤ byteMax := by
    have hsz := callback_size x
    constructor
    · rintro rfl
      have := h4 0 (by omega)
      rw [h.mem.null] at this; cases this
    · refine Nat.le_of_not_lt fun hlt => ?_
      have := h4 (x.size - 1) (by omega)
      rw [h.mem.high _ (by omega)] at this; cases this
  have hsz := callback_size x
  let h1' : Heap := ⟨put h.mem p l fun _ => ⟨h0, by omega⟩, h.blocks, h.count, h.dropped⟩
  have hw : wordBytes 0 ≠ [] → slot + x.callback ≠ 0 ∧ slot + x.callback + (wordBytes 0).length ≤ byteMax := fun _ =>
    ⟨by omega, by rw [wordBytes_length]; omega⟩
  refine ⟨⟨put h1'.mem (slot + x.callback) (wordBytes 0) hw, h.blocks, h.count, h.dropped⟩,
    .taken hs hp live whole child h1 h2 h3 h4 (store_placed hst) ⟨⟨by decide, fun i hi => ?_⟩, fun q hq =>
      put_out (h := hw) (by rw [wordBytes_length]; exact hq), fun _ => rfl, rfl⟩⟩
  rw [put_in (h := hw) (by rw [wordBytes_length]; exact hi)]
  simp [wordBytes]

/-- Setting a pointer to null. -/
def setNull (h : Heap) (q : Nat) : Option Heap :=
  if hq : q ≠ 0 ∧ q + (wordBytes 0).length ≤ byteMax then
    some ⟨put h.mem q (wordBytes 0) fun _ => hq, h.blocks, h.count, h.dropped⟩
  else none

/-- Taking the child out of a piece, by reading memory. -/
def takeTo (x : Piece) (p : Nat) (h : Heap) : Option Heap :=
  (RawExportSample.result (readWord h (x.addr + x.children))).bind fun table =>
  (RawExportSample.result (readWord h table)).bind fun slot =>
  (h.mem.read slot x.size).bind fun l => (store h p l).bind fun h => setNull h (slot + x.callback)

theorem takeTo_session {base h h' : Heap} {pieces rest : List Piece} {out : List (List Byte)} {env : Env} {x : Piece}
    {p : Nat} {nl : Bool} {t : Ty} (he : takeTo x p h = some h') (hs : Session env base h pieces out)
    (hp : pieces.Perm (x :: rest)) (live : x.live = true) (whole : x.whole = true) (child : childOf x.t = some (nl, t)) :
    Session env base h' ({ x with whole := false } :: x.kid nl t p :: rest) out := by
  obtain ⟨table, slot, l, h1, h2, h3, h4⟩ := C75_take hs (hp.symm.subset List.mem_cons_self) live whole child
  have h5 := read_bytes h4
  unfold takeTo at he
  rw [readWord_ok h1] at he
  simp only [RawExportSample.result, Option.bind_some] at he
  rw [readWord_ok h2, ← h3] at he
  simp only [Option.bind_some] at he
  rw [h5] at he
  simp only [Option.bind_some] at he
  obtain ⟨h6, e1, e2⟩ := Option.bind_eq_some_iff.1 he
  unfold setNull at e2
  split at e2
  · next hq =>
    cases e2
    refine .taken hs hp live whole child h1 h2 h3 h4 (store_placed e1) ⟨⟨by decide, fun i hi => ?_⟩, fun q hq' =>
      put_out (h := fun _ => hq) (by rw [wordBytes_length]; exact hq'), fun _ => rfl, rfl⟩
    rw [put_in (h := fun _ => hq) (by rw [wordBytes_length]; exact hi)]
    simp [wordBytes]
  · cases e2

/-- Dropping a piece, by running its callback. -/
def dropTo (x : Piece) (h : Heap) : Option Heap := RawExportSample.result (x.drop RawExportSample.env h)

theorem dropTo_session {base h h' : Heap} {pieces rest : List Piece} {out : List (List Byte)} {x : Piece}
    (he : dropTo x h = some h') (hs : Session RawExportSample.env base h pieces out)
    (hp : pieces.Perm (x :: rest)) : Session RawExportSample.env base h' ({ x with live := false } :: rest) out := by
  refine .dropped hs hp ?_
  unfold dropTo at he
  revert he
  cases x.drop RawExportSample.env h with
  | ok h => exact fun e => by cases e; rfl
  | err e h => nofun
  | panic => nofun
  | abort => nofun
  | ub => nofun

/-- Exporting the lists, and taking out the children of both structures. -/
theorem parts : ∃ h, ((exportTo lists 5160 RawExportSample.heap).bind fun h =>
    (takeTo (lists.piece true 5160 true) 6000 h).bind (takeTo (lists.piece false 5240 true) 6080)) = some h := by
  refine Option.isSome_iff_exists.1 ?_
  decide +kernel

/-- Three pairs of booleans, held inline. -/
def pairs : Item :=
  ⟨false, .fsl 2 false .bool, (⟨FfiSample.bits⟩ : Flatten Bitmap), [49#8, 0#8, 0#8, 0#8, 0#8, 0#8, 0#8, 0#8], 8, fun q => q⟩

end SessionSample

/-- The consumer takes the child out of an `ArrowArray` and drops the `ArrowArray`. The
child is still in memory, and dropping it does no harm. But the array was dropped, and
with it the child's buffers (C40). -/
example : ∃ h, Session RawExportSample.env RawExportSample.heap h
    [{ SessionSample.lists.piece true 5160 false with whole := false },
      (SessionSample.lists.piece true 5160 true).kid true (.fsl 2 false .bool) 6000,
      SessionSample.lists.piece false 5240 true, SessionSample.bits.piece true 5000 true,
      SessionSample.bits.piece false 5080 true]
    [SessionSample.lists.owner, SessionSample.bits.owner] ∧
    (∃ arrayTree schemaTree, (exportArray true Sample.ty FfiSample.coll FfiSample.place 0).result =
        .ok (.ok (arrayTree, schemaTree)) ∧ ∀ d, ArrayAt h.mem d 6000 (onlyKid arrayTree)) ∧
    ((SessionSample.lists.piece true 5160 true).kid true (.fsl 2 false .bool) 6000).drop RawExportSample.env h ≠ .ub ∧
    (h.dropped.map (·.2) ++ [SessionSample.bits.owner]).Perm [SessionSample.lists.owner, SessionSample.bits.owner] := by
  obtain ⟨h, hs, hfree⟩ := SessionSample.session
  obtain ⟨h, hs⟩ := SessionSample.take hs (SessionSample.lists.piece true 5160 true) _ (.refl _) (p := 6000) rfl rfl rfl
    (by decide) (Nat.le_of_ble_eq_true rfl) hfree
  obtain ⟨h, hs⟩ := SessionSample.drop hs _ _ (.refl _)
  have hk := List.mem_cons_of_mem { SessionSample.lists.piece true 5160 false with whole := false }
    (List.mem_cons_self (a := (SessionSample.lists.piece true 5160 true).kid true (.fsl 2 false .bool) 6000)
      (l := [SessionSample.lists.piece false 5240 true, SessionSample.bits.piece true 5000 true,
        SessionSample.bits.piece false 5080 true]))
  refine ⟨h, hs, ?_, ?_, ?_⟩
  · obtain ⟨q, a, s, e, _, _, ha⟩ := C75_array_part_stays hs hk rfl rfl
    exact ⟨a, s, e, ha rfl⟩
  · obtain ⟨h', w, _⟩ := C75_drop hs hk
    rw [w]; nofun
  · obtain ⟨D, e1, e2⟩ := C75_once hs
    rw [show h.dropped = D from e1]
    exact e2

/-- The consumer takes the children out of an `ArrowArray` and its `ArrowSchema`, drops the
rest of the schema, and imports the child. -/
example : ∃ h, Session RawExportSample.env RawExportSample.heap h
    [{ SessionSample.lists.piece false 5240 false with whole := false },
      (SessionSample.lists.piece false 5240 true).kid true (.fsl 2 false .bool) 6080,
      { SessionSample.lists.piece true 5160 true with whole := false },
      (SessionSample.lists.piece true 5160 true).kid true (.fsl 2 false .bool) 6000]
    [SessionSample.lists.owner] ∧
    ∃ c c' a' l, Part FfiSample.coll 1 true (.fsl 2 false .bool) c ∧
      importAt h.mem (.fsl 2 false .bool) true 6000 6080 = .ok (c', a') ∧ Reach true (.fsl 2 false .bool) c' ∧
      Shows true (.fsl 2 false .bool) c l ∧ Shows true (.fsl 2 false .bool) c' l := by
  obtain ⟨h, he⟩ := SessionSample.parts
  obtain ⟨h1, e1, he⟩ := Option.bind_eq_some_iff.1 he
  obtain ⟨h2, e2, e3⟩ := Option.bind_eq_some_iff.1 he
  have s1 := SessionSample.exportTo_session (x := SessionSample.lists) (.start RawExportSample.tidy)
    (RawExportSample.provided true Sample.ty) RawExportSample.owned e1
  have s2 := SessionSample.takeTo_session e2 s1 (.refl _) rfl rfl (nl := true) (t := .fsl 2 false .bool) rfl
  have s3 := SessionSample.takeTo_session e3 s2 (rest := [{ SessionSample.lists.piece true 5160 true with whole := false },
    (SessionSample.lists.piece true 5160 true).kid true (.fsl 2 false .bool) 6000])
    (List.perm_append_comm (l₁ := [_, _]) (l₂ := [_])) rfl rfl (nl := true) (t := .fsl 2 false .bool) rfl
  obtain ⟨h, hs⟩ := SessionSample.drop s3 _ _ (.refl _)
  exact ⟨h, hs, C75_import_child hs (x := (SessionSample.lists.piece true 5160 true).kid true (.fsl 2 false .bool) 6000)
    (y := (SessionSample.lists.piece false 5240 true).kid true (.fsl 2 false .bool) 6080)
    (z := { SessionSample.lists.piece true 5160 true with whole := false })
    (by simp) (by simp) rfl rfl rfl rfl rfl rfl rfl rfl (by simp) rfl rfl rfl rfl (fun _ _ => rfl) FfiSample.wf
    FfiSample.exportable FfiSample.reach FfiSample.zero FfiSample.committed⟩

/-- C75. The array must not be released before that: there is a session in which the
child of an array that holds its items inline was taken out, with its schema, and the
`ArrowArray` was dropped. Both structures of the child are in memory, not released,
but reading the buffer they lead to is undefined behaviour (C40). -/
theorem C75_child_dangles : ∃ h, Session RawExportSample.env RawExportSample.heap h
    [{ SessionSample.pairs.piece true 5160 false with whole := false },
      { SessionSample.pairs.piece false 5240 true with whole := false },
      (SessionSample.pairs.piece false 5240 true).kid false .bool 6080,
      (SessionSample.pairs.piece true 5160 true).kid false .bool 6000]
    [SessionSample.pairs.owner] ∧ importAt h.mem .bool false 6000 6080 = .ub := by
  have hx : ((SessionSample.exportTo SessionSample.pairs 5160 RawExportSample.heap).bind fun h =>
      (SessionSample.takeTo (SessionSample.pairs.piece true 5160 true) 6000 h).bind fun h =>
      (SessionSample.takeTo (SessionSample.pairs.piece false 5240 true) 6080 h).bind
      (SessionSample.dropTo { SessionSample.pairs.piece true 5160 true with whole := false })).any (fun h =>
        match importAt h.mem .bool false 6000 6080 with | .ub => true | _ => false) = true := by decide +kernel
  obtain ⟨h, he, hu⟩ := (Option.any_eq_true _ _).1 hx
  obtain ⟨h1, e1, he⟩ := Option.bind_eq_some_iff.1 he
  obtain ⟨h2, e2, he⟩ := Option.bind_eq_some_iff.1 he
  obtain ⟨h3, e3, e4⟩ := Option.bind_eq_some_iff.1 he
  have s1 := SessionSample.exportTo_session (x := SessionSample.pairs) (.start RawExportSample.tidy)
    (RawExportSample.provided false (.fsl 2 false .bool)) RawExportSample.inline e1
  have s2 := SessionSample.takeTo_session e2 s1 (.refl _) rfl rfl (nl := false) (t := .bool) rfl
  have s3 := SessionSample.takeTo_session e3 s2 (rest := [{ SessionSample.pairs.piece true 5160 true with whole := false },
    (SessionSample.pairs.piece true 5160 true).kid false .bool 6000])
    (List.perm_append_comm (l₁ := [_, _]) (l₂ := [_])) rfl rfl (nl := false) (t := .bool) rfl
  refine ⟨h, SessionSample.dropTo_session e4 s3 (List.perm_append_comm (l₁ := [_, _]) (l₂ := [_, _]) |>.trans
    (.cons _ (List.perm_append_comm (l₁ := [_]) (l₂ := [_, _])))), ?_⟩
  revert hu
  cases importAt h.mem .bool false 6000 6080 with
  | ub => exact fun _ => rfl
  | _ => nofun

/-- The consumer releases the child in place, then the `ArrowArray`. -/
example : ∃ h, Session RawExportSample.env RawExportSample.heap h
    [{ SessionSample.lists.piece true 5160 false with whole := false },
      SessionSample.lists.piece false 5240 true, SessionSample.bits.piece true 5000 true,
      SessionSample.bits.piece false 5080 true]
    [SessionSample.lists.owner, SessionSample.bits.owner] := by
  obtain ⟨h, hs, _⟩ := SessionSample.session
  obtain ⟨table, slot, h', h1, h2, w⟩ := C75_release_child hs (x := SessionSample.lists.piece true 5160 true) (.head _) rfl rfl
    (nl := true) (t := .fsl 2 false .bool) rfl
  have hs := Session.disowned hs (.refl _) rfl rfl rfl h1 h2 w
  exact SessionSample.drop hs _ _ (.refl _)

/-- The consumer takes the child out of an `ArrowSchema` and drops the `ArrowSchema`. -/
example : ∃ h, Session RawExportSample.env RawExportSample.heap h
    [{ SessionSample.lists.piece false 5240 false with whole := false },
      (SessionSample.lists.piece false 5240 true).kid true (.fsl 2 false .bool) 6000,
      SessionSample.lists.piece true 5160 true, SessionSample.bits.piece true 5000 true,
      SessionSample.bits.piece false 5080 true]
    [SessionSample.lists.owner, SessionSample.bits.owner] ∧
    ∃ schemaTree : CSchema, ∀ d, SchemaAt h.mem d 6000 (onlyKidSchema schemaTree) := by
  obtain ⟨h, hs, hfree⟩ := SessionSample.session
  obtain ⟨h, hs⟩ := SessionSample.take hs (SessionSample.lists.piece false 5240 true)
    [SessionSample.lists.piece true 5160 true, SessionSample.bits.piece true 5000 true,
      SessionSample.bits.piece false 5080 true] (.swap _ _ _) (p := 6000) rfl rfl rfl
    (by decide) (Nat.le_of_ble_eq_true rfl) fun i hi => hfree i (Nat.lt_trans hi (by decide))
  obtain ⟨h, hs⟩ := SessionSample.drop hs _ _ (.refl _)
  refine ⟨h, hs, ?_⟩
  obtain ⟨q, a, s, _, _, _, he, _⟩ := C75_array_stays hs (x := SessionSample.lists) (p := 5160) (.tail _ (.tail _ (.head _)))
  exact ⟨s, (C75_schema_part_stays hs (x := (SessionSample.lists.piece false 5240 true).kid true (.fsl 2 false .bool) 6000) (.tail _ (.head _)) rfl rfl he).2 rfl⟩

/-- The consumer moves one `ArrowArray`, drops the schema and the array of the other,
and still imports the first. -/
example : ∃ h, Session RawExportSample.env RawExportSample.heap h
    [SessionSample.bits.piece true 5000 false, SessionSample.bits.piece false 5080 false,
      SessionSample.lists.piece true 6000 true, SessionSample.lists.piece false 5240 true]
    [SessionSample.lists.owner, SessionSample.bits.owner] ∧
    ∃ c' a' l, importAt h.mem Sample.ty true 6000 5240 = .ok (c', a') ∧ Reach true Sample.ty c' ∧
      Shows true Sample.ty FfiSample.coll l ∧ Shows true Sample.ty c' l := by
  obtain ⟨h, hs, hfree⟩ := SessionSample.session
  obtain ⟨h, hs⟩ := SessionSample.move hs (SessionSample.lists.piece true 5160 true) _ (.refl _) (p := 6000)
    (by decide) (Nat.le_of_ble_eq_true rfl) hfree
  obtain ⟨h, hs⟩ := SessionSample.drop hs (SessionSample.bits.piece false 5080 true)
    [SessionSample.lists.piece true 6000 true, SessionSample.lists.piece false 5240 true,
      SessionSample.bits.piece true 5000 true] (List.perm_append_comm (l₁ := [_, _, _]) (l₂ := [_]))
  obtain ⟨h, hs⟩ := SessionSample.drop hs (SessionSample.bits.piece true 5000 true)
    [SessionSample.bits.piece false 5080 false, SessionSample.lists.piece true 6000 true,
      SessionSample.lists.piece false 5240 true] (List.perm_append_comm (l₁ := [_, _, _]) (l₂ := [_]))
  exact ⟨h, hs, C75_import hs (x := SessionSample.lists) (by simp) (by simp) FfiSample.wf FfiSample.exportable
    FfiSample.reach FfiSample.zero FfiSample.committed⟩

/-- When all is dropped, and the structures' memory given back, memory is as before. -/
example : ∃ h, Session RawExportSample.env RawExportSample.heap h [] [SessionSample.lists.owner, SessionSample.bits.owner] ∧
    (∀ q, h.mem.byte q = RawExportSample.mem.byte q ∧ h.blocks q = none) ∧
    (h.dropped.map (·.2)).Perm [SessionSample.lists.owner, SessionSample.bits.owner] := by
  obtain ⟨h, hs, _⟩ := SessionSample.session
  obtain ⟨h, hs⟩ := SessionSample.drop hs _ _ (.refl _)
  have hs := Session.vacated hs (.refl _) rfl (SessionSample.vacate_vacated _ _ _)
  obtain ⟨h, hs⟩ := SessionSample.drop hs _ _ (.refl _)
  have hs := Session.vacated hs (.refl _) rfl (SessionSample.vacate_vacated _ _ _)
  obtain ⟨h, hs⟩ := SessionSample.drop hs _ _ (.refl _)
  obtain ⟨h, hs⟩ := SessionSample.drop hs _ _ (.refl _)
  have hs := Session.vacated hs (.refl _) rfl (SessionSample.vacate_vacated _ _ _)
  obtain ⟨h, hs⟩ := SessionSample.drop hs _ _ (.refl _)
  have hs := Session.vacated hs (.refl _) rfl (SessionSample.vacate_vacated _ _ _)
  obtain ⟨h1, D, h2, h3⟩ := C75_no_leak hs nofun
  refine ⟨_, hs, fun q => h1 q nofun, ?_⟩
  rw [h2]
  exact h3

example {h : Heap} {pieces : List Piece} {out : List (List Byte)}
    (hs : Session RawExportSample.env RawExportSample.heap h pieces out) :=
  C75_export (x := SessionSample.lists) hs FfiSample.wf FfiSample.exportable FfiSample.reach RawExportSample.inMemory
    (RawExportSample.provided true Sample.ty) RawExportSample.owned 7000

/-- Failed exports are part of sessions too. -/
example : ∃ h, Session RawExportSample.env RawExportSample.heap h [] [RawExportSample.owner] := by
  obtain ⟨h', he, _⟩ := RawExportSample.pair_fails
  exact ⟨h', .failed (x := ⟨false, .fsl 2 false .bool, RawExportSample.pair, RawExportSample.owner, 8, fun _ => (10 : Nat)⟩)
    (.start RawExportSample.tidy) (RawExportSample.provided false _) RawExportSample.pair_owned he⟩

/-- The schema of the sample, while it is not released. -/
example : ∃ (h : Heap) (schemaTree : CSchema), ∀ d, SchemaAt h.mem d 5240 schemaTree := by
  obtain ⟨h, hs, _⟩ := SessionSample.session
  obtain ⟨q, a, s, _, _, _, he, _⟩ := C75_array_stays hs (x := SessionSample.lists) (p := 5160) (by simp)
  exact ⟨h, s, C75_schema_stays hs (x := SessionSample.lists) (s := 5240) (by simp) he⟩

/-- Dropping the first array leaves one array to be dropped. -/
example : ∃ h D, Session RawExportSample.env RawExportSample.heap h
    [SessionSample.lists.piece true 5160 false, SessionSample.lists.piece false 5240 true,
      SessionSample.bits.piece true 5000 true, SessionSample.bits.piece false 5080 true]
    [SessionSample.lists.owner, SessionSample.bits.owner] ∧ h.dropped = D ∧
    (D.map (·.2) ++ [SessionSample.bits.owner]).Perm [SessionSample.lists.owner, SessionSample.bits.owner] := by
  obtain ⟨h, hs, _⟩ := SessionSample.session
  obtain ⟨h, hs⟩ := SessionSample.drop hs _ _ (.refl _)
  obtain ⟨D, e1, e2⟩ := C75_once hs
  exact ⟨h, D, hs, e1, e2⟩

end Narrow.Props
