import Verif.Proof.BackendComp
import Verif.Proof.BackendSame
import Verif.Spec.Parts
import Verif.Props.Sample

/-!
# Storages and collections written by users (C56)

`Buffer` and the collection traits are public. Whatever types a user implements them
for, as long as each of these keeps the contract of its traits, every composition of
the library's layouts over them behaves like a list.
-/

namespace Narrow.Props

open Spec

variable {O : Type} {k : SComp O}

/-- C56. Whatever calls built a collection over storages of the user, reading it shows
the list the same calls build on plain lists. -/
theorem C56_built_reads (hs : Sound k) {c : (scompR k).C} {l : List O} (h : SBuilt k c l) :
    Reads (scompR k).toColl c l :=
  (sbuilt_inv h hs).2 ▸ reads_abs _ (sbuilt_inv h hs).1

/-- C56. `truncate` always returns. -/
theorem C56_truncate_returns (hs : Sound k) {c : (scompR k).C} {l : List O} (h : SBuilt k c l)
    (n : Nat) : ((scompR k).truncate c n).2 = .ok := by
  obtain ⟨c', h1, -⟩ := (scompL k hs).trunc_ok n (sbuilt_inv h hs).1
  rw [h1]

/-- C56. The fallible calls do not panic, unless the source does. -/
theorem C56_fallible_calls_return (hs : Sound k) {c : (scompR k).C} {l : List O}
    (h : SBuilt k c l) (w : World) (n : Nat) {s : Src O} (hp : s.panics = false) :
    ((scompR k).tryReserve w c n).2.1 ≠ .panic ∧ ((scompR k).tryExtend w c s).2.1 ≠ .panic ∧
      ((scompR k).tryWithCap w n).1 ≠ .panic ∧ (s.Fused → ((scompR k).tryFromIter w s).1 ≠ .panic) :=
  ⟨((scompL k hs).tryReserve_ok (sbuilt_inv h hs).1 rfl).2.2.1,
    (scompL k hs).tryExt_np (sbuilt_inv h hs).1 hp,
    (scompL k hs).tryWithCap_np w n, fun hf => (scompL k hs).tryFromIter_np hf hp⟩

/-- C56. A call that returned did not swallow a panic of its source. -/
theorem C56_panics_propagate (hs : Sound k) {c c' : (scompR k).C} {l : List O}
    (h : SBuilt k c l) {s : Src O} :
    ((scompR k).extend c s = (c', .ok) → s.panics = false) ∧
      (∀ w w', (scompR k).tryExtend w c s = (c', .ok, w') → s.panics = false) ∧
      (∀ w w', s.Fused → (scompR k).fromIter w s = (.ok c', w') → s.panics = false) :=
  ⟨fun e => ((scompL k hs).ext_ok (sbuilt_inv h hs).1 e).2.2,
    fun _ _ e => ((scompL k hs).tryExt_ok (sbuilt_inv h hs).1 e).2.2,
    fun _ _ hf e => ((scompL k hs).fromIter_ok hf e).2.2.1⟩

/-- C56. Sources are read up to the first `None`. -/
theorem C56_stops_at_none (hs : Sound k) (w : World) (c : (scompR k).C) (s : Src O) :
    (scompR k).extend c s = (scompR k).extend c s.fuse ∧
      (scompR k).tryExtend w c s = (scompR k).tryExtend w c s.fuse :=
  ⟨(scompL k hs).ext_fuse c s, (scompL k hs).tryExt_fuse w c s⟩

/-- C56. The storages inside of a composition are only ever left in states the user's
own functions produce. -/
theorem C56_storages_stay_good :
    (∀ {B : Backing Byte} {Good} {b : BitmapOf B.C} {l}, HonoursBuf B Good →
      SBuilt (.bitmap B Good) b l → Good b.buffer) ∧
    (∀ {O : Type} {k : SComp O} {env : World} {B : Backing Byte} {Good} {v : ValidityOf _ _} {l},
      Sound (.validity env B Good k) → SBuilt (.validity env B Good k) v l →
      ∀ b, v.bitmap = some b → Good b.buffer) ∧
    (∀ {O : Type} {k : SComp O} {ow : OffW} {D : Backing Int} {Good} {c : OffsetsIn _ _} {l},
      Sound (.offsets ow D Good k) → SBuilt (.offsets ow D Good k) c l → Good c.offsets) := by
  refine ⟨fun hs h => ?_, fun hs h b hb => ?_, fun hs h => ?_⟩
  · exact (sbuilt_inv h hs).1.buf
  · exact ((sbuilt_inv h hs).1.2 b hb).1.buf
  · exact (sbuilt_inv h hs).1.off

/-! ## Parts -/

/-- C56. `Bitmap::try_from_parts` accepts a buffer of any storage exactly if it has
all the bits, and keeps it. -/
theorem C56_bitmap_parts {B : Backing Byte} {Good : B.C → Prop} (hs : HonoursBuf B Good)
    {buffer : B.C} (h : Good buffer) (bits offset : Nat) :
    (offset + bits ≤ 8 * (B.borrow buffer).length →
      BitmapOf.tryFromParts B.toBuf buffer bits offset = .ok ⟨buffer, bits, offset⟩) ∧
    (8 * (B.borrow buffer).length < offset + bits →
      BitmapOf.tryFromParts B.toBuf buffer bits offset =
        .error ⟨offset, bits, (B.borrow buffer).length⟩) := by
  rw [BitmapOf.tryFromParts_eq (L := (honoursB hs).buf) bits offset h]
  exact ⟨fun h => if_pos h, fun h => if_neg (by
    rw [show (honoursB hs).buf.abs buffer = B.borrow buffer from rfl]; omega)⟩

/-- C56. `Validity::try_from_parts` accepts exactly collections and bitmaps of the
same length. -/
theorem C56_validity_parts {env : World} {B : Backing Byte} {Good : B.C → Prop}
    (hs : Sound (.validity env B Good k)) {c : (scompR k).C} {l : List O} {b : BitmapOf B.C}
    {bs : List Bool} (hc : SBuilt k c l) (hb : SBuilt (.bitmap B Good) b bs) :
    ValidityOf.tryFromParts (bitmapBC B.toBuf) (scompR k).toColl c b =
      .ok (if l.length = bs.length then .ok ⟨c, some b⟩ else .error ⟨l.length, bs.length⟩) := by
  obtain ⟨h1, h2⟩ := sbuilt_inv hc hs.2
  obtain ⟨h3, h4⟩ := sbuilt_inv hb hs.1
  unfold ValidityOf.tryFromParts
  have e1 := (scompL k hs.2).len_ok h1
  have e2 := (bitmapBL (honoursB hs.1)).len_ok h3
  rw [e1, e2, h2, show (bitmapBL (honoursB hs.1)).abs b = bs from h4]
  rfl

/-- C56. `Offsets::try_from_parts` accepts exactly valid offsets, in any storage, and
reports the first violation otherwise. -/
theorem C56_offsets_parts (hs : Sound k) {c : (scompR k).C} {l : List O} {D : Backing Int}
    {offsets : D.C} (hc : SBuilt k c l) :
    (ValidOffsets (D.borrow offsets) l.length →
      OffsetsIn.tryFromParts D.toBuf (scompR k).toColl c offsets = .ok (.ok ⟨c, offsets⟩)) ∧
    (¬ ValidOffsets (D.borrow offsets) l.length →
      ∃ e, OffsetsIn.tryFromParts D.toBuf (scompR k).toColl c offsets = .ok (.error e) ∧
        FirstViolation (D.borrow offsets) l.length e) := by
  obtain ⟨h1, h2⟩ := sbuilt_inv hc hs
  rw [OffsetsIn.tryFromParts_eq, ← h2]
  constructor
  · intro hv
    rw [Offsets.tryFromParts_valid (L := (scompL k hs).toLawfulColl)
      (offsets := ⟨D.borrow offsets, 0⟩) h1 hv]
    rfl
  · intro hv
    obtain ⟨e, he, hf⟩ := Offsets.tryFromParts_invalid (L := (scompL k hs).toLawfulColl)
      (offsets := ⟨D.borrow offsets, 0⟩) h1 hv
    exact ⟨e, by rw [he]; rfl, hf⟩

/-! ## List views -/

/-- C56. The view of list `i` is itself a collection: it reads as that list by length,
by index and through both iterators, and converts into that list. Past its end it
returns `None`, unless the position in the data exceeds `usize::MAX`, in which case it
panics: the positions are counted from the total length of the lists before it. -/
theorem C56_list_views {ow : OffW} {D : Backing Int} {Good : D.C → Prop}
    (hs : Sound (.offsets ow D Good k)) {c : OffsetsIn (scompR k).C D.C} {rows : List (List O)}
    (h : SBuilt (.offsets ow D Good k) c rows) {i : Nat} (hi : i < rows.length) :
    ∃ v, (scompR (.offsets ow D Good k)).view c i = .ok (some v) ∧
      Reads (rowViewC (scompR k).toColl) v rows[i] ∧
      RowView.toOwned (scompR k).toColl v = .ok rows[i] ∧
      ∀ j, rows[i].length ≤ j → RowView.view (scompR k).toColl v j =
        if (rows.take i).flatten.length + j ≤ usizeMax then .ok none else .panic := by
  obtain ⟨h1, h2⟩ := sbuilt_inv h hs
  change OffsetsIn.abs (D := D.toBuf) (honoursB hs.1).toLawfulColl (scompL k hs.2.2).toLawfulColl c = rows at h2
  subst h2
  obtain ⟨v, e1, e2⟩ := OffsetsIn.view_rep h1 hi
  have e3 := OffsetsIn.view_eq h1 hi
  have e4 := e1.symm.trans e3
  simp only [Res.ok.injEq, Option.some.injEq] at e4
  refine ⟨v, e1, ?_, RowView.toOwned_ok e2, fun j hj => ?_⟩
  · have := reads_abs (rowViewCL (scompL k hs.2.2).toLawfulColl) (c := v) ⟨_, e2⟩
    rwa [rowView_abs e2] at this
  · have := RowView.view_none e2 hj
    rwa [congrArg RowView.start e4] at this

/-! ## Vectors -/

/-- C56. With vectors as storages every growing call does what C01 to C55 say about
collections of vectors: the same outcome and state, capacities, errors, panics and
requests to the allocator included. -/
theorem C56_vec_same (env : World) (k : Comp O) :
    Same (compR k) (scompR (asStored env k)) (store env k) :=
  store_same env k

/-! ## The contract can be kept -/

/-- C56. `Vec<T>` keeps the contract. -/
theorem C56_vec {α : Type} (lim : Nat) (h : lim ≤ byteMax) (d : α) :
    HonoursBuf (vecB lim d) (RVec.WF lim) where
  reads hc := reads_abs (vecL lim (Nat.le_trans h byteMax_le) d).toLawfulColl hc
  size hc := Nat.le_trans hc.le_lim (Nat.le_trans h byteMax_le)
  empty := ⟨RVec.WF.empty, rfl⟩
  withCap e := have := (vecL lim (Nat.le_trans h byteMax_le) d).withCap_ok e; ⟨this.1, this.2.1⟩
  withCapOnly := (vecL lim (Nat.le_trans h byteMax_le) d).withCap_ne
  tryWithCap e := have := (vecL lim (Nat.le_trans h byteMax_le) d).tryWithCap_ok e; ⟨this.1, this.2.1⟩
  tryWithCapCalm := (vecL lim (Nat.le_trans h byteMax_le) d).tryWithCap_np
  pulled _ := rfl
  fromIter e := by
    simp only [vecR, Prod.mk.injEq] at e
    have := RVec.fromIter_ok e.1
    exact ⟨this.2.2, this.1, this.2.1⟩
  fromIterOnly := (vecL lim (Nat.le_trans h byteMax_le) d).fromIter_ne
  fromIterIn e := by
    simp only [vecR, Prod.mk.injEq] at e
    have := RVec.fromIter_ok e.1
    exact ⟨this.2.2, this.1, this.2.1⟩
  fromIterInOnly := (vecL lim (Nat.le_trans h byteMax_le) d).fromIterIn_ne
  tryFromIter {w w' c s} e := by
    have := (RVec.tryFromIter_spec lim s w).1 c w' e
    exact ⟨this.2.2, this.1, this.2.1⟩
  tryFromIterCalm {w s} hp := (RVec.tryFromIter_spec lim s w).2 hp
  extend hc e := (vecL lim (Nat.le_trans h byteMax_le) d).ext_ok hc e
  extendOnly s hc := (vecL lim (Nat.le_trans h byteMax_le) d).ext_ne s hc
  extendStops := (vecL lim (Nat.le_trans h byteMax_le) d).ext_fuse
  reserve hc e :=
    have := (vecL lim (Nat.le_trans h byteMax_le) d).reserve_ok hc e; ⟨this.1, this.2.1, this.2.2.1⟩
  tryReserve hc e :=
    have := (vecL lim (Nat.le_trans h byteMax_le) d).tryReserve_ok hc e; ⟨this.1, this.2.1, this.2.2.1⟩
  tryExtend hc e := (vecL lim (Nat.le_trans h byteMax_le) d).tryExt_ok hc e
  tryExtendErr hc e := (vecL lim (Nat.le_trans h byteMax_le) d).tryExt_err hc e
  tryExtendCalm hc hp := (vecL lim (Nat.le_trans h byteMax_le) d).tryExt_np hc hp
  tryExtendStops := (vecL lim (Nat.le_trans h byteMax_le) d).tryExt_fuse
  truncate n hc := by
    obtain ⟨c', h1, h2, h3, -⟩ := (vecL lim (Nat.le_trans h byteMax_le) d).trunc_ok n hc
    exact ⟨c', h1, h2, h3⟩
  memory hc := Nat.le_trans hc.le_lim h
  write {c l} hc hl := ⟨⟨by show l.length ≤ c.cap; rw [hl]; exact hc.1, hc.2⟩, rfl⟩

namespace Backends

/-- A storage a user could write: an array of `N` slots and a length, without an
allocator. `extend` fills the slots that are left before it panics. -/
@[reducible] def slots {α : Type} (N : Nat) (d : α) : Backing α where
  C := List α
  V := α
  I := List α
  J := List α
  len c := .ok c.length
  view c i := .ok c[i]?
  toOwned v := .ok v
  iter c := .ok c
  inext it := .ok (it.head?, it.tail)
  ilen it := .ok it.length
  into c := .ok c
  jnext it := .ok (it.head?, it.tail)
  jlen it := .ok it.length
  dflt := d
  empty := []
  pulled s := Src.items s
  withCap n := if n ≤ N then .ok [] else .panic
  fromIter w s := (if s.panics = false ∧ s.items.length ≤ N then .ok s.items else .panic, w)
  fromIterIn w s := (if s.panics = false ∧ s.items.length ≤ N then .ok s.items else .panic, w)
  tryWithCap w n := (if n ≤ N then .ok [] else .err, w)
  tryFromIter w s :=
    (if s.panics then .panic else if s.items.length ≤ N then .ok s.items else .err, w)
  extend c s := ((c ++ s.items).take N,
    if s.panics = false ∧ (c ++ s.items).length ≤ N then .ok else .panic)
  reserve c n := (c, if c.length + n ≤ N then .ok else .panic)
  tryReserve w c n := (c, if c.length + n ≤ N then .ok else .err, w)
  tryExtend w c s :=
    if s.panics then (c, .panic, w)
    else if (c ++ s.items).length ≤ N then (c ++ s.items, .ok, w) else (c, .err, w)
  truncate c n := (c.take n, .ok)
  borrow c := c
  write _ l := l

theorem list_reads {α : Type} (N : Nat) (d : α) (l : List α) : Reads (slots N d).toColl l l := by
  have hit : ∀ (next : List α → Res (Option α × List α)), (∀ it, next it = .ok (it.head?, it.tail)) →
      Iterates next (fun it => .ok it.length) Res.ok l l := by
    intro next hn n
    refine iterates_of (Rep := fun (it : List α) l => it = l) ?_ ?_ ?_ n rfl
    · rintro it rfl; exact ⟨[], hn _, rfl⟩
    · rintro it a r rfl; exact ⟨a, r, hn _, rfl, rfl⟩
    · rintro it r rfl; rfl
  refine ⟨rfl, fun i h => ?_, ⟨l, rfl, hit _ fun _ => rfl⟩, ⟨l, rfl, hit _ fun _ => rfl⟩⟩
  unfold Coll.owned
  simp only [List.getElem?_eq_getElem h]
  rfl

theorem slots_honours {α : Type} {N : Nat} (hN : N ≤ byteMax) (d : α) :
    HonoursBuf (slots N d) (fun c => c.length ≤ N) where
  reads _ := list_reads N d _
  size h := Nat.le_trans h (Nat.le_trans hN byteMax_le)
  empty := ⟨Nat.zero_le _, rfl⟩
  withCap e := by
    simp only [slots] at e
    split at e
    · cases e; exact ⟨Nat.zero_le _, rfl⟩
    · cases e
  withCapOnly n := by simp only [slots]; split <;> simp
  tryWithCap e := by
    simp only [slots, Prod.mk.injEq] at e
    obtain ⟨e, -⟩ := e
    split at e
    · cases e; exact ⟨Nat.zero_le _, rfl⟩
    · cases e
  tryWithCapCalm w n := by simp only [slots]; split <;> simp
  pulled _ := rfl
  fromIter e := by
    simp only [slots, Prod.mk.injEq] at e
    obtain ⟨e, -⟩ := e
    split at e
    · next h => cases e; exact ⟨h.2, rfl, h.1⟩
    · cases e
  fromIterOnly w s := by simp only [slots]; split <;> simp
  fromIterIn e := by
    simp only [slots, Prod.mk.injEq] at e
    obtain ⟨e, -⟩ := e
    split at e
    · next h => cases e; exact ⟨h.2, rfl, h.1⟩
    · cases e
  fromIterInOnly w s := by simp only [slots]; split <;> simp
  tryFromIter e := by
    simp only [slots, Prod.mk.injEq] at e
    obtain ⟨e, -⟩ := e
    split at e
    · cases e
    · next hp =>
      split at e
      · next h => cases e; exact ⟨h, rfl, by simpa using hp⟩
      · cases e
  tryFromIterCalm hp := by simp only [slots, hp]; simp; split <;> simp
  extend h e := by
    simp only [slots, Prod.mk.injEq] at e
    obtain ⟨rfl, e⟩ := e
    split at e
    · next h1 => rw [List.take_of_length_le h1.2]; exact ⟨h1.2, rfl, h1.1⟩
    · cases e
  extendOnly s h := by simp only; split <;> simp
  extendStops c s := by simp only [slots, Src.items_fuse, Src.panics_fuse]
  reserve h e := by
    simp only [slots, Prod.mk.injEq] at e
    obtain ⟨rfl, rfl⟩ := e
    exact ⟨h, rfl, by split <;> simp⟩
  tryReserve h e := by
    simp only [slots, Prod.mk.injEq] at e
    obtain ⟨rfl, rfl, -⟩ := e
    exact ⟨h, rfl, by split <;> simp⟩
  tryExtend h e := by
    simp only [slots] at e
    split at e
    · cases e
    · next hp =>
      split at e
      · next h1 => cases e; exact ⟨h1, rfl, by simpa using hp⟩
      · cases e
  tryExtendErr h e := by
    simp only [slots] at e
    split at e
    · cases e
    · split at e
      · cases e
      · cases e; exact ⟨h, rfl⟩
  tryExtendCalm h hp := by simp only [slots, hp]; simp; split <;> simp
  tryExtendStops w c s := by simp only [slots, Src.items_fuse, Src.panics_fuse]
  truncate {c} n h := ⟨c.take n, rfl, Nat.le_trans (by simp; omega) h, rfl⟩
  memory h := Nat.le_trans h hN
  write h hl := ⟨by rw [hl]; exact h, rfl⟩

/-- `Validity<Offsets<Slots<4, u8>, i32, Slots<4>>, Slots<1>>` -/
def kind : SComp (Option (List Byte)) :=
  .validity Sample.world (slots 1 0#8) (fun c => c.length ≤ 1)
    (.offsets .i32 (slots 4 0) (fun c => c.length ≤ 4)
      (.leaf (slots 4 0#8).toRealloc (fun c => c.length ≤ 4) id))

theorem kind_sound : Sound kind :=
  ⟨slots_honours (by decide) _, slots_honours (by decide) _, rfl, (slots_honours (by decide) _).toHonours⟩

/-- The items `7`, `8` and `9`. -/
theorem data_built : SBuilt (.leaf (slots 4 0#8).toRealloc (fun c => c.length ≤ 4) id) [7#8, 8#8, 9#8]
    [7#8, 8#8, 9#8] := 
  .leaf (R := (slots 4 0#8).toRealloc) (Good := fun c : List Byte => c.length ≤ 4) (held := id)
    (by show 3 ≤ 4; decide)

/-- The lists of three offsets. -/
theorem rows_built : SBuilt (.offsets .i32 (slots 4 0) (fun c => c.length ≤ 4)
      (.leaf (slots 4 0#8).toRealloc (fun c => c.length ≤ 4) id)) ⟨[7#8, 8#8, 9#8], [0, 2, 2, 3]⟩
    [[7#8, 8#8], [], [9#8]] :=
  .offsetsParts (D := slots 4 0) (Good := fun c : List Int => c.length ≤ 4) data_built
    (offsets := [0, 2, 2, 3]) (by decide) rfl

/-- Bits from offset 4 of the byte `0x50`. -/
theorem bits_built : SBuilt (.bitmap (slots 1 0#8) (fun c => c.length ≤ 1)) ⟨[0x50#8], 3, 4⟩
    [true, false, true] :=
  .bitmapParts (B := slots 1 0#8) (Good := fun c : List Byte => c.length ≤ 1) (buffer := [0x50#8])
    (bits := 3) (offset := 4) (by decide) rfl

/-- The lists `[7, 8]`, `[]` and `[9]`, the second one null: bits from offset 4 of
the byte `0x50`. -/
def start : (scompR kind).C := ⟨⟨[7#8, 8#8, 9#8], [0, 2, 2, 3]⟩, some ⟨[0x50#8], 3, 4⟩⟩

theorem start_built : SBuilt kind start [some [7#8, 8#8], none, some [9#8]] :=
  .validityParts rows_built bits_built rfl

/-- A fourth list does not fit in four offsets: `try_extend` reports an error. -/
theorem full : ∃ c w, (scompR kind).tryExtend Sample.world start [.item (some [1#8])] = (c, .err, w) :=
  ⟨_, _, Prod.ext rfl (Prod.ext (by decide +kernel) rfl)⟩

/-- After `truncate` there is room for a list again. -/
theorem room : ∃ c c' w, (scompR kind).truncate start 2 = (c, .ok) ∧
    (scompR kind).tryExtend Sample.world c [.item (some [1#8])] = (c', .ok, w) := 
  ⟨_, _, _, rfl, Prod.ext rfl (Prod.ext (by decide +kernel) rfl)⟩

end Backends

/-- Built from parts, grown beyond its room, truncated and grown again. -/
example : ∃ c, SBuilt Backends.kind c [some [7#8, 8#8], none, some [1#8]] ∧
    Reads (scompR Backends.kind).toColl c [some [7#8, 8#8], none, some [1#8]] := by
  obtain ⟨c1, w1, e1⟩ := Backends.full
  obtain ⟨c, c', w, e2, e3⟩ := Backends.room
  have h := SBuilt.tryExtend (.truncate Backends.start_built e2) e3
  exact ⟨c', h, C56_built_reads Backends.kind_sound h⟩

/-- The first of three lists: two elements, and `None` at position 2 although the data
has a third element. -/
example : ∃ v, (offsetsBC (Backends.slots 4 0).toBuf (Backends.slots 4 0#8).toColl).view
      ⟨[7#8, 8#8, 9#8], [0, 2, 2, 3]⟩ 0 = .ok (some v) ∧
    Reads (rowViewC (Backends.slots 4 0#8).toColl) v [7#8, 8#8] ∧
    RowView.view (Backends.slots 4 0#8).toColl v 2 = .ok none := by
  obtain ⟨v, h1, h2, -, h3⟩ := C56_list_views Backends.kind_sound.2 Backends.rows_built (i := 0)
    (by decide)
  exact ⟨v, h1, h2, (h3 2 (by decide)).trans (if_pos (by decide))⟩

example : BitmapOf.tryFromParts (Backends.slots 2 0#8).toBuf [1#8, 2#8] 13 3 =
    .ok ⟨[1#8, 2#8], 13, 3⟩ :=
  (C56_bitmap_parts (Backends.slots_honours (by decide) _) (buffer := [1#8, 2#8]) (by decide) 13 3).1
    (by decide)

/-- One bit too many. -/
example : BitmapOf.tryFromParts (Backends.slots 2 0#8).toBuf [1#8, 2#8] 14 3 = .error ⟨3, 14, 2⟩ :=
  (C56_bitmap_parts (Backends.slots_honours (by decide) _) (buffer := [1#8, 2#8]) (by decide) 14 3).2
    (by decide)

example : ValidityOf.tryFromParts (bitmapBC (Backends.slots 1 0#8).toBuf) _ Backends.start.coll
    ⟨[0x50#8], 3, 4⟩ = .ok (.ok Backends.start) :=
  C56_validity_parts Backends.kind_sound Backends.rows_built Backends.bits_built

/-- Offsets beyond the data. -/
example : ∃ e, OffsetsIn.tryFromParts (Backends.slots 2 0).toBuf (Backends.slots 4 0#8).toColl
    [7#8, 8#8, 9#8] [0, 4] = .ok (.error e) := by
  obtain ⟨e, h, -⟩ := (C56_offsets_parts (D := Backends.slots 2 0) (offsets := [0, 4])
    Backends.kind_sound.2.2.2 Backends.data_built).2 (fun h => absurd (show (4 : Int) ≤ 3 from h.bounded) (by decide))
  exact ⟨e, h⟩

/-- The state a failed reservation leaves agrees, too. -/
example (c : (compR (.validity (.offsets .i32 .bitmap))).C) (n : Nat) :
    ((scompR (asStored Sample.world (.validity (.offsets .i32 .bitmap)))).tryReserve Sample.hostile
      (store Sample.world (.validity (.offsets .i32 .bitmap)) c) n).2.1 =
    ((compR (.validity (.offsets .i32 .bitmap))).tryReserve Sample.hostile c n).2.1 := by
  rw [(C56_vec_same Sample.world (.validity (.offsets .i32 .bitmap))).tryReserve]

/-- A failed `try_extend` leaves the items. -/
example : ∃ c w, (scompR Backends.kind).tryExtend Sample.world Backends.start [.item (some [1#8])] =
    (c, .err, w) ∧ Reads (scompR Backends.kind).toColl c [some [7#8, 8#8], none, some [9#8]] := by
  obtain ⟨c, w, e⟩ := Backends.full
  exact ⟨c, w, e, C56_built_reads Backends.kind_sound (.tryExtendErr Backends.start_built e)⟩

example (n : Nat) : ((scompR Backends.kind).truncate Backends.start n).2 = .ok :=
  C56_truncate_returns Backends.kind_sound Backends.start_built n

example : ((scompR Backends.kind).tryExtend Sample.hostile Backends.start
    [.item none, .none, .item none]).2.1 ≠ .panic :=
  (C56_fallible_calls_return Backends.kind_sound Backends.start_built _ 0 rfl).2.1

example : (scompR Backends.kind).extend Backends.start [.none, .panic] =
    (scompR Backends.kind).extend Backends.start [] :=
  (C56_stops_at_none Backends.kind_sound Sample.world _ _).1

/-- A panicking source: `extend` does not return. -/
example : ((scompR Backends.kind).extend Backends.start [.item none, .panic]).2 ≠ .ok := fun h =>
  absurd ((C56_panics_propagate Backends.kind_sound Backends.start_built
    (s := [.item none, .panic])).1 (Prod.ext rfl h)) (by decide)

example : (fun c : List Int => c.length ≤ 4) (Backends.start.coll.offsets) :=
  C56_storages_stay_good.2.2 Backends.kind_sound.2 Backends.rows_built

example : HonoursBuf (vecB byteMax 0#8) (RVec.WF byteMax) := C56_vec _ (Nat.le_refl _) _

end Narrow.Props
