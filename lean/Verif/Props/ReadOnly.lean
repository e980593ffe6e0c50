import Verif.Proof.ReadOnly
import Verif.Props.Storages

/-!
# Collections that cannot grow (C58)

The layouts put no condition on their buffers beyond the traits they use. Whatever
collections and storages they are put together from, each layer with its own, they
read as the list their parts describe.
-/

namespace Narrow.Props

open Spec

variable {O : Type} {k : RComp O}

/-- C58. Whatever parts a collection was put together from, reading it shows the list
that the parts describe: length, every index, both iterators. -/
theorem C58_reads (hs : RSound k) {c : (rcompC k).C} {l : List O} (h : RBuilt k c l) :
    Reads (rcompC k) c l :=
  (rbuilt_inv h hs).2 ▸ reads_abs _ (rbuilt_inv h hs).1

/-- C58. What was put together from parts keeps the contract itself, so that it can
again be the part of a collection. -/
theorem C58_keeps_contract (hs : RSound k) :
    HonoursReads (rcompC k) (fun c => ∃ l, RBuilt k c l) (rcompL k hs).abs where
  reads := fun ⟨_, h⟩ => reads_abs _ (rbuilt_inv h hs).1
  size := fun ⟨_, h⟩ => (rcompL k hs).len_le (rbuilt_inv h hs).1

/-! ## Which parts are accepted -/

/-- C58. `Bitmap::try_from_parts` accepts a buffer exactly if it has all the bits. -/
theorem C58_bitmap_parts {B : Buf Byte} {Good : B.C → Prop} (hs : HonoursSlice B Good)
    {buffer : B.C} (h : Good buffer) (bits offset : Nat) :
    (offset + bits ≤ 8 * (B.borrow buffer).length →
      BitmapOf.tryFromParts B buffer bits offset = .ok ⟨buffer, bits, offset⟩) ∧
    (8 * (B.borrow buffer).length < offset + bits →
      BitmapOf.tryFromParts B buffer bits offset =
        .error ⟨offset, bits, (B.borrow buffer).length⟩) := by
  rw [BitmapOf.tryFromParts_eq (L := honoursSlice hs) bits offset h]
  exact ⟨fun h => if_pos h, fun h => if_neg (by
    rw [show (honoursSlice hs).abs buffer = B.borrow buffer from rfl]; omega)⟩

/-- C58. `Flatten::try_from_parts` accepts exactly a positive group size that divides
the length. -/
theorem C58_flatten_parts (hs : RSound k) {c : (rcompC k).C} {l : List O} (h : RBuilt k c l)
    (n : Nat) : Flatten.tryFromParts (rcompC k) n c = .ok (if n = 0 then .error .zeroChunkSize
      else if l.length % n = 0 then .ok ⟨c⟩ else .error (.notMultiple l.length n)) := by
  obtain ⟨h1, h2⟩ := rbuilt_inv h hs
  rw [Flatten.tryFromParts_eq (L := rcompL k hs) n h1, h2]

/-- C58. `Validity::try_from_parts` accepts exactly collections and bitmaps of the
same length. -/
theorem C58_validity_parts {B : Buf Byte} {Good : B.C → Prop}
    (hs : RSound (.validity B Good k)) {c : (rcompC k).C} {l : List O} {b : BitmapOf B.C}
    {bs : List Bool} (hc : RBuilt k c l) (hb : RBuilt (.bitmap B Good) b bs) :
    ValidityOf.tryFromParts (bitmapBC B) (rcompC k) c b =
      .ok (if l.length = bs.length then .ok ⟨c, some b⟩ else .error ⟨l.length, bs.length⟩) := by
  obtain ⟨h1, h2⟩ := rbuilt_inv hc hs.2
  obtain ⟨h3, h4⟩ := rbuilt_inv hb hs.1
  unfold ValidityOf.tryFromParts
  have e1 := (rcompL k hs.2).len_ok h1
  have e2 := (bitmapIL (honoursSlice hs.1)).len_ok h3
  rw [e1, e2, h2, show (bitmapIL (honoursSlice hs.1)).abs b = bs from h4]
  rfl

/-- C58. `Offsets::try_from_parts` accepts exactly valid offsets and reports the first
violation otherwise. -/
theorem C58_offsets_parts (hs : RSound k) {c : (rcompC k).C} {l : List O} {D : Buf Int}
    {offsets : D.C} (hc : RBuilt k c l) :
    (ValidOffsets (D.borrow offsets) l.length →
      OffsetsIn.tryFromParts D (rcompC k) c offsets = .ok (.ok ⟨c, offsets⟩)) ∧
    (¬ ValidOffsets (D.borrow offsets) l.length →
      ∃ e, OffsetsIn.tryFromParts D (rcompC k) c offsets = .ok (.error e) ∧
        FirstViolation (D.borrow offsets) l.length e) := by
  obtain ⟨h1, h2⟩ := rbuilt_inv hc hs
  rw [OffsetsIn.tryFromParts_eq, ← h2]
  constructor
  · intro hv
    rw [Offsets.tryFromParts_valid (L := rcompL k hs) (offsets := ⟨D.borrow offsets, 0⟩) h1 hv]
    rfl
  · intro hv
    obtain ⟨e, he, hf⟩ := Offsets.tryFromParts_invalid (L := rcompL k hs)
      (offsets := ⟨D.borrow offsets, 0⟩) h1 hv
    exact ⟨e, by rw [he]; rfl, hf⟩

/-! ## The storages of the library -/

/-- A storage of the library: it is borrowed as its elements. -/
@[reducible] def storeBuf (st : Store) (α : Type) : Buf α :=
  { st.coll α with borrow := fun l => l }

/-- C58. `Vec`, `Box`, `Rc`, `Arc`, borrowed slices and arrays keep the contract. -/
theorem C58_storages (st : Store) (α : Type) :
    HonoursSlice (storeBuf st α) (fun l => l.length ≤ byteMax) where
  reads h := (C41_storage st _ (Nat.le_trans h byteMax_le)).1
  size h := Nat.le_trans h byteMax_le
  memory h := h

/-! ## A case

Lists of nullable numbers: the numbers in a boxed slice, the validity in a shared
slice starting at its second bit, the offsets in a borrowed slice. -/

namespace Mixed

abbrev Small {α : Type} (l : List α) : Prop := l.length ≤ byteMax

abbrev numbers : RComp Nat := .leaf (storeBuf .box Nat).toColl Small (fun l => l)
abbrev nullable : RComp (Option Nat) := .validity (storeBuf .arc Byte) Small numbers
abbrev lists : RComp (List (Option Nat)) := .offsets (storeBuf .slice Int) Small nullable

theorem sound : RSound lists :=
  ⟨C58_storages _ _, C58_storages _ _, (C58_storages _ _).toHonoursReads⟩

theorem built_nullable : RBuilt nullable ⟨[10, 20, 30], some ⟨[0b1010#8], 3, 1⟩⟩
    [some 10, none, some 30] := by
  have h1 : RBuilt numbers [10, 20, 30] [10, 20, 30] :=
    .leaf (K := (storeBuf .box Nat).toColl) (Good := Small) (held := fun l => l) (c := [10, 20, 30])
      (by decide)
  have h2 : RBuilt (.bitmap (storeBuf .arc Byte) Small) ⟨[0b1010#8], 3, 1⟩ [true, false, true] :=
    .bitmapParts (B := storeBuf .arc Byte) (buffer := [0b1010#8]) (bits := 3) (offset := 1)
      (show Small [0b1010#8] by decide) (by rfl)
  exact .validityParts h1 h2 (by rfl)

theorem built : RBuilt lists ⟨⟨[10, 20, 30], some ⟨[0b1010#8], 3, 1⟩⟩, [0, 2, 2, 3]⟩
    [[some 10, none], [], [some 30]] :=
  .offsetsParts (D := storeBuf .slice Int) (Good := Small) (offsets := [0, 2, 2, 3]) built_nullable
    (by decide) (by rfl)

example : Reads (rcompC lists) ⟨⟨[10, 20, 30], some ⟨[0b1010#8], 3, 1⟩⟩, [0, 2, 2, 3]⟩
    [[some 10, none], [], [some 30]] :=
  C58_reads sound built

/-- The pairs in the view of its first list. -/
abbrev pairs : RComp (FixArr (Option Nat) 2) := .flatten 2 (by decide) (.row nullable)

example : ∃ (v : RowView _) (f : Flatten _),
    (rcompC lists).view ⟨⟨[10, 20, 30], some ⟨[0b1010#8], 3, 1⟩⟩, [0, 2, 2, 3]⟩ 0 = .ok (some v) ∧
      Flatten.tryFromParts (rcompC (.row nullable)) 2 v = .ok (.ok f) ∧
      Reads (rcompC pairs) f [⟨[some 10, none], rfl⟩] := by
  have hv : RBuilt (.row nullable) _ _ := .row (i := 0) (by decide) sound.1 built rfl
  have hf := C58_flatten_parts (k := .row nullable) sound.2 hv 2
  exact ⟨_, _, rfl, hf, C58_reads (k := pairs) sound.2 (.flattenParts hv hf
    ⟨rfl, fun i hi => by match i, hi with | 0, _ => rfl⟩)⟩

end Mixed

end Narrow.Props
