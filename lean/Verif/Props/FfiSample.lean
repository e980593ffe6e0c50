import Verif.Props.Sample
import Verif.Spec.Ffi

/-!
# A concrete case across the C Data Interface

The four items of `Sample.items`, an array of `Option<Vec<Option<[bool; 2]>>>`,
in memory and as C structures. Used by the examples beside the theorems.
-/

namespace Narrow.Props.FfiSample

open Spec Narrow.Ffi Narrow.Ffi.Spec Sample

/-- Validity bits at 8 and 9, boolean values at 10, offsets at 16. -/
def bytes : List (Nat × Byte) :=
  [(8, 13#8), (9, 5#8), (10, 49#8),
   (16, 0#8), (17, 0#8), (18, 0#8), (19, 0#8), (20, 2#8), (21, 0#8), (22, 0#8), (23, 0#8),
   (24, 2#8), (25, 0#8), (26, 0#8), (27, 0#8), (28, 2#8), (29, 0#8), (30, 0#8), (31, 0#8),
   (32, 3#8), (33, 0#8), (34, 0#8), (35, 0#8)]

theorem lookup_high : ∀ (l : List (Nat × Byte)) (p : Nat), (∀ x ∈ l, x.1 < p) → l.lookup p = none
  | [], _, _ => rfl
  | (q, b) :: l, p, h => by
    have h1 := h (q, b) List.mem_cons_self
    have : (p == q) = false := by
      rw [beq_eq_false_iff_ne]; intro e; subst e; exact Nat.lt_irrefl _ h1
    rw [List.lookup_cons, this]
    exact lookup_high l p fun x hx => h x (List.mem_cons_of_mem _ hx)

theorem bytes_low : ∀ x ∈ bytes, x.1 < 36 := by decide

/-- The memory. -/
def mem : Mem where
  byte p := bytes.lookup p
  null := by decide
  high p hp := lookup_high _ _ fun x hx =>
    Nat.lt_of_lt_of_le (bytes_low x hx) (Nat.le_trans (Nat.le_of_ble_eq_true rfl) hp)

/-- The six booleans. -/
def bits : Bitmap := ⟨⟨[49#8], 1⟩, 6, 0⟩

/-- The three pairs, the second of them null. -/
def pairs : (arrayR true (.fsl 2 false .bool)).C :=
  (⟨(⟨bits⟩ : Flatten Bitmap), some ⟨⟨[5#8], 1⟩, 3, 0⟩⟩ : Validity (Flatten Bitmap))

/-- The four lists, the second of them null. -/
def coll : (arrayR true ty).C :=
  (⟨(⟨pairs, ⟨[0, 2, 2, 2, 3], 5⟩⟩ : Offsets (arrayR true (.fsl 2 false .bool)).C),
    some ⟨⟨[13#8], 1⟩, 4, 0⟩⟩ : Validity (Offsets (arrayR true (.fsl 2 false .bool)).C))

/-- Where its buffers are. -/
def place : APlace true ty := (((16, ((10 : Nat), some 9)), some 8) :
  (Nat × (Nat × Option Nat)) × Option Nat)

/-- The structures a producer might hand over. -/
def bitsArray : CArray := ⟨6#64, 0#64, 0#64, 2#64, 0#64, some [0, 10], none, false, some ⟨1, none⟩⟩
def pairsArray : CArray :=
  ⟨3#64, 1#64, 0#64, 1#64, 1#64, some [9], some [some bitsArray], false, some ⟨2, none⟩⟩
def array : CArray :=
  ⟨4#64, 1#64, 0#64, 2#64, 1#64, some [8, 16], some [some pairsArray], false, some ⟨0, some [8, 16, 9, 10]⟩⟩
def bitsSchema : CSchema := ⟨some (bytesOf "b"), some [], false, 0#64, 0#64, none, false, some none⟩
def pairsSchema : CSchema :=
  ⟨some (bytesOf "+w:2"), some [], false, 2#64, 1#64, some [some bitsSchema], false, some (some 3)⟩
def schema : CSchema :=
  ⟨some (bytesOf "+l"), some [], false, 2#64, 1#64, some [some pairsSchema], false, some (some 4)⟩

theorem exportable : Exportable ty := ⟨Nat.le_of_ble_eq_true rfl, trivial⟩

theorem wf : ty.WF := ty_wf

theorem bits_reach : Reach false .bool bits :=
  .bitmapParts (buffer := ⟨[49#8], 1⟩) (bits := 6) (offset := 0)
    ⟨Nat.le_refl _, Nat.le_of_ble_eq_true rfl⟩ rfl

theorem pairs_reach : Reach true (.fsl 2 false .bool) pairs :=
  .validityParts (b := ⟨⟨[5#8], 1⟩, 3, 0⟩) (.flattenParts bits_reach rfl)
    (.bitmapParts (buffer := ⟨[5#8], 1⟩) (bits := 3) (offset := 0)
      ⟨Nat.le_refl _, Nat.le_of_ble_eq_true rfl⟩ rfl) rfl

theorem reach : Reach true ty coll :=
  .validityParts (b := ⟨⟨[13#8], 1⟩, 4, 0⟩)
    (.offsetsParts (ow := .i32) (offsets := ⟨[0, 2, 2, 2, 3], 5⟩) pairs_reach
      ⟨Nat.le_refl _, Nat.le_of_ble_eq_true rfl⟩ (by decide) rfl)
    (.bitmapParts (buffer := ⟨[13#8], 1⟩) (bits := 4) (offset := 0)
      ⟨Nat.le_refl _, Nat.le_of_ble_eq_true rfl⟩ rfl) rfl

theorem inMemory : InMemory mem true ty coll place :=
  ⟨⟨⟨by decide, by decide, by decide⟩, ⟨(by decide : (10 : Nat) ≠ 0), by decide⟩, by decide, by decide⟩, by decide, by decide⟩

theorem zero : ∀ o ∈ bitOffsets true ty coll, o = 0 := by decide

theorem committed : Committed true ty coll :=
  ⟨⟨trivial, fun b hb => by cases hb; rfl⟩, fun b hb => trivial⟩

theorem safe : Safe mem ty true array schema := by
  refine ⟨⟨?_, ?_, ?_, ?_⟩, ?_, ?_⟩
  · intro l h; cases h; decide
  · intro l h; cases h; decide
  · intro l h; cases h; decide
  · intro p _ h _ _; cases h; decide
  · intro p h _ _ _; cases h; decide
  · intro a s h h'
    cases h; cases h'
    refine ⟨⟨?_, ?_, ?_, ?_⟩, ?_⟩
    · intro l h; cases h; decide
    · intro l h; cases h; decide
    · intro l h; cases h; decide
    · intro p _ h _ _; cases h; decide
    · intro a s h h'
      cases h; cases h'
      refine ⟨⟨?_, ?_, ?_, ?_⟩, ?_⟩
      · intro l h; cases h; decide
      · intro l h; cases h
      · intro l h; cases h
      · intro p h; cases h
      · intro p h _ _; cases h; decide

end Narrow.Props.FfiSample
