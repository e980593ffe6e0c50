import Verif.Model.ValidityBitmap
import Verif.Proof.ReadOnly
import Verif.Props.ReadOnly
import Verif.Props.Backends
import Verif.Props.Nulls

/-!
# Validity queries (C59)

For every implementation of `ValidityBitmap`, whoever wrote it: the queries answer
what the validity flags say.
-/

namespace Narrow.Props

open Spec

/-- The implementation is consistent: it has as many items as flags, and its bitmap,
if any, is one that `Bitmap::try_from_parts` accepts and has the flags as its bits.
Without a bitmap every item is valid. -/
structure Flagged (m : Masked) (flags : List Bool) : Prop where
  len : m.len = .ok flags.length
  none : m.bitmap = none → ∀ f ∈ flags, f = true
  some : ∀ b, m.bitmap = some b → b.buffer.items.length ≤ byteMax ∧
    b.offset + b.bits ≤ 8 * b.buffer.items.length ∧
    flags = (List.range b.bits).map fun i => bit b.buffer.items (b.offset + i)

/-- All queries answer what the flags say. -/
structure Answers (m : Masked) (flags : List Bool) : Prop where
  nullCount : m.nullCount = .ok (flags.count false)
  validCount : m.validCount = .ok (flags.count true)
  isValid : ∀ i, m.isValid i = .ok flags[i]?
  isNull : ∀ i, m.isNull i = .ok (flags[i]?.map (! ·))
  anyNull : m.anyNull = flags.any (! ·)
  allNull : m.allNull = .ok (flags.all (! ·))
  anyValid : m.anyValid = .ok (flags.any id)
  allValid : m.allValid = .ok (flags.all id)

theorem count_split (flags : List Bool) :
    flags.count true + flags.count false = flags.length := by
  induction flags with
  | nil => rfl
  | cons f l ih => cases f <;> simp <;> omega

theorem flagged_inv {m : Masked} {flags : List Bool} (h : Flagged m flags) {b : Bitmap}
    (hb : m.bitmap = some b) :
    b.countOnes = .ok (flags.count true) ∧ b.bits = flags.length ∧
      (∀ i (hi : i < flags.length), b.view i = .ok (some flags[i])) ∧
      Validity.anyUnset (b.bits + 1) b.iter = flags.any (! ·) := by
  obtain ⟨h1, h2, h3⟩ := h.some b hb
  obtain ⟨⟨items, cap⟩, bits, offset⟩ := b
  have hi : (⟨⟨items, items.length⟩, bits, offset⟩ : Bitmap).Inv := ⟨⟨Nat.le_refl _, h1⟩, h2⟩
  have ha : (⟨⟨items, items.length⟩, bits, offset⟩ : Bitmap).abs = flags := by
    rw [h3]
    refine List.map_congr_left fun i _ => ?_
    show bitAt _ _ = bit _ _
    unfold bitAt bit
    rw [List.getD_eq_getElem?_getD]
    split <;> simp_all
  have hl : bits = flags.length := by rw [← ha, Bitmap.abs_length]
  refine ⟨?_, hl, fun i hi' => ?_, ?_⟩
  · exact (Bitmap.countOnes_ok hi).trans (by rw [ha])
  · refine (Bitmap.view_some hi (hl ▸ hi')).trans ?_
    simp only [← ha, Bitmap.abs_getElem]
  · refine (anyUnset_ok (bits + 1) (Bitmap.iter_rep hi) (by simp)).trans (by rw [ha])

/-- C59. For every implementation of `ValidityBitmap` whose length and bitmap are
consistent, all queries answer what the validity flags say, and none panics. -/
theorem C59_queries {m : Masked} {flags : List Bool} (h : Flagged m flags) : Answers m flags := by
  have hs := count_split flags
  have h1 : m.nullCount = .ok (flags.count false) := by
    unfold Masked.nullCount
    cases hb : m.bitmap with
    | none =>
      have : flags.count false = 0 :=
        List.count_eq_zero.mpr fun hf => by have := h.none hb _ hf; cases this
      rw [this]
    | some b =>
      obtain ⟨e1, e2, -⟩ := flagged_inv h hb
      simp only [e1, Res.bind, Bitmap.len, e2, strictSub]
      rw [if_pos (by omega)]
      congr 1
      omega
  have h2 : m.validCount = .ok (flags.count true) := by
    unfold Masked.validCount
    rw [h.len, h1]
    simp only [Res.bind, strictSub]
    rw [if_pos (by omega)]
    congr 1
    omega
  have h3 : ∀ i, m.isValid i = .ok flags[i]? := by
    intro i
    unfold Masked.isValid
    rw [h.len]
    simp only [Res.bind]
    split
    · next hi =>
      rw [List.getElem?_eq_getElem hi]
      cases hb : m.bitmap with
      | none => rw [h.none hb _ (List.getElem_mem hi)]
      | some b => simp only [(flagged_inv h hb).2.2.1 i hi, Res.expect, Res.map]
    · next hi => rw [List.getElem?_eq_none (by omega)]
  have key : ∀ b, (flags.count b == flags.length) = flags.all (· == b) := by
    intro b
    rw [Bool.eq_iff_iff]
    simp only [beq_iff_eq, List.count_eq_length, List.all_eq_true]
    exact ⟨fun h x hx => (h x hx).symm, fun h x hx => (h x hx).symm⟩
  have key2 : ∀ b, (flags.count b != 0) = flags.any (· == b) := by
    intro b
    rw [Bool.eq_iff_iff]
    simp [List.count_eq_zero]
  have e1 : flags.all (! ·) = flags.all (· == false) := by congr 1; funext f; cases f <;> rfl
  have e2 : flags.any id = flags.any (· == true) := by congr 1; funext f; cases f <;> rfl
  have e3 : flags.all id = flags.all (· == true) := by congr 1; funext f; cases f <;> rfl
  refine ⟨h1, h2, h3, fun i => ?_, ?_, ?_, ?_, ?_⟩
  · unfold Masked.isNull; rw [h3]; rfl
  · unfold Masked.anyNull
    cases hb : m.bitmap with
    | none =>
      symm
      rw [List.any_eq_false]
      intro f hf
      rw [h.none hb f hf]
      decide
    | some b => exact (flagged_inv h hb).2.2.2
  · unfold Masked.allNull; rw [h1, h.len, e1, ← key]; rfl
  · unfold Masked.anyValid; rw [h2, e2, ← key2]; rfl
  · unfold Masked.allValid
    rw [h1, e3, ← key]
    simp only [Res.map]
    congr 1
    rw [Bool.eq_iff_iff]
    simp only [beq_iff_eq]
    omega

/-- If the bitmap is shorter than the length says, asking for an item past its end
panics: the answer cannot be wrong. -/
theorem C59_short_bitmap {m : Masked} {b : Bitmap} {n i : Nat} (hl : m.len = .ok n)
    (hb : m.bitmap = some b) (h1 : b.bits ≤ i) (h2 : i < n) : m.isValid i = .panic := by
  unfold Masked.isValid
  rw [hl, hb]
  simp only [Res.bind]
  rw [if_pos h2]
  unfold Bitmap.view
  rw [if_neg (by omega)]
  rfl

/-! ## `Validity` over any storage -/

theorem masked_flags {O : Type} {B : Buf Byte} {K : Coll O} (LB : LawfulBuf B) (L : LawfulColl K)
    {v : ValidityOf K.C (BitmapOf B.C)} (h : ValidityOf.Inv (bitmapIL LB) L v) :
    Flagged (ValidityOf.masked B K v) ((ValidityOf.abs (bitmapIL LB) L v).map Option.isSome) := by
  obtain ⟨c, ob⟩ := v
  refine ⟨?_, ?_, ?_⟩
  · rw [List.length_map]; exact ValidityOf.len_ok h
  · intro hb
    cases ob with
    | none => intro f hf; simp only [ValidityOf.abs, List.map_map, List.mem_map] at hf; obtain ⟨_, -, rfl⟩ := hf; rfl
    | some b => cases hb
  · intro b hb
    cases ob with
    | none => cases hb
    | some b' =>
      cases hb
      obtain ⟨h1, h2⟩ := h.2 b' rfl
      have hw : b'.Within LB := h1
      refine ⟨hw.seen.wf.le_lim, hw.seen.le, ?_⟩
      show (Validity.mask (L.abs c) (b'.seen B).abs).map Option.isSome = _
      refine (mask_isSome (xs := L.abs c) (bs := (b'.seen B).abs) h2).trans ?_
      refine List.map_congr_left fun i _ => ?_
      show bitAt _ _ = bit _ _
      unfold bitAt bit
      rw [List.getD_eq_getElem?_getD]
      split <;> simp_all

/-- C59. All queries of a `Validity` that was put together from parts, over any storage. -/
theorem C59_parts {O : Type} {k : RComp O} {B : Buf Byte} {Good : B.C → Prop}
    (hs : RSound (.validity B Good k)) {v : ValidityOf (rcompC k).C (BitmapOf B.C)}
    {l : List (Option O)} (h : RBuilt (.validity B Good k) v l) :
    Answers (ValidityOf.masked B (rcompC k) v) (l.map Option.isSome) := by
  obtain ⟨h1, h2⟩ := rbuilt_inv h hs
  rw [← h2]
  exact C59_queries (masked_flags (honoursSlice hs.1) (rcompL k hs.2) h1)

/-- C59. All queries of a `Validity` after any history of calls, over any storage. -/
theorem C59_built {O : Type} {k : SComp O} {env : World} {B : Backing Byte} {Good : B.C → Prop}
    (hs : Sound (.validity env B Good k)) {v : ValidityOf (scompR k).C (BitmapOf B.C)}
    {l : List (Option O)} (h : SBuilt (.validity env B Good k) v l) :
    Answers (ValidityOf.masked B.toBuf (scompR k).toColl v) (l.map Option.isSome) := by
  obtain ⟨h1, h2⟩ := sbuilt_inv h hs
  rw [← h2]
  exact C59_queries (masked_flags (honoursB hs.1).buf (scompL k hs.2).toLawfulColl h1)

/-- For the built-in storage these are the queries of C05. -/
theorem C59_same {O : Type} (K : Coll O) (v : Validity K.C) (i : Nat) :
    (v.masked K).nullCount = v.nullCount ∧ (v.masked K).validCount = v.validCount K ∧
      (v.masked K).isValid i = v.isValid K i ∧ (v.masked K).isNull i = v.isNull K i ∧
      (v.masked K).anyNull = v.anyNull ∧ (v.masked K).allNull = v.allNull K ∧
      (v.masked K).anyValid = v.anyValid K ∧ (v.masked K).allValid = v.allValid :=
  ⟨rfl, rfl, rfl, rfl, rfl, rfl, rfl, rfl⟩

/-- The validity of `Mixed`, from the second bit of a shared byte. -/
example : Answers (ValidityOf.masked (storeBuf .arc Byte) (rcompC Mixed.numbers)
    ⟨[10, 20, 30], some ⟨[0b1010#8], 3, 1⟩⟩) [true, false, true] :=
  C59_parts (k := Mixed.numbers) Mixed.sound.2 Mixed.built_nullable

example : Flagged ⟨.ok 3, some ⟨⟨[0b1010#8], 1⟩, 3, 1⟩⟩ [true, false, true] :=
  ⟨rfl, nofun, by rintro _ ⟨⟩; decide⟩

end Narrow.Props
