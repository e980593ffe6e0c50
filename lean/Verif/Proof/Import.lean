import Verif.Proof.Ffi
import Verif.Proof.Parts
import Verif.Proof.Reach

/-! # What the importer accepts -/

namespace Narrow.Ffi

open Narrow.Ffi.Spec Narrow.Spec

/-! ## Common validation -/

/-- What the common validation establishes, `n` being the length. -/
structure Valid (nl : Bool) (t : Ty) (array : CArray) (schema : CSchema) (n : Nat) : Prop where
  live : array.release ≠ none
  schemaLive : schema.release ≠ none
  format : ∃ f, schema.format = some f ∧ FormatOf t f
  flags : schema.flags.getLsbD 1 = nl
  length : array.length.toInt = n
  offset : array.offset.toInt = 0
  nulls : -1 ≤ array.nullCount.toInt ∧ array.nullCount.toInt ≤ n
  nonNull : nl = false → array.nullCount.toInt ≤ 0
  nBuffers : array.nBuffers.toInt = (buffersIn t : Int)
  nChildren : array.nChildren.toInt = (childrenIn t : Int)
  nSchemas : schema.nChildren.toInt = (childrenIn t : Int)
  dictionary : array.dictionary = false
  schemaDictionary : schema.dictionary = false
  buffers : array.buffers ≠ none
  children : childTy t ≠ none → array.children ≠ none
  schemas : childTy t ≠ none → schema.children ≠ none

theorem Valid.toNat {nl t array schema n} (h : Valid nl t array schema n) : array.length.toNat = n := by
  have := toInt_nonneg (i := array.length) (by rw [h.length]; omega)
  have := h.length; omega

theorem Valid.le {nl t array schema n} (h : Valid nl t array schema n) : n ≤ i64Max := by
  have := toInt_nonneg (i := array.length) (by rw [h.length]; omega)
  have := h.toNat; omega

theorem Valid.nonneg {nl t array schema n} (h : Valid nl t array schema n) : 0 ≤ array.length.toInt := by
  rw [h.length]; omega

theorem bufferCount_toInt (t : Ty) : (bufferCount t).toInt = (buffersIn t : Int) := by cases t <;> rfl

theorem childCount_toInt (t : Ty) : (childCount t).toInt = (childrenIn t : Int) := by cases t <;> rfl

theorem bufferCount_ne (t : Ty) : bufferCount t ≠ 0#64 := by cases t <;> simp [bufferCount]

theorem childCount_ne (t : Ty) : childCount t ≠ 0#64 ↔ childTy t ≠ none := by
  cases t <;> simp [childCount, childTy]

theorem firstChild_none {array : CArray} (h : array.children = none) : firstChild array = none := by
  simp [firstChild, h]

theorem firstSchema_none {schema : CSchema} (h : schema.children = none) : firstSchema schema = none := by
  simp [firstSchema, h]

theorem expectedFlags_eq (nl : Bool) : expectedFlags nl = 0#64 ↔ nl = false := by
  cases nl <;> simp [expectedFlags, flagNullable]

/-- The common validation fails with a documented error, or establishes `Valid`. -/
theorem validate_cases (m : Mem) {nl : Bool} {t : Ty} (ht : Exportable t) (array : CArray)
    (schema : CSchema) :
    (∃ n, validate nl t array schema = .ok n ∧ Valid nl t array schema n) ∨
    (∃ e, validate nl t array schema = .error e ∧ Defect m t nl array schema e) := by
  unfold validate
  by_cases h1 : array.isReleased = true
  · rw [if_pos h1]; exact .inr ⟨_, rfl, .releasedArray (by simpa [CArray.isReleased] using h1)⟩
  rw [if_neg h1]
  by_cases h2 : schema.isReleased = true
  · rw [if_pos h2]; exact .inr ⟨_, rfl, .releasedSchema (by simpa [CSchema.isReleased] using h2)⟩
  rw [if_neg h2]
  cases hf : schema.format with
  | none => exact .inr ⟨_, rfl, .missingFormat hf⟩
  | some f =>
  dsimp only
  by_cases h3 : (!matchesFormat t f) = true
  · rw [if_pos h3]
    exact .inr ⟨_, rfl, .unexpectedFormat hf (by rw [← matchesFormat_iff ht]; simpa using h3)⟩
  rw [if_neg h3]
  by_cases h4 : schema.flags &&& flagNullable ≠ expectedFlags nl
  · rw [if_pos h4]; exact .inr ⟨_, rfl, .unexpectedFlags (fun h' => h4 ((flags_ok _ _).2 h'))⟩
  rw [if_neg h4]
  cases hn : toUsize array.length with
  | none => exact .inr ⟨_, rfl, .invalidLength (toUsize_none.1 hn)⟩
  | some n =>
  rw [toUsize_some] at hn
  dsimp only
  by_cases h5 : array.offset ≠ 0#64
  · rw [if_pos h5]; exact .inr ⟨_, rfl, .nonZeroOffset (fun h' => h5 (i64_ext.2 h'))⟩
  rw [if_neg h5]
  by_cases h6 : array.nullCount.toInt < -1 ∨ array.nullCount.toInt > array.length.toInt ∨
      (expectedFlags nl = 0#64 ∧ array.nullCount.toInt > 0)
  · rw [if_pos h6]
    exact .inr ⟨_, rfl, .unexpectedNullCount (by rw [expectedFlags_eq] at h6; exact h6)⟩
  rw [if_neg h6]
  by_cases h7 : array.nBuffers ≠ bufferCount t
  · rw [if_pos h7]
    exact .inr ⟨_, rfl, .unexpectedBufferCount (fun h' => h7 (i64_ext.2 (by rw [h', bufferCount_toInt])))⟩
  rw [if_neg h7]
  by_cases h8 : array.nChildren ≠ childCount t ∨ schema.nChildren ≠ childCount t
  · rw [if_pos h8]
    refine .inr ⟨_, rfl, .unexpectedChildCount ?_⟩
    rw [← childCount_toInt]
    exact h8.imp (fun h h' => h (i64_ext.2 h')) (fun h h' => h (i64_ext.2 h'))
  rw [if_neg h8]
  by_cases h9 : array.dictionary = true ∨ schema.dictionary = true
  · rw [if_pos h9]; exact .inr ⟨_, rfl, .unexpectedDictionary h9⟩
  rw [if_neg h9]
  by_cases h10 : bufferCount t ≠ 0#64 ∧ array.buffers.isNone = true
  · rw [if_pos h10]; exact .inr ⟨_, rfl, .missingBufferPointers (by simpa using h10.2)⟩
  rw [if_neg h10]
  by_cases h11 : childCount t ≠ 0#64 ∧ array.children.isNone = true
  · rw [if_pos h11]
    exact .inr ⟨_, rfl, .missingArrayChildren ((childCount_ne t).1 h11.1)
      (firstChild_none (by simpa using h11.2))⟩
  rw [if_neg h11]
  by_cases h12 : childCount t ≠ 0#64 ∧ schema.children.isNone = true
  · rw [if_pos h12]
    exact .inr ⟨_, rfl, .missingSchemaChildren ((childCount_ne t).1 h12.1)
      (firstSchema_none (by simpa using h12.2))⟩
  rw [if_neg h12]
  refine .inl ⟨_, rfl, ?_⟩
  have h8a : array.nChildren = childCount t := Decidable.byContradiction fun h => h8 (.inl h)
  have h8b : schema.nChildren = childCount t := Decidable.byContradiction fun h => h8 (.inr h)
  have h7' : array.nBuffers = bufferCount t := Decidable.byContradiction fun h => h7 h
  rw [expectedFlags_eq] at h6
  exact
    { live := by simpa [CArray.isReleased] using h1
      schemaLive := by simpa [CSchema.isReleased] using h2
      format := ⟨f, hf, (matchesFormat_iff ht).1 (by simpa using h3)⟩
      flags := (flags_ok _ _).1 (Decidable.byContradiction fun h => h4 h)
      length := hn
      offset := by
        have : array.offset = 0#64 := Decidable.byContradiction fun h => h5 h
        rw [this]; rfl
      nulls := by omega
      nonNull := fun h => by
        have : ¬ (nl = false ∧ array.nullCount.toInt > 0) := fun h => h6 (.inr (.inr h))
        have h' : ¬ array.nullCount.toInt > 0 := fun h'' => this ⟨h, h''⟩
        omega
      nBuffers := by rw [h7', bufferCount_toInt]
      nChildren := by rw [h8a, childCount_toInt]
      nSchemas := by rw [h8b, childCount_toInt]
      dictionary := by simp only [not_or] at h9; simpa using h9.1
      schemaDictionary := by simp only [not_or] at h9; simpa using h9.2
      buffers := fun h => h10 ⟨bufferCount_ne t, by simp [h]⟩
      children := fun hc h => h11 ⟨(childCount_ne t).2 hc, by simp [h]⟩
      schemas := fun hc h => h12 ⟨(childCount_ne t).2 hc, by simp [h]⟩ }

/-- The common validation accepts what it should. -/
theorem validate_ok {nl : Bool} {t : Ty} (ht : Exportable t) {array : CArray} {schema : CSchema}
    {n : Nat} (h : Valid nl t array schema n) : validate nl t array schema = .ok n := by
  obtain ⟨f, hf, hf'⟩ := h.format
  have h1 := h.live; have h2 := h.schemaLive; have hb := h.buffers
  have := h.nulls
  have hn := h.nonNull
  have hl := h.length
  unfold validate
  rw [if_neg (by simpa [CArray.isReleased] using h1), if_neg (by simpa [CSchema.isReleased] using h2)]
  simp only [hf]
  rw [if_neg (by simpa using (matchesFormat_iff ht).2 hf'),
    if_neg (fun h' => h' ((flags_ok _ _).2 h.flags))]
  simp only [toUsize_some.2 h.length]
  rw [if_neg (fun h' => h' (i64_ext.2 h.offset)), if_neg, if_neg (fun h' => h' (i64_ext.2 (by rw [h.nBuffers, bufferCount_toInt]))), if_neg,
    if_neg (by simp [h.dictionary, h.schemaDictionary]), if_neg (fun h' => hb (by simpa using h'.2)),
    if_neg (fun h' => h.children ((childCount_ne t).1 h'.1) (by simpa using h'.2)),
    if_neg (fun h' => h.schemas ((childCount_ne t).1 h'.1) (by simpa using h'.2))]
  · rintro (h' | h')
    · exact h' (i64_ext.2 (by rw [h.nChildren, childCount_toInt]))
    · exact h' (i64_ext.2 (by rw [h.nSchemas, childCount_toInt]))
  · rintro (h' | h' | ⟨h', h''⟩)
    · omega
    · omega
    · have := hn ((expectedFlags_eq nl).1 h'); omega

/-- The validity bitmap is missing or does not match. -/
def NullDefect (m : Mem) (nl : Bool) (array : CArray) (n : Nat) : Prop :=
  nl = true ∧ ((bufferAt array 0 = some 0 ∧ n ≠ 0 ∧ array.nullCount.toInt ≠ 0) ∨
    ∃ p bytes, bufferAt array 0 = some p ∧ p ≠ 0 ∧ m.read p (bytesFor n) = some bytes ∧
      0 ≤ array.nullCount.toInt ∧ array.nullCount.toInt ≠ (unsetBits bytes n : Int))

section
variable {m : Mem} {nl : Bool} {array : CArray} {schema : CSchema} {n : Nat} {e : ImportError}

/-- Defects of the common fields contradict `Valid`. -/
local macro "valid_absurd" hv:ident : tactic => `(tactic| first
  | (rename_i h; exact absurd h ($hv).live)
  | (rename_i h; exact absurd h ($hv).schemaLive)
  | (rename_i h; obtain ⟨_, h1, _⟩ := ($hv).format; rw [h1] at h; cases h; done)
  | (obtain ⟨_, h1, h2⟩ := ($hv).format; simp_all; done)
  | (rename_i h; exact absurd ($hv).flags h)
  | (rename_i h; have := ($hv).nonneg; omega)
  | (rename_i h; exact absurd ($hv).offset h)
  | (rename_i h; have h1 := ($hv).nulls; have h2 := ($hv).nonNull; have h3 := ($hv).length
     rcases h with h | h | h
     · omega
     · omega
     · have := h2 h.1; omega)
  | (rename_i h; exact absurd ($hv).nBuffers h)
  | (rename_i h; rcases h with h | h
     · exact absurd ($hv).nChildren h
     · exact absurd ($hv).nSchemas h)
  | (rename_i h; rcases h with h | h
     · rw [($hv).dictionary] at h; cases h
     · rw [($hv).schemaDictionary] at h; cases h)
  | (rename_i h; exact absurd h ($hv).buffers))

theorem defect_bool (h : Defect m .bool nl array schema e) (hv : Valid nl .bool array schema n) :
    (bufferAt array 1 = some 0 ∧ n ≠ 0) ∨ NullDefect m nl array n := by
  have hn := hv.toNat
  have hl := hv.length
  cases h
  case missingArrayChildren h _ => exact absurd rfl h
  case missingSchemaChildren h _ => exact absurd rfl h
  case missingValidityBuffer h1 h2 h3 => exact .inr ⟨rfl, .inl ⟨h1, by omega, h3⟩⟩
  case nullCountMismatch =>
    subst hn; exact .inr ⟨rfl, .inr ⟨_, _, by assumption, by assumption, by assumption, by assumption, by assumption⟩⟩
  case missingBits h1 h2 => exact .inl ⟨h1, by omega⟩
  case child h _ _ _ => cases h
  all_goals valid_absurd hv

theorem defect_prim {p : Prim} (h : Defect m (.prim p) nl array schema e)
    (hv : Valid nl (.prim p) array schema n) :
    (n ≠ 0 ∧ (bufferAt array 1 = some 0 ∨ ∃ a, bufferAt array 1 = some a ∧ a % p.size ≠ 0)) ∨
      NullDefect m nl array n := by
  have hn := hv.toNat
  have hl := hv.length
  cases h
  case missingArrayChildren h _ => exact absurd rfl h
  case missingSchemaChildren h _ => exact absurd rfl h
  case missingValidityBuffer h1 h2 h3 => exact .inr ⟨rfl, .inl ⟨h1, by omega, h3⟩⟩
  case nullCountMismatch =>
    subst hn; exact .inr ⟨rfl, .inr ⟨_, _, by assumption, by assumption, by assumption, by assumption, by assumption⟩⟩
  case missingValues h1 h2 => exact .inl ⟨by omega, .inl h1⟩
  case misalignedValuesBuffer => exact .inl ⟨by omega, .inr ⟨_, by assumption, by assumption⟩⟩
  case child h _ _ _ => cases h
  all_goals valid_absurd hv

theorem defect_fsl {w : Nat} {nl' : Bool} {t : Ty} (h : Defect m (.fsl w nl' t) nl array schema e)
    (hv : Valid nl (.fsl w nl' t) array schema n) :
    w = 0 ∨ firstChild array = none ∨ firstSchema schema = none ∨
      (∃ array', firstChild array = some array' ∧ n * w ≠ array'.length.toNat) ∨
      (∃ array' schema', firstChild array = some array' ∧ firstSchema schema = some schema' ∧
        Defect m t nl' array' schema' e) ∨
      NullDefect m nl array n := by
  have hn := hv.toNat
  have hl := hv.length
  cases h
  case missingArrayChildren _ h => exact .inr (.inl h)
  case missingSchemaChildren _ h => exact .inr (.inr (.inl h))
  case unsupportedFixedSizeListSize => exact .inl rfl
  case fixedSizeListLengthMismatch h1 h2 => exact .inr (.inr (.inr (.inl ⟨_, h1, by rw [← hn]; exact h2⟩)))
  case missingValidityBuffer h1 h2 h3 =>
    exact .inr (.inr (.inr (.inr (.inr ⟨rfl, .inl ⟨h1, by omega, h3⟩⟩))))
  case nullCountMismatch =>
    subst hn; exact .inr (.inr (.inr (.inr (.inr ⟨rfl, .inr ⟨_, _, by assumption, by assumption, by assumption, by assumption, by assumption⟩⟩))))
  case child h1 h2 h3 h4 =>
    simp only [childTy, Option.some.injEq, Prod.mk.injEq] at h1
    obtain ⟨rfl, rfl⟩ := h1
    exact .inr (.inr (.inr (.inr (.inl ⟨_, _, h2, h3, h4⟩))))
  all_goals valid_absurd hv

theorem defect_vsl {ow : OffW} {nl' : Bool} {t : Ty} (h : Defect m (.vsl ow nl' t) nl array schema e)
    (hv : Valid nl (.vsl ow nl' t) array schema n) :
    firstChild array = none ∨ firstSchema schema = none ∨
      (bufferAt array 1 = some 0 ∨ ∃ a, bufferAt array 1 = some a ∧ a % offsetBytes ow ≠ 0) ∨
      (∃ p values array' e', bufferAt array 1 = some p ∧
        m.slice (offBytes ow) p (n + 1) = some values ∧
        firstChild array = some array' ∧
        FirstViolation (values.map BitVec.toInt) array'.length.toNat e') ∨
      (∃ array' schema', firstChild array = some array' ∧ firstSchema schema = some schema' ∧
        Defect m t nl' array' schema' e) ∨
      NullDefect m nl array n := by
  have hn := hv.toNat
  have hl := hv.length
  cases h
  case missingArrayChildren _ h => exact .inl h
  case missingSchemaChildren _ h => exact .inr (.inl h)
  case missingOffsetsBuffer h => exact .inr (.inr (.inl (.inl h)))
  case misalignedOffsetsBuffer => exact .inr (.inr (.inl (.inr ⟨_, by assumption, by assumption⟩)))
  case invalidOffsets =>
    subst hn; exact .inr (.inr (.inr (.inl ⟨_, _, _, _, by assumption, by assumption, by assumption, by assumption⟩)))
  case missingValidityBuffer h1 h2 h3 =>
    exact .inr (.inr (.inr (.inr (.inr ⟨rfl, .inl ⟨h1, by omega, h3⟩⟩))))
  case nullCountMismatch =>
    subst hn; exact .inr (.inr (.inr (.inr (.inr ⟨rfl, .inr ⟨_, _, by assumption, by assumption, by assumption, by assumption, by assumption⟩⟩))))
  case child h1 h2 h3 h4 =>
    simp only [childTy, Option.some.injEq, Prod.mk.injEq] at h1
    obtain ⟨rfl, rfl⟩ := h1
    exact .inr (.inr (.inr (.inr (.inl ⟨_, _, h2, h3, h4⟩))))
  all_goals valid_absurd hv

end

end Narrow.Ffi
