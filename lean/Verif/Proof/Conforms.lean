import Verif.Spec.Conforms
import Verif.Proof.Arrow

/-! # Proofs about arrays that follow the Arrow format -/

namespace Narrow.Ffi

open Narrow.Spec Narrow.Ffi.Spec

variable {m : Mem} {nl : Bool} {t : Ty} {array : CArray} {schema : CSchema}

theorem read_less {p n k : Nat} (h : m.read p n ≠ none) (hk : k ≤ n) : m.read p k ≠ none := by
  obtain ⟨l, hl⟩ := Option.ne_none_iff_exists'.1 h
  rw [m.read_take hl hk]
  simp

theorem slice_less {w p n k : Nat} (h : m.slice w p n ≠ none) (hk : k ≤ n) : m.slice w p k ≠ none := by
  obtain ⟨l, hl⟩ := Option.ne_none_iff_exists'.1 h
  rw [m.slice_take hl hk]
  simp

theorem bytesFor_grows {n k : Nat} (h : n ≤ k) : bytesFor n ≤ bytesFor k := by
  unfold bytesFor; omega

theorem length_le_physical : array.length.toNat ≤ physical array := Nat.le_add_left _ _

theorem header_safe (h : ConformsHeader m t nl array schema) : SafeHeader m nl array schema where
  buffers l hl := by
    obtain ⟨h1, l', h2, h3⟩ := h.buffers
    rw [hl] at h2; cases h2
    rw [h1, h3]; exact Int.le_refl _
  children l hl := by
    obtain ⟨h1, h2⟩ := h.children
    rw [hl] at h2
    rw [h1, ← h2]; exact Int.le_refl _
  schemas l hl := by
    obtain ⟨h1, h2⟩ := h.schemas
    rw [hl] at h2
    rw [h1, ← h2]; exact Int.le_refl _
  validity p _ hp h0 _ := read_less (h.bitmap p hp h0).1 (bytesFor_grows length_le_physical)

theorem conforms_safe : ∀ (t : Ty) {nl : Bool} {array : CArray} {schema : CSchema},
    Conforms m t nl array schema → Safe m t nl array schema
  | .bool, nl, array, schema, h => ⟨header_safe h.1, fun p hp _ _ => by
      by_cases h0 : physical array = 0
      · have h1 : array.length.toNat = 0 := by have := length_le_physical (array := array); omega
        rw [h1]; simp [bytesFor, Mem.read]
      · exact read_less (h.2 p hp h0).2 (bytesFor_grows length_le_physical)⟩
  | .prim pr, nl, array, schema, h => ⟨header_safe h.1, fun p hp _ _ _ => by
      by_cases h0 : physical array = 0
      · have h1 : array.length.toNat = 0 := by have := length_le_physical (array := array); omega
        rw [h1]; simp [Mem.slice]
      · exact slice_less (h.2 p hp h0).2 length_le_physical⟩
  | .fsl n nl' t, nl, array, schema, h => by
    obtain ⟨h1, a', s', h2, h3, _, h4⟩ := h
    refine ⟨header_safe h1, fun a s ha hs => ?_⟩
    rw [h2] at ha; rw [h3] at hs; cases ha; cases hs
    exact conforms_safe t h4
  | .vsl ow nl' t, nl, array, schema, h => by
    obtain ⟨h1, a', s', h2, h3, h5, h4⟩ := h
    refine ⟨header_safe h1, fun p hp h0 _ _ => ?_, fun a s ha hs => ?_⟩
    · rcases h5 p hp with ⟨h6, _⟩ | ⟨_, values, h6, _⟩
      · exact absurd h6 h0
      · exact slice_less (by rw [h6]; simp) (Nat.succ_le_succ length_le_physical)
    · rw [h2] at ha; rw [h3] at hs; cases ha; cases hs
      exact conforms_safe t h4

theorem conforms_header : Conforms m t nl array schema → ConformsHeader m t nl array schema := by
  cases t <;> exact fun h => h.1

theorem nullBits_le {p : Nat} : nullBits m p array ≤ array.length.toNat := by
  have := List.countP_le_length (p := fun i => memBit m p (position array i) == some false)
    (l := List.range array.length.toNat)
  rwa [List.length_range] at this

theorem bitAt_bit (l : List Byte) (i : Nat) (h : i < 8 * l.length) : bit l i = bitAt l i := by
  have hd : i / 8 < l.length := by omega
  unfold bit bitAt
  rw [List.getElem?_eq_getElem hd, List.getD_eq_getElem?_getD, List.getElem?_eq_getElem hd]
  rfl

theorem nullBits_eq {p : Nat} {bytes : List Byte} (ho : array.offset.toInt = 0)
    (h : m.read p (bytesFor array.length.toNat) = some bytes) :
    nullBits m p array = unsetBits bytes array.length.toNat := by
  unfold nullBits unsetBits
  apply List.countP_congr
  intro i hi
  have hi := List.mem_range.1 hi
  have hl := m.read_length h
  have hb : i < 8 * bytes.length := by rw [hl]; unfold bytesFor; omega
  rw [show position array i = i by unfold position; rw [toInt_zero ho, Nat.zero_add],
    memBit_read h hb, bitAt_bit _ _ hb]
  cases bitAt bytes i <;> simp

theorem conforms_child {nl' : Bool} {t' : Ty} (hc : Conforms m t nl array schema)
    (ht : childTy t = some (nl', t')) : ∃ array' schema', firstChild array = some array' ∧
      firstSchema schema = some schema' ∧ Conforms m t' nl' array' schema' := by
  cases t with
  | bool => cases ht
  | prim _ => cases ht
  | fsl n nl2 t2 =>
    cases ht
    obtain ⟨_, a, s, h1, h2, _, h3⟩ := hc
    exact ⟨a, s, h1, h2, h3⟩
  | vsl ow nl2 t2 =>
    cases ht
    obtain ⟨_, a, s, h1, h2, _, h3⟩ := hc
    exact ⟨a, s, h1, h2, h3⟩

/-- Structures that follow the format have no defect but the unsupported ones. -/
theorem conforms_clean {e : ImportError} (hd : Defect m t nl array schema e)
    (hc : Conforms m t nl array schema) (hu : ∀ e, ¬ Unsupported m t nl array schema e) : False := by
  induction hd with
  | releasedArray h => exact (conforms_header hc).live.1 h
  | releasedSchema h => exact (conforms_header hc).live.2 h
  | missingFormat h =>
    obtain ⟨f, h1, _⟩ := (conforms_header hc).format
    rw [h] at h1; cases h1
  | unexpectedFormat h h' =>
    obtain ⟨f, h1, h2⟩ := (conforms_header hc).format
    rw [h] at h1; cases h1; exact h' h2
  | unexpectedFlags h => exact h (conforms_header hc).flag
  | invalidLength h => have := (conforms_header hc).length; omega
  | nonZeroOffset h => exact hu _ (.offset h)
  | unexpectedNullCount h =>
    rename_i t nl array schema
    have hh := conforms_header hc
    obtain ⟨_, l, h1, h2⟩ := hh.buffers
    have h3 : 0 < l.length := by rw [h2]; cases t <;> simp [buffersIn]
    have h4 : bufferAt array 0 = some l[0] := by simp [bufferAt, h1, List.getElem?_eq_getElem h3]
    have h5 := toInt_nonneg hh.length
    by_cases h0 : l[0] = 0
    · rw [h0] at h4
      have := hh.omitted h4
      omega
    · obtain ⟨_, h6, h7⟩ := hh.bitmap _ h4 h0
      have := nullBits_le (m := m) (array := array) (p := l[0])
      rcases h with h | h | ⟨h, h'⟩
      · omega
      · omega
      · have := h7 h
        omega
  | unexpectedBufferCount h => exact h (conforms_header hc).buffers.1
  | unexpectedChildCount h =>
    exact h.elim (fun h => h (conforms_header hc).children.1) fun h => h (conforms_header hc).schemas.1
  | unexpectedDictionary h =>
    have := (conforms_header hc).dictionary
    rw [this.1, this.2] at h; simp at h
  | missingBufferPointers h =>
    obtain ⟨_, l, h1, _⟩ := (conforms_header hc).buffers
    rw [h] at h1; cases h1
  | missingArrayChildren h h' =>
    obtain ⟨⟨nl', t'⟩, ht⟩ := Option.ne_none_iff_exists'.1 h
    obtain ⟨_, _, h1, _⟩ := conforms_child hc ht
    rw [h'] at h1; cases h1
  | missingSchemaChildren h h' =>
    obtain ⟨⟨nl', t'⟩, ht⟩ := Option.ne_none_iff_exists'.1 h
    obtain ⟨_, _, _, h1, _⟩ := conforms_child hc ht
    rw [h'] at h1; cases h1
  | missingValidityBuffer h1 h2 h3 =>
    exact hu _ (.unknownNulls h1 h2 (((conforms_header hc).omitted h1).resolve_left h3))
  | nullCountMismatch h1 h2 h3 h4 h5 =>
    rename_i array schema p bytes
    have ho : array.offset.toInt = 0 := Decidable.byContradiction fun h => hu _ (.offset h)
    obtain ⟨_, h6, _⟩ := (conforms_header hc).bitmap _ h1 h2
    rw [nullBits_eq ho h3] at h6
    omega
  | unsupportedFixedSizeListSize => exact hu _ .zeroWidth
  | fixedSizeListLengthMismatch h1 h2 =>
    rename_i n nl nl' t array schema array'
    obtain ⟨_, a, s, h3, _, h4, _⟩ := hc
    rw [h1] at h3; cases h3
    have ho : array.offset.toInt = 0 := Decidable.byContradiction fun h => hu _ (.offset h)
    rw [physical, toInt_zero ho, Nat.zero_add] at h4
    exact hu _ (.longChild h1 (by omega))
  | missingOffsetsBuffer h => exact hu _ (.noOffsets h)
  | misalignedOffsetsBuffer h h' => exact hu _ (.misalignedOffsets h h')
  | invalidOffsets h1 h2 h3 h4 =>
    rename_i ow nl nl' t array schema p values array' e
    obtain ⟨hh, a, s, h5, _, h6, _⟩ := hc
    rw [h3] at h5; cases h5
    have ho : array.offset.toInt = 0 := Decidable.byContradiction fun h => hu _ (.offset h)
    rcases h6 p h1 with ⟨rfl, _⟩ | ⟨h0, values', h7, h8, h9⟩
    · exact hu _ (.noOffsets h1)
    rw [physical, toInt_zero ho, Nat.zero_add, h2] at h7
    cases h7
    rw [toInt_zero ho] at h8 h9
    have hl := m.slice_length h2
    cases h4 with
    | empty h =>
      have := congrArg List.length h
      simp at this
      rw [this] at hl; simp at hl
    | negative i h _ h' =>
      rw [List.length_map] at h
      have := (h8 i h (Nat.zero_le _)).1
      rw [List.getElem_map] at h'
      omega
    | nonZeroFirst h h' =>
      rw [List.length_map] at h
      rw [List.getElem_map] at h'
      exact hu _ (.firstOffset h1 h0 (m.slice_elem h2 0 h) h')
    | nonMonotonic i h _ _ h' =>
      rw [List.length_map] at h
      have := h9 i h (Nat.zero_le _)
      rw [List.getElem_map, List.getElem_map] at h'
      omega
    | outOfBounds h _ h' =>
      rw [List.getLast_map] at h'
      have hne : values ≠ [] := fun h' => h (by rw [h']; rfl)
      have h10 := (h8 (values.length - 1) (by rw [hl]; omega) (Nat.zero_le _)).2
      rw [← List.getLast_eq_getElem hne] at h10
      have h11 := toInt_nonneg (i := array'.length) (by
        have h12 := (h8 (values.length - 1) (by rw [hl]; omega) (Nat.zero_le _)).1
        rw [← List.getLast_eq_getElem hne] at h12
        omega)
      omega
  | missingBits h1 h2 =>
    have := toInt_nonneg hc.1.length
    exact (hc.2 _ h1 (by unfold physical; omega)).1 rfl
  | missingValues h1 h2 =>
    have := toInt_nonneg hc.1.length
    exact (hc.2 _ h1 (by unfold physical; omega)).1 rfl
  | misalignedValuesBuffer h1 h2 h3 => exact hu _ (.misalignedValues h1 h2 h3)
  | child ht h1 h2 _ ih =>
    obtain ⟨a, s, h3, h4, h5⟩ := conforms_child hc ht
    rw [h1] at h3; rw [h2] at h4; cases h3; cases h4
    exact ih h5 fun e h => hu e (.child ht h1 h2 h)

/-- What is unsupported is reported as a defect. -/
theorem unsupported_defect {e : ImportError} (hu : Unsupported m t nl array schema e)
    (hc : Conforms m t nl array schema) : Defect m t nl array schema e := by
  induction hu with
  | offset h => exact .nonZeroOffset h
  | unknownNulls h1 h2 h3 => exact .missingValidityBuffer h1 h2 (by omega)
  | misalignedValues h1 h2 h3 => exact .misalignedValuesBuffer h1 h2 h3
  | zeroWidth => exact .unsupportedFixedSizeListSize
  | longChild h1 h2 => exact .fixedSizeListLengthMismatch h1 (by omega)
  | noOffsets h => exact .missingOffsetsBuffer h
  | misalignedOffsets h h' => exact .misalignedOffsetsBuffer h h'
  | firstOffset h1 h0 h2 h3 =>
    rename_i ow nl nl' t array schema p v
    obtain ⟨hh, a, s, h5, _, h6, _⟩ := hc
    rcases h6 p h1 with ⟨h7, _⟩ | ⟨_, values, h7, _⟩
    · exact absurd h7 h0
    have h8 := m.slice_take h7 (Nat.succ_le_succ (length_le_physical (array := array)))
    have hl := m.slice_length h8
    have hl' : 0 < (values.take (array.length.toNat + 1)).length := by rw [hl]; omega
    have h9 := m.slice_elem h8 0 hl'
    rw [h2] at h9
    have h9 := Option.some.inj h9
    have h10 := FirstViolation.nonZeroFirst (l := (values.take (array.length.toNat + 1)).map BitVec.toInt)
      (data := a.length.toNat) (by rw [List.length_map]; exact hl') (by
        rw [List.getElem_map, ← h9]; exact h3)
    rw [List.getElem_map, ← h9] at h10
    exact .invalidOffsets h1 h8 h5 h10
  | child ht h1 h2 _ ih =>
    obtain ⟨a, s, h3, h4, h5⟩ := conforms_child hc ht
    rw [h1] at h3; rw [h2] at h4; cases h3; cases h4
    exact .child ht h1 h2 (ih h5)

end Narrow.Ffi
