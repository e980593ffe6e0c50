import Verif.Model.Messages
import Verif.Spec.Messages
import Verif.Proof.Ffi

/-! # Messages of errors -/

namespace Narrow

open Ffi.Spec

theorem decimal_inj {a b : Nat} (h : Ffi.decimal a = Ffi.decimal b) : a = b := by
  rw [← (Ffi.decimal_spec a).2, h, (Ffi.decimal_spec b).2]

/-- The characters of numbers. -/
def digitish (b : Byte) : Bool := decide (48 ≤ b.toNat ∧ b.toNat ≤ 57) || b == 45#8

theorem decimal_digitish (n : Nat) : ∀ b ∈ Ffi.decimal n, digitish b = true := by
  intro b hb
  simp [digitish, (Ffi.decimal_spec n).1.2 b hb]

theorem decimalInt_digitish (i : Int) : ∀ b ∈ decimalInt i, digitish b = true := by
  intro b hb
  unfold decimalInt at hb
  split at hb
  · rcases List.mem_append.mp hb with h | h
    · have : b = 45#8 := by simpa [Ffi.ascii] using h
      subst this; decide
    · exact decimal_digitish _ b h
  · exact decimal_digitish _ b hb

theorem decimalInt_inj {i j : Int} (h : decimalInt i = decimalInt j) : i = j := by
  have minus : ∀ n m : Nat, Ffi.ascii "-" ++ Ffi.decimal n ≠ Ffi.decimal m := by
    intro n m e
    have := (Ffi.decimal_spec m).1.2 45#8 (by rw [← e]; exact List.mem_append_left _ (by decide))
    exact absurd this.1 (by decide)
  unfold decimalInt at h
  split at h <;> split at h
  · have := decimal_inj (List.append_cancel_left h); omega
  · exact absurd h (minus _ _)
  · exact absurd h.symm (minus _ _)
  · have := decimal_inj h; omega

theorem writes_decimalInt (i : Int) : Writes (decimalInt i) i := by
  unfold decimalInt
  split
  · refine .inr ⟨by assumption, _, rfl, (Ffi.decimal_spec _).1, ?_⟩
    rw [(Ffi.decimal_spec _).2]; omega
  · refine .inl ⟨by omega, (Ffi.decimal_spec _).1, ?_⟩
    rw [(Ffi.decimal_spec _).2]; omega

/-- A piece list goes on with something that does not belong to a number. -/
def Ends : List Piece → Bool
  | [] => true
  | .text s :: _ => ((Ffi.ascii s).head?).any (!digitish ·)
  | .number _ :: _ => false

/-- The two lists differ in numbers only, which are set apart. -/
def Alike : List Piece → List Piece → Bool
  | [], [] => true
  | .text s :: ps, .text t :: qs => s == t && Alike ps qs
  | .number _ :: ps, .number _ :: qs => Ends ps && Ends qs && Alike ps qs
  | _, _ => false

theorem ends_takeWhile {ps : List Piece} (h : Ends ps = true) : (write ps).takeWhile digitish = [] := by
  cases ps with
  | nil => rfl
  | cons p ps =>
    cases p with
    | number => cases h
    | text s =>
      simp only [write]
      simp only [Ends] at h
      cases e : Ffi.ascii s with
      | nil => rw [e] at h; cases h
      | cons b bs =>
        rw [e] at h
        have : digitish b = false := by simpa using h
        simp [this]

theorem alike_inj : ∀ {ps qs : List Piece}, Alike ps qs = true → write ps = write qs → ps = qs
  | [], [], _, _ => rfl
  | .text s :: ps, .text t :: qs, h, e => by
    simp only [Alike, Bool.and_eq_true, beq_iff_eq] at h
    obtain ⟨rfl, h⟩ := h
    rw [alike_inj h (List.append_cancel_left e)]
  | .number i :: ps, .number j :: qs, h, e => by
    simp only [Alike, Bool.and_eq_true] at h
    obtain ⟨⟨h1, h2⟩, h⟩ := h
    simp only [write] at e
    have e1 := congrArg (List.takeWhile digitish) e
    rw [List.takeWhile_append_of_pos (decimalInt_digitish i), ends_takeWhile h1,
      List.takeWhile_append_of_pos (decimalInt_digitish j), ends_takeWhile h2,
      List.append_nil, List.append_nil] at e1
    rw [e1] at e
    rw [decimalInt_inj e1, alike_inj h (List.append_cancel_left e)]
  | [], .text _ :: _, h, _ | [], .number _ :: _, h, _ | .text _ :: _, [], h, _
  | .number _ :: _, [], h, _ | .text _ :: _, .number _ :: _, h, _
  | .number _ :: _, .text _ :: _, h, _ => by cases h

/-- What a message is without its numbers. -/
def letters (m : List Byte) : List Byte := m.filter (!digitish ·)

theorem letters_text (s : String) (ps : List Piece) :
    letters (write (.text s :: ps)) = letters (Ffi.ascii s) ++ letters (write ps) := by
  simp [letters, write]

theorem letters_number (i : Int) (ps : List Piece) :
    letters (write (.number i :: ps)) = letters (write ps) := by
  unfold letters
  simp only [write, List.filter_append]
  rw [List.filter_eq_nil_iff.mpr (fun b hb => by simp [decimalInt_digitish i b hb]), List.nil_append]

/-- The letters of the literal pieces. -/
def stem : List Piece → List Byte
  | [] => []
  | .text s :: ps => letters (Ffi.ascii s) ++ stem ps
  | .number _ :: ps => stem ps

theorem letters_write : ∀ ps : List Piece, letters (write ps) = stem ps
  | [] => rfl
  | .text s :: ps => by rw [letters_text, letters_write ps]; rfl
  | .number i :: ps => by rw [letters_number, letters_write ps]; rfl

/-! ## What a message says -/

theorem says_of {ps : List Piece} {word : String} {i : Int} {rest : List Piece} {before : List Byte}
    (h : write ps = before ++ bytesOf word ++ write (.number i :: rest)) (he : Ends rest = true) :
    Says (write ps) word i := by
  refine ⟨before, decimalInt i, write rest, ?_, writes_decimalInt i, ?_⟩
  · rw [h]; simp [write]
  · intro b hb hd
    have := ends_takeWhile he
    cases e : write rest with
    | nil => rw [e] at hb; cases hb
    | cons c cs =>
      rw [e] at hb this
      cases hb
      have hc : digitish b = true := by simp [digitish, hd]
      simp [hc] at this

theorem says_here {s word : String} {i : Int} {rest : List Piece} (h : bytesOf word <:+ Ffi.ascii s)
    (he : Ends rest = true) : Says (write (.text s :: .number i :: rest)) word i := by
  obtain ⟨before, h⟩ := h
  exact says_of (before := before) (by rw [h]; rfl) he

theorem says_later {p : Piece} {ps : List Piece} {word : String} {i : Int} (h : Says (write ps) word i) :
    Says (write (p :: ps)) word i := by
  obtain ⟨before, d, after, h1, h2⟩ := h
  cases p with
  | text s => exact ⟨Ffi.ascii s ++ before, d, after, by simp [write, h1], h2⟩
  | number j => exact ⟨decimalInt j ++ before, d, after, by simp [write, h1], h2⟩

/-- Printable pieces. -/
def Clean : List Piece → Bool
  | [] => true
  | .text s :: ps => (Ffi.ascii s).all (fun b => decide (32 ≤ b.toNat ∧ b.toNat ≤ 126)) && Clean ps
  | .number _ :: ps => Clean ps

theorem digitish_printable {b : Byte} (h : digitish b = true) : 32 ≤ b.toNat ∧ b.toNat ≤ 126 := by
  simp only [digitish, Bool.or_eq_true, decide_eq_true_eq, beq_iff_eq] at h
  rcases h with h | rfl
  · omega
  · decide

theorem clean_bytes : ∀ {ps : List Piece}, Clean ps = true →
    ∀ b ∈ write ps, 32 ≤ b.toNat ∧ b.toNat ≤ 126
  | [], _, _, hb => nomatch hb
  | .text s :: ps, h, b, hb => by
    simp only [Clean, Bool.and_eq_true, List.all_eq_true, decide_eq_true_eq] at h
    rcases List.mem_append.mp hb with hb | hb
    · exact h.1 b hb
    · exact clean_bytes h.2 b hb
  | .number i :: ps, h, b, hb => by
    rcases List.mem_append.mp hb with hb | hb
    · exact digitish_printable (decimalInt_digitish i b hb)
    · exact clean_bytes (ps := ps) h b hb

/-! ## Which error it is -/

/-- The number of a kind of error. -/
def OffsetsError.kind : OffsetsError → Nat
  | .empty => 0
  | .nonZeroFirst _ => 1
  | .negative _ => 2
  | .nonMonotonic _ => 3
  | .outOfBounds _ _ => 4

/-- The number of a kind of error. -/
def Ffi.ImportError.kind : Ffi.ImportError → Nat
  | .releasedArray => 0
  | .releasedSchema => 1
  | .missingFormat => 2
  | .unexpectedFormat => 3
  | .unexpectedFlags _ => 4
  | .invalidLength _ => 5
  | .nonZeroOffset _ => 6
  | .unexpectedNullCount _ => 7
  | .missingValidityBuffer => 8
  | .nullCountMismatch _ _ => 9
  | .unexpectedBufferCount _ => 10
  | .unexpectedChildCount _ _ => 11
  | .unexpectedDictionary => 12
  | .missingBufferPointers => 13
  | .missingArrayChildren => 14
  | .missingSchemaChildren => 15
  | .unsupportedFixedSizeListSize _ => 16
  | .fixedSizeListLengthMismatch _ _ _ => 17
  | .missingOffsetsBuffer => 18
  | .misalignedOffsetsBuffer _ => 19
  | .missingValuesBuffer => 20
  | .misalignedValuesBuffer _ => 21
  | .invalidOffsets e => 22 + e.kind

/-- The messages of offset errors without numbers. -/
def offsetsLetters : List (List Byte) :=
  [OffsetsError.empty, .nonZeroFirst 0, .negative 0, .nonMonotonic 0, .outOfBounds 0 0].map
    fun e => stem e.pieces

/-- The messages of import errors without numbers. -/
def importLetters : List (List Byte) :=
  ([.releasedArray, .releasedSchema, .missingFormat, .unexpectedFormat, .unexpectedFlags 0,
    .invalidLength 0, .nonZeroOffset 0, .unexpectedNullCount 0, .missingValidityBuffer,
    .nullCountMismatch 0 0, .unexpectedBufferCount 0, .unexpectedChildCount 0 0,
    .unexpectedDictionary, .missingBufferPointers, .missingArrayChildren, .missingSchemaChildren,
    .unsupportedFixedSizeListSize 0, .fixedSizeListLengthMismatch 0 0 0, .missingOffsetsBuffer,
    .misalignedOffsetsBuffer 0, .missingValuesBuffer, .misalignedValuesBuffer 0,
    .invalidOffsets .empty, .invalidOffsets (.nonZeroFirst 0), .invalidOffsets (.negative 0),
    .invalidOffsets (.nonMonotonic 0), .invalidOffsets (.outOfBounds 0 0)] :
      List Ffi.ImportError).map fun e => stem e.pieces

theorem offsets_letters (e : OffsetsError) : offsetsLetters[e.kind]? = some (letters e.message) := by
  unfold OffsetsError.message
  rw [letters_write]
  cases e <;> rfl

theorem import_letters (e : Ffi.ImportError) :
    importLetters[e.kind]? = some (letters e.message) := by
  unfold Ffi.ImportError.message
  rw [letters_write]
  rcases e with _ | _ | _ | _ | _ | _ | _ | _ | _ | _ | _ | _ | _ | _ | _ | _ | _ | _ | _ | _ | e | _ | _
  case invalidOffsets => cases e <;> rfl
  all_goals rfl

theorem kind_of_letters {l : List (List Byte)} (h : l.Nodup) {i j : Nat} {a : List Byte}
    (hi : l[i]? = some a) (hj : l[j]? = some a) : i = j := by
  obtain ⟨hi, ei⟩ := List.getElem?_eq_some_iff.mp hi
  obtain ⟨hj, ej⟩ := List.getElem?_eq_some_iff.mp hj
  exact (List.getElem_inj h).mp (ei.trans ej.symm)

theorem offsets_nodup : offsetsLetters.Nodup := by decide +kernel

theorem import_nodup : importLetters.Nodup := by decide +kernel

theorem offsets_alike {e e' : OffsetsError} (h : e.kind = e'.kind) : Alike e.pieces e'.pieces = true := by
  cases e <;> cases e' <;> first | rfl | (simp only [OffsetsError.kind] at h; omega)

theorem offsets_inj {e e' : OffsetsError} (h : e.pieces = e'.pieces) : e = e' := by
  cases e <;> cases e' <;> simp_all [OffsetsError.pieces] <;> omega

theorem import_alike {e e' : Ffi.ImportError} (h : e.kind = e'.kind) :
    Alike e.pieces e'.pieces = true := by
  cases e <;> cases e' <;>
    first
    | (simp only [Ffi.ImportError.kind] at h; omega)
    | rfl
    | (simp only [Ffi.ImportError.kind] at h
       simp [Ffi.ImportError.pieces, Alike, offsets_alike (Nat.add_left_cancel h)])

theorem import_inj {e e' : Ffi.ImportError} (hk : e.kind = e'.kind) (h : e.pieces = e'.pieces) :
    e = e' := by
  cases e <;> cases e' <;>
    first
    | rfl
    | (simp only [Ffi.ImportError.kind] at hk; omega)
    | (simp only [Ffi.ImportError.pieces, List.cons.injEq, true_and, and_true, Piece.number.injEq,
        BitVec.toInt_inj, Int.natCast_inj] at h; simp [h]; done)
    | (simp only [Ffi.ImportError.pieces, List.cons.injEq, true_and] at h; rw [offsets_inj h])

end Narrow
