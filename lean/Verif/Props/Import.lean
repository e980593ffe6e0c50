import Verif.Proof.ImportInv
import Verif.Props.Arrays
import Verif.Props.FfiSample

/-!
# Properties of import (C34 to C39)

`importLayout m t nl array schema` is the import of a pair of structures as an
array of items of type `t` (of `Option<t>` if `nl`), in memory `m`.
-/

namespace Narrow.Props

open Spec Narrow.Ffi Narrow.Ffi.Spec

variable {m : Mem} {t : Ty} {nl : Bool} {array : CArray} {schema : CSchema}

/-! ## C35 -/

/-- C35. Within its contract, `import` neither panics nor reads memory it must not
read. -/
theorem C35_import_returns (he : Exportable t) (hs : Safe m t nl array schema) :
    (∃ r, importLayout m t nl array schema = .ok r) ∨ ∃ e, importLayout m t nl array schema = .err e := by
  have h := import_good m t nl array schema he hs
  cases hr : importLayout m t nl array schema with
  | ok r => exact .inl ⟨r, rfl⟩
  | err e => exact .inr ⟨e, rfl⟩
  | panic => rw [hr] at h; exact h.elim
  | ub => rw [hr] at h; exact h.elim

/-- C35. What `import` returns is an array as the safe constructors build them, of
the declared length; every way of reading it works and shows the same items. -/
theorem C35_imported_is_valid (he : Exportable t) (hs : Safe m t nl array schema)
    {c : (arrayR nl t).C} {a : APlace nl t} (h : importLayout m t nl array schema = .ok (c, a)) :
    t.WF ∧ Reach nl t c ∧ ∃ l, Shows nl t c l ∧ (l.length : Int) = array.length.toInt := by
  have hg := import_good m t nl array schema he hs
  rw [h] at hg
  obtain ⟨n, ht, hi⟩ := hg
  exact ⟨ht, hi.reach, _, shows_of_inv ht (reach_inv hi.reach ht) rfl, by rw [hi.len, hi.valid.length]⟩

example : ∃ r, importLayout FfiSample.mem Sample.ty true FfiSample.array FfiSample.schema = .ok r :=
  ⟨(FfiSample.coll, FfiSample.place), rfl⟩

example : t.WF → Exportable Sample.ty ∧ Safe FfiSample.mem Sample.ty true FfiSample.array FfiSample.schema :=
  fun _ => ⟨FfiSample.exportable, FfiSample.safe⟩

/-! ## C34, import -/

/-- C34. Every buffer of an imported array is the producer's, with exactly the
declared number of elements, at the producer's address. -/
theorem C34_import_borrows (he : Exportable t) (hs : Safe m t nl array schema)
    {c : (arrayR nl t).C} {a : APlace nl t} (h : importLayout m t nl array schema = .ok (c, a)) :
    Borrows m nl t c a array := by
  have hg := import_good m t nl array schema he hs
  rw [h] at hg
  obtain ⟨n, ht, hi⟩ := hg
  exact hi.borrows

example : Borrows FfiSample.mem true Sample.ty FfiSample.coll FfiSample.place FfiSample.array :=
  C34_import_borrows FfiSample.exportable FfiSample.safe rfl

/-! ## C36 -/

/-- C36. An error of `import` names something that is wrong with the structures. -/
theorem C36_error_is_defect (he : Exportable t) (hs : Safe m t nl array schema) {e : ImportError}
    (h : importLayout m t nl array schema = .err e) : Defect m t nl array schema e := by
  have hg := import_good m t nl array schema he hs
  rw [h] at hg
  exact hg

/-- C36. `import` accepts exactly the structures nothing is wrong with. -/
theorem C36_accepts_iff (he : Exportable t) (hs : Safe m t nl array schema) :
    (∃ r, importLayout m t nl array schema = .ok r) ↔ ∀ e, ¬ Defect m t nl array schema e := by
  constructor
  · rintro ⟨⟨c, a⟩, h⟩
    have hg := import_good m t nl array schema he hs
    rw [h] at hg
    obtain ⟨n, ht, hi⟩ := hg
    exact hi.clean
  · intro h
    rcases C35_import_returns he hs with h' | ⟨e, h'⟩
    · exact h'
    · exact absurd (C36_error_is_defect he hs h') (h e)

/-- C36. If there is only one thing wrong, `import` reports it. -/
theorem C36_reports (he : Exportable t) (hs : Safe m t nl array schema) {e : ImportError}
    (h : Defect m t nl array schema e) (hu : ∀ e', Defect m t nl array schema e' → e' = e) :
    importLayout m t nl array schema = .err e := by
  rcases C35_import_returns he hs with h' | ⟨e', h'⟩
  · exact absurd h ((C36_accepts_iff he hs).1 h' e)
  · rw [h', hu e' (C36_error_is_defect he hs h')]

/-- C36. Whatever is wrong with the structure itself is found before any memory it
points to is read: nothing is assumed about memory. -/
theorem C36_header (he : Exportable t)
    (h : array.release = none ∨ schema.release = none ∨ schema.format = none ∨
      (∃ f, schema.format = some f ∧ ¬ FormatOf t f) ∨ schema.flags.getLsbD 1 ≠ nl ∨
      array.length.toInt < 0 ∨ array.offset.toInt ≠ 0 ∨ array.nullCount.toInt < -1 ∨
      array.length.toInt < array.nullCount.toInt ∨ (nl = false ∧ 0 < array.nullCount.toInt) ∨
      array.nBuffers.toInt ≠ (buffersIn t : Int) ∨ array.nChildren.toInt ≠ (childrenIn t : Int) ∨
      schema.nChildren.toInt ≠ (childrenIn t : Int) ∨ array.dictionary = true ∨
      schema.dictionary = true ∨ array.buffers = none ∨
      (childTy t ≠ none ∧ (array.children = none ∨ schema.children = none))) :
    ∃ e, importLayout m t nl array schema = .err e ∧ Defect m t nl array schema e := by
  rcases validate_cases m he array schema (nl := nl) with ⟨n, h2, h3⟩ | ⟨e, h2, h3⟩
  · exfalso
    have hl := h3.length
    have hn := h3.nulls
    rcases h with h | h | h | ⟨f, h, h'⟩ | h | h | h | h | h | ⟨h, h'⟩ | h | h | h | h | h | h | ⟨h, h' | h'⟩
    · exact h3.live h
    · exact h3.schemaLive h
    · obtain ⟨f, e, _⟩ := h3.format; rw [h] at e; cases e
    · obtain ⟨f', e, e'⟩ := h3.format; rw [h] at e; cases e; exact h' e'
    · exact h h3.flags
    · omega
    · exact h h3.offset
    · omega
    · omega
    · have := h3.nonNull h; omega
    · exact h h3.nBuffers
    · exact h h3.nChildren
    · exact h h3.nSchemas
    · rw [h3.dictionary] at h; cases h
    · rw [h3.schemaDictionary] at h; cases h
    · exact h3.buffers h
    · exact h3.children h h'
    · exact h3.schemas h h'
  · refine ⟨e, ?_, h3⟩
    cases t <;> simp only [importLayout, h2]

/-- C36. Released structures are reported as such. -/
theorem C36_released :
    (array.release = none → importLayout m t nl array schema = .err .releasedArray) ∧
    (array.release ≠ none → schema.release = none →
      importLayout m t nl array schema = .err .releasedSchema) := by
  constructor
  · intro h
    cases t <;> simp [importLayout, validate, CArray.isReleased, h]
  · intro h h'
    have : array.release.isNone = false := by
      cases hr : array.release with
      | none => exact absurd hr h
      | some _ => rfl
    cases t <;> simp [importLayout, validate, CArray.isReleased, CSchema.isReleased, this, h']

/-- The sample has a child with one item missing: the only defect. -/
example : importLayout FfiSample.mem Sample.ty true
    { FfiSample.array with children := some [some { FfiSample.pairsArray with length := 2#64 }] }
    FfiSample.schema = .err (.fixedSizeListLengthMismatch 2 6 2) := rfl

example : Defect FfiSample.mem Sample.ty true
    { FfiSample.array with children := some [some { FfiSample.pairsArray with length := 2#64 }] }
    FfiSample.schema (.fixedSizeListLengthMismatch 2 6 2) :=
  .child (schema' := FfiSample.pairsSchema) rfl rfl rfl
    (.fixedSizeListLengthMismatch (n := 2) (array' := FfiSample.bitsArray)
      (array := { FfiSample.pairsArray with length := 2#64 }) rfl (by decide))

/-! ## C37 -/

/-- C37. What was exported with one item type is imported with no other. -/
theorem C37_same_type {S T : Ty} {nl nl' : Bool} {c : (arrayR nl S).C} {a : APlace nl S} {next : Nat}
    (hS : Exportable S) (hT : Exportable T)
    (h : (exportArray nl S c a next).result = .ok (.ok (array, schema))) {r}
    (h' : importLayout m T nl' array schema = .ok r) : S = T ∧ nl = nl' := by
  obtain ⟨k, rfl⟩ := export_schema h
  exact schema_unique T S nl nl' k array hS hT ⟨r, h'⟩

/-- C37. The structure of the array does not matter: the schema decides. -/
theorem C37_schema_decides {S T : Ty} {nl nl' : Bool} {c : (arrayR nl S).C} {a : APlace nl S} {next : Nat}
    {other : CArray} (hS : Exportable S) (hT : Exportable T)
    (h : (exportArray nl S c a next).result = .ok (.ok (array, schema))) {r}
    (h' : importLayout m T nl' other schema = .ok r) : S = T ∧ nl = nl' := by
  obtain ⟨k, rfl⟩ := export_schema h
  exact schema_unique T S nl nl' k other hS hT ⟨r, h'⟩

/-! ## C38 -/

/-- C38. A format is accepted for width `n` exactly when it is `+w:` followed by a
non-empty decimal numeral of value `n`, provided `n` is a `usize`. -/
theorem C38_accepts_iff {n : Nat} {nl' : Bool} {f : List Byte} :
    matchesFormat (.fsl n nl' t) f = true ↔
      n < 2 ^ 64 ∧ ∃ digits, f = bytesOf "+w:" ++ digits ∧ IsNumeral digits ∧ numeral digits = n :=
  matchesWidth_iff.trans (and_congr_left' (by unfold usizeMax; omega))

/-- C38. The format printed for a width is accepted for this width only. -/
theorem C38_round_trip {n k : Nat} {nl' nl'' : Bool} {t' : Ty} (hn : n < 2 ^ 64) :
    matchesFormat (.fsl k nl'' t') (formatOf (.fsl n nl' t)) = true ↔ n = k := by
  rw [C38_accepts_iff]
  constructor
  · rintro ⟨_, digits, h1, _, h2⟩
    have : decimal n = digits := List.append_cancel_left (as := bytesOf "+w:") h1
    rw [← this, (decimal_spec n).2] at h2
    exact h2
  · rintro rfl
    exact ⟨hn, decimal n, rfl, (decimal_spec n).1, (decimal_spec n).2⟩

/-- C38. Numerals beyond `usize` are rejected for every width. -/
theorem C38_no_wrap {n : Nat} {nl' : Bool} {digits : List Byte}
    (h : 2 ^ 64 ≤ numeral digits) :
    matchesFormat (.fsl n nl' t) (bytesOf "+w:" ++ digits) = false := by
  cases he : matchesFormat (.fsl n nl' t) (bytesOf "+w:" ++ digits) with
  | false => rfl
  | true =>
    obtain ⟨h1, d, h2, _, h3⟩ := C38_accepts_iff.1 he
    have := List.append_cancel_left h2
    subst this
    omega

theorem decimal_head {n : Nat} (h : n ≠ 0) : (decimal n).head? ≠ some 48#8 := by
  induction n using Nat.strongRecOn with
  | ind n ih =>
    rw [decimal]
    split
    · rename_i h10
      intro he
      have he := congrArg BitVec.toNat (Option.some.inj he)
      simp only [BitVec.toNat_ofNat] at he
      omega
    · have h1 : (decimal (n / 10)).head? ≠ some 48#8 := ih (n / 10) (by omega) (by omega)
      have h2 := (decimal_spec (n / 10)).1.1
      cases hd : decimal (n / 10) with
      | nil => exact absurd hd h2
      | cons d l => rw [hd] at h1; exact h1

/-- C38. The width is printed as a decimal numeral without leading zeros. -/
theorem C38_canonical {n : Nat} {nl' : Bool} : ∃ digits, formatOf (.fsl n nl' t) = bytesOf "+w:" ++ digits ∧
    IsNumeral digits ∧ numeral digits = n ∧ (n ≠ 0 → digits.head? ≠ some 48#8) :=
  ⟨decimal n, rfl, (decimal_spec n).1, (decimal_spec n).2, decimal_head⟩

/-- Leading zeros are accepted. -/
example : matchesFormat (.fsl 2 false .bool) (bytesOf "+w:002") = true := rfl

/-- 2^64 + 2 does not pass for 2. -/
example : matchesFormat (.fsl 2 false .bool) (bytesOf "+w:18446744073709551618") = false := rfl

/-! ## C39 -/

/-- C39. The known null count of an imported array is the number of its null
items. -/
theorem C39_known_count (he : Exportable t) (hs : Safe m t nl array schema)
    {c : (arrayR nl t).C} {a : APlace nl t} (h : importLayout m t nl array schema = .ok (c, a))
    (hk : 0 ≤ array.nullCount.toInt) :
    ∃ l, Shows nl t c l ∧ array.nullCount.toInt = (nulls nl l : Int) := by
  have hg := import_good m t nl array schema he hs
  rw [h] at hg
  obtain ⟨n, ht, hi⟩ := hg
  exact ⟨_, shows_of_inv ht (reach_inv hi.reach ht) rfl, imported_count hi hk⟩

/-- C39. With a validity bitmap an unknown null count is as good as the right
one. -/
theorem C39_unknown_count (he : Exportable t) {p : Nat} (hp : bufferAt array 0 = some p) (h0 : p ≠ 0) {r}
    (h : importLayout m t nl array schema = .ok r) :
    importLayout m t nl { array with nullCount := -1#64 } schema = .ok r :=
  import_unknown he hp h0 h

example : 0 ≤ FfiSample.array.nullCount.toInt ∧ bufferAt FfiSample.array 0 = some 8 := by decide

/-- A wrong count is found. -/
example : importLayout FfiSample.mem Sample.ty true { FfiSample.array with nullCount := 2#64 }
    FfiSample.schema = .err (.nullCountMismatch 2#64 1) := rfl

/-- C39, what holds of non-nullable item types: a declared positive null count is
rejected. Missing: that no null item becomes a value; this is false, see
`C39_null_becomes_value`. -/
theorem C39_non_nullable_partial (he : Exportable t) {r}
    (h : importLayout m t false array schema = .ok r) :
    array.nullCount.toInt = 0 ∨ array.nullCount.toInt = -1 := by
  obtain ⟨n, hv⟩ := import_valid he h
  have h1 := hv.nonNull rfl
  have h2 := hv.nulls
  omega

/-- The pairs of the sample, with an unknown null count and a schema that does not
announce nulls. -/
def unannounced : CArray := { FfiSample.pairsArray with nullCount := -1#64 }

/-- C39 fails for non-nullable item types: the second pair is null by the validity
bitmap the structure points to, and yet it is imported as a value. -/
theorem C39_null_becomes_value :
    (∃ p bytes, bufferAt unannounced 0 = some p ∧ p ≠ 0 ∧
      FfiSample.mem.read p 1 = some bytes ∧ unsetBits bytes 3 = 1 ∧ bit bytes 1 = false) ∧
    ∃ r, importLayout FfiSample.mem (.fsl 2 false .bool) false unannounced
        { FfiSample.pairsSchema with flags := 0#64 } = .ok r ∧
      (arrayR false (.fsl 2 false .bool)).len r.1 = .ok 3 ∧
      (arrayR false (.fsl 2 false .bool)).owned r.1 1 = .ok (some (Sample.pair false false)) :=
  ⟨⟨9, [5#8], rfl, by decide, rfl, by decide, by decide⟩, _, rfl, rfl, rfl⟩

/-- C39, what happens to the validity bitmap of a non-nullable item type: it is not looked
at, neither its address nor its content. -/
theorem C39_bitmap_ignored {p p' : Nat} {rest : List Nat} (hb : array.buffers = some (p :: rest)) :
    importLayout m t false { array with buffers := some (p' :: rest) } schema =
      importLayout m t false array schema := by
  have hv : validate false t { array with buffers := some (p' :: rest) } schema =
      validate false t array schema := by
    simp only [validate, CArray.isReleased, hb, Option.isNone_some]
  have he : entry (some (p' :: rest)) 1 = entry array.buffers 1 := by rw [hb]; rfl
  cases t with
  | bool => simp only [importLayout, hv, importBool, he, wrap]
  | prim p => simp only [importLayout, hv, importPrim, he, wrap]
  | fsl n nl' t => simp only [importLayout, hv, importFsl, importChild, wrap]
  | vsl ow nl' t => simp only [importLayout, hv, importVsl, he, importChild, wrap]

example : importLayout FfiSample.mem (.fsl 2 false .bool) false { unannounced with buffers := some [0] }
      { FfiSample.pairsSchema with flags := 0#64 } =
    importLayout FfiSample.mem (.fsl 2 false .bool) false unannounced
      { FfiSample.pairsSchema with flags := 0#64 } :=
  C39_bitmap_ignored (p := 9) rfl

end Narrow.Props
