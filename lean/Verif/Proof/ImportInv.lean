import Verif.Proof.Export
import Verif.Proof.ImportOk

/-! # What a successful import says -/

namespace Narrow.Ffi

open Narrow.Ffi.Spec Narrow.Spec

theorem Imp.bind_ok {α β : Type} {x : Imp α} {f : α → Imp β} {b : β} (h : x.bind f = .ok b) :
    ∃ a, x = .ok a ∧ f a = .ok b := by
  cases x with
  | ok a => exact ⟨a, rfl, h⟩
  | err _ => exact nomatch h
  | panic => exact nomatch h
  | ub => exact nomatch h

theorem Imp.bind_mono {α β : Type} {x : Imp α} {f g : α → Imp β} {b : β}
    (hfg : ∀ y, f y = .ok b → g y = .ok b) (h : x.bind f = .ok b) : x.bind g = .ok b := by
  cases x with
  | ok a => exact hfg a h
  | err _ => exact nomatch h
  | panic => exact nomatch h
  | ub => exact nomatch h

theorem Imp.ite_mono {α : Type} {p : Prop} [Decidable p] {e : ImportError} {y z : Imp α} {b : α}
    (hyz : y = .ok b → z = .ok b) (h : (if p then .err e else y) = .ok b) :
    (if p then .err e else z) = .ok b := by
  by_cases hp : p
  · rw [if_pos hp] at h; exact nomatch h
  · rw [if_neg hp] at h ⊢; exact hyz h

/-- The common validation of a successful import. -/
theorem import_validated {m : Mem} {t : Ty} {nl : Bool} {array : CArray} {schema : CSchema} {r}
    (h : importLayout m t nl array schema = .ok r) : ∃ n, validate nl t array schema = .ok n := by
  cases hv : validate nl t array schema with
  | ok n => exact ⟨n, rfl⟩
  | error e => cases t <;> simp [importLayout, hv] at h

theorem import_valid {m : Mem} {t : Ty} {nl : Bool} {array : CArray} {schema : CSchema} {r}
    (ht : Exportable t) (h : importLayout m t nl array schema = .ok r) :
    ∃ n, Valid nl t array schema n := by
  obtain ⟨n, h1⟩ := import_validated h
  rcases validate_cases m ht array schema with ⟨n', h2, h3⟩ | ⟨e, h2, _⟩
  · exact ⟨n', h3⟩
  · rw [h1] at h2; exact nomatch h2

theorem importChild_inv {α : Type} {array : CArray} {schema : CSchema} {f : CArray → CSchema → Imp α} {r : α}
    (h : importChild array schema f = .ok r) :
    ∃ array' schema', firstChild array = some array' ∧ firstSchema schema = some schema' ∧
      f array' schema' = .ok r := by
  unfold importChild at h
  obtain ⟨x, h1, h⟩ := Imp.bind_ok h
  cases x with
  | none => exact nomatch h
  | some array' =>
    obtain ⟨y, h2, h⟩ := Imp.bind_ok h
    cases y with
    | none => exact nomatch h
    | some schema' =>
      refine ⟨array', schema', ?_, ?_, h⟩
      · unfold entry at h1
        unfold firstChild
        cases hx : (array.children.bind (·[0]?)) with
        | none => rw [hx] at h1; exact nomatch h1
        | some z => rw [hx] at h1; cases h1; rfl
      · unfold entry at h2
        unfold firstSchema
        cases hx : (schema.children.bind (·[0]?)) with
        | none => rw [hx] at h2; exact nomatch h2
        | some z => rw [hx] at h2; cases h2; rfl

theorem import_fsl_inv {m : Mem} {w : Nat} {nl nl' : Bool} {t : Ty} {array : CArray} {schema : CSchema} {r}
    (h : importLayout m (.fsl w nl' t) nl array schema = .ok r) :
    ∃ array' schema' r', firstChild array = some array' ∧ firstSchema schema = some schema' ∧
      importLayout m t nl' array' schema' = .ok r' := by
  simp only [importLayout] at h
  split at h
  · exact nomatch h
  · unfold importFsl at h
    split at h
    · exact nomatch h
    · obtain ⟨r', h1, _⟩ := Imp.bind_ok h
      obtain ⟨a, s, h2, h3, h4⟩ := importChild_inv h1
      exact ⟨a, s, r', h2, h3, h4⟩

theorem import_vsl_inv {m : Mem} {ow : OffW} {nl nl' : Bool} {t : Ty} {array : CArray} {schema : CSchema} {r}
    (h : importLayout m (.vsl ow nl' t) nl array schema = .ok r) :
    ∃ array' schema' r', firstChild array = some array' ∧ firstSchema schema = some schema' ∧
      importLayout m t nl' array' schema' = .ok r' := by
  simp only [importLayout] at h
  split at h
  · exact nomatch h
  · unfold importVsl at h
    split at h
    · exact nomatch h
    · obtain ⟨p, _, h⟩ := Imp.bind_ok h
      split at h
      · exact nomatch h
      · split at h
        · exact nomatch h
        · obtain ⟨v, _, h⟩ := Imp.bind_ok h
          obtain ⟨r', h1, _⟩ := Imp.bind_ok h
          obtain ⟨a, s, h2, h3, h4⟩ := importChild_inv h1
          exact ⟨a, s, r', h2, h3, h4⟩

theorem schemaOf_flags (t : Ty) (nl : Bool) (k : Nat) : (schemaOf t nl k).1.flags.getLsbD 1 = nl := by
  cases t <;> (show (flagsOf nl).getLsbD 1 = nl) <;> cases nl <;> decide

/-- A schema made for one item type is accepted for no other. -/
theorem schema_unique {m : Mem} : (T S : Ty) → (nl nl' : Bool) → (k : Nat) → (array : CArray) →
    Exportable S → Exportable T →
    (∃ r, importLayout m T nl' array (schemaOf S nl k).1 = .ok r) → S = T ∧ nl = nl'
  | T, S, nl, nl', k, array, hS, hT, h => by
    obtain ⟨n, hv⟩ : ∃ n, Valid nl' T array (schemaOf S nl k).1 n := h.elim fun _ h => import_valid hT h
    obtain ⟨f, h1, h2⟩ := hv.format
    rw [schemaOf_format] at h1
    cases h1
    have hh := same_head (formatOf_ok hS) h2
    have hf : nl = nl' := (schemaOf_flags S nl k).symm.trans hv.flags
    refine ⟨?_, hf⟩
    match T, S, hS, hT, h, hh with
    | .bool, .bool, _, _, _, _ => rfl
    | .prim p, .prim q, _, _, _, hh => exact congrArg Ty.prim hh
    | .fsl n1 nl1 t1, .fsl n2 nl2 t2, hS, hT, h, hh =>
      obtain ⟨a, s, r', _, e2, e3⟩ := import_fsl_inv h.choose_spec
      cases e2
      obtain ⟨e4, e5⟩ := schema_unique t1 t2 nl2 nl1 k a hS.2 hT.2 ⟨r', e3⟩
      have hh : n2 = n1 := hh
      rw [e4, e5, hh]
    | .vsl n1 nl1 t1, .vsl n2 nl2 t2, hS, hT, h, hh =>
      obtain ⟨a, s, r', _, e2, e3⟩ := import_vsl_inv h.choose_spec
      cases e2
      obtain ⟨e4, e5⟩ := schema_unique t1 t2 nl2 nl1 k a hS hT ⟨r', e3⟩
      have hh : n2 = n1 := hh
      rw [e4, e5, hh]

/-- The schema of an exported array. -/
theorem export_schema {nl : Bool} {t : Ty} {c : (arrayR nl t).C} {a : APlace nl t} {next : Nat}
    {array : CArray} {schema : CSchema}
    (h : (exportArray nl t c a next).result = .ok (.ok (array, schema))) :
    ∃ k, schema = (schemaOf t nl k).1 := by
  unfold exportArray at h
  split at h
  · simp at h
  · split at h
    · simp at h
    · simp at h
    · split at h
      · simp at h; exact ⟨_, h.2.symm⟩
      · simp at h

/-- Known null counts are exact. -/
theorem imported_count {m : Mem} {nl : Bool} {t : Ty} {array : CArray} {schema : CSchema} {n : Nat}
    {ht : t.WF} {c : (arrayR nl t).C} {a : APlace nl t} (h : Imported m nl t array schema n ht c a)
    (h0 : 0 ≤ array.nullCount.toInt) :
    array.nullCount.toInt = (nulls nl ((arrayL nl t ht).abs c) : Int) := by
  have hc := reach_inv h.reach ht
  have hn := h.valid.toNat
  have hl := h.valid.length
  cases nl with
  | false => exact Int.le_antisymm (h.valid.nonNull rfl) h0
  | true =>
    cases hb : (c : Validity (baseR t).C).bitmap with
    | none =>
      have h1 : nulls true ((arrayL true t ht).abs c) = 0 := nulls_of_map (node_abs_none hb ht)
      rw [h1]
      have hw := h.borrows.1
      obtain ⟨coll, bitmap⟩ := c
      change bitmap = none at hb
      subst hb
      have hw : bufferAt array 0 = some 0 := hw
      by_cases hz : array.nullCount.toInt = 0
      · exact hz
      · by_cases hlen : array.length.toInt = 0
        · have := h.valid.nulls; omega
        · exact absurd (Defect.missingValidityBuffer hw hlen hz) (h.clean _)
    | some b =>
      have hw := h.borrows.1
      obtain ⟨coll, bitmap⟩ := c
      change bitmap = some b at hb
      subst hb
      obtain ⟨p, hp, h1, h2, h3, h4, h5⟩ := (hw : ∃ p, p ≠ 0 ∧ bufferAt array 0 = some p ∧ _)
      have hbits : b.bits ≤ ((baseL t ht).abs coll).length := (hc.2 b rfl).2
      have e1 : nulls true ((arrayL true t ht).abs (⟨coll, some b⟩ : Validity (baseR t).C)) =
          b.abs.countP (! ·) := nulls_of_mask (l := (arrayL true t ht).abs (⟨coll, some b⟩ : Validity (baseR t).C))
            rfl (by rw [Bitmap.abs_length]; exact hbits)
      have e2 : unsetBits b.buffer.items array.length.toNat = b.abs.countP (! ·) := by
        refine unset_count ?_
        rw [← h3]
        simp only [Bitmap.abs, h4, Nat.zero_add]
      rw [e1, ← e2]
      exact Decidable.byContradiction fun hne =>
        h.clean _ (Defect.nullCountMismatch h1 hp h5 h0 hne)

/-! ## Unknown null counts -/

/-- The structure with an unknown null count. -/
def unknown (array : CArray) : CArray := { array with nullCount := -1#64 }

theorem wrap_unknown {m : Mem} {array : CArray} {O : Type} {R : Realloc O} {P : Type} {c : R.C} {a : P}
    {nl : Bool} {p : Nat} {r} (hp : bufferAt array 0 = some p) (h0 : p ≠ 0)
    (h : wrap m array R c a nl = .ok r) : wrap m (unknown array) R c a nl = .ok r := by
  cases nl with
  | false => exact h
  | true =>
    unfold wrap at h ⊢
    obtain ⟨p', h1, h⟩ := Imp.bind_ok h
    rw [entry_some hp] at h1; cases h1
    have e : entry (unknown array).buffers 0 = .ok p := entry_some (array := unknown array) hp
    rw [e]
    obtain ⟨len, h2, h⟩ := Imp.bind_ok h
    obtain ⟨v, h3, h⟩ := Imp.bind_ok h
    rw [if_neg h0] at h3
    show Imp.bind _ _ = _
    rw [h2]
    show Imp.bind (if p = 0 then _ else _) _ = _
    rw [if_neg h0, h3]
    show Imp.ok _ = _
    split at h
    · obtain ⟨k, _, h⟩ := Imp.bind_ok h
      split at h
      · exact nomatch h
      · exact h
    · exact h

theorem validate_unknown {m : Mem} {t : Ty} {nl : Bool} {array : CArray} {schema : CSchema} {n : Nat}
    (ht : Exportable t) (h : validate nl t array schema = .ok n) :
    validate nl t (unknown array) schema = .ok n := by
  rcases validate_cases m ht array schema (nl := nl) with ⟨n', h2, h3⟩ | ⟨e, h2, _⟩
  · rw [h] at h2; cases h2
    have e : (unknown array).nullCount.toInt = -1 := by
      show (-1#64 : BitVec 64).toInt = -1; decide
    exact validate_ok ht ⟨h3.live, h3.schemaLive, h3.format, h3.flags, h3.length, h3.offset,
      by rw [e]; omega, fun _ => by rw [e]; decide, h3.nBuffers, h3.nChildren, h3.nSchemas, h3.dictionary,
      h3.schemaDictionary, h3.buffers, h3.children, h3.schemas⟩
  · rw [h] at h2; exact nomatch h2

theorem import_unknown {m : Mem} {t : Ty} {nl : Bool} {array : CArray} {schema : CSchema} {p : Nat} {r}
    (ht : Exportable t) (hp : bufferAt array 0 = some p) (h0 : p ≠ 0)
    (h : importLayout m t nl array schema = .ok r) :
    importLayout m t nl (unknown array) schema = .ok r := by
  obtain ⟨n, hv⟩ := import_validated h
  have hv' := validate_unknown (m := m) ht hv
  cases t with
  | bool =>
    simp only [importLayout, hv, hv'] at h ⊢
    unfold importBool at h ⊢
    exact Imp.bind_mono (fun _ => Imp.bind_mono fun _ => wrap_unknown hp h0) h
  | prim q =>
    simp only [importLayout, hv, hv'] at h ⊢
    unfold importPrim at h ⊢
    exact Imp.bind_mono (fun _ => wrap_unknown hp h0) h
  | fsl w nl' t =>
    simp only [importLayout, hv, hv'] at h ⊢
    unfold importFsl at h ⊢
    exact Imp.ite_mono (Imp.bind_mono fun _ => Imp.bind_mono fun _ => Imp.ite_mono <|
      Imp.bind_mono fun _ => Imp.bind_mono fun _ => wrap_unknown hp h0) h
  | vsl ow nl' t =>
    simp only [importLayout, hv, hv'] at h ⊢
    unfold importVsl at h ⊢
    split at h
    · exact nomatch h
    · rename_i k hk
      exact Imp.bind_mono (fun _ => Imp.ite_mono <| Imp.ite_mono <| Imp.bind_mono fun _ =>
        Imp.bind_mono fun _ => Imp.bind_mono fun u => by
          cases u with
          | error e => exact fun h => nomatch h
          | ok o => exact wrap_unknown hp h0) h

end Narrow.Ffi
