import Verif.Proof.Import
import Verif.Spec.Uninterrupted

/-! # Importing, buffer by buffer -/

namespace Narrow.Ffi

open Narrow.Ffi.Spec Narrow.Spec

theorem bit_eq (bytes : List Byte) (i : Nat) : bit bytes i = bitAt bytes i := by
  unfold bit bitAt
  rw [List.getD_eq_getElem?_getD]
  cases bytes[i / 8]? <;> simp

/-- The bitmap over borrowed bytes. -/
def borrowedBits (bytes : List Byte) (n : Nat) : Bitmap := ⟨borrowed bytes, n, 0⟩

theorem borrowed_wf {α : Type} {l : List α} {lim : Nat} (h : l.length ≤ lim) : (borrowed l).WF lim :=
  ⟨Nat.le_refl _, h⟩

theorem bytesFor_le {n : Nat} : n ≤ 8 * bytesFor n := by unfold bytesFor; omega

theorem borrowedBits_inv {bytes : List Byte} {n : Nat} (h : bytes.length = bytesFor n)
    (hb : bytes.length ≤ byteMax) : (borrowedBits bytes n).Inv :=
  ⟨borrowed_wf hb, by
    have := @bytesFor_le n
    show 0 + n ≤ 8 * bytes.length
    omega⟩

theorem tryFromParts_borrowed {bytes : List Byte} {n : Nat} (h : bytes.length = bytesFor n)
    (hb : bytes.length ≤ byteMax) :
    Bitmap.tryFromParts (borrowed bytes) n 0 = .ok (borrowedBits bytes n) :=
  Bitmap.tryFromParts_ok (borrowed_wf hb) (borrowedBits_inv h hb).le

theorem borrowedBits_unset (bytes : List Byte) (n : Nat) :
    (borrowedBits bytes n).abs.count false = unsetBits bytes n := by
  simp only [Bitmap.abs, borrowedBits, borrowed, unsetBits, List.count, List.countP_map,
    Function.comp_def, Nat.zero_add, bit_eq]
  apply List.countP_congr
  intro i _
  cases bitAt bytes i <;> simp

theorem nullCount_borrowed {C : Type} (c : C) {bytes : List Byte} {n : Nat}
    (h : bytes.length = bytesFor n) (hb : bytes.length ≤ byteMax) :
    Validity.nullCount (⟨c, some (borrowedBits bytes n)⟩ : Validity C) =
      .ok (unsetBits bytes n) := by
  have h1 := borrowedBits_inv h hb
  rw [← borrowedBits_unset]
  show (((borrowedBits bytes n).countOnes).bind fun ones => strictSub (borrowedBits bytes n).bits ones) = _
  rw [Bitmap.countOnes_ok h1]
  have h2 : (borrowedBits bytes n).abs.count true + (borrowedBits bytes n).abs.count false =
      (borrowedBits bytes n).bits := by
    have := List.length_eq_countP_add_countP (p := fun b : Bool => b == true)
      (l := (borrowedBits bytes n).abs)
    rw [Bitmap.abs_length] at this
    rw [this]
    simp only [List.count, Nat.add_left_cancel_iff]
    apply List.countP_congr
    intro b _
    cases b <;> simp
  show (if _ ≤ _ then _ else _) = _
  rw [if_pos (by omega)]
  congr 1; omega

theorem divCeil8_eq (n : Nat) : divCeil8 n = bytesFor n := rfl

theorem divCeil8_zero {n : Nat} : divCeil8 n = 0 ↔ n = 0 := by unfold divCeil8; omega

theorem entry_some {array : CArray} {i p : Nat} (h : bufferAt array i = some p) :
    entry array.buffers i = .ok p := by
  unfold entry; unfold bufferAt at h; rw [h]; rfl

/-- `wrap` with a nullable type. -/
theorem wrap_true {m : Mem} {array : CArray} {O : Type} {R : Realloc O} (L : LawfulR R) {P : Type}
    {c : R.C} {a : P} {n p : Nat} (hc : L.Inv c) (hn : (L.abs c).length = n)
    (hp : bufferAt array 0 = some p)
    (hnc : -1 ≤ array.nullCount.toInt ∧ array.nullCount.toInt ≤ n) :
    wrap m array R c a true =
      if p = 0 then
        if array.nullCount.toInt = 0 ∨ n = 0 then
          .ok (((⟨c, none⟩ : Validity R.C), (a, none)) : Validity R.C × (P × Option Nat))
        else .err .missingValidityBuffer
      else
        match m.read p (bytesFor n) with
        | none => .ub
        | some bytes =>
          if 0 ≤ array.nullCount.toInt ∧ array.nullCount.toInt ≠ (unsetBits bytes n : Int) then
            .err (.nullCountMismatch array.nullCount (unsetBits bytes n))
          else .ok (((⟨c, some (borrowedBits bytes n)⟩ : Validity R.C), (a, some p)) :
            Validity R.C × (P × Option Nat)) := by
  have hlen : R.len c = .ok n := by rw [L.len_ok hc, hn]
  have hz : array.nullCount = 0#64 ↔ array.nullCount.toInt = 0 := by
    rw [i64_ext]; rfl
  simp only [wrap, entry_some hp, Imp.bind, hlen, Imp.ofRes]
  by_cases h0 : p = 0
  · rw [if_pos h0, if_pos h0]
    by_cases h1 : array.nullCount.toInt = 0 ∨ n = 0
    · rw [if_pos h1, if_pos (by rw [hz]; exact h1)]
      simp only [Validity.fromCollection]
      by_cases h2 : array.nullCount.toInt ≥ 0
      · rw [if_pos h2]
        simp only [Validity.nullCount]
        rw [if_neg]
        intro h3
        exact h3 (toUsize_some.2 (by omega))
      · rw [if_neg h2]
    · rw [if_neg h1, if_neg (by rw [hz]; exact h1)]
  · rw [if_neg h0, if_neg h0]
    rw [divCeil8_eq]
    cases hr : m.read p (bytesFor n) with
    | none => rfl
    | some bytes =>
      have hl := m.read_length hr
      have hb : bytes.length ≤ byteMax := by rw [hl]; exact m.read_le hr
      simp only [Imp.ofMem, tryFromParts_borrowed hl hb, Imp.expectOk,
        Validity.tryFromParts, hlen, Res.map]
      have : n = (borrowedBits bytes n).bits := rfl
      rw [if_pos this]
      simp only []
      by_cases h2 : array.nullCount.toInt ≥ 0
      · rw [if_pos h2, nullCount_borrowed c hl hb]
        simp only []
        by_cases h3 : array.nullCount.toInt = (unsetBits bytes n : Int)
        · rw [if_neg (fun h => h (toUsize_some.2 h3)), if_neg (fun h => h.2 h3)]
        · rw [if_pos (fun h => h3 (toUsize_some.1 h)), if_pos ⟨h2, h3⟩]
      · rw [if_neg h2, if_neg (fun h => h2 h.1)]

/-- Importing booleans. -/
theorem importBool_eq {m : Mem} {array : CArray} {n p : Nat} (nl : Bool)
    (hp : bufferAt array 1 = some p) :
    importBool m array n nl =
      if n = 0 then wrap m array bitmapR (P := Nat) (borrowedBits [] 0) 1 nl
      else if p = 0 then .err .missingValuesBuffer
      else match m.read p (bytesFor n) with
        | none => .ub
        | some bytes => wrap m array bitmapR (P := Nat) (borrowedBits bytes n) p nl := by
  simp only [importBool, entry_some hp, Imp.bind]
  by_cases h0 : n = 0
  · subst h0
    rw [if_pos (by rfl), if_pos rfl]
    rfl
  · rw [if_neg (fun h => h0 (divCeil8_zero.1 h)), if_neg h0]
    by_cases h1 : p = 0
    · rw [if_pos h1, if_pos h1]; rfl
    · rw [if_neg h1, if_neg h1, divCeil8_eq]
      cases hr : m.read p (bytesFor n) with
      | none => rfl
      | some bytes =>
        have hl := m.read_length hr
        simp only [Imp.ofMem, tryFromParts_borrowed hl (by rw [hl]; exact m.read_le hr), Imp.expectOk]
        rfl

/-- Importing primitives. -/
theorem importPrim_eq {m : Mem} {array : CArray} {n p : Nat} (nl : Bool) (pr : Prim)
    (hp : bufferAt array 1 = some p) :
    importPrim m array n nl pr =
      if n = 0 then
        wrap m array (vecR pr.lim 0#(8 * pr.size)) (P := Nat) (borrowed []) pr.size nl
      else if p = 0 then .err .missingValuesBuffer
      else if p % pr.size ≠ 0 then .err (.misalignedValuesBuffer pr.size)
      else match m.slice pr.size p n with
        | none => .ub
        | some values =>
          wrap m array (vecR pr.lim 0#(8 * pr.size)) (P := Nat) (borrowed values) p nl := by
  simp only [importPrim, entry_some hp, Imp.bind]
  by_cases h0 : n = 0
  · rw [if_pos h0, if_pos h0]; rfl
  · rw [if_neg h0, if_neg h0]
    by_cases h1 : p = 0
    · rw [if_pos h1, if_pos h1]; rfl
    · rw [if_neg h1, if_neg h1]
      by_cases h2 : p % pr.size ≠ 0
      · rw [if_pos h2, if_pos (show p % primAlign pr ≠ 0 from h2)]; rfl
      · rw [if_neg h2, if_neg (show ¬ p % primAlign pr ≠ 0 from h2)]
        cases hr : m.slice pr.size p n <;> rfl

/-- Importing a child. -/
theorem importChild_eq {α : Type} {array : CArray} {schema : CSchema} (f : CArray → CSchema → Imp α)
    (ha : ∃ x, (array.children.bind (·[0]?)) = some x) (hs : ∃ x, (schema.children.bind (·[0]?)) = some x) :
    importChild array schema f = match firstChild array, firstSchema schema with
      | none, _ => .err .missingArrayChildren
      | some _, none => .err .missingSchemaChildren
      | some array', some schema' => f array' schema' := by
  obtain ⟨x, hx⟩ := ha
  obtain ⟨y, hy⟩ := hs
  simp only [importChild, entry, firstChild, firstSchema, hx, hy, Imp.ofMem, Imp.bind]
  cases x <;> cases y <;> rfl

theorem valid_excl {l : List Int} {k : Nat} {e : OffsetsError} (hv : ValidOffsets l k)
    (h : FirstViolation l k e) : False := by
  cases h with
  | empty h => exact hv.nonempty h
  | negative i h _ hn => have := hv.good.nonneg _ (List.getElem_mem h); omega
  | nonZeroFirst h h0 =>
    have := hv.good.first l[0] (by rw [List.head?_eq_getElem?, List.getElem?_eq_getElem h])
    omega
  | nonMonotonic i h _ _ hlt => have := hv.good.sorted i (i + 1) (by omega) h (by omega); omega
  | outOfBounds h _ hlt => have := hv.bounded; omega

/-- An imported array. -/
structure Imported (m : Mem) (nl : Bool) (t : Ty) (array : CArray) (schema : CSchema) (n : Nat)
    (ht : t.WF) (c : (arrayR nl t).C) (a : APlace nl t) : Prop where
  whole : Uninterrupted true nl t c
  len : ((arrayL nl t ht).abs c).length = n
  valid : Valid nl t array schema n
  borrows : Borrows m nl t c a array
  inMemory : InMemory m nl t c a
  clean : ∀ e, ¬ Defect m t nl array schema e

theorem Imported.reach {m : Mem} {nl : Bool} {t : Ty} {array : CArray} {schema : CSchema} {n : Nat}
    {ht : t.WF} {c : (arrayR nl t).C} {a : APlace nl t} (h : Imported m nl t array schema n ht c a) :
    Reach nl t c := h.whole.reach

/-- The importer neither panics nor reads memory it must not read; it fails with
a documented error or yields a valid array. -/
def Good (m : Mem) (nl : Bool) (t : Ty) (array : CArray) (schema : CSchema)
    (r : Imp ((arrayR nl t).C × APlace nl t)) : Prop :=
  match r with
  | .ok (c, a) => ∃ n ht, Imported m nl t array schema n ht c a
  | .err e => Defect m t nl array schema e
  | .panic => False
  | .ub => False

/-- Wrapping an imported collection of non-null items. -/
theorem wrap_good {m : Mem} {nl : Bool} {t : Ty} (ht : t.WF) {array : CArray} {schema : CSchema} {n : Nat}
    {c : (baseR t).C} {a : Place t} (hs : SafeHeader m nl array schema)
    (hv : Valid nl t array schema n)
    (hp : ∃ p, bufferAt array 0 = some p)
    (hr : Uninterrupted true false t c) (hl : ((baseL t ht).abs c).length = n)
    (hb : BorrowsValues m t c a array) (hm : BaseAt m t c a)
    (hd : ∀ e, Defect m t nl array schema e → NullDefect m nl array n) :
    Good m nl t array schema (wrap m array (baseR t) c a nl) := by
  have hi : (baseL t ht).Inv c := reach_inv hr.reach ht
  cases nl with
  | false =>
    refine ⟨n, ht, ⟨hr, hl, hv, ⟨trivial, hb⟩, hm, fun e he => ?_⟩⟩
    have := (hd e he).1
    cases this
  | true =>
    obtain ⟨p, hp⟩ := hp
    rw [wrap_true (baseL t ht) hi hl hp hv.nulls]
    by_cases h0 : p = 0
    · subst h0
      rw [if_pos rfl]
      by_cases h1 : array.nullCount.toInt = 0 ∨ n = 0
      · rw [if_pos h1]
        refine ⟨n, ht, ⟨.fromCollection hr, ?_, hv, ⟨hp, hb⟩, ⟨hm, trivial⟩, fun e he => ?_⟩⟩
        · show (Validity.abs (baseL t ht).toLawfulColl ⟨c, none⟩).length = n
          simp [Validity.abs, hl]
        · obtain ⟨_, ⟨h2, h3, h4⟩ | ⟨p, bytes, h2, h3, _⟩⟩ := hd e he
          · omega
          · rw [hp] at h2; cases h2; exact h3 rfl
      · rw [if_neg h1]
        exact .missingValidityBuffer hp (by have := hv.length; omega) (by omega)
    · rw [if_neg h0]
      have h2 := hs.validity p rfl hp h0 hv.nonneg
      rw [hv.toNat] at h2
      cases hrd : m.read p (bytesFor n) with
      | none => exact absurd hrd h2
      | some bytes =>
        have hbl := m.read_length hrd
        have hbm : bytes.length ≤ byteMax := by rw [hbl]; exact m.read_le hrd
        simp only []
        by_cases h3 : 0 ≤ array.nullCount.toInt ∧ array.nullCount.toInt ≠ (unsetBits bytes n : Int)
        · rw [if_pos h3]
          have := Defect.nullCountMismatch (m := m) (t := t) (array := array) (schema := schema) (bytes := bytes) hp h0
            (by rw [hv.toNat]; exact hrd) h3.1 (by rw [hv.toNat]; exact h3.2)
          rw [hv.toNat] at this
          exact this
        · rw [if_neg h3]
          have hbi := borrowedBits_inv hbl hbm
          refine ⟨n, ht, ⟨.validityParts (b := borrowedBits bytes n) hr
            (.bitmapParts (borrowed_wf hbm) (fun _ => rfl) (tryFromParts_borrowed hbl hbm)) ?_, ?_, hv,
            ⟨⟨p, h0, hp, rfl, hv.toNat.symm, rfl, by rw [hv.toNat]; exact hrd⟩, hb⟩,
            ⟨hm, h0, ?_⟩, fun e he => ?_⟩⟩
          · show Validity.tryFromParts (baseR t).toColl c (borrowedBits bytes n) = _
            rw [Validity.tryFromParts_eq (L := (baseL t ht).toLawfulColl) _ hi, if_pos (by rw [hl]; rfl)]
            rfl
          · show (Validity.abs (baseL t ht).toLawfulColl ⟨c, some (borrowedBits bytes n)⟩).length = n
            simp [Validity.abs, hl, borrowedBits]
          · show m.read p bytes.length = some bytes
            rw [hbl]; exact hrd
          · obtain ⟨_, ⟨h4, h5, h6⟩ | ⟨p', bytes', h4, h5, h6, h7, h8⟩⟩ := hd e he
            · rw [hp] at h4; cases h4; exact h0 rfl
            · rw [hp] at h4; cases h4
              rw [hrd] at h6; cases h6
              exact h3 ⟨h7, h8⟩

theorem table_entry {α : Type} {table : Option (List α)} {k : Int} {i : Nat} (h : table ≠ none)
    (hl : ∀ l, table = some l → k ≤ l.length) (hi : (i : Int) < k) : ∃ x, table.bind (·[i]?) = some x := by
  cases table with
  | none => exact absurd rfl h
  | some l =>
    have := hl l rfl
    exact ⟨l[i], by simp [show i < l.length by omega]⟩

theorem prim_size_pos {p : Prim} (h : (primFormat p).isSome) : 0 < p.size := by
  cases p <;> simp_all [primFormat, Prim.size]

theorem offsets_range {ow : OffW} (x : BitVec (8 * offBytes ow)) :
    -(ow.max : Int) - 1 ≤ x.toInt ∧ x.toInt ≤ ow.max := by
  have h1 := BitVec.le_toInt x
  have h2 := BitVec.toInt_lt (x := x)
  cases ow
  · simp only [offBytes, OffW.max] at *; omega
  · simp only [offBytes, OffW.max] at *; omega

/-- The importer is safe, rejects exactly what is malformed, and yields valid
arrays. -/
theorem import_good (m : Mem) : (t : Ty) → (nl : Bool) → (array : CArray) → (schema : CSchema) →
    Exportable t → Safe m t nl array schema →
    Good m nl t array schema (importLayout m t nl array schema)
  | .bool, nl, array, schema, ht, hs => by
    rcases validate_cases m (nl := nl) ht array schema with ⟨n, hn, hv⟩ | ⟨e, he, hd⟩
    · simp only [importLayout, hn]
      have hb := hv.nBuffers
      obtain ⟨p0, hp0⟩ : ∃ p, bufferAt array 0 = some p :=
        table_entry hv.buffers hs.1.buffers (by rw [hb]; simp [buffersIn])
      obtain ⟨p, hp⟩ : ∃ p, bufferAt array 1 = some p :=
        table_entry hv.buffers hs.1.buffers (by rw [hb]; simp [buffersIn])
      rw [importBool_eq nl hp]
      by_cases h0 : n = 0
      · rw [if_pos h0]
        subst h0
        refine wrap_good (t := .bool) trivial hs.1 hv ⟨p0, hp0⟩
          (.bitmapParts (borrowed_wf (Nat.zero_le _)) (fun _ => rfl) (tryFromParts_borrowed (bytes := []) (n := 0) rfl (Nat.zero_le _))) (by rfl)
          ⟨hv.toNat.symm, rfl, .inl ⟨hv.toNat, rfl⟩⟩ ⟨by decide, rfl⟩ fun e he => ?_
        rcases defect_bool he hv with h | h
        · omega
        · exact h
      · rw [if_neg h0]
        by_cases h1 : p = 0
        · rw [if_pos h1]; subst h1
          exact .missingBits hp (by have := hv.length; omega)
        · rw [if_neg h1]
          have h2 := hs.2 p hp h1 hv.nonneg
          rw [hv.toNat] at h2
          cases hr : m.read p (bytesFor n) with
          | none => exact absurd hr h2
          | some bytes =>
            have hbl := m.read_length hr
            have hbm : bytes.length ≤ byteMax := by rw [hbl]; exact m.read_le hr
            refine wrap_good (t := .bool) trivial hs.1 hv ⟨p0, hp0⟩
              (.bitmapParts (borrowed_wf hbm) (fun _ => rfl) (tryFromParts_borrowed hbl hbm)) ?_
              ⟨hv.toNat.symm, rfl, .inr ⟨hp, by rw [hv.toNat]; exact hr⟩⟩
              ⟨h1, by show m.read p bytes.length = some bytes; rw [hbl]; exact hr⟩ fun e he => ?_
            · show (Bitmap.abs _).length = n
              rw [Bitmap.abs_length]; rfl
            rcases defect_bool he hv with h | h
            · rw [hp] at h; simp at h; exact absurd h.1 h1
            · exact h
    · simp only [importLayout, he]; exact hd
  | .prim pr, nl, array, schema, ht, hs => by
    rcases validate_cases m (nl := nl) ht array schema with ⟨n, hn, hv⟩ | ⟨e, he, hd⟩
    · simp only [importLayout, hn]
      have hsz := prim_size_pos ht
      have hb := hv.nBuffers
      obtain ⟨p0, hp0⟩ : ∃ p, bufferAt array 0 = some p :=
        table_entry hv.buffers hs.1.buffers (by rw [hb]; simp [buffersIn])
      obtain ⟨p, hp⟩ : ∃ p, bufferAt array 1 = some p :=
        table_entry hv.buffers hs.1.buffers (by rw [hb]; simp [buffersIn])
      rw [importPrim_eq nl pr hp]
      by_cases h0 : n = 0
      · rw [if_pos h0]
        subst h0
        refine wrap_good (t := .prim pr) trivial hs.1 hv ⟨p0, hp0⟩
          (.vec (borrowed_wf (Nat.zero_le _))) (by rfl)
          (.inl ⟨hv.toNat, rfl⟩) ⟨by omega, by simp, rfl⟩ fun e he => ?_
        rcases defect_prim he hv with h | h
        · omega
        · exact h
      · rw [if_neg h0]
        by_cases h1 : p = 0
        · rw [if_pos h1]; subst h1
          exact .missingValues hp (by have := hv.length; omega)
        · rw [if_neg h1]
          by_cases h2 : p % pr.size ≠ 0
          · rw [if_pos h2]
            exact .misalignedValuesBuffer hp h2 (by have := hv.length; omega)
          · rw [if_neg h2]
            have h3 := hs.2 p hp h1 (by omega) hv.nonneg
            rw [hv.toNat] at h3
            cases hr : m.slice pr.size p n with
            | none => exact absurd hr h3
            | some values =>
              have hl := m.slice_length hr
              have hle := m.slice_le hsz hr
              have hlim : values.length ≤ pr.lim := by
                unfold Prim.lim
                rw [if_neg (by omega), hl]
                exact (Nat.le_div_iff_mul_le hsz).2 hle
              refine wrap_good (t := .prim pr) trivial hs.1 hv ⟨p0, hp0⟩
                (.vec (borrowed_wf hlim)) hl
                (.inr ⟨hp, by rw [hv.toNat]; exact hr⟩)
                ⟨h1, by omega, by show m.slice pr.size p values.length = some values; rw [hl]; exact hr⟩
                fun e he => ?_
              rcases defect_prim he hv with ⟨_, h | ⟨a, h, h'⟩⟩ | h
              · rw [hp] at h; simp at h; exact absurd h h1
              · rw [hp] at h; cases h; exact absurd h' h2
              · exact h
    · simp only [importLayout, he]; exact hd
  | .fsl w nl' t, nl, array, schema, ht, hs => by
    rcases validate_cases m (nl := nl) ht array schema with ⟨n, hn, hv⟩ | ⟨e, he, hd⟩
    · simp only [importLayout, hn]
      have hb := hv.nBuffers
      have hc := hv.nChildren
      have hsc := hv.nSchemas
      obtain ⟨p0, hp0⟩ : ∃ p, bufferAt array 0 = some p :=
        table_entry hv.buffers hs.1.buffers (by rw [hb]; simp [buffersIn])
      have hx := table_entry (i := 0) (hv.children (by simp [childTy])) hs.1.children (by rw [hc]; simp [childrenIn, childTy])
      have hy := table_entry (i := 0) (hv.schemas (by simp [childTy])) hs.1.schemas (by rw [hsc]; simp [childrenIn, childTy])
      unfold importFsl
      by_cases hw : w = 0
      · subst hw; exact .unsupportedFixedSizeListSize
      rw [if_neg hw, importChild_eq _ hx hy]
      cases hfc : firstChild array with
      | none => exact .missingArrayChildren (by simp [childTy]) hfc
      | some array' =>
      cases hfs : firstSchema schema with
      | none => exact .missingSchemaChildren (by simp [childTy]) hfs
      | some schema' =>
      have ih := import_good m t nl' array' schema' ht.2 (hs.2 _ _ hfc hfs)
      simp only []
      cases hres : importLayout m t nl' array' schema' with
      | panic => rw [hres] at ih; exact ih.elim
      | ub => rw [hres] at ih; exact ih.elim
      | err e => rw [hres] at ih; exact .child rfl hfc hfs ih
      | ok r =>
        obtain ⟨c, a⟩ := r
        rw [hres] at ih
        obtain ⟨k, hwf, ih⟩ := ih
        have hinv := reach_inv ih.reach hwf
        have hlen : (arrayR nl' t).len c = .ok k := by rw [(arrayL nl' t hwf).len_ok hinv, ih.len]
        have hk := ih.valid.toNat
        have hkle := ih.valid.le
        simp only [Imp.bind, hlen, Imp.ofRes]
        by_cases hmul : n * w = k
        · have hcm : checkedMul n w = some k := by
            unfold checkedMul; rw [if_pos (by unfold usizeMax; unfold i64Max at hkle; omega), hmul]
          have hmod : k % w = 0 := by rw [← hmul, Nat.mul_mod_left]
          rw [if_neg (fun h => h hcm), Flatten.tryFromParts_eq (L := (arrayL nl' t hwf).toLawfulColl) w hinv,
            if_neg hw, if_pos (by rw [ih.len]; exact hmod)]
          simp only [Imp.expectOk]
          have hfl : flatInv (nullL nl' (baseL t hwf)).toLawfulColl w ⟨c⟩ :=
            ⟨hinv, by have := ih.len; unfold arrayL at this; rw [this]; exact hmod⟩
          refine wrap_good (t := .fsl w nl' t) ⟨by omega, hwf⟩ hs.1 hv ⟨p0, hp0⟩
            (.flattenParts (f := ⟨c⟩) ih.whole ?_) ?_ ⟨array', hfc, ih.borrows.1, ih.borrows.2⟩ ih.inMemory
            fun e he => ?_
          · rw [Flatten.tryFromParts_eq (L := (arrayL nl' t hwf).toLawfulColl) w hinv,
              if_neg hw, if_pos (by rw [ih.len]; exact hmod)]
          · show (flatAbs (nullL nl' (baseL t hwf)).toLawfulColl w ⟨c⟩).length = n
            have h1 := flat_abs_length (by omega) hfl
            have h2 := ih.len
            unfold arrayL at h2
            rw [h2, ← hmul] at h1
            exact (Nat.eq_of_mul_eq_mul_right (by omega) h1).symm
          · rcases defect_fsl he hv with h | h | h | ⟨x, h, h'⟩ | ⟨x, y, h, h', h''⟩ | h
            · exact absurd h hw
            · rw [hfc] at h; cases h
            · rw [hfs] at h; cases h
            · rw [hfc] at h; cases h; rw [hk] at h'; exact absurd hmul h'
            · rw [hfc] at h; cases h; rw [hfs] at h'; cases h'
              exact absurd h'' (ih.clean e)
            · exact h
        · rw [if_pos]
          · have := Defect.fixedSizeListLengthMismatch (m := m) (n := w) (nl := nl) (nl' := nl') (t := t)
              (schema := schema) hfc (by rw [hv.toNat, hk]; exact hmul)
            rw [hv.toNat, hk] at this
            exact this
          · intro h
            unfold checkedMul at h
            split at h
            · cases h; exact hmul rfl
            · cases h
    · simp only [importLayout, he]; exact hd
  | .vsl ow nl' t, nl, array, schema, ht, hs => by
    rcases validate_cases m (nl := nl) ht array schema with ⟨n, hn, hv⟩ | ⟨e, he, hd⟩
    · simp only [importLayout, hn]
      have hb := hv.nBuffers
      have hc := hv.nChildren
      have hsc := hv.nSchemas
      have hnle := hv.le
      obtain ⟨p0, hp0⟩ : ∃ p, bufferAt array 0 = some p :=
        table_entry hv.buffers hs.1.buffers (by rw [hb]; simp [buffersIn])
      obtain ⟨p, hp⟩ : ∃ p, bufferAt array 1 = some p :=
        table_entry hv.buffers hs.1.buffers (by rw [hb]; simp [buffersIn])
      have hx := table_entry (i := 0) (hv.children (by simp [childTy])) hs.1.children (by rw [hc]; simp [childrenIn, childTy])
      have hy := table_entry (i := 0) (hv.schemas (by simp [childTy])) hs.1.schemas (by rw [hsc]; simp [childrenIn, childTy])
      have hca : checkedAdd n 1 = some (n + 1) := by
        unfold checkedAdd; rw [if_pos]; unfold i64Max at hnle; unfold usizeMax; omega
      have hsz : 0 < offBytes ow := by cases ow <;> decide
      have hoff : offAlign ow = offsetBytes ow := by cases ow <;> rfl
      simp only [importVsl, hca, entry_some hp, Imp.bind]
      by_cases h1 : p = 0
      · rw [if_pos h1]; subst h1; exact .missingOffsetsBuffer hp
      rw [if_neg h1]
      by_cases h2 : p % offAlign ow ≠ 0
      · rw [if_pos h2, hoff]; exact .misalignedOffsetsBuffer hp (by rw [← hoff]; exact h2)
      rw [if_neg h2]
      have h3 := hs.2.1 p hp h1 (by rw [← hoff]; omega) hv.nonneg
      rw [hv.toNat] at h3
      cases hr : m.slice (offBytes ow) p (n + 1) with
      | none => exact absurd hr h3
      | some values =>
      simp only [Imp.ofMem]
      rw [importChild_eq _ hx hy]
      cases hfc : firstChild array with
      | none => exact .missingArrayChildren (by simp [childTy]) hfc
      | some array' =>
      cases hfs : firstSchema schema with
      | none => exact .missingSchemaChildren (by simp [childTy]) hfs
      | some schema' =>
      have ih := import_good m t nl' array' schema' ht (hs.2.2 _ _ hfc hfs)
      simp only []
      cases hres : importLayout m t nl' array' schema' with
      | panic => rw [hres] at ih; exact ih.elim
      | ub => rw [hres] at ih; exact ih.elim
      | err e => rw [hres] at ih; exact .child rfl hfc hfs ih
      | ok r =>
        obtain ⟨c, a⟩ := r
        rw [hres] at ih
        obtain ⟨k, hwf, ih⟩ := ih
        have hinv := reach_inv ih.reach hwf
        have hk := ih.valid.toNat
        have hl := m.slice_length hr
        have hle := m.slice_le hsz hr
        have hlim : (borrowed (values.map BitVec.toInt)).WF ow.lim := by
          apply borrowed_wf
          rw [List.length_map, hl]
          cases ow <;> simp only [offBytes, OffW.lim] at * <;> omega
        simp only []
        by_cases hval : ValidOffsets (borrowed (values.map BitVec.toInt)).items
            ((arrayL nl' t hwf).abs c).length
        · have htp := Offsets.tryFromParts_valid (L := (arrayL nl' t hwf).toLawfulColl) hinv hval
          have hoi := (Offsets.tryFromParts_inv (L := (arrayL nl' t hwf).toLawfulColl) (ow := ow) hinv hlim htp).2.2
          rw [htp]
          simp only [Imp.ofRes]
          refine wrap_good (t := .vsl ow nl' t) hwf hs.1 hv ⟨p0, hp0⟩
            (.offsetsParts ih.whole hlim ?_ htp) ?_
            ⟨hp, by rw [hv.toNat, hr]; rfl, array', hfc, ih.borrows.1, ih.borrows.2⟩
            ⟨⟨h1, by rw [← hoff]; show p % _ = 0; omega, ?_⟩, ih.inMemory⟩ fun e he => ?_
          · intro o ho
            obtain ⟨x, _, rfl⟩ := List.mem_map.1 ho
            exact offsets_range x
          · show (Offsets.abs (nullL nl' (baseL t hwf)).toLawfulColl
              ⟨c, borrowed (values.map BitVec.toInt)⟩).length = n
            have h4 := congrArg List.length hoi.2.items
            rw [Offsets.totals_length] at h4
            have h5 : (borrowed (values.map BitVec.toInt)).items.length = n + 1 := by
              show (values.map BitVec.toInt).length = n + 1
              rw [List.length_map, hl]
            have h6 : (Offsets.abs (arrayL nl' t hwf).toLawfulColl
              ⟨c, borrowed (values.map BitVec.toInt)⟩).length = n := by
              simp only [] at h4; omega
            exact h6
          · show (m.slice (offBytes ow) p (values.map BitVec.toInt).length).map _ = _
            rw [List.length_map, hl, hr]; rfl
          · rcases defect_vsl he hv with h | h | h | ⟨x, y, z, v, h, h', h'', h'''⟩ | ⟨x, y, h, h', h''⟩ | h
            · rw [hfc] at h; cases h
            · rw [hfs] at h; cases h
            · rcases h with h | ⟨x, h, h'⟩
              · rw [hp] at h; cases h; exact absurd rfl h1
              · rw [hp] at h; cases h; rw [← hoff] at h'; exact absurd h' h2
            · rw [hp] at h; cases h; rw [hr] at h'; cases h'; rw [hfc] at h''; cases h''
              rw [hk, ← ih.len] at h'''
              exact (valid_excl hval h''').elim
            · rw [hfc] at h; cases h; rw [hfs] at h'; cases h'
              exact absurd h'' (ih.clean e)
            · exact h
        · obtain ⟨e, he, hfv⟩ := Offsets.tryFromParts_invalid (L := (arrayL nl' t hwf).toLawfulColl) hinv hval
          rw [he]
          simp only [Imp.ofRes]
          exact .invalidOffsets hp (by rw [hv.toNat]; exact hr) hfc (by rw [hk, ← ih.len]; exact hfv)
    · simp only [importLayout, he]; exact hd

end Narrow.Ffi
