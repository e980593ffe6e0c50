import Verif.Proof.Described
import Verif.Model.Export

/-! # Exporting -/

namespace Narrow.Ffi

open Narrow.Ffi.Spec Narrow.Spec

/-! ## Lengths fit in `i64` -/

theorem bits_le {m : Mem} {b : Bitmap} {a : Nat} (hb : b.Inv) (hm : BitsAt m b a) : b.abs.length ≤ i64Max := by
  rw [Bitmap.abs_length]
  have h1 := hb.le
  have h0 := hm.1
  by_cases h : b.buffer.items.length = 0
  · unfold i64Max; omega
  · have := m.read_bound hm.2 (by omega)
    unfold byteMax at this; unfold i64Max; omega

theorem slice_len_le {m : Mem} {k p n : Nat} {l} (hk : 0 < k) (h : m.slice k p n = some l) : n ≤ byteMax := by
  have := m.slice_le hk h
  exact Nat.le_trans (Nat.le_mul_of_pos_right n hk) this

theorem base_len_le {m : Mem} : (t : Ty) → (ht : t.WF) → Exportable t → (c : (baseR t).C) → (a : Place t) →
    (baseL t ht).Inv c → BaseAt m t c a → ((baseL t ht).abs c).length ≤ i64Max
  | .bool, _, _, _, _, hc, hm => bits_le hc hm
  | .prim p, ht, he, c, a, hc, hm =>
    Nat.le_trans (slice_len_le (prim_size_pos he) hm.2.2) (by unfold byteMax i64Max; omega)
  | .fsl w nl t, ht, he, c, a, hc, hm => by
    have hi : (arrayL nl t ht.2).Inv (c : Flatten (arrayR nl t).C).child := hc.1
    have hm' : InMemory m nl t (c : Flatten (arrayR nl t).C).child a := hm
    have ih := base_len_le t ht.2 he.2 _ _ (inv_values (t := t) ht.2 hi) (memory_base hm')
    have h1 := Nat.le_trans (length_values ht.2 hi) ih
    have h2 : ((arrayL nl t ht.2).abs (c : Flatten (arrayR nl t).C).child).length =
      ((baseL (.fsl w nl t) ht).abs c).length * w :=
      flat_abs_length (L := (nullL nl (baseL t ht.2)).toLawfulColl) ht.1 hc
    rw [h2] at h1
    exact Nat.le_trans (Nat.le_mul_of_pos_right _ ht.1) h1
  | .vsl ow nl t, ht, he, c, a, hc, hm => by
    obtain ⟨vals, h1, _⟩ := Option.map_eq_some_iff.1 hm.1.2.2
    have h2 := slice_len_le (show 0 < offBytes ow by cases ow <;> decide) h1
    have h3 := congrArg List.length hc.2.items
    rw [Offsets.totals_length] at h3
    have h4 : ((baseL (.vsl ow nl t) ht).abs c).length + 1 =
      (c : Offsets (arrayR nl t).C).offsets.items.length := h3.symm
    rw [← h4] at h2
    unfold byteMax at h2; unfold i64Max; omega

theorem len_le {m : Mem} {nl : Bool} {t : Ty} (ht : t.WF) (he : Exportable t) {c : (arrayR nl t).C}
    {a : APlace nl t} (hc : (arrayL nl t ht).Inv c) (hm : InMemory m nl t c a) :
    ((arrayL nl t ht).abs c).length ≤ i64Max :=
  Nat.le_trans (length_values ht hc) (base_len_le t ht he _ _ (inv_values ht hc) (memory_base hm))

theorem null_count_of {nl : Bool} {t : Ty} (ht : t.WF) {c : (arrayR nl t).C}
    (hc : (arrayL nl t ht).Inv c) (hl : ((arrayL nl t ht).abs c).length ≤ i64Max) :
    nullCountOf nl t c = .ok (BitVec.ofNat 64 (nulls nl ((arrayL nl t ht).abs c))) := by
  cases nl with
  | false => rfl
  | true =>
    have h1 : Validity.nullCount (c : Validity (baseR t).C) = .ok (nulls true ((arrayL true t ht).abs c)) :=
      Props.null_count_ok (L := (baseL t ht).toLawfulColl) hc
    show (Validity.nullCount (c : Validity (baseR t).C)).bind toI64 = _
    rw [h1]
    exact toI64_ok (Nat.le_trans (nulls_le (nl := true) _) hl)

theorem len_of {nl : Bool} {t : Ty} (ht : t.WF) {c : (arrayR nl t).C}
    (hc : (arrayL nl t ht).Inv c) (hl : ((arrayL nl t ht).abs c).length ≤ i64Max) :
    ((arrayR nl t).len c).bind toI64 = .ok (BitVec.ofNat 64 ((arrayL nl t ht).abs c).length) := by
  rw [(arrayL nl t ht).len_ok hc]
  exact toI64_ok hl

/-! ## Bit offsets -/

/-- The first non-zero entry. -/
def firstNonZero (l : List Nat) : Option Nat := l.find? (· ≠ 0)

theorem firstNonZero_append (l k : List Nat) :
    firstNonZero (l ++ k) = (firstNonZero l).or (firstNonZero k) := List.find?_append

theorem firstNonZero_none {l : List Nat} : firstNonZero l = none ↔ ∀ o ∈ l, o = 0 := by
  simp [firstNonZero]

/-- Bit offsets of the child. -/
def kidOffsets : (t : Ty) → (baseR t).C → List Nat
  | .bool, _ => []
  | .prim _, _ => []
  | .fsl _ nl t, (c : Flatten (arrayR nl t).C) => bitOffsets nl t c.child
  | .vsl _ nl t, (c : Offsets (arrayR nl t).C) => bitOffsets nl t c.data

theorem firstNonZero_single (o : Nat) : firstNonZero [o] = if o = 0 then none else some o := by
  by_cases h : o = 0 <;> simp [firstNonZero, h]

theorem firstOf_two (x y : Nat) : (if x ≠ 0 then some x else if y = 0 then none else some y) =
    if (if x ≠ 0 then x else y) ≠ 0 then some (if x ≠ 0 then x else y) else none := by
  by_cases h : x = 0 <;> by_cases h2 : y = 0 <;> simp [h, h2]

/-- Own bit offsets, then those of the child. -/
theorem offsets_split (nl : Bool) (t : Ty) (c : (arrayR nl t).C) :
    firstNonZero (bitOffsets nl t c) =
      if offsetOf nl t c ≠ 0 then some (offsetOf nl t c)
      else firstNonZero (kidOffsets t (valuesOf (baseR t) nl c)) := by
  cases nl with
  | false =>
    cases t with
    | bool =>
      show firstNonZero [(c : Bitmap).offset] = if (c : Bitmap).offset ≠ 0 then some (c : Bitmap).offset else none
      rw [firstNonZero_single]; by_cases h : (c : Bitmap).offset = 0 <;> simp [h]
    | prim p => rfl
    | fsl w nl' t => rfl
    | vsl ow nl' t => rfl
  | true =>
    obtain ⟨coll, bitmap⟩ := c
    have key : ∀ (l : List Nat), firstNonZero ((bitmap.toList.map Bitmap.offset) ++ l) =
        if bitmapOffset bitmap ≠ 0 then some (bitmapOffset bitmap) else firstNonZero l := by
      intro l
      cases bitmap with
      | none => rfl
      | some b =>
        rw [firstNonZero_append]
        show (firstNonZero [b.offset]).or _ = if b.offset ≠ 0 then some b.offset else _
        rw [firstNonZero_single]
        by_cases h : b.offset = 0 <;> simp [h]
    refine (key (baseOffsets t coll)).trans ?_
    cases t with
    | bool =>
      show (if bitmapOffset bitmap ≠ 0 then some (bitmapOffset bitmap) else firstNonZero [(coll : Bitmap).offset]) =
        if (if bitmapOffset bitmap ≠ 0 then bitmapOffset bitmap else (coll : Bitmap).offset) ≠ 0 then
          some (if bitmapOffset bitmap ≠ 0 then bitmapOffset bitmap else (coll : Bitmap).offset) else none
      rw [firstNonZero_single]
      exact firstOf_two _ _
    | prim p => rfl
    | fsl w nl' t => rfl
    | vsl ow nl' t => rfl

/-! ## The tree of children -/

/-- The exported children of an array of non-null items, with the numbers of their
boxes. -/
def Kids : (t : Ty) → (baseR t).C → Place t → List CArray → Nat → Nat → Prop
  | .bool, _, _, kids, lo, hi => kids = [] ∧ hi = lo
  | .prim _, _, _, kids, lo, hi => kids = [] ∧ hi = lo
  | .fsl _ nl t, (c : Flatten (arrayR nl t).C), (a : APlace nl t), kids, lo, hi =>
    ∃ kids' mid l, Kids t (valuesOf (baseR t) nl c.child) (valuesPlace nl a) kids' lo mid ∧
      Reads (arrayR nl t).toColl c.child l ∧ l.length ≤ i64Max ∧
      kids = [intoArray mid none (buffersOf nl t c.child a) kids' (BitVec.ofNat 64 l.length)
        (BitVec.ofNat 64 (nulls nl l))] ∧ hi = mid + 1
  | .vsl _ nl t, (c : Offsets (arrayR nl t).C), (a : Nat × APlace nl t), kids, lo, hi =>
    ∃ kids' mid l, Kids t (valuesOf (baseR t) nl c.data) (valuesPlace nl a.2) kids' lo mid ∧
      Reads (arrayR nl t).toColl c.data l ∧ l.length ≤ i64Max ∧
      kids = [intoArray mid none (buffersOf nl t c.data a.2) kids' (BitVec.ofNat 64 l.length)
        (BitVec.ofNat 64 (nulls nl l))] ∧ hi = mid + 1

theorem childArray_ok {m : Mem} {nl : Bool} {t : Ty} (ht : t.WF) (he : Exportable t) {c : (arrayR nl t).C}
    {a : APlace nl t} (hc : (arrayL nl t ht).Inv c) (hm : InMemory m nl t c a)
    (children : Built (List CArray)) :
    childArray nl t c a children =
      if offsetOf nl t c ≠ 0 then .ok (.error (.nonZeroOffset (offsetOf nl t c)))
      else children.map fun r =>
        match r with
        | .error e => .error e
        | .ok (kids, next) => .ok (intoArray next none (buffersOf nl t c a) kids
            (BitVec.ofNat 64 ((arrayL nl t ht).abs c).length)
            (BitVec.ofNat 64 (nulls nl ((arrayL nl t ht).abs c))), next + 1) := by
  have hl := len_le ht he hc hm
  unfold childArray
  rw [len_of ht hc hl, null_count_of ht hc hl]
  rfl

theorem fslChild_eq {w : Nat} {nl nl' : Bool} {t : Ty} (c : (arrayR nl (.fsl w nl' t)).C) :
    fslChild nl c = (valuesOf (baseR (.fsl w nl' t)) nl c : Flatten (arrayR nl' t).C).child := by
  cases nl <;> rfl

theorem fslPlace_eq {w : Nat} {nl nl' : Bool} {t : Ty} (a : APlace nl (.fsl w nl' t)) :
    fslPlace nl a = (valuesPlace nl a : APlace nl' t) := by
  cases nl <;> rfl

theorem vslChild_eq {ow : OffW} {nl nl' : Bool} {t : Ty} (c : (arrayR nl (.vsl ow nl' t)).C) :
    vslChild nl c = (valuesOf (baseR (.vsl ow nl' t)) nl c : Offsets (arrayR nl' t).C).data := by
  cases nl <;> rfl

theorem vslPlace_eq {ow : OffW} {nl nl' : Bool} {t : Ty} (a : APlace nl (.vsl ow nl' t)) :
    vslPlace nl a = (valuesPlace nl a : Nat × APlace nl' t).2 := by
  cases nl <;> rfl

theorem children_ok {m : Mem} : (t : Ty) → (nl : Bool) → (ht : t.WF) → Exportable t →
    (c : (arrayR nl t).C) → (a : APlace nl t) → (next : Nat) → (arrayL nl t ht).Inv c →
    InMemory m nl t c a →
    (∀ k, firstNonZero (kidOffsets t (valuesOf (baseR t) nl c)) = some k →
      childrenOf t nl c a next = .ok (.error (.nonZeroOffset k))) ∧
    (firstNonZero (kidOffsets t (valuesOf (baseR t) nl c)) = none →
      ∃ kids hi, childrenOf t nl c a next = .ok (.ok (kids, hi)) ∧
        Kids t (valuesOf (baseR t) nl c) (valuesPlace nl a) kids next hi)
  | .bool, _, _, _, _, _, next, _, _ => ⟨fun _ h => (nomatch h), fun _ => ⟨[], next, rfl, rfl, rfl⟩⟩
  | .prim _, _, _, _, _, _, next, _, _ => ⟨fun _ h => (nomatch h), fun _ => ⟨[], next, rfl, rfl, rfl⟩⟩
  | .fsl w nl' t, nl, ht, he, c, a, next, hc, hm => by
    have hi : (arrayL nl' t ht.2).Inv (fslChild nl c) := by
      rw [fslChild_eq]; exact (inv_values (t := .fsl w nl' t) ht hc).1
    have hm' : InMemory m nl' t (fslChild nl c) (fslPlace nl a) := by
      rw [fslChild_eq, fslPlace_eq]; exact memory_base hm
    have ih := children_ok t nl' ht.2 he.2 (fslChild nl c) (fslPlace nl a) next hi hm'
    have ho : kidOffsets (.fsl w nl' t) (valuesOf (baseR (.fsl w nl' t)) nl c) =
        bitOffsets nl' t (fslChild nl c) := by rw [fslChild_eq]; rfl
    rw [ho, offsets_split]
    simp only [childrenOf, childArray_ok ht.2 he.2 hi hm']
    by_cases h0 : offsetOf nl' t (fslChild nl c) ≠ 0
    · simp only [if_pos h0]
      exact ⟨fun k hk => by cases hk; rfl, fun h => nomatch h⟩
    · simp only [if_neg h0]
      refine ⟨fun k hk => ?_, fun hk => ?_⟩
      · rw [ih.1 k hk]; rfl
      · obtain ⟨kids, hi', h1, h2⟩ := ih.2 hk
        rw [h1]
        refine ⟨_, _, rfl, kids, hi', _, ?_, ?_, len_le ht.2 he.2 hi hm', ?_, rfl⟩
        · rw [fslChild_eq, fslPlace_eq] at h2; exact h2
        · rw [← fslChild_eq]; exact reads_abs _ hi
        · cases nl <;> rfl
  | .vsl ow nl' t, nl, ht, he, c, a, next, hc, hm => by
    have hi : (arrayL nl' t ht).Inv (vslChild nl c) := by
      rw [vslChild_eq]; exact (inv_values (t := .vsl ow nl' t) ht hc).2.inv
    have hm' : InMemory m nl' t (vslChild nl c) (vslPlace nl a) := by
      rw [vslChild_eq, vslPlace_eq]; exact (memory_base hm).2
    have ih := children_ok t nl' ht he (vslChild nl c) (vslPlace nl a) next hi hm'
    have ho : kidOffsets (.vsl ow nl' t) (valuesOf (baseR (.vsl ow nl' t)) nl c) =
        bitOffsets nl' t (vslChild nl c) := by rw [vslChild_eq]; rfl
    rw [ho, offsets_split]
    simp only [childrenOf, childArray_ok (t := t) ht he hi hm']
    by_cases h0 : offsetOf nl' t (vslChild nl c) ≠ 0
    · simp only [if_pos h0]
      exact ⟨fun k hk => by cases hk; rfl, fun h => nomatch h⟩
    · simp only [if_neg h0]
      refine ⟨fun k hk => ?_, fun hk => ?_⟩
      · rw [ih.1 k hk]; rfl
      · obtain ⟨kids, hi', h1, h2⟩ := ih.2 hk
        rw [h1]
        refine ⟨_, _, rfl, kids, hi', _, ?_, ?_, len_le (t := t) ht he hi hm', ?_, rfl⟩
        · rw [vslChild_eq, vslPlace_eq] at h2; exact h2
        · rw [← vslChild_eq]; exact reads_abs _ hi
        · cases nl <;> rfl

/-! ## What the structures say and point to -/

theorem buffersOf_length (nl : Bool) (t : Ty) (c : (arrayR nl t).C) (a : APlace nl t) :
    (buffersOf nl t c a).length = buffersIn t := by
  cases nl <;> cases t <;> rfl

theorem kids_length : (t : Ty) → {c : (baseR t).C} → {a : Place t} → {kids : List CArray} → {lo hi : Nat} →
    Kids t c a kids lo hi → kids.length = childrenIn t
  | .bool, _, _, _, _, _, h => by rw [h.1]; rfl
  | .prim _, _, _, _, _, _, h => by rw [h.1]; rfl
  | .fsl _ _ _, _, _, _, _, _, h => by obtain ⟨_, _, _, _, _, _, h, _⟩ := h; rw [h]; rfl
  | .vsl _ _ _, _, _, _, _, _, h => by obtain ⟨_, _, _, _, _, _, h, _⟩ := h; rw [h]; rfl

theorem bufferAt_into {box owner buffers children length nullCount} (i : Nat) (h : buffers ≠ []) :
    bufferAt (intoArray box owner buffers children length nullCount) i = buffers[i]? := by
  cases buffers with
  | nil => exact absurd rfl h
  | cons b bs => rfl

theorem firstChild_into {box owner buffers kid length nullCount} :
    firstChild (intoArray box owner buffers [kid] length nullCount) = some kid := rfl

theorem schemaOf_format (t : Ty) (nl : Bool) (s : Nat) : (schemaOf t nl s).1.format = some (formatOf t) := by
  cases t <;> rfl

theorem buffersOf_ne (nl : Bool) (t : Ty) (c : (arrayR nl t).C) (a : APlace nl t) : buffersOf nl t c a ≠ [] := by
  intro h
  have h1 := buffersOf_length nl t c a
  rw [h] at h1
  cases t <;> cases h1

theorem header_ok {nl : Bool} {t : Ty} (he : Exportable t) {c : (arrayR nl t).C} {a : APlace nl t}
    {kids : List CArray} {box : Nat} {owner : Option (List Nat)} {l : List (ItemVal nl (Val t))} (s : Nat)
    (hr : Reads (arrayR nl t).toColl c l) (hl : l.length ≤ i64Max) (hk : kids.length = childrenIn t) :
    Header nl t c (intoArray box owner (buffersOf nl t c a) kids (BitVec.ofNat 64 l.length)
      (BitVec.ofNat 64 (nulls nl l))) (schemaOf t nl s).1 := by
  have hb := buffersOf_length nl t c a
  have hne := buffersOf_ne nl t c a
  refine ⟨⟨l, hr, toInt_ofNat hl, toInt_ofNat (Nat.le_trans (nulls_le l) hl)⟩, rfl, ?_, ?_, ?_, ?_, rfl, ?_,
    ⟨_, schemaOf_format t nl s, formatOf_ok he⟩, ?_, ?_, ?_, ?_, ?_, ?_, ?_⟩
  · show (BitVec.ofNat 64 (buffersOf nl t c a).length).toInt = _
    rw [hb]; cases t <;> rfl
  · show (if (buffersOf nl t c a).isEmpty then none else some (buffersOf nl t c a)).elim 0 List.length = _
    rw [← hb]
    cases h : buffersOf nl t c a with
    | nil => exact absurd h hne
    | cons _ _ => rfl
  · show (BitVec.ofNat 64 kids.length).toInt = _
    rw [hk]; cases t <;> rfl
  · show (if kids.isEmpty then none else some (kids.map some)).elim 0 List.length = _
    rw [← hk]
    cases kids with
    | nil => rfl
    | cons _ _ => simp
  · exact fun h => nomatch h
  all_goals cases t <;> first | rfl | exact fun h => nomatch h

theorem validity_ok {m : Mem} {nl : Bool} {t : Ty} {c : (arrayR nl t).C} {a : APlace nl t}
    (hm : InMemory m nl t c a) {box owner kids length nullCount} :
    PointsValidity (baseR t) nl c a (intoArray box owner (buffersOf nl t c a) kids length nullCount) := by
  cases nl with
  | false => cases t <;> rfl
  | true =>
    obtain ⟨coll, bitmap⟩ := c
    obtain ⟨pl, ap⟩ := a
    cases bitmap with
    | none => cases t <;> rfl
    | some b =>
      have h1 : ValidityAt m (some b) ap := hm.2
      cases ap with
      | none => exact h1.elim
      | some p => cases t <;> rfl

theorem values_bool {nl : Bool} {c : (arrayR nl .bool).C} {a : APlace nl .bool}
    {box owner kids length nullCount} :
    bufferAt (intoArray box owner (buffersOf nl .bool c a) kids length nullCount) 1 =
      some (valuesPlace nl a : Nat) := by
  cases nl <;> rfl

theorem values_prim {nl : Bool} {p : Prim} {c : (arrayR nl (.prim p)).C} {a : APlace nl (.prim p)}
    {box owner kids length nullCount} :
    bufferAt (intoArray box owner (buffersOf nl (.prim p) c a) kids length nullCount) 1 =
      some (valuesPlace nl a : Nat) := by
  cases nl <;> rfl

theorem values_vsl {nl nl' : Bool} {ow : OffW} {t : Ty} {c : (arrayR nl (.vsl ow nl' t)).C}
    {a : APlace nl (.vsl ow nl' t)} {box owner kids length nullCount} :
    bufferAt (intoArray box owner (buffersOf nl (.vsl ow nl' t) c a) kids length nullCount) 1 =
      some (valuesPlace nl a : Nat × APlace nl' t).1 := by
  cases nl <;> rfl

theorem node_ok {m : Mem} : (t : Ty) → (nl : Bool) → (c : (arrayR nl t).C) → (a : APlace nl t) →
    (kids : List CArray) → (lo hi box : Nat) → (owner : Option (List Nat)) →
    (l : List (ItemVal nl (Val t))) → (s : Nat) → Exportable t →
    Kids t (valuesOf (baseR t) nl c) (valuesPlace nl a) kids lo hi → InMemory m nl t c a →
    Reads (arrayR nl t).toColl c l → l.length ≤ i64Max →
    Describes nl t c (intoArray box owner (buffersOf nl t c a) kids (BitVec.ofNat 64 l.length)
      (BitVec.ofNat 64 (nulls nl l))) (schemaOf t nl s).1 ∧
    PointsTo nl t c a (intoArray box owner (buffersOf nl t c a) kids (BitVec.ofNat 64 l.length)
      (BitVec.ofNat 64 (nulls nl l)))
  | .bool, nl, c, a, kids, lo, hi, box, owner, l, s, he, hk, hm, hr, hl =>
    ⟨⟨header_ok he s hr hl (kids_length _ hk), trivial⟩, validity_ok hm, values_bool⟩
  | .prim p, nl, c, a, kids, lo, hi, box, owner, l, s, he, hk, hm, hr, hl =>
    ⟨⟨header_ok he s hr hl (kids_length _ hk), trivial⟩, validity_ok hm, values_prim⟩
  | .fsl w nl' t, nl, c, a, kids, lo, hi, box, owner, l, s, he, hk, hm, hr, hl => by
    have hk' := kids_length _ hk
    obtain ⟨kids', mid, l', h1, h2, h3, h4, h5⟩ := hk
    subst h4
    have ih := node_ok t nl' _ _ kids' lo mid mid none l' s he.2 h1 (memory_base hm) h2 h3
    exact ⟨⟨header_ok he s hr hl hk', _, _, firstChild_into, rfl, ih.1.1, ih.1.2⟩,
      validity_ok hm, _, firstChild_into, ih.2.1, ih.2.2⟩
  | .vsl ow nl' t, nl, c, a, kids, lo, hi, box, owner, l, s, he, hk, hm, hr, hl => by
    have hk' := kids_length _ hk
    obtain ⟨kids', mid, l', h1, h2, h3, h4, h5⟩ := hk
    subst h4
    have ih := node_ok t nl' _ _ kids' lo mid mid none l' s he h1 (memory_base hm).2 h2 h3
    exact ⟨⟨header_ok he s hr hl hk', _, _, firstChild_into, rfl, ih.1.1, ih.1.2⟩,
      validity_ok hm, values_vsl, _, firstChild_into, ih.2.1, ih.2.2⟩

/-- Exporting succeeds unless a bit offset is not zero. -/
theorem export_ok {m : Mem} {t : Ty} {nl : Bool} (ht : t.WF) (he : Exportable t)
    {c : (arrayR nl t).C} {a : APlace nl t} (next : Nat) (hc : (arrayL nl t ht).Inv c)
    (hm : InMemory m nl t c a) :
    (∀ k, firstNonZero (bitOffsets nl t c) = some k →
      (exportArray nl t c a next).result = .ok (.error (.nonZeroOffset k)) ∧
      (exportArray nl t c a next).events =
        if offsetOf nl t c ≠ 0 then [.dropOwner (allBuffers t nl a)]
        else [.alloc next, .dropOwner (allBuffers t nl a), .free next]) ∧
    (firstNonZero (bitOffsets nl t c) = none →
      ∃ kids mid, Kids t (valuesOf (baseR t) nl c) (valuesPlace nl a) kids (next + 1) mid ∧
        exportArray nl t c a next =
          ⟨.ok (.ok (intoArray next (some (allBuffers t nl a)) (buffersOf nl t c a) kids
              (BitVec.ofNat 64 ((arrayL nl t ht).abs c).length)
              (BitVec.ofNat 64 (nulls nl ((arrayL nl t ht).abs c))), (schemaOf t nl mid).1)),
            allocs next (schemaOf t nl mid).2, (schemaOf t nl mid).2⟩) := by
  have hl := len_le ht he hc hm
  have hch := children_ok t nl ht he c a (next + 1) hc hm
  rw [offsets_split]
  unfold exportArray
  by_cases h0 : offsetOf nl t c ≠ 0
  · simp only [if_pos h0]
    exact ⟨fun k hk => by cases hk; exact ⟨rfl, trivial⟩, fun h => nomatch h⟩
  · simp only [if_neg h0]
    refine ⟨fun k hk => ?_, fun hk => ?_⟩
    · rw [hch.1 k hk]; exact ⟨rfl, rfl⟩
    · obtain ⟨kids, mid, h1, h2⟩ := hch.2 hk
      refine ⟨kids, mid, h2, ?_⟩
      rw [h1, len_of ht hc hl, null_count_of ht hc hl]

end Narrow.Ffi
