import Verif.Proof.Export

/-! # Releasing exported structures -/

namespace Narrow.Ffi

open Narrow.Ffi.Spec Narrow.Spec

/-- The boxes `lo, ..., hi - 1` are freed, in this order. -/
def frees (lo hi : Nat) : List Event := (List.range' lo (hi - lo)).map Event.free

theorem frees_self (lo : Nat) : frees lo lo = [] := by simp [frees]

theorem frees_succ {lo hi : Nat} (h : lo ≤ hi) : frees lo (hi + 1) = frees lo hi ++ [.free hi] := by
  unfold frees
  rw [show hi + 1 - lo = (hi - lo) + 1 by omega, List.range'_1_concat, List.map_append]
  simp; omega

theorem count_map_range (f : Nat → Event) (hf : ∀ x y, f x = f y → x = y) (b n : Nat) : ∀ lo,
    ((List.range' lo n).map f).count (f b) = if lo ≤ b ∧ b < lo + n then 1 else 0 := by
  induction n with
  | zero => intro lo; rw [if_neg (by omega)]; rfl
  | succ n ih =>
    intro lo
    rw [List.range'_succ, List.map_cons, List.count_cons, ih]
    by_cases h : lo = b
    · subst h
      rw [if_neg (show ¬(lo + 1 ≤ lo ∧ lo < lo + 1 + n) by omega),
        if_pos (show lo ≤ lo ∧ lo < lo + (n + 1) by omega)]
      simp
    · have : (f lo == f b) = false := by
        rw [beq_eq_false_iff_ne]; exact fun h' => h (hf _ _ h')
      rw [this]
      by_cases h' : lo ≤ b ∧ b < lo + (n + 1)
      · rw [if_pos h', if_pos (show lo + 1 ≤ b ∧ b < lo + 1 + n by omega)]; simp
      · rw [if_neg h', if_neg (show ¬(lo + 1 ≤ b ∧ b < lo + 1 + n) by omega)]; simp

theorem count_frees (lo hi b : Nat) :
    (frees lo hi).count (.free b) = if lo ≤ b ∧ b < hi then 1 else 0 := by
  unfold frees
  rw [count_map_range _ (fun x y h => by cases h; rfl)]
  by_cases h : lo ≤ b ∧ b < hi
  · rw [if_pos h, if_pos (by omega)]
  · rw [if_neg h, if_neg (by omega)]

theorem count_allocs (lo hi b : Nat) :
    (allocs lo hi).count (.alloc b) = if lo ≤ b ∧ b < hi then 1 else 0 := by
  unfold allocs
  rw [count_map_range _ (fun x y h => by cases h; rfl)]
  by_cases h : lo ≤ b ∧ b < hi
  · rw [if_pos h, if_pos (by omega)]
  · rw [if_neg h, if_neg (by omega)]

theorem count_frees_other {lo hi : Nat} {e : Event} (h : ∀ b, e ≠ .free b) : (frees lo hi).count e = 0 := by
  rw [List.count_eq_zero]
  intro hm
  obtain ⟨b, _, hb⟩ := List.mem_map.1 hm
  exact h b hb.symm

theorem count_allocs_other {lo hi : Nat} {e : Event} (h : ∀ b, e ≠ .alloc b) : (allocs lo hi).count e = 0 := by
  rw [List.count_eq_zero]
  intro hm
  obtain ⟨b, _, hb⟩ := List.mem_map.1 hm
  exact h b hb.symm

theorem into_events {box owner buffers length nullCount} (kids : List CArray) :
    (intoArray box owner buffers kids length nullCount).dropEvents =
      listEvents (kids.map some) ++
        ((match owner with | none => [] | some b => [.dropOwner b]) ++ [.free box]) := by
  unfold intoArray
  rw [CArray.dropEvents]
  cases kids with
  | nil => cases owner <;> simp [tableEvents, listEvents]
  | cons k ks => cases owner <;> simp [tableEvents]

theorem kids_le : (t : Ty) → {c : (baseR t).C} → {a : Place t} → {kids : List CArray} → {lo hi : Nat} →
    Kids t c a kids lo hi → lo ≤ hi
  | .bool, _, _, _, _, _, h => by rw [h.2]; exact Nat.le_refl _
  | .prim _, _, _, _, _, _, h => by rw [h.2]; exact Nat.le_refl _
  | .fsl _ _ t, _, _, _, _, _, h => by
    obtain ⟨_, _, _, h1, _, _, _, h2⟩ := h; have := kids_le t h1; omega
  | .vsl _ _ t, _, _, _, _, _, h => by
    obtain ⟨_, _, _, h1, _, _, _, h2⟩ := h; have := kids_le t h1; omega

/-- Dropping the children frees their boxes. -/
theorem kids_events : (t : Ty) → {c : (baseR t).C} → {a : Place t} → {kids : List CArray} → {lo hi : Nat} →
    Kids t c a kids lo hi → listEvents (kids.map some) = frees lo hi
  | .bool, _, _, _, _, _, h => by rw [h.1, h.2, frees_self]; rfl
  | .prim _, _, _, _, _, _, h => by rw [h.1, h.2, frees_self]; rfl
  | .fsl _ _ t, _, _, _, _, _, h => by
    obtain ⟨_, _, _, h1, _, _, h2, h3⟩ := h
    subst h2 h3
    have h4 := kids_le t h1
    simp only [List.map_cons, List.map_nil, listEvents, optEvents, into_events, kids_events t h1,
      List.nil_append, List.append_nil, frees_succ h4]
  | .vsl _ _ t, _, _, _, _, _, h => by
    obtain ⟨_, _, _, h1, _, _, h2, h3⟩ := h
    subst h2 h3
    have h4 := kids_le t h1
    simp only [List.map_cons, List.map_nil, listEvents, optEvents, into_events, kids_events t h1,
      List.nil_append, List.append_nil, frees_succ h4]

theorem schema_le : (t : Ty) → (nl : Bool) → (s : Nat) → s ≤ (schemaOf t nl s).2
  | .bool, _, _ => Nat.le_refl _
  | .prim _, _, _ => Nat.le_refl _
  | .fsl _ nl' t, _, s => Nat.le_succ_of_le (schema_le t nl' s)
  | .vsl _ nl' t, _, s => Nat.le_succ_of_le (schema_le t nl' s)

theorem schema_events : (t : Ty) → (nl : Bool) → (s : Nat) →
    (schemaOf t nl s).1.dropEvents = frees s (schemaOf t nl s).2
  | .bool, _, s => by simp [schemaOf, CSchema.dropEvents, frees_self]
  | .prim _, _, s => by simp [schemaOf, CSchema.dropEvents, frees_self]
  | .fsl _ nl' t, _, s => by
    simp only [schemaOf, CSchema.dropEvents, schemaTableEvents, schemaListEvents, schemaOptEvents,
      schema_events t nl' s, List.append_nil, frees_succ (schema_le t nl' s)]
  | .vsl _ nl' t, _, s => by
    simp only [schemaOf, CSchema.dropEvents, schemaTableEvents, schemaListEvents, schemaOptEvents,
      schema_events t nl' s, List.append_nil, frees_succ (schema_le t nl' s)]

theorem released_events {a : CArray} (h : a.release = none) : a.dropEvents = [] := by
  obtain ⟨_, _, _, _, _, _, _, _, _⟩ := a
  simp only at h; subst h
  simp [CArray.dropEvents]

theorem released_schema_events {a : CSchema} (h : a.release = none) : a.dropEvents = [] := by
  obtain ⟨_, _, _, _, _, _, _, _⟩ := a
  simp only at h; subst h
  simp [CSchema.dropEvents]

theorem after_release (a : CArray) : a.afterRelease.release = none := rfl

theorem after_schema_release (a : CSchema) : a.afterRelease.release = none := by
  unfold CSchema.afterRelease; split <;> rfl

/-- The operations on the array. -/
def Op.onArray : Op → Bool
  | .releaseArray | .dropArray => true
  | _ => false

theorem run_count (ops : List Op) : ∀ (p : Pair) (e : Event),
    (p.run ops).events.count e = p.events.count e +
      ((if ops.any Op.onArray then p.array.dropEvents.count e else 0) +
       (if ops.any (! ·.onArray) then p.schema.dropEvents.count e else 0)) := by
  induction ops with
  | nil => intro p e; simp [Pair.run]
  | cons op ops ih =>
    intro p e
    show ((p.step op).run ops).events.count e = _
    rw [ih]
    have ha : (p.array.afterRelease).dropEvents = [] := released_events rfl
    have hs : (p.schema.afterRelease).dropEvents = [] := released_schema_events (after_schema_release _)
    cases op <;> simp [Pair.step, Op.onArray, ha, hs] <;> omega

theorem run_released (ops : List Op) : ∀ (p : Pair),
    ((p.array.release = none ∨ ops.any Op.onArray = true) → (p.run ops).array.release = none) ∧
    ((p.schema.release = none ∨ ops.any (! ·.onArray) = true) → (p.run ops).schema.release = none) := by
  induction ops with
  | nil => intro p; simp [Pair.run]
  | cons op ops ih =>
    intro p
    show (_ → ((p.step op).run ops).array.release = none) ∧ (_ → ((p.step op).run ops).schema.release = none)
    refine ⟨fun h => (ih _).1 ?_, fun h => (ih _).2 ?_⟩
    · cases op
      · exact .inl rfl
      · exact .inl rfl
      · simpa [Pair.step, Op.onArray] using h
      · simpa [Pair.step, Op.onArray] using h
    · cases op
      · simpa [Pair.step, Op.onArray] using h
      · simpa [Pair.step, Op.onArray] using h
      · exact .inl (after_schema_release _)
      · exact .inl (after_schema_release _)

theorem run_kept (ops : List Op) : ∀ (p : Pair),
    (ops.any Op.onArray = false → (p.run ops).array = p.array) ∧
    (ops.any (! ·.onArray) = false → (p.run ops).schema = p.schema) := by
  induction ops with
  | nil => intro p; simp [Pair.run]
  | cons op ops ih =>
    intro p
    show (_ → ((p.step op).run ops).array = _) ∧ (_ → ((p.step op).run ops).schema = _)
    refine ⟨fun h => ?_, fun h => ?_⟩
    · simp only [List.any_cons, Bool.or_eq_false_iff] at h
      rw [(ih _).1 h.2]
      cases op <;> simp_all [Pair.step, Op.onArray]
    · simp only [List.any_cons, Bool.or_eq_false_iff] at h
      rw [(ih _).2 h.2]
      cases op <;> simp_all [Pair.step, Op.onArray]

/-! ## Reachable buffers are the array's -/

theorem reaches_into {box owner buffers kids length nullCount p} {P : Nat → Prop}
    (h : Reaches (intoArray box owner buffers kids length nullCount) p)
    (h1 : ∀ q ∈ buffers, q ≠ 0 → P q) (h2 : ∀ kid, kids[0]? = some kid → Reaches kid p → P p) : P p := by
  cases h with
  | own h h0 =>
    refine h1 _ ?_ h0
    unfold bufferAt intoArray at h
    by_cases hb : buffers.isEmpty
    · simp [hb] at h
    · simp [hb] at h; exact List.mem_of_getElem? h
  | child h h' =>
    refine h2 _ ?_ h'
    unfold firstChild intoArray at h
    cases kids with
    | nil => simp at h
    | cons k ks => simpa using h

theorem pointer_mem {b : Option Bitmap} {a : Option Nat} (h : validityPointer b a ≠ 0) :
    validityPointer b a ∈ a.toList := by
  cases b with
  | none => exact absurd rfl h
  | some b => cases a with
    | none => exact absurd rfl h
    | some p => exact List.mem_singleton.2 rfl

theorem buffers_mem {nl : Bool} {t : Ty} {c : (arrayR nl t).C} {a : APlace nl t} {q : Nat}
    (h : q ∈ buffersOf nl t c a) (h0 : q ≠ 0) : q ∈ allBuffers t nl a := by
  cases nl <;> cases t <;> simp only [buffersOf, allBuffers, List.mem_cons, List.not_mem_nil, or_false,
    List.mem_append] at h ⊢
  · exact h.resolve_left h0
  · exact h.resolve_left h0
  · exact absurd h h0
  · exact .inl (h.resolve_left h0)
  · rcases h with h | h
    · exact .inl (h ▸ pointer_mem (h ▸ h0))
    · exact .inr h
  · rcases h with h | h
    · exact .inl (h ▸ pointer_mem (h ▸ h0))
    · exact .inr h
  · exact .inl (h ▸ pointer_mem (h ▸ h0))
  · rcases h with h | h
    · exact .inl (h ▸ pointer_mem (h ▸ h0))
    · exact .inr (.inl h)

theorem fslPlace_mem {w : Nat} {nl nl' : Bool} {t : Ty} {a : APlace nl (.fsl w nl' t)} {q : Nat}
    (h : q ∈ allBuffers t nl' (fslPlace nl a)) : q ∈ allBuffers (.fsl w nl' t) nl a := by
  cases nl
  · exact h
  · exact List.mem_append_right _ h

theorem vslPlace_mem {ow : OffW} {nl nl' : Bool} {t : Ty} {a : APlace nl (.vsl ow nl' t)} {q : Nat}
    (h : q ∈ allBuffers t nl' (vslPlace nl a)) : q ∈ allBuffers (.vsl ow nl' t) nl a := by
  cases nl
  · exact List.mem_cons_of_mem _ h
  · exact List.mem_append_right _ (List.mem_cons_of_mem _ h)

theorem node_reaches : (t : Ty) → (nl : Bool) → (c : (arrayR nl t).C) → (a : APlace nl t) →
    (kids : List CArray) → (lo hi : Nat) →
    Kids t (valuesOf (baseR t) nl c) (valuesPlace nl a) kids lo hi →
    ∀ {box owner length nullCount p},
      Reaches (intoArray box owner (buffersOf nl t c a) kids length nullCount) p → p ∈ allBuffers t nl a
  | .bool, nl, c, a, kids, lo, hi, hk, _, _, _, _, p, h =>
    reaches_into (P := (· ∈ allBuffers .bool nl a)) h (fun q => buffers_mem)
      (fun kid h1 => by rw [hk.1] at h1; cases h1)
  | .prim pr, nl, c, a, kids, lo, hi, hk, _, _, _, _, p, h =>
    reaches_into (P := (· ∈ allBuffers (.prim pr) nl a)) h (fun q => buffers_mem)
      (fun kid h1 => by rw [hk.1] at h1; cases h1)
  | .fsl w nl' t, nl, c, a, kids, lo, hi, hk, _, _, _, _, p, h => by
    obtain ⟨kids', mid, l, h1, h2, h3, h4, h5⟩ := hk
    refine reaches_into (P := (· ∈ allBuffers (.fsl w nl' t) nl a)) h (fun q => buffers_mem) ?_
    intro kid h6 h7
    rw [h4] at h6
    cases h6
    have := node_reaches t nl' _ _ kids' lo mid h1 h7
    refine fslPlace_mem ?_
    rw [fslPlace_eq]; exact this
  | .vsl ow nl' t, nl, c, a, kids, lo, hi, hk, _, _, _, _, p, h => by
    obtain ⟨kids', mid, l, h1, h2, h3, h4, h5⟩ := hk
    refine reaches_into (P := (· ∈ allBuffers (.vsl ow nl' t) nl a)) h (fun q => buffers_mem) ?_
    intro kid h6 h7
    rw [h4] at h6
    cases h6
    have := node_reaches t nl' _ _ kids' lo mid h1 h7
    refine vslPlace_mem ?_
    rw [vslPlace_eq]; exact this

end Narrow.Ffi
