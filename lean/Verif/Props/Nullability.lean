import Verif.Model.Nullability
import Verif.Spec.Nullable
import Verif.Props.Storages
import Verif.Model.Release
import Verif.Props.Import

/-!
# Item combinators, emptiness and default structures (C50, C51)
-/

namespace Narrow.Props

open Spec Narrow.Ffi Narrow.Ffi.Spec

variable {nl : Bool} {α β γ : Type}

/-- C50. `map` applies the function to the value of an item that has one, and keeps
a null item null without calling the function: it then returns whatever the
function would do. -/
theorem C50_map (x : ItemVal nl α) (f : α → Res β) :
    (valueOf nl x = none → ∃ y, Nullability.map nl x f = .ok y ∧ valueOf nl y = none) ∧
    ∀ a, valueOf nl x = some a →
      (∀ b, f a = .ok b → ∃ y, Nullability.map nl x f = .ok y ∧ valueOf nl y = some b) ∧
      (f a = .panic → Nullability.map nl x f = .panic) := by
  cases nl with
  | false =>
    refine ⟨fun h => (by cases h), fun a h => ?_⟩
    cases h
    exact ⟨fun b h => ⟨b, h, rfl⟩, fun h => h⟩
  | true =>
    cases x with
    | none => exact ⟨fun _ => ⟨none, rfl, rfl⟩, fun a h => by cases h⟩
    | some x =>
      refine ⟨fun h => (by cases h), fun a h => ?_⟩
      cases h
      constructor
      · intro b h
        refine ⟨some b, ?_, rfl⟩
        show (f x).map _ = _
        rw [h]; rfl
      · intro h
        show (f x).map _ = _
        rw [h]; rfl

theorem pair_some (x a : α) (y b : β) :
    some (x, y) = some (a, b) ↔ some x = some a ∧ some y = some b := by simp

theorem pair_none (x : α) (y : β) :
    (some (x, y) : Option (α × β)) = none ↔ some x = none ∨ some y = none := by simp

/-- C50. Zipping gives the pair of the values, and null if either item is null. -/
theorem C50_zip (x : ItemVal nl α) (y : ItemVal nl β) :
    (∀ a b, valueOf nl (Nullability.zip nl x y) = some (a, b) ↔
      valueOf nl x = some a ∧ valueOf nl y = some b) ∧
    (valueOf nl (Nullability.zip nl x y) = none ↔ valueOf nl x = none ∨ valueOf nl y = none) := by
  cases nl with
  | false =>
    exact ⟨fun a b => pair_some (α := α) (β := β) x a y b, pair_none (α := α) (β := β) x y⟩
  | true =>
    cases x with
    | none =>
      constructor
      · intro a b
        show (none : Option (α × β)) = some (a, b) ↔ (none : Option α) = some a ∧ _
        simp
      · show (none : Option (α × β)) = none ↔ (none : Option α) = none ∨ _
        simp
    | some x =>
      cases y with
      | none =>
        constructor
        · intro a b
          show (none : Option (α × β)) = some (a, b) ↔ _ ∧ (none : Option β) = some b
          simp
        · show (none : Option (α × β)) = none ↔ _ ∨ (none : Option β) = none
          simp
      | some y =>
        exact ⟨fun a b => pair_some x a y b, pair_none x y⟩

/-- C50. `zip_with` applies the function to the pair of values if both items have
one; otherwise the result is null and the function is not called. -/
theorem C50_zip_with (x : ItemVal nl α) (y : ItemVal nl β) (f : α × β → Res γ) :
    ((valueOf nl x = none ∨ valueOf nl y = none) →
      ∃ z, Nullability.zipWith nl x y f = .ok z ∧ valueOf nl z = none) ∧
    ∀ a b, valueOf nl x = some a → valueOf nl y = some b →
      (∀ r, f (a, b) = .ok r →
        ∃ z, Nullability.zipWith nl x y f = .ok z ∧ valueOf nl z = some r) ∧
      (f (a, b) = .panic → Nullability.zipWith nl x y f = .panic) :=
  ⟨fun h => (C50_map _ f).1 ((C50_zip x y).2.mpr h),
    fun _ _ ha hb => (C50_map _ f).2 _ (((C50_zip x y).1 _ _).mpr ⟨ha, hb⟩)⟩

example : valueOf true (Nullability.zip true (some 1 : Option Nat) (some 2 : Option Nat)) = some (1, 2) :=
  ((C50_zip (nl := true) (some 1 : Option Nat) (some 2 : Option Nat)).1 1 2).mpr ⟨rfl, rfl⟩

example : ∃ z, Nullability.zipWith true (some 1 : Option Nat) (none : Option Nat)
    (fun _ => (.panic : Res Nat)) = .ok z ∧ valueOf true z = none :=
  (C50_zip_with (nl := true) (some 1 : Option Nat) (none : Option Nat) _).1 (.inr rfl)

/-- C51. In every storage, `is_empty` returns, and it is true exactly when the
array shows no items. -/
theorem C51_is_empty {t : Ty} (st : Store) (ht : t.WF) {c : (arrayR nl t).C}
    {l : List (ItemVal nl (Val t))} (hr : Reach nl t c) (hs : Shows nl t c l) :
    ∃ b, (arrayS st nl t).isEmpty c = .ok b ∧ (b = true ↔ l = []) := by
  refine ⟨l.length == 0, ?_, by simp⟩
  show ((arrayS st nl t).len c).map _ = _
  rw [(C41_arrays st ht hr hs).len]
  rfl

/-- C51. The storages themselves. -/
theorem C51_storage_is_empty (st : Store) (l : List α) :
    ∃ b, (st.coll α).isEmpty l = .ok b ∧ (b = true ↔ l = []) :=
  ⟨l.length == 0, by cases st <;> rfl, by simp⟩

example : ∃ c, Reach true Sample.ty c ∧ ∃ b, (arrayS .rc true Sample.ty).isEmpty c = .ok b ∧ b = false := by
  obtain ⟨c, -, hr, hs⟩ := Sample.array
  obtain ⟨b, h, h'⟩ := C51_is_empty .rc Sample.ty_wf hr hs
  refine ⟨c, hr, b, h, ?_⟩
  cases b with
  | false => rfl
  | true => exact absurd (h'.mp rfl) (by simp [Sample.items])

/-- C36. Default structures are released ones, which import reports. They hold no
pointer, all their numbers are zero, and dropping them does nothing. -/
theorem C36_default (m : Mem) (t : Ty) (array : CArray) (schema : CSchema) :
    importLayout m t nl CArray.default schema = .err .releasedArray ∧
    (array.release ≠ none → importLayout m t nl array CSchema.default = .err .releasedSchema) ∧
    (CArray.default.buffers = none ∧ CArray.default.children = none ∧
      CArray.default.dictionary = false ∧ CArray.default.dropEvents = []) ∧
    (CArray.default.length = 0 ∧ CArray.default.nullCount = 0 ∧ CArray.default.offset = 0 ∧
      CArray.default.nBuffers = 0 ∧ CArray.default.nChildren = 0) ∧
    (CSchema.default.format = none ∧ CSchema.default.name = none ∧
      CSchema.default.metadata = false ∧ CSchema.default.children = none ∧
      CSchema.default.dictionary = false ∧ CSchema.default.dropEvents = []) ∧
    (CSchema.default.flags = 0 ∧ CSchema.default.nChildren = 0) :=
  ⟨C36_released.1 rfl, fun h => C36_released.2 h rfl, ⟨rfl, rfl, rfl, rfl⟩,
    ⟨rfl, rfl, rfl, rfl, rfl⟩, ⟨rfl, rfl, rfl, rfl, rfl, rfl⟩, ⟨rfl, rfl⟩⟩

example : FfiSample.array.release ≠ none := by decide

end Narrow.Props
