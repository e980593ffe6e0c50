import Verif.Model.Newtypes

/-! # Newtypes forward every call -/

namespace Narrow

theorem Try.mapOk_id {α : Type} (x : Try α) : x.mapOk (fun a => a) = x := by cases x <;> rfl

theorem arrayNewtypeR_eq {O : Type} (R : Realloc O) : arrayNewtypeR R = R := by
  have h : ∀ (x : Try R.C), x.mapOk Array.fromBuffer = x := Try.mapOk_id
  unfold arrayNewtypeR
  simp only [h]
  rfl

theorem booleanR_eq {O : Type} (R : Realloc O) : booleanR R = R := by
  have h : ∀ (x : Try R.C), x.mapOk Boolean.fromBuffer = x := Try.mapOk_id
  unfold booleanR
  simp only [h]
  rfl

theorem fixedSizePrimitiveR_eq {O : Type} (R : Realloc O) : fixedSizePrimitiveR R = R := by
  have h : ∀ (x : Try R.C), x.mapOk FixedSizePrimitive.fromBuffer = x := Try.mapOk_id
  unfold fixedSizePrimitiveR
  simp only [h]
  rfl

theorem fixedSizeListR_eq {O : Type} (R : Realloc O) : fixedSizeListR R = R := by
  have h : ∀ (x : Try R.C), x.mapOk FixedSizeList.fromBuffer = x := Try.mapOk_id
  unfold fixedSizeListR
  simp only [h]
  rfl

theorem variableSizeListR_eq {O : Type} (R : Realloc O) : variableSizeListR R = R := by
  have h : ∀ (x : Try R.C), x.mapOk VariableSizeList.fromBuffer = x := Try.mapOk_id
  unfold variableSizeListR
  simp only [h]
  rfl

theorem memoryR_eq : (nl : Bool) → (t : Ty) → memoryR nl t = arrayR nl t
  | nl, .bool => booleanR_eq _
  | nl, .prim _ => fixedSizePrimitiveR_eq _
  | nl, .fsl n nl' t => by
    rw [memoryR, fixedSizeListR_eq, memoryR_eq nl' t]; rfl
  | nl, .vsl ow nl' t => by
    rw [memoryR, variableSizeListR_eq, memoryR_eq nl' t]; rfl

theorem arrayTypeR_eq (nl : Bool) (t : Ty) : arrayTypeR nl t = arrayR nl t := by
  rw [arrayTypeR, arrayNewtypeR_eq, memoryR_eq]

end Narrow
