import Verif.Spec.UserArrays
import Verif.Proof.Newtypes
import Verif.Proof.BackendComp
import Verif.Proof.BackendSame

/-! # Arrays in storages written by users -/

namespace Narrow

open Spec

variable {env : World} {S : Stores} {G : Goods S}

theorem opt_scompR {O : Type} (nl : Bool) (k : SComp O) :
    scompR (arrayComp.opt env S G nl k) = nullInR env S nl (scompR k) := by
  cases nl <;> rfl

theorem memoryInR_eq : (nl : Bool) → (t : Ty) → (ht : t.WF) →
    memoryInR env S nl t = scompR (arrayComp env S G nl t ht)
  | nl, .bool, _ => by
    rw [memoryInR, booleanR_eq, arrayComp, opt_scompR]; rfl
  | nl, .prim _, _ => by
    rw [memoryInR, fixedSizePrimitiveR_eq, arrayComp, opt_scompR]; rfl
  | nl, .fsl n nl' t, ht => by
    refine Eq.trans ?_ (opt_scompR nl _).symm
    rw [memoryInR, fixedSizeListR_eq, memoryInR_eq nl' t ht.2]; rfl
  | nl, .vsl ow nl' t, ht => by
    refine Eq.trans ?_ (opt_scompR nl _).symm
    rw [memoryInR, variableSizeListR_eq, memoryInR_eq nl' t ht]; rfl

theorem arrayInR_eq (nl : Bool) (t : Ty) (ht : t.WF) :
    arrayInR env S nl t = scompR (arrayComp env S G nl t ht) := by
  rw [arrayInR, arrayNewtypeR_eq, memoryInR_eq]

theorem opt_sound {O : Type} (hk : Kept S G) (nl : Bool) {k : SComp O} (h : Sound k) :
    Sound (arrayComp.opt env S G nl k) := by
  cases nl
  · exact h
  · exact ⟨hk.bytes, h⟩

theorem base_sound (hk : Kept S G) : (t : Ty) → (ht : t.WF) → Sound (arrayComp.base env S G t ht)
  | .bool, _ => hk.bytes
  | .prim p, _ => hk.values p
  | .fsl _ nl t, ht => opt_sound hk nl (base_sound hk t ht.2)
  | .vsl ow nl t, ht => ⟨hk.offsets ow, hk.first ow, opt_sound hk nl (base_sound hk t ht)⟩

theorem Spec.BuiltBy.sbuilt {O : Type} {k : SComp O} {c : (scompR k).C} {l : List O}
    (h : BuiltBy (scompR k) c l) : SBuilt k c l := by
  induction h with
  | empty => exact .empty
  | withCap e => exact .withCap e
  | tryWithCap e => exact .tryWithCap e
  | fromIter h e => exact .fromIter h e
  | fromIterIn h e => exact .fromIterIn h e
  | tryFromIter h e => exact .tryFromIter h e
  | extend _ e ih => exact .extend ih e
  | tryExtend _ e ih => exact .tryExtend ih e
  | tryExtendErr _ e ih => exact .tryExtendErr ih e
  | reserve _ e ih => exact .reserve ih e
  | tryReserve _ e ih => exact .tryReserve ih e
  | truncate _ e ih => exact .truncate ih e

theorem null_same {O : Type} {R R' : Realloc O} {f : R.C → R'.C} (h : Same R R' f) (env : World) :
    (nl : Bool) → ∃ g, Same (nullR nl R) (nullInR env Stores.vec nl R') g
  | false => ⟨f, h⟩
  | true => ⟨_, validity_same env h⟩

theorem memory_same (env : World) : (nl : Bool) → (t : Ty) →
    ∃ g, Same (memoryR nl t) (memoryInR env Stores.vec nl t) g
  | nl, .bool => by
    rw [memoryR, memoryInR, booleanR_eq, booleanR_eq]
    exact null_same bitmap_same env nl
  | nl, .prim p => by
    rw [memoryR, memoryInR, fixedSizePrimitiveR_eq, fixedSizePrimitiveR_eq]
    exact null_same (vec_same p.lim _) env nl
  | nl, .fsl n nl' t => by
    obtain ⟨g, h⟩ := memory_same env nl' t
    rw [memoryR, memoryInR, fixedSizeListR_eq, fixedSizeListR_eq]
    exact null_same (flatten_same n h) env nl
  | nl, .vsl ow nl' t => by
    obtain ⟨g, h⟩ := memory_same env nl' t
    rw [memoryR, memoryInR, variableSizeListR_eq, variableSizeListR_eq]
    exact null_same (offsets_same ow h) env nl

end Narrow
