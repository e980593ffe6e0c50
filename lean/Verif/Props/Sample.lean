import Verif.Spec.Env
import Verif.Spec.Reach

/-!
# A concrete case

`Array<Option<Vec<Option<[bool; 2]>>>>` with nulls at both levels: every
combinator of the model is involved. Used by the examples beside the theorems.
-/

namespace Narrow.Props.Sample

open Spec

/-- `Vec<Option<[bool; 2]>>` -/
abbrev ty : Ty := .vsl .i32 true (.fsl 2 false .bool)

theorem ty_wf : ty.WF := ⟨by decide, trivial⟩

/-- `[a, b]` -/
def pair (a b : Bool) : FixArr Bool 2 := ⟨[a, b], rfl⟩

/-- Four items: a list with a null, a null, an empty list, a list. -/
def items : List (ItemVal true (Val ty)) :=
  [some [some (pair true false), none], none, some [], some [some (pair true true)]]

/-- Two more items. -/
def more : List (ItemVal true (Val ty)) := [none, some [none, some (pair false true)]]

/-- An allocator that grants everything and exact size hints. -/
def oracle : Oracle := ⟨fun _ _ => some 0, fun _ n => n, fun _ n => some n⟩

/-- The environment. -/
def world : World := ⟨oracle, 0⟩

theorem generous : Generous world.oracle := fun _ _ => rfl

theorem tight : TightHints world.oracle := fun _ n => ⟨Nat.le_refl n, Nat.le_refl n⟩

/-- An allocator that refuses everything, with lying size hints. -/
def hostile : World := ⟨⟨fun _ _ => none, fun _ n => n + 1000, fun _ _ => some 0⟩, 0⟩

theorem fits : Fits true ty 0 items :=
  ⟨Nat.le_of_ble_eq_true rfl, Nat.le_of_ble_eq_true rfl, Nat.le_of_ble_eq_true rfl,
    Nat.le_of_ble_eq_true rfl, Nat.le_of_ble_eq_true rfl⟩

theorem fits_more : Fits true ty 0 (items ++ more) :=
  ⟨Nat.le_of_ble_eq_true rfl, Nat.le_of_ble_eq_true rfl, Nat.le_of_ble_eq_true rfl,
    Nat.le_of_ble_eq_true rfl, Nat.le_of_ble_eq_true rfl⟩

theorem fits_reserve : Fits true ty 3 items :=
  ⟨Nat.le_of_ble_eq_true rfl, Nat.le_of_ble_eq_true rfl, Nat.le_of_ble_eq_true rfl,
    Nat.le_of_ble_eq_true rfl, Nat.le_of_ble_eq_true rfl⟩

end Narrow.Props.Sample
