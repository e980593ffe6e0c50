import Verif.Spec.Reach

/-!
# How much a caught panic keeps, and fixed-size lists that it splits

For C16: how many of the yielded items stay in the array, and the item types that are fixed-size lists, possibly nested, of booleans or of
nullable items, of a width that does not fit the amounts in which these are appended.
-/

namespace Narrow.Spec

/-- How many of the `n` items that were yielded before the panic stay in the array:
* of nullable items, as many times 1024 as were complete;
* primitives and variable-size lists all stay;
* of fixed-size lists, those of which all elements stay;
* of booleans, those that still fitted into the last byte: not a matter of `n` alone. -/
def kept : Ty → Bool → Nat → Option Nat
  | _, true, n => some (n / 1024 * 1024)
  | .bool, false, _ => none
  | .prim _, false, n => some n
  | .vsl _ _ _, false, n => some n
  | .fsl m nl t, false, n => (kept t nl (n * m)).map (· / m)

/-- The same for an array of `len` items, grown within memory limits, so that its booleans
begin with a byte: of these, those stay that fill up the last byte. -/
def keptGrown : Ty → Bool → (len n : Nat) → Nat
  | _, true, _, n => n / 1024 * 1024
  | .bool, false, len, n => min n ((8 - len % 8) % 8)
  | .prim _, false, _, n => n
  | .vsl _ _ _, false, _, n => n
  | .fsl m nl t, false, len, n => keptGrown t nl (len * m) (n * m) / m

/-- How many booleans or nullable items make up one item of a type: for `[[bool; 3]; 2]`
and `[[Option<u8>; 3]; 2]` it is 6. -/
def width : Ty → Nat
  | .fsl n false t => n * width t
  | .fsl n true _ => n
  | _ => 1

/-- An item is made up of more than one boolean, or of a number of nullable items that
neither divides 1024 nor is a multiple of it. (Items whose type is itself safe: of the
others, nothing is claimed here.) -/
def Splits : Ty → Prop
  | t => go t (width t)
where
  /-- The innermost type decides. -/
  go : Ty → Nat → Prop
  | .bool, w => w ≠ 1
  | .prim _, _ => False
  | .fsl _ false t, w => go t w
  | .fsl _ true t, w => ¬(w ∣ 1024 ∨ 1024 ∣ w) ∧ TrySafe t
  | .vsl _ _ _, _ => False

/-- Booleans, and fixed-size lists of these, nested or not. -/
def Flags : Ty → Prop
  | .bool => True
  | .fsl _ false t => Flags t
  | _ => False

end Narrow.Spec
