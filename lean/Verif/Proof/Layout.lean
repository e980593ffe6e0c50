import Verif.Model.Layout
import Verif.Proof.Flatten
import Verif.Proof.Validity
import Verif.Proof.Offsets

/-! # Every array type is lawful -/

namespace Narrow

theorem Prim.lim_le (p : Prim) : p.lim ≤ usizeMax := by
  unfold Prim.lim
  split
  · exact Nat.le_refl _
  · exact Nat.le_trans (Nat.div_le_self _ _) (by simp [byteMax, usizeMax])

/-- Laws of a possibly nullable collection. -/
def nullL {O : Type} (nl : Bool) {R : Realloc O} (L : LawfulR R) : LawfulR (nullR nl R) :=
  match nl with
  | false => L
  | true => validityL L

/-- Laws of the non-nullable layouts. -/
def baseL : (t : Ty) → t.WF → LawfulR (baseR t)
  | .bool, _ => bitmapL
  | .prim p, _ => vecL p.lim p.lim_le 0#(8 * p.size)
  | .fsl n nl t, h => flattenL (nullL nl (baseL t h.2)) n h.1
  | .vsl ow nl t, h => offsetsL ow (nullL nl (baseL t h))

/-- Laws of arrays. -/
def arrayL (nl : Bool) (t : Ty) (h : t.WF) : LawfulR (arrayR nl t) := nullL nl (baseL t h)

end Narrow
