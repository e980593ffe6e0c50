import Verif.Model.Debug
import Verif.Spec.Access
import Verif.Spec.Ffi

/-!
# When a text tells what it prints

`Tells text same`: from the text of a value, wherever it occurs in the text of something
else, one can tell the value, up to `same`.
-/

namespace Narrow.Spec

open Ffi.Spec (bytesOf)

/-- The characters that may follow a value in the text of a struct, tuple or list. -/
def endings : List Byte := bytesOf ",]) }"

/-- Nothing follows, or one of these characters. -/
def Ended (rest : List Byte) : Prop := ∀ b ∈ rest.head?, b ∈ endings

/-- Values with the same text are the same, whatever follows the texts. Texts are not empty
and do not begin with a character that ends a value. -/
structure Tells {α : Type} (text : α → List Byte) (same : α → α → Prop) : Prop where
  starts : ∀ a, ∃ b rest, text a = b :: rest ∧ b ∉ endings
  tells : ∀ {a b : α} {r s : List Byte}, Ended r → Ended s → text a ++ r = text b ++ s →
    same a b ∧ r = s

/-- How the storages and collections written by the user are printed. -/
def Texts : {O : Type} → SComp O → Type
  | _, .leaf R _ _ => R.C → List Byte
  | _, .bitmap B _ => B.C → List Byte
  | _, .flatten _ _ k => Texts k
  | _, .validity _ B _ k => (B.C → List Byte) × Texts k
  | _, .offsets _ D _ k => (D.C → List Byte) × Texts k

/-- The text of a composition. -/
def debugText : {O : Type} → (k : SComp O) → Texts k → (scompR k).C → List Byte
  | _, .leaf _ _ _, t, c => t c
  | _, .bitmap _ _, t, c => BitmapOf.debug t c
  | _, .flatten _ _ k, t, c => Flatten.debug (debugText k t) c
  | _, .validity _ _ _ k, t, c => ValidityOf.debug (debugText k t.2) (BitmapOf.debug t.1) c
  | _, .offsets _ _ _ k, t, c => OffsetsIn.debug (debugText k t.2) t.1 c

/-- The text of the user's storages and collections tells what they hold. -/
def Telling : {O : Type} → (k : SComp O) → Texts k → Prop
  | _, .leaf _ _ held, t => Tells t (fun c d => held c = held d)
  | _, .bitmap B _, t => Tells t (fun c d => B.borrow c = B.borrow d)
  | _, .flatten _ _ k, t => Telling k t
  | _, .validity _ B _ k, t => Tells t.1 (fun c d => B.borrow c = B.borrow d) ∧ Telling k t.2
  | _, .offsets _ D _ k, t => Tells t.1 (fun c d => D.borrow c = D.borrow d) ∧ Telling k t.2

/-- The text of the user's storages and collections shows nothing else. -/
def OnlyHeld : {O : Type} → (k : SComp O) → Texts k → Prop
  | _, .leaf _ _ held, t => ∀ c d, held c = held d → t c = t d
  | _, .bitmap B _, t => ∀ c d, B.borrow c = B.borrow d → t c = t d
  | _, .flatten _ _ k, t => OnlyHeld k t
  | _, .validity _ B _ k, t => (∀ c d, B.borrow c = B.borrow d → t.1 c = t.1 d) ∧ OnlyHeld k t.2
  | _, .offsets _ D _ k, t => (∀ c d, D.borrow c = D.borrow d → t.1 c = t.1 d) ∧ OnlyHeld k t.2

/-- No floating-point type occurs. -/
def _root_.Narrow.Prim.NoFloat : Prim → Prop
  | .f32 | .f64 => False
  | .array _ p => p.NoFloat
  | _ => True

/-- No floating-point type occurs. -/
def _root_.Narrow.Ty.NoFloat : Ty → Prop
  | .bool => True
  | .prim p => p.NoFloat
  | .fsl _ _ t => t.NoFloat
  | .vsl _ _ t => t.NoFloat

end Narrow.Spec
