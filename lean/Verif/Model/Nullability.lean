import Verif.Model.Layout
import Verif.Model.Ffi

/-!
# Item combinators, emptiness and default structures

src/nullability.rs, src/length.rs, narrow-ffi/src/lib.rs.
-/

namespace Narrow

namespace Nullability

/-- `Nullability::map` (src/nullability.rs:55, 125-127, 163-165). The function may
panic. -/
def map (nl : Bool) {α β : Type} (item : ItemVal nl α) (f : α → Res β) : Res (ItemVal nl β) :=
  match nl, item with
  | false, (a : α) => f a
  | true, (none : Option α) => .ok (none : Option β)
  | true, (some a : Option α) => (f a).map (fun b => (some b : Option β))

/-- `Nullability::zip` (src/nullability.rs:67, 128-130, 166-168). -/
def zip (nl : Bool) {α β : Type} (item : ItemVal nl α) (other : ItemVal nl β) : ItemVal nl (α × β) :=
  match nl, item, other with
  | false, (a : α), (b : β) => (a, b)
  | true, (some a : Option α), (some b : Option β) => (some (a, b) : Option (α × β))
  | true, _, _ => (none : Option (α × β))

/-- `Nullability::zip_with` (src/nullability.rs:78-84). -/
def zipWith (nl : Bool) {α β γ : Type} (item : ItemVal nl α) (other : ItemVal nl β)
    (f : α × β → Res γ) : Res (ItemVal nl γ) :=
  map nl (zip nl item other) f

end Nullability

/-- Provided method `Length::is_empty` (src/length.rs:42-44). -/
def Coll.isEmpty {O : Type} (K : Coll O) (c : K.C) : Res Bool := (K.len c).map (· == 0)

namespace Ffi

/-- `Default for ArrowArray` (narrow-ffi/src/lib.rs:191-206). -/
def CArray.default : CArray :=
  { length := 0#64, nullCount := 0#64, offset := 0#64, nBuffers := 0#64, nChildren := 0#64,
    buffers := none, children := none, dictionary := false, release := none }

/-- `Default for ArrowSchema` (narrow-ffi/src/lib.rs:131-145). -/
def CSchema.default : CSchema :=
  { format := none, name := none, metadata := false, flags := 0#64, nChildren := 0#64,
    children := none, dictionary := false, release := none }

end Ffi

end Narrow
