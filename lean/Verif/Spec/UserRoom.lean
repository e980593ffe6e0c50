import Verif.Spec.Refill
import Verif.Spec.Room

/-!
# Room reserved in collections and storages written by users

`MakesRoom R Good Space`: reserving calls of the collection type `R` make room.
`Space c n` says that `c` has room for `n` more items; each collection type says itself
what that means. `SCovers k n l`: reserving for `n` items of a composition reserves for
the items `l`.
-/

namespace Narrow.Spec

/-- Calls that reserve for `n` items make room for `n` items. Appending uses up the room
for the appended items only, dropping items uses up none, and what there is room for is
appended whatever the allocator answers. -/
structure MakesRoom {α : Type} (R : Realloc α) (Good : R.C → Prop) (Space : R.C → Nat → Prop) :
    Prop where
  nothing : ∀ {c}, Good c → Space c 0
  less : ∀ {c m n}, m ≤ n → Space c n → Space c m
  withCap : ∀ {n c}, R.withCap n = .ok c → Space c n
  tryWithCap : ∀ {w w' n c}, R.tryWithCap w n = (.ok c, w') → Space c n
  reserve : ∀ {c c' n}, Good c → R.reserve c n = (c', .ok) → Space c' n
  tryReserve : ∀ {w w' c c' n}, Good c → R.tryReserve w c n = (c', .ok, w') → Space c' n
  truncate : ∀ {c c' m n}, Good c → Space c n → R.truncate c m = (c', .ok) → Space c' n
  extend : ∀ {c c' n} {s : Src α}, Good c → Space c (s.items.length + n) →
    R.extend c s = (c', .ok) → Space c' n
  tryExtend : ∀ {w w' c c' n} {s : Src α}, Good c → Space c (s.items.length + n) →
    R.tryExtend w c s = (c', .ok, w') → Space c' n
  granted : ∀ {w c} {s : Src α}, Good c → Space c s.items.length → s.panics = false →
    HonestLower w.oracle → ∃ c' w', R.tryExtend w c s = (c', .ok, w') ∧ HonestLower w'.oracle

/-- For a storage: overwriting its slice uses up no room. -/
structure MakesRoomBuf {α : Type} (B : Backing α) (Good : B.C → Prop) (Space : B.C → Nat → Prop) :
    Prop extends MakesRoom B.toRealloc Good Space where
  write : ∀ {c l n}, Good c → Space c n → l.length = (B.borrow c).length → Space (B.write c l) n

/-- All collections and storages of a composition make room. -/
def Providing : {O : Type} → SComp O → Prop
  | _, .leaf R Good _ => ∃ Space, MakesRoom R Good Space
  | _, .bitmap B Good => ∃ Space, MakesRoomBuf B Good Space
  | _, .flatten _ _ k => Providing k
  | _, .validity _ B Good k => (∃ Space, MakesRoomBuf B Good Space) ∧ Providing k
  | _, .offsets _ D Good k => (∃ Space, MakesRoomBuf D Good Space) ∧ Providing k

/-- Reserving for `n` items of a composition reserves for the items `l`. Groups: their
elements are covered by `n` times the width. Lists: there are at most `n`, and their
elements together are covered by `n`. Nullable items: there are at most `n`, and they are
covered with defaults in place of nulls. -/
def SCovers : {O : Type} → SComp O → Nat → List O → Prop
  | _, .leaf _ _ _, n, l => l.length ≤ n
  | _, .bitmap _ _, n, l => l.length ≤ n
  | _, .flatten m _ k, n, l => SCovers k (n * m) (l.flatMap Subtype.val)
  | _, .validity _ _ _ k, n, l => l.length ≤ n ∧ SCovers k n (l.map (·.getD (scompR k).dflt))
  | _, .offsets _ _ _ k, n, l => l.length ≤ n ∧ SCovers k n l.flatten

/-- The lengths of all lists together fit the offset types. -/
def TotalsFit : {O : Type} → SComp O → List O → Prop
  | _, .leaf _ _ _, _ => True
  | _, .bitmap _ _, _ => True
  | _, .flatten _ _ k, l => TotalsFit k (l.flatMap Subtype.val)
  | _, .validity _ _ _ k, l => TotalsFit k (l.map (·.getD (scompR k).dflt))
  | _, .offsets ow _ _ k, l => l.flatten.length ≤ ow.max ∧ TotalsFit k l.flatten

end Narrow.Spec
