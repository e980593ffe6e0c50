import Verif.Spec.Compose
import Verif.Spec.Reach

/-!
# Reserved room

What the calls that take a number of items make room for, and what using that
room means.
-/

namespace Narrow.Spec

/-- Reserving for `n` items of an array makes room for the items `l`. Booleans and
numbers: there are at most `n`. Fixed-size lists: their elements are covered by
`n` times the width. Lists: there are at most `n`, and their elements together
are covered by `n`, because reserving for `n` lists reserves for `n` elements.
Nullable items: there are at most `n`, and they are covered with defaults in
place of nulls. -/
def Covers : (nl : Bool) → (t : Ty) → (n : Nat) → List (ItemVal nl (Val t)) → Prop :=
  fun nl t => match nl with
    | false => base t
    | true => fun n l => l.length ≤ n ∧ base t n (l.map fun o => Option.getD o (baseR t).dflt)
where
  /-- `Covers` for items that cannot be null. -/
  base : (t : Ty) → Nat → List (Val t) → Prop
  | .bool, n, l => l.length ≤ n
  | .prim _, n, l => l.length ≤ n
  | .fsl k false t, n, l => base t (n * k) (l.flatMap Subtype.val)
  | .fsl k true t, n, l =>
      (l.flatMap Subtype.val).length ≤ n * k ∧
      base t (n * k) ((l.flatMap Subtype.val).map fun o => Option.getD o (baseR t).dflt)
  | .vsl _ false t, n, l => l.length ≤ n ∧ base t n l.flatten
  | .vsl _ true t, n, l =>
      l.length ≤ n ∧ l.flatten.length ≤ n ∧ base t n (l.flatten.map fun o => Option.getD o (baseR t).dflt)

/-- `Covers` for the items of a composition. -/
def CCovers : {O : Type} → Comp O → Nat → List O → Prop
  | _, .vec _ _ _, n, l => l.length ≤ n
  | _, .bitmap, n, l => l.length ≤ n
  | _, .flatten m _ k, n, l => CCovers k (n * m) (l.flatMap Subtype.val)
  | _, .validity k, n, l => l.length ≤ n ∧ CCovers k n (l.map fun o => o.getD (compR k).dflt)
  | _, .offsets _ k, n, l => l.length ≤ n ∧ CCovers k n l.flatten

/-- The collection `c` with items `l` is the result of a call that reserves for
`n` items. `Made c l`: `c` was made by the growing calls, and has the items `l`. -/
inductive Reserved {O : Type} (R : Realloc O) (Made : R.C → List O → Prop) (n : Nat) :
    R.C → List O → Prop
  /-- `with_capacity(n)` -/
  | withCap {c} : R.withCap n = .ok c → Reserved R Made n c []
  /-- `try_with_capacity_in(n)` returning `Ok` -/
  | tryWithCap {c w w'} : R.tryWithCap w n = (.ok c, w') → Reserved R Made n c []
  /-- `reserve(n)` -/
  | reserve {c c' l} : Made c l → R.reserve c n = (c', .ok) → Reserved R Made n c' l
  /-- `try_reserve(n)` returning `Ok` -/
  | tryReserve {c c' l w w'} : Made c l → R.tryReserve w c n = (c', .ok, w') → Reserved R Made n c' l

/-- A call on the reserved collection. -/
inductive Use (O : Type)
  /-- `try_extend` -/
  | tryExtend (s : Src O)
  /-- `truncate` -/
  | truncate (m : Nat)

/-- One call after the other, stopping at the first one that does not return `Ok`. -/
def runUses {O : Type} (R : Realloc O) (w : World) (c : R.C) : List (Use O) → R.C × Out × World
  | [] => (c, .ok, w)
  | .tryExtend s :: rest =>
    match R.tryExtend w c s with
    | (c', .ok, w') => runUses R w' c' rest
    | r => r
  | .truncate m :: rest =>
    match R.truncate c m with
    | (c', .ok) => runUses R w c' rest
    | (c', o) => (c', o, w)

/-- The same calls on a plain list. -/
def listUses {O : Type} (l : List O) : List (Use O) → List O
  | [] => l
  | .tryExtend s :: rest => listUses (l ++ s.items) rest
  | .truncate m :: rest => listUses (l.take m) rest

/-- All items appended by the calls. -/
def appended {O : Type} : List (Use O) → List O
  | [] => []
  | .tryExtend s :: rest => s.items ++ appended rest
  | .truncate _ :: rest => appended rest

/-- No source panics. -/
def Calm {O : Type} : List (Use O) → Prop
  | [] => True
  | .tryExtend s :: rest => s.panics = false ∧ Calm rest
  | .truncate _ :: rest => Calm rest

end Narrow.Spec
