import Verif.Model.Coll

/-!
# What a user sees when reading a collection

The specification of reading, in terms of the public calls only: `Reads K c l`
says that every way of reading the collection `c` shows the list `l`.
-/

namespace Narrow.Spec

/-- Apply a function that may panic to every element. -/
def mapRes {α β : Type} (f : α → Res β) : List α → Res (List β)
  | [] => .ok []
  | a :: l =>
    match f a with
    | .panic => .panic
    | .ok b => (mapRes f l).map (b :: ·)

/-- Call `next` on an iterator `n` times, going on after `None`: everything the
calls returned, and the iterator afterwards. -/
def polls {σ τ : Type} (next : σ → Res (Option τ × σ)) : Nat → σ → Res (List (Option τ) × σ)
  | 0, it => .ok ([], it)
  | n + 1, it =>
    match next it with
    | .panic => .panic
    | .ok (x, it') => (polls next n it').map fun r => (x :: r.1, r.2)

/-- Convert the answer of a `next` call. -/
def convOpt {α β : Type} (conv : α → Res β) : Option α → Res (Option β)
  | none => .ok none
  | some a => (conv a).map some

/-- The iterator `it` yields exactly `l`: for every number `n` of `next` calls
none of them panics, the `i`-th call returns the `i`-th item of `l` (`None` past
its end, however often it is called), and afterwards the iterator reports the
exact number of items left. -/
def Iterates {σ τ O : Type} (next : σ → Res (Option τ × σ)) (len : σ → Res Nat)
    (conv : τ → Res O) (it : σ) (l : List O) : Prop :=
  ∀ n, ∃ answers it', polls next n it = .ok (answers, it') ∧
    mapRes (convOpt conv) answers = .ok ((List.range n).map fun i => l[i]?) ∧
    len it' = .ok (l.length - n)

/-- Every way of reading `c` shows the list `l`. -/
structure Reads {O : Type} (K : Coll O) (c : K.C) (l : List O) : Prop where
  /-- `len` -/
  len : K.len c = .ok l.length
  /-- `owned(i)`, the owned value of `view(i)` -/
  owned : ∀ i (h : i < l.length), K.owned c i = .ok (some l[i])
  /-- `iter_views`, each view converted into an owned item -/
  iter : ∃ it, K.iter c = .ok it ∧ Iterates K.inext K.ilen K.toOwned it l
  /-- `into_iter_owned` -/
  into : ∃ it, K.into c = .ok it ∧ Iterates K.jnext K.jlen Res.ok it l

/-- A collection shows at most one list. -/
theorem Reads.unique {O : Type} {K : Coll O} {c : K.C} {l m : List O}
    (hl : Reads K c l) (hm : Reads K c m) : l = m := by
  have h1 : l.length = m.length := by
    have := hl.len.symm.trans hm.len
    injection this
  apply List.ext_getElem h1
  intro i h2 h3
  have := (hl.owned i h2).symm.trans (hm.owned i h3)
  injection this with this
  injection this

end Narrow.Spec
