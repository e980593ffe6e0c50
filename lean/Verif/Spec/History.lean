import Verif.Spec.Env
import Verif.Spec.Reach
import Verif.Spec.Splits

/-!
# Histories of calls on one array

`record` runs any sequence of public calls on an array and notes every answer.
`Explained` says what a plain list would have answered: a program that only sees
the recorded answers cannot tell the array from a list.
-/

namespace Narrow.Spec

/-- A call on an array. Every fallible call comes with the behaviour of the
allocator and of size hints during it. -/
inductive Call (α : Type)
  /-- `extend(s)` -/
  | extend (s : Src α)
  /-- `try_extend(s)` -/
  | tryExtend (w : World) (s : Src α)
  /-- `truncate(n)` -/
  | truncate (n : Nat)
  /-- `reserve(n)` -/
  | reserve (n : Nat)
  /-- `try_reserve(n)` -/
  | tryReserve (w : World) (n : Nat)
  /-- `len()` -/
  | len
  /-- `owned(i)` -/
  | owned (i : Nat)
  /-- `iter_views()`, `k` calls of `next` on it, each view converted into an owned
  item, and the length it reports afterwards -/
  | views (k : Nat)
  /-- `clone().into_iter_owned()`, `k` calls of `next` on it, and the length it
  reports afterwards -/
  | items (k : Nat)

/-- The answer of a call. -/
inductive Ans (α : Type)
  /-- it returned nothing, or `Ok(())` -/
  | done
  /-- it returned `Err` -/
  | failed
  /-- it panicked, and the panic was caught -/
  | panicked
  /-- it returned a length -/
  | len (n : Nat)
  /-- it returned an optional item -/
  | item (x : Option α)
  /-- the answers of `next` and the length reported after them -/
  | iterated (xs : List (Option α)) (left : Nat)

/-- The answer of a call that returns nothing. -/
def Ans.ofOut {α : Type} : Out → Ans α
  | .ok => .done
  | .err => .failed
  | .panic => .panicked

/-- Make `k` calls of `next`, convert what they return, and ask for the length. -/
def drive {σ τ α : Type} (next : σ → Res (Option τ × σ)) (len : σ → Res Nat) (conv : τ → Res α)
    (k : Nat) (start : Res σ) : Ans α :=
  match start with
  | .panic => .panicked
  | .ok it =>
    match polls next k it with
    | .panic => .panicked
    | .ok (as, it') =>
      match mapRes (convOpt conv) as, len it' with
      | .ok xs, .ok left => .iterated xs left
      | _, _ => .panicked

/-- Make one call: the array afterwards, and the answer. -/
def call {α : Type} (R : Realloc α) (c : R.C) : Call α → R.C × Ans α
  | .extend s => ((R.extend c s).1, .ofOut (R.extend c s).2)
  | .tryExtend w s => ((R.tryExtend w c s).1, .ofOut (R.tryExtend w c s).2.1)
  | .truncate n => ((R.truncate c n).1, .ofOut (R.truncate c n).2)
  | .reserve n => ((R.reserve c n).1, .ofOut (R.reserve c n).2)
  | .tryReserve w n => ((R.tryReserve w c n).1, .ofOut (R.tryReserve w c n).2.1)
  | .len => (c, match R.len c with | .ok n => .len n | .panic => .panicked)
  | .owned i => (c, match R.owned c i with | .ok x => .item x | .panic => .panicked)
  | .views k => (c, drive R.inext R.ilen R.toOwned k (R.iter c))
  | .items k => (c, drive R.jnext R.jlen Res.ok k (R.into c))

/-- Make the calls one after the other and record the answers. -/
def record {α : Type} (R : Realloc α) : R.C → List (Call α) → List (Call α × Ans α)
  | _, [] => []
  | c, op :: ops => (op, (call R c op).2) :: record R (call R c op).1 ops

variable (nl : Bool) (t : Ty)

/-- A panic of a source damages nothing: the array was built within memory limits, and the
yielded items fit. -/
def Spared (g : Prop) (l : List (ItemVal nl (Val t))) (s : Src (ItemVal nl (Val t))) : Prop :=
  GrowSafe t ∧ g ∧ Fits nl t 0 (l ++ s.items)

/-- What a list `l` answers, and the list afterwards. The proposition `g` says
that the array was built within memory limits so far. -/
inductive Step : Prop → List (ItemVal nl (Val t)) → Call (ItemVal nl (Val t)) →
    Ans (ItemVal nl (Val t)) → Prop → List (ItemVal nl (Val t)) → Prop
  /-- `extend` appends what the source yields. -/
  | extend {g l s} : s.panics = false →
      Step g l (.extend s) .done (g ∧ Fits nl t 0 (l ++ s.items)) (l ++ s.items)
  /-- `extend` panics only if the source panics or if the items do not fit; a
  prefix of what was yielded has been appended, of a known length within memory limits. -/
  | extendPanic {g l s} (k : Nat) : (s.panics = true ∨ ¬(g ∧ Fits nl t 0 (l ++ s.items))) →
      (NoFixed t ∨ Spared nl t g l s) →
      (Spared nl t g l s → k = keptGrown t nl l.length s.items.length) →
      Step g l (.extend s) .panicked (Plain nl t ∧ Spared nl t g l s) (l ++ s.items.take k)
  /-- `try_extend` appends what the source yields. -/
  | tryExtend {g l w s} : s.panics = false →
      Step g l (.tryExtend w s) .done (g ∧ Fits nl t 0 (l ++ s.items)) (l ++ s.items)
  /-- `try_extend` fails only for a reason, and then changes nothing. -/
  | tryExtendErr {g l w s} :
      ¬(g ∧ Fits nl t 0 (l ++ s.items) ∧ Generous w.oracle ∧ TightHints w.oracle) →
      Step g l (.tryExtend w s) .failed (g ∧ Fits nl t 0 (l ++ s.items)) l
  /-- `try_extend` panics only if the source does; a prefix of what was yielded
  has been appended, of a known length within memory limits. -/
  | tryExtendPanic {g l w s} (k : Nat) : s.panics = true → (TrySafe t ∨ Spared nl t g l s) →
      (Spared nl t g l s → k = keptGrown t nl l.length s.items.length) →
      Step g l (.tryExtend w s) .panicked (Plain nl t ∧ Spared nl t g l s) (l ++ s.items.take k)
  /-- `truncate` never fails. -/
  | truncate {g l n} : Step g l (.truncate n) .done g (l.take n)
  | reserve {g l n} : Step g l (.reserve n) .done g l
  /-- `reserve` panics only if the items do not fit, and then changes nothing. -/
  | reservePanic {g l n} : ¬(g ∧ Fits nl t n l) → Step g l (.reserve n) .panicked g l
  | tryReserve {g l w n} : Step g l (.tryReserve w n) .done g l
  /-- `try_reserve` fails only for a reason, and then changes nothing. -/
  | tryReserveErr {g l w n} : ¬(g ∧ Fits nl t n l ∧ Generous w.oracle ∧ TightHints w.oracle) →
      Step g l (.tryReserve w n) .failed g l
  | len {g l} : Step g l .len (.len l.length) g l
  | owned {g l i} (h : i < l.length) : Step g l (.owned i) (.item (some l[i])) g l
  | ownedNone {g l i} : l.length ≤ i → ReturnsNone nl t i → Step g l (.owned i) (.item none) g l
  /-- see C09 -/
  | ownedPanic {g l i} : l.length ≤ i → ¬ReturnsNone nl t i → Step g l (.owned i) .panicked g l
  | views {g l k} :
      Step g l (.views k) (.iterated ((List.range k).map fun i => l[i]?) (l.length - k)) g l
  | items {g l k} :
      Step g l (.items k) (.iterated ((List.range k).map fun i => l[i]?) (l.length - k)) g l

/-- The panics after which nothing is claimed: those that leave an array of
fixed-size lists with an incomplete item (see C16). -/
inductive Breaks : Prop → List (ItemVal nl (Val t)) → Call (ItemVal nl (Val t)) →
    Ans (ItemVal nl (Val t)) → Prop
  | extend {g l s} : (s.panics = true ∨ ¬(g ∧ Fits nl t 0 (l ++ s.items))) → ¬NoFixed t →
      ¬Spared nl t g l s → Breaks g l (.extend s) .panicked
  | tryExtend {g l w s} : s.panics = true → ¬TrySafe t → ¬Spared nl t g l s →
      Breaks g l (.tryExtend w s) .panicked

/-- A list explains the recorded answers, up to the first breaking panic. -/
inductive Explained : Prop → List (ItemVal nl (Val t)) →
    List (Call (ItemVal nl (Val t)) × Ans (ItemVal nl (Val t))) → Prop
  | nil {g l} : Explained g l []
  | step {g l op a g' l' rest} : Step nl t g l op a g' l' → Explained g' l' rest →
      Explained g l ((op, a) :: rest)
  | breaks {g l op a rest} : Breaks nl t g l op a → Explained g l ((op, a) :: rest)

/-- What a list answers when nothing goes wrong, and the list afterwards. -/
def plain {α : Type} (l : List α) : Call α → List α × Ans α
  | .extend s => (l ++ s.items, .done)
  | .tryExtend _ s => (l ++ s.items, .done)
  | .truncate n => (l.take n, .done)
  | .reserve _ => (l, .done)
  | .tryReserve _ _ => (l, .done)
  | .len => (l, .len l.length)
  | .owned i => (l, .item l[i]?)
  | .views k => (l, .iterated ((List.range k).map fun i => l[i]?) (l.length - k))
  | .items k => (l, .iterated ((List.range k).map fun i => l[i]?) (l.length - k))

/-- The calls and answers of a list. -/
def plainRecord {α : Type} : List α → List (Call α) → List (Call α × Ans α)
  | _, [] => []
  | l, op :: ops => (op, (plain l op).2) :: plainRecord (plain l op).1 ops

/-- Nothing goes wrong in a call: sources do not panic, everything fits, fallible
calls are granted their memory, and no index is past the end of an array of
fixed-size lists. -/
def Fine (l : List (ItemVal nl (Val t))) : Call (ItemVal nl (Val t)) → Prop
  | .extend s => s.panics = false ∧ Fits nl t 0 (l ++ s.items)
  | .tryExtend w s => s.panics = false ∧ Fits nl t 0 (l ++ s.items) ∧ Generous w.oracle ∧
      TightHints w.oracle
  | .reserve n => Fits nl t n l
  | .tryReserve w n => Fits nl t n l ∧ Generous w.oracle ∧ TightHints w.oracle
  | .owned i => i < l.length ∨ ReturnsNone nl t i
  | _ => True

/-- Nothing goes wrong in a sequence of calls. -/
def AllFine : List (ItemVal nl (Val t)) → List (Call (ItemVal nl (Val t))) → Prop
  | _, [] => True
  | l, op :: ops => Fine nl t l op ∧ AllFine (plain l op).1 ops

end Narrow.Spec
