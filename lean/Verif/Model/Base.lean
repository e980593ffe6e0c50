/-!
# Base notions of the model

Outcomes, machine-integer limits, source iterators, the allocator oracle and
the growable `Vec` storage every buffer uses.
-/

namespace Narrow

/-- `usize::MAX` on a 64-bit target (used for lengths, src/length.rs:21-45). -/
def usizeMax : Nat := 2 ^ 64 - 1

/-- Largest number of elements a non-zero-sized `Vec` can hold in the model: no single
allocation exceeds `2^60` bytes. Rust's own limit is `isize::MAX` (`2^63 - 1`) bytes,
and 64-bit address spaces are at most `2^57` bytes. Growing beyond it is a
capacity-overflow panic (infallible calls) or an allocation error (fallible calls) (of
the buffers of src/buffer.rs:94-97). -/
def byteMax : Nat := 2 ^ 60

/-- A byte (`u8`) (the items of bitmap buffers, src/bitmap/mod.rs:100-114). -/
abbrev Byte := BitVec 8

/-- Result of a Rust function that returns normally or panics (for every panicking
function, e.g. src/collection/flatten.rs:130-134). -/
inductive Res (α : Type) where
  | ok (a : α)
  | panic
  deriving DecidableEq, Repr

/-- Result of a fallible Rust function: `Ok`, `Err(AllocError)` or a panic (`Result<_,
AllocError>`, src/collection/mod.rs:158-166 and 183-256). -/
inductive Try (α : Type) where
  | ok (a : α)
  | err
  | panic
  deriving DecidableEq, Repr

/-- Outcome of a Rust function taking `&mut self`; the state it leaves behind is
returned beside it (e.g. `extend` and `try_extend`, src/collection/mod.rs:318-407). -/
inductive Out where
  | ok
  | err
  | panic
  deriving DecidableEq, Repr

namespace Res

/-- Sequencing: a panic unwinds (the calls made one after the other in every modelled
function, e.g. src/collection/flatten.rs:156-162). -/
def bind {α β : Type} (x : Res α) (f : α → Res β) : Res β :=
  match x with
  | .ok a => f a
  | .panic => .panic

/-- Apply a total function to the returned value (e.g. src/bitmap/mod.rs:422-427). -/
def map {α β : Type} (f : α → β) (x : Res α) : Res β :=
  match x with
  | .ok a => .ok (f a)
  | .panic => .panic

/-- `Option::expect` on a returned option (e.g. src/collection/flatten.rs:160). -/
def expect {α : Type} (x : Res (Option α)) : Res α :=
  match x with
  | .ok (some a) => .ok a
  | .ok none => .panic
  | .panic => .panic

end Res

/-- `usize::strict_add`: panics on overflow (e.g. src/bitmap/mod.rs:196). -/
def strictAdd (a b : Nat) : Res Nat := if a + b ≤ usizeMax then .ok (a + b) else .panic

/-- `usize::strict_mul`: panics on overflow (e.g. src/collection/flatten.rs:159). -/
def strictMul (a b : Nat) : Res Nat := if a * b ≤ usizeMax then .ok (a * b) else .panic

/-- `usize::strict_sub`: panics on underflow (e.g. src/bitmap/mod.rs:201). -/
def strictSub (a b : Nat) : Res Nat := if b ≤ a then .ok (a - b) else .panic

/-- `usize::strict_div`: panics when the divisor is zero (e.g.
src/collection/flatten.rs:132). -/
def strictDiv (a b : Nat) : Res Nat := if b = 0 then .panic else .ok (a / b)

/-- `usize::checked_add` (e.g. src/bitmap/mod.rs:159-160). -/
def checkedAdd (a b : Nat) : Option Nat := if a + b ≤ usizeMax then some (a + b) else none

/-- `usize::checked_mul` (e.g. src/collection/flatten.rs:197). -/
def checkedMul (a b : Nat) : Option Nat := if a * b ≤ usizeMax then some (a * b) else none

/-- `usize::saturating_mul` (e.g. src/bitmap/unpacked.rs:69). -/
def satMul (a b : Nat) : Nat := min (a * b) usizeMax

/-- `usize::saturating_add` (e.g. src/bitmap/unpacked.rs:69). -/
def satAdd (a b : Nat) : Nat := min (a + b) usizeMax

/-! ## Source iterators -/

/-- What one call of `Iterator::next` on a caller-supplied iterator does: return
`Some(a)`, return `None`, or panic (the iterators given to e.g. src/bitmap/mod.rs:342).
-/
inductive Ev (α : Type) where
  | item (a : α)
  | none
  | panic
  deriving DecidableEq, Repr

/-- A caller-supplied iterator as the results of its successive `next` calls. After the
end of the list every further call returns `None`. Iterators that yield again after
`None`, and iterators that panic, are ordinary values (the iterators given to e.g.
src/bitmap/mod.rs:342). -/
abbrev Src (α : Type) := List (Ev α)

namespace Src

variable {α β : Type}

/-- The items before the first `None` or panic (what e.g. src/bitmap/mod.rs:342-391
reads). -/
def items : Src α → List α
  | .item a :: s => a :: items s
  | _ => []

/-- Does the iterator panic before returning its first `None`? (what e.g.
src/bitmap/mod.rs:348-350 has in mind). -/
def panics : Src α → Bool
  | .item _ :: s => panics s
  | .panic :: _ => true
  | _ => false

/-- The iterator over a list (`Vec::into_iter`) (e.g. the items of
src/collection/vec.rs:33-35). -/
def ofList (l : List α) : Src α := l.map Ev.item

/-- The iterator yielding a list and then panicking (as in the comment of
src/bitmap/mod.rs:347-350). -/
def ofListPanic (l : List α) : Src α := l.map Ev.item ++ [Ev.panic]

/-- `Iterator::map` with a function that does not panic (e.g. src/validity.rs:426). -/
def map (f : α → β) : Src α → Src β :=
  List.map fun e => match e with
    | .item a => .item (f a)
    | .none => .none
    | .panic => .panic

/-- `Iterator::fuse`: nothing is read after the first `None`. Nothing is read after a
panic either, because the panic unwinds through the reader (e.g. src/bitmap/mod.rs:345).
-/
def fuse : Src α → Src α
  | .item a :: s => .item a :: fuse s
  | .panic :: _ => [.panic]
  | _ => []

/-- `by_ref().take(n)` read until it returns `None` or panics: the events read by the
consumer, and the iterator that is left. The consumer stops at the first `None`; `Take`
returns `None` after `n` items without touching the iterator (src/validity.rs:419-421
and 523-525). -/
def takeChunk : Nat → Src α → Src α × Src α
  | 0, s => ([], s)
  | _ + 1, [] => ([], [])
  | _ + 1, .none :: s => ([.none], s)
  | _ + 1, .panic :: s => ([.panic], s)
  | n + 1, .item a :: s => (.item a :: (takeChunk n s).1, (takeChunk n s).2)

/-- A source that never yields again after `None` (and never polls past it) (the callers
src/bitmap/mod.rs:343-345 need not rely on). -/
def Fused (s : Src α) : Prop := s.fuse = s

end Src

/-! ## Allocator and size-hint oracle -/

/-- The environment of fallible operations: how the allocator answers and what size
hints the source iterators report. Both may change with every query, which the query
number models (the answers behind src/collection/vec.rs:53-102 and src/validity.rs:377).
-/
structure Oracle where
  /-- Answer to a request for the given capacity: refuse, or grant that
  capacity plus some extra. -/
  grant : Nat → Nat → Option Nat
  /-- Lower size-hint bound of an iterator with the given number of items. -/
  lower : Nat → Nat → Nat
  /-- Upper size-hint bound of an iterator with the given number of items. -/
  upper : Nat → Nat → Option Nat

/-- The environment with the number of the next query (the answers behind
src/collection/vec.rs:53-102 and src/validity.rs:377). -/
structure World where
  oracle : Oracle
  tick : Nat

namespace World

/-- Advance to the next query (one query of e.g. src/collection/vec.rs:79). -/
def next (w : World) : World := { w with tick := w.tick + 1 }

/-- The lower bound reported by an iterator with `n` items (src/collection/vec.rs:66 and
89). -/
def lowerHint (w : World) (n : Nat) : Nat := w.oracle.lower w.tick n

/-- `upper_bound.unwrap_or(lower_bound)` of an iterator with `n` items
(src/validity.rs:377, 457 and 486; src/offset.rs:348 and 371). -/
def capHint (w : World) (n : Nat) : Nat :=
  (w.oracle.upper w.tick n).getD (w.oracle.lower w.tick n)

end World

/-! ## `Vec` -/

/-- A `Vec<T>`: its elements and its capacity (the buffer of src/buffer.rs:94-97). -/
structure RVec (α : Type) where
  items : List α
  cap : Nat
  deriving DecidableEq, Repr

namespace RVec

variable {α : Type}

/-- Well-formedness: within the limit and within the capacity (the buffer of
src/buffer.rs:94-97). -/
structure WF (lim : Nat) (v : RVec α) : Prop where
  le_cap : v.items.length ≤ v.cap
  cap_lim : v.cap ≤ lim

/-- `Vec::new`, `Vec::default` (e.g. src/bitmap/mod.rs:298). -/
def empty : RVec α := ⟨[], 0⟩

/-- `Vec::len` (src/length.rs:47-51). -/
def len (v : RVec α) : Nat := v.items.length

/-- `Vec::push` after capacity is ensured; std grows the capacity when full (in the
loops of `Extend` behind src/bitmap/mod.rs:388). -/
def push (v : RVec α) (a : α) : RVec α :=
  ⟨v.items ++ [a], max v.cap (v.items.length + 1)⟩

/-- `Vec::push` inside a fallible operation: `none` when the capacity is exhausted,
which would make std allocate infallibly and abort on failure. The model reports that as
a panic, so that it can be proved never to happen (src/collection/vec.rs:92-99). -/
def pushWithin (v : RVec α) (a : α) : Option (RVec α) :=
  if v.items.length < v.cap then some ⟨v.items ++ [a], v.cap⟩ else none

/-- `Clone for Vec` (std): equal elements in an allocation of just their size (e.g.
src/bitmap/mod.rs:288). -/
def clone (v : RVec α) : RVec α := ⟨v.items, v.items.length⟩

/-- `Vec::truncate` (src/collection/vec.rs:108-110). -/
def truncate (v : RVec α) (n : Nat) : RVec α := ⟨v.items.take n, v.cap⟩

/-- `Vec::extend` (std, used by src/collection/vec.rs:49-51 and all buffers):
pushes items until the first `None`; items pushed before a panic stay. Beyond
`lim` elements it panics with a capacity overflow. -/
def extend (lim : Nat) (v : RVec α) : Src α → RVec α × Out
  | [] => (v, .ok)
  | .none :: _ => (v, .ok)
  | .panic :: _ => (v, .panic)
  | .item a :: s =>
    if v.items.length < lim then extend lim (v.push a) s else (v, .panic)

/-- `Vec::reserve` (src/collection/vec.rs:104-106). The capacity after growth is
at least the requested one; the model keeps exactly that much. -/
def reserve (lim : Nat) (v : RVec α) (n : Nat) : RVec α × Out :=
  if n ≤ v.cap - v.items.length then (v, .ok)
  else if v.items.length + n ≤ lim then (⟨v.items, v.items.length + n⟩, .ok)
  else (v, .panic)

/-- `Vec::with_capacity` (src/collection/vec.rs:45-47). -/
def withCap (lim : Nat) (n : Nat) : Try (RVec α) :=
  if n ≤ lim then .ok ⟨[], n⟩ else .panic

/-- `Vec::try_reserve` mapped to `AllocError` (src/collection/vec.rs:79-81):
no request when the spare capacity suffices, an error on capacity overflow,
otherwise the allocator decides (how much more than requested it grants, too;
no capacity exceeds `lim`). -/
def tryReserve (lim : Nat) (w : World) (v : RVec α) (n : Nat) : RVec α × Out × World :=
  if n ≤ v.cap - v.items.length then (v, .ok, w)
  else if v.items.length + n ≤ lim then
    match w.oracle.grant w.tick (v.items.length + n) with
    | none => (v, .err, w.next)
    | some extra => (⟨v.items, min (v.items.length + n + extra) lim⟩, .ok, w.next)
  else (v, .err, w)

/-- `Vec::try_with_capacity_in` (src/collection/vec.rs:53-59). -/
def tryWithCap (lim : Nat) (w : World) (n : Nat) : Try (RVec α) × World :=
  match tryReserve lim w (empty : RVec α) n with
  | (v, .ok, w') => (.ok v, w')
  | (_, _, w') => (.err, w')

/-- The loop of `Vec::try_from_iter_in` (src/collection/vec.rs:67-72):
`try_reserve(1)` and push per item. -/
def tryFromIterLoop (lim : Nat) (w : World) (v : RVec α) : Src α → Try (RVec α) × World
  | [] => (.ok v, w)
  | .none :: _ => (.ok v, w)
  | .panic :: _ => (.panic, w)
  | .item a :: s =>
    match tryReserve lim w v 1 with
    | (v', .ok, w') =>
      match v'.pushWithin a with
      | some v'' => tryFromIterLoop lim w' v'' s
      | none => (.panic, w')
    | (_, _, w') => (.err, w')

/-- `Vec::try_from_iter_in` (src/collection/vec.rs:61-73). -/
def tryFromIter (lim : Nat) (w : World) (s : Src α) : Try (RVec α) × World :=
  match tryWithCap lim w.next (w.lowerHint s.items.length) with
  | (.ok v, w') => tryFromIterLoop lim w' v s
  | (_, w') => (.err, w')

/-- `Vec::from_iter_in` (src/collection/vec.rs:49-51) and `FromIterator`. -/
def fromIter (lim : Nat) (s : Src α) : Try (RVec α) :=
  match extend lim (empty : RVec α) s with
  | (v, .ok) => .ok v
  | _ => .panic

/-- The loop of `Vec::try_extend` (src/collection/vec.rs:92-100); `len0` is the
length before the call, restored on failure. -/
def tryExtendLoop (lim : Nat) (len0 : Nat) (w : World) (v : RVec α) :
    Src α → RVec α × Out × World
  | [] => (v, .ok, w)
  | .none :: _ => (v, .ok, w)
  | .panic :: _ => (v, .panic, w)
  | .item a :: s =>
    if v.items.length = v.cap then
      match tryReserve lim w v 1 with
      | (v', .ok, w') =>
        match v'.pushWithin a with
        | some v'' => tryExtendLoop lim len0 w' v'' s
        | none => (v', .panic, w')
      | (v', _, w') => (v'.truncate len0, .err, w')
    else
      match v.pushWithin a with
      | some v'' => tryExtendLoop lim len0 w v'' s
      | none => (v, .panic, w)

/-- `Vec::try_extend` (src/collection/vec.rs:83-102). -/
def tryExtend (lim : Nat) (w : World) (v : RVec α) (s : Src α) : RVec α × Out × World :=
  match tryReserve lim w.next v (w.lowerHint s.items.length) with
  | (v', .ok, w') => tryExtendLoop lim v.items.length w' v' s
  | (v', _, w') => (v', .err, w')

end RVec

end Narrow
