import Verif.Spec.RawExport

/-!
# Many exports at once

A program and a consumer share memory. Arrays are exported one after the other; the
consumer keeps the structures it gets in memory of its own, moves them, takes their
children out of them or releases these in place, drops them in any order, and gives
that memory back. `base` is what memory would be without all
this: the arrays themselves, the string literals, and everything else.
-/

namespace Narrow.Ffi.Spec

open Narrow.Ffi

/-- An array to export: its items, its own bytes, and where its buffers are if it is
at a given address. -/
structure Item where
  nl : Bool
  t : Ty
  c : (arrayR nl t).C
  owner : List Byte
  align : Nat
  a : Nat → APlace nl t

/-- A structure that the consumer has, at `addr`: the `ArrowArray` or the
`ArrowSchema` of an export of `item`, or of a child of it, `depth` levels down, whose
items are of type `t`. It is `live` if it is not released, and `whole` if its own
child was neither taken out nor released. -/
structure Piece where
  item : Item
  array : Bool
  addr : Nat
  live : Bool
  depth : Nat
  nl : Bool
  t : Ty
  whole : Bool

/-- One that an export returns. -/
abbrev Item.piece (x : Item) (array : Bool) (addr : Nat) (live : Bool) : Piece :=
  ⟨x, array, addr, live, 0, x.nl, x.t, true⟩

/-- One that was taken out of another. -/
abbrev Piece.kid (x : Piece) (nl : Bool) (t : Ty) (addr : Nat) : Piece :=
  ⟨x.item, x.array, addr, true, x.depth + 1, nl, t, true⟩

/-- The items of the child of an array, if it has one. -/
def childOf : Ty → Option (Bool × Ty)
  | .fsl _ nl t => some (nl, t)
  | .vsl _ nl t => some (nl, t)
  | _ => none

/-- `Part depth c c'`: the array `c'` is the child of the array `c`, `depth` levels down
(the `child` of fixed-size lists, the `data` of variable-size lists). -/
inductive Part {nl : Bool} {t : Ty} (c : (arrayR nl t).C) :
    Nat → (nl' : Bool) → (t' : Ty) → (arrayR nl' t').C → Prop
  | here : Part c 0 nl t c
  | fsl {d n : Nat} {nl1 nl2 : Bool} {t2 : Ty} {c1 : (arrayR nl1 (.fsl n nl2 t2)).C} :
      Part c d nl1 (.fsl n nl2 t2) c1 →
      Part c (d + 1) nl2 t2 (valuesOf (baseR (.fsl n nl2 t2)) nl1 c1 : Flatten (arrayR nl2 t2).C).child
  | vsl {d : Nat} {ow : OffW} {nl1 nl2 : Bool} {t2 : Ty} {c1 : (arrayR nl1 (.vsl ow nl2 t2)).C} :
      Part c d nl1 (.vsl ow nl2 t2) c1 →
      Part c (d + 1) nl2 t2 (valuesOf (baseR (.vsl ow nl2 t2)) nl1 c1 : Offsets (arrayR nl2 t2).C).data

/-- The size of the structure. -/
def Piece.size (x : Piece) : Nat := if x.array then 80 else 72

/-- Where its release callback is. -/
def Piece.callback (x : Piece) : Nat := if x.array then 64 else 56

/-- Where the pointer to its table of children is. -/
def Piece.children (x : Piece) : Nat := if x.array then 48 else 40

/-- Dropping the structure (`Drop for ArrowArray`, `Drop for ArrowSchema`): its
callback is called, unless it is null. -/
def Piece.drop (env : Raw.Env) (x : Piece) : Raw.Heap → Raw.Ex Raw.Heap :=
  if x.array then
    Raw.dropArray (env.releaseArray (x.depth == 0) x.nl x.t) (Raw.releaseArray env x.t (x.depth == 0) x.nl) x.addr
  else
    Raw.dropSchema (env.releaseSchema x.t) (Raw.releaseSchema env x.t) x.addr

/-- From `h` to `h'`, the bytes `l` were put at `p`, where there was no memory. -/
structure Placed (h : Raw.Heap) (p : Nat) (l : List Byte) (h' : Raw.Heap) : Prop where
  free : ∀ q, InBlock p l.length q → h.mem.byte q = none
  bytes : BytesAt h'.mem p l
  mem : ∀ q, ¬ InBlock p l.length q → h'.mem.byte q = h.mem.byte q
  blocks : ∀ q, h'.blocks q = h.blocks q
  dropped : h'.dropped = h.dropped

/-- From `h` to `h'`, the `n` bytes at `p` were given back. -/
structure Vacated (h : Raw.Heap) (p n : Nat) (h' : Raw.Heap) : Prop where
  gone : ∀ q, InBlock p n q → h'.mem.byte q = none
  mem : ∀ q, ¬ InBlock p n q → h'.mem.byte q = h.mem.byte q
  blocks : ∀ q, h'.blocks q = h.blocks q
  dropped : h'.dropped = h.dropped

/-- From `h` to `h'`, the pointer at `p` was set to null. -/
structure Nulled (h : Raw.Heap) (p : Nat) (h' : Raw.Heap) : Prop where
  null : Holds h'.mem p 0
  mem : ∀ q, ¬ InBlock p 8 q → h'.mem.byte q = h.mem.byte q
  blocks : ∀ q, h'.blocks q = h.blocks q
  dropped : h'.dropped = h.dropped

/-- The rest of the program allocates memory: where `base` and `h` have the same, or
where `h` had none. -/
structure Grown (base h base' h' : Raw.Heap) : Prop where
  tidy : Tidy base'
  each : ∀ q, (base'.mem.byte q = base.mem.byte q ∧ base'.blocks q = base.blocks q ∧
      h'.mem.byte q = h.mem.byte q ∧ h'.blocks q = h.blocks q) ∨
    (h.mem.byte q = none ∧ h'.mem.byte q = base'.mem.byte q ∧ h'.blocks q = base'.blocks q)
  base : base'.dropped = base.dropped
  dropped : h'.dropped = h.dropped

/-- `Session env base h pieces out`: memory may be `h`, the consumer having `pieces`,
after exporting arrays whose bytes were `out`. -/
inductive Session (env : Raw.Env) : Raw.Heap → Raw.Heap → List Piece → List (List Byte) → Prop
  /-- nothing is exported yet -/
  | start {base : Raw.Heap} (tidy : Tidy base) : Session env base base [] []
  /-- the rest of the program goes on -/
  | other {base h base' h' : Raw.Heap} {pieces : List Piece} {out : List (List Byte)}
      (before : Session env base h pieces out) (grown : Grown base h base' h') :
      Session env base' h' pieces out
  /-- an array is exported; the structures are stored at `p` and `s` -/
  | exported {base h h1 h2 h3 : Raw.Heap} {pieces : List Piece} {out : List (List Byte)} {x : Item}
      {origin p s : Nat} {array : Raw.RawArray} {schema : Raw.RawSchema}
      (before : Session env base h pieces out)
      (provided : Provided env base.mem x.nl x.t x.owner.length x.align)
      (owned : Owned base.mem x.nl x.t x.c x.owner x.align x.a)
      (call : Raw.exportAt env x.nl x.t x.c x.owner origin x.a h = .ok ((array, schema), h1))
      (first : Placed h1 p (Raw.arrayBytes array) h2) (second : Placed h2 s (Raw.schemaBytes schema) h3) :
      Session env base h3 (x.piece true p true :: x.piece false s true :: pieces) (x.owner :: out)
  /-- an export fails -/
  | failed {base h h' : Raw.Heap} {pieces : List Piece} {out : List (List Byte)} {x : Item} {origin : Nat}
      {e : ExportError} (before : Session env base h pieces out)
      (provided : Provided env base.mem x.nl x.t x.owner.length x.align)
      (owned : Owned base.mem x.nl x.t x.c x.owner x.align x.a)
      (call : Raw.exportAt env x.nl x.t x.c x.owner origin x.a h = .err e h') :
      Session env base h' pieces (x.owner :: out)
  /-- the consumer drops one of its structures, perhaps again -/
  | dropped {base h h' : Raw.Heap} {pieces rest : List Piece} {out : List (List Byte)} {x : Piece}
      (before : Session env base h pieces out) (one : pieces.Perm (x :: rest))
      (call : x.drop env h = .ok h') : Session env base h' ({ x with live := false } :: rest) out
  /-- the consumer moves one of its structures -/
  | moved {base h h1 h2 : Raw.Heap} {pieces rest : List Piece} {out : List (List Byte)} {x : Piece}
      {p : Nat} {l : List Byte} (before : Session env base h pieces out) (one : pieces.Perm (x :: rest))
      (size : l.length = x.size) (bytes : BytesAt h.mem x.addr l) (to : Placed h p l h1)
      (source : Vacated h1 x.addr x.size h2) : Session env base h2 ({ x with addr := p } :: rest) out
  /-- the consumer takes the child out of one of its structures: it finds the child by
  the table of children, copies it to `p`, and marks it as released in its place -/
  | taken {base h h1 h2 : Raw.Heap} {pieces rest : List Piece} {out : List (List Byte)} {x : Piece}
      {nl : Bool} {t : Ty} {table slot p : Nat} {l : List Byte} (before : Session env base h pieces out)
      (one : pieces.Perm (x :: rest)) (live : x.live = true) (whole : x.whole = true)
      (child : childOf x.t = some (nl, t)) (children : Holds h.mem (x.addr + x.children) table)
      (entry : Holds h.mem table slot) (size : l.length = x.size) (bytes : BytesAt h.mem slot l)
      (to : Placed h p l h1) (mark : Nulled h1 (slot + x.callback) h2) :
      Session env base h2 ({ x with whole := false } :: x.kid nl t p :: rest) out
  /-- the consumer releases the child of one of its structures where it is -/
  | disowned {base h h' : Raw.Heap} {pieces rest : List Piece} {out : List (List Byte)} {x : Piece} {nl : Bool} {t : Ty}
      {table slot : Nat} (before : Session env base h pieces out) (one : pieces.Perm (x :: rest))
      (live : x.live = true) (whole : x.whole = true) (child : childOf x.t = some (nl, t))
      (children : Holds h.mem (x.addr + x.children) table) (entry : Holds h.mem table slot)
      (call : (x.kid nl t slot).drop env h = .ok h') :
      Session env base h' ({ x with whole := false } :: rest) out
  /-- the consumer gives back the memory of a structure that was released -/
  | vacated {base h h' : Raw.Heap} {pieces rest : List Piece} {out : List (List Byte)} {x : Piece}
      (before : Session env base h pieces out) (one : pieces.Perm (x :: rest)) (released : x.live = false)
      (call : Vacated h x.addr x.size h') : Session env base h' rest out

end Narrow.Ffi.Spec
