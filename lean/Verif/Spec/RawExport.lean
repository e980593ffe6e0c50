import Verif.Model.RawExport
import Verif.Spec.Raw

/-!
# Export in memory: what is assumed and what is claimed

Words in memory (`Holds`) and strings (`StringAt`) are those of `Spec/Raw.lean`.
-/

namespace Narrow.Ffi.Spec

open Narrow.Ffi

/-- The bytes `l` are at address `p`. -/
def BytesAt (m : Mem) (p : Nat) (l : List Byte) : Prop :=
  ∀ i (h : i < l.length), m.byte (p + i) = some l[i]

/-- Everything in memory `m` is in `m'` too. -/
def Extends (m m' : Mem) : Prop := ∀ p b, m.byte p = some b → m'.byte p = some b

/-- The `ArrowArray` `r` is stored at address `p`. -/
def ArrayStored (m : Mem) (p : Nat) (r : Raw.RawArray) : Prop :=
  Holds m p r.length.toNat ∧ Holds m (p + 8) r.nullCount.toNat ∧ Holds m (p + 16) r.offset.toNat ∧
    Holds m (p + 24) r.nBuffers.toNat ∧ Holds m (p + 32) r.nChildren.toNat ∧
    Holds m (p + 40) r.buffers ∧ Holds m (p + 48) r.children ∧ Holds m (p + 56) r.dictionary ∧
    Holds m (p + 64) r.release ∧ Holds m (p + 72) r.privateData

/-- The `ArrowSchema` `r` is stored at address `p`. -/
def SchemaStored (m : Mem) (p : Nat) (r : Raw.RawSchema) : Prop :=
  Holds m p r.format ∧ Holds m (p + 8) r.name ∧ Holds m (p + 16) r.metadata ∧
    Holds m (p + 24) r.flags.toNat ∧ Holds m (p + 32) r.nChildren.toNat ∧
    Holds m (p + 40) r.children ∧ Holds m (p + 48) r.dictionary ∧ Holds m (p + 56) r.release ∧
    Holds m (p + 64) r.privateData

/-- Fields of `n` bytes at `p` and of `k` bytes at `q` do not overlap. -/
def Apart (p n q k : Nat) : Prop := n = 0 ∨ k = 0 ∨ p + n ≤ q ∨ q + k ≤ p

/-- The fields of `ArrayData` are inside it, aligned, and do not overlap: a table of `buffers`
pointers, `children` structures of 80 bytes, a vector of 24 bytes and the owner. -/
structure DataFields (l : Raw.DataLayout) (buffers children owner : Nat) : Prop where
  inside : l.buffers + 8 * buffers ≤ l.size ∧ l.children + 80 * children ≤ l.size ∧
    l.pointers + 24 ≤ l.size ∧ l.owner + owner ≤ l.size
  ownerSize : l.ownerSize = owner
  buffersChildren : Apart l.buffers (8 * buffers) l.children (80 * children)
  buffersPointers : Apart l.buffers (8 * buffers) l.pointers 24
  buffersOwner : Apart l.buffers (8 * buffers) l.owner owner
  childrenPointers : Apart l.children (80 * children) l.pointers 24
  childrenOwner : Apart l.children (80 * children) l.owner owner
  pointersOwner : Apart l.pointers 24 l.owner owner
  aligned : l.align % 8 = 0 ∧ l.buffers % 8 = 0 ∧ l.children % 8 = 0

/-- The fields of the boxes of schemas: the format string of fixed-size lists (an
address and a length), one structure of 72 bytes and a pointer to it. -/
structure SchemaDataFields (l : Raw.SchemaLayout) (format : Nat) : Prop where
  inside : l.format + format ≤ l.size ∧ l.children + 72 ≤ l.size ∧ l.pointers + 8 ≤ l.size
  formatChildren : Apart l.format format l.children 72
  formatPointers : Apart l.format format l.pointers 8
  childrenPointers : Apart l.children 72 l.pointers 8
  aligned : l.align % 8 = 0 ∧ l.children % 8 = 0 ∧ l.pointers % 8 = 0

/-- The string literals of the exporter. -/
def literals : List (List Byte) :=
  ["", "b", "c", "C", "s", "S", "i", "I", "l", "L", "f", "g", "+l", "+L"].map bytesOf

/-- What the program and its memory provide: string literals are in memory,
callbacks have addresses, and the compiler lays out the private data, with an owner
of `owner` bytes, aligned to `align`, for the array itself. -/
structure Provided (env : Raw.Env) (m : Mem) (nl : Bool) (t : Ty) (owner align : Nat) : Prop where
  literal : ∀ s ∈ literals, env.literal s ≠ 0 ∧ env.literal s < 2 ^ 64 ∧ StringAt m (env.literal s) s
  releaseArray : ∀ root nl t, env.releaseArray root nl t ≠ 0 ∧ env.releaseArray root nl t < 2 ^ 64
  releaseSchema : ∀ t, env.releaseSchema t ≠ 0 ∧ env.releaseSchema t < 2 ^ 64
  root : DataFields (env.data true nl t) (buffersIn t) (childrenIn t) owner
  rootAligned : (env.data true nl t).align % align = 0 ∧ (env.data true nl t).owner % align = 0
  child : ∀ nl t, DataFields (env.data false nl t) (buffersIn t) (childrenIn t) 0
  schema : ∀ t, SchemaDataFields (env.schema t) (match t with | .fsl _ _ _ => 16 | _ => 0)

/-- An array whose own bytes are `owner`, aligned to `align`, and whose buffers are at
`a q` if it is at address `q`: in every memory that holds what `m` holds, and the
array at `q`, all buffers are in memory at 64-bit addresses. For vectors and other
storage on the heap, `a` does not depend on `q`; buffers held inline move with the
array. -/
def Owned (m : Mem) (nl : Bool) (t : Ty) (c : (arrayR nl t).C) (owner : List Byte) (align : Nat)
    (a : Nat → APlace nl t) : Prop :=
  ∀ m' q, Extends m m' → q ≠ 0 → q % align = 0 → q + owner.length ≤ byteMax → BytesAt m' q owner →
    InMemory m' nl t c (a q) ∧ ∀ p ∈ allBuffers t nl (a q), p < 2 ^ 64

/-- The structure at address `p` and its tables are at multiples of eight. -/
def AlignedFields (m : Mem) (p : Nat) : Prop :=
  p % 8 = 0 ∧ ∃ b c, Holds m (p + 40) b ∧ b % 8 = 0 ∧ Holds m (p + 48) c ∧ c % 8 = 0

/-- The same of its descendants down to depth `d`. -/
def AlignedArray (m : Mem) : (d : Nat) → (p : Nat) → Prop
  | 0, p => AlignedFields m p
  | d + 1, p => AlignedFields m p ∧ ∃ n c, Holds m (p + 32) n ∧ Holds m (p + 48) c ∧
      ∀ i, i < n → ∃ r, Holds m (c + 8 * i) r ∧ AlignedArray m d r

/-- The schema at address `p` and its table are at multiples of eight. -/
def AlignedSchemaFields (m : Mem) (p : Nat) : Prop := p % 8 = 0 ∧ ∃ c, Holds m (p + 40) c ∧ c % 8 = 0

/-- The same of its descendants down to depth `d`. -/
def AlignedSchema (m : Mem) : (d : Nat) → (p : Nat) → Prop
  | 0, p => AlignedSchemaFields m p
  | d + 1, p => AlignedSchemaFields m p ∧ ∃ n c, Holds m (p + 32) n ∧ Holds m (p + 40) c ∧
      ∀ i, i < n → ∃ r, Holds m (c + 8 * i) r ∧ AlignedSchema m d r

/-- There was nothing at `q` in `h`, and in `h'` there is. -/
def New (h h' : Raw.Heap) (q : Nat) : Prop := h.mem.byte q = none ∧ h'.mem.byte q ≠ none

/-- Where there is no memory, no block is allocated. -/
def Tidy (h : Raw.Heap) : Prop := ∀ q, h.mem.byte q = none → h.blocks q = none

/-- `q` is one of the `n` bytes at `p`. -/
def InBlock (p n q : Nat) : Prop := p ≤ q ∧ q < p + n

/-- `H` holds what was added between `h` and `h'`, in the same blocks. -/
def Carries (h h' H : Raw.Heap) : Prop :=
  ∀ q, New h h' q → H.mem.byte q = h'.mem.byte q ∧ H.blocks q = h'.blocks q

/-- What a consumer has: in `H` is all that the export added, and wherever the
consumer put them, apart from that and from each other, the `ArrowArray` at `p` and
the `ArrowSchema` at `s`. -/
structure Handed (h h' H : Raw.Heap) (p s : Nat) (array : Raw.RawArray) (schema : Raw.RawSchema) : Prop where
  carries : Carries h h' H
  array : ArrayStored H.mem p array
  schema : SchemaStored H.mem s schema
  arrayApart : ∀ q, New h h' q → ¬ InBlock p 80 q
  schemaApart : ∀ q, New h h' q → ¬ InBlock s 72 q
  apart : ∀ q, InBlock p 80 q → ¬ InBlock s 72 q

/-- From `H` to `H'`, all that was added between `h` and `h'` was freed and nothing
else; besides only the structures at `p` and `s` were written to, and they are
marked as released. -/
structure Released (h h' : Raw.Heap) (p s : Nat) (H H' : Raw.Heap) : Prop where
  gone : ∀ q, New h h' q → H'.mem.byte q = none ∧ H'.blocks q = none
  mem : ∀ q, ¬ New h h' q → ¬ InBlock p 80 q → ¬ InBlock s 72 q → H'.mem.byte q = H.mem.byte q
  blocks : ∀ q, ¬ New h h' q → H'.blocks q = H.blocks q
  array : Holds H'.mem (p + 64) 0
  schema : Holds H'.mem (s + 56) 0

/-- The child of a structure that has one. -/
def onlyKid (a : CArray) : CArray :=
  match a.children with
  | some [some kid] => kid
  | _ => a

/-- The structure `depth` levels down. -/
def arrayBelow : (depth : Nat) → CArray → CArray
  | 0, a => a
  | d + 1, a => onlyKid (arrayBelow d a)

/-- The child of a schema that has one. -/
def onlyKidSchema (s : CSchema) : CSchema :=
  match s.children with
  | some [some kid] => kid
  | _ => s

/-- The schema `depth` levels down. -/
def schemaBelow : (depth : Nat) → CSchema → CSchema
  | 0, s => s
  | d + 1, s => onlyKidSchema (schemaBelow d s)

end Narrow.Ffi.Spec
