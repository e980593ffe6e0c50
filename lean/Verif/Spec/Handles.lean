import Verif.Model.Release

/-!
# What a consumer may do with exported structures

The Arrow C Data Interface lets a consumer release a structure, release one of its
children before it, and move a structure or a child elsewhere: the bytes of the
structure are copied and the original is marked released. Here the consumer holds a
list of structures; an action names one of them and the path to one of its
descendants, by child indices. Only structures that are not released are touched.
-/

namespace Narrow.Ffi.Spec

/-- Release the structure at this path of a held structure, or move it out. -/
inductive Act where
  | release (held : Nat) (path : List Nat)
  | moveOut (held : Nat) (path : List Nat)
  deriving Repr

/-! ## Arrays -/

/-- The structure at a path, unless it or one above it is released. -/
def arrayAt : CArray → List Nat → Option CArray
  | a, [] => if a.isReleased then none else some a
  | a, i :: path =>
    if a.isReleased then none
    else (a.children.bind fun l => (l[i]?).join).bind fun kid => arrayAt kid path

/-- Overwriting the structure at a path. -/
def arraySet : CArray → List Nat → CArray → CArray
  | _, [], new => new
  | a, i :: path, new =>
    { a with children := a.children.map fun l =>
        match (l[i]?).join with
        | some kid => l.set i (some (arraySet kid path new))
        | none => l }

/-- Array structures held by a consumer, and what happened to memory so far. -/
structure Arrays where
  held : List CArray
  events : List Event

/-- One action. Nothing happens if there is no live structure at the path. -/
def Arrays.act (s : Arrays) : Act → Arrays
  | .release h path =>
    match s.held[h]? with
    | none => s
    | some root =>
      match arrayAt root path with
      | none => s
      | some node =>
        ⟨s.held.set h (arraySet root path node.afterRelease), s.events ++ node.dropEvents⟩
  | .moveOut h path =>
    match s.held[h]? with
    | none => s
    | some root =>
      match arrayAt root path with
      | none => s
      | some node =>
        ⟨s.held.set h (arraySet root path { node with release := none }) ++ [node], s.events⟩

/-- A sequence of actions. -/
def Arrays.run (s : Arrays) (acts : List Act) : Arrays := acts.foldl Arrays.act s

/-- The private data `p` is held by this structure or a descendant. -/
inductive Keeps : CArray → Private → Prop
  | own {a p} : a.release = some p → Keeps a p
  | child {a q l kid p} : a.release = some q → a.children = some l → some kid ∈ l → Keeps kid p →
      Keeps a p

/-- The buffer at `p` is pointed to by this structure or a descendant. -/
inductive Points : CArray → Nat → Prop
  | own {a l p} : a.buffers = some l → p ∈ l → p ≠ 0 → Points a p
  | child {a l kid p} : a.children = some l → some kid ∈ l → Points kid p → Points a p

/-- This structure or a descendant has a dictionary. -/
inductive Encoded : CArray → Prop
  | own {a} : a.dictionary = true → Encoded a
  | child {a l kid} : a.children = some l → some kid ∈ l → Encoded kid → Encoded a

/-! ## Schemas -/

/-- The structure at a path, unless it or one above it is released. -/
def schemaAt : CSchema → List Nat → Option CSchema
  | a, [] => if a.isReleased then none else some a
  | a, i :: path =>
    if a.isReleased then none
    else (a.children.bind fun l => (l[i]?).join).bind fun kid => schemaAt kid path

/-- Overwriting the structure at a path. -/
def schemaSet : CSchema → List Nat → CSchema → CSchema
  | _, [], new => new
  | a, i :: path, new =>
    { a with children := a.children.map fun l =>
        match (l[i]?).join with
        | some kid => l.set i (some (schemaSet kid path new))
        | none => l }

/-- Schema structures held by a consumer, and what happened to memory so far. -/
structure Schemas where
  held : List CSchema
  events : List Event

/-- One action. Nothing happens if there is no live structure at the path. -/
def Schemas.act (s : Schemas) : Act → Schemas
  | .release h path =>
    match s.held[h]? with
    | none => s
    | some root =>
      match schemaAt root path with
      | none => s
      | some node =>
        ⟨s.held.set h (schemaSet root path node.afterRelease), s.events ++ node.dropEvents⟩
  | .moveOut h path =>
    match s.held[h]? with
    | none => s
    | some root =>
      match schemaAt root path with
      | none => s
      | some node =>
        ⟨s.held.set h (schemaSet root path { node with release := none }) ++ [node], s.events⟩

/-- A sequence of actions. -/
def Schemas.run (s : Schemas) (acts : List Act) : Schemas := acts.foldl Schemas.act s

/-- The box is held by this structure or a descendant. A structure whose callback
frees a box is itself, with its format and its children, stored in that box. -/
inductive KeepsBox : CSchema → Nat → Prop
  | own {a box} : a.release = some (some box) → KeepsBox a box
  | child {a r l kid box} : a.release = some (some r) → a.children = some l → some kid ∈ l →
      KeepsBox kid box → KeepsBox a box

/-- This structure or a descendant has a dictionary. -/
inductive EncodedSchema : CSchema → Prop
  | own {a} : a.dictionary = true → EncodedSchema a
  | child {a l kid} : a.children = some l → some kid ∈ l → EncodedSchema kid → EncodedSchema a

end Narrow.Ffi.Spec
