import Verif.Model.Ffi

/-!
# Who frees what

narrow-ffi/src/lib.rs (`Drop`), narrow-ffi/src/export/mod.rs (release callbacks).
The effects of dropping and releasing are lists of events.
-/

namespace Narrow.Ffi

/-- What happens to memory (by narrow-ffi/src/export/mod.rs:175, 196 and 317-354). -/
inductive Event where
  /-- a box of private data is allocated -/
  | alloc (box : Nat)
  /-- a box of private data is freed -/
  | free (box : Nat)
  /-- an array is dropped, with all its buffers -/
  | dropOwner (buffers : List Nat)
  deriving DecidableEq, Repr

mutual

/-- `Drop for ArrowArray` (narrow-ffi/src/lib.rs:208-216) with the callback
`release_array` (narrow-ffi/src/export/mod.rs:316-331): nothing if released,
otherwise the private data is dropped. Its fields are dropped in order
(narrow-ffi/src/export/mod.rs:216-227): the buffer table, the children, the table
of child pointers, the owner; then the box is freed. The children table of an
exported structure points to exactly the children held in its private data. -/
def CArray.dropEvents : CArray → List Event
  | ⟨_, _, _, _, _, _, children, _, release⟩ =>
    match release with
    | none => []
    | some p =>
      tableEvents children ++
        ((match p.owner with | none => [] | some b => [.dropOwner b]) ++ [.free p.box])

/-- Dropping the children held in private data (the field of
narrow-ffi/src/export/mod.rs:221, narrow-ffi/src/lib.rs:208-216). -/
def tableEvents : Option (List (Option CArray)) → List Event
  | none => []
  | some l => listEvents l

/-- Dropping a list of structures, front to back (the field of
narrow-ffi/src/export/mod.rs:221, narrow-ffi/src/lib.rs:208-216). -/
def listEvents : List (Option CArray) → List Event
  | [] => []
  | x :: l => optEvents x ++ listEvents l

/-- Dropping one structure of a list (narrow-ffi/src/lib.rs:208-216). -/
def optEvents : Option CArray → List Event
  | none => []
  | some a => a.dropEvents

end

mutual

/-- `Drop for ArrowSchema` (narrow-ffi/src/lib.rs:147-155) with the callbacks
`release_flat_schema` and `release_schema` (narrow-ffi/src/export/mod.rs:333-354). -/
def CSchema.dropEvents : CSchema → List Event
  | ⟨_, _, _, _, _, children, _, release⟩ =>
    match release with
    | none => []
    | some none => []
    | some (some box) => schemaTableEvents children ++ [.free box]

/-- Dropping the children held in private data (the fields of
narrow-ffi/src/export/fixed_size_list.rs:116 and variable_size_list.rs:120). -/
def schemaTableEvents : Option (List (Option CSchema)) → List Event
  | none => []
  | some l => schemaListEvents l

/-- Dropping a list of structures, front to back (the fields of
narrow-ffi/src/export/fixed_size_list.rs:116 and variable_size_list.rs:120). -/
def schemaListEvents : List (Option CSchema) → List Event
  | [] => []
  | x :: l => schemaOptEvents x ++ schemaListEvents l

/-- Dropping one structure of a list (narrow-ffi/src/lib.rs:147-155). -/
def schemaOptEvents : Option CSchema → List Event
  | none => []
  | some a => a.dropEvents

end

/-- The structure after its release callback returned
(narrow-ffi/src/export/mod.rs:317-331). -/
def CArray.afterRelease (a : CArray) : CArray :=
  { a with buffers := none, children := none, dictionary := false, release := none }

/-- The structure after its release callback returned
(narrow-ffi/src/export/mod.rs:333-354): the callback of flat schemas only clears
`release`. -/
def CSchema.afterRelease (s : CSchema) : CSchema :=
  match s.release with
  | some (some _) => { s with children := none, dictionary := false, release := none }
  | _ => { s with release := none }

/-- What the owner of a pair of structures may do with them: call the release callbacks,
or drop the structures (narrow-ffi/src/lib.rs:147-155 and 208-216). -/
inductive Op where
  | releaseArray
  | dropArray
  | releaseSchema
  | dropSchema
  deriving DecidableEq, Repr

/-- A pair of structures and what happened to memory so far (the result of
narrow-ffi/src/export/mod.rs:126). -/
structure Pair where
  array : CArray
  schema : CSchema
  events : List Event

/-- One step. `Drop` (narrow-ffi/src/lib.rs:147-155, 208-216) calls the callback
unless the structure is released; a consumer does the same. In Rust nothing can
follow a drop; here further steps are allowed and find a released structure. -/
def Pair.step (p : Pair) : Op → Pair
  | .releaseArray => ⟨p.array.afterRelease, p.schema, p.events ++ p.array.dropEvents⟩
  | .dropArray => ⟨p.array.afterRelease, p.schema, p.events ++ p.array.dropEvents⟩
  | .releaseSchema => ⟨p.array, p.schema.afterRelease, p.events ++ p.schema.dropEvents⟩
  | .dropSchema => ⟨p.array, p.schema.afterRelease, p.events ++ p.schema.dropEvents⟩

/-- A sequence of steps (narrow-ffi/src/lib.rs:147-155 and 208-216). -/
def Pair.run (p : Pair) (ops : List Op) : Pair := ops.foldl Pair.step p

end Narrow.Ffi
