import Verif.Spec.Ffi

/-!
# Structures of the C Data Interface in memory

The C declarations of the Arrow C Data Interface:

    struct ArrowSchema {                       struct ArrowArray {
      const char* format;             // 0       int64_t length;                 // 0
      const char* name;               // 8       int64_t null_count;             // 8
      const char* metadata;           // 16      int64_t offset;                 // 16
      int64_t flags;                  // 24      int64_t n_buffers;              // 24
      int64_t n_children;             // 32      int64_t n_children;             // 32
      struct ArrowSchema** children;  // 40      const void** buffers;           // 40
      struct ArrowSchema* dictionary; // 48      struct ArrowArray** children;   // 48
      void (*release)(...);           // 56      struct ArrowArray* dictionary;  // 56
      void* private_data;             // 64      void (*release)(...);           // 64
    };                                           void* private_data;             // 72
                                               };

on a 64-bit little-endian target. Independent of the importer.
-/

namespace Narrow.Ffi.Spec

open Narrow.Ffi

/-- Memory holds the integer `v` in the eight bytes at address `p`, least
significant byte first. -/
def Holds (m : Mem) (p v : Nat) : Prop :=
  v < 2 ^ 64 ∧ ∀ i, i < 8 → m.byte (p + i) = some (BitVec.ofNat 8 (v / 256 ^ i))

/-- The bytes `s` and a NUL are at address `p`, with no NUL among `s`. -/
def StringAt (m : Mem) (p : Nat) (s : List Byte) : Prop :=
  (∀ i (h : i < s.length), s[i] ≠ 0#8 ∧ m.byte (p + i) = some s[i]) ∧
    m.byte (p + s.length) = some 0#8

/-- An optional string: null or a pointer to it. -/
def OptString (m : Mem) (p : Nat) : Option (List Byte) → Prop
  | none => Holds m p 0
  | some s => ∃ q, q ≠ 0 ∧ Holds m p q ∧ StringAt m q s

/-- An optional table: null or a pointer to its entries. -/
def OptTable (m : Mem) (p : Nat) {α : Type} (entryAt : Nat → α → Prop) : Option (List α) → Prop
  | none => Holds m p 0
  | some l => ∃ q, q ≠ 0 ∧ Holds m p q ∧ ∀ i (h : i < l.length), entryAt (q + 8 * i) l[i]

/-- A pointer of which only whether it is null is known. -/
def Pointer (m : Mem) (p : Nat) (nonNull : Prop) : Prop := ∃ q, Holds m p q ∧ (q ≠ 0 ↔ nonNull)

/-- The structure `array` is at address `p`, without its children. -/
def ArrayFields (m : Mem) (p : Nat) (a : CArray) : Prop :=
  Holds m p a.length.toNat ∧ Holds m (p + 8) a.nullCount.toNat ∧
    Holds m (p + 16) a.offset.toNat ∧ Holds m (p + 24) a.nBuffers.toNat ∧
    Holds m (p + 32) a.nChildren.toNat ∧ OptTable m (p + 40) (Holds m) a.buffers ∧
    Pointer m (p + 48) (a.children ≠ none) ∧ Pointer m (p + 56) (a.dictionary = true) ∧
    Pointer m (p + 64) (a.release ≠ none) ∧ ∃ q, Holds m (p + 72) q

/-- The structure `array` is at address `p`; its descendants are in memory down to
depth `d`. -/
def ArrayAt (m : Mem) : (d : Nat) → (p : Nat) → CArray → Prop
  | 0, p, a => ArrayFields m p a
  | d + 1, p, a => ArrayFields m p a ∧
      OptTable m (p + 48) (fun q child => match child with
        | none => Holds m q 0
        | some child => ∃ r, r ≠ 0 ∧ Holds m q r ∧ ArrayAt m d r child) a.children

/-- The structure `schema` is at address `p`, without its children. -/
def SchemaFields (m : Mem) (p : Nat) (s : CSchema) : Prop :=
  OptString m p s.format ∧ OptString m (p + 8) s.name ∧
    Pointer m (p + 16) (s.metadata = true) ∧ Holds m (p + 24) s.flags.toNat ∧
    Holds m (p + 32) s.nChildren.toNat ∧ Pointer m (p + 40) (s.children ≠ none) ∧
    Pointer m (p + 48) (s.dictionary = true) ∧ Pointer m (p + 56) (s.release ≠ none) ∧
    ∃ q, Holds m (p + 64) q

/-- The structure `schema` is at address `p`; its descendants are in memory down
to depth `d`. -/
def SchemaAt (m : Mem) : (d : Nat) → (p : Nat) → CSchema → Prop
  | 0, p, s => SchemaFields m p s
  | d + 1, p, s => SchemaFields m p s ∧
      OptTable m (p + 40) (fun q child => match child with
        | none => Holds m q 0
        | some child => ∃ r, r ≠ 0 ∧ Holds m q r ∧ SchemaAt m d r child) s.children

/-- How many lists the items are nested in. -/
def nesting : Ty → Nat
  | .bool => 0
  | .prim _ => 0
  | .fsl _ _ t => nesting t + 1
  | .vsl _ _ t => nesting t + 1

/-- From the structure at address `p`, its first child is at address `q`. -/
def ChildAt (m : Mem) (p q : Nat) : Prop := ∃ r, Holds m (p + 48) r ∧ Holds m r q

end Narrow.Ffi.Spec
