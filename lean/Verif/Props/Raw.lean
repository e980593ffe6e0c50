import Verif.Proof.Raw
import Verif.Props.Import
import Verif.Props.Export

/-!
# Importing from structures in memory (C73)

`Raw.importAt m t nl p s` is the import of the `ArrowArray` at address `p` and the
`ArrowSchema` at address `s`, as bytes of memory `m`. `ArrayAt` and `SchemaAt`
(Spec/Raw.lean) say, by the C declarations, which structures memory holds.
-/

namespace Narrow.Props

open Spec Narrow.Ffi Narrow.Ffi.Spec

variable {m : Mem} {t : Ty} {nl : Bool} {array : CArray} {schema : CSchema} {p s : Nat}

/-- C73. Importing from memory is importing the structures that memory holds,
according to the C declarations, down to the depth of the item type: all that is
proved of imports of structures holds of imports from memory. What is beyond that
depth does not matter, and structures may be shared. -/
theorem C73_imports_structures (ha : ArrayAt m (nesting t) p array)
    (hs : SchemaAt m (nesting t) s schema) (hu : importLayout m t nl array schema ≠ .ub) :
    Raw.importAt m t nl p s = importLayout m t nl array schema :=
  Raw.importAt_eq ha hs hu

theorem safe_not_ub (he : Exportable t) (hs : Safe m t nl array schema) :
    importLayout m t nl array schema ≠ .ub := by
  rcases C35_import_returns he hs with ⟨r, h⟩ | ⟨e, h⟩ <;> rw [h] <;> intro h' <;> cases h'

/-- C73. Within its contract, `import` from memory returns. If it accepts the
structures, the array is one the safe constructors build, of the declared length,
and borrows the producer's buffers; if not, the error names something that is wrong
with the structures. -/
theorem C73_outcome (he : Exportable t) (ha : ArrayAt m (nesting t) p array)
    (hs : SchemaAt m (nesting t) s schema) (h : Safe m t nl array schema) :
    (∃ c a, Raw.importAt m t nl p s = .ok (c, a) ∧ Reach nl t c ∧ Borrows m nl t c a array ∧
      ∃ l, Shows nl t c l ∧ (l.length : Int) = array.length.toInt) ∨
    ∃ e, Raw.importAt m t nl p s = .err e ∧ Defect m t nl array schema e := by
  have heq := C73_imports_structures (nl := nl) ha hs (safe_not_ub he h)
  rcases C35_import_returns he h with ⟨⟨c, a⟩, h'⟩ | ⟨e, h'⟩
  · obtain ⟨_, hr, hl⟩ := C35_imported_is_valid he h h'
    exact .inl ⟨c, a, heq.trans h', hr, C34_import_borrows he h h', hl⟩
  · exact .inr ⟨e, heq.trans h', C36_error_is_defect he h h'⟩

/-- C73. Whatever array is exported, once the exported structures are in memory,
importing them from there gives back its items. -/
theorem C73_round_trip {c : (arrayR nl t).C} {a : APlace nl t} {next : Nat} (ht : t.WF)
    (he : Exportable t) (hr : Reach nl t c) (hm : InMemory m nl t c a)
    (hz : ∀ o ∈ bitOffsets nl t c, o = 0) (hc : Committed nl t c)
    (h : (exportArray nl t c a next).result = .ok (.ok (array, schema)))
    (ha : ArrayAt m (nesting t) p array) (hs : SchemaAt m (nesting t) s schema) :
    ∃ c' a' l, Raw.importAt m t nl p s = .ok (c', a') ∧ Reach nl t c' ∧ Shows nl t c l ∧
      Shows nl t c' l := by
  obtain ⟨array', schema', c', a', h1, h2, h3, l, h4, h5⟩ := C31_round_trip ht he next hr hm hz hc
  rw [h] at h1
  cases h1
  exact ⟨c', a', l, (C73_imports_structures ha hs (by rw [h2]; intro h; cases h)).trans h2, h3, h4, h5⟩

/-- C73. Whatever memory holds, if `import` accepts a structure then the structures
on its way down to the innermost child are all different: a structure that is its
own descendant is never accepted (and `import` returns, being a function). -/
theorem C73_no_cycles {c : (arrayR nl t).C} {a : APlace nl t}
    (h : Raw.importAt m t nl p s = .ok (c, a)) (path : Nat → Nat) (h0 : path 0 = p)
    (hp : ∀ i, i < nesting t → ChildAt m (path i) (path (i + 1))) {i j : Nat} (hij : i < j)
    (hj : j ≤ nesting t) : path i ≠ path j :=
  Raw.path_distinct h path h0 hp hij hj

/-! ## A concrete case -/

namespace RawSample

/-- Eight bytes holding `v`. -/
def le (v : Nat) : List Byte := (List.range 8).map fun i => BitVec.ofNat 8 (v / 256 ^ i)

/-- Consecutive eight-byte fields. -/
def fields (l : List Nat) : List Byte := l.flatMap le

/-- Blocks of memory and their addresses: the buffers of `FfiSample`, strings from
100, tables from 200, structures from 320. The child table of the pairs is at
248. -/
def blocks (innermost : Nat) : List (Nat × List Byte) :=
  [(8, [13#8, 5#8, 49#8]),
   (16, [0#8, 0#8, 0#8, 0#8, 2#8, 0#8, 0#8, 0#8, 2#8, 0#8, 0#8, 0#8, 2#8, 0#8, 0#8, 0#8,
     3#8, 0#8, 0#8, 0#8]),
   (100, bytesOf "b" ++ [0#8]), (104, bytesOf "+w:2" ++ [0#8]), (112, bytesOf "+l" ++ [0#8]),
   (120, [0#8]), (200, fields [8, 16]), (216, fields [9]), (224, fields [0, 10]),
   (240, fields [400]), (248, fields [innermost]), (256, fields [632]), (264, fields [704]),
   (320, fields [4, 1, 0, 2, 1, 200, 240, 0, 4096, 0]),
   (400, fields [3, 1, 0, 1, 1, 216, 248, 0, 4096, 0]),
   (480, fields [6, 0, 0, 2, 0, 224, 0, 0, 4096, 0]),
   (560, fields [112, 120, 0, 2, 1, 256, 0, 4096, 0]),
   (632, fields [104, 120, 0, 2, 1, 264, 0, 4096, 0]),
   (704, fields [100, 120, 0, 0, 0, 0, 0, 4096, 0])]

/-- The byte at an address. -/
def find : List (Nat × List Byte) → Nat → Option Byte
  | [], _ => none
  | (q, l) :: rest, p => if q ≤ p ∧ p < q + l.length then l[p - q]? else find rest p

theorem find_high : ∀ (l : List (Nat × List Byte)) (p : Nat),
    (l.all fun b => b.1 + b.2.length ≤ 1000) = true → 1000 ≤ p → find l p = none
  | [], _, _, _ => rfl
  | (q, b) :: l, p, h, hp => by
    simp only [List.all_cons, Bool.and_eq_true, decide_eq_true_eq] at h
    rw [find, if_neg (by omega)]
    exact find_high l p h.2 hp

/-- The memory, with the address of the innermost child. -/
def mem (innermost : Nat) (h : find (blocks innermost) 0 = none)
    (h' : ((blocks innermost).all fun b => b.1 + b.2.length ≤ 1000) = true) : Mem where
  byte := find (blocks innermost)
  null := h
  high p hp := find_high _ p h' (Nat.le_trans (Nat.le_of_ble_eq_true rfl) hp)

/-- Everything in its place. -/
def good : Mem := mem 480 (by decide +kernel) (by decide +kernel)

/-- The pairs are their own child. -/
def cyclic : Mem := mem 400 (by decide +kernel) (by decide +kernel)

/-- `Holds`, to be computed. -/
def holds (m : Mem) (p v : Nat) : Bool :=
  v < 2 ^ 64 && (List.range 8).all fun i => m.byte (p + i) == some (BitVec.ofNat 8 (v / 256 ^ i))

theorem holds_of {m : Mem} {p v : Nat} (h : holds m p v = true) : Holds m p v := by
  simp only [holds, Bool.and_eq_true, decide_eq_true_eq, List.all_eq_true, List.mem_range,
    beq_iff_eq] at h
  exact h

/-- `StringAt`, to be computed. -/
def string (m : Mem) (p : Nat) (x : List Byte) : Bool :=
  ((List.range x.length).all fun i => x[i]? != some 0#8 && m.byte (p + i) == x[i]?) &&
    m.byte (p + x.length) == some 0#8

theorem string_of {m : Mem} {p : Nat} {x : List Byte} (h : string m p x = true) : StringAt m p x := by
  simp only [string, Bool.and_eq_true, List.all_eq_true, List.mem_range, bne_iff_ne, ne_eq,
    beq_iff_eq] at h
  refine ⟨fun i hi => ?_, h.2⟩
  have := h.1 i hi
  rw [List.getElem?_eq_getElem hi] at this
  exact ⟨fun e => this.1 (by rw [e]), this.2⟩

theorem tbl {m : Mem} {p q : Nat} {l : List Nat} (hq : q ≠ 0) (h : holds m p q = true)
    (hl : ((List.range l.length).all fun i => holds m (q + 8 * i) (l.getD i 0)) = true) :
    OptTable m p (Holds m) (some l) := by
  refine ⟨q, hq, holds_of h, fun i hi => ?_⟩
  have := List.all_eq_true.1 hl i (List.mem_range.2 hi)
  rw [List.getD_eq_getElem?_getD, List.getElem?_eq_getElem hi] at this
  exact holds_of this

theorem ptr {m : Mem} {p : Nat} (q : Nat) {P : Prop} (h : holds m p q = true) (e : q ≠ 0 ↔ P) :
    Pointer m p P := ⟨q, holds_of h, e⟩

theorem text {m : Mem} {p : Nat} (q : Nat) {x : List Byte} (hq : q ≠ 0) (h : holds m p q = true)
    (hx : string m q x = true) : OptString m p (some x) := ⟨q, hq, holds_of h, string_of hx⟩

theorem bitsAt : ArrayAt good 0 480 FfiSample.bitsArray :=
  ⟨holds_of (by decide +kernel), holds_of (by decide +kernel), holds_of (by decide +kernel),
    holds_of (by decide +kernel), holds_of (by decide +kernel),
    tbl (q := 224) (by decide) (by decide +kernel) (by decide +kernel),
    ptr 0 (by decide +kernel) (by simp [FfiSample.bitsArray]),
    ptr 0 (by decide +kernel) (by simp [FfiSample.bitsArray]),
    ptr 4096 (by decide +kernel) (by simp [FfiSample.bitsArray]), 0, holds_of (by decide +kernel)⟩

theorem pairsAt : ArrayAt good 1 400 FfiSample.pairsArray :=
  ⟨⟨holds_of (by decide +kernel), holds_of (by decide +kernel), holds_of (by decide +kernel),
    holds_of (by decide +kernel), holds_of (by decide +kernel),
    tbl (q := 216) (by decide) (by decide +kernel) (by decide +kernel),
    ptr 248 (by decide +kernel) (by simp [FfiSample.pairsArray]),
    ptr 0 (by decide +kernel) (by simp [FfiSample.pairsArray]),
    ptr 4096 (by decide +kernel) (by simp [FfiSample.pairsArray]), 0, holds_of (by decide +kernel)⟩,
   248, by decide, holds_of (by decide +kernel), fun i hi => by
    obtain rfl : i = 0 := Nat.lt_one_iff.1 hi
    exact ⟨480, by decide, holds_of (by decide +kernel), bitsAt⟩⟩

theorem arrayAt : ArrayAt good (nesting Sample.ty) 320 FfiSample.array :=
  ⟨⟨holds_of (by decide +kernel), holds_of (by decide +kernel), holds_of (by decide +kernel),
    holds_of (by decide +kernel), holds_of (by decide +kernel),
    tbl (q := 200) (by decide) (by decide +kernel) (by decide +kernel),
    ptr 240 (by decide +kernel) (by simp [FfiSample.array]),
    ptr 0 (by decide +kernel) (by simp [FfiSample.array]),
    ptr 4096 (by decide +kernel) (by simp [FfiSample.array]), 0, holds_of (by decide +kernel)⟩,
   240, by decide, holds_of (by decide +kernel), fun i hi => by
    obtain rfl : i = 0 := Nat.lt_one_iff.1 hi
    exact ⟨400, by decide, holds_of (by decide +kernel), pairsAt⟩⟩

theorem bitsSchemaAt : SchemaAt good 0 704 FfiSample.bitsSchema :=
  ⟨text 100 (by decide) (by decide +kernel) (by decide +kernel),
    text 120 (by decide) (by decide +kernel) (by decide +kernel),
    ptr 0 (by decide +kernel) (by simp [FfiSample.bitsSchema]),
    holds_of (by decide +kernel), holds_of (by decide +kernel),
    ptr 0 (by decide +kernel) (by simp [FfiSample.bitsSchema]),
    ptr 0 (by decide +kernel) (by simp [FfiSample.bitsSchema]),
    ptr 4096 (by decide +kernel) (by simp [FfiSample.bitsSchema]), 0, holds_of (by decide +kernel)⟩

theorem pairsSchemaAt : SchemaAt good 1 632 FfiSample.pairsSchema :=
  ⟨⟨text 104 (by decide) (by decide +kernel) (by decide +kernel),
    text 120 (by decide) (by decide +kernel) (by decide +kernel),
    ptr 0 (by decide +kernel) (by simp [FfiSample.pairsSchema]),
    holds_of (by decide +kernel), holds_of (by decide +kernel),
    ptr 264 (by decide +kernel) (by simp [FfiSample.pairsSchema]),
    ptr 0 (by decide +kernel) (by simp [FfiSample.pairsSchema]),
    ptr 4096 (by decide +kernel) (by simp [FfiSample.pairsSchema]), 0, holds_of (by decide +kernel)⟩,
   264, by decide, holds_of (by decide +kernel), fun i hi => by
    obtain rfl : i = 0 := Nat.lt_one_iff.1 hi
    exact ⟨704, by decide, holds_of (by decide +kernel), bitsSchemaAt⟩⟩

theorem schemaAt : SchemaAt good (nesting Sample.ty) 560 FfiSample.schema :=
  ⟨⟨text 112 (by decide) (by decide +kernel) (by decide +kernel),
    text 120 (by decide) (by decide +kernel) (by decide +kernel),
    ptr 0 (by decide +kernel) (by simp [FfiSample.schema]),
    holds_of (by decide +kernel), holds_of (by decide +kernel),
    ptr 256 (by decide +kernel) (by simp [FfiSample.schema]),
    ptr 0 (by decide +kernel) (by simp [FfiSample.schema]),
    ptr 4096 (by decide +kernel) (by simp [FfiSample.schema]), 0, holds_of (by decide +kernel)⟩,
   256, by decide, holds_of (by decide +kernel), fun i hi => by
    obtain rfl : i = 0 := Nat.lt_one_iff.1 hi
    exact ⟨632, by decide, holds_of (by decide +kernel), pairsSchemaAt⟩⟩

theorem inMemory : InMemory good true Sample.ty FfiSample.coll FfiSample.place :=
  ⟨⟨⟨by decide, by decide, by decide +kernel⟩, ⟨(by decide : (10 : Nat) ≠ 0), by decide +kernel⟩,
    by decide, by decide +kernel⟩, by decide, by decide +kernel⟩

theorem safe : Safe good Sample.ty true FfiSample.array FfiSample.schema := by
  refine ⟨⟨?_, ?_, ?_, ?_⟩, ?_, ?_⟩
  · intro l h; cases h; decide
  · intro l h; cases h; decide
  · intro l h; cases h; decide
  · intro p _ h _ _; cases h; decide +kernel
  · intro p h _ _ _; cases h; decide +kernel
  · intro a s h h'
    cases h; cases h'
    refine ⟨⟨?_, ?_, ?_, ?_⟩, ?_⟩
    · intro l h; cases h; decide
    · intro l h; cases h; decide
    · intro l h; cases h; decide
    · intro p _ h _ _; cases h; decide +kernel
    · intro a s h h'
      cases h; cases h'
      refine ⟨⟨?_, ?_, ?_, ?_⟩, ?_⟩
      · intro l h; cases h; decide
      · intro l h; cases h
      · intro l h; cases h
      · intro p h; cases h
      · intro p h _ _; cases h; decide +kernel

/-- The error of an import. -/
def error {α : Type} : Imp α → Option ImportError
  | .err e => some e
  | _ => none

end RawSample

/-- The sample, in memory with its structures, is imported. -/
example : Raw.importAt RawSample.good Sample.ty true 320 560 = .ok (FfiSample.coll, FfiSample.place) :=
  (C73_imports_structures RawSample.arrayAt RawSample.schemaAt
    (by show Imp.ok (FfiSample.coll, FfiSample.place) ≠ _; intro h; cases h)).trans rfl

example := C73_outcome FfiSample.exportable RawSample.arrayAt RawSample.schemaAt RawSample.safe

/-- The structures are those that export makes of the sample. -/
example := C73_round_trip (next := 0) FfiSample.wf FfiSample.exportable FfiSample.reach
  RawSample.inMemory FfiSample.zero FfiSample.committed
  (by with_unfolding_all rfl) RawSample.arrayAt RawSample.schemaAt

/-- With the pairs as their own child, it is rejected. -/
example : RawSample.error (Raw.importAt RawSample.cyclic Sample.ty true 320 560) =
    some (.unexpectedNullCount 1#64) := by decide +kernel

/-- There the path comes back to the same structure. -/
example : ChildAt RawSample.cyclic 320 400 ∧ ChildAt RawSample.cyclic 400 400 :=
  ⟨⟨240, RawSample.holds_of (by decide +kernel), RawSample.holds_of (by decide +kernel)⟩,
    ⟨248, RawSample.holds_of (by decide +kernel), RawSample.holds_of (by decide +kernel)⟩⟩

end Narrow.Props
