import Verif.Model.Layout
import Verif.Spec.Reads
import Verif.Spec.Rows
import Verif.Spec.Bits

/-!
# Collections composed by hand

The item types of arrays are only some of the collections the library offers:
`Vec<T>` works for every element type with views (`AsView`, whose `Clone` is taken
to return an equal value without panicking), and the wrappers nest in any order,
for example `Validity<Validity<Vec<T>>>` or `Offsets<Validity<Flatten<Vec<[T; 2]>, 3>>>`.
`Comp O` describes every such composition with items `O`; `Built k c l` says that
calls of the library produced the collection `c`, and that the same calls on a
plain list produce `l`.
-/

namespace Narrow.Spec

/-- A composition of collection types, with items `O`. -/
inductive Comp : Type → Type 1
  /-- `Vec<T>`; at most `lim` elements fit into an allocation, `dflt` is `T::default()` -/
  | vec {α : Type} (lim : Nat) (h : lim ≤ usizeMax) (dflt : α) : Comp α
  /-- `Bitmap` -/
  | bitmap : Comp Bool
  /-- `Flatten<C, N>` for a positive `N` -/
  | flatten {O : Type} (n : Nat) (h : 0 < n) (k : Comp O) : Comp (FixArr O n)
  /-- `Validity<C>` -/
  | validity {O : Type} (k : Comp O) : Comp (Option O)
  /-- `Offsets<C, i32>` or `Offsets<C, i64>` -/
  | offsets {O : Type} (ow : OffW) (k : Comp O) : Comp (List O)

/-- The operations of a composition. -/
@[reducible] def compR : {O : Type} → Comp O → Realloc O
  | _, .vec lim _ d => vecR lim d
  | _, .bitmap => bitmapR
  | _, .flatten n _ k => flattenR n (compR k)
  | _, .validity k => validityR (compR k)
  | _, .offsets ow k => offsetsR ow (compR k)

/-- The compositions that implement `Clone`: `Validity` and `Offsets` do not. -/
def CanClone : {O : Type} → Comp O → Prop
  | _, .vec _ _ _ => True
  | _, .bitmap => True
  | _, .flatten _ _ k => CanClone k
  | _, .validity _ => False
  | _, .offsets _ _ => False

/-- `Clone::clone` of a composition that implements it. -/
def cloneC : {O : Type} → (k : Comp O) → (compR k).C → (compR k).C
  | _, .vec _ _ _, c => RVec.clone c
  | _, .bitmap, c => Bitmap.clone c
  | _, .flatten _ _ k, c => Flatten.clone (cloneC k) c
  | _, .validity _, c => c
  | _, .offsets _ _, c => c

/-- There is no `Flatten` in the composition. -/
def Unflat : {O : Type} → Comp O → Prop
  | _, .vec _ _ _ => True
  | _, .bitmap => True
  | _, .flatten _ _ _ => False
  | _, .validity k => Unflat k
  | _, .offsets _ k => Unflat k

/-- There is no `Flatten` inside of lists. -/
def UnflatLists : {O : Type} → Comp O → Prop
  | _, .vec _ _ _ => True
  | _, .bitmap => True
  | _, .flatten _ _ k => UnflatLists k
  | _, .validity k => UnflatLists k
  | _, .offsets _ k => Unflat k

/-- Dropping the item `x` drops an item of every `Flatten` in the composition of which
a panic may have left a part. A null item may hide any item. -/
def CClears : {O : Type} → Comp O → O → Prop
  | _, .vec _ _ _, _ => True
  | _, .bitmap, _ => True
  | _, .flatten _ _ k, x => ∃ y ∈ x.val, CClears k y
  | _, .validity k, none => UnflatLists k
  | _, .validity k, some x => CClears k x
  | _, .offsets _ k, x => Unflat k ∨ ∃ y ∈ x, CClears k y

/-- The collection `c` was built by calls which on a plain list build `l`. -/
inductive Built : {O : Type} → (k : Comp O) → (compR k).C → List O → Prop
  /-- `Default::default()` -/
  | empty {O} {k : Comp O} : Built k (compR k).empty []
  /-- `with_capacity` -/
  | withCap {O} {k : Comp O} {n c} : (compR k).withCap n = .ok c → Built k c []
  /-- `try_with_capacity_in` -/
  | tryWithCap {O} {k : Comp O} {w w' n c} : (compR k).tryWithCap w n = (.ok c, w') → Built k c []
  /-- `collect` -/
  | fromIter {O} {k : Comp O} {w w' c} {s : Src O} : s.Fused →
      (compR k).fromIter w s = (.ok c, w') → Built k c s.items
  /-- `from_iter_in` -/
  | fromIterIn {O} {k : Comp O} {w w' c} {s : Src O} : s.Fused →
      (compR k).fromIterIn w s = (.ok c, w') → Built k c s.items
  /-- `try_from_iter_in` -/
  | tryFromIter {O} {k : Comp O} {w w' c} {s : Src O} : s.Fused →
      (compR k).tryFromIter w s = (.ok c, w') → Built k c s.items
  /-- `extend` -/
  | extend {O} {k : Comp O} {c c' l} {s : Src O} : Built k c l →
      (compR k).extend c s = (c', .ok) → Built k c' (l ++ s.items)
  /-- `try_extend` returning `Ok` -/
  | tryExtend {O} {k : Comp O} {w w' c c' l} {s : Src O} : Built k c l →
      (compR k).tryExtend w c s = (c', .ok, w') → Built k c' (l ++ s.items)
  /-- `try_extend` returning `Err` -/
  | tryExtendErr {O} {k : Comp O} {w w' c c' l} {s : Src O} : Built k c l →
      (compR k).tryExtend w c s = (c', .err, w') → Built k c' l
  /-- `reserve`, whether it returns or panics -/
  | reserve {O} {k : Comp O} {c c' l n o} : Built k c l → (compR k).reserve c n = (c', o) → Built k c' l
  /-- `try_reserve` -/
  | tryReserve {O} {k : Comp O} {w w' c c' l n o} : Built k c l →
      (compR k).tryReserve w c n = (c', o, w') → Built k c' l
  /-- `truncate` -/
  | truncate {O} {k : Comp O} {c c' l n o} : Built k c l →
      (compR k).truncate c n = (c', o) → Built k c' (l.take n)
  /-- `clone` -/
  | clone {O} {k : Comp O} {c l} : CanClone k → Built k c l → Built k (cloneC k c) l
  /-- any `Vec` -/
  | vec {α} {lim h} {d : α} {v : RVec α} : v.WF lim → Built (.vec lim h d) v v.items
  /-- `Bitmap::try_from_parts`, from any byte buffer -/
  | bitmapParts {buffer bits offset b} : buffer.WF byteMax →
      Bitmap.tryFromParts buffer bits offset = .ok b →
      Built .bitmap b ((List.range bits).map fun i => bit buffer.items (offset + i))
  /-- `Flatten::try_from_parts` -/
  | flattenParts {O} {k : Comp O} {n h c l f} {g : List (FixArr O n)} : Built k c l →
      Flatten.tryFromParts (compR k).toColl n c = .ok (.ok f) → Groups l g →
      Built (.flatten n h k) f g
  /-- `Flatten::into_parts` -/
  | flattenChild {O} {k : Comp O} {n h} {f : Flatten (compR k).C} {g : List (FixArr O n)} :
      Built (.flatten n h k) f g → Built k f.intoParts (g.flatMap Subtype.val)
  /-- `Validity::try_from_parts` -/
  | validityParts {O} {k : Comp O} {c l b bs v} : Built k c l → Built .bitmap b bs →
      Validity.tryFromParts (compR k).toColl c b = .ok (.ok v) →
      Built (.validity k) v (List.zipWith (fun x valid => if valid then some x else none) l bs)
  /-- `Validity::from_collection` -/
  | fromCollection {O} {k : Comp O} {c l} : Built k c l →
      Built (.validity k) (Validity.fromCollection c) (l.map some)
  /-- `Offsets::try_from_parts` -/
  | offsetsParts {O} {k : Comp O} {ow : OffW} {c l f} {offsets : RVec Int} : Built k c l →
      offsets.WF ow.lim → Offsets.tryFromParts (compR k).toColl c offsets = .ok (.ok f) →
      Built (.offsets ow k) f (rowsOf l offsets.items)

/-- The items `l`, and reserved space for `extra` more, fit: at most `2^61`
bits in a bitmap, at most `lim` elements in a `Vec`, and list lengths within the
offset type. Reserving for list items reserves as many child items. -/
def CFits : {O : Type} → Comp O → Nat → List O → Prop
  | _, .vec lim _ _, extra, l => l.length + extra ≤ lim
  | _, .bitmap, extra, l => l.length + extra ≤ 2 ^ 61
  | _, .flatten n _ k, extra, l => CFits k (extra * n) (l.flatMap Subtype.val)
  | _, .validity k, extra, l =>
      l.length + extra ≤ 2 ^ 61 ∧ CFits k extra (l.map fun o => o.getD (compR k).dflt)
  | _, .offsets ow k, extra, l =>
      l.flatten.length ≤ ow.max ∧ l.length + extra + 1 ≤ ow.lim ∧ CFits k (l.length + extra) l.flatten

/-- The collections built through the growing calls of the collection itself,
within memory. -/
inductive Within : {O : Type} → (k : Comp O) → (compR k).C → List O → Prop
  | empty {O} {k : Comp O} : Within k (compR k).empty []
  | withCap {O} {k : Comp O} {n c} : (compR k).withCap n = .ok c → Within k c []
  | fromIter {O} {k : Comp O} {w w' c} {s : Src O} : s.Fused → CFits k 0 s.items →
      (compR k).fromIter w s = (.ok c, w') → Within k c s.items
  | fromIterIn {O} {k : Comp O} {w w' c} {s : Src O} : s.Fused → CFits k 0 s.items →
      (compR k).fromIterIn w s = (.ok c, w') → Within k c s.items
  | tryWithCap {O} {k : Comp O} {w w' n c} : (compR k).tryWithCap w n = (.ok c, w') → Within k c []
  | tryFromIter {O} {k : Comp O} {w w' c} {s : Src O} : s.Fused → CFits k 0 s.items →
      (compR k).tryFromIter w s = (.ok c, w') → Within k c s.items
  | extend {O} {k : Comp O} {c c' l} {s : Src O} : Within k c l → CFits k 0 (l ++ s.items) →
      (compR k).extend c s = (c', .ok) → Within k c' (l ++ s.items)
  | tryExtend {O} {k : Comp O} {w w' c c' l} {s : Src O} : Within k c l → CFits k 0 (l ++ s.items) →
      (compR k).tryExtend w c s = (c', .ok, w') → Within k c' (l ++ s.items)
  | tryExtendErr {O} {k : Comp O} {w w' c c' l} {s : Src O} : Within k c l → CFits k 0 (l ++ s.items) →
      (compR k).tryExtend w c s = (c', .err, w') → Within k c' l
  | reserve {O} {k : Comp O} {c c' l n o} : Within k c l → (compR k).reserve c n = (c', o) → Within k c' l
  | tryReserve {O} {k : Comp O} {w w' c c' l n o} : Within k c l →
      (compR k).tryReserve w c n = (c', o, w') → Within k c' l
  | truncate {O} {k : Comp O} {c c' l n o} : Within k c l →
      (compR k).truncate c n = (c', o) → Within k c' (l.take n)
  | clone {O} {k : Comp O} {c l} : CanClone k → Within k c l → Within k (cloneC k c) l

/-- They are among the collections built by calls. -/
theorem Within.built {O : Type} {k : Comp O} {c : (compR k).C} {l : List O} (h : Within k c l) :
    Built k c l := by
  induction h with
  | empty => exact .empty
  | withCap e => exact .withCap e
  | fromIter hf _ e => exact .fromIter hf e
  | fromIterIn hf _ e => exact .fromIterIn hf e
  | tryWithCap e => exact .tryWithCap e
  | tryFromIter hf _ e => exact .tryFromIter hf e
  | extend _ _ e ih => exact .extend ih e
  | tryExtend _ _ e ih => exact .tryExtend ih e
  | tryExtendErr _ _ e ih => exact .tryExtendErr ih e
  | reserve _ e ih => exact .reserve ih e
  | tryReserve _ e ih => exact .tryReserve ih e
  | truncate _ e ih => exact .truncate ih e
  | clone hk _ ih => exact .clone hk ih

end Narrow.Spec
