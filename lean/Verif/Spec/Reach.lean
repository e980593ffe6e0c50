import Verif.Model.Layout
import Verif.Spec.Visible

/-!
# The arrays a program can build

`Reach nl t c`: safe code can produce the array `c` of item type `t` (`Option`
of it when `nl` is set), by any sequence of public calls at any nesting depth.
`Fits`: the items fit into memory and into the offset types.
-/

namespace Narrow.Spec

/-- Item types for which a panic inside `extend`, caught by the program, leaves a
valid array behind, whatever caused the panic: every item type without
fixed-size lists (`[T; N]`). -/
def NoFixed : Ty → Prop
  | .bool => True
  | .prim _ => True
  | .fsl _ _ _ => False
  | .vsl _ _ t => NoFixed t

/-- Item types without variable-size lists (`Vec<T>`). -/
def NoVec : Ty → Prop
  | .bool => True
  | .prim _ => True
  | .fsl _ _ t => NoVec t
  | .vsl _ _ _ => False

/-- Growing a collection of items of type `t`, of which every `w` make one fixed-size
list, never stops within such a list when its source panics:
* primitives and variable-size lists are appended one by one;
* of booleans, those that fill up the last byte are appended, then all others at once;
  `bits` says for which `w` this is without harm;
* nullable items are appended 1024 at a time, whatever their type. -/
def Whole (bits : Nat → Prop) : Nat → Ty → Prop
  | w, .bool => bits w
  | _, .prim _ => True
  | w, .fsl n false t => Whole bits (w * n) t
  | w, .fsl n true t => (w * n ∣ 1024 ∨ 1024 ∣ w * n) ∧ Whole bits 1 t
  | _, .vsl _ _ _ => True

/-- Item types for which a panicking source of `try_extend`, the panic being caught,
leaves a valid array behind, in whichever byte and bit its booleans begin:
`[u8; 3]`, `[[Vec<[bool; 3]>; 5]; 7]`, `[[Option<u8>; 4]; 16]` and
`[[Option<u8>; 3]; 1024]` are among them,
`[bool; 3]` and `[Option<u8>; 3]` are not. -/
def TrySafe (t : Ty) : Prop := Whole (· = 1) 1 t

/-- Item types for which a panicking source of `extend` or `try_extend`, the panic being
caught, leaves a valid array behind if the array was built through its own growing calls,
within memory limits, so that its booleans begin with a byte: besides those above,
`[bool; 4]`, `[[bool; 2]; 2]`, `[bool; 16]` and `[Option<[bool; 2]>; 4]`. -/
def GrowSafe (t : Ty) : Prop := Whole (fun w => w ∣ 8 ∨ 8 ∣ w) 1 t

/-- Arrays whose items, and the items of the fixed-size lists that they are, are not
nullable: a panic leaves nothing behind beside the items. Items of variable-size lists
may be nullable. -/
def Plain : (nl : Bool) → Ty → Prop
  | true, _ => False
  | false, .bool => True
  | false, .prim _ => True
  | false, .fsl _ nl t => Plain nl t
  | false, .vsl _ _ _ => True

/-- Item types for which an array that `extend` left behind in a caught panic
becomes valid again when it is truncated: no fixed-size list within a
variable-size list. `[bool; 3]` and `[Option<[Vec<u8>; 2]>; 4]` are among them. -/
def Mends : Ty → Prop
  | .bool => True
  | .prim _ => True
  | .fsl _ _ t => Mends t
  | .vsl _ _ t => NoFixed t

/-- Dropping the item `x` from an array drops a fixed-size list wherever a panic may
have left a part of one: `x` contains such lists, unless its type has no fixed-size
lists within variable-size lists. For `Vec<[bool; 3]>`, the items other than `[]`. -/
def Clears : (nl : Bool) → (t : Ty) → ItemVal nl (Val t) → Prop :=
  fun nl t => item nl (base t) (Mends t)
where
  /-- `Clears` for an item that may be null, where it depends on the item type. -/
  item {α : Type} : (nl : Bool) → (α → Prop) → Prop → ItemVal nl α → Prop
  | false, p, _, x => p x
  | true, _, h, none => h
  | true, p, _, some x => p x
  /-- `Clears` for items that cannot be null. -/
  base : (t : Ty) → Val t → Prop
  | .bool, _ => True
  | .prim _, _ => True
  | .fsl _ nl t, x => ∃ y ∈ Subtype.val x, item nl (base t) (Mends t) y
  | .vsl _ nl t, x => NoFixed t ∨ ∃ y ∈ (show List _ from x), item nl (base t) (Mends t) y

/-- The items `l`, and reserved space for `extra` more, fit: at most `2^61`
booleans or validity bits, at most `2^60` bytes of values, and list lengths
within the offset type. Reserving for list items reserves as many child items. -/
def Fits : (nl : Bool) → (t : Ty) → (extra : Nat) → List (ItemVal nl (Val t)) → Prop :=
  fun nl t => match nl with
    | false => base t
    | true => fun extra l =>
        l.length + extra ≤ 2 ^ 61 ∧ base t extra (l.map fun o => Option.getD o (baseR t).dflt)
where
  /-- `Fits` for items that cannot be null. -/
  base : (t : Ty) → Nat → List (Val t) → Prop
  | .bool, extra, l => l.length + extra ≤ 2 ^ 61
  | .prim p, extra, l => l.length + extra ≤ p.lim
  | .fsl n false t, extra, l => base t (extra * n) (l.flatMap Subtype.val)
  | .fsl n true t, extra, l =>
      (l.flatMap Subtype.val).length + extra * n ≤ 2 ^ 61 ∧
      base t (extra * n) ((l.flatMap Subtype.val).map fun o => Option.getD o (baseR t).dflt)
  | .vsl ow false t, extra, l =>
      l.flatten.length ≤ ow.max ∧ l.length + extra + 1 ≤ ow.lim ∧ base t (l.length + extra) l.flatten
  | .vsl ow true t, extra, l =>
      l.flatten.length ≤ ow.max ∧ l.length + extra + 1 ≤ ow.lim ∧
      l.flatten.length + (l.length + extra) ≤ 2 ^ 61 ∧
      base t (l.length + extra) (l.flatten.map fun o => Option.getD o (baseR t).dflt)

/-- Array types and indices for which a read past the end returns `None`. -/
def ReturnsNone : (nl : Bool) → Ty → Nat → Prop
  | true, _, _ => True
  | false, .bool, _ => True
  | false, .prim _, _ => True
  | false, .fsl _ _ _, _ => False
  | false, .vsl _ _ _, i => i < usizeMax

/-- The arrays built through the growing calls of the array itself, within
memory: these carry no unusual hidden storage, so that growing them can only fail
when the items do not fit. A caught panic of the source may be among the calls. -/
inductive Grown : (nl : Bool) → (t : Ty) → (arrayR nl t).C → Prop
  | empty {nl t} : Grown nl t (arrayR nl t).empty
  | withCap {nl t n c} : (arrayR nl t).withCap n = .ok c → Grown nl t c
  | fromIter {nl t w w' c} {s : Src (ItemVal nl (Val t))} : s.Fused → Fits nl t 0 s.items →
      (arrayR nl t).fromIter w s = (.ok c, w') → Grown nl t c
  | fromIterIn {nl t w w' c} {s : Src (ItemVal nl (Val t))} : s.Fused → Fits nl t 0 s.items →
      (arrayR nl t).fromIterIn w s = (.ok c, w') → Grown nl t c
  | tryWithCap {nl t w w' n c} : (arrayR nl t).tryWithCap w n = (.ok c, w') → Grown nl t c
  | tryFromIter {nl t w w' c} {s : Src (ItemVal nl (Val t))} : s.Fused → Fits nl t 0 s.items →
      (arrayR nl t).tryFromIter w s = (.ok c, w') → Grown nl t c
  | extend {nl t c c' l} {s : Src (ItemVal nl (Val t))} : Grown nl t c →
      Reads (arrayR nl t).toColl c l → Fits nl t 0 (l ++ s.items) →
      (arrayR nl t).extend c s = (c', .ok) → Grown nl t c'
  | tryExtend {nl t w w' c c' l o} {s : Src (ItemVal nl (Val t))} : Grown nl t c →
      Reads (arrayR nl t).toColl c l → Fits nl t 0 (l ++ s.items) →
      (arrayR nl t).tryExtend w c s = (c', o, w') → o ≠ .panic → Grown nl t c'
  | extendPanic {nl t c c' l} {s : Src (ItemVal nl (Val t))} : GrowSafe t → Plain nl t →
      Grown nl t c → Reads (arrayR nl t).toColl c l → Fits nl t 0 (l ++ s.items) →
      (arrayR nl t).extend c s = (c', .panic) → Grown nl t c'
  | tryExtendPanic {nl t w w' c c' l} {s : Src (ItemVal nl (Val t))} : GrowSafe t → Plain nl t →
      Grown nl t c → Reads (arrayR nl t).toColl c l → Fits nl t 0 (l ++ s.items) →
      (arrayR nl t).tryExtend w c s = (c', .panic, w') → Grown nl t c'
  | reserve {nl t c c' n o} : Grown nl t c → (arrayR nl t).reserve c n = (c', o) → Grown nl t c'
  | tryReserve {nl t w w' c c' n o} : Grown nl t c →
      (arrayR nl t).tryReserve w c n = (c', o, w') → Grown nl t c'
  | truncate {nl t c c' n o} : Grown nl t c → (arrayR nl t).truncate c n = (c', o) → Grown nl t c'

/-- The arrays safe code can build. -/
inductive Reach : (nl : Bool) → (t : Ty) → (arrayR nl t).C → Prop
  /-- `Default::default()` -/
  | empty {nl t} : Reach nl t (arrayR nl t).empty
  /-- `with_capacity`, `with_capacity_in` -/
  | withCap {nl t n c} : (arrayR nl t).withCap n = .ok c → Reach nl t c
  /-- `from_iter`, `collect`, from any iterator -/
  | fromIter {nl t w w' s c} : (arrayR nl t).fromIter w s = (.ok c, w') → Reach nl t c
  /-- `from_iter_in`, from any iterator -/
  | fromIterIn {nl t w w' s c} : (arrayR nl t).fromIterIn w s = (.ok c, w') → Reach nl t c
  /-- `try_with_capacity_in` -/
  | tryWithCap {nl t w w' n c} : (arrayR nl t).tryWithCap w n = (.ok c, w') → Reach nl t c
  /-- `try_from_iter_in`, from any iterator -/
  | tryFromIter {nl t w w' s c} : (arrayR nl t).tryFromIter w s = (.ok c, w') → Reach nl t c
  /-- `extend` that returns -/
  | extend {nl t c c' s} : Reach nl t c → (arrayR nl t).extend c s = (c', .ok) → Reach nl t c'
  /-- `extend` that panics, the panic being caught -/
  | extendPanic {nl t c c' s} : NoFixed t → Reach nl t c →
      (arrayR nl t).extend c s = (c', .panic) → Reach nl t c'
  /-- `extend` whose source panics, the panic being caught, on an array within
  memory limits; these item types include `[u8; 4]` and `Option<[Vec<T>; 2]>` -/
  | extendSourcePanic {nl t c c' l} {s : Src (ItemVal nl (Val t))} : GrowSafe t → Grown nl t c →
      Reads (arrayR nl t).toColl c l → Fits nl t 0 (l ++ s.items) →
      (arrayR nl t).extend c s = (c', .panic) → Reach nl t c'
  /-- `try_extend` that returns `Ok` or `Err` -/
  | tryExtend {nl t w w' c c' s o} : Reach nl t c →
      (arrayR nl t).tryExtend w c s = (c', o, w') → o ≠ .panic → Reach nl t c'
  /-- `try_extend` that panics, the panic being caught -/
  | tryExtendPanic {nl t w w' c c' s} : TrySafe t → Reach nl t c →
      (arrayR nl t).tryExtend w c s = (c', .panic, w') → Reach nl t c'
  /-- the same for an array within memory limits, and more item types -/
  | tryExtendSourcePanic {nl t w w' c c' l} {s : Src (ItemVal nl (Val t))} : GrowSafe t →
      Grown nl t c → Reads (arrayR nl t).toColl c l → Fits nl t 0 (l ++ s.items) →
      (arrayR nl t).tryExtend w c s = (c', .panic, w') → Reach nl t c'
  /-- `extend` that panics, the panic being caught, and `truncate` that drops a
  suitable one of the items the array shows then -/
  | extendMend {nl t c c' c'' s l n o} : Reach nl t c →
      (arrayR nl t).extend c s = (c', .panic) → Sees (arrayR nl t).toColl c' l →
      (∃ x ∈ l.drop n, Clears nl t x) → (arrayR nl t).truncate c' n = (c'', o) → Reach nl t c''
  /-- `try_extend` that panics, the panic being caught, and `truncate` below the
  length the array reports then -/
  | tryExtendMend {nl t w w' c c' c'' s m n o} : Reach nl t c →
      (arrayR nl t).tryExtend w c s = (c', .panic, w') → (arrayR nl t).len c' = .ok m → n < m →
      (arrayR nl t).truncate c' n = (c'', o) → Reach nl t c''
  /-- `reserve`, even if it panics -/
  | reserve {nl t c c' n o} : Reach nl t c → (arrayR nl t).reserve c n = (c', o) → Reach nl t c'
  /-- `try_reserve`, whatever it returns -/
  | tryReserve {nl t w w' c c' n o} : Reach nl t c →
      (arrayR nl t).tryReserve w c n = (c', o, w') → Reach nl t c'
  /-- `truncate` -/
  | truncate {nl t c c' n o} : Reach nl t c → (arrayR nl t).truncate c n = (c', o) → Reach nl t c'
  /-- `Bitmap::try_from_parts`, from any byte buffer -/
  | bitmapParts {buffer bits offset b} : buffer.WF byteMax →
      Bitmap.tryFromParts buffer bits offset = .ok b → Reach false .bool b
  /-- any `Vec` of a primitive type -/
  | vec {p v} : RVec.WF p.lim v → Reach false (.prim p) v
  /-- `Validity::try_from_parts` -/
  | validityParts {t} {c : (arrayR false t).C} {b : Bitmap} {v} : Reach false t c →
      Reach false .bool b →
      Validity.tryFromParts (arrayR false t).toColl c b = .ok (.ok v) → Reach true t v
  /-- `Validity::from_collection` -/
  | fromCollection {t} {c : (arrayR false t).C} : Reach false t c →
      Reach true t (Validity.fromCollection c)
  /-- `Flatten::try_from_parts` -/
  | flattenParts {n nl t} {c : (arrayR nl t).C} {f} : Reach nl t c →
      Flatten.tryFromParts (arrayR nl t).toColl n c = .ok (.ok f) → Reach false (.fsl n nl t) f
  /-- `Offsets::try_from_parts`, from any buffer of offsets -/
  | offsetsParts {ow nl t} {c : (arrayR nl t).C} {offsets : RVec Int} {f} : Reach nl t c →
      offsets.WF ow.lim → (∀ o ∈ offsets.items, -(ow.max : Int) - 1 ≤ o ∧ o ≤ ow.max) →
      Offsets.tryFromParts (arrayR nl t).toColl c offsets = .ok (.ok f) →
      Reach false (.vsl ow nl t) f
  /-- the collection of `Validity::into_parts` -/
  | validityColl {t} {v : Validity (arrayR false t).C} : Reach true t v → Reach false t v.intoParts.1
  /-- the bitmap of `Validity::into_parts` -/
  | validityBitmap {t} {v : Validity (arrayR false t).C} {b} : t.WF → Reach true t v →
      v.intoParts.2 = some b → Reach false .bool b
  /-- `Flatten::into_parts` -/
  | flattenChild {n nl t} {c : Flatten (arrayR nl t).C} : 0 < n → Reach false (.fsl n nl t) c →
      Reach nl t c.intoParts
  /-- the data of `Offsets::into_parts` -/
  | offsetsData {ow nl t} {c : Offsets (arrayR nl t).C} : Reach false (.vsl ow nl t) c →
      Reach nl t c.intoParts.1

/-- Grown arrays are reachable. -/
theorem Grown.reach {nl : Bool} {t : Ty} {c : (arrayR nl t).C} (h : Grown nl t c) : Reach nl t c := by
  induction h with
  | empty => exact .empty
  | withCap e => exact .withCap e
  | fromIter _ _ e => exact .fromIter e
  | fromIterIn _ _ e => exact .fromIterIn e
  | tryWithCap e => exact .tryWithCap e
  | tryFromIter _ _ e => exact .tryFromIter e
  | extend _ _ _ e ih => exact .extend ih e
  | tryExtend _ _ _ e ho ih => exact .tryExtend ih e ho
  | extendPanic hs _ hg hl hf e _ => exact .extendSourcePanic hs hg hl hf e
  | tryExtendPanic hs _ hg hl hf e _ => exact .tryExtendSourcePanic hs hg hl hf e
  | reserve _ e ih => exact .reserve ih e
  | tryReserve _ e ih => exact .tryReserve ih e
  | truncate _ e ih => exact .truncate ih e

end Narrow.Spec
