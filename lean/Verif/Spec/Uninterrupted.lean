import Verif.Spec.Reach

/-!
# Arrays that no panic interrupted

As `Reach`, without the calls that panic.
-/

namespace Narrow.Spec

/-- The arrays built by calls that return; no panic of `extend` or `try_extend`
was caught on the way. If `z`, no `Bitmap` was made from parts with a
bit offset. -/
inductive Uninterrupted (z : Bool) : (nl : Bool) → (t : Ty) → (arrayR nl t).C → Prop
  /-- `Default::default()` -/
  | empty {nl t} : Uninterrupted z nl t (arrayR nl t).empty
  /-- `with_capacity`, `with_capacity_in` -/
  | withCap {nl t n c} : (arrayR nl t).withCap n = .ok c → Uninterrupted z nl t c
  /-- `from_iter`, `collect`, from any iterator -/
  | fromIter {nl t w w' s c} : (arrayR nl t).fromIter w s = (.ok c, w') → Uninterrupted z nl t c
  /-- `from_iter_in`, from any iterator -/
  | fromIterIn {nl t w w' s c} : (arrayR nl t).fromIterIn w s = (.ok c, w') → Uninterrupted z nl t c
  /-- `try_with_capacity_in` -/
  | tryWithCap {nl t w w' n c} : (arrayR nl t).tryWithCap w n = (.ok c, w') → Uninterrupted z nl t c
  /-- `try_from_iter_in`, from any iterator -/
  | tryFromIter {nl t w w' s c} : (arrayR nl t).tryFromIter w s = (.ok c, w') →
      Uninterrupted z nl t c
  /-- `extend` that returns -/
  | extend {nl t c c' s} : Uninterrupted z nl t c → (arrayR nl t).extend c s = (c', .ok) →
      Uninterrupted z nl t c'
  /-- `try_extend` that returns `Ok` or `Err` -/
  | tryExtend {nl t w w' c c' s o} : Uninterrupted z nl t c →
      (arrayR nl t).tryExtend w c s = (c', o, w') → o ≠ .panic → Uninterrupted z nl t c'
  /-- `reserve`, even if it panics -/
  | reserve {nl t c c' n o} : Uninterrupted z nl t c → (arrayR nl t).reserve c n = (c', o) →
      Uninterrupted z nl t c'
  /-- `try_reserve`, whatever it returns -/
  | tryReserve {nl t w w' c c' n o} : Uninterrupted z nl t c →
      (arrayR nl t).tryReserve w c n = (c', o, w') → Uninterrupted z nl t c'
  /-- `truncate` -/
  | truncate {nl t c c' n o} : Uninterrupted z nl t c → (arrayR nl t).truncate c n = (c', o) →
      Uninterrupted z nl t c'
  /-- `Bitmap::try_from_parts`, from any byte buffer; without a bit offset if `z` -/
  | bitmapParts {buffer bits offset b} : buffer.WF byteMax → (z = true → offset = 0) →
      Bitmap.tryFromParts buffer bits offset = .ok b → Uninterrupted z false .bool b
  /-- any `Vec` of a primitive type -/
  | vec {p v} : RVec.WF p.lim v → Uninterrupted z false (.prim p) v
  /-- `Validity::try_from_parts` -/
  | validityParts {t} {c : (arrayR false t).C} {b : Bitmap} {v} : Uninterrupted z false t c →
      Uninterrupted z false .bool b →
      Validity.tryFromParts (arrayR false t).toColl c b = .ok (.ok v) → Uninterrupted z true t v
  /-- `Validity::from_collection` -/
  | fromCollection {t} {c : (arrayR false t).C} : Uninterrupted z false t c →
      Uninterrupted z true t (Validity.fromCollection c)
  /-- `Flatten::try_from_parts` -/
  | flattenParts {n nl t} {c : (arrayR nl t).C} {f} : Uninterrupted z nl t c →
      Flatten.tryFromParts (arrayR nl t).toColl n c = .ok (.ok f) →
      Uninterrupted z false (.fsl n nl t) f
  /-- `Offsets::try_from_parts`, from any buffer of offsets -/
  | offsetsParts {ow nl t} {c : (arrayR nl t).C} {offsets : RVec Int} {f} : Uninterrupted z nl t c →
      offsets.WF ow.lim → (∀ o ∈ offsets.items, -(ow.max : Int) - 1 ≤ o ∧ o ≤ ow.max) →
      Offsets.tryFromParts (arrayR nl t).toColl c offsets = .ok (.ok f) →
      Uninterrupted z false (.vsl ow nl t) f
  /-- the collection of `Validity::into_parts` -/
  | validityColl {t} {v : Validity (arrayR false t).C} : Uninterrupted z true t v →
      Uninterrupted z false t v.intoParts.1
  /-- the bitmap of `Validity::into_parts` -/
  | validityBitmap {t} {v : Validity (arrayR false t).C} {b} : t.WF → Uninterrupted z true t v →
      v.intoParts.2 = some b → Uninterrupted z false .bool b
  /-- `Flatten::into_parts` -/
  | flattenChild {n nl t} {c : Flatten (arrayR nl t).C} : 0 < n → Uninterrupted z false (.fsl n nl t) c →
      
      Uninterrupted z nl t c.intoParts
  /-- the data of `Offsets::into_parts` -/
  | offsetsData {ow nl t} {c : Offsets (arrayR nl t).C} : Uninterrupted z false (.vsl ow nl t) c →
      Uninterrupted z nl t c.intoParts.1

/-- They are reachable. -/
theorem Uninterrupted.reach {z nl : Bool} {t : Ty} {c : (arrayR nl t).C}
    (h : Uninterrupted z nl t c) : Reach nl t c := by
  induction h with
  | empty => exact .empty
  | withCap e => exact .withCap e
  | fromIter e => exact .fromIter e
  | fromIterIn e => exact .fromIterIn e
  | tryWithCap e => exact .tryWithCap e
  | tryFromIter e => exact .tryFromIter e
  | extend _ e ih => exact .extend ih e
  | tryExtend _ e ho ih => exact .tryExtend ih e ho
  | reserve _ e ih => exact .reserve ih e
  | tryReserve _ e ih => exact .tryReserve ih e
  | truncate _ e ih => exact .truncate ih e
  | bitmapParts hw _ e => exact .bitmapParts hw e
  | vec hw => exact .vec hw
  | validityParts _ _ e ih1 ih2 => exact .validityParts ih1 ih2 e
  | fromCollection _ ih => exact .fromCollection ih
  | flattenParts _ e ih => exact .flattenParts ih e
  | offsetsParts _ hw hb e ih => exact .offsetsParts ih hw hb e
  | validityColl _ ih => exact .validityColl ih
  | validityBitmap ht _ e ih => exact .validityBitmap ht ih e
  | flattenChild hn _ ih => exact .flattenChild hn ih
  | offsetsData _ ih => exact .offsetsData ih

end Narrow.Spec
