import Verif.Model.Backend
import Verif.Model.Flatten

/-!
# Access to the parts of collections over user storages

A reference is the value it refers to.
-/

namespace Narrow

/-- `BufferRef for Bitmap` (src/bitmap/mod.rs:116-122). -/
def BitmapOf.bufferRef {C : Type} (b : BitmapOf C) : C := b.buffer

/-- `Bitmap::into_parts` (src/bitmap/mod.rs:241-243). -/
def BitmapOf.intoParts {C : Type} (b : BitmapOf C) : C × Nat × Nat := (b.buffer, b.bits, b.offset)

/-- `ChildRef for Flatten` (src/collection/flatten.rs:122-128). -/
def Flatten.childRef {C : Type} (c : Flatten C) : C := c.child

/-- `ChildRef for Validity` (src/validity.rs:169-175). -/
def ValidityOf.childRef {C M : Type} (v : ValidityOf C M) : C := v.coll

/-- `ValidityBitmap::bitmap_ref for Validity` (src/validity.rs:177-183). -/
def ValidityOf.bitmapRef {C M : Type} (v : ValidityOf C M) : Option M := v.bitmap

/-- `Validity::into_parts` (src/validity.rs:141-143). -/
def ValidityOf.intoParts {C M : Type} (v : ValidityOf C M) : C × Option M := (v.coll, v.bitmap)

/-- `ChildRef for Offsets` (src/offset.rs:285-293). -/
def OffsetsIn.childRef {C D : Type} (c : OffsetsIn C D) : C := c.data

/-- `BufferRef for Offsets` (src/offset.rs:275-283). -/
def OffsetsIn.bufferRef {C D : Type} (c : OffsetsIn C D) : D := c.offsets

/-- `Offsets::into_parts` (src/offset.rs:270-272). -/
def OffsetsIn.intoParts {C D : Type} (c : OffsetsIn C D) : C × D := (c.data, c.offsets)

end Narrow
