import Verif.Model.Backend

/-!
# The trait `ValidityBitmap`

src/bitmap/validity.rs: any type can implement the trait by giving its length and its
bitmap, and gets the queries below.
-/

namespace Narrow

/-- What an implementation of `ValidityBitmap` answers: `Length::len`, which may panic,
and `bitmap_ref` (src/bitmap/validity.rs:20-30). A bitmap in any storage is given by the
bytes that it borrows: the queries use `len`, `count_ones`, `view` and `iter_views`,
which read these bytes only. -/
structure Masked where
  len : Res Nat
  bitmap : Option Bitmap

namespace Masked

/-- `null_count` (src/bitmap/validity.rs:57-60). -/
def nullCount (m : Masked) : Res Nat :=
  match m.bitmap with
  | none => .ok 0
  | some b => b.countOnes.bind fun ones => strictSub b.len ones

/-- `is_valid` (src/bitmap/validity.rs:73-78). -/
def isValid (m : Masked) (i : Nat) : Res (Option Bool) :=
  m.len.bind fun l =>
    if i < l then
      match m.bitmap with
      | none => .ok (some true)
      | some b => (b.view i).expect.map some
    else .ok none

/-- `is_null` (src/bitmap/validity.rs:43-45). -/
def isNull (m : Masked) (i : Nat) : Res (Option Bool) := (m.isValid i).map fun o => o.map (! ·)

/-- `valid_count` (src/bitmap/validity.rs:90-92). -/
def validCount (m : Masked) : Res Nat := m.len.bind fun l => m.nullCount.bind fun n => strictSub l n

/-- `any_null` (src/bitmap/validity.rs:104-107). -/
def anyNull (m : Masked) : Bool :=
  match m.bitmap with
  | none => false
  | some b => Validity.anyUnset (b.bits + 1) b.iter

/-- `all_null` (src/bitmap/validity.rs:119-121). -/
def allNull (m : Masked) : Res Bool := m.nullCount.bind fun n => m.len.map fun l => n == l

/-- `any_valid` (src/bitmap/validity.rs:133-135). -/
def anyValid (m : Masked) : Res Bool := m.validCount.map (· != 0)

/-- `all_valid` (src/bitmap/validity.rs:147-149). -/
def allValid (m : Masked) : Res Bool := m.nullCount.map (· == 0)

end Masked

/-- `impl ValidityBitmap for Validity<T, Storage>` (src/validity.rs:177-183), with its
length (src/validity.rs:213-219). -/
def ValidityOf.masked {O : Type} (B : Buf Byte) (K : Coll O) (v : ValidityOf K.C (BitmapOf B.C)) : Masked :=
  ⟨ValidityOf.len (bitmapBC B) K v, v.bitmap.map (·.seen B)⟩

/-- The same for the built-in storage (src/validity.rs:177-183 and 213-219). -/
def Validity.masked {O : Type} (K : Coll O) (v : Validity K.C) : Masked :=
  ⟨Validity.len K v, v.bitmap⟩

end Narrow
