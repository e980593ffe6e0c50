import Verif.Proof.Debug
import Verif.Props.Access
import Verif.Props.Arrays

/-!
# `Debug` output identifies collections (C69)

`{:?}` prints the parts of collections. Whoever compares two texts, as in the message of a
failed `assert_eq!`, compares the items.
-/

namespace Narrow.Props

open Spec
open Ffi.Spec (bytesOf Writes)

variable {O : Type} {k : SComp O}

/-- C69. The text of a bitmap: the buffer, the number of bits and the offset, in decimal. -/
theorem C69_bitmap_text {C : Type} (text : C → List Byte) (b : BitmapOf C) :
    ∃ bits offset, Writes bits b.intoParts.2.1 ∧ Writes offset b.intoParts.2.2 ∧
      BitmapOf.debug text b = bytesOf "Bitmap { buffer: " ++ text b.bufferRef ++ bytesOf ", bits: " ++ bits ++
        bytesOf ", offset: " ++ offset ++ bytesOf " }" := by
  refine ⟨Ffi.decimal b.bits, Ffi.decimal b.offset, writes_decimalInt b.bits,
    writes_decimalInt b.offset, ?_⟩
  simp only [BitmapOf.debug, debugStruct, commas, List.map, debugField, List.append_assoc]
  rfl

/-- C69. The text of groups is the text of the child in `Flatten(..)`. -/
theorem C69_flatten_text {C : Type} (text : C → List Byte) (c : Flatten C) :
    Flatten.debug text c = bytesOf "Flatten(" ++ text c.childRef ++ bytesOf ")" := rfl

/-- C69. The text of nullable items: the child, and the bitmap if there is one. -/
theorem C69_validity_text {C M : Type} (text : C → List Byte) (bits : M → List Byte) (v : ValidityOf C M) :
    ValidityOf.debug text bits v = bytesOf "Validity { collection: " ++ text v.childRef ++ bytesOf ", bitmap: " ++
      (match v.bitmapRef with
        | none => bytesOf "None"
        | some b => bytesOf "Some(" ++ bits b ++ bytesOf ")") ++ bytesOf " }" := by
  obtain ⟨c, b⟩ := v
  cases b <;>
    simp only [ValidityOf.debug, debugStruct, commas, List.map, debugField, List.append_assoc] <;> rfl

/-- C69. The text of lists: the child and the offsets. The struct is called `Offset`. -/
theorem C69_offsets_text {C D : Type} (text : C → List Byte) (offs : D → List Byte) (c : OffsetsIn C D) :
    OffsetsIn.debug text offs c = bytesOf "Offset { data: " ++ text c.childRef ++ bytesOf ", offsets: " ++
      offs c.bufferRef ++ bytesOf " }" := by
  simp only [OffsetsIn.debug, debugStruct, commas, List.map, debugField, List.append_assoc]
  rfl

/-- C69. The text of a view of a list: its range in the child. -/
theorem C69_view_text {C : Type} (v : RowView C) :
    ∃ start stop, Writes start v.start ∧ Writes stop v.stop ∧
      RowView.debug v = bytesOf "OffsetView { offset: " ++ start ++ bytesOf ".." ++ stop ++
        bytesOf ", .. }" := by
  refine ⟨Ffi.decimal v.start, Ffi.decimal v.stop, writes_decimalInt v.start,
    writes_decimalInt v.stop, ?_⟩
  simp only [RowView.debug, debugOpenStruct, commas, List.map, debugField, List.append_assoc]
  rfl

/-- C69. Views of lists with the same text have the same range. -/
theorem C69_view_tells {C : Type} {v w : RowView C} (h : RowView.debug v = RowView.debug w) :
    v.start = w.start ∧ v.stop = w.stop :=
  (tells_row.tells (r := []) (s := []) nofun nofun (by rw [h])).1

/-- C69. If the text of the user's storages and collections shows what they hold, and
nothing else, then two collections have the same text exactly if they have the same
parts. -/
theorem C69_same_text {t : Texts k} (ht : Telling k t) (ho : OnlyHeld k t) {c d : (scompR k).C} :
    debugText k t c = debugText k t d ↔ SameParts k c d :=
  ⟨fun h => ((tells_scomp k t ht).tells (r := []) (s := []) nofun nofun (by rw [h])).1,
    scomp_text k t ho⟩

/-- C69. Collections with the same text show the same items, however they were built. -/
theorem C69_text_tells (hs : Sound k) {t : Texts k} (ht : Telling k t) {c d : (scompR k).C} {l m : List O}
    (hc : SBuilt k c l) (hd : SBuilt k d m) (h : debugText k t c = debugText k t d) : l = m :=
  C68_same_parts hs hc hd
    ((tells_scomp k t ht).tells (r := []) (s := []) nofun nofun (by rw [h])).1

/-- C69. Also where the texts are part of longer ones, such as a list of collections: the
texts end at the same place. -/
theorem C69_text_tells_inside (hs : Sound k) {t : Texts k} (ht : Telling k t) {c d : (scompR k).C}
    {l m : List O} (hc : SBuilt k c l) (hd : SBuilt k d m) {r s : List Byte} (hr : Ended r)
    (hs' : Ended s) (h : debugText k t c ++ r = debugText k t d ++ s) : l = m ∧ r = s := by
  obtain ⟨h1, h2⟩ := (tells_scomp k t ht).tells hr hs' h
  exact ⟨C68_same_parts hs hc hd h1, h2⟩

/-- C69. The text of a `Vec` shows its items, if the text of an item shows the item. -/
theorem C69_vec {α : Type} {text : α → List Byte} (h : Tells text (· = ·)) :
    Tells (RVec.debug text) (fun v w => v.items = w.items) := tells_vec h

/-- C69. Integers and booleans do; booleans print as their names. -/
theorem C69_items : (debugBool false = bytesOf "false" ∧ debugBool true = bytesOf "true") ∧
    Tells debugBool (· = ·) ∧ Tells decimalInt (· = ·) ∧
    (∀ w, Tells (fun v : BitVec w => Ffi.decimal v.toNat) (· = ·)) ∧
    ∀ w, Tells (fun v : BitVec w => decimalInt v.toInt) (· = ·) :=
  ⟨⟨rfl, rfl⟩, tells_bool, tells_decimalInt, fun _ => tells_nat, fun _ => tells_int⟩

/-- C69. Arrays of an item type without floating-point numbers that print the same show
the same items. -/
theorem C69_array_tells (f : FloatText) {nl : Bool} {t : Ty} (ht : t.WF) (hf : t.NoFloat)
    {c d : (arrayR nl t).C} {l m : List (ItemVal nl (Val t))} (hc : Reach nl t c) (hd : Reach nl t d)
    (hl : Shows nl t c l) (hm : Shows nl t d m) (h : arrayDebug f nl t c = arrayDebug f nl t d) :
    l = m := by
  have h1 := ((tells_tuple (tells_memory f nl t ht hf) "Array" (b := 65#8) rfl (by decide)).tells
    (a := c) (b := d) (r := []) (s := []) nofun nofun (congrArg (· ++ []) h)).1
  rw [← hl.abs_eq (reach_inv hc ht), ← hm.abs_eq (reach_inv hd ht)]
  exact h1

/-- C69. The text of an array begins with the names of the array and of the layout. -/
theorem C69_array_text (f : FloatText) (nl : Bool) (t : Ty) (c : (arrayR nl t).C) :
    ∃ inside, arrayDebug f nl t c = bytesOf "Array(" ++ bytesOf (match t with
      | .bool => "Boolean("
      | .prim _ => "FixedSizePrimitive("
      | .fsl _ _ _ => "FixedSizeList("
      | .vsl _ _ _ => "VariableSizeList(") ++ inside ++ bytesOf "))" := by
  cases t <;>
    simp only [arrayDebug, memoryDebug, debugTuple, List.append_assoc] <;>
    exact ⟨_, rfl⟩

/-! ## Concrete cases -/

/-- Slots of bytes are printed as lists. -/
def Backends.byteText (c : List Byte) : List Byte := debugList (c.map fun b => Ffi.decimal b.toNat)

theorem Backends.byteText_tells : Telling Backends.flags Backends.byteText := tells_list tells_nat

theorem Backends.decimals : Ffi.decimal 255 = bytesOf "255" ∧ Ffi.decimal 32 = bytesOf "32" ∧
    Ffi.decimal 0 = bytesOf "0" := by
  have small : ∀ n, n < 10 → Ffi.decimal n = [BitVec.ofNat 8 (48 + n)] := fun n h => by
    rw [Ffi.decimal, if_pos h]
  have large : ∀ n, ¬ n < 10 → Ffi.decimal n = Ffi.decimal (n / 10) ++ [BitVec.ofNat 8 (48 + n % 10)] :=
    fun n h => by rw [Ffi.decimal, if_neg h]
  refine ⟨?_, ?_, small 0 (by decide)⟩
  · rw [large 255 (by decide), large (255 / 10) (by decide), small (255 / 10 / 10) (by decide)]; rfl
  · rw [large 32 (by decide), small (32 / 10) (by decide)]; rfl

/-- Thirty-two flags, and the same flags with one bit less. -/
example : debugText Backends.flags Backends.byteText Backends.held =
      bytesOf "Bitmap { buffer: [255, 255, 255, 255], bits: 32, offset: 0 }" ∧
    debugText Backends.flags Backends.byteText Backends.held ≠
      debugText Backends.flags Backends.byteText ⟨[255#8, 255#8, 255#8, 255#8], 31, 0⟩ := by
  constructor
  · obtain ⟨h1, h2, h3⟩ := Backends.decimals
    show bytesOf "Bitmap" ++ bytesOf " { " ++ (bytesOf "buffer" ++ bytesOf ": " ++ (bytesOf "[" ++
      (Ffi.decimal 255 ++ bytesOf ", " ++ (Ffi.decimal 255 ++ bytesOf ", " ++
      (Ffi.decimal 255 ++ bytesOf ", " ++ Ffi.decimal 255))) ++ bytesOf "]") ++ bytesOf ", " ++
      (bytesOf "bits" ++ bytesOf ": " ++ Ffi.decimal 32 ++ bytesOf ", " ++
      (bytesOf "offset" ++ bytesOf ": " ++ Ffi.decimal 0))) ++ bytesOf " }" = _
    rw [h1, h2, h3]
    rfl
  · intro h
    have h := (C69_same_text (k := Backends.flags) Backends.byteText_tells
      (fun c d (e : c = d) => congrArg _ e)).mp h
    have h : ((32, 0) : Nat × Nat) = (31, 0) := h.2
    simp at h

/-- The bitmap of thirty-two flags has the text of no bitmap with other flags. -/
example {d : BitmapOf (List Byte)} {m : List Bool} (hd : SBuilt Backends.flags d m)
    (h : debugText Backends.flags Backends.byteText Backends.held =
      debugText Backends.flags Backends.byteText d) : m = List.replicate 32 true :=
  (C69_text_tells (k := Backends.flags) (Backends.slots_honours (by decide) _) Backends.byteText_tells
    Backends.held_reused.built hd h).symm

/-- An array of nullable lists and a longer one have different texts. -/
example (f : FloatText) : ∃ c d, Reach true Sample.ty c ∧ Reach true Sample.ty d ∧
    arrayDebug f true Sample.ty c ≠ arrayDebug f true Sample.ty d := by
  obtain ⟨c, -, h1, h2⟩ := Sample.array
  obtain ⟨d, w, h3, h4, h5⟩ := C08_collect_list (nl := true) (t := Sample.ty) Sample.ty_wf
    (w := Sample.world) (Sample.items ++ Sample.more) Sample.tight Sample.fits_more
  refine ⟨c, d, h1, h4.reach, fun h => ?_⟩
  have := C69_array_tells f Sample.ty_wf (by trivial) h1 h4.reach h2 h5 h
  exact absurd (congrArg List.length this) (by decide)

end Narrow.Props
