import Verif.Proof.Access
import Verif.Proof.Described
import Verif.Props.Refill

/-!
# Parts of collections over user storages show Arrow's layout (C68)

`buffer_ref`, `child_ref`, `bitmap_ref` and `into_parts`, for every composition over
storages and collections written by users.
-/

namespace Narrow.Props

open Spec

variable {O : Type} {k : SComp O}

/-- C68. At every level of a composition, built in whatever way, the parts show the items
in Arrow's layout: validity bits, running totals, and lists and groups one after the
other. -/
theorem C68_encoded (hs : Sound k) {c : (scompR k).C} {l : List O} (h : SBuilt k c l) :
    Encoded k c l := by
  obtain ⟨h1, h2⟩ := sbuilt_inv h hs
  exact h2 ▸ encoded_of k hs c h1

/-- C68. If it was built by calls that returned, and bitmaps begin at the first bit of
their buffer, the parts hold the items and nothing else: null items have the default
value, and no list leaves items behind. -/
theorem C68_encoded_exactly (hs : Sound k) {c : (scompR k).C} {l : List O} (h : SReused k c l) :
    EncodedExactly k c l := by
  obtain ⟨h1, h2⟩ := sbuilt_inv h.built hs
  exact h2 ▸ exactly_of k hs c h1 (sreused_loose h hs)

/-- C68. Collections with the same parts show the same items. -/
theorem C68_same_parts (hs : Sound k) {c d : (scompR k).C} {l m : List O} (hc : SBuilt k c l)
    (hd : SBuilt k d m) (h : SameParts k c d) : l = m :=
  encoded_same k (C68_encoded hs hc) (C68_encoded hs hd) h

/-- C68. A bitmap taken apart is put together again. -/
theorem C68_bitmap_parts {B : Backing Byte} {Good : B.C → Prop} (hs : HonoursBuf B Good)
    {b : BitmapOf B.C} {l : List Bool} (h : SBuilt (.bitmap B Good) b l) :
    BitmapOf.tryFromParts B.toBuf b.intoParts.1 b.intoParts.2.1 b.intoParts.2.2 = .ok b := by
  have h1 : b.Within (honoursB hs).buf := (sbuilt_inv h hs).1
  exact (BitmapOf.tryFromParts_eq (L := (honoursB hs).buf) _ _ h1.buf).trans (if_pos h1.le)

/-- C68. Groups taken apart are put together again. -/
theorem C68_flatten_parts {n : Nat} {hn : 0 < n} (hs : Sound k) {c : Flatten (scompR k).C}
    {l : List (FixArr O n)} (h : SBuilt (.flatten n hn k) c l) :
    Flatten.tryFromParts (scompR k).toColl n c.intoParts = .ok (.ok c) := by
  have h1 : flatInv (scompL k hs).toLawfulColl n c := (sbuilt_inv h hs).1
  rw [Flatten.intoParts, Flatten.tryFromParts_eq (L := (scompL k hs).toLawfulColl) n h1.1,
    if_neg (by omega), if_pos h1.2]

/-- C68. Lists taken apart are put together again. -/
theorem C68_offsets_parts {ow : OffW} {D : Backing Int} {Good : D.C → Prop}
    (hs : Sound (.offsets ow D Good k)) {c : OffsetsIn (scompR k).C D.C} {l : List (List O)}
    (h : SBuilt (.offsets ow D Good k) c l) :
    OffsetsIn.tryFromParts D.toBuf (scompR k).toColl c.intoParts.1 c.intoParts.2 = .ok (.ok c) := by
  have h1 : OffsetsIn.Rep (D := D.toBuf) (honoursB hs.1).toLawfulColl (scompL k hs.2.2).toLawfulColl c
    ((scompL (.offsets ow D Good k) hs).abs c) := (sbuilt_inv h hs).1
  have h2 : Offsets.Rep (scompL k hs.2.2).toLawfulColl (⟨c.data, ⟨D.borrow c.offsets, 0⟩⟩ : Offsets _)
      ((scompL (.offsets ow D Good k) hs).abs c) := ⟨h1.inv, h1.items, h1.pre⟩
  have h3 := Ffi.rep_valid h2 (Nat.le_refl _)
  rw [List.take_of_length_le (by rw [h2.items, Offsets.totals_length]; exact Nat.le_refl _)] at h3
  rw [OffsetsIn.tryFromParts_eq]
  exact congrArg (Res.map fun r => Except.map (fun _ => c) r)
    (Offsets.tryFromParts_valid (L := (scompL k hs.2.2).toLawfulColl) h1.inv h3)

/-- C68. A nullable collection without a bitmap is its values. With a bitmap its parts are
put together again exactly if the child has as many items as there are validity bits,
and otherwise both lengths are reported. -/
theorem C68_validity_parts {env : World} {B : Backing Byte} {Good : B.C → Prop}
    (hs : Sound (.validity env B Good k)) {v : ValidityOf (scompR k).C (BitmapOf B.C)}
    {l : List (Option O)} (h : SBuilt (.validity env B Good k) v l) :
    match v.intoParts with
    | (values, none) => ValidityOf.fromCollection values = v
    | (values, some b) => ∃ m, Encoded k values m ∧
        ValidityOf.tryFromParts (bitmapBC B.toBuf) (scompR k).toColl values b =
          .ok (if m.length = l.length then .ok v else .error ⟨m.length, l.length⟩) := by
  obtain ⟨-, m, h1, h2⟩ := C68_encoded hs h
  obtain ⟨c, ob⟩ := v
  cases ob with
  | none => rfl
  | some b =>
    have hb : BitsAt B b (l.map Option.isSome) := h2.1
    refine ⟨m, h1, ?_⟩
    have e1 : (scompR k).len c = .ok m.length := by
      have := encoded_reads k h1
      exact this.len
    have e2 : (bitmapBC B.toBuf).len b = .ok l.length := by
      rw [hb.1.len, List.length_map]
    show ValidityOf.tryFromParts (bitmapBC B.toBuf) (scompR k).toColl c b = _
    unfold ValidityOf.tryFromParts
    rw [e1, e2]
    rfl

/-- C68. So what calls that returned have built is put together again. -/
theorem C68_validity_returned {env : World} {B : Backing Byte} {Good : B.C → Prop}
    (hs : Sound (.validity env B Good k)) {v : ValidityOf (scompR k).C (BitmapOf B.C)}
    {l : List (Option O)} (h : SReused (.validity env B Good k) v l) {values b}
    (hv : v.intoParts = (values, some b)) :
    ValidityOf.tryFromParts (bitmapBC B.toBuf) (scompR k).toColl values b = .ok (.ok v) := by
  obtain ⟨-, h1, h2⟩ := C68_encoded_exactly hs h
  have h3 := C68_validity_parts hs h.built
  rw [hv] at h3
  obtain ⟨m, hm, e⟩ := h3
  obtain ⟨rfl, -⟩ : v.coll = values ∧ v.bitmap = some b := by
    simpa [ValidityOf.intoParts] using hv
  have : m = l.map (·.getD (scompR k).dflt) :=
    (encoded_reads k hm).unique (exactly_reads k h1)
  rw [e, this, List.length_map, if_pos rfl]

/-- `Flatten<Vec<u8>, 2>` -/
@[reducible] def Backends.vecPairs : SComp (FixArr Byte 2) :=
  .flatten 2 (by decide) (.leaf (vecR byteMax 0#8) (RVec.WF byteMax) RVec.items)

/-- Thirty-two flags: all bits of four bytes. The bitmap with one bit less is another one. -/
example : Encoded Backends.flags Backends.held (List.replicate 32 true) ∧
    ¬ SameParts Backends.flags Backends.held ⟨[255#8, 255#8, 255#8, 255#8], 31, 0⟩ ∧
    BitmapOf.tryFromParts (Backends.slots 4 0#8).toBuf Backends.held.intoParts.1
      Backends.held.intoParts.2.1 Backends.held.intoParts.2.2 = .ok Backends.held := by
  have hs : Sound Backends.flags := Backends.slots_honours (by decide) _
  refine ⟨C68_encoded hs Backends.held_reused.built, fun h => ?_, C68_bitmap_parts hs Backends.held_reused.built⟩
  have h : ((32, 0) : Nat × Nat) = (31, 0) := h.2
  simp at h

/-- Pairs in a `Vec`, taken apart and put together. -/
example : ∃ c, (scompR Backends.vecPairs).extend (scompR Backends.vecPairs).empty
      [.item ⟨[1#8, 2#8], rfl⟩, .item ⟨[3#8, 4#8], rfl⟩] = (c, .ok) ∧
    Encoded Backends.vecPairs c [⟨[1#8, 2#8], rfl⟩, ⟨[3#8, 4#8], rfl⟩] ∧
    Flatten.tryFromParts (vecR byteMax 0#8).toColl 2 c.intoParts = .ok (.ok c) := by
  have hs : Sound Backends.vecPairs := (C56_vec _ (by decide) _).toHonours
  have h := SBuilt.extend (k := Backends.vecPairs) (c' := ⟨⟨[1#8, 2#8, 3#8, 4#8], 4⟩⟩)
    (s := [.item ⟨[1#8, 2#8], rfl⟩, .item ⟨[3#8, 4#8], rfl⟩]) .empty rfl
  exact ⟨_, rfl, C68_encoded hs h, C68_flatten_parts (k := .leaf _ _ _) hs h⟩

/-- Three nullable lists in fixed slots: the null list is empty in the child. -/
example : ∃ c : ValidityOf (OffsetsIn (List Byte) (List Int)) (BitmapOf (List Byte)),
    SReused Backends.kind c [some [7#8, 8#8], none, some [9#8, 10#8]] ∧
    c.childRef.bufferRef = [0, 2, 2, 4] ∧ c.childRef.childRef = [7#8, 8#8, 9#8, 10#8] ∧
    ∃ b, c.bitmapRef = some b ∧ Reads (bitmapBC (Backends.slots 1 0#8).toBuf) b [true, false, true] ∧
      ValidityOf.tryFromParts (bitmapBC (Backends.slots 1 0#8).toBuf)
        (offsetsBR .i32 (Backends.slots 4 0) (Backends.slots 4 0#8).toRealloc).toColl c.childRef b =
          .ok (.ok c) := by
  obtain ⟨c, w, -, -, h, -⟩ := (C67_try_extend_exact Backends.kind_sound Backends.kind_accepts
    Backends.kind_limits Backends.friendly .empty
    (s := [.item (some [7#8, 8#8]), .item none, .item (some [9#8, 10#8])]) rfl).1
    ⟨by decide, by decide, by decide, by show 4 ≤ 4; decide⟩
  refine ⟨c, h, ?_⟩
  obtain ⟨-, h1, h2⟩ := C68_encoded_exactly Backends.kind_sound h
  obtain ⟨-, h3, -, h4⟩ := h1
  refine ⟨h3, h4, ?_⟩
  cases e : c.bitmapRef with
  | none =>
    replace h2 : ∀ x ∈ [some [7#8, 8#8], none, some [9#8, 10#8]], x.isSome := by
      have h2' := h2
      rw [show ValidityOf.bitmapRef c = none from e] at h2'
      exact h2'
    exact absurd (h2 none (by simp)) (by simp)
  | some b =>
    rw [show ValidityOf.bitmapRef c = some b from e] at h2
    exact ⟨b, rfl, h2.1.1, C68_validity_returned Backends.kind_sound h (Prod.ext rfl e)⟩

end Narrow.Props
