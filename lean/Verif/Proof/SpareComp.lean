import Verif.Proof.SpareValidity
import Verif.Proof.SpareOffsets

/-! # Room in compositions over any storage -/

namespace Narrow

open Spec

/-- The form in which growing leaves a composition. -/
@[reducible] def scanon : {O : Type} → (k : SComp O) → Sound k → (scompR k).C → Prop
  | _, .leaf _ _ _, _ => fun _ => True
  | _, .bitmap _ _, h => BitmapOf.Exact (honoursB h)
  | _, .flatten _ _ k, h => fun c => scanon k h c.child
  | _, .validity _ _ _ k, h => 
    ValidityOf.Neat (honoursB h.1) (BitmapOf.Exact (honoursB h.1)) (scompL k h.2) (scanon k h.2)
  | _, .offsets _ _ _ k, h => OffsetsIn.Neat (honoursB h.1) (scompL k h.2.2) (scanon k h.2.2)

theorem scomp_tidy : {O : Type} → (k : SComp O) → (h : Sound k) → Tidy (scompL k h) (scanon k h)
  | _, .leaf _ _ _, _ => tidy_true _
  | _, .bitmap _ _, h => bitmap_tidy (honoursB h)
  | _, .flatten _ hn k, h => flatten_tidy hn (scomp_tidy k h)
  | _, .validity _ _ _ k, h => validity_tidy (bitmap_exact _) (scomp_tidy k h.2)
  | _, .offsets _ _ _ k, h => offsets_tidy h.2.1 (scomp_tidy k h.2.2)

theorem scomp_shrinks : {O : Type} → (k : SComp O) → (h : Sound k) → NoBits k →
    Shrinks (scompL k h) (scanon k h)
  | _, .leaf _ _ _, _, _ => shrinks_true _
  | _, .bitmap _ _, _, hn => hn.elim
  | _, .flatten _ hn k, h, hb => flatten_shrinks hn (scomp_shrinks k h hb)
  | _, .validity _ _ _ _, _, hn => hn.elim
  | _, .offsets _ _ _ k, h, hb =>
    offsets_shrinks h.2.1 (scomp_tidy k h.2.2) (scomp_shrinks k h.2.2 hb)

theorem buf_takes {α : Type} {B : Backing α} {Good : B.C → Prop} {cap : Nat} (h : HonoursBuf B Good)
    (ha : Holds B.toRealloc Good B.borrow cap) : Takes (honoursB h).toLawfulR cap :=
  takes_of (L := (honoursB h).toLawfulR) ha

/-- A storage takes no more bytes than a bitmap can count. -/
theorem takes_le {B : Backing Byte} {L : LawfulB B} {cap : Nat} (T : Takes L.toLawfulR cap) :
    cap ≤ byteMax := by
  obtain ⟨h1, h2, -⟩ := L.empty_ok
  have hok := T.ext (c := B.empty) (s := Src.ofList (List.replicate cap 0#8)) h1 trivial (by simp)
    (by rw [h2]; simp)
  obtain ⟨e1, e2, -⟩ := L.ext_ok h1 (Prod.ext rfl hok)
  have := L.small e1
  rw [e2, h2] at this
  simpa using this

theorem takes_bits {B : Backing Byte} {L : LawfulB B} {cap : Nat} (T : Takes L.toLawfulR cap) :
    8 * cap ≤ usizeMax := by
  have := takes_le T
  unfold byteMax at this; unfold usizeMax; omega

theorem ow_max_le (ow : OffW) : ow.max ≤ usizeMax := by
  cases ow <;> simp [OffW.max, usizeMax]

theorem scomp_roomy : {O : Type} → (k : SComp O) → (h : Sound k) → {caps : Caps k} →
    Accepts k caps → Roomy (scompL k h) (scanon k h) (Room k caps) (Spare k caps)
  | _, .leaf _ _ _, h, _, ha => takes_of (L := (honoursG h).lawful) ha
  | _, .bitmap _ _, h, _, ha =>
    bitmap_roomy (buf_takes h ha) (takes_bits (buf_takes h ha))
  | _, .flatten _ hn k, h, _, ha => flatten_roomy hn (scomp_roomy k h ha)
  | _, .validity _ _ _ k, h, _, ha =>
    validity_roomy ha.2.1 (buf_takes h.1 ha.1) (takes_bits (buf_takes h.1 ha.1)) (scomp_tidy k h.2) (scomp_roomy k h.2 ha.2.2)
  | _, .offsets ow _ _ k, h, _, ha =>
    offsets_roomy (ow_max_le ow) h.2.1 (buf_takes h.1 ha.1) (scomp_tidy k h.2.2)
      (scomp_roomy k h.2.2 ha.2)

/-! ## Histories -/

theorem Spec.SGrown.built {O : Type} {k : SComp O} {c : (scompR k).C} {l : List O} (h : SGrown k c l) :
    SBuilt k c l := by
  induction h with
  | empty => exact .empty
  | withCap e => exact .withCap e
  | tryWithCap e => exact .tryWithCap e
  | fromIter hf e => exact .fromIter hf e
  | fromIterIn hf e => exact .fromIterIn hf e
  | tryFromIter hf e => exact .tryFromIter hf e
  | extend _ e ih => exact .extend ih e
  | tryExtend _ e ih => exact .tryExtend ih e
  | reserve _ e ih => exact .reserve ih e
  | tryReserve _ e ih => exact .tryReserve ih e
  | truncate _ _ e ih => exact .truncate ih e
  | tryExtendErr _ _ e ih => exact .tryExtendErr ih e
  | leaf hg => exact .leaf hg
  | flattenParts _ e hg ih => exact .flattenParts ih e hg
  | flattenChild _ ih => exact .flattenChild ih
  | fromCollection _ ih => exact .fromCollection ih

theorem sgrown_canon {O : Type} {k : SComp O} {c : (scompR k).C} {l : List O} (h : SGrown k c l) :
    ∀ hs : Sound k, scanon k hs c := by
  induction h with
  | empty => intro hs; exact (scomp_tidy _ hs).empty
  | withCap e => intro hs; exact (scomp_tidy _ hs).withCap e
  | tryWithCap e => intro hs; exact (scomp_tidy _ hs).tryWithCap e
  | fromIter hf e => intro hs; exact (scomp_tidy _ hs).fromIter hf e
  | fromIterIn hf e => intro hs; exact (scomp_tidy _ hs).fromIterIn hf e
  | tryFromIter hf e => intro hs; exact (scomp_tidy _ hs).tryFromIter hf e
  | extend hb e ih => intro hs; exact (scomp_tidy _ hs).ext (sbuilt_inv hb.built hs).1 (ih hs) e
  | tryExtend hb e ih => intro hs; exact (scomp_tidy _ hs).tryExt (sbuilt_inv hb.built hs).1 (ih hs) e
  | reserve hb e ih => intro hs; exact (scomp_tidy _ hs).reserve (sbuilt_inv hb.built hs).1 (ih hs) e
  | tryReserve hb e ih =>
    intro hs; exact (scomp_tidy _ hs).tryReserve (sbuilt_inv hb.built hs).1 (ih hs) e
  | truncate hn hb e ih =>
    intro hs; exact (scomp_shrinks _ hs hn).trunc (sbuilt_inv hb.built hs).1 (ih hs) e
  | tryExtendErr hn hb e ih =>
    intro hs; exact (scomp_shrinks _ hs hn).tryExtErr (sbuilt_inv hb.built hs).1 (ih hs) e
  | leaf hg => intro hs; trivial
  | flattenParts hb e hg ih =>
    intro hs
    unfold Flatten.tryFromParts at e
    have h1 := (sbuilt_inv hb.built hs).1
    rw [LawfulColl.len_ok _ h1] at e
    simp only [Res.map, Res.ok.injEq] at e
    split at e
    · simp at e
    · split at e
      · simp only [Except.ok.injEq] at e
        subst e
        exact ih hs
      · simp at e
  | flattenChild _ ih => intro hs; exact ih hs
  | fromCollection hb ih =>
    intro hs
    refine ⟨ih hs.2, by simp [ValidityOf.fromCollection], ?_⟩
    show (scompL _ hs.2).abs _ = (((scompL _ hs.2).abs _).map some).map _
    rw [List.map_map]
    exact (List.map_id _).symm

/-! ## Without lists a reservation asks for no more than the items -/

theorem room_spare : {O : Type} → (k : SComp O) → {caps : Caps k} → NoLists k → {l m : List O} →
    Room k caps (l ++ m) → Spare k caps m.length l
  | _, .leaf _ _ _, _, _, l, m, h => by simpa [Room, Spare] using h
  | _, .bitmap _ _, _, _, l, m, h => by simpa [Room, Spare] using h
  | _, .flatten n hn k, caps, hl, l, m, h => by
    have h : Room k caps ((l ++ m).flatMap Subtype.val) := h
    rw [List.flatMap_append] at h
    have := room_spare k hl h
    show Spare k caps (m.length * n) _
    rwa [show (m.flatMap Subtype.val).length = m.length * n from Flatten.flat_length m] at this
  | _, .validity _ _ _ k, caps, hl, l, m, h => by
    obtain ⟨h1, h2⟩ := h
    rw [List.length_append] at h1
    rw [List.map_append] at h2
    have := room_spare k hl h2
    rw [List.length_map] at this
    exact ⟨h1, this⟩
  | _, .offsets _ _ _ _, _, hl, _, _, _ => hl.elim

/-- Items fit if a reservation for them would. -/
theorem spare_room : {O : Type} → (k : SComp O) → {caps : Caps k} → NoLists k → {l m : List O} →
    Spare k caps m.length l → Room k caps (l ++ m)
  | _, .leaf _ _ _, _, _, l, m, h => by simpa [Room, Spare] using h
  | _, .bitmap _ _, _, _, l, m, h => by simpa [Room, Spare] using h
  | _, .flatten n hn k, caps, hl, l, m, h => by
    show Room k caps ((l ++ m).flatMap Subtype.val)
    rw [List.flatMap_append]
    apply spare_room k hl
    rw [show (m.flatMap Subtype.val).length = m.length * n from Flatten.flat_length m]
    exact h
  | _, .validity _ _ _ k, caps, hl, l, m, h => by
    obtain ⟨h1, h2⟩ := h
    refine ⟨by rw [List.length_append]; exact h1, ?_⟩
    rw [List.map_append]
    apply spare_room k hl
    rw [List.length_map]
    exact h2
  | _, .offsets _ _ _ _, _, hl, _, _, _ => hl.elim

end Narrow
