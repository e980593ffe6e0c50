import Verif.Proof.Tight
import Verif.Proof.Reach
import Verif.Proof.Described
import Verif.Spec.Uninterrupted

/-!
# Uninterrupted arrays have no leftovers
-/

namespace Narrow

open Spec Narrow.Ffi Narrow.Ffi.Spec

theorem Flatten.tryFromParts_child {O : Type} {K : Coll O} {n : Nat} {c : K.C} {f : Flatten K.C}
    (h : Flatten.tryFromParts K n c = .ok (.ok f)) : f.child = c := by
  unfold Flatten.tryFromParts at h
  cases hl : K.len c with
  | panic => simp [hl, Res.map] at h
  | ok l =>
    simp only [hl, Res.map, Res.ok.injEq] at h
    repeat' split at h
    all_goals cases h
    rfl

theorem Offsets.tryFromParts_data {O : Type} {K : Coll O} {c : K.C} {o : RVec Int} {f : Offsets K.C}
    (h : Offsets.tryFromParts K c o = .ok (.ok f)) : f.data = c ∧ f.offsets = o := by
  unfold Offsets.tryFromParts at h
  cases hl : K.len c with
  | panic =>
    simp only [hl, Res.map] at h
    repeat' split at h
    all_goals cases h
  | ok l =>
    simp only [hl, Res.map] at h
    repeat' split at h
    all_goals cases h
    exact ⟨rfl, rfl⟩

theorem uninterrupted_tight {z nl : Bool} {t : Ty} {c : (arrayR nl t).C}
    (hr : Uninterrupted z nl t c) : ∀ h : t.WF, arrayT z nl t h c := by
  induction hr with
  | empty => intro h; exact (array_tight z _ _ h).empty
  | withCap e => intro h; exact (array_tight z _ _ h).withCap e
  | fromIter e => intro h; exact (array_tight z _ _ h).fromIter e
  | fromIterIn e => intro h; exact (array_tight z _ _ h).fromIterIn e
  | tryWithCap e => intro h; exact (array_tight z _ _ h).tryWithCap e
  | tryFromIter e => intro h; exact (array_tight z _ _ h).tryFromIter e
  | extend hc e ih => intro h; exact (array_tight z _ _ h).extend (reach_inv hc.reach h) (ih h) e
  | tryExtend hc e ho ih =>
    intro h; exact (array_tight z _ _ h).tryExtend (reach_inv hc.reach h) (ih h) e ho
  | reserve hc e ih => intro h; exact (array_tight z _ _ h).reserve (reach_inv hc.reach h) (ih h) e
  | tryReserve hc e ih =>
    intro h; exact (array_tight z _ _ h).tryReserve (reach_inv hc.reach h) (ih h) e
  | truncate hc e ih => intro h; exact (array_tight z _ _ h).truncate (reach_inv hc.reach h) (ih h) e
  | @bitmapParts buffer bits offset b hw hz e =>
    intro h h'
    unfold Bitmap.tryFromParts at e
    simp only at e
    split at e
    · split at e
      · cases e; exact hz h'
      · cases e
    · cases e
  | vec hw => intro h; trivial
  | @validityParts t c b v hc hb e ih1 ih2 =>
    intro h
    have hl := (arrayL false t h).len_ok (reach_inv hc.reach h)
    replace hl : (arrayR false t).len c = .ok ((baseL t h).abs c).length := hl
    rw [Validity.tryFromParts, hl] at e
    simp only [Res.map, Res.ok.injEq] at e
    split at e
    · next he =>
      cases e
      exact Validity.tight_mk (L := baseL t h) (ih1 h) (ih2 trivial) he
    · cases e
  | fromCollection _ ih => intro h; exact ⟨ih h, fun b hb => nomatch hb⟩
  | @flattenParts n nl t c f _ e ih =>
    intro h
    have := Flatten.tryFromParts_child e
    rw [show arrayT z false (.fsl n nl t) h f = arrayT z nl t h.2 f.child from rfl, this]
    exact ih h.2
  | @offsetsParts ow nl t c offsets f _ hw _ e ih =>
    intro h
    have := (Offsets.tryFromParts_data e).1
    have h' : t.WF := h
    rw [show arrayT z false (.vsl ow nl t) h f = arrayT z nl t h' f.data from rfl, this]
    exact ih h'
  | validityColl _ ih => intro h; exact (ih h).1
  | validityBitmap ht _ e ih => intro h; exact ((ih ht).2 _ e).1
  | flattenChild hn _ ih => intro h; exact ih ⟨hn, h⟩
  | offsetsData _ ih => intro h; exact ih h

/-- Without leftovers, nullable fixed-size lists are complete. -/
theorem exact_of_tight {z : Bool} : (t : Ty) → (h : t.WF) → (v : Validity (baseR t).C) →
    Validity.Inv (baseL t h).toLawfulColl v → Validity.Tight (baseL t h) z (baseT z t h) v →
    ∀ b, v.bitmap = some b → ExactLists t v.coll b.bits
  | .bool, _, _, _, _, _, _ => trivial
  | .prim _, _, _, _, _, _, _ => trivial
  | .vsl _ _ _, _, _, _, _, _, _ => trivial
  | .fsl n nl t, h, v, hv, ht, b, hb => by
    have h1 : (flatAbs (arrayL nl t h.2).toLawfulColl n (v.coll : Flatten (arrayR nl t).C)).length
      = b.bits := (ht.2 b hb).2
    have hi : flatInv (arrayL nl t h.2).toLawfulColl n (v.coll : Flatten (arrayR nl t).C) := hv.1
    have h2 := flat_abs h.1 hi
    have h3 := (arrayL nl t h.2).len_ok hi.1
    refine h3.trans ?_
    rw [← h2, Flatten.flat_length, h1]

theorem null_committed {O : Type} {R : Realloc O} {L : LawfulR R} {T : R.C → Prop} {z : Bool}
    {base : R.C → Prop} {ex : R.C → Nat → Prop} (hb : ∀ c, L.Inv c → T c → base c)
    (he : ∀ v, Validity.Inv L.toLawfulColl v → Validity.Tight L z T v →
      ∀ b, v.bitmap = some b → ex v.coll b.bits) :
    (nl : Bool) → (c : (nullR nl R).C) → (nullL nl L).Inv c → nullT L z T nl c →
      nullableCommitted R base ex nl c
  | false, c, hc, ht => hb c hc ht
  | true, v, hv, ht => ⟨hb _ hv.1 ht.1, he v hv ht⟩

theorem base_committed {z : Bool} : (t : Ty) → (h : t.WF) → (c : (baseR t).C) → (baseL t h).Inv c →
    baseT z t h c → baseCommitted t c
  | .bool, _, _, _, _ => trivial
  | .prim _, _, _, _, _ => trivial
  | .fsl _ nl t, h, c, hc, ht =>
    null_committed (base_committed t h.2) (exact_of_tight t h.2) nl
      (c : Flatten (nullR nl (baseR t)).C).child hc.1 ht
  | .vsl _ nl t, h, c, hc, ht =>
    null_committed (base_committed t h) (exact_of_tight t h) nl
      (c : Offsets (nullR nl (baseR t)).C).data hc.2.inv ht

theorem array_committed {z nl : Bool} {t : Ty} (h : t.WF) {c : (arrayR nl t).C}
    (hc : (arrayL nl t h).Inv c) (ht : arrayT z nl t h c) : Committed nl t c :=
  null_committed (base_committed t h) (exact_of_tight t h) nl c hc ht

theorem null_zero {O : Type} {R : Realloc O} {L : LawfulR R} {T : R.C → Prop}
    {base : R.C → List Nat} (hb : ∀ c, T c → ∀ o ∈ base c, o = 0) :
    (nl : Bool) → (c : (nullR nl R).C) → nullT L true T nl c →
      ∀ o ∈ nullableOffsets R base nl c, o = 0
  | false, c, ht => hb c ht
  | true, v, ht => by
    intro o ho
    rcases List.mem_append.1 ho with ho | ho
    · rw [List.mem_map] at ho
      obtain ⟨b, hb, rfl⟩ := ho
      exact (ht.2 b (Option.mem_toList.1 hb)).1 rfl
    · exact hb _ ht.1 o ho

theorem base_zero : (t : Ty) → (h : t.WF) → (c : (baseR t).C) → baseT true t h c →
    ∀ o ∈ baseOffsets t c, o = 0
  | .bool, _, b, ht => fun o ho => by
    have h1 := List.mem_singleton.1 ho
    rw [h1]; exact ht rfl
  | .prim _, _, _, _ => fun _ ho => nomatch ho
  | .fsl _ nl t, h, c, ht =>
    null_zero (L := baseL t h.2) (base_zero t h.2) nl (c : Flatten (nullR nl (baseR t)).C).child ht
  | .vsl _ nl t, h, c, ht =>
    null_zero (L := baseL t h) (base_zero t h) nl (c : Offsets (nullR nl (baseR t)).C).data ht

theorem array_zero {nl : Bool} {t : Ty} (h : t.WF) {c : (arrayR nl t).C} (ht : arrayT true nl t h c) :
    ∀ o ∈ bitOffsets nl t c, o = 0 :=
  null_zero (L := baseL t h) (base_zero t h) nl c ht

end Narrow
