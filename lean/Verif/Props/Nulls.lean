import Verif.Props.Bitmaps
import Verif.Props.Panics
import Verif.Proof.ValidityParts

/-!
# Properties of nullable arrays (C05 and C19 to C22)

A nullable array is a `Validity`: `arrayR true t`.
-/

namespace Narrow.Props

open Spec

variable {t : Ty}

/-- Values `xs` with validity `bs`: null where the bit is unset. -/
def nullable {α : Type} (xs : List α) (bs : List Bool) : List (Option α) :=
  List.zipWith (fun x valid => if valid then some x else none) xs bs

theorem mask_isSome {α : Type} : ∀ {xs : List α} {bs : List Bool}, bs.length ≤ xs.length →
    (Validity.mask xs bs).map Option.isSome = bs
  | _, [], _ => by simp
  | [], _ :: _, h => by simp at h
  | x :: xs, b :: bs, h => by
    simp only [Validity.mask_cons, List.map_cons, mask_isSome (xs := xs) (bs := bs) (by simpa using h)]
    cases b <;> rfl

section
variable {O : Type} {K : Coll O} {L : LawfulColl K}

theorem count_flags (l : List (Option O)) : (l.map Option.isSome).count true = l.countP Option.isSome := by
  simp [List.count, List.countP_map, Function.comp_def]

theorem countP_isNone (l : List (Option O)) :
    l.countP Option.isNone = l.length - l.countP Option.isSome := by
  have := List.length_eq_countP_add_countP (p := Option.isSome) (l := l)
  have h : (l.countP fun a => decide (¬ a.isSome = true)) = l.countP Option.isNone :=
    List.countP_congr fun a _ => by cases a <;> simp
  omega

theorem null_count_ok {v : Validity K.C} (hv : Validity.Inv L v) :
    Validity.nullCount v = .ok ((Validity.abs L v).countP Option.isNone) := by
  obtain ⟨c, ob⟩ := v
  cases ob with
  | none =>
    simp [Validity.nullCount, Validity.abs, List.countP_map, Function.comp_def]
  | some b =>
    have h1 := hv.2 b rfl
    have h2 : (Validity.abs L ⟨c, some b⟩).map Option.isSome = b.abs :=
      mask_isSome (by simpa using h1.2)
    have h3 : (Validity.abs L ⟨c, some b⟩).countP Option.isSome = b.abs.count true := by
      rw [← h2, count_flags]
    have h4 : (Validity.abs L ⟨c, some b⟩).length = b.bits := by
      have := congrArg List.length h2; simpa using this
    have h5 := List.countP_le_length (p := Option.isSome) (l := Validity.abs L ⟨c, some b⟩)
    show (b.countOnes.bind fun n => strictSub b.bits n) = _
    rw [Bitmap.countOnes_ok h1.1, ← h3, countP_isNone, h4]
    show (if _ ≤ b.bits then _ else _) = _
    rw [if_pos (by omega)]

theorem anyUnset_ok : ∀ (fuel : Nat) {it : BitIter} {l : List Bool}, it.Rep l → l.length < fuel →
    Validity.anyUnset fuel it = l.any (! ·)
  | 0, _, _, _, h => by omega
  | fuel + 1, it, [], h, _ => by
    obtain ⟨it', h1, -⟩ := BitIter.next_nil h
    simp [Validity.anyUnset, h1]
  | fuel + 1, it, x :: l, h, hl => by
    obtain ⟨it', h1, h2⟩ := BitIter.next_cons h
    simp only [Validity.anyUnset, h1]
    rw [anyUnset_ok fuel h2 (by simpa using hl)]
    cases x <;> simp

theorem any_null_ok {v : Validity K.C} (hv : Validity.Inv L v) :
    Validity.anyNull v = (Validity.abs L v).any Option.isNone := by
  obtain ⟨c, ob⟩ := v
  cases ob with
  | none => simp [Validity.anyNull, Validity.abs]
  | some b =>
    have h1 := hv.2 b rfl
    have h2 : (Validity.abs L ⟨c, some b⟩).map Option.isSome = b.abs :=
      mask_isSome (by simpa using h1.2)
    simp only [Validity.anyNull]
    rw [anyUnset_ok _ (Bitmap.iter_rep h1.1) (by simp), ← h2, List.any_map]
    congr 1
    funext o
    cases o <;> rfl

theorem is_valid_ok {v : Validity K.C} (hv : Validity.Inv L v) (i : Nat) :
    Validity.isValid K v i = .ok ((Validity.abs L v)[i]?.map Option.isSome) := by
  simp only [Validity.isValid, Validity.len_ok hv, Res.bind]
  by_cases hi : i < (Validity.abs L v).length
  · obtain ⟨x, -, -, -, h1, -⟩ := Validity.view_ok hv hi
    rw [if_pos hi, List.getElem?_eq_getElem hi, Option.map_some, h1]
    obtain ⟨c, ob⟩ := v
    cases ob with
    | none => rfl
    | some b =>
      have h2 := hv.2 b rfl
      have hib : i < b.bits := by simp [Validity.abs] at hi; omega
      simp [Bitmap.view_some h2.1 hib, Res.expect, Res.map]
  · rw [if_neg hi, List.getElem?_eq_none (by omega)]; rfl

theorem null_queries {v : Validity K.C} (hi : Validity.Inv L v) {l : List (Option O)}
    (he : Validity.abs L v = l) :
    Validity.nullCount v = .ok (l.countP Option.isNone) ∧
    Validity.validCount K v = .ok (l.countP Option.isSome) ∧
    (∀ i, Validity.isValid K v i = .ok (l[i]?.map Option.isSome)) ∧
    (∀ i, Validity.isNull K v i = .ok (l[i]?.map Option.isNone)) ∧
    Validity.anyNull v = l.any Option.isNone ∧
    Validity.allNull K v = .ok (l.all Option.isNone) ∧
    Validity.anyValid K v = .ok (l.any Option.isSome) ∧
    Validity.allValid v = .ok (l.all Option.isSome) := by
  have h1 := null_count_ok hi
  have h2 := Validity.len_ok hi
  have h3 := any_null_ok hi
  have h4 := is_valid_ok hi
  rw [he] at h1 h2 h3
  simp only [he] at h4
  have h5 := countP_isNone l
  have h6 := List.countP_le_length (p := Option.isSome) (l := l)
  have hvc : Validity.validCount K v = .ok (l.countP Option.isSome) := by
    show ((Validity.len _ v).bind fun n => (Validity.nullCount v).bind fun m => strictSub n m) = _
    rw [h2, h1]
    simp only [Res.bind, strictSub]
    rw [if_pos (by omega)]; congr 1; omega
  have key : ∀ p : Option O → Bool, (l.countP p == l.length) = l.all p := by
    intro p
    rw [Bool.eq_iff_iff]
    simp [List.countP_eq_length]
  have key2 : ∀ p : Option O → Bool, (l.countP p != 0) = l.any p := by
    intro p
    rw [Bool.eq_iff_iff]
    simp only [bne_iff_ne, ne_eq, List.countP_eq_zero, List.any_eq_true]
    simp
  refine ⟨h1, hvc, h4, ?_, h3, ?_, ?_, ?_⟩
  · intro i
    show (Validity.isValid _ v i).map _ = _
    rw [h4 i]
    simp only [Res.map, Option.map_map]
    congr 2
    funext o; cases o <;> rfl
  · show ((Validity.nullCount v).bind fun n => (Validity.len _ v).map fun k => n == k) = _
    rw [h2, h1]
    simp only [Res.bind, Res.map, key]
  · show (Validity.validCount _ v).map _ = _
    rw [hvc]; simp only [Res.map, key2]
  · show (Validity.nullCount v).map _ = _
    rw [h1]
    simp only [Res.map]
    congr 1
    have : (l.countP Option.isNone == 0) = !(l.any Option.isNone) := by
      rw [← key2]; simp [bne]
    rw [this, List.not_any_eq_all_not]
    congr 1
    funext o; cases o <;> rfl

end

/-- C05. All null queries answer for the logical items: padding bits, the bits
before the offset and values without validity play no role. -/
theorem C05_null_queries (ht : t.WF) {v : Validity (arrayR false t).C} {l : List (Option (Val t))}
    (hr : Reach true t v) (hl : Shows true t v l) :
    Validity.nullCount v = .ok (l.countP Option.isNone) ∧
    Validity.validCount (arrayR false t).toColl v = .ok (l.countP Option.isSome) ∧
    (∀ i, Validity.isValid (arrayR false t).toColl v i = .ok (l[i]?.map Option.isSome)) ∧
    (∀ i, Validity.isNull (arrayR false t).toColl v i = .ok (l[i]?.map Option.isNone)) ∧
    Validity.anyNull v = l.any Option.isNone ∧
    Validity.allNull (arrayR false t).toColl v = .ok (l.all Option.isNone) ∧
    Validity.anyValid (arrayR false t).toColl v = .ok (l.any Option.isSome) ∧
    Validity.allValid v = .ok (l.all Option.isSome) :=
  null_queries (L := (baseL t ht).toLawfulColl) (reach_inv hr ht)
    (Reads.abs_eq (L := (arrayL true t ht).toLawfulColl) hl (reach_inv hr ht))

example : ∃ v, Reach true Sample.ty v ∧ Validity.nullCount v = .ok 1 ∧
    Validity.isNull (arrayR false Sample.ty).toColl v 1 = .ok (some true) ∧
    Validity.isNull (arrayR false Sample.ty).toColl v 4 = .ok none ∧
    Validity.anyNull v = true ∧ Validity.allNull (arrayR false Sample.ty).toColl v = .ok false := by
  obtain ⟨v, -, hr, hs⟩ := Sample.array
  obtain ⟨h1, -, -, h2, h3, h4, -⟩ := C05_null_queries Sample.ty_wf hr hs
  exact ⟨v, hr, h1, h2 1, h2 4, h3, h4⟩

/-- C19. `try_from_parts` succeeds exactly for equal lengths. -/
theorem C19_accepts (ht : t.WF) {c : (arrayR false t).C} {b : Bitmap} {xs : List (Val t)}
    {bs : List Bool} (hc : Reach false t c) (hx : Shows false t c xs)
    (hbs : Shows false .bool b bs) (hb : Reach false .bool b) :
    (∃ v, Validity.tryFromParts (arrayR false t).toColl c b = .ok (.ok v)) ↔ xs.length = bs.length := by
  have hi := reach_inv hc ht
  have h1 : b.bits = bs.length := by
    have := Reads.abs_eq (L := bitmapL.toLawfulColl) hbs (reach_inv (t := .bool) hb trivial)
    rw [← this]; simp [bitmapL]
  have h2 := Validity.tryFromParts_eq (L := (arrayL false t ht).toLawfulColl) b hi
  rw [show (arrayL false t ht).abs c = xs from hx.abs_eq hi, h1] at h2
  constructor
  · rintro ⟨v, hv⟩
    refine Decidable.byContradiction fun hne => ?_
    have h3 := h2.symm.trans hv
    have h4 := h3.symm.trans (congrArg Res.ok (if_neg hne))
    simp at h4
  · intro he
    exact ⟨_, h2.trans (congrArg Res.ok (if_pos he))⟩

/-- C19. What the accepted parts show. -/
theorem C19_reads (ht : t.WF) {c : (arrayR false t).C} {b : Bitmap} {xs : List (Val t)}
    {bs : List Bool} {v : Validity (arrayR false t).C} (hc : Reach false t c) (hx : Shows false t c xs)
    (hb : Reach false .bool b) (hbs : Shows false .bool b bs)
    (h : Validity.tryFromParts (arrayR false t).toColl c b = .ok (.ok v)) :
    Reach true t v ∧ Shows true t v (nullable xs bs) ∧ v.intoParts = (c, some b) := by
  have hi := reach_inv hc ht
  have hbi : b.Inv := reach_inv (t := .bool) hb trivial
  have hr := Reach.validityParts hc hb h
  have h1 := Validity.tryFromParts_eq (L := (arrayL false t ht).toLawfulColl) b hi
  rw [h] at h1
  split at h1
  · simp only [Res.ok.injEq, Except.ok.injEq] at h1
    subst h1
    refine ⟨hr, shows_of_inv ht (reach_inv hr ht) ?_, rfl⟩
    have e1 : (baseL t ht).abs c = xs := hx.abs_eq hi
    have e2 : b.abs = bs := Reads.abs_eq (L := bitmapL.toLawfulColl) hbs hbi
    show Validity.mask ((baseL t ht).abs c) b.abs = _
    rw [e1, e2]; rfl
  · simp at h1

/-- C19. The error of rejected parts names both lengths. -/
theorem C19_rejects (ht : t.WF) {c : (arrayR false t).C} {b : Bitmap} {xs : List (Val t)}
    {bs : List Bool} (hc : Reach false t c) (hx : Shows false t c xs) (hb : Reach false .bool b)
    (hbs : Shows false .bool b bs) (hne : xs.length ≠ bs.length) :
    Validity.tryFromParts (arrayR false t).toColl c b = .ok (.error ⟨xs.length, bs.length⟩) := by
  have hi := reach_inv hc ht
  have h1 : b.bits = bs.length := by
    have := Reads.abs_eq (L := bitmapL.toLawfulColl) hbs (reach_inv (t := .bool) hb trivial)
    rw [← this]; simp [bitmapL]
  have h2 := Validity.tryFromParts_eq (L := (arrayL false t ht).toLawfulColl) b hi
  rw [show (arrayL false t ht).abs c = xs from hx.abs_eq hi, h1] at h2
  exact h2.trans (congrArg Res.ok (if_neg hne))

/-- C19. `from_collection` makes every item valid. -/
theorem C19_from_collection (ht : t.WF) {c : (arrayR false t).C} {xs : List (Val t)}
    (hc : Reach false t c) (hx : Shows false t c xs) :
    Reach true t (Validity.fromCollection c) ∧ Shows true t (Validity.fromCollection c) (xs.map some) ∧
    (Validity.fromCollection c).intoParts = (c, none) := by
  have hi := reach_inv hc ht
  have hr := Reach.fromCollection hc
  refine ⟨hr, shows_of_inv ht (reach_inv hr ht) ?_, rfl⟩
  have e1 : (baseL t ht).abs c = xs := hx.abs_eq hi
  exact congrArg (List.map some) e1

/-- Three bytes, and a bitmap with offset 2 and bits `1, 0, 1`. -/
example : ∃ v, Validity.tryFromParts (arrayR false (.prim .u8)).toColl
      (⟨[7#8, 8#8, 9#8], 3⟩ : RVec (BitVec 8)) ⟨⟨[0b11110111#8], 1⟩, 3, 2⟩ = .ok (.ok v) ∧
    Shows true (.prim .u8) v ([some (7#8 : BitVec 8), none, some 9#8] : List (Option (BitVec 8))) := by
  have hb : Reach false .bool (⟨⟨[0b11110111#8], 1⟩, 3, 2⟩ : Bitmap) :=
    .bitmapParts (buffer := ⟨[0b11110111#8], 1⟩) (bits := 3) (offset := 2) ⟨by decide, by decide⟩ rfl
  have hc : Reach false (.prim .u8) (⟨[7#8, 8#8, 9#8], 3⟩ : RVec (BitVec 8)) :=
    .vec (p := .u8) (v := (⟨[7#8, 8#8, 9#8], 3⟩ : RVec (BitVec 8))) ⟨by decide, by decide⟩
  have hbs : Shows false .bool (⟨⟨[0b11110111#8], 1⟩, 3, 2⟩ : Bitmap) ([true, false, true] : List Bool) :=
    shows_of_inv (t := .bool) trivial (reach_inv (t := .bool) hb trivial) rfl
  have hx : Shows false (.prim .u8) (⟨[7#8, 8#8, 9#8], 3⟩ : RVec (BitVec 8)) ([7#8, 8#8, 9#8] : List (BitVec 8)) :=
    shows_of_inv (t := .prim .u8) trivial (reach_inv hc trivial) rfl
  obtain ⟨v, h⟩ := (C19_accepts (t := .prim .u8) trivial hc hx hbs hb).mpr rfl
  exact ⟨v, h, (C19_reads (t := .prim .u8) trivial hc hx hb hbs h).2.1⟩

/-- The default values stored in null slots. -/
theorem C20_default_values :
    (arrayR false .bool).dflt = false ∧
    (∀ p : Prim, (arrayR false (.prim p)).dflt = (0#(8 * p.size))) ∧
    (∀ (ow : OffW) (nl : Bool) (t : Ty), (arrayR false (.vsl ow nl t)).dflt = []) ∧
    (∀ (n : Nat) (t : Ty), (arrayR false (.fsl n false t)).dflt = FixArr.replicate n (arrayR false t).dflt) ∧
    (∀ (n : Nat) (t : Ty), (arrayR false (.fsl n true t)).dflt = FixArr.replicate n none) :=
  ⟨rfl, fun _ => rfl, fun _ _ _ => rfl, fun _ _ => rfl, fun _ _ => rfl⟩

/-- C20. In an array built by collecting and extending (within memory limits),
the value storage holds the items, and the default value where an item is null;
the bitmap holds the validity, bit by bit. -/
theorem C20_null_slots_default (ht : t.WF) {v : Validity (arrayR false t).C}
    {l : List (Option (Val t))} (hg : Grown true t v) (hl : Shows true t v l) :
    Shows false t v.intoParts.1 (l.map fun o => o.getD (arrayR false t).dflt) ∧
    ∀ b, v.intoParts.2 = some b → Shows false .bool b (l.map Option.isSome) := by
  obtain ⟨hi, hk⟩ := grown_canon hg ht
  have hi' : Validity.Inv (baseL t ht).toLawfulColl v := hi
  have hk' : Validity.Canon (baseL t ht) v := hk
  have he : Validity.abs (baseL t ht).toLawfulColl v = l :=
    Reads.abs_eq (L := (arrayL true t ht).toLawfulColl) hl hi
  refine ⟨shows_of_inv ht hi'.1 ?_, fun b hb => ?_⟩
  · have := hk'.2.2
    rw [he] at this
    exact this
  · obtain ⟨c, ob⟩ := v
    simp only [Validity.intoParts] at hb
    subst hb
    have h1 := hi'.2 b rfl
    refine shows_of_inv (t := .bool) trivial h1.1 ?_
    show b.abs = _
    rw [← he]
    exact (mask_isSome (by simpa using h1.2)).symm

example : ∃ v, Grown true Sample.ty v ∧ Shows false Sample.ty v.intoParts.1
    ([[some (Sample.pair true false), none], [], [], [some (Sample.pair true true)]] :
      List (List (Option (FixArr Bool 2)))) := by
  obtain ⟨v, hg, hr, hs⟩ := Sample.array
  exact ⟨v, hg, (C20_null_slots_default Sample.ty_wf hg hs).1⟩

theorem all_set_packs (n : Nat) : Packs (Bitmap.allSetBytes n) (List.replicate n true) := by
  refine ⟨by simp [Bitmap.allSetBytes_length, bytesForBits], fun i hi => ?_⟩
  rw [← bitAt_eq]
  split
  · next h =>
    simp only [List.length_replicate] at h
    simp [Bitmap.allSetBytes_bit h]
  · next h =>
    simp only [List.length_replicate] at h
    rw [Bitmap.allSetBytes_length] at hi
    unfold bytesForBits at hi
    unfold Bitmap.allSetBytes
    rw [bitAt_append_right (by simp; omega), if_pos (by omega), bitAt_cons_lt (by simp; omega),
      Bitmap.getLsbD_lowOnes _ (by omega) _ (by simp; omega)]
    simp; omega

/-- C21. Reserving on a collection without a bitmap: every item stays, and the
bitmap made is Arrow's packing of one set bit per item, at offset zero, with zero
padding. -/
theorem C21_reserve_materializes (ht : t.WF) {c : (arrayR false t).C} {xs : List (Val t)} {n : Nat}
    {v' : Validity (arrayR false t).C} (hc : Reach false t c) (hx : Shows false t c xs)
    (h : (arrayR true t).reserve (Validity.fromCollection c) n = (v', .ok)) :
    Shows true t v' (xs.map some) ∧ Shows false t v'.intoParts.1 xs ∧
    ∃ b, v'.intoParts.2 = some b ∧ b.bitOffset = 0 ∧ b.len = xs.length ∧
      Packs b.buffer.items (List.replicate xs.length true) := by
  have hi := reach_inv hc ht
  have e : (baseL t ht).abs c = xs := hx.abs_eq hi
  obtain ⟨h1, b, h2, h3, h4, h5⟩ := Validity.reserve_parts (L := baseL t ht) hi h
  rw [e] at h1 h4 h5
  have h6 := C13_reserve ht (Reach.fromCollection hc) (C19_from_collection ht hc hx).2.1 h
  have h7 : Validity.Inv (baseL t ht).toLawfulColl v' := reach_inv h6.1 ht
  exact ⟨h6.2.1, shows_of_inv ht h7.1 h1, b, h2, h3, h4, h5 ▸ all_set_packs _⟩

/-- C21. The same for `try_reserve`. -/
theorem C21_try_reserve_materializes (ht : t.WF) {c : (arrayR false t).C} {xs : List (Val t)} {n : Nat}
    {w w' : World} {v' : Validity (arrayR false t).C} (hc : Reach false t c) (hx : Shows false t c xs)
    (h : (arrayR true t).tryReserve w (Validity.fromCollection c) n = (v', .ok, w')) :
    Shows true t v' (xs.map some) ∧ Shows false t v'.intoParts.1 xs ∧
    ∃ b, v'.intoParts.2 = some b ∧ b.bitOffset = 0 ∧ b.len = xs.length ∧
      Packs b.buffer.items (List.replicate xs.length true) := by
  have hi := reach_inv hc ht
  have e : (baseL t ht).abs c = xs := hx.abs_eq hi
  obtain ⟨h1, b, h2, h3, h4, h5⟩ := Validity.tryReserve_parts (L := baseL t ht) hi h
  rw [e] at h1 h4 h5
  have h6 := C13_try_reserve ht (Reach.fromCollection hc) (C19_from_collection ht hc hx).2.1 h
  have h7 : Validity.Inv (baseL t ht).toLawfulColl v' := reach_inv h6.1 ht
  exact ⟨h6.2.1, shows_of_inv ht h7.1 h1, b, h2, h3, h4, h5 ▸ all_set_packs _⟩

section
variable {O : Type} {R : Realloc O} {L : LawfulR R}

theorem grew_none {c : R.C} {v' : Validity R.C} {l : List (Option O)} {xs : List O}
    (he : L.abs c = xs)
    (h : ∃ b, Validity.Parts L ⟨c, none⟩ b ∧ Validity.Grew L ((L.abs c).take b.bits) b l v') :
    L.abs v'.coll = xs ++ l.map (·.getD R.dflt) ∧
    ∃ b', v'.bitmap = some b' ∧ b'.abs = List.replicate xs.length true ++ l.map Option.isSome := by
  obtain ⟨b, ⟨h1, -⟩, h2, b', h3, h4, -⟩ := h
  have h5 : b.bits = xs.length := by
    have := congrArg List.length h1
    rw [← he]; simpa using this
  rw [he, h5, List.take_length] at h2
  simp only [he] at h1
  exact ⟨h2, b', h3, by rw [h4, h1]⟩

theorem grew_some {c : R.C} {b : Bitmap} {v' : Validity R.C} {l : List (Option O)} {xs : List O}
    {bs : List Bool} (he : L.abs c = xs) (hb : b.abs = bs)
    (h : ∃ b', Validity.Parts L ⟨c, some b⟩ b' ∧ Validity.Grew L ((L.abs c).take b'.bits) b' l v') :
    L.abs v'.coll = xs.take bs.length ++ l.map (·.getD R.dflt) ∧
    ∃ b', v'.bitmap = some b' ∧ b'.abs = bs ++ l.map Option.isSome := by
  obtain ⟨b1, h1, h2, b', h3, h4, -⟩ := h
  simp only [Validity.Parts] at h1
  subst h1
  have h5 : b1.bits = bs.length := by rw [← hb]; simp
  rw [he, h5] at h2
  exact ⟨h2, b', h3, by rw [h4, hb]⟩
end

/-- What the parts of an extended nullable array show. -/
def PartsShow (t : Ty) (v : Validity (arrayR false t).C) (xs : List (Val t)) (bs : List Bool) : Prop :=
  Shows false t v.intoParts.1 xs ∧ ∃ b, v.intoParts.2 = some b ∧ Shows false .bool b bs

theorem partsShow_of (ht : t.WF) {v' : Validity (arrayR false t).C} {xs : List (Val t)} {bs : List Bool}
    (hr : Reach true t v')
    (h : (baseL t ht).abs v'.coll = xs ∧ ∃ b', v'.bitmap = some b' ∧ b'.abs = bs) :
    PartsShow t v' xs bs := by
  have hi : Validity.Inv (baseL t ht).toLawfulColl v' := reach_inv hr ht
  obtain ⟨h1, b, h2, h3⟩ := h
  exact ⟨shows_of_inv ht hi.1 h1, b, h2, shows_of_inv (t := .bool) trivial (hi.2 b h2).1 h3⟩

/-- C21. Extending a collection without a bitmap: existing items are valid, with
their values; the new ones follow. -/
theorem C21_extend (ht : t.WF) {c : (arrayR false t).C} {xs : List (Val t)}
    {v' : Validity (arrayR false t).C} {s : Src (Option (Val t))} (hc : Reach false t c)
    (hx : Shows false t c xs)
    (h : (arrayR true t).extend (Validity.fromCollection c) s = (v', .ok)) :
    Shows true t v' (xs.map some ++ s.items) ∧
    PartsShow t v' (xs ++ s.items.map fun o => o.getD (arrayR false t).dflt)
      (List.replicate xs.length true ++ s.items.map Option.isSome) := by
  have hi := reach_inv hc ht
  have hr := Reach.fromCollection hc
  have h6 := C10_extend_appends ht hr (C19_from_collection ht hc hx).2.1 h
  exact ⟨h6.2.1, partsShow_of ht h6.1 (grew_none (L := baseL t ht) (hx.abs_eq hi)
    (Validity.extend_grew (L := baseL t ht) (reach_inv hr ht) h))⟩

theorem try_extend_shows (ht : t.WF) {v v' : Validity (arrayR false t).C} {w w' : World}
    {l : List (Option (Val t))} {s : Src (Option (Val t))} (hr : Reach true t v) (hl : Shows true t v l)
    (h : (arrayR true t).tryExtend w v s = (v', .ok, w')) : Shows true t v' (l ++ s.items) := by
  rcases C12_try_extend_all_or_nothing ht hr hl h with ⟨-, -, h, -⟩ | ⟨h, -⟩ | ⟨h, -⟩
  · exact h
  · cases h
  · cases h

/-- C21. The same for `try_extend`. -/
theorem C21_try_extend (ht : t.WF) {c : (arrayR false t).C} {xs : List (Val t)} {w w' : World}
    {v' : Validity (arrayR false t).C} {s : Src (Option (Val t))} (hc : Reach false t c)
    (hx : Shows false t c xs)
    (h : (arrayR true t).tryExtend w (Validity.fromCollection c) s = (v', .ok, w')) :
    Shows true t v' (xs.map some ++ s.items) ∧
    PartsShow t v' (xs ++ s.items.map fun o => o.getD (arrayR false t).dflt)
      (List.replicate xs.length true ++ s.items.map Option.isSome) := by
  have hi := reach_inv hc ht
  have hr := Reach.fromCollection hc
  have h5 := Reach.tryExtend hr h (by simp)
  have h6 := try_extend_shows ht hr (C19_from_collection ht hc hx).2.1 h
  exact ⟨h6, partsShow_of ht h5 (grew_none (L := baseL t ht) (hx.abs_eq hi)
    (Validity.tryExtend_grew (L := baseL t ht) (reach_inv hr ht) h))⟩

/-- C22. Only the values covered by the bitmap are visible: whatever the value
storage holds beyond it. -/
theorem C22_uncommitted_invisible (ht : t.WF) {v : Validity (arrayR false t).C} {c : (arrayR false t).C}
    {b : Bitmap} {xs : List (Val t)} {bs : List Bool} (hr : Reach true t v)
    (hp : v.intoParts = (c, some b)) (hx : Shows false t c xs) (hb : Shows false .bool b bs) :
    bs.length ≤ xs.length ∧ Shows true t v (nullable (xs.take bs.length) bs) ∧
    Validity.nullCount v = .ok (bs.count false) := by
  have hi : Validity.Inv (baseL t ht).toLawfulColl v := reach_inv hr ht
  obtain ⟨c', ob⟩ := v
  simp only [Validity.intoParts, Prod.mk.injEq] at hp
  obtain ⟨rfl, rfl⟩ := hp
  have h1 := hi.2 b rfl
  have e1 : (baseL t ht).abs c' = xs := hx.abs_eq hi.1
  have e2 : b.abs = bs := Reads.abs_eq (L := bitmapL.toLawfulColl) hb h1.1
  have h2 : bs.length ≤ xs.length := by rw [← e1, ← e2]; simpa using h1.2
  have hs : Shows true t ⟨c', some b⟩ (nullable (xs.take bs.length) bs) := by
    refine shows_of_inv ht hi ?_
    show Validity.mask ((baseL t ht).abs c') b.abs = Validity.mask _ _
    rw [e1, e2, Validity.mask_take_length]
  refine ⟨h2, hs, ?_⟩
  rw [(C05_null_queries ht hr hs).1]
  congr 1
  have h3 : (nullable (xs.take bs.length) bs).map Option.isSome = bs :=
    mask_isSome (by rw [List.length_take]; omega)
  conv => rhs; rw [← h3]
  rw [List.count, List.countP_map]
  exact List.countP_congr fun o _ => by cases o <;> simp

/-- C22. The next extension discards the uncommitted values. -/
theorem C22_extend_discards (ht : t.WF) {v v' : Validity (arrayR false t).C} {c : (arrayR false t).C}
    {b : Bitmap} {xs : List (Val t)} {bs : List Bool} {s : Src (Option (Val t))} (hr : Reach true t v)
    (hp : v.intoParts = (c, some b)) (hx : Shows false t c xs) (hb : Shows false .bool b bs)
    (h : (arrayR true t).extend v s = (v', .ok)) :
    Shows true t v' (nullable (xs.take bs.length) bs ++ s.items) ∧
    PartsShow t v' (xs.take bs.length ++ s.items.map fun o => o.getD (arrayR false t).dflt)
      (bs ++ s.items.map Option.isSome) := by
  have h1 := C22_uncommitted_invisible ht hr hp hx hb
  have h6 := C10_extend_appends ht hr h1.2.1 h
  have hi : Validity.Inv (baseL t ht).toLawfulColl v := reach_inv hr ht
  obtain ⟨c', ob⟩ := v
  simp only [Validity.intoParts, Prod.mk.injEq] at hp
  obtain ⟨rfl, rfl⟩ := hp
  exact ⟨h6.2.1, partsShow_of ht h6.1 (grew_some (L := baseL t ht) (hx.abs_eq hi.1)
    (Reads.abs_eq (L := bitmapL.toLawfulColl) hb (hi.2 b rfl).1)
    (Validity.extend_grew (L := baseL t ht) hi h))⟩

/-- C22. So does the next successful `try_extend`. -/
theorem C22_try_extend_discards (ht : t.WF) {v v' : Validity (arrayR false t).C}
    {c : (arrayR false t).C} {w w' : World}
    {b : Bitmap} {xs : List (Val t)} {bs : List Bool} {s : Src (Option (Val t))} (hr : Reach true t v)
    (hp : v.intoParts = (c, some b)) (hx : Shows false t c xs) (hb : Shows false .bool b bs)
    (h : (arrayR true t).tryExtend w v s = (v', .ok, w')) :
    Shows true t v' (nullable (xs.take bs.length) bs ++ s.items) ∧
    PartsShow t v' (xs.take bs.length ++ s.items.map fun o => o.getD (arrayR false t).dflt)
      (bs ++ s.items.map Option.isSome) := by
  have h1 := C22_uncommitted_invisible ht hr hp hx hb
  have h5 := Reach.tryExtend hr h (by simp)
  have h6 := try_extend_shows ht hr h1.2.1 h
  have hi : Validity.Inv (baseL t ht).toLawfulColl v := reach_inv hr ht
  obtain ⟨c', ob⟩ := v
  simp only [Validity.intoParts, Prod.mk.injEq] at hp
  obtain ⟨rfl, rfl⟩ := hp
  exact ⟨h6, partsShow_of ht h5 (grew_some (L := baseL t ht) (hx.abs_eq hi.1)
    (Reads.abs_eq (L := bitmapL.toLawfulColl) hb (hi.2 b rfl).1)
    (Validity.tryExtend_grew (L := baseL t ht) hi h))⟩

/-! ## Concrete cases of C21 and C22: `Option<u8>` -/

namespace Bytes

/-- `u8` -/
abbrev T : Ty := .prim .u8

/-- Nine values. -/
def nine : RVec (BitVec 8) := ⟨[1#8, 2#8, 3#8, 4#8, 5#8, 6#8, 7#8, 8#8, 9#8], 9⟩

theorem nine_reach : Reach false T nine := .vec (p := .u8) (v := nine) ⟨by decide, by decide⟩

theorem nine_shows : Shows false T nine nine.items :=
  shows_of_inv (t := T) trivial (reach_inv nine_reach trivial) rfl

/-- Two items, then a panic. -/
def src : Src (Option (BitVec 8)) := [.item (some 5#8), .item none, .panic]

/-- What the panic leaves behind: two values, no validity. -/
def left : Validity (RVec (BitVec 8)) := ⟨⟨[5#8, 0#8], 2⟩, some ⟨⟨[], 0⟩, 0, 0⟩⟩

theorem extend_src : (arrayR true T).extend (arrayR true T).empty src = (left, .panic) := by
  show Validity.extend (baseR T) ⟨RVec.empty, none⟩ src = (left, .panic)
  have hm : Validity.materialize (baseR T).toColl ⟨RVec.empty, none⟩ = .ok ⟨⟨[], 0⟩, 0, 0⟩ := rfl
  unfold Validity.extend
  rw [hm]
  show Validity.extendLoop _ _ _ _ = _
  refine (Validity.extendLoop.eq_1 _ _ _ _).trans ?_
  rfl

theorem left_reach : Reach true T left := .extendPanic trivial .empty extend_src

theorem left_values : Shows false T left.coll ([5#8, 0#8] : List (BitVec 8)) := by
  have := left_reach.validityColl
  exact shows_of_inv (t := T) trivial (reach_inv this trivial) rfl

theorem left_bitmap : Shows false .bool (⟨⟨[], 0⟩, 0, 0⟩ : Bitmap) ([] : List Bool) :=
  shows_of_inv (t := .bool) trivial ⟨⟨by decide, by decide⟩, by decide⟩ rfl

end Bytes

/-- C21: nine values without a bitmap; the second byte is padded with zeros. -/
example : ∃ v' b, (arrayR true Bytes.T).reserve (Validity.fromCollection Bytes.nine) 3 = (v', .ok) ∧
    v'.intoParts.2 = some b ∧ b.buffer.items = [0xFF#8, 0x01#8] := ⟨_, _, rfl, rfl, rfl⟩

example : ∃ v', (arrayR true Bytes.T).reserve (Validity.fromCollection Bytes.nine) 3 = (v', .ok) ∧
    Shows true Bytes.T v' (Bytes.nine.items.map some) :=
  ⟨_, rfl, (C21_reserve_materializes (t := Bytes.T) (n := 3) trivial Bytes.nine_reach Bytes.nine_shows rfl).1⟩

/-- C21: extending nine values without a bitmap. -/
example : ∃ v', (arrayR true Bytes.T).extend (Validity.fromCollection Bytes.nine)
      (Src.ofList [none, some 4#8]) = (v', .ok) ∧
    Shows true Bytes.T v' (Bytes.nine.items.map some ++ [none, some 4#8]) := by
  have hr := Reach.fromCollection Bytes.nine_reach
  have hok : ((arrayR true Bytes.T).extend (Validity.fromCollection Bytes.nine)
      (Src.ofList [none, some 4#8])).2 = .ok := by
    have hc : Validity.Canon (baseL Bytes.T trivial) (Validity.fromCollection Bytes.nine) :=
      ⟨trivial, Nat.le_of_ble_eq_true rfl, rfl⟩
    exact ((Validity.extend_spec (L := baseL Bytes.T trivial) (reach_inv hr trivial)
      (Prod.ext rfl rfl)).2.2 hc ⟨Nat.le_of_ble_eq_true rfl, Nat.le_of_ble_eq_true rfl⟩).2 rfl
  exact ⟨_, Prod.ext rfl hok,
    (C21_extend (t := Bytes.T) trivial Bytes.nine_reach Bytes.nine_shows (Prod.ext rfl hok)).1⟩

/-- C22: two values without validity; the array is empty. -/
example : Reach true Bytes.T Bytes.left ∧ Shows true Bytes.T Bytes.left [] ∧
    Validity.nullCount Bytes.left = .ok 0 := by
  have := C22_uncommitted_invisible (t := Bytes.T) trivial Bytes.left_reach rfl
    Bytes.left_values Bytes.left_bitmap
  exact ⟨Bytes.left_reach, this.2⟩

/-- C22: and they are gone after extending by one item. -/
example : ∃ v', (arrayR true Bytes.T).extend Bytes.left (Src.ofList [some 7#8]) = (v', .ok) ∧
    Shows true Bytes.T v' [some (7#8 : BitVec 8)] ∧ PartsShow Bytes.T v' ([7#8] : List (BitVec 8)) [true] := by
  have h : ∃ v', (arrayR true Bytes.T).extend Bytes.left (Src.ofList [some 7#8]) = (v', .ok) := by
    refine ⟨⟨⟨[7#8], 2⟩, some ⟨⟨[1#8], 1⟩, 1, 0⟩⟩, ?_⟩
    show Validity.extend (baseR Bytes.T) Bytes.left (Src.ofList [some 7#8]) =
      (⟨⟨[7#8], 2⟩, some ⟨⟨[1#8], 1⟩, 1, 0⟩⟩, .ok)
    have hm : Validity.materialize (baseR Bytes.T).toColl Bytes.left = .ok ⟨⟨[], 0⟩, 0, 0⟩ := rfl
    have hp : pack [.item true] = ([.item 1#8], 1) := by
      unfold pack; simp [packRest, boolByte, pack]
    have hb : Bitmap.extend ⟨⟨[], 0⟩, 0, 0⟩ (Src.ofList [true]) = (⟨⟨[1#8], 1⟩, 1, 0⟩, .ok) := by
      have h1 : Bitmap.phase1 ⟨⟨[], 0⟩, 0, 0⟩ (Src.fuse (Src.ofList [true])) =
        (⟨⟨[], 0⟩, 0, 0⟩, [.item true], false) := rfl
      simp only [Bitmap.extend, h1, Bitmap.phase2, hp]
      rfl
    unfold Validity.extend
    rw [hm]
    show Validity.extendLoop _ _ _ _ = _
    refine (Validity.extendLoop.eq_1 _ _ _ _).trans ?_
    have he : (baseR Bytes.T).extend (⟨[], 2⟩ : RVec (BitVec 8))
        (Validity.values (baseR Bytes.T).dflt (Src.takeChunk validityChunk (Src.ofList [some 7#8])).1) =
        (⟨[7#8], 2⟩, .ok) := rfl
    have hf : Validity.flags (Src.takeChunk validityChunk (Src.ofList [some (7#8 : BitVec 8)])).1 = [true] := rfl
    erw [he]
    simp only
    erw [hf, hb]
    rfl
  obtain ⟨v', h⟩ := h
  exact ⟨v', h, C22_extend_discards (t := Bytes.T) trivial Bytes.left_reach rfl
    Bytes.left_values Bytes.left_bitmap h⟩

end Narrow.Props
