import Verif.Proof.BackendValidity
import Verif.Proof.BackendOffsets
import Verif.Proof.BackendPanic
import Verif.Proof.Compose
import Verif.Proof.Parts

/-! # Compositions over any storage are lawful -/

namespace Narrow

open Spec

/-- The laws of a composition. -/
@[reducible] def scompL : {O : Type} → (k : SComp O) → Sound k → LawfulR (scompR k)
  | _, .leaf _ _ _, h => (honoursG h).lawful
  | _, .bitmap _ _, h => (bitmapBG (honoursB h)).lawful
  | _, .flatten n hn k, h => flattenL (scompL k h) n hn
  | _, .validity env _ _ k, h => (validityBG env (honoursB h.1) (scompL k h.2)).lawful
  | _, .offsets ow _ _ k, h => (offsetsBG ow (honoursB h.1) (scompL k h.2.2) h.2.1).lawful

/-! ## Parts -/

theorem BitmapOf.tryFromParts_eq {B : Buf Byte} {L : LawfulBuf B} {buffer : B.C} (bits offset : Nat)
    (h : L.Inv buffer) :
    BitmapOf.tryFromParts B buffer bits offset =
      if offset + bits ≤ 8 * (L.abs buffer).length then .ok ⟨buffer, bits, offset⟩
      else .error ⟨offset, bits, (L.abs buffer).length⟩ := by
  unfold tryFromParts
  have hs := L.small h
  have hb : B.borrow buffer = L.abs buffer := L.borrow_ok h
  simp only [hb]
  have hm : byteMax * 8 ≤ usizeMax := by decide
  have hsat : satMul (L.abs buffer).length 8 = 8 * (L.abs buffer).length := by
    unfold satMul
    omega
  rw [hsat]
  unfold checkedAdd
  by_cases hb : offset + bits ≤ usizeMax
  · simp only [hb, if_true]
  · rw [if_neg hb, if_neg (by omega)]

theorem BitmapOf.tryFromParts_inv {B : Buf Byte} {L : LawfulBuf B} {buffer : B.C} {bits offset : Nat}
    {b : BitmapOf B.C} (h : L.Inv buffer)
    (e : BitmapOf.tryFromParts B buffer bits offset = .ok b) :
    b = ⟨buffer, bits, offset⟩ ∧ b.Within L := by
  rw [tryFromParts_eq bits offset h] at e
  split at e
  · next hle =>
    simp only [Except.ok.injEq] at e
    subst e
    exact ⟨rfl, h, hle⟩
  · simp at e

theorem OffsetsIn.tryFromParts_eq {O : Type} {D : Buf Int} {K : Coll O} (c : K.C) (offsets : D.C) :
    OffsetsIn.tryFromParts D K c offsets =
      (Offsets.tryFromParts K c ⟨D.borrow offsets, 0⟩).map fun r => r.map fun _ => ⟨c, offsets⟩ := by
  unfold OffsetsIn.tryFromParts Offsets.tryFromParts
  cases D.borrow offsets with
  | nil => rfl
  | cons first rest =>
    simp only
    split
    · rfl
    · split
      · rfl
      · cases Offsets.checkRest 1 first.toNat rest with
        | error e => rfl
        | ok last =>
          simp only
          cases K.len c with
          | panic => rfl
          | ok l =>
            simp only [Res.map]
            split <;> rfl

theorem OffsetsIn.tryFromParts_inv {O : Type} {D : Buf Int} {K : Coll O} {LD : LawfulColl D.toColl}
    {L : LawfulColl K} {c : K.C} {offsets : D.C} {f : OffsetsIn K.C D.C} (hc : L.Inv c)
    (ho : LD.Inv offsets) (hb : D.borrow offsets = LD.abs offsets)
    (h : OffsetsIn.tryFromParts D K c offsets = .ok (.ok f)) :
    f = ⟨c, offsets⟩ ∧ OffsetsIn.Inv LD L f := by
  rw [tryFromParts_eq, hb] at h
  by_cases hv : ValidOffsets (LD.abs offsets) (L.abs c).length
  · rw [Offsets.tryFromParts_valid (L := L) (offsets := ⟨LD.abs offsets, 0⟩) hc hv] at h
    simp only [Res.map, Except.map, Res.ok.injEq, Except.ok.injEq] at h
    subst h
    refine ⟨rfl, ?_⟩
    obtain ⟨v1, v2, v3⟩ := hv
    have : LD.abs offsets = Offsets.totals 0 (Offsets.slices (L.abs c) (LD.abs offsets)) ∧
        (Offsets.slices (L.abs c) (LD.abs offsets)).flatten <+: L.abs c := by
      revert v1 v2 v3
      cases LD.abs offsets with
      | nil => intro v1; exact absurd rfl v1
      | cons first rest =>
        intro v1 v2 v3
        have h0 : first = 0 := v2.first first rfl
        subst h0
        obtain ⟨t1, t2⟩ := Offsets.totals_slices (L.abs c) rest 0 (Offsets.good_cons.mp v2) v3
        exact ⟨t1.symm, by simpa using t2⟩
    exact ⟨ho, hc, this.1, this.2⟩
  · obtain ⟨e, he, -⟩ := Offsets.tryFromParts_invalid (L := L) (offsets := ⟨LD.abs offsets, 0⟩) hc hv
    rw [he] at h; simp [Res.map, Except.map] at h

/-! ## Caught panics -/

theorem survives_keepE {α : Type} {R : Realloc α} {Good : R.C → Prop} {held : R.C → List α}
    (h : Honours R Good held) (hv : Survives R Good held) : KeepE (honoursG h).lawful :=
  fun hc he => hv.extend hc he

theorem survives_keepT {α : Type} {R : Realloc α} {Good : R.C → Prop} {held : R.C → List α}
    (h : Honours R Good held) (hv : Survives R Good held) : KeepT (honoursG h).lawful :=
  fun hc he => hv.tryExtend hc he

theorem buf_keepE {α : Type} {B : Backing α} {Good : B.C → Prop} (h : HonoursBuf B Good)
    (hv : Survives B.toRealloc Good B.borrow) : KeepE (honoursB h).toLawfulR :=
  fun hc he => hv.extend hc he

theorem buf_keepT {α : Type} {B : Backing α} {Good : B.C → Prop} (h : HonoursBuf B Good)
    (hv : Survives B.toRealloc Good B.borrow) : KeepT (honoursB h).toLawfulR :=
  fun hc he => hv.tryExtend hc he

theorem scomp_keepE : {O : Type} → (k : SComp O) → (h : Sound k) → Surviving k → NoFlatten k →
    KeepE (scompL k h)
  | _, .leaf _ _ _, h, hv, _ => survives_keepE h hv
  | _, .bitmap _ _, h, hv, _ => bitmapB_keepE (buf_keepE h hv)
  | _, .flatten _ _ _, _, _, hn => hn.elim
  | _, .validity env _ _ k, h, hv, hn =>
    ValidityOf.keepE env (scomp_keepE k h.2 hv.2 hn) (buf_keepE h.1 hv.1)
  | _, .offsets _ _ _ k, h, hv, hn =>
    OffsetsIn.keepE h.2.1 (scomp_keepE k h.2.2 hv.2 hn) (buf_keepE h.1 hv.1)

theorem scomp_keepT : {O : Type} → (k : SComp O) → (h : Sound k) → Surviving k →
    FlattenInLists k → KeepT (scompL k h)
  | _, .leaf _ _ _, h, hv, _ => survives_keepT h hv
  | _, .bitmap _ _, h, hv, _ => bitmapB_keepT (buf_keepT h hv)
  | _, .flatten _ _ _, _, _, hn => hn.elim
  | _, .validity env _ _ k, h, hv, hn => ValidityOf.keepT env (scomp_keepT k h.2 hv.2 hn)
  | _, .offsets _ _ _ _, h, _, _ => OffsetsIn.keepT h.2.1

theorem sclears_all : {O : Type} → (k : SComp O) → NoFlattenInLists k → ∀ x, SClears k x
  | _, .leaf _ _ _, _, _ => trivial
  | _, .bitmap _ _, _, _ => trivial
  | _, .flatten n h k, hn, x => by
    match x with
    | ⟨y :: l, hl⟩ => exact ⟨y, List.mem_cons_self, sclears_all k hn y⟩
    | ⟨[], hl⟩ => simp at hl; omega
  | _, .validity _ _ _ k, hn, none => hn
  | _, .validity _ _ _ k, hn, some x => sclears_all k hn x
  | _, .offsets _ _ _ k, hn, _ => .inl hn

theorem scomp_holdE : {O : Type} → (k : SComp O) → (h : Sound k) → Surviving k →
    HoldE (SClears k) (scompL k h)
  | _, .leaf R G f, h, hv => KeepE.hold _ (scomp_keepE (.leaf R G f) h hv trivial)
  | _, .bitmap B G, h, hv => KeepE.hold _ (scomp_keepE (.bitmap B G) h hv trivial)
  | _, .flatten _ hn k, h, hv => flatten_holdE hn (scomp_holdE k h hv)
  | _, .validity env B G k, h, hv => by
    have h1 : HoldE (InOpt (SClears k)) (scompL (.validity env B G k) h) :=
      ValidityOf.holdE env (scomp_holdE k h.2 hv.2) (buf_keepE h.1 hv.1)
    refine HoldE.mono (W' := SClears (.validity env B G k)) (fun x hx => ?_) h1
    cases x with
    | none => exact sclears_all k hx
    | some x => exact hx
  | _, .offsets ow D G k, h, hv => by
    by_cases hn : NoFlatten k
    · exact KeepE.hold _ (scomp_keepE (.offsets ow D G k) h hv hn)
    · have h1 : HoldE (InRow (SClears k)) (scompL (.offsets ow D G k) h) :=
        OffsetsIn.holdE h.2.1 (scomp_holdE k h.2.2 hv.2) (buf_keepE h.1 hv.1)
      exact HoldE.mono (W' := SClears (.offsets ow D G k)) (fun x hx => Or.resolve_left hx hn) h1

theorem scomp_holdT : {O : Type} → (k : SComp O) → (h : Sound k) → Surviving k →
    HoldT (fun _ => True) (scompL k h)
  | _, .leaf R G f, h, hv => KeepT.hold _ (scomp_keepT (.leaf R G f) h hv trivial)
  | _, .bitmap B G, h, hv => KeepT.hold _ (scomp_keepT (.bitmap B G) h hv trivial)
  | _, .flatten _ hn k, h, hv => flatten_holdT_all hn (scomp_holdT k h hv)
  | _, .validity env _ _ k, h, hv =>
    HoldT.mono (fun x _ => by cases x <;> simp [InOpt]) (ValidityOf.holdT env (scomp_holdT k h.2 hv.2))
  | _, .offsets ow D G k, h, hv => KeepT.hold _ (scomp_keepT (.offsets ow D G k) h hv trivial)

/-! ## Histories -/

theorem sbuilt_inv {O : Type} {k : SComp O} {c : (scompR k).C} {l : List O} (h : SBuilt k c l) :
    ∀ hs : Sound k, (scompL k hs).Inv c ∧ (scompL k hs).abs c = l := by
  induction h with
  | empty => intro hs; exact ⟨(scompL _ hs).empty_ok.1, (scompL _ hs).empty_ok.2.1⟩
  | withCap e => intro hs; have := (scompL _ hs).withCap_ok e; exact ⟨this.1, this.2.1⟩
  | tryWithCap e => intro hs; have := (scompL _ hs).tryWithCap_ok e; exact ⟨this.1, this.2.1⟩
  | fromIter hf e => intro hs; have := (scompL _ hs).fromIter_ok hf e; exact ⟨this.1, this.2.1⟩
  | fromIterIn hf e => intro hs; have := (scompL _ hs).fromIterIn_ok hf e; exact ⟨this.1, this.2.1⟩
  | tryFromIter hf e => intro hs; have := (scompL _ hs).tryFromIter_ok hf e; exact ⟨this.1, this.2.1⟩
  | extend _ e ih =>
    intro hs
    obtain ⟨h1, h2, -⟩ := (scompL _ hs).ext_ok (ih hs).1 e
    exact ⟨h1, by rw [h2, (ih hs).2]⟩
  | tryExtend _ e ih =>
    intro hs
    obtain ⟨h1, h2, -⟩ := (scompL _ hs).tryExt_ok (ih hs).1 e
    exact ⟨h1, by rw [h2, (ih hs).2]⟩
  | tryExtendErr _ e ih =>
    intro hs
    obtain ⟨h1, h2⟩ := (scompL _ hs).tryExt_err (ih hs).1 e
    exact ⟨h1, by rw [h2, (ih hs).2]⟩
  | reserve _ e ih =>
    intro hs
    obtain ⟨h1, h2, -⟩ := (scompL _ hs).reserve_ok (ih hs).1 e
    exact ⟨h1, by rw [h2, (ih hs).2]⟩
  | tryReserve _ e ih =>
    intro hs
    obtain ⟨h1, h2, -⟩ := (scompL _ hs).tryReserve_ok (ih hs).1 e
    exact ⟨h1, by rw [h2, (ih hs).2]⟩
  | truncate _ e ih =>
    intro hs
    obtain ⟨c1, h1, h2, h3, -⟩ := (scompL _ hs).trunc_ok _ (ih hs).1
    rw [h1] at e
    simp only [Prod.mk.injEq] at e
    obtain ⟨rfl, -⟩ := e
    exact ⟨h2, by rw [h3, (ih hs).2]⟩
  | @extendPanic O k c c' l n s hn hv _ e hsee ih =>
    intro hs
    obtain ⟨h1, j, h2⟩ := scomp_keepE k hs hv hn (ih hs).1 e
    exact ⟨h1, sees_unique (Vis.of_inv (scompL k hs).toLawfulColl h1).sees hsee⟩
  | @tryExtendPanic O k w w' c c' l n s hn hv _ e hsee ih =>
    intro hs
    obtain ⟨h1, j, h2⟩ := scomp_keepT k hs hv hn (ih hs).1 e
    exact ⟨h1, sees_unique (Vis.of_inv (scompL k hs).toLawfulColl h1).sees hsee⟩
  | @extendMend O k c c' c'' l n m o s hv _ e hsee hm ht ih =>
    intro hs
    obtain ⟨j, hj⟩ := scomp_holdE k hs hv (ih hs).1 e
    rw [sees_unique hj.vis.sees hsee] at hj
    exact (half_mend hj hm ht).2
  | @tryExtendMend O k w w' c c' c'' l n m o s hv _ e hsee hm ht ih =>
    intro hs
    obtain ⟨j, hj⟩ := scomp_holdT k hs hv (ih hs).1 e
    rw [sees_unique hj.vis.sees hsee] at hj
    exact (half_mend hj (exists_drop hm) ht).2
  | leaf hg => intro hs; exact ⟨hg, rfl⟩
  | @bitmapParts B Good buffer bits offset b hg e =>
    intro hs
    obtain ⟨rfl, h1⟩ := BitmapOf.tryFromParts_inv (L := (honoursB hs).buf) hg e
    refine ⟨h1, List.map_congr_left fun i _ => ?_⟩
    show bitAt (B.borrow buffer) (offset + i) = bit _ _
    unfold bitAt bit
    rw [List.getD_eq_getElem?_getD]
    split <;> simp_all
  | @flattenParts O k n h c l f g _ e hg ih =>
    intro hs
    have ih := ih hs
    have h1 := Flatten.tryFromParts_inv (L := (scompL k hs).toLawfulColl) ih.1 e
    rw [Flatten.tryFromParts_eq (L := (scompL k hs).toLawfulColl) n ih.1] at e
    split at e
    · simp at e
    · split at e
      · simp only [Res.ok.injEq, Except.ok.injEq] at e
        subst e
        refine ⟨h1, ?_⟩
        show Flatten.group n ((scompL k hs).abs c) = g
        rw [ih.2]
        exact groups_group h hg
      · simp at e
  | @flattenChild O k n h f g _ ih =>
    intro hs
    have ih := ih hs
    refine ⟨ih.1.1, ?_⟩
    have h1 := flat_abs (L := (scompL k hs).toLawfulColl) h ih.1
    have h2 : flatAbs (scompL k hs).toLawfulColl n f = g := ih.2
    rw [h2] at h1
    exact h1.symm
  | @validityParts O k env B Good c l b bs v _ _ e ih1 ih2 =>
    intro hs
    have ih1 := ih1 hs.2
    have ih2 := ih2 hs.1
    unfold ValidityOf.tryFromParts at e
    rw [(scompL k hs.2).len_ok ih1.1] at e
    have hl := (bitmapBL (honoursB hs.1)).len_ok ih2.1
    rw [hl] at e
    simp only [Res.bind, Res.map] at e
    split at e
    · next hlen =>
      simp only [Res.ok.injEq, Except.ok.injEq] at e
      subst e
      refine ⟨ValidityOf.inv_mk (LM := bitmapBL (honoursB hs.1)) ih1.1 ih2.1 (Nat.le_of_eq hlen.symm), ?_⟩
      show Validity.mask ((scompL k hs.2).abs c) ((bitmapBL (honoursB hs.1)).abs b) = _
      rw [ih1.2, show (bitmapBL (honoursB hs.1)).abs b = bs from ih2.2]
      rfl
    · simp at e
  | @fromCollection O k env B Good c l _ ih =>
    intro hs
    have ih := ih hs.2
    refine ⟨⟨ih.1, fun b hb => by cases hb⟩, ?_⟩
    show ((scompL k hs.2).abs c).map some = _
    rw [ih.2]
  | @offsetsParts O k ow D Good c l f offsets _ hw e ih =>
    intro hs
    have ih := ih hs.2.2
    obtain ⟨h1, h2⟩ := OffsetsIn.tryFromParts_inv (LD := (honoursB hs.1).toLawfulColl)
      (L := (scompL k hs.2.2).toLawfulColl) ih.1 hw rfl e
    refine ⟨h2, ?_⟩
    subst h1
    show Offsets.slices ((scompL k hs.2.2).abs c) (D.borrow offsets) = _
    rw [ih.2, slices_rowsOf]

end Narrow
