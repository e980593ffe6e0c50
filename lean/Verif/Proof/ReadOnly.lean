import Verif.Spec.ReadOnly
import Verif.Proof.BackendComp

/-! # Compositions that are only read are lawful -/

namespace Narrow

open Spec

@[reducible] def honoursReads {α : Type} {K : Coll α} {Good : K.C → Prop} {held : K.C → List α}
    (H : HonoursReads K Good held) : LawfulColl K :=
  lawfulOfReads K Good held H.reads H.size

@[reducible] def honoursSlice {α : Type} {B : Buf α} {Good : B.C → Prop} (H : HonoursSlice B Good) :
    LawfulBuf B :=
  { honoursReads H.toHonoursReads with
    borrow_ok := fun _ => rfl
    small := H.memory }

/-- The laws of a composition. -/
@[reducible] def rcompL : {O : Type} → (k : RComp O) → RSound k → LawfulColl (rcompC k)
  | _, .leaf _ _ _, h => honoursReads h
  | _, .bitmap _ _, h => bitmapIL (honoursSlice h)
  | _, .flatten n hn k, h => flattenCL (rcompL k h) n hn
  | _, .validity _ _ k, h => validityBL (bitmapIL (honoursSlice h.1)) (rcompL k h.2)
  | _, .offsets _ _ k, h => offsetsBL (honoursSlice h.1).toLawfulColl (rcompL k h.2)
  | _, .row k, h => rowViewCL (rcompL k h)

theorem rbuilt_inv {O : Type} {k : RComp O} {c : (rcompC k).C} {l : List O} (h : RBuilt k c l) :
    ∀ hs : RSound k, (rcompL k hs).Inv c ∧ (rcompL k hs).abs c = l := by
  induction h with
  | leaf hg => intro hs; exact ⟨hg, rfl⟩
  | @bitmapParts B Good buffer bits offset b hg e =>
    intro hs
    obtain ⟨rfl, h1⟩ := BitmapOf.tryFromParts_inv (L := honoursSlice hs) hg e
    refine ⟨h1, List.map_congr_left fun i _ => ?_⟩
    show bitAt (B.borrow buffer) (offset + i) = bit _ _
    unfold bitAt bit
    rw [List.getD_eq_getElem?_getD]
    split <;> simp_all
  | @flattenParts O k n h c l f g _ e hg ih =>
    intro hs
    have ih := ih hs
    have h1 := Flatten.tryFromParts_inv (L := rcompL k hs) ih.1 e
    rw [Flatten.tryFromParts_eq (L := rcompL k hs) n ih.1] at e
    split at e
    · simp at e
    · split at e
      · simp only [Res.ok.injEq, Except.ok.injEq] at e
        subst e
        refine ⟨h1, ?_⟩
        show Flatten.group n ((rcompL k hs).abs c) = g
        rw [ih.2]
        exact groups_group h hg
      · simp at e
  | @flattenChild O k n h f g _ ih =>
    intro hs
    have ih := ih hs
    refine ⟨ih.1.1, ?_⟩
    have h1 := flat_abs (L := rcompL k hs) h ih.1
    have h2 : flatAbs (rcompL k hs) n f = g := ih.2
    rw [h2] at h1
    exact h1.symm
  | @validityParts O k B Good c l b bs v _ _ e ih1 ih2 =>
    intro hs
    have ih1 := ih1 hs.2
    have ih2 := ih2 hs.1
    unfold ValidityOf.tryFromParts at e
    rw [(rcompL k hs.2).len_ok ih1.1] at e
    have hl := (bitmapIL (honoursSlice hs.1)).len_ok ih2.1
    rw [hl] at e
    simp only [Res.bind, Res.map] at e
    split at e
    · next hlen =>
      simp only [Res.ok.injEq, Except.ok.injEq] at e
      subst e
      refine ⟨ValidityOf.inv_mk (LM := bitmapIL (honoursSlice hs.1)) ih1.1 ih2.1
        (Nat.le_of_eq hlen.symm), ?_⟩
      show Validity.mask ((rcompL k hs.2).abs c) ((bitmapIL (honoursSlice hs.1)).abs b) = _
      rw [ih1.2, show (bitmapIL (honoursSlice hs.1)).abs b = bs from ih2.2]
      rfl
    · simp at e
  | @fromCollection O k B Good c l _ ih =>
    intro hs
    have ih := ih hs.2
    refine ⟨⟨ih.1, fun b hb => by cases hb⟩, ?_⟩
    show ((rcompL k hs.2).abs c).map some = _
    rw [ih.2]
  | @offsetsParts O k D Good c l f offsets _ hw e ih =>
    intro hs
    have ih := ih hs.2
    obtain ⟨h1, h2⟩ := OffsetsIn.tryFromParts_inv (LD := (honoursSlice hs.1).toLawfulColl)
      (L := rcompL k hs.2) ih.1 hw rfl e
    refine ⟨h2, ?_⟩
    subst h1
    show Offsets.slices ((rcompL k hs.2).abs c) (D.borrow offsets) = _
    rw [ih.2, slices_rowsOf]
  | @row O k D Good c rows i v hi hd hb e ih =>
    intro hs
    obtain ⟨h1, h2⟩ := ih ⟨hd, hs⟩
    change OffsetsIn.abs (D := D) (honoursSlice hd).toLawfulColl (rcompL k hs) c = rows at h2
    subst h2
    obtain ⟨v', e1, e2⟩ := OffsetsIn.view_rep h1 hi
    have e3 := e.symm.trans e1
    simp only [Res.ok.injEq, Option.some.injEq] at e3
    subst e3
    exact ⟨⟨_, e2⟩, rowView_abs e2⟩

end Narrow
