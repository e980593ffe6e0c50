import Verif.Spec.Compose
import Verif.Proof.Reach
import Verif.Proof.Live

/-! # Compositions of collections are lawful -/

namespace Narrow

open Spec

/-- The laws of a composition. -/
@[reducible] def compL : {O : Type} → (k : Comp O) → LawfulR (compR k)
  | _, .vec lim h d => vecL lim h d
  | _, .bitmap => bitmapL
  | _, .flatten n h k => flattenL (compL k) n h
  | _, .validity k => validityL (compL k)
  | _, .offsets ow k => offsetsL ow (compL k)

theorem groups_group {O : Type} {n : Nat} (hn : 0 < n) {l : List O} {g : List (FixArr O n)}
    (h : Groups l g) : Flatten.group n l = g := by
  have hg : Flatten.flat g = l := by
    apply List.ext_getElem (by rw [Flatten.flat_length]; exact h.count)
    intro i h1 h2
    rw [Flatten.flat_length] at h1
    have hi : i / n < g.length := (Nat.div_lt_iff_lt_mul hn).mpr h1
    have hj : i % n < n := Nat.mod_lt _ hn
    have he : i / n * n + i % n = i := by rw [Nat.mul_comm]; exact Nat.div_add_mod i n
    have h3 := Flatten.flat_getElem g (i / n) (i % n) hi hj (by rw [Flatten.flat_length, he]; exact h1)
    simp only [he] at h3
    rw [h3]
    simp only [h.get _ hi, List.getElem_take, List.getElem_drop, he]
  rw [← hg, Flatten.group_flat hn]

theorem slices_rowsOf {O : Type} (data : List O) : ∀ l : List Int,
    Offsets.slices data l = rowsOf data l
  | [] => rfl
  | [_] => rfl
  | a :: b :: l => by
    have := slices_rowsOf data (b :: l)
    simp only [Offsets.slices, this]
    rfl

theorem clone_inv : {O : Type} → (k : Comp O) → CanClone k → {c : (compR k).C} → (compL k).Inv c →
    (compL k).Inv (cloneC k c) ∧ (compL k).abs (cloneC k c) = (compL k).abs c ∧
      ((compL k).Canon c → (compL k).Canon (cloneC k c))
  | _, .vec lim _ _, _, c, h => by
    have h : RVec.WF lim c := h
    exact ⟨(⟨Nat.le_refl _, Nat.le_trans h.le_cap h.cap_lim⟩ : RVec.WF lim (RVec.clone c)), rfl, id⟩
  | _, .bitmap, _, c, h => by
    have h : Bitmap.Inv c := h
    exact ⟨(⟨⟨Nat.le_refl _, Nat.le_trans h.wf.le_cap h.wf.cap_lim⟩, h.le⟩ :
      Bitmap.Inv (Bitmap.clone c)), rfl, id⟩
  | _, .flatten n hn k, hk, c, h => by
    obtain ⟨h1, h2, h3⟩ := clone_inv k hk h.1
    have e : (compL k).abs (cloneC k c.child) = (compL k).abs c.child := h2
    refine ⟨⟨h1, ?_⟩, ?_, h3⟩
    · show ((compL k).abs (cloneC k c.child)).length % n = 0
      rw [e]; exact h.2
    · show Flatten.group n ((compL k).abs (cloneC k c.child)) = Flatten.group n _
      rw [e]

theorem built_inv {O : Type} {k : Comp O} {c : (compR k).C} {l : List O} (h : Built k c l) :
    (compL k).Inv c ∧ (compL k).abs c = l := by
  induction h with
  | empty => exact ⟨(compL _).empty_ok.1, (compL _).empty_ok.2.1⟩
  | withCap e => have := (compL _).withCap_ok e; exact ⟨this.1, this.2.1⟩
  | tryWithCap e => have := (compL _).tryWithCap_ok e; exact ⟨this.1, this.2.1⟩
  | fromIter hf e => have := (compL _).fromIter_ok hf e; exact ⟨this.1, this.2.1⟩
  | fromIterIn hf e => have := (compL _).fromIterIn_ok hf e; exact ⟨this.1, this.2.1⟩
  | tryFromIter hf e => have := (compL _).tryFromIter_ok hf e; exact ⟨this.1, this.2.1⟩
  | extend _ e ih =>
    obtain ⟨h1, h2, -⟩ := (compL _).ext_ok ih.1 e
    exact ⟨h1, by rw [h2, ih.2]⟩
  | tryExtend _ e ih =>
    obtain ⟨h1, h2, -⟩ := (compL _).tryExt_ok ih.1 e
    exact ⟨h1, by rw [h2, ih.2]⟩
  | tryExtendErr _ e ih =>
    obtain ⟨h1, h2⟩ := (compL _).tryExt_err ih.1 e
    exact ⟨h1, by rw [h2, ih.2]⟩
  | reserve _ e ih =>
    obtain ⟨h1, h2, -⟩ := (compL _).reserve_ok ih.1 e
    exact ⟨h1, by rw [h2, ih.2]⟩
  | tryReserve _ e ih =>
    obtain ⟨h1, h2, -⟩ := (compL _).tryReserve_ok ih.1 e
    exact ⟨h1, by rw [h2, ih.2]⟩
  | truncate _ e ih =>
    obtain ⟨c1, h1, h2, h3, -⟩ := (compL _).trunc_ok _ ih.1
    rw [h1] at e
    simp only [Prod.mk.injEq] at e
    obtain ⟨rfl, -⟩ := e
    exact ⟨h2, by rw [h3, ih.2]⟩
  | clone hk _ ih =>
    obtain ⟨h1, h2, -⟩ := clone_inv _ hk ih.1
    exact ⟨h1, h2.trans ih.2⟩
  | vec hw => exact ⟨hw, rfl⟩
  | bitmapParts hw e =>
    obtain ⟨h1, rfl⟩ := Bitmap.tryFromParts_inv hw e
    refine ⟨h1, List.map_congr_left fun i _ => ?_⟩
    show bitAt _ _ = bit _ _
    unfold bitAt bit
    rw [List.getD_eq_getElem?_getD]
    split <;> simp_all
  | @flattenParts O k n h c l f g _ e hg ih =>
    have h1 := Flatten.tryFromParts_inv (L := (compL k).toLawfulColl) ih.1 e
    rw [Flatten.tryFromParts_eq (L := (compL k).toLawfulColl) n ih.1] at e
    split at e
    · simp at e
    · split at e
      · simp only [Res.ok.injEq, Except.ok.injEq] at e
        subst e
        refine ⟨h1, ?_⟩
        show Flatten.group n ((compL k).abs c) = g
        rw [ih.2]
        exact groups_group h hg
      · simp at e
  | @flattenChild O k n h f g _ ih =>
    refine ⟨ih.1.1, ?_⟩
    have h1 := flat_abs (L := (compL k).toLawfulColl) h ih.1
    have h2 : flatAbs (compL k).toLawfulColl n f = g := ih.2
    rw [h2] at h1
    exact h1.symm
  | @validityParts O k c l b bs v _ _ e ih1 ih2 =>
    have h1 := Validity.tryFromParts_inv (L := (compL k).toLawfulColl) ih1.1 ih2.1 e
    rw [Validity.tryFromParts_eq (L := (compL k).toLawfulColl) b ih1.1] at e
    split at e
    · simp only [Res.ok.injEq, Except.ok.injEq] at e
      subst e
      refine ⟨h1, ?_⟩
      show Validity.mask ((compL k).abs c) b.abs = _
      rw [ih1.2, show b.abs = bs from ih2.2]
      rfl
    · simp at e
  | @fromCollection O k c l _ ih =>
    refine ⟨Validity.fromCollection_inv (L := (compL k).toLawfulColl) ih.1, ?_⟩
    show ((compL k).abs c).map some = _
    rw [ih.2]
  | @offsetsParts O k ow c l f offsets _ hw e ih =>
    obtain ⟨h1, h2, h3⟩ := Offsets.tryFromParts_inv (L := (compL k).toLawfulColl) ih.1 hw e
    refine ⟨h3, ?_⟩
    subst h1
    show Offsets.slices ((compL k).abs c) offsets.items = _
    rw [ih.2, slices_rowsOf]

theorem comp_live : {O : Type} → (k : Comp O) → LiveR (compL k)
  | _, .vec lim h d => vec_live lim h d
  | _, .bitmap => bitmap_live
  | _, .flatten n h k => flatten_live (comp_live k) n h
  | _, .validity k => validity_live (comp_live k)
  | _, .offsets ow k => offsets_live ow (comp_live k)

theorem comp_keepE : {O : Type} → (k : Comp O) → Unflat k → KeepE (compL k)
  | _, .vec _ _ _, _ => vec_keepE _ _
  | _, .bitmap, _ => bitmap_keepE
  | _, .flatten _ _ _, hn => hn.elim
  | _, .validity k, hn => Validity.keepE (comp_keepE k hn)
  | _, .offsets _ k, hn => Offsets.keepE (comp_keepE k hn)

theorem cclears_all : {O : Type} → (k : Comp O) → UnflatLists k → ∀ x, CClears k x
  | _, .vec _ _ _, _, _ => trivial
  | _, .bitmap, _, _ => trivial
  | _, .flatten n h k, hn, x => by
    match x with
    | ⟨y :: l, hl⟩ => exact ⟨y, List.mem_cons_self, cclears_all k hn y⟩
    | ⟨[], hl⟩ => simp at hl; omega
  | _, .validity k, hn, none => hn
  | _, .validity k, hn, some x => cclears_all k hn x
  | _, .offsets _ k, hn, _ => .inl hn

theorem comp_holdE : {O : Type} → (k : Comp O) → HoldE (CClears k) (compL k)
  | _, .vec _ _ _ => KeepE.hold _ (vec_keepE _ _)
  | _, .bitmap => KeepE.hold _ bitmap_keepE
  | _, .flatten _ h k => flatten_holdE h (comp_holdE k)
  | _, .validity k => by
    have h1 : HoldE (InOpt (CClears k)) (validityL (compL k)) := Validity.holdE (comp_holdE k)
    refine HoldE.mono (W' := CClears (.validity k)) (fun x hx => ?_) h1
    cases x with
    | none => exact cclears_all k hx
    | some x => exact hx
  | _, .offsets ow k => by
    by_cases hn : Unflat k
    · exact KeepE.hold _ (comp_keepE (.offsets ow k) hn)
    · have h1 : HoldE (InRow (CClears k)) (offsetsL ow (compL k)) := Offsets.holdE (comp_holdE k)
      exact HoldE.mono (W' := CClears (.offsets ow k)) (fun x hx => Or.resolve_left hx hn) h1

theorem comp_holdT : {O : Type} → (k : Comp O) → HoldT (fun _ => True) (compL k)
  | _, .vec _ _ _ => KeepT.hold _ (ExactT.keep (vec_exactT _ _))
  | _, .bitmap => KeepT.hold _ bitmap_keepT
  | _, .flatten _ h k => flatten_holdT_all h (comp_holdT k)
  | _, .validity k => holdT_null true (comp_holdT k)
  | _, .offsets _ _ => KeepT.hold _ (ExactT.keep Offsets.exactT)

theorem cfits_iff : {O : Type} → (k : Comp O) → (e : Nat) → (l : List O) →
    (CFits k e l ↔ (compL k).Room e l)
  | _, .vec _ _ _, e, l => Iff.rfl
  | _, .bitmap, e, l => Iff.rfl
  | _, .flatten n _ k, e, l => cfits_iff k (e * n) (Flatten.flat l)
  | _, .validity k, e, l =>
    and_congr Iff.rfl (cfits_iff k e (l.map fun o => o.getD (compR k).dflt))
  | _, .offsets _ k, e, l =>
    and_congr Iff.rfl (and_congr Iff.rfl (cfits_iff k (l.length + e) l.flatten))

theorem within_canon {O : Type} {k : Comp O} {c : (compR k).C} {l : List O} (h : Within k c l) :
    (compL k).Canon c := by
  induction h with
  | empty => exact (compL _).empty_ok.2.2
  | withCap e => exact ((compL _).withCap_ok e).2.2
  | fromIter hf hr e => exact ((compL _).fromIter_ok hf e).2.2.2 ((cfits_iff _ _ _).mp hr)
  | fromIterIn hf hr e => exact ((compL _).fromIterIn_ok hf e).2.2.2 ((cfits_iff _ _ _).mp hr)
  | tryWithCap e => exact ((compL _).tryWithCap_ok e).2.2
  | tryFromIter hf hr e => exact ((compL _).tryFromIter_ok hf e).2.2.2 ((cfits_iff _ _ _).mp hr)
  | extend h hr e ih =>
    obtain ⟨i1, i2⟩ := built_inv h.built
    rw [cfits_iff, ← i2] at hr
    exact (compL _).ext_canon i1 ih hr e
  | tryExtend h hr e ih =>
    obtain ⟨i1, i2⟩ := built_inv h.built
    rw [cfits_iff, ← i2] at hr
    exact (compL _).tryExt_canon i1 ih hr e (by simp)
  | tryExtendErr h hr e ih =>
    obtain ⟨i1, i2⟩ := built_inv h.built
    rw [cfits_iff, ← i2] at hr
    exact (compL _).tryExt_canon i1 ih hr e (by simp)
  | reserve h e ih => exact ((compL _).reserve_ok (built_inv h.built).1 e).2.2.2 ih
  | tryReserve h e ih => exact ((compL _).tryReserve_ok (built_inv h.built).1 e).2.2.2 ih
  | truncate h e ih =>
    obtain ⟨c1, h1, -, -, h4⟩ := (compL _).trunc_ok _ (built_inv h.built).1
    rw [h1] at e
    simp only [Prod.mk.injEq] at e
    obtain ⟨rfl, -⟩ := e
    exact h4 ih
  | clone hk h ih => exact (clone_inv _ hk (built_inv h.built).1).2.2 ih

end Narrow
