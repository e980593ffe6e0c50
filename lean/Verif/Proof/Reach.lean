import Verif.Proof.Visible

/-! # Reachable arrays are valid -/

namespace Narrow

open Spec

theorem clears_base : (t : Ty) → t.WF → Mends t → ∀ x, Clears.base t x
  | .bool, _, _, _ => trivial
  | .prim _, _, _, _ => trivial
  | .fsl n nl t, h, hm, x => by
    have h1 := clears_base t h.2 hm
    match x, h.1 with
    | ⟨y :: l, hl⟩, _ =>
      refine ⟨y, List.mem_cons_self, ?_⟩
      cases nl with
      | false => exact h1 y
      | true => cases y with
        | none => exact hm
        | some y => exact h1 y
    | ⟨[], hl⟩, h0 => simp at hl; omega
  | .vsl _ _ _, _, hm, _ => .inl hm

/-- Dropping any item repairs an array whose type has no fixed-size lists within
variable-size lists. -/
theorem clears_of_mends {nl : Bool} {t : Ty} (h : t.WF) (hm : Mends t) (x : ItemVal nl (Val t)) :
    Clears nl t x := by
  cases nl with
  | false => exact clears_base t h hm x
  | true => cases x with
    | none => exact hm
    | some x => exact clears_base t h hm x

theorem holdE_item {t : Ty} (ht : t.WF) {R : Realloc (Val t)} {L : LawfulR R} (nl : Bool)
    (h : HoldE (Clears.base t) L) :
    HoldE (Clears.item nl (Clears.base t) (Mends t)) (nullL nl L) := by
  cases nl
  · exact h
  · refine HoldE.mono (fun x hx => ?_) (Validity.holdE h)
    cases x with
    | none => exact clears_base t ht hx
    | some x => exact hx

theorem holdE_base : (t : Ty) → (h : t.WF) → HoldE (Clears.base t) (baseL t h)
  | .bool, _ => KeepE.hold _ bitmap_keepE
  | .prim _, _ => KeepE.hold _ (vec_keepE _ _)
  | .fsl _ nl t, h => flatten_holdE h.1 (holdE_item h.2 nl (holdE_base t h.2))
  | .vsl ow nl t, h => by
    by_cases hn : NoFixed t
    · exact KeepE.hold _ (Offsets.keepE (keepE_null nl (keepE_base t h hn)))
    · have h1 : HoldE (InRow (Clears.item nl (Clears.base t) (Mends t)))
          (offsetsL ow (nullL nl (baseL t h))) := Offsets.holdE (holdE_item (t := t) h nl (holdE_base t h))
      exact HoldE.mono (W' := Clears.base (.vsl ow nl t)) (fun x hx => Or.resolve_left hx hn) h1

theorem holdT_null {O : Type} {R : Realloc O} {L : LawfulR R} (nl : Bool)
    (h : HoldT (fun _ => True) L) : HoldT (fun _ => True) (nullL nl L) := by
  cases nl
  · exact h
  · exact HoldT.mono (fun x _ => by cases x <;> simp [InOpt]) (Validity.holdT h)

theorem flatten_holdT_all {O : Type} {R : Realloc O} {L : LawfulR R} {n : Nat} (hn : 0 < n)
    (h : HoldT (fun _ => True) L) : HoldT (fun _ => True) (flattenL L n hn) := by
  refine HoldT.mono (fun x _ => ?_) (flatten_holdT hn h)
  match x with
  | ⟨y :: l, hl⟩ => exact ⟨y, List.mem_cons_self, trivial⟩
  | ⟨[], hl⟩ => simp at hl; omega

theorem holdT_base : (t : Ty) → (h : t.WF) → HoldT (fun _ => True) (baseL t h)
  | .bool, _ => KeepT.hold _ bitmap_keepT
  | .prim _, _ => KeepT.hold _ (ExactT.keep (vec_exactT _ _))
  | .fsl _ nl t, h => flatten_holdT_all h.1 (holdT_null nl (holdT_base t h.2))
  | .vsl _ _ _, _ => KeepT.hold _ (ExactT.keep Offsets.exactT)

theorem holdE_array {nl : Bool} {t : Ty} (h : t.WF) : HoldE (Clears nl t) (arrayL nl t h) :=
  holdE_item h nl (holdE_base t h)

theorem holdT_array {nl : Bool} {t : Ty} (h : t.WF) : HoldT (fun _ => True) (arrayL nl t h) :=
  holdT_null nl (holdT_base t h)

theorem sees_unique {O : Type} {K : Coll O} {c : K.C} {l m : List O} (h1 : Sees K c l)
    (h2 : Sees K c m) : l = m := by
  have hl : l.length = m.length := by have := h1.len.symm.trans h2.len; simpa using this
  refine List.ext_getElem hl fun i hi hj => ?_
  have := (h1.owned i hi).symm.trans (h2.owned i hj)
  simpa using this

theorem exists_drop {O : Type} {l : List O} {n : Nat} (h : n < l.length) : ∃ x ∈ l.drop n, True :=
  ⟨l[n], by rw [List.drop_eq_getElem_cons h]; exact List.mem_cons_self, trivial⟩

/-- Truncation that drops a suitable item makes the array valid. -/
theorem half_mend {O : Type} {W : O → Prop} {R : Realloc O} {L : LawfulR R} {c c' : R.C} {l : List O}
    {n : Nat} {o : Out} (h : Half W L c l) (hn : ∃ x ∈ l.drop n, W x)
    (ht : R.truncate c n = (c', o)) : o = .ok ∧ L.Inv c' ∧ L.abs c' = l.take n := by
  obtain ⟨c1, t1, t2, t3⟩ := h.trunc n hn
  rw [t1] at ht
  simp only [Prod.mk.injEq] at ht
  obtain ⟨rfl, rfl⟩ := ht
  exact ⟨rfl, t2, t3⟩

/-- Grown arrays are valid and have canonical storage. -/
theorem grown_canon {nl : Bool} {t : Ty} {c : (arrayR nl t).C} (hg : Grown nl t c) :
    ∀ h : t.WF, (arrayL nl t h).Inv c ∧ (arrayL nl t h).Canon c := by
  induction hg with
  | empty => intro h; exact ⟨(arrayL _ _ h).empty_ok.1, (arrayL _ _ h).empty_ok.2.2⟩
  | withCap e => intro h; have := (arrayL _ _ h).withCap_ok e; exact ⟨this.1, this.2.2⟩
  | fromIter hf hr e =>
    intro h
    have := (arrayL _ _ h).fromIter_ok hf e
    exact ⟨this.1, this.2.2.2 ((fits_iff h _ _).mp hr)⟩
  | fromIterIn hf hr e =>
    intro h
    have := (arrayL _ _ h).fromIterIn_ok hf e
    exact ⟨this.1, this.2.2.2 ((fits_iff h _ _).mp hr)⟩
  | tryWithCap e => intro h; have := (arrayL _ _ h).tryWithCap_ok e; exact ⟨this.1, this.2.2⟩
  | tryFromIter hf hr e =>
    intro h
    have := (arrayL _ _ h).tryFromIter_ok hf e
    exact ⟨this.1, this.2.2.2 ((fits_iff h _ _).mp hr)⟩
  | extend _ hl hr e ih =>
    intro h
    obtain ⟨i1, i2⟩ := ih h
    rw [fits_iff h, ← Reads.abs_eq hl i1] at hr
    exact ⟨((arrayL _ _ h).ext_ok i1 e).1, (arrayL _ _ h).ext_canon i1 i2 hr e⟩
  | @tryExtend w w' c c' l o s _ hl hr e ho ih =>
    intro h
    obtain ⟨i1, i2⟩ := ih h
    rw [fits_iff h, ← Reads.abs_eq hl i1] at hr
    refine ⟨?_, (arrayL _ _ h).tryExt_canon i1 i2 hr e ho⟩
    cases o with
    | ok => exact ((arrayL _ _ h).tryExt_ok i1 e).1
    | err => exact ((arrayL _ _ h).tryExt_err i1 e).1
    | panic => exact absurd rfl ho
  | extendPanic hs hp _ hl hf e ih =>
    intro h
    obtain ⟨i1, i2⟩ := ih h
    rw [fits_iff h, ← Reads.abs_eq hl i1] at hf
    obtain ⟨j1, -, -, j2⟩ :=
      countF_array h hs i1 i2 hf (Nat.one_dvd _) (Nat.one_dvd _) (.inl e)
    exact ⟨j1, j2 hp⟩
  | tryExtendPanic hs hp _ hl hf e ih =>
    intro h
    obtain ⟨i1, i2⟩ := ih h
    rw [fits_iff h, ← Reads.abs_eq hl i1] at hf
    obtain ⟨j1, -, -, j2⟩ :=
      countF_array h hs i1 i2 hf (Nat.one_dvd _) (Nat.one_dvd _) (.inr ⟨_, _, e⟩)
    exact ⟨j1, j2 hp⟩
  | reserve _ e ih =>
    intro h
    obtain ⟨i1, i2⟩ := ih h
    have := (arrayL _ _ h).reserve_ok i1 e
    exact ⟨this.1, this.2.2.2 i2⟩
  | tryReserve _ e ih =>
    intro h
    obtain ⟨i1, i2⟩ := ih h
    have := (arrayL _ _ h).tryReserve_ok i1 e
    exact ⟨this.1, this.2.2.2 i2⟩
  | @truncate c c' n o _ e ih =>
    intro h
    obtain ⟨i1, i2⟩ := ih h
    obtain ⟨c1, h1, h2, h3, h4⟩ := (arrayL _ _ h).trunc_ok n i1
    rw [h1] at e
    simp only [Prod.mk.injEq] at e
    exact e.1 ▸ ⟨h2, h4 i2⟩

/-- Every reachable array is valid. -/
theorem reach_inv {nl : Bool} {t : Ty} {c : (arrayR nl t).C} (hr : Reach nl t c) :
    ∀ h : t.WF, (arrayL nl t h).Inv c := by
  induction hr with
  | empty => intro h; exact (arrayL _ _ h).empty_ok.1
  | withCap e => intro h; exact ((arrayL _ _ h).withCap_ok e).1
  | fromIter e => intro h; exact ((arrayL _ _ h).fromIter_any e).1
  | fromIterIn e => intro h; exact ((arrayL _ _ h).fromIterIn_any e).1
  | tryWithCap e => intro h; exact ((arrayL _ _ h).tryWithCap_ok e).1
  | tryFromIter e => intro h; exact (arrayL _ _ h).tryFromIter_any e
  | extend _ e ih => intro h; exact ((arrayL _ _ h).ext_ok (ih h) e).1
  | extendPanic hs _ e ih => intro h; exact (keepE_array h hs (ih h) e).1
  | extendSourcePanic hs hg hl hf e =>
    intro h
    obtain ⟨i1, i2⟩ := grown_canon hg h
    rw [fits_iff h, ← Reads.abs_eq hl i1] at hf
    exact (countF_array h hs i1 i2 hf (Nat.one_dvd _) (Nat.one_dvd _) (.inl e)).1
  | @tryExtend nl t w w' c c' s o _ e ho ih =>
    intro h
    cases o with
    | ok => exact ((arrayL _ _ h).tryExt_ok (ih h) e).1
    | err => exact ((arrayL _ _ h).tryExt_err (ih h) e).1
    | panic => exact absurd rfl ho
  | tryExtendPanic hs _ e ih => intro h; exact (keepT_array h hs (ih h) e).1
  | tryExtendSourcePanic hs hg hl hf e =>
    intro h
    obtain ⟨i1, i2⟩ := grown_canon hg h
    rw [fits_iff h, ← Reads.abs_eq hl i1] at hf
    exact (countF_array h hs i1 i2 hf (Nat.one_dvd _) (Nat.one_dvd _) (.inr ⟨_, _, e⟩)).1
  | extendMend _ e hs hn ht ih =>
    intro h
    obtain ⟨k, hk⟩ := holdE_array h (ih h) e
    rw [sees_unique hk.vis.sees hs] at hk
    exact (half_mend hk hn ht).2.1
  | tryExtendMend _ e hm hn ht ih =>
    intro h
    obtain ⟨k, hk⟩ := holdT_array h (ih h) e
    have h1 := hk.vis.len.symm.trans hm
    injection h1 with h1
    exact (half_mend hk (exists_drop (by omega)) ht).2.1
  | reserve _ e ih => intro h; exact ((arrayL _ _ h).reserve_ok (ih h) e).1
  | tryReserve _ e ih => intro h; exact ((arrayL _ _ h).tryReserve_ok (ih h) e).1
  | @truncate nl t c c' n o _ e ih =>
    intro h
    obtain ⟨c1, h1, h2, -⟩ := (arrayL _ _ h).trunc_ok n (ih h)
    rw [h1] at e
    simp only [Prod.mk.injEq] at e
    exact e.1 ▸ h2
  | bitmapParts hw e => intro h; exact (Bitmap.tryFromParts_inv hw e).1
  | vec hw => intro h; exact hw
  | validityParts _ _ e ih1 ih2 =>
    intro h; exact Validity.tryFromParts_inv (L := (arrayL false _ h).toLawfulColl) (ih1 h) (ih2 trivial) e
  | fromCollection _ ih =>
    intro h; exact Validity.fromCollection_inv (L := (arrayL false _ h).toLawfulColl) (ih h)
  | flattenParts _ e ih =>
    intro h; exact Flatten.tryFromParts_inv (L := (arrayL _ _ h.2).toLawfulColl) (ih h.2) e
  | @offsetsParts ow nl t c offsets f _ hw _ e ih =>
    intro h; exact (Offsets.tryFromParts_inv (L := (arrayL nl t h).toLawfulColl) (ih h) hw e).2.2
  | validityColl _ ih => intro h; exact (ih h).1
  | @validityBitmap t v b ht hv e ih => intro h; exact ((ih ht).2 b e).1
  | flattenChild hn _ ih => intro h; exact (ih ⟨hn, h⟩).1
  | offsetsData _ ih => intro h; exact (ih h).2.inv

end Narrow
