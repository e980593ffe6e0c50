import Verif.Spec.Splits
import Verif.Proof.Parts
import Verif.Proof.PanicFit

/-! # Valid arrays read as their items, and stay valid through panics -/

namespace Narrow

open Spec

section
variable {O : Type} {K : Coll O} (L : LawfulColl K)

theorem iterates_of {σ τ : Type} {next : σ → Res (Option τ × σ)} {len : σ → Res Nat}
    {conv : τ → Res O} {Rep : σ → List O → Prop}
    (hnil : ∀ {it}, Rep it [] → ∃ it', next it = .ok (none, it') ∧ Rep it' [])
    (hcons : ∀ {it o l}, Rep it (o :: l) → ∃ v it', next it = .ok (some v, it') ∧ conv v = .ok o ∧ Rep it' l)
    (hlen : ∀ {it l}, Rep it l → len it = .ok l.length)
    (n : Nat) : ∀ {it : σ} {l : List O}, Rep it l →
      ∃ answers it', polls next n it = .ok (answers, it') ∧
        mapRes (convOpt conv) answers = .ok ((List.range n).map fun i => l[i]?) ∧
        len it' = .ok (l.length - n) := by
  induction n with
  | zero => intro it l h; exact ⟨[], it, rfl, rfl, hlen h⟩
  | succ n ih =>
    intro it l h
    cases l with
    | nil =>
      obtain ⟨it1, e1, r1⟩ := hnil h
      obtain ⟨as, it2, e2, e3, e4⟩ := ih r1
      refine ⟨none :: as, it2, by simp [polls, e1, e2, Res.map], ?_, by simpa using e4⟩
      simp only [mapRes, convOpt, e3, Res.map]
      simp [List.range_succ_eq_map]
    | cons o l =>
      obtain ⟨v, it1, e1, ev, r1⟩ := hcons h
      obtain ⟨as, it2, e2, e3, e4⟩ := ih r1
      refine ⟨some v :: as, it2, by simp [polls, e1, e2, Res.map], ?_, by simpa using e4⟩
      simp only [mapRes, convOpt, ev, e3, Res.map]
      simp [List.range_succ_eq_map]

/-- A valid collection reads as the list it represents. -/
theorem reads_abs {c : K.C} (hc : L.Inv c) : Reads K c (L.abs c) where
  len := L.len_ok hc
  owned i h := by
    obtain ⟨v, h1, h2⟩ := L.view_some hc h
    simp [Coll.owned, h1, L.owned_ok h2, Res.map]
  iter := by
    obtain ⟨it, h1, h2⟩ := L.iter_ok hc
    refine ⟨it, h1, fun n => iterates_of (Rep := L.IRep) (fun h => L.inext_nil h) (fun h => ?_)
      (fun h => L.ilen_ok h) n h2⟩
    obtain ⟨v, it', a1, a2, a3⟩ := L.inext_cons h
    exact ⟨v, it', a1, L.owned_ok a2, a3⟩
  into := by
    obtain ⟨it, h1, h2⟩ := L.into_ok hc
    refine ⟨it, h1, fun n => iterates_of (Rep := L.JRep) (fun h => L.jnext_nil h) (fun h => ?_)
      (fun h => L.jlen_ok h) n h2⟩
    obtain ⟨it', a1, a2⟩ := L.jnext_cons h
    exact ⟨_, it', a1, rfl, a2⟩

theorem Spec.Reads.abs_eq {L : LawfulColl K} {c : K.C} {l : List O} (h : Reads K c l) (hc : L.Inv c) :
    L.abs c = l := (reads_abs L hc).unique h

end

theorem keepE_null {O : Type} {R : Realloc O} {L : LawfulR R} (nl : Bool) (h : KeepE L) :
    KeepE (nullL nl L) := by
  cases nl
  · exact h
  · exact Validity.keepE h

theorem keepE_base : (t : Ty) → (h : t.WF) → NoFixed t → KeepE (baseL t h)
  | .bool, _, _ => bitmap_keepE
  | .prim _, _, _ => vec_keepE _ _
  | .fsl _ _ _, _, hs => hs.elim
  | .vsl _ nl t, h, hs => Offsets.keepE (keepE_null nl (keepE_base t h hs))

theorem wholeT_base : (t : Ty) → (h : t.WF) → (w : Nat) → Whole (· = 1) w t → WholeT w (baseL t h)
  | .bool, _, w, hs => by rw [show w = 1 from hs]; exact KeepT.whole bitmap_keepT
  | .prim _, _, w, _ => ExactT.whole w (vec_exactT _ _)
  | .fsl n false t, h, w, hs => flatten_wholeT h.1 (wholeT_base t h.2 (w * n) hs)
  | .fsl n true t, h, w, hs =>
    flatten_wholeT h.1 (ChunkT.whole hs.1 (Validity.chunkT (WholeT.keep (wholeT_base t h.2 1 hs.2))))
  | .vsl _ nl t, h, w, _ => ExactT.whole w Offsets.exactT

theorem keepT_base (t : Ty) (h : t.WF) (hs : TrySafe t) : KeepT (baseL t h) :=
  WholeT.keep (wholeT_base t h 1 hs)

theorem keepE_array {nl : Bool} {t : Ty} (h : t.WF) (hs : NoFixed t) : KeepE (arrayL nl t h) :=
  keepE_null nl (keepE_base t h hs)

theorem keepT_array {nl : Bool} {t : Ty} (h : t.WF) (hs : TrySafe t) : KeepT (arrayL nl t h) := by
  cases nl
  · exact keepT_base t h hs
  · exact Validity.keepT (keepT_base t h hs)

theorem whole_mono {p q : Nat → Prop} (h : ∀ w, p w → q w) :
    (t : Ty) → (w : Nat) → Whole p w t → Whole q w t
  | .bool, w, hs => h w hs
  | .prim _, _, _ => trivial
  | .fsl _ false t, _, hs => whole_mono h t _ hs
  | .fsl _ true t, _, hs => ⟨hs.1, whole_mono h t 1 hs.2⟩
  | .vsl _ _ _, _, _ => trivial

theorem grow_of_try {t : Ty} (h : TrySafe t) : GrowSafe t :=
  whole_mono (fun w hw => .inl (by rw [show w = 1 from hw]; exact Nat.one_dvd _)) t 1 h

theorem keptGrown_null (t : Ty) : keptGrown t true = fun _ n => n / 1024 * 1024 := by
  funext _ n; cases t <;> rfl

theorem countF_null {t : Ty} (h : t.WF) (hk : KeepF (baseL t h)) {m : Nat}
    (hm : m ∣ 1024 ∨ 1024 ∣ m) :
    CountF m (keptGrown t true) (Plain true t) (nullL true (baseL t h)) := by
  rw [keptGrown_null, show Plain true t = False by cases t <;> rfl]
  exact Validity.countF hk hm

theorem countF_base : (t : Ty) → (h : t.WF) → (w : Nat) →
    Whole (fun w => w ∣ 8 ∨ 8 ∣ w) w t → CountF w (keptGrown t false) (Plain false t) (baseL t h)
  | .bool, _, _, hs => bitmap_countF hs
  | .prim _, _, _, _ => vec_countF _ _
  | .fsl n false t, h, w, hs => flatten_countF h.1 (countF_base t h.2 (w * n) hs)
  | .fsl n true t, h, w, hs =>
    flatten_countF h.1 (countF_null h.2 (CountF.keep (countF_base t h.2 1 hs.2)) hs.1)
  | .vsl _ nl t, h, w, _ => Offsets.countF

theorem keepF_base (t : Ty) (h : t.WF) (hs : GrowSafe t) : KeepF (baseL t h) :=
  CountF.keep (countF_base t h 1 hs)

/-- After a caught panic of the source, `keptGrown` of the yielded items are there. -/
theorem countF_array {nl : Bool} {t : Ty} (h : t.WF) (hs : GrowSafe t) :
    CountF 1 (keptGrown t nl) (Plain nl t) (arrayL nl t h) := by
  cases nl
  · exact countF_base t h 1 hs
  · exact countF_null h (keepF_base t h hs) (.inl (Nat.one_dvd _))

theorem fits_base : (t : Ty) → (h : t.WF) → (e : Nat) → (l : List (Val t)) →
    (Fits.base t e l ↔ (baseL t h).Room e l)
  | .bool, _, e, l => Iff.rfl
  | .prim _, _, e, l => Iff.rfl
  | .fsl n false t, h, e, l => fits_base t h.2 (e * n) (Flatten.flat l)
  | .fsl n true t, h, e, l => by
    have := fits_base t h.2 (e * n) ((Flatten.flat l).map fun o => Option.getD o (baseR t).dflt)
    exact and_congr Iff.rfl this
  | .vsl ow false t, h, e, l => by
    have := fits_base t h (l.length + e) l.flatten
    exact and_congr Iff.rfl (and_congr Iff.rfl this)
  | .vsl ow true t, h, e, l => by
    have := fits_base t h (l.length + e) (l.flatten.map fun o => Option.getD o (baseR t).dflt)
    exact and_congr Iff.rfl (and_congr Iff.rfl (and_congr Iff.rfl this))

theorem fits_iff {nl : Bool} {t : Ty} (h : t.WF) (e : Nat) (l : List (ItemVal nl (Val t))) :
    Fits nl t e l ↔ (arrayL nl t h).Room e l := by
  cases nl
  · exact fits_base t h e l
  · exact and_congr Iff.rfl (fits_base t h e _)

end Narrow
