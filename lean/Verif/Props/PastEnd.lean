import Verif.Proof.Oob
import Verif.Props.ReadOnly

/-!
# Reads past the end, in any storage (C09)
-/

namespace Narrow.Props

open Spec

variable {O : Type} {k : RComp O}

/-- Every collection of the user and every storage of offsets returns `None` past its end. -/
def RClosed : {O : Type} → RComp O → Prop
  | _, .leaf K Good held => ∀ {c i}, Good c → (held c).length ≤ i → K.view c i = .ok none
  | _, .bitmap _ _ => True
  | _, .flatten _ _ k => RClosed k
  | _, .validity _ _ k => RClosed k
  | _, .offsets D Good k =>
      (∀ {c i}, Good c → (D.borrow c).length ≤ i → D.view c i = .ok none) ∧ RClosed k
  | _, .row k => RClosed k

/-- The compositions and indices for which a read past the end returns `None`: all but
fixed-size lists, lists at `usize::MAX`, and views of lists where the position in the data
exceeds `usize::MAX`. -/
def NonePast : {O : Type} → (k : RComp O) → (rcompC k).C → Nat → Prop
  | _, .leaf _ _ _, _, _ => True
  | _, .bitmap _ _, _, _ => True
  | _, .flatten _ _ _, _, _ => False
  | _, .validity _ _ _, _, _ => True
  | _, .offsets _ _ _, _, i => i < usizeMax
  | _, .row _, v, i => v.start + i ≤ usizeMax

theorem rclosed_past : {O : Type} → (k : RComp O) → (hs : RSound k) → RClosed k →
    {c : (rcompC k).C} → {i : Nat} → (rcompL k hs).Inv c → ((rcompL k hs).abs c).length ≤ i →
    (NonePast k c i → (rcompC k).view c i = .ok none) ∧
      (¬ NonePast k c i → (rcompC k).view c i = .panic)
  | _, .leaf _ _ _, _, hc, _, _, h, hi => ⟨fun _ => hc h hi, fun h => absurd trivial h⟩
  | _, .bitmap B Good, hs, _, c, i, _, hi => by
    refine ⟨fun _ => ?_, fun h => absurd trivial h⟩
    have h1 : ((c.seen B).abs).length ≤ i := hi
    rw [Bitmap.abs_length] at h1
    exact Bitmap.view_none h1
  | _, .flatten n hn k, hs, hc, c, i, h, hi => by
    refine ⟨fun h => h.elim, fun _ => ?_⟩
    refine flatten_oob (L := rcompL k hs) hn (fun {c i} h hi => ?_) h hi
    obtain ⟨h1, h2⟩ := rclosed_past k hs hc h hi
    by_cases hn : NonePast k c i
    · exact .inl (h1 hn)
    · exact .inr (h2 hn)
  | _, .validity B Good k, hs, _, c, i, h, hi => by
    refine ⟨fun _ => ?_, fun h => absurd trivial h⟩
    have hl := (validityBL (bitmapIL (honoursSlice hs.1)) (rcompL k hs.2)).len_ok h
    show ValidityOf.view (bitmapBC B) (rcompC k) c i = _
    unfold ValidityOf.view
    rw [show ValidityOf.len (bitmapBC B) (rcompC k) c = _ from hl]
    simp only [Res.bind]
    rw [if_neg (Nat.not_lt.mpr hi)]
  | _, .offsets D Good k, hs, hc, c, i, h, hi => by
    replace h : OffsetsIn.Inv (honoursSlice hs.1).toLawfulColl (rcompL k hs.2) c := h
    replace hi : (OffsetsIn.abs (honoursSlice hs.1).toLawfulColl (rcompL k hs.2) c).length ≤ i := hi
    have hlen : (D.borrow c.offsets).length =
        (OffsetsIn.abs (honoursSlice hs.1).toLawfulColl (rcompL k hs.2) c).length + 1 := by
      have := congrArg List.length h.items
      rwa [Offsets.totals_length] at this
    have past : ∀ j, (D.borrow c.offsets).length ≤ j → D.toColl.owned c.offsets j = .ok none := by
      intro j hj
      have := hc.1 (c := c.offsets) (i := j) h.off hj
      unfold Coll.owned
      rw [this]
    have here : ∃ o, D.toColl.owned c.offsets i = .ok o := by
      by_cases hj : (D.borrow c.offsets).length ≤ i
      · exact ⟨_, past i hj⟩
      · exact ⟨_, (hs.1.reads (c := c.offsets) h.off).owned i (by omega)⟩
    obtain ⟨o, ho⟩ := here
    show (i < usizeMax → OffsetsIn.view D c i = _) ∧ (¬ i < usizeMax → OffsetsIn.view D c i = _)
    unfold OffsetsIn.view
    rw [ho]
    constructor
    · intro hm
      simp only [Res.bind]
      rw [OffsetsIn.strictAdd_one hm]
      simp only
      rw [past (i + 1) (by omega)]
      cases o <;> rfl
    · intro hm
      simp only [Res.bind]
      unfold strictAdd
      rw [if_neg (by omega)]
  | _, .row k, hs, _, v, i, h, hi => by
    obtain ⟨row, hr⟩ := h
    have ha : (rowViewCL (rcompL k hs)).abs v = row := rowView_abs hr
    rw [show (rcompL (.row k) hs).abs v = row from ha] at hi
    have := RowView.view_none hr hi
    show (v.start + i ≤ usizeMax → RowView.view (rcompC k) v i = _) ∧
      (¬ v.start + i ≤ usizeMax → RowView.view (rcompC k) v i = _)
    rw [this]
    exact ⟨fun h => if_pos h, fun h => if_neg h⟩

/-- C09, in any storage: what reading past the end does in every composition, for all
indices. -/
theorem C09_any_storage (hs : RSound k) (hc : RClosed k) {c : (rcompC k).C} {l : List O}
    (h : RBuilt k c l) {i : Nat} (hi : l.length ≤ i) :
    (NonePast k c i → (rcompC k).view c i = .ok none ∧ (rcompC k).owned c i = .ok none) ∧
    (¬ NonePast k c i → (rcompC k).view c i = .panic ∧ (rcompC k).owned c i = .panic) := by
  obtain ⟨h1, h2⟩ := rbuilt_inv h hs
  rw [← h2] at hi
  obtain ⟨h3, h4⟩ := rclosed_past k hs hc h1 hi
  refine ⟨fun h => ⟨h3 h, ?_⟩, fun h => ⟨h4 h, ?_⟩⟩
  · unfold Coll.owned; rw [h3 h]
  · unfold Coll.owned; rw [h4 h]

/-- C09. The storages of the library return `None` past their end. -/
theorem C09_storages (st : Store) {α : Type} (l : List α) {i : Nat} (hi : l.length ≤ i) :
    (st.coll α).view l i = .ok none := by
  have : (st.coll α).view l i = .ok l[i]? := by cases st <;> rfl
  rw [this, List.getElem?_eq_none hi]

namespace Mixed

theorem closed : RClosed lists :=
  ⟨fun _ hi => C09_storages _ _ hi, fun _ hi => C09_storages _ _ hi⟩

example : (rcompC lists).owned ⟨⟨[10, 20, 30], some ⟨[0b1010#8], 3, 1⟩⟩, [0, 2, 2, 3]⟩ 3 = .ok none ∧
    (rcompC lists).owned ⟨⟨[10, 20, 30], some ⟨[0b1010#8], 3, 1⟩⟩, [0, 2, 2, 3]⟩ usizeMax = .panic :=
  ⟨((C09_any_storage sound closed built (i := 3) (by decide)).1 (by show 3 < usizeMax; decide)).2,
    ((C09_any_storage sound closed built (i := usizeMax) (by decide)).2
      (by show ¬ usizeMax < usizeMax; decide)).2⟩

end Mixed

end Narrow.Props
