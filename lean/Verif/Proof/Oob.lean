import Verif.Proof.Reach

/-! # Reads past the end -/

namespace Narrow

open Spec

/-- A read past the end returns `None` or panics; it never returns a value. -/
def OobAny {O : Type} {K : Coll O} (L : LawfulColl K) : Prop :=
  ∀ {c i}, L.Inv c → (L.abs c).length ≤ i → K.view c i = .ok none ∨ K.view c i = .panic

/-- A read past the end returns `None`. -/
def OobNone {O : Type} {K : Coll O} (L : LawfulColl K) : Prop :=
  ∀ {c i}, L.Inv c → (L.abs c).length ≤ i → K.view c i = .ok none

theorem bitmap_oob : OobNone bitmapL.toLawfulColl := by
  intro c i _ hi
  have : (Bitmap.abs c).length ≤ i := hi
  exact Bitmap.view_none (by simpa using this)

theorem vec_oob {α : Type} {lim : Nat} (hlim : lim ≤ usizeMax) (d : α) :
    OobNone (vecL lim hlim d).toLawfulColl := by
  intro c i _ hi
  show Res.ok c.items[i]? = _
  rw [List.getElem?_eq_none (show c.items.length ≤ i from hi)]

theorem validity_oob {O : Type} {K : Coll O} (L : LawfulColl K) : OobNone (validityCL L) := by
  intro c i hc hi
  replace hc : Validity.Inv L c := hc
  replace hi : (Validity.abs L c).length ≤ i := hi
  show Validity.view K c i = _
  simp only [Validity.view, Validity.len_ok hc, Res.bind]
  rw [if_neg (by omega)]

theorem offsets_oob {O : Type} {K : Coll O} {L : LawfulColl K} {ow : OffW} {c : Offsets K.C} {i : Nat}
    (hc : Offsets.Inv L ow c) (hi : (Offsets.abs L c).length ≤ i) (hu : i ≤ usizeMax) :
    c.view i = if i = usizeMax then .panic else .ok none := by
  split
  · next h =>
    simp only [Offsets.view, strictAdd]
    rw [if_neg (by omega)]; rfl
  · exact Offsets.view_oob hc hi (by omega)

theorem offsets_oobAny {O : Type} {K : Coll O} (L : LawfulColl K) (ow : OffW) : OobAny (offsetsCL ow L) := by
  intro c i hc hi
  by_cases h : i < usizeMax
  · exact .inl (Offsets.view_oob hc hi h)
  · right
    show Offsets.view c i = _
    simp only [Offsets.view, strictAdd]
    rw [if_neg (by omega)]; rfl

theorem flatten_oob {O : Type} {K : Coll O} {L : LawfulColl K} {n : Nat} (hn : 0 < n)
    (ho : OobAny L) {c : Flatten K.C} {i : Nat} (hc : flatInv L n c) (hi : (flatAbs L n c).length ≤ i) :
    Flatten.view K n c i = .panic := by
  obtain ⟨m, rfl⟩ : ∃ m, n = m + 1 := ⟨n - 1, by omega⟩
  have : FixArr.fromFn (m + 1) (fun idx => ((strictMul i (m + 1)).bind fun b => strictAdd b idx).bind
      fun j => (K.view c.child j).expect) = .panic := by
    have h0 : (((strictMul i (m + 1)).bind fun b => strictAdd b 0).bind
        fun j => (K.view c.child j).expect) = .panic := by
      unfold strictMul strictAdd
      split
      · next h =>
        simp only [Res.bind, Nat.add_zero, h, if_true]
        have hle : (L.abs c.child).length ≤ i * (m + 1) := by
          rw [flat_abs_length hn hc]; exact Nat.mul_le_mul_right _ hi
        rcases ho hc.1 hle with h | h <;> rw [h] <;> rfl
      · rfl
    simp only [FixArr.fromFn, h0]
  simp only [Flatten.view, this, Res.map]

theorem oobAny_null {O : Type} {R : Realloc O} {L : LawfulR R} (nl : Bool) (h : OobAny L.toLawfulColl) :
    OobAny (nullL nl L).toLawfulColl := by
  cases nl
  · exact h
  · intro c i hc hi; exact .inl (validity_oob L.toLawfulColl hc hi)

theorem oobAny_base : (t : Ty) → (h : t.WF) → OobAny (baseL t h).toLawfulColl
  | .bool, _ => fun hc hi => .inl (bitmap_oob hc hi)
  | .prim _, _ => fun hc hi => .inl (vec_oob _ _ hc hi)
  | .fsl _ nl t, h => fun hc hi => .inr (flatten_oob h.1 (oobAny_null nl (oobAny_base t h.2)) hc hi)
  | .vsl ow nl t, h => fun hc hi => offsets_oobAny (nullL nl (baseL t h)).toLawfulColl ow hc hi

end Narrow
