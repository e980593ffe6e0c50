import Verif.Model.RowEquality
import Verif.Spec.Equal
import Verif.Proof.Keep
import Verif.Proof.Visible
import Verif.Props.ReadOnly

/-!
# List views compared with any collection (C60)
-/

namespace Narrow.Props

open Spec

variable {O O' : Type} {K : Coll O} {K' : Coll O'}

/-- The comparisons one after the other, up to the first that is not `true`. -/
def inOrder : List (Res Bool) → Res Bool
  | [] => .ok true
  | .panic :: _ => .panic
  | .ok false :: _ => .ok false
  | .ok true :: rest => inOrder rest

/-- A view that can be converted into a list reads as that list. -/
theorem C60_view_reads {v : RowView K.C} {row : List O} (h : RowView.toOwned K v = .ok row) :
    Reads (rowViewC K) v row := by
  unfold RowView.toOwned at h
  cases hl : v.len with
  | panic => rw [hl] at h; cases h
  | ok n =>
    rw [hl] at h
    simp only [Res.bind] at h
    have key : ∀ (k s : Nat) (l : List O),
        collectRange (fun i => (RowView.view K v i).expect.bind K.toOwned) s k = .ok l →
        l.length = k ∧ ∀ i (hi : i < l.length),
          ∃ x, RowView.view K v (s + i) = .ok (some x) ∧ K.toOwned x = .ok l[i] := by
      intro k
      induction k with
      | zero => intro s l h; cases h; exact ⟨rfl, fun i hi => by simp at hi⟩
      | succ k ih =>
        intro s l h
        unfold collectRange at h
        cases h1 : RowView.view K v s with
        | panic => rw [h1] at h; cases h
        | ok o =>
          cases o with
          | none => rw [h1] at h; cases h
          | some x =>
            rw [h1] at h
            change (match K.toOwned x with
              | .panic => .panic
              | .ok o => (collectRange _ (s + 1) k).map (o :: ·)) = Res.ok l at h
            cases h2 : K.toOwned x with
            | panic => rw [h2] at h; cases h
            | ok o =>
              rw [h2] at h
              simp only at h
              cases h3 : collectRange (fun i => (RowView.view K v i).expect.bind K.toOwned) (s + 1) k with
              | panic =>
                rw [h3] at h; cases h
              | ok l' =>
                rw [h3] at h
                simp only [Res.map, Res.ok.injEq] at h
                subst h
                obtain ⟨e1, e2⟩ := ih _ _ h3
                refine ⟨by simp [e1], fun i hi => ?_⟩
                cases i with
                | zero => exact ⟨x, h1, h2⟩
                | succ i =>
                  obtain ⟨y, f1, f2⟩ := e2 i (by simpa using hi)
                  exact ⟨y, by rw [← f1]; congr 1; omega, by simpa using f2⟩
    obtain ⟨e1, e2⟩ := key _ _ _ h
    simp only [Nat.zero_add] at e2
    subst e1
    refine ⟨hl, fun i hi => ?_, ⟨⟨0, row.length, v⟩, ?_, fun n => ?_⟩, ⟨⟨0, row.length, v⟩, ?_, fun n => ?_⟩⟩
    · obtain ⟨x, f1, f2⟩ := e2 i hi
      show Coll.owned (rowViewC K) v i = _
      unfold Coll.owned
      rw [show (rowViewC K).view v i = RowView.view K v i from rfl, f1]
      show (K.toOwned x).map some = _
      rw [f2]; rfl
    · show v.len.map _ = _
      rw [hl]; rfl
    · exact range_iterates (view := RowView.view K) e2 n
    · show v.len.map _ = _
      rw [hl]; rfl
    · refine iterates_of (Rep := fun it m => it.c = v ∧ it.stop = row.length ∧ it.start ≤ row.length ∧
        m = row.drop it.start) ?_ ?_ ?_ n ⟨rfl, rfl, Nat.zero_le _, rfl⟩
      · rintro it ⟨h1, h2, h3, h4⟩
        have : ¬ it.start < it.stop := by
          have := congrArg List.length h4; simp at this; omega
        exact ⟨it, by simp [RangeIter.next, this], h1, h2, h3, h4⟩
      · rintro ⟨a, b, d⟩ o m ⟨h1, h2, h3, h4⟩
        simp only at h1 h2 h3 h4
        subst h1 h2
        have hlt : a < row.length := by
          have := congrArg List.length h4; simp at this; omega
        obtain ⟨x, hv, hc⟩ := e2 a hlt
        rw [List.drop_eq_getElem_cons hlt] at h4
        simp only [List.cons.injEq] at h4
        obtain ⟨rfl, rfl⟩ := h4
        exact ⟨_, ⟨a + 1, row.length, d⟩, by
          simp [RangeIter.next, hlt, hv, hc, Res.expect, Res.map], rfl, rfl, rfl, hlt, rfl⟩
      · rintro it m ⟨h1, h2, h3, h4⟩
        simp [RangeIter.len, h2, h4]

theorem zipAll_inOrder {eq : K.V → K'.V → Res Bool} {e : O → O' → Res Bool}
    (he : ∀ {x o y o'}, K.toOwned x = .ok o → K'.toOwned y = .ok o' → eq x y = e o o') :
    ∀ (fuel : Nat) {a : K.I} {b : K'.I} {l : List O} {m : List O'},
      Iterates K.inext K.ilen K.toOwned a l → Iterates K'.inext K'.ilen K'.toOwned b m →
      l.length = m.length → l.length < fuel →
      zipAll K.inext K'.inext eq fuel a b = inOrder (List.zipWith e l m)
  | 0, _, _, _, _, _, _, _, h => by omega
  | fuel + 1, a, b, [], m, ha, hb, _, _ => by
    obtain ⟨a', h1, -⟩ := iterates_end ha
    simp [zipAll, h1, inOrder]
  | fuel + 1, a, b, x :: l, [], ha, hb, h, _ => by simp at h
  | fuel + 1, a, b, x :: l, y :: m, ha, hb, h, hf => by
    obtain ⟨v, a', h1, h2, h3⟩ := iterates_head ha
    obtain ⟨v', b', h4, h5, h6⟩ := iterates_head hb
    simp only [zipAll, h1, h4, he h2 h5, List.zipWith_cons_cons]
    cases hx : e x y with
    | panic => simp [inOrder]
    | ok r =>
      cases r with
      | false => simp [inOrder]
      | true =>
        simp only [inOrder]
        exact zipAll_inOrder he fuel h3 h6 (by simpa using h) (by simpa using hf)

/-- C60. A list view compared with any collection: unequal lengths differ; otherwise the
elements are compared in order, up to the first difference. `e` is the comparison of
elements, which may panic. -/
theorem C60_compares {eq : K.V → K'.V → Res Bool} {e : O → O' → Res Bool} {v : RowView K.C}
    {row : List O} {c : K'.C} {l : List O'} (hv : Reads (rowViewC K) v row) (hc : Reads K' c l)
    (he : ∀ {x o y o'}, K.toOwned x = .ok o → K'.toOwned y = .ok o' → eq x y = e o o') :
    RowView.eq K K' eq v c =
      if row.length = l.length then inOrder (List.zipWith e row l) else .ok false := by
  obtain ⟨a, ha, ha'⟩ := hv.iter
  obtain ⟨b, hb, hb'⟩ := hc.iter
  have hl : v.len = .ok row.length := hv.len
  unfold RowView.eq
  rw [hl, hc.len, ha, hb]
  simp only [Res.bind]
  split
  · next h => exact zipAll_inOrder (K := rowViewC K) he (row.length + 1) ha' hb' h (by omega)
  · rfl

theorem inOrder_all {α β : Type} (e : α → β → Bool) : ∀ (xs : List α) (ys : List β),
    inOrder (List.zipWith (fun x y => .ok (e x y)) xs ys) = .ok ((xs.zip ys).all fun p => e p.1 p.2)
  | [], _ => rfl
  | _ :: _, [] => rfl
  | x :: xs, y :: ys => by
    simp only [List.zipWith_cons_cons, List.zip_cons_cons, List.all_cons]
    cases h : e x y with
    | false => rfl
    | true => simpa [inOrder] using inOrder_all e xs ys

/-- C60. With a comparison of elements that returns, a list view equals a collection
exactly if the lengths agree and the elements do. -/
theorem C60_equals {eq : K.V → K'.V → Res Bool} {e : O → O' → Bool} {v : RowView K.C}
    {row : List O} {c : K'.C} {l : List O'} (hv : Reads (rowViewC K) v row) (hc : Reads K' c l)
    (he : ∀ {x o y o'}, K.toOwned x = .ok o → K'.toOwned y = .ok o' → eq x y = .ok (e o o')) :
    RowView.eq K K' eq v c = .ok (sameList e row l) := by
  rw [C60_compares hv hc (e := fun o o' => .ok (e o o')) he, inOrder_all]
  unfold sameList
  split
  · next h => simp [h]
  · next h => simp [h]

/-- C60. So views of lists of lists compare as lists of lists, whatever is compared with
whatever inside, -/
theorem C60_nested {eq : K.V → K'.V → Res Bool} {e : O → O' → Bool}
    (he : ∀ {x o y o'}, K.toOwned x = .ok o → K'.toOwned y = .ok o' → eq x y = .ok (e o o'))
    {D D' : Buf Int} {x y o o'} (hx : (offsetsBC D K).toOwned x = .ok o)
    (hy : (offsetsBC D' K').toOwned y = .ok o') :
    RowView.eq K (rowViewC K') eq x y = .ok (sameList e o o') :=
  C60_equals (K' := rowViewC K') (C60_view_reads hx) (C60_view_reads hy) he

/-- Both null, or both valid and equal. -/
def sameNullable {α β : Type} (e : α → β → Bool) : Option α → Option β → Bool
  | none, none => true
  | some a, some b => e a b
  | _, _ => false

/-- and nullable elements are equal if both are null or both are valid and equal. -/
theorem C60_nullable {eq : K.V → K'.V → Res Bool} {e : O → O' → Bool}
    (he : ∀ {x o y o'}, K.toOwned x = .ok o → K'.toOwned y = .ok o' → eq x y = .ok (e o o'))
    {M M' : Coll Bool} {x y o o'} (hx : (validityBC M K).toOwned x = .ok o)
    (hy : (validityBC M' K').toOwned y = .ok o') :
    optEq₂ eq x y = .ok (sameNullable e o o') := by
  cases x with
  | none =>
    cases y with
    | none => cases hx; cases hy; rfl
    | some y =>
      cases hx
      change (K'.toOwned y).map some = .ok o' at hy
      cases h : K'.toOwned y with
      | panic => rw [h] at hy; cases hy
      | ok b => rw [h] at hy; cases hy; rfl
  | some x =>
    change (K.toOwned x).map some = .ok o at hx
    cases h : K.toOwned x with
    | panic => rw [h] at hx; cases hx
    | ok a =>
      rw [h] at hx; cases hx
      cases y with
      | none => cases hy; rfl
      | some y =>
        change (K'.toOwned y).map some = .ok o' at hy
        cases h' : K'.toOwned y with
        | panic => rw [h'] at hy; cases hy
        | ok b => rw [h'] at hy; cases hy; exact he h h'

/-- Boxed numbers, an `Arc`ed bitmap and borrowed offsets, as a list of lists of nullable
numbers; its lists compared with slices of a boxed list of lists. -/
example : ∃ v w,
    (rcompC Mixed.lists).view ⟨⟨[10, 20, 30], some ⟨[0b1010#8], 3, 1⟩⟩, [0, 2, 2, 3]⟩ 0 = .ok (some v) ∧
    (offsetsBC (storeBuf .box Int) (validityBC (bitmapBC (storeBuf .vec Byte))
      (storeBuf .slice Nat).toColl)).view
        ⟨⟨[7, 10, 9], some ⟨[0b11#8], 3, 0⟩⟩, [0, 1, 3]⟩ 1 = .ok (some w) ∧
    RowView.eq _ (rowViewC _) (optEq₂ fun x y => .ok (x == y)) v w = .ok true := by
  refine ⟨_, _, rfl, rfl, ?_⟩
  have he : ∀ {x : Option Nat} {o : Option Nat} {y o'}, (rcompC Mixed.nullable).toOwned x = .ok o →
      (validityBC (bitmapBC (storeBuf .vec Byte)) (storeBuf .slice Nat).toColl).toOwned y = .ok o' →
      optEq₂ (fun x y : Nat => .ok (x == y)) x y = .ok (sameNullable (fun x y => x == y) o o') :=
    fun h h' => C60_nullable (K := rcompC Mixed.numbers) (K' := (storeBuf .slice Nat).toColl)
      (M := bitmapBC (storeBuf .arc Byte)) (M' := bitmapBC (storeBuf .vec Byte))
      (fun h h' => by cases h; cases h'; rfl) h h'
  refine (C60_nested (D := storeBuf .slice Int) (D' := storeBuf .box Int) he
    (o := [some 10, none]) (o' := [some 10, none]) ?_ ?_).trans rfl <;> rfl

end Narrow.Props
