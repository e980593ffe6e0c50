import Verif.Model.Flatten
import Verif.Proof.Bits
import Verif.Proof.Lawful

/-! # Fixed-width grouping is lawful -/

namespace Narrow

variable {O : Type}

namespace FixArr

theorem fromFn_ok {α : Type} : ∀ (n : Nat) (f : Nat → Res α) (P : Nat → α → Prop),
    (∀ i, i < n → ∃ v, f i = .ok v ∧ P i v) →
    ∃ a : FixArr α n, fromFn n f = .ok a ∧ ∀ i (h : i < a.1.length), P i a.1[i]
  | 0, f, P, _ => ⟨⟨[], rfl⟩, rfl, fun i h => by simp at h⟩
  | n + 1, f, P, h => by
    obtain ⟨v, hv, hp⟩ := h 0 (by omega)
    obtain ⟨a, ha, hq⟩ := fromFn_ok n (fun i => f (i + 1)) (fun i => P (i + 1))
      (fun i hi => h (i + 1) (by omega))
    refine ⟨cons v a, by simp [fromFn, hv, ha, Res.map], ?_⟩
    intro i hi
    cases i with
    | zero => exact hp
    | succ i => exact hq i (by simpa [cons] using hi)

theorem mapList_ok {α β : Type} (f : α → Res β) : ∀ (l : List α) (m : List β)
    (hlen : m.length = l.length),
    (∀ i (h1 : i < l.length) (h2 : i < m.length), f l[i] = .ok m[i]) →
      mapList f l = .ok ⟨m, hlen⟩
  | [], [], _, _ => rfl
  | [], b :: m, h, _ => by simp at h
  | a :: l, [], h, _ => by simp at h
  | a :: l, b :: m, h, hf => by
    have he := mapList_ok f l m (by simpa using h) (fun i h1 h2 =>
      hf (i + 1) (by simpa using h1) (by simpa using h2))
    have h0 : f a = .ok b := hf 0 (by simp) (by simp)
    simp [mapList, h0, he, Res.map, cons]

theorem map_ok {α β : Type} {n : Nat} (f : α → Res β) (a : FixArr α n) (b : FixArr β n)
    (h : ∀ i (h1 : i < a.1.length) (h2 : i < b.1.length), f a.1[i] = .ok b.1[i]) :
    map f a = .ok b := by
  obtain ⟨l, rfl⟩ := a
  obtain ⟨m, hm⟩ := b
  exact mapList_ok f l m hm h

/-- Two arrays related element by element. -/
def Rel {α β : Type} {n : Nat} (P : α → β → Prop) (a : FixArr α n) (b : FixArr β n) : Prop :=
  ∀ i (h1 : i < a.1.length) (h2 : i < b.1.length), P a.1[i] b.1[i]

end FixArr

namespace Flatten

/-- Concatenation of arrays. -/
def flat {n : Nat} (xs : List (FixArr O n)) : List O := xs.flatMap (·.1)

@[simp] theorem flat_nil {n : Nat} : flat ([] : List (FixArr O n)) = [] := rfl

@[simp] theorem flat_cons {n : Nat} (a : FixArr O n) (xs : List (FixArr O n)) :
    flat (a :: xs) = a.1 ++ flat xs := by simp [flat]

@[simp] theorem flat_append {n : Nat} (xs ys : List (FixArr O n)) :
    flat (xs ++ ys) = flat xs ++ flat ys := by simp [flat]

@[simp] theorem flat_length {n : Nat} (xs : List (FixArr O n)) :
    (flat xs).length = xs.length * n := by
  induction xs with
  | nil => simp
  | cons a xs ih => simp [ih, a.2, Nat.add_mul, Nat.add_comm]

theorem flat_take {n : Nat} : ∀ (xs : List (FixArr O n)) (k : Nat),
    flat (xs.take k) = (flat xs).take (k * n)
  | [], k => by simp
  | a :: xs, 0 => by simp
  | a :: xs, k + 1 => by
    simp only [List.take_succ_cons, flat_cons, flat_take xs k]
    rw [Nat.add_mul, Nat.one_mul, Nat.add_comm, List.take_append, a.2]
    have h1 : List.take (n + k * n) a.1 = a.1 := List.take_of_length_le (by rw [a.2]; omega)
    rw [h1]; simp

theorem flat_drop {n : Nat} : ∀ (xs : List (FixArr O n)) (k : Nat),
    flat (xs.drop k) = (flat xs).drop (k * n)
  | [], k => by simp
  | a :: xs, 0 => by simp
  | a :: xs, k + 1 => by
    simp only [List.drop_succ_cons, flat_cons, flat_drop xs k]
    rw [Nat.add_mul, Nat.one_mul, Nat.add_comm, List.drop_append, a.2]
    have h1 : List.drop (n + k * n) a.1 = [] := List.drop_eq_nil_of_le (by rw [a.2]; omega)
    rw [h1]; simp

theorem flat_getElem {n : Nat} : ∀ (xs : List (FixArr O n)) (i j : Nat) (hi : i < xs.length) (hj : j < n)
    (h : i * n + j < (flat xs).length), (flat xs)[i * n + j] = xs[i].1[j]'(by rw [xs[i].2]; exact hj)
  | [], i, j, hi, _, _ => by simp at hi
  | a :: xs, 0, j, _, hj, h => by
    simp [a.2, hj]
  | a :: xs, i + 1, j, hi, hj, h => by
    have := flat_getElem xs i j (by simpa using hi) hj
      (by simp [a.2] at h ⊢; rw [Nat.add_mul] at h; omega)
    simp only [flat_cons, List.getElem_append, a.2, List.getElem_cons_succ]
    rw [dif_neg (by rw [Nat.add_mul]; omega)]
    rw [← this]
    congr 1
    rw [Nat.add_mul]; omega

/-- Grouping a list into arrays. -/
def group (n : Nat) (l : List O) : List (FixArr O n) :=
  if h : 0 < n ∧ n ≤ l.length then
    ⟨l.take n, by simp; omega⟩ :: group n (l.drop n)
  else []
termination_by l.length
decreasing_by simp; omega

theorem flat_group (n : Nat) (hn : 0 < n) (l : List O) (h : l.length % n = 0) :
    flat (group n l) = l := by
  unfold group
  split
  · next hl =>
    simp only [flat_cons]
    rw [flat_group n hn (l.drop n) (by
      rw [List.length_drop]
      have := Nat.sub_mul_mod (x := l.length) (k := 1) (n := n) (by omega)
      simpa [h] using this)]
    simp
  · next hl =>
    have h1 : l.length < n := by omega
    rw [Nat.mod_eq_of_lt h1] at h
    simp at h; simp [h]
termination_by l.length
decreasing_by simp; omega

theorem group_flat {n : Nat} (hn : 0 < n) : ∀ (xs : List (FixArr O n)), group n (flat xs) = xs
  | [] => by unfold group; rw [dif_neg]; simp; omega
  | a :: xs => by
    unfold group
    rw [dif_pos (by simp [a.2, hn])]
    have h1 : (flat (a :: xs)).take n = a.1 := by
      rw [flat_cons, List.take_append_of_le_length (by rw [a.2]; exact Nat.le_refl _),
        List.take_of_length_le (by rw [a.2]; exact Nat.le_refl _)]
    have h2 : (flat (a :: xs)).drop n = flat xs := by
      rw [flat_cons, List.drop_append, a.2, List.drop_eq_nil_of_le (by rw [a.2]; exact Nat.le_refl _)]
      simp
    congr 1
    · exact Subtype.ext h1
    · rw [h2, group_flat hn xs]

theorem flat_inj {n : Nat} (hn : 0 < n) {xs ys : List (FixArr O n)} (h : flat xs = flat ys) :
    xs = ys := by
  rw [← group_flat hn xs, h, group_flat hn ys]

/-! ## Flattened sources -/

theorem flatSrc_fused {n : Nat} : ∀ (s : Src (FixArr O n)), (flatSrc s).Fused
  | [] => rfl
  | .none :: s => rfl
  | .panic :: s => rfl
  | .item a :: s => by
    unfold flatSrc
    generalize a.1 = l
    have ih := flatSrc_fused s
    induction l with
    | nil => simpa using ih
    | cons x l ihl => exact ihl.item

theorem items_append_item {α : Type} (l : List α) (s : Src α) :
    Src.items (l.map Ev.item ++ s) = l ++ s.items ∧ Src.panics (l.map Ev.item ++ s) = s.panics := by
  induction l with
  | nil => simp
  | cons a l ih => simp [ih]

@[simp] theorem items_flatSrc {n : Nat} : ∀ (s : Src (FixArr O n)), (flatSrc s).items = flat s.items
  | [] => rfl
  | .none :: s => rfl
  | .panic :: s => rfl
  | .item a :: s => by
    unfold flatSrc
    rw [(items_append_item _ _).1, items_flatSrc s]; simp

@[simp] theorem panics_flatSrc {n : Nat} : ∀ (s : Src (FixArr O n)), (flatSrc s).panics = s.panics
  | [] => rfl
  | .none :: s => rfl
  | .panic :: s => rfl
  | .item a :: s => by
    unfold flatSrc
    rw [(items_append_item _ _).2, panics_flatSrc s]; simp

theorem flatSrc_fuse {n : Nat} : ∀ (s : Src (FixArr O n)), flatSrc s.fuse = flatSrc s
  | [] => rfl
  | .none :: s => rfl
  | .panic :: s => rfl
  | .item a :: s => by simp [Src.fuse, flatSrc, flatSrc_fuse s]

/-! ## Chunked iteration -/

theorem expectAll_some : ∀ (l : List O), ∃ h, expectAll (l.map some) = .ok ⟨l, h⟩
  | [] => ⟨rfl, rfl⟩
  | a :: l => by
    obtain ⟨h, he⟩ := expectAll_some l
    refine ⟨by simp, ?_⟩
    show (expectAll (l.map some)).map (FixArr.cons a) = _
    rw [he]; rfl

theorem toFix_some {n : Nat} (a : FixArr O n) : toFix n (a.1.map some) = .ok a := by
  obtain ⟨l, hl⟩ := a
  obtain ⟨h, he⟩ := expectAll_some l
  unfold toFix
  rw [dif_pos (by simpa using hl)]
  have : ∀ (m : List (Option O)) (k : Nat) (h1 : m.length = k) (h2 : l.length = m.length)
      (h3 : l.length = k), expectAll m = .ok ⟨l, h2⟩ → h1 ▸ expectAll m = .ok ⟨l, h3⟩ := by
    intro m k h1 h2 h3 h4
    subst h1
    exact h4
  exact this _ _ _ h hl he

theorem chunkRest_ok {K : Coll O} (L : LawfulColl K) : ∀ (l m : List O) (it : K.J),
    L.JRep it (l ++ m) → ∃ it', chunkRest K l.length it = .ok (l.map some, it') ∧ L.JRep it' m
  | [], m, it, h => ⟨it, rfl, h⟩
  | a :: l, m, it, h => by
    obtain ⟨it1, h1, h2⟩ := L.jnext_cons h
    obtain ⟨it2, h3, h4⟩ := chunkRest_ok L l m it1 h2
    exact ⟨it2, by simp [chunkRest, h1, h3, Res.map], h4⟩

end Flatten

open Flatten

theorem expect_ok {α : Type} {v : α} : Res.expect (.ok (some v)) = .ok v := rfl

theorem strictMul_ok {a b : Nat} (h : a * b ≤ usizeMax) : strictMul a b = .ok (a * b) := by
  simp [strictMul, h]

theorem strictAdd_ok' {a b : Nat} (h : a + b ≤ usizeMax) : strictAdd a b = .ok (a + b) := by
  simp [strictAdd, h]

section
variable {K : Coll O} (L : LawfulColl K) {n : Nat}

/-- Invariant of a fixed-width grouping. -/
def flatInv (n : Nat) (c : Flatten K.C) : Prop := L.Inv c.child ∧ (L.abs c.child).length % n = 0

/-- The arrays of a fixed-width grouping. -/
def flatAbs (n : Nat) (c : Flatten K.C) : List (FixArr O n) := group n (L.abs c.child)

variable {L}

theorem flat_abs (hn : 0 < n) {c : Flatten K.C} (h : flatInv L n c) :
    flat (flatAbs L n c) = L.abs c.child := flat_group n hn _ h.2

theorem flat_abs_length (hn : 0 < n) {c : Flatten K.C} (h : flatInv L n c) :
    (L.abs c.child).length = (flatAbs L n c).length * n := by
  rw [← flat_abs hn h]; simp

theorem flat_len_ok (hn : 0 < n) {c : Flatten K.C} (h : flatInv L n c) :
    Flatten.len K n c = .ok (flatAbs L n c).length := by
  simp only [Flatten.len, L.len_ok h.1, Res.bind, strictDiv, if_neg (show ¬ n = 0 by omega),
    flat_abs_length hn h, Nat.mul_div_cancel _ hn]

theorem flat_view_ok (hn : 0 < n) {c : Flatten K.C} {i : Nat} (h : flatInv L n c)
    (hi : i < (flatAbs L n c).length) :
    ∃ v, Flatten.view K n c i = .ok (some v) ∧ FixArr.Rel L.VRep v ((flatAbs L n c)[i]) := by
  have hlen := flat_abs_length hn h
  have hle := L.len_le h.1
  have hmul : (i + 1) * n ≤ (L.abs c.child).length := by
    rw [hlen]; exact Nat.mul_le_mul_right n hi
  rw [Nat.add_mul, Nat.one_mul] at hmul
  obtain ⟨a, ha, hp⟩ := FixArr.fromFn_ok n (fun idx =>
      ((strictMul i n).bind fun b => strictAdd b idx).bind fun j => (K.view c.child j).expect)
    (fun j v => ∀ hj : j < ((flatAbs L n c)[i]).1.length, L.VRep v (((flatAbs L n c)[i]).1[j])) (by
      intro idx hidx
      have hlt : i * n + idx < (L.abs c.child).length := by omega
      obtain ⟨v, hv, hr⟩ := L.view_some h.1 hlt
      refine ⟨v, ?_, ?_⟩
      · simp only [strictMul_ok (show i * n ≤ usizeMax by omega), Res.bind,
          strictAdd_ok' (show i * n + idx ≤ usizeMax by omega), hv, expect_ok]
      · intro hj
        have h1 := flat_getElem (flatAbs L n c) i idx hi hidx (by rw [flat_abs hn h]; exact hlt)
        rw [← h1]
        have h2 : (flat (flatAbs L n c))[i * n + idx]'(by rw [flat_abs hn h]; exact hlt) =
            (L.abs c.child)[i * n + idx] := by
          simp only [flat_abs hn h]
        rw [h2]; exact hr)
  refine ⟨a, by simp [Flatten.view, ha, Res.map], ?_⟩
  intro j h1 h2
  exact hp j h1 h2

end

/-- Fixed-width grouping of a lawful collection is lawful for a positive width. -/
def flattenCL {K : Coll O} (L : LawfulColl K) (n : Nat) (hn : 0 < n) : LawfulColl (flattenC n K) where
  Inv c := flatInv L n c
  abs c := flatAbs L n c
  VRep v o := FixArr.Rel L.VRep v o
  IRep it l := flatInv L n it.c ∧ it.stop = (flatAbs L n it.c).length ∧ it.start ≤ it.stop ∧
    l = (flatAbs L n it.c).drop it.start
  JRep it l := L.JRep it (flat l)
  len_ok h := flat_len_ok hn h
  len_le {c} h := by
    have h1 := L.len_le h.1
    rw [flat_abs_length hn h] at h1
    exact Nat.le_trans (Nat.le_mul_of_pos_right _ hn) h1
  view_some h hi := flat_view_ok hn h hi
  owned_ok {v o} h := FixArr.map_ok _ _ _ fun i h1 h2 => L.owned_ok (h i h1 h2)
  iter_ok {c} h := ⟨⟨0, (flatAbs L n c).length, c⟩, by simp [flat_len_ok hn h, Res.map],
    h, rfl, by simp, by simp⟩
  inext_nil {it} h := by
    obtain ⟨h1, h2, h3, h4⟩ := h
    have : ¬ it.start < it.stop := by
      have := congrArg List.length h4; simp at this; omega
    exact ⟨it, by simp [RangeIter.next, this], h1, h2, h3, h4⟩
  inext_cons {it o l} h := by
    obtain ⟨h1, h2, h3, h4⟩ := h
    have hlt : it.start < it.stop := by
      have := congrArg List.length h4; simp at this; omega
    obtain ⟨v, hv, hr⟩ := flat_view_ok hn h1 (i := it.start) (by omega)
    rw [List.drop_eq_getElem_cons (by omega)] at h4
    simp only [List.cons.injEq] at h4
    refine ⟨v, { it with start := it.start + 1 }, ?_, ?_, h1, h2, by simp only; omega, h4.2⟩
    · simp [RangeIter.next, hlt, hv, Res.expect, Res.map]
    · rw [h4.1]; exact hr
  ilen_ok {it l} h := by
    obtain ⟨h1, h2, h3, h4⟩ := h
    simp [RangeIter.len, h4, h2]
  into_ok {c} h := by
    obtain ⟨it, h1, h2⟩ := L.into_ok h.1
    exact ⟨it, h1, by rw [flat_abs hn h]; exact h2⟩
  jnext_nil {it} h := by
    obtain ⟨it', h1, h2⟩ := L.jnext_nil h
    exact ⟨it', by simp [chunksNext, h1], h2⟩
  jnext_cons {it o l} h := by
    obtain ⟨a, ha⟩ := o
    cases a with
    | nil => simp at ha; omega
    | cons x a =>
      obtain ⟨it1, h1, h2⟩ := L.jnext_cons (o := x) (l := a ++ flat l) h
      obtain ⟨it2, h3, h4⟩ := chunkRest_ok L a (flat l) it1 h2
      have hlen : a.length = n - 1 := by simp at ha; omega
      refine ⟨it2, ?_, h4⟩
      have h5 := toFix_some (⟨x :: a, ha⟩ : FixArr O n)
      simp only [List.map_cons] at h5
      rw [hlen] at h3
      simp [chunksNext, h1, h3, h5, Res.map, if_neg (show ¬ n = 0 by omega)]
  jlen_ok {it l} h := by
    have := L.jlen_ok h
    simp only [chunksLen, this, Res.bind, strictDiv, if_neg (show ¬ n = 0 by omega), flat_length,
      Nat.mul_div_cancel _ hn]

theorem wrapTry_ok {C : Type} {x : Try C} {c : Flatten C} (h : wrapTry x = .ok c) : x = .ok c.child := by
  cases x <;> simp [wrapTry] at h
  subst h; rfl

theorem wrapTry_err {C : Type} {x : Try C} (h : wrapTry x = .err) : x = .err := by
  cases x <;> simp [wrapTry] at h; rfl

theorem wrapTry_panic {C : Type} {x : Try C} (h : wrapTry x = .panic) : x = .panic := by
  cases x <;> simp [wrapTry] at h; rfl

section
variable {R : Realloc O} (L : LawfulR R) {n : Nat}

theorem flat_inv_of {c : Flatten R.C} (hn : 0 < n) {xs : List (FixArr O n)} (h : L.Inv c.child)
    (ha : L.abs c.child = flat xs) :
    flatInv L.toLawfulColl n c ∧ flatAbs L.toLawfulColl n c = xs := by
  refine ⟨⟨h, by rw [ha]; simp⟩, ?_⟩
  unfold flatAbs
  rw [ha, group_flat hn]

end

/-- Fixed-width grouping of a lawful growing collection is lawful. -/
def flattenL {R : Realloc O} (L : LawfulR R) (n : Nat) (hn : 0 < n) : LawfulR (flattenR n R) where
  toLawfulColl := flattenCL L.toLawfulColl n hn
  Canon c := L.Canon c.child
  Room e l := L.Room (e * n) (flat l)
  room_prefix {e l m} h := by
    simp only [flat_append] at h
    have := L.room_prefix h
    simpa [Nat.add_mul] using this
  room_mono h1 h2 := L.room_mono (Nat.mul_le_mul_right n h1) h2
  room_len {e l} h := by
    have := L.room_len h
    simp only [flat_length, ← Nat.add_mul] at this
    exact Nat.le_trans (Nat.le_mul_of_pos_right _ hn) this
  empty_ok := by
    obtain ⟨h1, h2, h3⟩ := L.empty_ok
    obtain ⟨h4, h5⟩ := flat_inv_of L (c := ⟨R.empty⟩) hn (xs := []) h1 (by simpa using h2)
    exact ⟨h4, h5, h3⟩
  pulled_fused _ := rfl
  pulled_map f s := by simp
  fromIter_any {w w' s c} h := by
    simp only [flattenR, Prod.mk.injEq] at h
    obtain ⟨h1, h2, h3, h6⟩ := L.fromIter_ok (flatSrc_fused s) (Prod.ext (wrapTry_ok h.1) rfl)
    simp only [items_flatSrc, panics_flatSrc] at h2 h3 h6
    obtain ⟨h4, h5⟩ := flat_inv_of L hn h1 h2
    exact ⟨h4, congrArg List.length h5⟩
  fromIterIn_any {w w' s c} h := by
    simp only [flattenR, Prod.mk.injEq] at h
    obtain ⟨h1, h2, h3, h6⟩ := L.fromIterIn_ok (flatSrc_fused s) (Prod.ext (wrapTry_ok h.1) rfl)
    simp only [items_flatSrc, panics_flatSrc] at h2 h3 h6
    obtain ⟨h4, h5⟩ := flat_inv_of L hn h1 h2
    exact ⟨h4, congrArg List.length h5⟩
  tryFromIter_any {w w' s c} h := by
    simp only [flattenR, Prod.mk.injEq] at h
    obtain ⟨h1, h2, h3, h6⟩ := L.tryFromIter_ok (flatSrc_fused s) (Prod.ext (wrapTry_ok h.1) rfl)
    simp only [items_flatSrc, panics_flatSrc] at h2 h3 h6
    exact (flat_inv_of L hn h1 h2).1
  withCap_ok {k c} h := by
    simp only [flattenR] at h
    split at h
    · simp at h
    · obtain ⟨h1, h2, h3⟩ := L.withCap_ok (wrapTry_ok h)
      obtain ⟨h4, h5⟩ := flat_inv_of L (xs := []) hn h1 (by simpa using h2)
      exact ⟨h4, h5, h3⟩
  withCap_ne k := by
    simp only [flattenR]
    split
    · simp
    · intro h; exact L.withCap_ne _ (wrapTry_err h)
  fromIter_ok {w w' s c} hs h := by
    simp only [flattenR, Prod.mk.injEq] at h
    obtain ⟨h1, h2, h3, h6⟩ := L.fromIter_ok (flatSrc_fused s) (Prod.ext (wrapTry_ok h.1) rfl)
    simp only [items_flatSrc, panics_flatSrc] at h2 h3 h6
    obtain ⟨h4, h5⟩ := flat_inv_of L hn h1 h2
    exact ⟨h4, h5, h3, fun hr => h6 ((Nat.zero_mul n) ▸ hr)⟩
  fromIter_ne w s h := L.fromIter_ne _ _ (wrapTry_err h)
  fromIterIn_ok {w w' s c} hs h := by
    simp only [flattenR, Prod.mk.injEq] at h
    obtain ⟨h1, h2, h3, h6⟩ := L.fromIterIn_ok (flatSrc_fused s) (Prod.ext (wrapTry_ok h.1) rfl)
    simp only [items_flatSrc, panics_flatSrc] at h2 h3 h6
    obtain ⟨h4, h5⟩ := flat_inv_of L hn h1 h2
    exact ⟨h4, h5, h3, fun hr => h6 ((Nat.zero_mul n) ▸ hr)⟩
  fromIterIn_ne w s h := L.fromIterIn_ne _ _ (wrapTry_err h)
  tryWithCap_ok {w w' k c} h := by
    simp only [flattenR] at h
    split at h
    · simp at h
    · simp only [Prod.mk.injEq] at h
      obtain ⟨h1, h2, h3⟩ := L.tryWithCap_ok (Prod.ext (wrapTry_ok h.1) rfl)
      obtain ⟨h4, h5⟩ := flat_inv_of L (xs := []) hn h1 (by simpa using h2)
      exact ⟨h4, h5, h3⟩
  tryWithCap_np w k := by
    simp only [flattenR]
    split
    · simp
    · intro h; exact L.tryWithCap_np _ _ (wrapTry_panic h)
  tryFromIter_ok {w w' s c} hs h := by
    simp only [flattenR, Prod.mk.injEq] at h
    obtain ⟨h1, h2, h3, h6⟩ := L.tryFromIter_ok (flatSrc_fused s) (Prod.ext (wrapTry_ok h.1) rfl)
    simp only [items_flatSrc, panics_flatSrc] at h2 h3 h6
    obtain ⟨h4, h5⟩ := flat_inv_of L hn h1 h2
    exact ⟨h4, h5, h3, fun hr => h6 ((Nat.zero_mul n) ▸ hr)⟩
  tryFromIter_np {w s} hs hp h :=
    L.tryFromIter_np (flatSrc_fused s) (by simpa using hp) (wrapTry_panic h)
  ext_ok {c c' s} hc h := by
    simp only [flattenR, Prod.mk.injEq] at h
    obtain ⟨rfl, h⟩ := h
    obtain ⟨h1, h2, h3⟩ := L.ext_ok hc.1 (Prod.ext rfl h)
    simp only [items_flatSrc, panics_flatSrc, ← flat_abs hn hc, ← flat_append] at h2 h3
    obtain ⟨h4, h5⟩ := flat_inv_of L (c := ⟨(R.extend c.child (flatSrc s)).1⟩) hn h1 h2
    exact ⟨h4, h5, h3⟩
  ext_ne {c} s hc := L.ext_ne (flatSrc s) hc.1
  ext_canon {c c' s} hc hk hr h := by
    simp only [flattenR, Prod.mk.injEq] at h
    obtain ⟨rfl, h⟩ := h
    refine L.ext_canon hc.1 hk ?_ (Prod.ext rfl h)
    rw [items_flatSrc, ← flat_abs hn hc, ← flat_append]; exact (Nat.zero_mul n) ▸ hr
  ext_live {c s} hc hk hp hr := by
    refine L.ext_live hc.1 hk (by simpa using hp) ?_
    rw [items_flatSrc, ← flat_abs hn hc, ← flat_append]; exact (Nat.zero_mul n) ▸ hr
  ext_fuse c s := by simp only [flatSrc_fuse]
  reserve_ok {c c' k o} hc h := by
    simp only [flattenR] at h
    split at h
    · simp only [Prod.mk.injEq] at h
      obtain ⟨rfl, rfl⟩ := h
      exact ⟨hc, rfl, by simp, fun h => h⟩
    · simp only [Prod.mk.injEq] at h
      obtain ⟨rfl, rfl⟩ := h
      obtain ⟨h1, h2, h3, h4⟩ := L.reserve_ok hc.1 (Prod.ext rfl rfl)
      rw [← flat_abs hn hc] at h2
      obtain ⟨h5, h6⟩ := flat_inv_of L (c := ⟨_⟩) hn h1 h2
      exact ⟨h5, h6, h3, h4⟩
  reserve_live {c k} hc hk hr := by
    have hlen := L.room_len hr
    simp only [flattenR, strictMul_ok (show k * n ≤ usizeMax by omega)]
    apply L.reserve_live hc.1 hk
    rw [← flat_abs hn hc]; exact hr
  tryReserve_ok {w w' c c' k o} hc h := by
    simp only [flattenR] at h
    split at h
    · simp only [Prod.mk.injEq] at h
      obtain ⟨rfl, rfl, rfl⟩ := h
      exact ⟨hc, rfl, by simp, fun h => h⟩
    · simp only [Prod.mk.injEq] at h
      obtain ⟨rfl, rfl, rfl⟩ := h
      obtain ⟨h1, h2, h3, h4⟩ := L.tryReserve_ok hc.1 (Prod.ext rfl (Prod.ext rfl rfl))
      rw [← flat_abs hn hc] at h2
      obtain ⟨h5, h6⟩ := flat_inv_of L (c := ⟨_⟩) hn h1 h2
      exact ⟨h5, h6, h3, h4⟩
  tryExt_ok {w w' c c' s} hc h := by
    simp only [flattenR, Prod.mk.injEq] at h
    obtain ⟨rfl, h, rfl⟩ := h
    obtain ⟨h1, h2, h3⟩ := L.tryExt_ok hc.1 (Prod.ext rfl (Prod.ext h rfl))
    simp only [items_flatSrc, panics_flatSrc, ← flat_abs hn hc, ← flat_append] at h2 h3
    obtain ⟨h4, h5⟩ := flat_inv_of L (c := ⟨(R.tryExtend w c.child (flatSrc s)).1⟩) hn h1 h2
    exact ⟨h4, h5, h3⟩
  tryExt_canon {w w' c c' s o} hc hk hr h ho := by
    simp only [flattenR, Prod.mk.injEq] at h
    obtain ⟨rfl, rfl, rfl⟩ := h
    refine L.tryExt_canon hc.1 hk ?_ rfl ho
    rw [items_flatSrc, ← flat_abs hn hc, ← flat_append]; exact (Nat.zero_mul n) ▸ hr
  tryExt_err {w w' c c' s} hc h := by
    simp only [flattenR, Prod.mk.injEq] at h
    obtain ⟨rfl, h, rfl⟩ := h
    obtain ⟨h1, h2⟩ := L.tryExt_err hc.1 (Prod.ext rfl (Prod.ext h rfl))
    rw [← flat_abs hn hc] at h2
    exact flat_inv_of L (c := ⟨(R.tryExtend w c.child (flatSrc s)).1⟩) hn h1 h2
  tryExt_np {w c s} hc hp := L.tryExt_np hc.1 (by simpa using hp)
  tryExt_fuse w c s := by simp only [flatSrc_fuse]
  trunc_ok {c} k hc := by
    simp only [flattenR, flat_len_ok hn hc]
    have hlen := flat_abs_length hn hc
    have hle := L.len_le hc.1
    split
    · next hk =>
      have h1 : k * n ≤ usizeMax := by
        have := Nat.mul_le_mul_right n (Nat.le_of_lt hk); omega
      simp only [strictMul_ok h1]
      obtain ⟨c', h2, h3, h4, h5⟩ := L.trunc_ok (k * n) hc.1
      rw [← flat_abs hn hc, ← flat_take] at h4
      obtain ⟨h6, h7⟩ := flat_inv_of L (c := ⟨c'⟩) hn h3 h4
      refine ⟨⟨c'⟩, by rw [h2], h6, h7, h5⟩
    · next hk =>
      exact ⟨c, rfl, hc, (List.take_of_length_le (by show (flatAbs _ _ _).length ≤ _; omega)).symm, fun h => h⟩

end Narrow
