import Verif.Spec.Visible
import Verif.Proof.Keep

/-!
# What a caught panic leaves visible

`Half`: a collection that may be invalid, but whose items can all be read by
reference, and which becomes valid when a truncation drops a suitable item.
-/

namespace Narrow

open Spec

section
variable {O : Type}

/-- Reading by reference, in a form that composes. -/
structure Vis (K : Coll O) (c : K.C) (l : List O) : Prop where
  len : K.len c = .ok l.length
  small : l.length ≤ usizeMax
  view : ∀ i (h : i < l.length), ∃ v, K.view c i = .ok (some v) ∧ K.toOwned v = .ok l[i]
  iter : ∃ it, K.iter c = .ok it ∧ Iterates K.inext K.ilen K.toOwned it l

theorem Vis.sees {K : Coll O} {c : K.C} {l : List O} (h : Vis K c l) : Sees K c l where
  len := h.len
  owned i hi := by
    obtain ⟨v, h1, h2⟩ := h.view i hi
    simp [Coll.owned, h1, h2, Res.map]
  iter := h.iter

theorem Vis.of_inv {K : Coll O} (L : LawfulColl K) {c : K.C} (h : L.Inv c) : Vis K c (L.abs c) where
  len := L.len_ok h
  small := L.len_le h
  view i hi := by
    obtain ⟨v, h1, h2⟩ := L.view_some h hi
    exact ⟨v, h1, L.owned_ok h2⟩
  iter := (reads_abs L h).iter

theorem mapRes_cons_inv {α β : Type} {f : α → Res β} {a : α} {l : List α} {b : β} {m : List β}
    (h : mapRes f (a :: l) = .ok (b :: m)) : f a = .ok b ∧ mapRes f l = .ok m := by
  simp only [mapRes] at h
  cases hf : f a with
  | panic => simp [hf] at h
  | ok b' =>
    rw [hf] at h
    cases hm : mapRes f l with
    | panic => simp [hm, Res.map] at h
    | ok m' =>
      simp only [hm, Res.map, Res.ok.injEq, List.cons.injEq] at h
      exact ⟨by rw [h.1], by rw [h.2]⟩

section
variable {σ τ : Type} {next : σ → Res (Option τ × σ)} {len : σ → Res Nat} {conv : τ → Res O}

theorem iterates_step {it : σ} {l : List O} (h : Iterates next len conv it l) :
    ∃ x it', next it = .ok (x, it') ∧ convOpt conv x = .ok l[0]? ∧
      Iterates next len conv it' (l.drop 1) := by
  have h1 := h 1
  obtain ⟨as, it1, p1, p2, p3⟩ := h1
  simp only [polls] at p1
  cases hn : next it with
  | panic => simp [hn] at p1
  | ok r =>
    obtain ⟨x, it'⟩ := r
    rw [hn] at p1
    simp only [Res.map, Res.ok.injEq, Prod.mk.injEq] at p1
    obtain ⟨rfl, rfl⟩ := p1
    refine ⟨x, it', rfl, (mapRes_cons_inv (m := []) p2).1, fun n => ?_⟩
    obtain ⟨bs, it2, q1, q2, q3⟩ := h (n + 1)
    simp only [polls, hn] at q1
    cases hp : polls next n it' with
    | panic => simp [hp, Res.map] at q1
    | ok r =>
      obtain ⟨cs, it3⟩ := r
      simp only [hp, Res.map, Res.ok.injEq, Prod.mk.injEq] at q1
      obtain ⟨rfl, rfl⟩ := q1
      refine ⟨cs, it3, rfl, ?_, ?_⟩
      · rw [List.range_succ_eq_map, List.map_cons] at q2
        rw [(mapRes_cons_inv q2).2]
        simp
      · rw [q3]; congr 1; simp; omega

theorem iterates_nil {it : σ} (h : Iterates next len conv it []) :
    ∃ it', next it = .ok (none, it') ∧ Iterates next len conv it' [] := by
  obtain ⟨x, it', h1, h2, h3⟩ := iterates_step h
  cases x with
  | none => exact ⟨it', h1, h3⟩
  | some v =>
    simp only [convOpt] at h2
    cases hc : conv v <;> simp [hc, Res.map] at h2

theorem iterates_cons {it : σ} {o : O} {l : List O} (h : Iterates next len conv it (o :: l)) :
    ∃ v it', next it = .ok (some v, it') ∧ conv v = .ok o ∧ Iterates next len conv it' l := by
  obtain ⟨x, it', h1, h2, h3⟩ := iterates_step h
  cases x with
  | none => simp [convOpt] at h2
  | some v =>
    refine ⟨v, it', h1, ?_, h3⟩
    simp only [convOpt] at h2
    cases hc : conv v with
    | panic => simp [hc, Res.map] at h2
    | ok b => simpa [hc, Res.map] using h2

theorem iterates_len {it : σ} {l : List O} (h : Iterates next len conv it l) :
    len it = .ok l.length := by
  obtain ⟨as, it', h1, h2, h3⟩ := h 0
  simp only [polls, Res.ok.injEq, Prod.mk.injEq] at h1
  obtain ⟨rfl, rfl⟩ := h1
  simpa using h3

end

/-- A range iterator over a readable collection yields its items. -/
theorem range_iterates {C V : Type} {view : C → Nat → Res (Option V)} {conv : V → Res O} {c : C}
    {l : List O} (h : ∀ i (hi : i < l.length), ∃ v, view c i = .ok (some v) ∧ conv v = .ok l[i]) :
    Iterates (RangeIter.next view) RangeIter.len conv ⟨0, l.length, c⟩ l := by
  intro n
  refine iterates_of (Rep := fun it m => it.c = c ∧ it.stop = l.length ∧ it.start ≤ l.length ∧
    m = l.drop it.start) ?_ ?_ ?_ n ⟨rfl, rfl, Nat.zero_le _, rfl⟩
  · rintro it ⟨h1, h2, h3, h4⟩
    have : ¬ it.start < it.stop := by
      have := congrArg List.length h4; simp at this; omega
    exact ⟨it, by simp [RangeIter.next, this], h1, h2, h3, h4⟩
  · rintro ⟨a, b, d⟩ o m ⟨h1, h2, h3, h4⟩
    simp only at h1 h2 h3 h4
    subst h1 h2
    have hlt : a < l.length := by
      have := congrArg List.length h4; simp at this; omega
    obtain ⟨v, hv, hc⟩ := h a hlt
    rw [List.drop_eq_getElem_cons hlt] at h4
    simp only [List.cons.injEq] at h4
    obtain ⟨rfl, rfl⟩ := h4
    exact ⟨v, ⟨a + 1, l.length, d⟩, by simp [RangeIter.next, hlt, hv, Res.expect, Res.map], hc,
      rfl, rfl, hlt, rfl⟩
  · rintro it m ⟨h1, h2, h3, h4⟩
    simp [RangeIter.len, h2, h4]

/-! ## Fixed-size lists -/

theorem group_length {n : Nat} (hn : 0 < n) (l : List O) :
    (Flatten.group n l).length = l.length / n := by
  unfold Flatten.group
  split
  · next h =>
    rw [List.length_cons, group_length hn (l.drop n), List.length_drop,
      Nat.div_eq_sub_div hn h.2]
  · next h =>
    have : l.length < n := by omega
    simp [Nat.div_eq_of_lt this]
termination_by l.length
decreasing_by simp; omega

theorem flat_group_take {n : Nat} (hn : 0 < n) (l : List O) :
    Flatten.flat (Flatten.group n l) = l.take (l.length / n * n) := by
  unfold Flatten.group
  split
  · next h =>
    rw [Flatten.flat_cons, flat_group_take hn (l.drop n), List.length_drop]
    have : l.length / n * n = n + (l.length - n) / n * n := by
      rw [Nat.div_eq_sub_div hn h.2, Nat.add_mul, Nat.one_mul, Nat.add_comm]
    rw [this, List.take_add]
  · next h =>
    have : l.length < n := by omega
    simp [Nat.div_eq_of_lt this, Flatten.flat]
termination_by l.length
decreasing_by simp; omega

theorem vis_flatten {K : Coll O} {n : Nat} (hn : 0 < n) {c : K.C} {l : List O} (h : Vis K c l) :
    Vis (flattenC n K) ⟨c⟩ (Flatten.group n l) := by
  have hlen : Flatten.len K n ⟨c⟩ = .ok (Flatten.group n l).length := by
    simp only [Flatten.len, h.len, Res.bind, strictDiv, if_neg (show ¬ n = 0 by omega),
      group_length hn]
  have hview : ∀ i (hi : i < (Flatten.group n l).length), ∃ v,
      Flatten.view K n ⟨c⟩ i = .ok (some v) ∧
        FixArr.map K.toOwned v = .ok (Flatten.group n l)[i] := by
    intro i hi
    have hsm := h.small
    have hmul : (i + 1) * n ≤ l.length := by
      rw [group_length hn] at hi
      exact Nat.le_trans (Nat.mul_le_mul_right n hi) (Nat.div_mul_le_self _ _)
    rw [Nat.add_mul, Nat.one_mul] at hmul
    obtain ⟨a, ha, hp⟩ := FixArr.fromFn_ok n (fun idx =>
        ((strictMul i n).bind fun b => strictAdd b idx).bind fun j => (K.view c j).expect)
      (fun j v => ∀ hj : j < ((Flatten.group n l)[i]).1.length,
        K.toOwned v = .ok (((Flatten.group n l)[i]).1[j])) (by
        intro idx hidx
        have hlt : i * n + idx < l.length := by omega
        obtain ⟨v, hv, hr⟩ := h.view _ hlt
        refine ⟨v, ?_, ?_⟩
        · simp only [strictMul_ok (show i * n ≤ usizeMax by omega), Res.bind,
            strictAdd_ok' (show i * n + idx ≤ usizeMax by omega), hv, expect_ok]
        · intro hj
          have hfl : i * n + idx < (Flatten.flat (Flatten.group n l)).length := by
            rw [Flatten.flat_length]
            have := Nat.mul_le_mul_right n hi
            rw [Nat.succ_mul] at this
            omega
          have h1 := Flatten.flat_getElem (Flatten.group n l) i idx hi hidx hfl
          rw [← h1, hr]
          congr 1
          simp only [flat_group_take hn, List.getElem_take])
    refine ⟨a, by simp [Flatten.view, ha, Res.map], ?_⟩
    exact FixArr.map_ok K.toOwned a _ (fun j h1 h2 => hp j h1 h2)
  exact {
    len := hlen
    small := by
      rw [group_length hn]; exact Nat.le_trans (Nat.div_le_self _ _) h.small
    view := hview
    iter := ⟨⟨0, (Flatten.group n l).length, ⟨c⟩⟩, by simp [hlen, Res.map], range_iterates hview⟩ }


/-- Grouping items followed by part of the flattened new arrays. -/
theorem group_half {n : Nat} (hn : 0 < n) (A B : List (FixArr O n)) (k : Nat) :
    Flatten.group n (Flatten.flat A ++ (Flatten.flat B).take k) =
      A ++ B.take (min k (B.length * n) / n) := by
  apply Flatten.flat_inj hn
  rw [flat_group_take hn, Flatten.flat_append]
  have hm : (Flatten.flat A ++ (Flatten.flat B).take k).length = A.length * n + min k (B.length * n) := by
    simp
  rw [hm, Nat.add_comm (A.length * n), Nat.add_mul_div_right _ _ hn, Nat.add_mul, Nat.add_comm,
    List.take_append, Flatten.flat_length, List.take_of_length_le (by simp), List.take_take]
  congr 1
  rw [Flatten.flat_take, Nat.add_sub_cancel_left]
  congr 1
  have h1 := Nat.div_mul_le_self (min k (B.length * n)) n
  omega

/-! ## Nullable items -/

theorem vis_validity {K : Coll O} {c : K.C} {b : Bitmap} {l : List O} (h : Vis K c l) (hb : b.Inv)
    (hl : b.bits ≤ l.length) : Vis (validityC K) ⟨c, some b⟩ (Validity.mask l b.abs) := by
  have hlen : (Validity.mask l b.abs).length = b.bits := by simp; omega
  refine ⟨?_, ?_, ?_, ?_⟩
  · show Validity.len K ⟨c, some b⟩ = _
    rw [hlen]; rfl
  · rw [hlen]; exact Nat.le_trans hl h.small
  · intro i hi
    rw [hlen] at hi
    obtain ⟨v, h1, h2⟩ := h.view i (by omega)
    refine ⟨if bitAt b.buffer.items (b.offset + i) then some v else none, ?_, ?_⟩
    · show Validity.view K ⟨c, some b⟩ i = _
      have : i < b.len := hi
      simp only [Validity.view, Validity.len, Res.bind, this, if_true, h1, Res.expect,
        Bitmap.view_some hb hi, Res.map]
    · rw [Validity.mask_getElem (by rw [hlen]; exact hi), Bitmap.abs_getElem]
      split
      · simp [h2, Res.map]
      · rfl
  · obtain ⟨it, h1, h2⟩ := h.iter
    refine ⟨(it, some b.iter), by simp [h1, Res.map], fun n => ?_⟩
    refine iterates_of (Rep := Validity.IterRep (Iterates K.inext K.ilen K.toOwned))
      (fun h => Validity.iterNext_nil iterates_nil h) ?_
      (fun h => Validity.iterLen_ok iterates_len h) n
      ⟨l, h2, b.abs, Bitmap.iter_rep hb, by simpa using hl, rfl⟩
    intro it o m hr
    obtain ⟨v, x, it', e1, e2, e3, e4⟩ := Validity.iterNext_cons
      (V := fun v o => K.toOwned v = .ok o) iterates_cons hr
    refine ⟨_, it', e1, ?_, e4⟩
    cases o with
    | none => rfl
    | some y =>
      simp only [Option.isSome_some, if_true, Option.some.injEq] at e3 ⊢
      rw [e2, e3]; rfl

/-! ## Lists -/

theorem vis_offsets {K : Coll O} {d : K.C} {of : RVec Int} {rows : List (List O)} {x : List O}
    (h : Vis K d (rows.flatten ++ x)) (ho : of.items = Offsets.totals 0 rows)
    (hs : rows.length + 1 ≤ byteMax) : Vis (offsetsC K) ⟨d, of⟩ rows := by
  have hlen : Offsets.len (⟨d, of⟩ : Offsets K.C) = .ok rows.length := by
    simp [Offsets.len, strictSub, ho]
  have hview : ∀ i (hi : i < rows.length), ∃ v, Offsets.view (⟨d, of⟩ : Offsets K.C) i = .ok (some v) ∧
      OffsetView.toOwned K v = .ok rows[i] := by
    intro i hi
    refine ⟨⟨⟨d, of⟩, ((rows.take i).flatten).length, ((rows.take (i + 1)).flatten).length⟩, ?_, ?_⟩
    · unfold Offsets.view
      rw [Offsets.strictAdd_one (by omega)]
      simp only [Res.bind]
      rw [ho, Offsets.totals_get _ _ _ (by omega), Offsets.totals_get _ _ _ (by omega)]
      simp [Offsets.asUsize_ofNat, Res.map]
    · have hp : rows[i] <+: (rows.flatten ++ x).drop ((rows.take i).flatten).length :=
        Offsets.prefix_row (List.prefix_append _ _) hi
      have hst : ((rows.take (i + 1)).flatten).length = ((rows.take i).flatten).length + rows[i].length := by
        rw [Offsets.flatten_take_succ _ _ hi, List.length_append]
      unfold OffsetView.toOwned OffsetView.len
      simp only [hst, strictSub, Nat.le_add_right, if_true, Nat.add_sub_cancel_left, Res.bind]
      refine Offsets.collectRange_ok rows[i] 0 fun j hj => ?_
      obtain ⟨hd, he⟩ := OffsetView.prefix_get hp hj
      obtain ⟨v, h1, h2⟩ := h.view _ hd
      have := h.small
      unfold OffsetView.view strictAdd
      dsimp only
      rw [Nat.zero_add, if_pos (by omega)]
      simp only [Res.bind]
      rw [if_pos (by omega), h1]
      simp only [Res.expect, h2, he]
  exact {
    len := hlen
    small := by unfold byteMax at hs; unfold usizeMax; omega
    view := hview
    iter := ⟨⟨0, rows.length, ⟨d, of⟩⟩, by simp [hlen, Res.map], range_iterates hview⟩ }

/-! ## States after a panic -/

/-- Readable by reference, and valid after a truncation that drops an item with `W`. -/
structure Half (W : O → Prop) {R : Realloc O} (L : LawfulR R) (c : R.C) (l : List O) : Prop where
  vis : Vis R.toColl c l
  trunc : ∀ n, (∃ x ∈ l.drop n, W x) → ∃ c', R.truncate c n = (c', .ok) ∧ L.Inv c' ∧ L.abs c' = l.take n

/-- What a panic of `extend` leaves has `P`. -/
def PanicE {R : Realloc O} (L : LawfulR R) (P : R.C → List O → Prop) : Prop :=
  ∀ {c c' s}, L.Inv c → R.extend c s = (c', .panic) → ∃ k, P c' (L.abs c ++ s.items.take k)

/-- What a panic of `try_extend` leaves has `P`. -/
def PanicT {R : Realloc O} (L : LawfulR R) (P : R.C → List O → Prop) : Prop :=
  ∀ {w w' c c' s}, L.Inv c → R.tryExtend w c s = (c', .panic, w') →
    ∃ k, P c' (L.abs c ++ s.items.take k)

/-- What a panic of `extend` leaves. -/
def HoldE (W : O → Prop) {R : Realloc O} (L : LawfulR R) : Prop :=
  ∀ {c c' s}, L.Inv c → R.extend c s = (c', .panic) → ∃ k, Half W L c' (L.abs c ++ s.items.take k)

/-- What a panic of `try_extend` leaves. -/
def HoldT (W : O → Prop) {R : Realloc O} (L : LawfulR R) : Prop :=
  ∀ {w w' c c' s}, L.Inv c → R.tryExtend w c s = (c', .panic, w') →
    ∃ k, Half W L c' (L.abs c ++ s.items.take k)

variable {R : Realloc O} {L : LawfulR R} {W : O → Prop}

theorem Half.of_inv (W : O → Prop) {c : R.C} {l : List O} (h : L.Inv c) (hl : L.abs c = l) :
    Half W L c l := by
  subst hl
  refine ⟨Vis.of_inv L.toLawfulColl h, fun n _ => ?_⟩
  obtain ⟨c', h1, h2, h3, -⟩ := L.trunc_ok n h
  exact ⟨c', h1, h2, h3⟩

theorem Half.mono {W' : O → Prop} (hw : ∀ x, W' x → W x) {c : R.C} {l : List O} (h : Half W L c l) :
    Half W' L c l :=
  ⟨h.vis, fun n ⟨x, h1, h2⟩ => h.trunc n ⟨x, h1, hw x h2⟩⟩

theorem HoldE.mono {W' : O → Prop} (hw : ∀ x, W' x → W x) (h : HoldE W L) : HoldE W' L := by
  intro c c' s hc he
  obtain ⟨k, h1⟩ := h hc he
  exact ⟨k, h1.mono hw⟩

theorem HoldT.mono {W' : O → Prop} (hw : ∀ x, W' x → W x) (h : HoldT W L) : HoldT W' L := by
  intro w w' c c' s hc he
  obtain ⟨k, h1⟩ := h hc he
  exact ⟨k, h1.mono hw⟩

theorem KeepE.hold (W : O → Prop) (h : KeepE L) : HoldE W L := by
  intro c c' s hc he
  obtain ⟨h1, k, h2⟩ := h hc he
  exact ⟨k, Half.of_inv W h1 h2⟩

theorem KeepT.hold (W : O → Prop) (h : KeepT L) : HoldT W L := by
  intro w w' c c' s hc he
  obtain ⟨h1, k, h2⟩ := h hc he
  exact ⟨k, Half.of_inv W h1 h2⟩

/-- Some element of the array has `W`. -/
def InArr (W : O → Prop) {n : Nat} (a : FixArr O n) : Prop := ∃ y ∈ a.val, W y

/-- Some element of the row has `W`. -/
def InRow (W : O → Prop) (r : List O) : Prop := ∃ y ∈ r, W y

/-- The item has `W`; if it is null, whatever it hides has. -/
def InOpt (W : O → Prop) : Option O → Prop
  | none => ∀ y, W y
  | some y => W y

theorem flat_drop {n : Nat} (l : List (FixArr O n)) (k : Nat) :
    Flatten.flat (l.drop k) = (Flatten.flat l).drop (k * n) := by
  have h1 : Flatten.flat l = Flatten.flat (l.take k) ++ Flatten.flat (l.drop k) := by
    rw [← Flatten.flat_append, List.take_append_drop]
  by_cases hk : k ≤ l.length
  · rw [h1, List.drop_left' (by simp [Nat.min_eq_left hk])]
  · have : l.length * n ≤ k * n := Nat.mul_le_mul_right _ (by omega)
    rw [List.drop_of_length_le (by omega), List.drop_of_length_le (by simpa using this)]
    rfl

theorem half_flatten {n : Nat} (hn : 0 < n) {c : R.C} {l : List O} (h : Half W L c l) :
    Half (InArr W) (flattenL L n hn) ⟨c⟩ (Flatten.group n l) := by
  have hv := vis_flatten hn h.vis
  refine ⟨hv, fun k ⟨a, ha, y, hy, hw⟩ => ?_⟩
  have hk : k < (Flatten.group n l).length := by
    have := List.length_pos_of_mem ha; simp at this; omega
  have hlen : Flatten.len R.toColl n ⟨c⟩ = .ok (Flatten.group n l).length := hv.len
  have hlt : k * n < l.length := by
    rw [group_length hn] at hk
    have h1 := Nat.mul_le_mul_right n (Nat.succ_le_of_lt hk)
    rw [Nat.succ_mul] at h1
    have h2 := Nat.div_mul_le_self l.length n
    omega
  have hsm := h.vis.small
  obtain ⟨c', t1, t2, t3⟩ := h.trunc (k * n) ⟨y, by
    have h1 : y ∈ Flatten.flat ((Flatten.group n l).drop k) := List.mem_flatMap.mpr ⟨a, ha, hy⟩
    rw [flat_drop, flat_group_take hn, List.drop_take] at h1
    exact List.mem_of_mem_take h1, hw⟩
  have hab : L.abs c' = Flatten.flat ((Flatten.group n l).take k) := by
    rw [t3, Flatten.flat_take, flat_group_take hn, List.take_take, Nat.min_eq_left]
    rw [group_length hn] at hk
    exact Nat.mul_le_mul_right n (Nat.le_of_lt hk)
  obtain ⟨h6, h7⟩ := flat_inv_of L (c := ⟨c'⟩) hn t2 hab
  refine ⟨⟨c'⟩, ?_, h6, h7⟩
  simp only [flattenR, hlen, hk, if_true, strictMul_ok (show k * n ≤ usizeMax by omega), t1]

theorem mask_drop {l : List O} {bs : List Bool} {n : Nat} {x : Option O}
    (hx : x ∈ (Validity.mask l bs).drop n) (hw : InOpt W x) : ∃ y ∈ l.drop n, W y := by
  obtain ⟨i, hi, rfl⟩ := List.getElem_of_mem hx
  simp only [List.length_drop] at hi
  have hl : n + i < l.length := by
    have : n + i < (Validity.mask l bs).length := by omega
    simp at this; omega
  refine ⟨l[n + i], ?_, ?_⟩
  · have : i < (l.drop n).length := by simp; omega
    rw [← List.getElem_drop (h := this)]
    exact List.getElem_mem _
  · rw [List.getElem_drop, Validity.mask_getElem (by omega)] at hw
    split at hw
    · exact hw
    · exact hw _

theorem half_validity {c : R.C} {m : Bitmap} {l : List O} (h : Half W L c l) (hm : m.Inv)
    (hl : m.bits ≤ l.length) : Half (InOpt W) (validityL L) ⟨c, some m⟩ (Validity.mask l m.abs) := by
  refine ⟨vis_validity h.vis hm hl, fun n ⟨x, hx, hw⟩ => ?_⟩
  obtain ⟨c', t1, t2, t3⟩ := h.trunc n (mask_drop hx hw)
  have hbits : (m.truncate n).bits = min n m.bits := by
    have := congrArg List.length (Bitmap.truncate_abs m n); simpa using this
  refine ⟨⟨c', some (m.truncate n)⟩, ?_, ?_, ?_⟩
  · show Validity.truncate R ⟨c, some m⟩ n = _
    simp [Validity.truncate, t1]
  · exact Validity.inv_mk t2 (Bitmap.truncate_inv n hm) (by rw [hbits, t3]; simp; omega)
  · show Validity.abs L.toLawfulColl ⟨c', some (m.truncate n)⟩ = _
    rw [Validity.abs_some, t3, Bitmap.truncate_abs, Validity.mask_take]

theorem flatten_holdE {n : Nat} (hn : 0 < n) (h : HoldE W L) : HoldE (InArr W) (flattenL L n hn) := by
  intro c c' s hc he
  simp only [flattenR, Prod.mk.injEq] at he
  obtain ⟨rfl, he⟩ := he
  obtain ⟨k, h1⟩ := h hc.1 (Prod.ext rfl he)
  rw [← flat_abs hn hc, Flatten.items_flatSrc] at h1
  have h2 := half_flatten hn h1
  rw [group_half hn] at h2
  exact ⟨_, h2⟩

theorem flatten_holdT {n : Nat} (hn : 0 < n) (h : HoldT W L) : HoldT (InArr W) (flattenL L n hn) := by
  intro w w' c c' s hc he
  simp only [flattenR, Prod.mk.injEq] at he
  obtain ⟨rfl, he, rfl⟩ := he
  obtain ⟨k, h1⟩ := h hc.1 (Prod.ext rfl (Prod.ext he rfl))
  rw [← flat_abs hn hc, Flatten.items_flatSrc] at h1
  have h2 := half_flatten hn h1
  rw [group_half hn] at h2
  exact ⟨_, h2⟩

namespace Validity

variable {P : R.C → List O → Prop} {Q : Validity R.C → List (Option O) → Prop}

/-- What a panic leaves of the values makes up, with a bitmap, what it leaves of the items. -/
def MaskQ (P : R.C → List O → Prop) (Q : Validity R.C → List (Option O) → Prop) : Prop :=
  ∀ {c m l}, P c l → Bitmap.Inv m → m.bits ≤ l.length → Q ⟨c, some m⟩ (mask l m.abs)

theorem extendLoop_leaves (hk : PanicE L P) (hi : ∀ {v}, Inv L.toLawfulColl v → Q v (abs L.toLawfulColl v))
    (hq : MaskQ P Q) (s : Src (Option O)) : ∀ (c : R.C) (m : Bitmap),
    Mid (L := L) c m → ∀ v', extendLoop R c m s = (v', .panic) →
      ∃ k, Q v' (mask (L.abs c) m.abs ++ s.items.take k) := by
  intro c m hm v' h
  rw [extendLoop] at h
  have htk := Src.takeChunk_items validityChunk s
  have hne := L.ext_ne (values R.dflt (Src.takeChunk validityChunk s).1) hm.inv
  generalize hE : R.extend c (values R.dflt (Src.takeChunk validityChunk s).1) = E at *
  obtain ⟨c1, o1⟩ := E
  cases o1 with
  | err => exact absurd rfl hne
  | panic =>
    simp only [Prod.mk.injEq, and_true] at h
    subst h
    obtain ⟨k, e1⟩ := hk hm.inv hE
    refine ⟨0, ?_⟩
    have := hq e1 hm.binv (by simp [hm.len])
    rw [mask_append_left (by simp [hm.len])] at this
    simpa using this
  | ok =>
    obtain ⟨e1, e2, e3⟩ := L.ext_ok hm.inv hE
    rw [values_items, htk] at e2
    have hfl : flags (Src.takeChunk validityChunk s).1 = (s.items.take validityChunk).map Option.isSome := by
      simp [flags, htk]
    simp only [hfl] at h
    obtain ⟨b1, b2, b3, b4, b5, -, -⟩ := Bitmap.extend_spec
      (s := Src.ofList ((s.items.take validityChunk).map Option.isSome)) hm.binv
    generalize hF : m.extend (Src.ofList ((s.items.take validityChunk).map Option.isSome)) = F at *
    obtain ⟨bb, o2⟩ := F
    simp only [Src.items_ofList] at b1 b3 b4 b5 h
    cases o2 with
    | err => exact absurd rfl b3
    | panic =>
      simp only [Prod.mk.injEq, and_true] at h
      subst h
      obtain ⟨k, b5⟩ := b5 rfl
      obtain ⟨m1, m2⟩ := mask_half hm e2 b5
      obtain ⟨j, hj⟩ := take_prefix (A := mask (L.abs c) m.abs) (l := s.items) (n := validityChunk) (k := k)
      refine ⟨j, ?_⟩
      have := hi (v := ⟨c1, some bb⟩) (inv_mk e1 b1 m2)
      rw [abs_some, m1, hj] at this
      exact this
    | ok =>
      obtain ⟨b4, -⟩ := b4 rfl
      obtain ⟨m1, m2⟩ := hm.step e1 e2 b1 b4
      simp only at h
      split at h
      · simp at h
      · next hge =>
        have hge' : validityChunk ≤ s.items.length := by
          simp only [List.length_map, List.length_take] at hge; omega
        obtain ⟨r1, r2⟩ := Src.takeChunk_rest_items validityChunk s hge'
        have hdec : (Src.takeChunk validityChunk s).2.length < List.length s := by
          have := takeChunk_length validityChunk s
          rw [htk, List.length_take, Nat.min_eq_left hge'] at this
          unfold validityChunk at this ⊢; omega
        obtain ⟨k, i2⟩ := extendLoop_leaves hk hi hq (Src.takeChunk validityChunk s).2 c1 bb m1 v' h
        refine ⟨validityChunk + k, ?_⟩
        rw [m2, r1, take_rest] at i2
        exact i2
termination_by s.length

theorem leavesE (hk : PanicE L P) (hi : ∀ {v}, Inv L.toLawfulColl v → Q v (abs L.toLawfulColl v))
    (hq : MaskQ P Q) : PanicE (validityL L) Q := by
  intro v v' s hv h
  replace h : extend R v s = (v', .panic) := h
  unfold extend at h
  cases hm : materialize R.toColl v with
  | panic =>
    rw [hm] at h
    simp only [Prod.mk.injEq, and_true] at h
    subst h
    exact ⟨0, by simpa using hi hv⟩
  | ok m =>
    rw [hm] at h
    obtain ⟨m1, m2, m3, m4⟩ := materialize_ok hv hm
    obtain ⟨c, h1, h2, h3, h4⟩ := L.trunc_ok m.len hv.1
    simp only [h1] at h
    obtain ⟨d1, d2⟩ := Mid.of_trunc m1 h2 h3
    have := extendLoop_leaves hk hi hq s c m d1 v' h
    rw [d2, m2] at this
    exact this

theorem tryExtendLoop_leaves (hk : PanicT L P) (hq : MaskQ P Q) (len0 : Nat) (s : Src (Option O)) :
    ∀ (w : World) (c : R.C) (m : Bitmap),
    Mid (L := L) c m → ∀ v' w', tryExtendLoop R len0 w c m s = (v', .panic, w') →
      ∃ k, Q v' (mask (L.abs c) m.abs ++ s.items.take k) := by
  intro w c m hm v' w' h
  rw [tryExtendLoop] at h
  have htk := Src.takeChunk_items validityChunk s
  generalize hE : R.tryExtend w c (values R.dflt (Src.takeChunk validityChunk s).1) = E at *
  obtain ⟨c1, o1, w1⟩ := E
  cases o1 with
  | err =>
    simp only at h
    obtain ⟨e1, e2⟩ := L.tryExt_err hm.inv hE
    have hm1 : Mid (L := L) c1 m := ⟨e1, hm.binv, by rw [e2]; exact hm.len⟩
    exact absurd rfl (rollback_np hm1.inv_v h)
  | panic =>
    simp only [Prod.mk.injEq, true_and] at h
    obtain ⟨rfl, rfl⟩ := h
    obtain ⟨k, e1⟩ := hk hm.inv hE
    refine ⟨0, ?_⟩
    have := hq e1 hm.binv (by simp [hm.len])
    rw [mask_append_left (by simp [hm.len])] at this
    simpa using this
  | ok =>
    obtain ⟨e1, e2, e3⟩ := L.tryExt_ok hm.inv hE
    rw [values_items, htk] at e2
    have hfl : flags (Src.takeChunk validityChunk s).1 = (s.items.take validityChunk).map Option.isSome := by
      simp [flags, htk]
    simp only [hfl] at h
    generalize hF : m.tryExtend w1 (Src.ofList ((s.items.take validityChunk).map Option.isSome)) = F at *
    obtain ⟨bb, o2, w2⟩ := F
    obtain ⟨b1, b2, b3, b4, b5, b6, b7⟩ := Bitmap.tryExtend_spec hm.binv hF
    simp only [Src.items_ofList, Src.panics_ofList] at b4 b6
    cases o2 with
    | panic => exact absurd (b6 rfl).1 (by simp)
    | err =>
      simp only at h
      obtain ⟨b5, b8⟩ := b5 rfl
      have hbits : bb.bits = m.bits := by
        have := congrArg List.length b5; simpa using this
      have hi1 : Inv L.toLawfulColl ⟨c1, some bb⟩ := inv_mk e1 b1 (by rw [e2, hbits]; simp [hm.len])
      exact absurd rfl (rollback_np hi1 h)
    | ok =>
      obtain ⟨b4, -⟩ := b4 rfl
      obtain ⟨m1, m2⟩ := hm.step e1 e2 b1 b4
      simp only at h
      split at h
      · simp at h
      · next hge =>
        have hge' : validityChunk ≤ s.items.length := by
          simp only [List.length_map, List.length_take] at hge; omega
        obtain ⟨r1, r2⟩ := Src.takeChunk_rest_items validityChunk s hge'
        have hdec : (Src.takeChunk validityChunk s).2.length < List.length s := by
          have := takeChunk_length validityChunk s
          rw [htk, List.length_take, Nat.min_eq_left hge'] at this
          unfold validityChunk at this ⊢; omega
        obtain ⟨k, i2⟩ := tryExtendLoop_leaves hk hq len0 (Src.takeChunk validityChunk s).2 w2 c1 bb m1 v' w' h
        refine ⟨validityChunk + k, ?_⟩
        rw [m2, r1, take_rest] at i2
        exact i2
termination_by s.length

theorem leavesT (hk : PanicT L P) (hq : MaskQ P Q) : PanicT (validityL L) Q := by
  intro w w' v v' s hv h
  replace h : tryExtend R w v s = (v', .panic, w') := h
  unfold tryExtend at h
  simp only [len_ok hv] at h
  have hnp := tryMaterialize_np (w := w) hv
  generalize hm : tryMaterialize R.toColl w v = M at *
  obtain ⟨t, w1⟩ := M
  cases t with
  | panic => exact absurd rfl hnp
  | err => simp at h
  | ok m =>
    obtain ⟨m1, m2, m3, m4⟩ := tryMaterialize_ok hv hm
    obtain ⟨c, h1, h2, h3, h4⟩ := L.trunc_ok (abs L.toLawfulColl v).length hv.1
    simp only [h1] at h
    rw [← m3] at h3
    obtain ⟨d1, d2⟩ := Mid.of_trunc m1 h2 h3
    have := tryExtendLoop_leaves hk hq _ s w1 c m d1 v' w' h
    rw [d2, m2] at this
    exact this

theorem holdE (hk : HoldE W L) : HoldE (InOpt W) (validityL L) :=
  leavesE (P := Half W L) (Q := Half (InOpt W) (validityL L)) hk
    (fun h => Half.of_inv _ (L := validityL L) h rfl) half_validity

theorem holdT (hk : HoldT W L) : HoldT (InOpt W) (validityL L) :=
  leavesT (P := Half W L) (Q := Half (InOpt W) (validityL L)) hk half_validity

end Validity

namespace Offsets

variable {ow : OffW}

theorem row_drop {rows : List (List O)} {x : List O} {n : Nat} {r : List O}
    (hr : r ∈ rows.drop n) (hw : InRow W r) :
    ∃ y ∈ (rows.flatten ++ x).drop (rows.take n).flatten.length, W y := by
  obtain ⟨y, hy, hw⟩ := hw
  refine ⟨y, ?_, hw⟩
  have h1 : rows.flatten = (rows.take n).flatten ++ (rows.drop n).flatten := by
    rw [← List.flatten_append, List.take_append_drop]
  rw [h1, List.append_assoc, List.drop_left]
  exact List.mem_append_left _ (List.mem_flatten.mpr ⟨r, hr, hy⟩)

theorem half_offsets {d : R.C} {of : RVec Int} {rows : List (List O)} {x : List O}
    (h : Half W L d (rows.flatten ++ x)) (ho : of.items = Offsets.totals 0 rows)
    (hw : of.WF ow.lim) (hs : rows.length + 1 ≤ byteMax) :
    Half (InRow W) (offsetsL ow L) ⟨d, of⟩ rows := by
  have hv := vis_offsets h.vis ho hs
  refine ⟨hv, fun n ⟨r, hr, hp⟩ => ?_⟩
  have hn : n < rows.length := by
    have := List.length_pos_of_mem hr; simp at this; omega
  obtain ⟨d', h1, h2, h3⟩ := h.trunc (rows.take n).flatten.length (row_drop hr hp)
  have hpre : (rows.take n).flatten <+: rows.flatten ++ x := by
    refine List.IsPrefix.trans ⟨(rows.drop n).flatten, ?_⟩ (List.prefix_append _ _)
    rw [← List.flatten_append, List.take_append_drop]
  have hm : Mid L ow ⟨d', of.truncate (n + 1)⟩ (rows.take n) := by
    refine ⟨RVec.truncate_wf _ hw, h2, ?_, ?_⟩
    · simp only [RVec.truncate_items, ho]
      exact totals_take _ _ _ (by omega)
    · simp only [h3]; exact (List.prefix_iff_eq_take.mp hpre).symm
  refine ⟨_, ?_, hm.toInv.1, hm.toInv.2⟩
  show truncate R ⟨d, of⟩ n = _
  unfold truncate
  rw [show Offsets.len (⟨d, of⟩ : Offsets R.C) = .ok rows.length from hv.len]
  simp only [hn, if_true]
  rw [ho, totals_get _ _ _ (by omega)]
  simp only [asUsize_ofNat, Nat.zero_add]
  rw [strictAdd_one (by omega)]
  simp only [h1]

theorem Mid.small {c : Offsets R.C} {rows : List (List O)} (hm : Mid L ow c rows) :
    rows.length + 1 ≤ byteMax := by
  have := hm.toInv.1.small
  rw [hm.toInv.2] at this
  exact this

variable {P : R.C → List O → Prop} {Q : Offsets R.C → List (List O) → Prop}

/-- What a panic leaves of the elements makes up, with the offsets, what it leaves of the
rows. -/
def RowsQ (ow : OffW) (P : R.C → List O → Prop) (Q : Offsets R.C → List (List O) → Prop) : Prop :=
  ∀ {d of rows x}, P d (List.flatten rows ++ x) → RVec.items of = Offsets.totals 0 rows →
    of.WF ow.lim → rows.length + 1 ≤ byteMax → Q ⟨d, of⟩ rows

theorem extendLoop_leaves (hk : PanicE L P)
    (hi : ∀ {c}, Inv L.toLawfulColl ow c → Q c (abs L.toLawfulColl c)) (hq : RowsQ ow P Q) : ∀ (s : Src (List O)) (c : Offsets R.C) (rows : List (List O)),
    Mid L ow c rows → ∀ c',
    extendLoop ow R c.data c.offsets (rows.flatten.length : Int) s = (c', .panic) →
      ∃ k, Q c' (rows ++ s.items.take k)
  | [], c, rows, hm, c', h => by simp [extendLoop] at h
  | .none :: s, c, rows, hm, c', h => by simp [extendLoop] at h
  | .panic :: s, c, rows, hm, c', h => by
    simp only [extendLoop, Prod.mk.injEq, and_true] at h
    subst h
    exact ⟨0, by have := hi hm.toInv.1; rw [hm.toInv.2] at this; simpa using this⟩
  | .item r :: s, c, rows, hm, c', h => by
    simp only [extendLoop] at h
    split at h
    · next hfit =>
      generalize hV : R.reserve c.data r.length = V at *
      obtain ⟨d1, o1⟩ := V
      obtain ⟨v1, v2, v3, v4⟩ := L.reserve_ok hm.inv hV
      rw [hm.data] at v2
      cases o1 with
      | err => exact absurd rfl v3
      | panic =>
        simp only [Prod.mk.injEq, and_true] at h
        subst h
        obtain ⟨i1, i2⟩ := keep_trailing hm v1 (x := []) (by simpa using v2)
        exact ⟨0, by have := hi i1; rw [i2] at this; simpa using this⟩
      | ok =>
        simp only at h
        have hne := L.ext_ne (Src.ofList r) v1
        generalize hE : R.extend d1 (Src.ofList r) = E at *
        obtain ⟨d2, o2⟩ := E
        cases o2 with
        | err => exact absurd rfl hne
        | panic =>
          simp only [Prod.mk.injEq, and_true] at h
          subst h
          obtain ⟨k, e1⟩ := hk v1 hE
          rw [v2] at e1
          exact ⟨0, by simpa using hq e1 hm.items hm.wf hm.small⟩
        | ok =>
          simp only at h
          obtain ⟨e1, e2, -⟩ := L.ext_ok v1 hE
          rw [v2, Src.items_ofList] at e2
          obtain ⟨k, k1, k2, k3, k4, k5, k6⟩ := RVec.extend_items ow.lim
            [.item ((rows.flatten.length : Int) + r.length)] c.offsets
          replace k6 := k6 hm.wf
          generalize hF : RVec.extend ow.lim c.offsets [.item ((rows.flatten.length : Int) + r.length)] = F at *
          obtain ⟨of, o3⟩ := F
          simp only at h k1 k2 k3 k4 k5 k6
          have hone : k = 1 → Mid L ow ⟨d2, of⟩ (rows ++ [r]) := by
            rintro rfl
            refine ⟨k6, e1, ?_, by simp [e2]⟩
            simp only [k2, hm.items, totals_snoc]
            simp [Src.items]
          cases o3 with
          | err => exact absurd rfl k4
          | panic =>
            simp only [Prod.mk.injEq, and_true] at h
            subst h
            have hk1 : k = 0 ∨ k = 1 := by simp [Src.items] at k1; omega
            rcases hk1 with rfl | rfl
            · have hof : of.items = totals 0 rows := by
                rw [k2, hm.items]; simp
              obtain ⟨i1, i2⟩ := Rep.toInv (L := L.toLawfulColl) (c := ⟨d2, of⟩) (ow := ow) k6 ⟨e1, hof, by rw [e2]; exact List.prefix_append _ _⟩
              exact ⟨0, by have := hi i1; rw [i2] at this; simpa using this⟩
            · obtain ⟨i1, i2⟩ := (hone rfl).toInv
              exact ⟨1, by have := hi i1; rw [i2] at this; simpa [Src.items] using this⟩
          | ok =>
            obtain ⟨rfl, -⟩ := k3 rfl
            have hm' := hone rfl
            have hpos : ((rows.flatten.length : Int) + r.length) = (((rows ++ [r]).flatten.length : Nat) : Int) := by
              simp
            simp only [hpos] at h
            obtain ⟨k, i2⟩ := extendLoop_leaves hk hi hq s ⟨d2, of⟩ (rows ++ [r]) hm' c' h
            exact ⟨k + 1, by simpa [Src.items] using i2⟩
    · next hfit =>
      simp only [Prod.mk.injEq, and_true] at h
      subst h
      exact ⟨0, by have := hi hm.toInv.1; rw [hm.toInv.2] at this; simpa using this⟩

theorem leavesE (hk : PanicE L P)
    (hi : ∀ {c}, Inv L.toLawfulColl ow c → Q c (abs L.toLawfulColl c)) (hq : RowsQ ow P Q) :
    PanicE (offsetsL ow L) Q := by
  intro c c' s hc h
  replace h : extend ow R c s = (c', .panic) := h
  unfold extend at h
  have hc' : Inv L.toLawfulColl ow c := hc
  rw [last_ok hc'.2.items] at h
  simp only [asUsize_ofNat] at h
  obtain ⟨d, h1, h2, h3, h4⟩ := L.trunc_ok (abs L.toLawfulColl c).flatten.length hc'.2.inv
  simp only [h1] at h
  exact extendLoop_leaves hk hi hq s ⟨d, c.offsets⟩ _ (Mid.of_inv hc' h2 h3) c' h

theorem holdE (hk : HoldE W L) : HoldE (InRow W) (offsetsL ow L) :=
  leavesE (P := Half W L) (Q := Half (InRow W) (offsetsL ow L)) hk
    (fun h => Half.of_inv _ (L := offsetsL ow L) h rfl) half_offsets

end Offsets

end

end Narrow
