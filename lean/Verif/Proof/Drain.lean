import Verif.Proof.Reach

/-!
# What a caught panic leaves to be consumed

The damage that a caught panic does lies behind the items: `into_iter_owned` yields all of
them before it meets it, and nullable items and rows are yielded without meeting it.
-/

namespace Narrow

open Spec

section
variable {O : Type} {K : Coll O}

/-- The iterator yields the items and reports how many are left, up to the last. -/
def Yields (K : Coll O) : K.J → List O → Prop
  | it, [] => K.jlen it = .ok 0
  | it, o :: l => K.jlen it = .ok (l.length + 1) ∧ ∃ it', K.jnext it = .ok (some o, it') ∧ Yields K it' l

theorem Yields.len {it : K.J} {l : List O} (h : Yields K it l) : K.jlen it = .ok l.length := by
  cases l with
  | nil => exact h
  | cons o l => exact h.1

theorem Yields.polls : ∀ {l : List O} {it : K.J}, Yields K it l → ∀ n, n ≤ l.length →
    ∃ it', Spec.polls K.jnext n it = .ok ((l.take n).map some, it') ∧ K.jlen it' = .ok (l.length - n)
  | l, it, h, 0, _ => ⟨it, rfl, h.len⟩
  | o :: l, it, h, n + 1, hn => by
    obtain ⟨-, it1, h1, h2⟩ := h
    obtain ⟨it2, h3, h4⟩ := h2.polls n (by simpa using hn)
    refine ⟨it2, by simp [Spec.polls, h1, h3, Res.map], ?_⟩
    rw [h4]; simp

theorem yields_of_iterates : ∀ {l : List O} {it : K.J}, Iterates K.jnext K.jlen Res.ok it l → Yields K it l
  | [], _, h => iterates_len h
  | _ :: _, _, h => by
    obtain ⟨v, it', h1, h2, h3⟩ := iterates_cons h
    cases h2
    exact ⟨iterates_len h, it', h1, yields_of_iterates h3⟩

/-- Everything can be read, and consumed up to the last item. -/
structure Ready (K : Coll O) (c : K.C) (l : List O) : Prop where
  vis : Vis K c l
  into : ∃ it, K.into c = .ok it ∧ Yields K it l

theorem Ready.drains {c : K.C} {l : List O} (h : Ready K c l) : Drains K c l := by
  obtain ⟨it, h1, h2⟩ := h.into
  exact ⟨it, h1, h2.polls⟩

/-- Everything can be read and consumed. -/
structure Full (K : Coll O) (c : K.C) (l : List O) : Prop where
  vis : Vis K c l
  into : ∃ it, K.into c = .ok it ∧ Iterates K.jnext K.jlen Res.ok it l

theorem Full.ready {c : K.C} {l : List O} (h : Full K c l) : Ready K c l := by
  obtain ⟨it, h1, h2⟩ := h.into
  exact ⟨h.vis, it, h1, yields_of_iterates h2⟩

theorem Full.reads {c : K.C} {l : List O} (h : Full K c l) : Reads K c l :=
  ⟨h.vis.sees.len, h.vis.sees.owned, h.vis.sees.iter, h.into⟩

theorem Full.of_inv (L : LawfulColl K) {c : K.C} (h : L.Inv c) : Full K c (L.abs c) :=
  ⟨Vis.of_inv L h, (reads_abs L h).into⟩

/-! ## Fixed-size lists -/

theorem chunkRest_yields : ∀ {l m : List O} {it : K.J}, Yields K it (l ++ m) →
    ∃ it', Flatten.chunkRest K l.length it = .ok (l.map some, it') ∧ Yields K it' m
  | [], m, it, h => ⟨it, rfl, h⟩
  | a :: l, m, it, h => by
    obtain ⟨-, it1, h1, h2⟩ := h
    obtain ⟨it2, h3, h4⟩ := chunkRest_yields h2
    exact ⟨it2, by simp [Flatten.chunkRest, h1, h3, Res.map], h4⟩

theorem yields_flatten {n : Nat} (hn : 0 < n) (A : List (FixArr O n)) : ∀ (x : List O) (it : K.J),
    x.length < n → Yields K it (Flatten.flat A ++ x) → Yields (flattenC n K) it A := by
  induction A with
  | nil =>
    intro x it hx h
    show Flatten.chunksLen K n it = .ok 0
    simp only [Flatten.chunksLen, h.len, Res.bind, strictDiv, if_neg (show ¬ n = 0 by omega)]
    have : (Flatten.flat ([] : List (FixArr O n)) ++ x).length = x.length := rfl
    rw [this, Nat.div_eq_of_lt hx]
  | cons a A ih =>
    intro x it hx h
    have hl : (Flatten.flat (a :: A) ++ x).length / n = A.length + 1 := by
      rw [List.length_append, Flatten.flat_length, List.length_cons, Nat.add_comm,
        Nat.add_mul_div_right _ _ hn, Nat.div_eq_of_lt hx, Nat.zero_add]
    refine ⟨?_, ?_⟩
    · show Flatten.chunksLen K n it = _
      simp only [Flatten.chunksLen, h.len, Res.bind, strictDiv, if_neg (show ¬ n = 0 by omega), hl]
    · obtain ⟨a, ha⟩ := a
      cases a with
      | nil => simp at ha; omega
      | cons y a =>
        rw [Flatten.flat_cons, List.append_assoc] at h
        obtain ⟨-, it1, h1, h2⟩ := h
        obtain ⟨it2, h3, h4⟩ := chunkRest_yields h2
        have hlen : a.length = n - 1 := by simp at ha; omega
        refine ⟨it2, ?_, ih x it2 hx h4⟩
        have h5 := Flatten.toFix_some (⟨y :: a, ha⟩ : FixArr O n)
        simp only [List.map_cons] at h5
        rw [hlen] at h3
        show Flatten.chunksNext K n it = _
        simp [Flatten.chunksNext, h1, h3, h5, Res.map, if_neg (show ¬ n = 0 by omega)]

theorem ready_flatten {n : Nat} (hn : 0 < n) {c : K.C} {l : List O} (h : Ready K c l) :
    Ready (flattenC n K) ⟨c⟩ (Flatten.group n l) := by
  obtain ⟨it, h1, h2⟩ := h.into
  refine ⟨vis_flatten hn h.vis, it, h1, yields_flatten hn _ (l.drop (l.length / n * n)) it ?_ ?_⟩
  · rw [List.length_drop]
    have := Nat.div_add_mod l.length n
    have h3 := Nat.mod_lt l.length hn
    rw [Nat.mul_comm] at this
    omega
  · rw [flat_group_take hn, List.take_append_drop]; exact h2

/-! ## Nullable items -/

theorem full_validity {c : K.C} {b : Bitmap} {l : List O} (h : Ready K c l) (hb : b.Inv)
    (hl : b.bits ≤ l.length) : Full (validityC K) ⟨c, some b⟩ (Validity.mask l b.abs) := by
  obtain ⟨it, h1, h2⟩ := h.into
  refine ⟨vis_validity h.vis hb hl, (it, some b.iter), by simp [h1, Res.map], fun n => ?_⟩
  refine iterates_of (Rep := fun it m => ∃ xs bi bs, Yields K it.1 xs ∧ it.2 = some bi ∧
    BitIter.Rep bi bs ∧ bs.length ≤ xs.length ∧ m = Validity.mask xs bs) ?_ ?_ ?_ n
    ⟨l, _, b.abs, h2, rfl, Bitmap.iter_rep hb, by simpa using hl, rfl⟩
  · rintro ⟨i, ob⟩ ⟨xs, bi, bs, e1, rfl, e3, e4, e5⟩
    have hbs : bs = [] := by
      have := congrArg List.length e5
      simp only [List.length_nil, Validity.mask_length] at this
      exact List.length_eq_zero_iff.mp (by omega)
    subst hbs
    obtain ⟨bi', q1, q2⟩ := BitIter.next_nil e3
    exact ⟨(i, some bi'), by simp [Validity.iterNext, q1], xs, bi', [], e1, rfl, q2, e4, e5⟩
  · rintro ⟨i, ob⟩ o m ⟨xs, bi, bs, e1, rfl, e3, e4, e5⟩
    cases bs with
    | nil => simp at e5
    | cons v bs =>
      cases xs with
      | nil => simp at e4
      | cons x xs =>
        obtain ⟨bi', q1, q2⟩ := BitIter.next_cons e3
        obtain ⟨-, i', q3, q4⟩ := e1
        have e6 : o = (if v then some x else none) ∧ m = Validity.mask xs bs := by
          simpa [Validity.mask] using e5
        refine ⟨o, (i', some bi'), ?_, rfl, xs, bi', bs, q4, rfl, q2, by simpa using e4, e6.2⟩
        simp [Validity.iterNext, q1, q3, Res.map, e6.1]
  · rintro ⟨i, ob⟩ m ⟨xs, bi, bs, e1, rfl, e3, e4, rfl⟩
    show Validity.iterLen K.jlen (i, some bi) = _
    simp [Validity.iterLen, e1.len, Res.bind, BitIter.len_ok e3, Res.map]

/-! ## Lists -/

theorem full_offsets {d : K.C} {of : RVec Int} {rows : List (List O)} {x : List O}
    (h : Vis K d (rows.flatten ++ x)) (ho : of.items = Offsets.totals 0 rows)
    (hs : rows.length + 1 ≤ byteMax) : Full (offsetsC K) ⟨d, of⟩ rows := by
  obtain ⟨t, ht⟩ := Offsets.totals_cons 0 rows
  refine ⟨vis_offsets h ho hs, ⟨d, t, ((0 : Nat) : Int)⟩, ?_, fun n => ?_⟩
  · show Offsets.into _ = _
    unfold Offsets.into
    rw [show (⟨d, of⟩ : Offsets K.C).offsets.items = _ from ho, ht]
  refine iterates_of (Rep := fun it m => ∃ p, it.data = d ∧ it.position = ((p : Nat) : Int) ∧
    ((p : Nat) : Int) :: it.offsets = Offsets.totals p m ∧
    m.flatten <+: (rows.flatten ++ x).drop p) ?_ ?_ ?_ n
    ⟨0, rfl, rfl, ht.symm, List.prefix_append _ _⟩
  · rintro it ⟨p, h1, h2, h3, h4⟩
    have : it.offsets = [] := by simpa [Offsets.totals] using h3
    exact ⟨it, by simp [Offsets.intoNext, this], p, h1, h2, h3, h4⟩
  · rintro it r m ⟨p, h1, h2, h3, h4⟩
    simp only [Offsets.totals, List.cons.injEq, true_and] at h3
    obtain ⟨t, ht⟩ := Offsets.totals_cons (p + r.length) m
    rw [ht] at h3
    have hr : r <+: (rows.flatten ++ x).drop p := List.IsPrefix.trans (by simp) h4
    refine ⟨r, ⟨it.data, t, ((p + r.length : Nat) : Int)⟩, ?_, rfl, p + r.length, h1, rfl, ht.symm, ?_⟩
    · show Offsets.intoNext K it = _
      unfold Offsets.intoNext
      rw [h3, h2, h1]
      simp only [Offsets.asUsize_ofNat, Res.bind, Nat.add_sub_cancel_left]
      rw [Offsets.collectRange_ok r p fun j hj => ?_]
      · rfl
      · obtain ⟨hd, he⟩ := OffsetView.prefix_get hr hj
        obtain ⟨v, hx, hv⟩ := h.view _ hd
        rw [hx]
        simp only [Res.expect]
        rw [hv, he]
    · obtain ⟨t, ht⟩ := h4
      refine ⟨t, ?_⟩
      rw [← List.drop_drop, ← ht, List.flatten_cons, List.append_assoc, List.drop_left]
  · rintro it m ⟨p, h1, h2, h3, h4⟩
    have := congrArg List.length h3
    simp at this
    simp [this]

/-! ## Panics -/

variable {R : Realloc O} {L : LawfulR R}

theorem KeepE.full (h : KeepE L) : PanicE L (Full R.toColl) := by
  intro c c' s hc he
  obtain ⟨h1, k, h2⟩ := h hc he
  exact ⟨k, h2 ▸ Full.of_inv L.toLawfulColl h1⟩

theorem KeepT.full (h : KeepT L) : PanicT L (Full R.toColl) := by
  intro w w' c c' s hc he
  obtain ⟨h1, k, h2⟩ := h hc he
  exact ⟨k, h2 ▸ Full.of_inv L.toLawfulColl h1⟩

theorem PanicE.ready (h : PanicE L (Full R.toColl)) : PanicE L (Ready R.toColl) := by
  intro c c' s hc he
  obtain ⟨k, h1⟩ := h hc he
  exact ⟨k, h1.ready⟩

theorem PanicT.ready (h : PanicT L (Full R.toColl)) : PanicT L (Ready R.toColl) := by
  intro w w' c c' s hc he
  obtain ⟨k, h1⟩ := h hc he
  exact ⟨k, h1.ready⟩

theorem validity_fullE (h : PanicE L (Ready R.toColl)) :
    PanicE (validityL L) (Full (validityC R.toColl)) :=
  Validity.leavesE (Q := Full (validityC R.toColl)) h
    (fun hv => Full.of_inv (validityL L).toLawfulColl hv) full_validity

theorem validity_fullT (h : PanicT L (Ready R.toColl)) :
    PanicT (validityL L) (Full (validityC R.toColl)) :=
  Validity.leavesT (Q := Full (validityC R.toColl)) h full_validity

theorem offsets_fullE {ow : OffW} (h : PanicE L (Ready R.toColl)) :
    PanicE (offsetsL ow L) (Full (offsetsC R.toColl)) :=
  Offsets.leavesE (Q := Full (offsetsC R.toColl)) h
    (fun hv => Full.of_inv (offsetsL ow L).toLawfulColl hv) fun h1 h2 _ h4 => full_offsets h1.vis h2 h4

theorem flatten_readyE {n : Nat} (hn : 0 < n) (h : PanicE L (Ready R.toColl)) :
    PanicE (flattenL L n hn) (Ready (flattenC n R.toColl)) := by
  intro c c' s hc he
  simp only [flattenR, Prod.mk.injEq] at he
  obtain ⟨rfl, he⟩ := he
  obtain ⟨k, h1⟩ := h hc.1 (Prod.ext rfl he)
  rw [← flat_abs hn hc, Flatten.items_flatSrc] at h1
  have h2 := ready_flatten hn h1
  rw [group_half hn] at h2
  exact ⟨_, h2⟩

theorem flatten_readyT {n : Nat} (hn : 0 < n) (h : PanicT L (Ready R.toColl)) :
    PanicT (flattenL L n hn) (Ready (flattenC n R.toColl)) := by
  intro w w' c c' s hc he
  simp only [flattenR, Prod.mk.injEq] at he
  obtain ⟨rfl, he, rfl⟩ := he
  obtain ⟨k, h1⟩ := h hc.1 (Prod.ext rfl (Prod.ext he rfl))
  rw [← flat_abs hn hc, Flatten.items_flatSrc] at h1
  have h2 := ready_flatten hn h1
  rw [group_half hn] at h2
  exact ⟨_, h2⟩

theorem null_readyE (nl : Bool) (h : PanicE L (Ready R.toColl)) :
    PanicE (nullL nl L) (Ready (nullR nl R).toColl) := by
  cases nl
  · exact h
  · exact PanicE.ready (validity_fullE h)

theorem null_readyT (nl : Bool) (h : PanicT L (Ready R.toColl)) :
    PanicT (nullL nl L) (Ready (nullR nl R).toColl) := by
  cases nl
  · exact h
  · exact PanicT.ready (validity_fullT h)

end

theorem readyE_base : (t : Ty) → (h : t.WF) → PanicE (baseL t h) (Ready (baseR t).toColl)
  | .bool, _ => PanicE.ready (KeepE.full bitmap_keepE)
  | .prim _, _ => PanicE.ready (KeepE.full (vec_keepE _ _))
  | .fsl _ nl t, h => flatten_readyE h.1 (null_readyE nl (readyE_base t h.2))
  | .vsl _ nl t, h => PanicE.ready (offsets_fullE (null_readyE nl (readyE_base t h)))

theorem readyT_base : (t : Ty) → (h : t.WF) → PanicT (baseL t h) (Ready (baseR t).toColl)
  | .bool, _ => PanicT.ready (KeepT.full bitmap_keepT)
  | .prim _, _ => PanicT.ready (KeepT.full (ExactT.keep (vec_exactT _ _)))
  | .fsl _ nl t, h => flatten_readyT h.1 (null_readyT nl (readyT_base t h.2))
  | .vsl _ _ _, _ => PanicT.ready (KeepT.full (ExactT.keep Offsets.exactT))

theorem readyE_array {nl : Bool} {t : Ty} (h : t.WF) :
    PanicE (arrayL nl t h) (Ready (arrayR nl t).toColl) :=
  null_readyE nl (readyE_base t h)

theorem readyT_array {nl : Bool} {t : Ty} (h : t.WF) :
    PanicT (arrayL nl t h) (Ready (arrayR nl t).toColl) :=
  null_readyT nl (readyT_base t h)

theorem fullE_array : (nl : Bool) → (t : Ty) → (h : t.WF) → ¬Grouped nl t →
    PanicE (arrayL nl t h) (Full (arrayR nl t).toColl)
  | true, t, h, _ => validity_fullE (readyE_base t h)
  | false, .bool, _, _ => KeepE.full bitmap_keepE
  | false, .prim p, h, _ => KeepE.full (L := baseL (.prim p) h) (vec_keepE _ _)
  | false, .fsl _ _ _, _, hg => absurd trivial hg
  | false, .vsl _ nl t, h, _ => offsets_fullE (null_readyE nl (readyE_base t h))

theorem fullT_array : (nl : Bool) → (t : Ty) → (h : t.WF) → ¬Grouped nl t →
    PanicT (arrayL nl t h) (Full (arrayR nl t).toColl)
  | true, t, h, _ => validity_fullT (readyT_base t h)
  | false, .bool, _, _ => KeepT.full bitmap_keepT
  | false, .prim p, h, _ => KeepT.full (L := baseL (.prim p) h) (ExactT.keep (vec_exactT _ _))
  | false, .fsl _ _ _, _, hg => absurd trivial hg
  | false, .vsl _ _ _, _, _ => KeepT.full (ExactT.keep Offsets.exactT)

end Narrow
