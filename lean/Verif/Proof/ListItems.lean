import Verif.Spec.ListItems
import Verif.Proof.Compose

/-! # Lists whose owned items are not `Vec` -/

namespace Narrow

open Spec

variable {O : Type}

theorem answers_of_polls {K : Coll O} : ∀ (l : List O) (fuel : Nat) (it : K.J), l.length < fuel →
    (∀ n, ∃ xs it', polls K.jnext n it = .ok (xs, it') ∧
      xs = (List.range n).map fun i => l[i]?) →
    OffsetsOf.answers K fuel it = Src.ofList l := by
  intro l
  induction l with
  | nil =>
    intro fuel it hf h
    obtain ⟨fuel, rfl⟩ : ∃ f, fuel = f + 1 := ⟨fuel - 1, by simp at hf; omega⟩
    obtain ⟨xs, it', h1, h2⟩ := h 1
    unfold OffsetsOf.answers
    simp only [polls] at h1
    cases hj : K.jnext it with
    | panic => rw [hj] at h1; cases h1
    | ok r =>
      obtain ⟨x, it2⟩ := r
      rw [hj] at h1
      simp only [Res.map, Res.ok.injEq, Prod.mk.injEq] at h1
      rw [h2] at h1
      simp at h1
      obtain ⟨rfl, -⟩ := h1
      rfl
  | cons o l ih =>
    intro fuel it hf h
    obtain ⟨fuel, rfl⟩ : ∃ f, fuel = f + 1 := ⟨fuel - 1, by simp at hf; omega⟩
    unfold OffsetsOf.answers
    cases hj : K.jnext it with
    | panic =>
      obtain ⟨xs, it', h1, h2⟩ := h 1
      simp only [polls, hj] at h1; cases h1
    | ok r =>
      obtain ⟨x, it2⟩ := r
      have hx : x = some o := by
        obtain ⟨xs, it', h1, h2⟩ := h 1
        simp only [polls, hj, Res.map, Res.ok.injEq, Prod.mk.injEq] at h1
        rw [h2] at h1
        simpa using h1.1
      subst hx
      simp only [Src.ofList, List.map_cons]
      refine congrArg _ (ih fuel it2 (by simpa using hf) fun n => ?_)
      obtain ⟨xs, it', h1, h2⟩ := h (n + 1)
      simp only [polls, hj] at h1
      cases hp : polls K.jnext n it2 with
      | panic => rw [hp] at h1; cases h1
      | ok r =>
        obtain ⟨ys, it3⟩ := r
        rw [hp] at h1
        simp only [Res.map, Res.ok.injEq, Prod.mk.injEq] at h1
        refine ⟨ys, it3, rfl, ?_⟩
        have := h1.1.trans h2
        rw [List.range_succ_eq_map] at this
        simpa [Function.comp_def] using this

theorem mapRes_ok {α : Type} : ∀ {l m : List (Option α)},
    mapRes (convOpt Res.ok) l = .ok m → l = m
  | [], m, h => by simpa [mapRes] using h
  | a :: l, m, h => by
    cases a with
    | none =>
      simp only [mapRes, convOpt] at h
      cases hm : mapRes (convOpt Res.ok) l with
      | panic => rw [hm] at h; cases h
      | ok m' =>
        rw [hm] at h
        simp only [Res.map, Res.ok.injEq] at h
        rw [← h, mapRes_ok hm]
    | some a =>
      simp only [mapRes, convOpt, Res.map] at h
      cases hm : mapRes (convOpt Res.ok) l with
      | panic => rw [hm] at h; cases h
      | ok m' =>
        rw [hm] at h
        simp only [Res.ok.injEq] at h
        rw [← h, mapRes_ok hm]

theorem mapRes_ok' {α : Type} : ∀ l : List (Option α), mapRes (convOpt Res.ok) l = .ok l
  | [] => rfl
  | none :: l => by simp [mapRes, convOpt, mapRes_ok' l, Res.map]
  | some a :: l => by simp [mapRes, convOpt, mapRes_ok' l, Res.map]

theorem into_answers {K : Coll O} {row : K.C} {l : List O} (h : Reads K row l)
    (hl : l.length ≤ usizeMax) : ∃ it, K.into row = .ok it ∧
      OffsetsOf.answers K (usizeMax + 1) it = Src.ofList l := by
  obtain ⟨it, h1, h2⟩ := h.into
  refine ⟨it, h1, answers_of_polls l _ it (by omega) fun n => ?_⟩
  obtain ⟨xs, it', h3, h4, -⟩ := h2 n
  exact ⟨xs, it', h3, mapRes_ok h4⟩

theorem sameRows_length {U : Coll O} {s : Src U.C} {ls : Src (List O)} (h : SameRows U s ls) :
    s.items.length = ls.items.length := by
  induction h with
  | nil => rfl
  | none _ _ => rfl
  | panic _ _ => rfl
  | item _ _ _ ih => simpa [Src.items] using ih

variable {U : Coll O} {R : Realloc O} {ow : OffW}

theorem extendLoop_same {s : Src U.C} {ls : Src (List O)} (h : SameRows U s ls) :
    ∀ data offsets position, OffsetsOf.extendLoop ow R U data offsets position s =
      Offsets.extendLoop ow R data offsets position ls := by
  induction h with
  | nil => intros; simp [OffsetsOf.extendLoop, Offsets.extendLoop]
  | none _ _ => intros; simp [OffsetsOf.extendLoop, Offsets.extendLoop]
  | panic _ _ => intros; simp [OffsetsOf.extendLoop, Offsets.extendLoop]
  | item hr hl _ ih =>
    intro data offsets position
    obtain ⟨it, h1, h2⟩ := into_answers hr hl
    simp only [OffsetsOf.extendLoop, Offsets.extendLoop, hr.len, h1, h2, ih]
    rfl

theorem tryExtendLoop_same {s : Src U.C} {ls : Src (List O)} (h : SameRows U s ls) :
    ∀ rows dataLen w data offsets position,
      OffsetsOf.tryExtendLoop ow R U rows dataLen w data offsets position s =
      Offsets.tryExtendLoop ow R rows dataLen w data offsets position ls := by
  induction h with
  | nil => intros; simp [OffsetsOf.tryExtendLoop, Offsets.tryExtendLoop]
  | none _ _ => intros; simp [OffsetsOf.tryExtendLoop, Offsets.tryExtendLoop]
  | panic _ _ => intros; simp [OffsetsOf.tryExtendLoop, Offsets.tryExtendLoop]
  | item hr hl _ ih =>
    intro rows dataLen w data offsets position
    obtain ⟨it, h1, h2⟩ := into_answers hr hl
    simp only [OffsetsOf.tryExtendLoop, Offsets.tryExtendLoop, hr.len, h1, h2, ih]
    rfl

theorem extend_same {s : Src U.C} {ls : Src (List O)} (h : SameRows U s ls) (c : Offsets R.C) :
    OffsetsOf.extend ow R U c s = Offsets.extend ow R c ls := by
  simp only [OffsetsOf.extend, Offsets.extend, extendLoop_same h]
  rfl

theorem tryExtend_same {s : Src U.C} {ls : Src (List O)} (h : SameRows U s ls) (w : World)
    (c : Offsets R.C) : OffsetsOf.tryExtend ow R U w c s = Offsets.tryExtend ow R w c ls := by
  simp only [OffsetsOf.tryExtend, Offsets.tryExtend, tryExtendLoop_same h]
  rfl

theorem fromIter_same {s : Src U.C} {ls : Src (List O)} (h : SameRows U s ls) :
    OffsetsOf.fromIter ow R U s = Offsets.fromIter ow R ls := by
  simp only [OffsetsOf.fromIter, Offsets.fromIter, extend_same h]
  rfl

theorem fromIterIn_same {s : Src U.C} {ls : Src (List O)} (h : SameRows U s ls) (w : World) :
    OffsetsOf.fromIterIn ow R U w s = Offsets.fromIterIn ow R w ls := by
  simp only [OffsetsOf.fromIterIn, Offsets.fromIterIn, extend_same h, sameRows_length h]
  rfl

theorem tryFromIter_same {s : Src U.C} {ls : Src (List O)} (h : SameRows U s ls) (w : World) :
    OffsetsOf.tryFromIter ow R U w s = Offsets.tryFromIter ow R w ls := by
  simp only [OffsetsOf.tryFromIter, Offsets.tryFromIter, tryExtend_same h, sameRows_length h]
  rfl

/-! ## Reading -/

theorem rangeSrc_of_collect {f : Nat → Res O} : ∀ {k s : Nat} {l : List O},
    collectRange f s k = .ok l → OffsetsOf.rangeSrc f s k = Src.ofList l
  | 0, s, l, h => by
    simp only [collectRange, Res.ok.injEq] at h
    subst h; rfl
  | k + 1, s, l, h => by
    simp only [collectRange] at h
    cases hf : f s with
    | panic => rw [hf] at h; cases h
    | ok o =>
      rw [hf] at h
      cases hc : collectRange f (s + 1) k with
      | panic => rw [hc] at h; cases h
      | ok m =>
        rw [hc] at h
        simp only [Res.map, Res.ok.injEq] at h
        subst h
        simp only [OffsetsOf.rangeSrc, hf, rangeSrc_of_collect hc]
        rfl

variable {K : Coll O} {V : Realloc O} {w : World}

theorem toOwned_of {v : OffsetView K.C} {l : List O} (h : OffsetView.toOwned K v = .ok l) :
    OffsetsOf.toOwned K V w v = OffsetsOf.collect V w (Src.ofList l) := by
  unfold OffsetView.toOwned at h
  unfold OffsetsOf.toOwned
  cases hl : v.len with
  | panic => rw [hl] at h; cases h
  | ok n =>
    rw [hl] at h
    simp only [Res.bind] at h ⊢
    exact congrArg _ (rangeSrc_of_collect h)

theorem intoNext_none {it it' : OffsetIntoIter K.C}
    (h : Offsets.intoNext K it = .ok (none, it')) :
    OffsetsOf.intoNext K V w it = .ok (none, it') := by
  unfold Offsets.intoNext at h
  unfold OffsetsOf.intoNext
  split at h
  · rename_i e
    rw [e]; simpa using h
  · exfalso
    cases h1 : asUsize it.position with
    | panic => rw [h1] at h; cases h
    | ok s =>
      rename_i e rest _
      cases h2 : asUsize e with
      | panic => rw [h1, h2] at h; cases h
      | ok e' =>
        rw [h1, h2] at h
        simp only [Res.bind] at h
        generalize collectRange _ _ _ = x at h
        cases x <;> simp [Res.map] at h

theorem intoNext_some {it it' : OffsetIntoIter K.C} {l : List O}
    (h : Offsets.intoNext K it = .ok (some l, it')) :
    OffsetsOf.intoNext K V w it =
      (OffsetsOf.collect V w (Src.ofList l)).map fun u => (some u, it') := by
  unfold Offsets.intoNext at h
  unfold OffsetsOf.intoNext
  split at h
  · simp at h
  · rename_i e rest he
    rw [he]
    simp only
    cases h1 : asUsize it.position with
    | panic => rw [h1] at h; cases h
    | ok s =>
      cases h2 : asUsize e with
      | panic => rw [h1, h2] at h; cases h
      | ok e' =>
        rw [h1, h2] at h
        change (collectRange (fun i => (K.view it.data i).expect.bind K.toOwned) s (e' - s)).map
          (fun l => (some l, OffsetIntoIter.mk it.data rest e)) = _ at h
        change (OffsetsOf.collect V w (OffsetsOf.rangeSrc
          (fun i => (K.view it.data i).expect.bind K.toOwned) s (e' - s))).map
            (fun u => (some u, OffsetIntoIter.mk it.data rest e)) = _
        cases hx : collectRange (fun i => (K.view it.data i).expect.bind K.toOwned) s (e' - s) with
        | panic => rw [hx] at h; cases h
        | ok m =>
          rw [hx] at h
          simp only [Res.map, Res.ok.injEq, Prod.mk.injEq, Option.some.injEq] at h
          obtain ⟨rfl, rfl⟩ := h
          rw [rangeSrc_of_collect hx]

theorem polls_into {g : List O → V.C} : ∀ (n : Nat) (it it' : OffsetIntoIter K.C) xs,
    polls (Offsets.intoNext K) n it = .ok (xs, it') →
    (∀ l, some l ∈ xs → OffsetsOf.collect V w (Src.ofList l) = .ok (g l)) →
    polls (OffsetsOf.intoNext K V w) n it = .ok (xs.map (Option.map g), it')
  | 0, it, it', xs, h, _ => by
    simp only [polls, Res.ok.injEq, Prod.mk.injEq] at h
    obtain ⟨rfl, rfl⟩ := h; rfl
  | n + 1, it, it', xs, h, hg => by
    simp only [polls] at h
    cases h1 : Offsets.intoNext K it with
    | panic => rw [h1] at h; cases h
    | ok r =>
      obtain ⟨x, it2⟩ := r
      rw [h1] at h
      simp only at h
      cases h2 : polls (Offsets.intoNext K) n it2 with
      | panic => rw [h2] at h; cases h
      | ok r =>
        obtain ⟨ys, it3⟩ := r
        rw [h2] at h
        simp only [Res.map, Res.ok.injEq, Prod.mk.injEq] at h
        obtain ⟨rfl, rfl⟩ := h
        have ih := polls_into n it2 it3 ys h2 fun l hl => hg l (List.mem_cons_of_mem _ hl)
        simp only [polls]
        cases x with
        | none => rw [intoNext_none h1]; simp [ih, Res.map]
        | some l =>
          rw [intoNext_some h1, hg l List.mem_cons_self]
          simp [ih, Res.map]

theorem mapRes_views {g : List O → V.C} : ∀ (xs : List (Option (OffsetView K.C))) (ls : List (Option (List O))),
    mapRes (convOpt (OffsetView.toOwned K)) xs = .ok ls →
    (∀ l, some l ∈ ls → OffsetsOf.collect V w (Src.ofList l) = .ok (g l)) →
    mapRes (convOpt (OffsetsOf.toOwned K V w)) xs = .ok (ls.map (Option.map g))
  | [], ls, h, _ => by
    simp only [mapRes, Res.ok.injEq] at h
    subst h; rfl
  | x :: xs, ls, h, hg => by
    simp only [mapRes] at h
    cases hm : mapRes (convOpt (OffsetView.toOwned K)) xs with
    | panic => rw [hm] at h; cases hx : convOpt (OffsetView.toOwned K) x <;> rw [hx] at h <;> cases h
    | ok ms =>
      rw [hm] at h
      cases x with
      | none =>
        simp only [convOpt, Res.map, Res.ok.injEq] at h
        subst h
        simp [mapRes, convOpt, Res.map, mapRes_views xs ms hm fun l hl => hg l (List.mem_cons_of_mem _ hl)]
      | some v =>
        cases hv : OffsetView.toOwned K v with
        | panic => simp only [convOpt, hv, Res.map] at h; cases h
        | ok l =>
          simp only [convOpt, hv, Res.map, Res.ok.injEq] at h
          subst h
          simp [mapRes, convOpt, Res.map, toOwned_of hv, hg l List.mem_cons_self,
            mapRes_views xs ms hm fun l hl => hg l (List.mem_cons_of_mem _ hl)]

theorem mem_answers {n : Nat} {ls : List (List O)} {l : List O}
    (h : some l ∈ (List.range n).map fun i => ls[i]?) : l ∈ ls := by
  obtain ⟨i, -, h⟩ := List.mem_map.mp h
  exact List.mem_of_getElem? h

theorem map_answers {β : Type} (g : List O → β) (n : Nat) (ls : List (List O)) :
    ((List.range n).map fun i => ls[i]?).map (Option.map g) =
      (List.range n).map fun i => (ls.map g)[i]? := by
  simp [Function.comp_def]

theorem reads_rows {c : Offsets K.C} {ls : List (List O)} {g : List O → V.C}
    (h : Reads (offsetsC K) c ls)
    (hg : ∀ l ∈ ls, OffsetsOf.collect V w (Src.ofList l) = .ok (g l)) :
    Reads (offsetsOfC K V w) c (ls.map g) where
  len := by simpa using h.len
  owned i hi := by
    have hi' : i < ls.length := by simpa using hi
    have := h.owned i hi'
    simp only [Coll.owned] at this ⊢
    generalize Offsets.view c i = x at this
    cases x with
    | panic => cases this
    | ok x =>
      cases x with
      | none => simp at this
      | some v =>
        simp only [Res.map] at this ⊢
        cases hv : OffsetView.toOwned K v with
        | panic => rw [hv] at this; cases this
        | ok l =>
          rw [hv] at this
          simp only [Res.ok.injEq, Option.some.injEq] at this
          subst this
          rw [toOwned_of hv, hg _ (List.getElem_mem _)]
          simp
  iter := by
    obtain ⟨it, h1, h2⟩ := h.iter
    refine ⟨it, h1, fun n => ?_⟩
    obtain ⟨xs, it', h3, h4, h5⟩ := h2 n
    refine ⟨xs, it', h3, ?_, by simpa using h5⟩
    rw [← map_answers]
    exact mapRes_views xs _ h4 fun l hl => hg l (mem_answers hl)
  into := by
    obtain ⟨it, h1, h2⟩ := h.into
    refine ⟨it, h1, fun n => ?_⟩
    obtain ⟨xs, it', h3, h4, h5⟩ := h2 n
    have := mapRes_ok h4
    subst this
    refine ⟨_, it', polls_into (g := g) n it it' _ h3 fun l hl => hg l (mem_answers hl), ?_,
      by simpa using h5⟩
    rw [map_answers]
    exact mapRes_ok' _

end Narrow
