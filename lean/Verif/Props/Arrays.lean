import Verif.Proof.Live
import Verif.Proof.Reach
import Verif.Props.Sample

/-!
# Properties of every array type

`Reach nl t c`: safe code can build the array `c`. `Reads _ c l`: every way of
reading `c` shows the list `l`. Both are defined in `Verif/Spec`. `t.WF` only
excludes fixed-size lists of width zero (see C30).
-/

namespace Narrow.Props

open Spec

variable {nl : Bool} {t : Ty}

/-- The reads of an array. -/
abbrev Shows (nl : Bool) (t : Ty) (c : (arrayR nl t).C) (l : List (ItemVal nl (Val t))) : Prop :=
  Reads (arrayR nl t).toColl c l

/-- Every reachable array reads as exactly one list of items: reading never
panics and all ways of reading agree. -/
theorem reach_reads (ht : t.WF) {c : (arrayR nl t).C} (hr : Reach nl t c) :
    ∃ l, Shows nl t c l ∧ ∀ l', Shows nl t c l' → l' = l :=
  ⟨(arrayL nl t ht).abs c, reads_abs _ (reach_inv hr ht),
    fun _ h => h.unique (reads_abs _ (reach_inv hr ht))⟩

theorem shows_of_inv (ht : t.WF) {c : (arrayR nl t).C} {l : List (ItemVal nl (Val t))}
    (hc : (arrayL nl t ht).Inv c) (he : (arrayL nl t ht).abs c = l) : Shows nl t c l :=
  he ▸ reads_abs _ hc

/-- C08. Collecting a fused source (one that keeps returning `None` after its
end) and reading it back gives the collected items. -/
theorem C08_collect_round_trip (ht : t.WF) {w w' : World} {s : Src (ItemVal nl (Val t))}
    {c : (arrayR nl t).C} (hs : s.Fused) (h : (arrayR nl t).fromIter w s = (.ok c, w')) :
    Reach nl t c ∧ Shows nl t c s.items :=
  ⟨.fromIter h, shows_of_inv ht ((arrayL nl t ht).fromIter_ok hs h).1
    ((arrayL nl t ht).fromIter_ok hs h).2.1⟩

/-- C08. Collecting returns, whatever the capacity the hints suggest, when the
items fit, the source does not panic and hints are not exaggerated. -/
theorem C08_collect_returns (ht : t.WF) {w : World} {s : Src (ItemVal nl (Val t))} (hs : s.Fused)
    (hp : s.panics = false) (hh : TightHints w.oracle) (hf : Fits nl t 0 s.items) :
    ∃ c w', (arrayR nl t).fromIter w s = (.ok c, w') ∧ Grown nl t c ∧ Shows nl t c s.items := by
  have h1 := (array_live nl t ht).fromIter hh hs hp ((fits_iff ht _ _).mp hf)
  have h2 := (arrayL nl t ht).fromIter_ne w s
  generalize hE : (arrayR nl t).fromIter w s = E at *
  obtain ⟨x, w'⟩ := E
  cases x with
  | err => exact absurd rfl h2
  | panic => exact absurd rfl h1
  | ok c => exact ⟨c, w', rfl, .fromIter hs hf hE, (C08_collect_round_trip ht hs hE).2⟩

/-- The iterator over a list is fused and does not panic. -/
theorem ofList_fused {α : Type} (l : List α) : (Src.ofList l).Fused := by
  induction l with
  | nil => rfl
  | cons a l ih => simpa [Src.Fused, Src.ofList, Src.fuse] using ih

/-- C08 for an iterator over a list. -/
theorem C08_collect_list (ht : t.WF) {w : World} (l : List (ItemVal nl (Val t)))
    (hh : TightHints w.oracle) (hf : Fits nl t 0 l) :
    ∃ c w', (arrayR nl t).fromIter w (Src.ofList l) = (.ok c, w') ∧ Grown nl t c ∧ Shows nl t c l := by
  have := C08_collect_returns (w := w) ht (ofList_fused l) (by simp) hh (by simpa using hf)
  simpa using this

/-- The hypotheses of C08 hold for a nested, nullable case. -/
theorem Sample.built : ∃ c w', (arrayR true Sample.ty).fromIter Sample.world (Src.ofList Sample.items) =
    (.ok c, w') ∧ Grown true Sample.ty c ∧ Shows true Sample.ty c Sample.items :=
  C08_collect_list Sample.ty_wf _ Sample.tight Sample.fits

/-- A reachable array with those items, for the examples below. -/
theorem Sample.array : ∃ c, Grown true Sample.ty c ∧ Reach true Sample.ty c ∧
    Shows true Sample.ty c Sample.items :=
  let ⟨c, _, _, h, h'⟩ := Sample.built
  ⟨c, h, h.reach, h'⟩

example : ∃ c w', (arrayR true Sample.ty).fromIter Sample.world (Src.ofList Sample.items) = (.ok c, w') ∧
    Shows true Sample.ty c Sample.items := by
  obtain ⟨c, w', h, -, -⟩ := Sample.built
  exact ⟨c, w', h, by simpa using (C08_collect_round_trip Sample.ty_wf (ofList_fused _) h).2⟩

/-- C10. When `extend` returns, the array holds its previous items and exactly
the yielded ones after them. -/
theorem C10_extend_appends (ht : t.WF) {c c' : (arrayR nl t).C} {l : List (ItemVal nl (Val t))}
    {s : Src (ItemVal nl (Val t))} (hr : Reach nl t c) (hl : Shows nl t c l)
    (h : (arrayR nl t).extend c s = (c', .ok)) :
    Reach nl t c' ∧ Shows nl t c' (l ++ s.items) ∧ s.panics = false := by
  have hi := reach_inv hr ht
  obtain ⟨h1, h2, h3⟩ := (arrayL nl t ht).ext_ok hi h
  rw [hl.abs_eq hi] at h2
  exact ⟨.extend hr h, shows_of_inv ht h1 h2, h3⟩

/-- C10. `extend` returns unless the source panics or the items do not fit. -/
theorem C10_extend_returns (ht : t.WF) {c : (arrayR nl t).C} {l : List (ItemVal nl (Val t))}
    {s : Src (ItemVal nl (Val t))} (hg : Grown nl t c) (hl : Shows nl t c l)
    (hf : Fits nl t 0 (l ++ s.items)) (hp : s.panics = false) :
    ∃ c', (arrayR nl t).extend c s = (c', .ok) ∧ Grown nl t c' ∧ Shows nl t c' (l ++ s.items) := by
  obtain ⟨hi, hk⟩ := grown_canon hg ht
  have hf' := hf
  rw [fits_iff ht, ← hl.abs_eq hi] at hf'
  have := (arrayL nl t ht).ext_live hi hk hp hf'
  have h : (arrayR nl t).extend c s = (((arrayR nl t).extend c s).1, .ok) := Prod.ext rfl this
  exact ⟨_, h, .extend hg hl hf h, (C10_extend_appends ht hg.reach hl h).2.1⟩

/-- Extending the sample array. -/
theorem Sample.extended : ∃ c c', Reach true Sample.ty c ∧ Shows true Sample.ty c Sample.items ∧
    (arrayR true Sample.ty).extend c (Src.ofList Sample.more) = (c', .ok) ∧
    Shows true Sample.ty c' (Sample.items ++ Sample.more) := by
  obtain ⟨c, hg, hr, hs⟩ := Sample.array
  obtain ⟨c', h, -, h'⟩ := C10_extend_returns (s := Src.ofList Sample.more) Sample.ty_wf hg hs
    (by simpa using Sample.fits_more) (by simp)
  exact ⟨c, c', hr, hs, h, by simpa using h'⟩

example : ∃ c c', Reach true Sample.ty c ∧ (arrayR true Sample.ty).extend c (Src.ofList Sample.more) = (c', .ok) ∧
    Shows true Sample.ty c' (Sample.items ++ Sample.more) := by
  obtain ⟨c, c', hr, hs, h, -⟩ := Sample.extended
  exact ⟨c, c', hr, h, by simpa using (C10_extend_appends Sample.ty_wf hr hs h).2.1⟩

/-- C11. `truncate(n)` never fails and keeps exactly the first `n` items (all of
them when there are at most `n`). -/
theorem C11_truncate (ht : t.WF) {c : (arrayR nl t).C} {l : List (ItemVal nl (Val t))} (n : Nat)
    (hr : Reach nl t c) (hl : Shows nl t c l) :
    ∃ c', (arrayR nl t).truncate c n = (c', .ok) ∧ Reach nl t c' ∧ Shows nl t c' (l.take n) := by
  have hi := reach_inv hr ht
  obtain ⟨c', h1, h2, h3, -⟩ := (arrayL nl t ht).trunc_ok n hi
  rw [hl.abs_eq hi] at h3
  exact ⟨c', h1, .truncate hr h1, shows_of_inv ht h2 h3⟩

example : ∃ c c', Reach true Sample.ty c ∧ (arrayR true Sample.ty).truncate c 2 = (c', .ok) ∧
    Shows true Sample.ty c' [some [some (Sample.pair true false), none], none] := by
  obtain ⟨c, -, hr, hs⟩ := Sample.array
  obtain ⟨c', h, -, h'⟩ := C11_truncate Sample.ty_wf 2 hr hs
  exact ⟨c, c', hr, h, h'⟩

/-- C12. Under every behaviour of the allocator and of size hints, `try_extend`
appends all items and returns `Ok`, or changes nothing and returns `Err`, or
unwinds because the source panicked. -/
theorem C12_try_extend_all_or_nothing (ht : t.WF) {w w' : World} {c c' : (arrayR nl t).C}
    {l : List (ItemVal nl (Val t))} {s : Src (ItemVal nl (Val t))} {o : Out}
    (hr : Reach nl t c) (hl : Shows nl t c l) (h : (arrayR nl t).tryExtend w c s = (c', o, w')) :
    (o = .ok ∧ Reach nl t c' ∧ Shows nl t c' (l ++ s.items) ∧ s.panics = false) ∨
    (o = .err ∧ Reach nl t c' ∧ Shows nl t c' l) ∨
    (o = .panic ∧ s.panics = true) := by
  have hi := reach_inv hr ht
  cases o with
  | ok =>
    obtain ⟨h1, h2, h3⟩ := (arrayL nl t ht).tryExt_ok hi h
    rw [hl.abs_eq hi] at h2
    exact .inl ⟨rfl, .tryExtend hr h (by simp), shows_of_inv ht h1 h2, h3⟩
  | err =>
    obtain ⟨h1, h2⟩ := (arrayL nl t ht).tryExt_err hi h
    rw [hl.abs_eq hi] at h2
    exact .inr (.inl ⟨rfl, .tryExtend hr h (by simp), shows_of_inv ht h1 h2⟩)
  | panic =>
    refine .inr (.inr ⟨rfl, ?_⟩)
    cases hp : s.panics with
    | true => rfl
    | false =>
      have := (arrayL nl t ht).tryExt_np (w := w) (s := s) hi hp
      rw [h] at this
      exact absurd rfl this

/-- C12. With an allocator that grants every request, `try_extend` succeeds
unless the source panics or the items do not fit. -/
theorem C12_try_extend_succeeds (ht : t.WF) {w : World} {c : (arrayR nl t).C}
    {l : List (ItemVal nl (Val t))} {s : Src (ItemVal nl (Val t))} (hg : Grown nl t c)
    (hl : Shows nl t c l) (hw : Generous w.oracle) (hh : TightHints w.oracle)
    (hf : Fits nl t 0 (l ++ s.items)) (hp : s.panics = false) :
    ∃ c' w', (arrayR nl t).tryExtend w c s = (c', .ok, w') ∧ Grown nl t c' ∧
      Shows nl t c' (l ++ s.items) := by
  obtain ⟨hi, hk⟩ := grown_canon hg ht
  have hf' := hf
  rw [fits_iff ht, ← hl.abs_eq hi] at hf'
  have h1 := (array_live nl t ht).tryExt hw hh hi hk hf'
  generalize hE : (arrayR nl t).tryExtend w c s = E at *
  obtain ⟨c', o, w'⟩ := E
  rcases C12_try_extend_all_or_nothing ht hg.reach hl hE with ⟨rfl, -, h, -⟩ | ⟨rfl, -⟩ | ⟨rfl, h⟩
  · exact ⟨c', w', rfl, .tryExtend hg hl hf hE (by simp), h⟩
  · exact absurd rfl h1
  · rw [hp] at h; cases h

example : ∃ c c' w', Reach true Sample.ty c ∧
    (arrayR true Sample.ty).tryExtend Sample.world c (Src.ofList Sample.more) = (c', .ok, w') ∧
    Shows true Sample.ty c' (Sample.items ++ Sample.more) := by
  obtain ⟨c, hg, hr, hs⟩ := Sample.array
  obtain ⟨c', w', h, -, h'⟩ := C12_try_extend_succeeds (s := Src.ofList Sample.more) Sample.ty_wf hg hs
    Sample.generous Sample.tight (by simpa using Sample.fits_more) (by simp)
  exact ⟨c, c', w', hr, h, by simpa using h'⟩

/-- The allocator refusing and the size hints lying, `try_extend` still leaves a
readable array. -/
example : ∃ c c' o w', Reach true Sample.ty c ∧
    (arrayR true Sample.ty).tryExtend Sample.hostile c (Src.ofList Sample.more) = (c', o, w') ∧
    (Shows true Sample.ty c' (Sample.items ++ Sample.more) ∨ Shows true Sample.ty c' Sample.items) := by
  obtain ⟨c, -, hr, hs⟩ := Sample.array
  generalize hE : (arrayR true Sample.ty).tryExtend Sample.hostile c (Src.ofList Sample.more) = E
  obtain ⟨c', o, w'⟩ := E
  refine ⟨c, c', o, w', hr, hE, ?_⟩
  rcases C12_try_extend_all_or_nothing Sample.ty_wf hr hs hE with h | h | h
  · exact .inl (by simpa using h.2.2.1)
  · exact .inr h.2.2
  · simp at h

/-- C13. `reserve` changes no item, even when it panics. -/
theorem C13_reserve (ht : t.WF) {c c' : (arrayR nl t).C} {l : List (ItemVal nl (Val t))} {n : Nat}
    {o : Out} (hr : Reach nl t c) (hl : Shows nl t c l) (h : (arrayR nl t).reserve c n = (c', o)) :
    Reach nl t c' ∧ Shows nl t c' l ∧ o ≠ .err := by
  have hi := reach_inv hr ht
  obtain ⟨h1, h2, h3, -⟩ := (arrayL nl t ht).reserve_ok hi h
  rw [hl.abs_eq hi] at h2
  exact ⟨.reserve hr h, shows_of_inv ht h1 h2, h3⟩

/-- C13. `try_reserve` changes no item, whatever it returns, and never panics. -/
theorem C13_try_reserve (ht : t.WF) {w w' : World} {c c' : (arrayR nl t).C}
    {l : List (ItemVal nl (Val t))} {n : Nat} {o : Out} (hr : Reach nl t c) (hl : Shows nl t c l)
    (h : (arrayR nl t).tryReserve w c n = (c', o, w')) :
    Reach nl t c' ∧ Shows nl t c' l ∧ o ≠ .panic := by
  have hi := reach_inv hr ht
  obtain ⟨h1, h2, h3, -⟩ := (arrayL nl t ht).tryReserve_ok hi h
  rw [hl.abs_eq hi] at h2
  exact ⟨.tryReserve hr h, shows_of_inv ht h1 h2, h3⟩

/-- C13. `reserve` returns when the reserved items fit. -/
theorem C13_reserve_returns (ht : t.WF) {c : (arrayR nl t).C} {l : List (ItemVal nl (Val t))} {n : Nat}
    (hg : Grown nl t c) (hl : Shows nl t c l) (hf : Fits nl t n l) :
    ((arrayR nl t).reserve c n).2 = .ok := by
  obtain ⟨hi, hk⟩ := grown_canon hg ht
  rw [fits_iff ht, ← hl.abs_eq hi] at hf
  exact (arrayL nl t ht).reserve_live hi hk hf

/-- C13. `try_reserve` succeeds when the allocator grants and the items fit. -/
theorem C13_try_reserve_succeeds (ht : t.WF) {w : World} {c : (arrayR nl t).C}
    {l : List (ItemVal nl (Val t))} {n : Nat} (hg : Grown nl t c) (hl : Shows nl t c l)
    (hw : Generous w.oracle) (hh : TightHints w.oracle) (hf : Fits nl t n l) :
    ((arrayR nl t).tryReserve w c n).2.1 = .ok := by
  obtain ⟨hi, hk⟩ := grown_canon hg ht
  rw [fits_iff ht, ← hl.abs_eq hi] at hf
  have h1 := (array_live nl t ht).tryReserve hw hh hi hk hf
  generalize hE : (arrayR nl t).tryReserve w c n = E at *
  obtain ⟨c', o, w'⟩ := E
  have h2 := (C13_try_reserve ht hg.reach hl hE).2.2
  cases o with
  | ok => rfl
  | err => exact absurd rfl h1
  | panic => exact absurd rfl h2

example : ∃ c c', Reach true Sample.ty c ∧ (arrayR true Sample.ty).reserve c 3 = (c', .ok) ∧
    Shows true Sample.ty c' Sample.items := by
  obtain ⟨c, hg, hr, hs⟩ := Sample.array
  have h := C13_reserve_returns Sample.ty_wf hg hs Sample.fits_reserve
  have h' : (arrayR true Sample.ty).reserve c 3 = (((arrayR true Sample.ty).reserve c 3).1, .ok) :=
    Prod.ext rfl h
  exact ⟨c, _, hr, h', (C13_reserve Sample.ty_wf hr hs h').2.1⟩

example : ∃ c, Reach true Sample.ty c ∧ ((arrayR true Sample.ty).tryReserve Sample.world c 3).2.1 = .ok ∧
    Shows true Sample.ty ((arrayR true Sample.ty).tryReserve Sample.world c 3).1 Sample.items := by
  obtain ⟨c, hg, hr, hs⟩ := Sample.array
  exact ⟨c, hr, C13_try_reserve_succeeds Sample.ty_wf hg hs Sample.generous Sample.tight
    Sample.fits_reserve, (C13_try_reserve Sample.ty_wf hr hs rfl).2.1⟩

/-- C17. Both iterators of every array report their exact remaining length
before and after every `next`, including after exhaustion. -/
theorem C17_iterators_exact (ht : t.WF) {c : (arrayR nl t).C} (hr : Reach nl t c) :
    ∃ (l : List (ItemVal nl (Val t))) (it : (arrayR nl t).I) (jt : (arrayR nl t).J), (arrayR nl t).len c = .ok l.length ∧
      (arrayR nl t).iter c = .ok it ∧ (arrayR nl t).into c = .ok jt ∧
      ∀ n, (∃ as it', polls (arrayR nl t).inext n it = .ok (as, it') ∧
          mapRes (convOpt (arrayR nl t).toOwned) as = .ok ((List.range n).map fun i => l[i]?) ∧
          (arrayR nl t).ilen it' = .ok (l.length - n)) ∧
        (∃ as jt', polls (arrayR nl t).jnext n jt = .ok (as, jt') ∧
          as = (List.range n).map (fun i => l[i]?) ∧
          (arrayR nl t).jlen jt' = .ok (l.length - n)) := by
  obtain ⟨l, hl, -⟩ := reach_reads ht hr
  obtain ⟨it, h1, h2⟩ := hl.iter
  obtain ⟨jt, h3, h4⟩ := hl.into
  refine ⟨l, it, jt, hl.len, h1, h3, fun n => ⟨h2 n, ?_⟩⟩
  obtain ⟨as, jt', e1, e2, e3⟩ := h4 n
  refine ⟨as, jt', e1, ?_, e3⟩
  have : ∀ as : List (Option (ItemVal nl (Val t))), mapRes (convOpt Res.ok) as = .ok as := by
    intro as
    induction as with
    | nil => rfl
    | cons a as ih => cases a <;> simp [mapRes, convOpt, ih, Res.map]
  rw [this as] at e2
  injection e2

/-- Polling the iterators of the four-item sample six times. -/
example : ∃ c it jt, Reach true Sample.ty c ∧ (arrayR true Sample.ty).iter c = .ok it ∧
    (arrayR true Sample.ty).into c = .ok jt ∧
    (∃ as it', polls (arrayR true Sample.ty).inext 3 it = .ok (as, it') ∧
      (arrayR true Sample.ty).ilen it' = .ok 1) ∧
    (∃ as jt', polls (arrayR true Sample.ty).jnext 6 jt = .ok (as, jt') ∧
      as = Sample.items.map some ++ [none, none] ∧ (arrayR true Sample.ty).jlen jt' = .ok 0) := by
  obtain ⟨c, -, hr, hs⟩ := Sample.array
  obtain ⟨l, it, jt, h1, h2, h3, h4⟩ := C17_iterators_exact Sample.ty_wf hr
  obtain ⟨l', hl', hu⟩ := reach_reads Sample.ty_wf hr
  obtain ⟨⟨as, it', a1, a2, a3⟩, -⟩ := h4 3
  obtain ⟨-, ⟨bs, jt', b1, b2, b3⟩⟩ := h4 6
  have hlen : l.length = 4 := by have := h1.symm.trans hs.len; injection this
  have hitems : (List.range 6).map (fun i => l[i]?) = Sample.items.map some ++ [none, none] := by
    obtain ⟨jt2, e1, e2⟩ := hs.into
    obtain ⟨cs, jt3, f1, f2, f3⟩ := e2 6
    rw [e1] at h3
    injection h3 with h3
    subst h3
    rw [b1] at f1
    simp only [Res.ok.injEq, Prod.mk.injEq] at f1
    rw [← b2, f1.1]
    have : ∀ as : List (Option (ItemVal true (Val Sample.ty))), mapRes (convOpt Res.ok) as = .ok as := by
      intro as
      induction as with
      | nil => rfl
      | cons a as ih => cases a <;> simp [mapRes, convOpt, ih, Res.map]
    rw [this] at f2
    injection f2
  exact ⟨c, it, jt, hr, h2, h3, ⟨as, it', a1, by rw [a3, hlen]⟩, ⟨bs, jt', b1, b2.trans hitems, by rw [b3, hlen]⟩⟩

/-- C18. All constructors build arrays with exactly the items of the source; the
capacity argument and all size hints (the worlds `w`) are irrelevant. -/
theorem C18_constructors_agree (ht : t.WF) {w1 w2 w3 w1' w2' w3' : World}
    {s : Src (ItemVal nl (Val t))} {n : Nat} {c1 c2 c3 c4 c5 : (arrayR nl t).C} (hs : s.Fused)
    (h1 : (arrayR nl t).fromIter w1 s = (.ok c1, w1'))
    (h2 : (arrayR nl t).fromIterIn w2 s = (.ok c2, w2'))
    (h3 : (arrayR nl t).tryFromIter w3 s = (.ok c3, w3'))
    (h4 : (arrayR nl t).withCap n = .ok c4)
    (h5 : (arrayR nl t).extend c4 s = (c5, .ok)) :
    Shows nl t c1 s.items ∧ Shows nl t c2 s.items ∧ Shows nl t c3 s.items ∧ Shows nl t c5 s.items := by
  refine ⟨?_, ?_, ?_, ?_⟩
  · obtain ⟨a, b, -⟩ := (arrayL nl t ht).fromIter_ok hs h1; exact shows_of_inv ht a b
  · obtain ⟨a, b, -⟩ := (arrayL nl t ht).fromIterIn_ok hs h2; exact shows_of_inv ht a b
  · obtain ⟨a, b, -⟩ := (arrayL nl t ht).tryFromIter_ok hs h3; exact shows_of_inv ht a b
  · obtain ⟨a, b, -⟩ := (arrayL nl t ht).withCap_ok h4
    obtain ⟨c, d, -⟩ := (arrayL nl t ht).ext_ok a h5
    rw [b] at d
    exact shows_of_inv ht c d

/-- C18. `default`, `with_capacity` and `try_with_capacity_in` build empty arrays. -/
theorem C18_empty (ht : t.WF) {w w' : World} {n m : Nat} {c1 c2 : (arrayR nl t).C}
    (h1 : (arrayR nl t).withCap n = .ok c1) (h2 : (arrayR nl t).tryWithCap w m = (.ok c2, w')) :
    Shows nl t (arrayR nl t).empty [] ∧ Shows nl t c1 [] ∧ Shows nl t c2 [] := by
  refine ⟨?_, ?_, ?_⟩
  · obtain ⟨a, b, -⟩ := (arrayL nl t ht).empty_ok; exact shows_of_inv ht a b
  · obtain ⟨a, b, -⟩ := (arrayL nl t ht).withCap_ok h1; exact shows_of_inv ht a b
  · obtain ⟨a, b, -⟩ := (arrayL nl t ht).tryWithCap_ok h2; exact shows_of_inv ht a b

/-- C18. Every constructor succeeds when items and capacity fit, the allocator
grants, hints are not exaggerated and the source does not panic. -/
theorem C18_constructors_succeed (ht : t.WF) {w : World} {s : Src (ItemVal nl (Val t))} {n : Nat}
    (hs : s.Fused) (hp : s.panics = false) (hw : Generous w.oracle) (hh : TightHints w.oracle)
    (hf : Fits nl t 0 s.items) (hn : Fits nl t n []) :
    (∃ c w', (arrayR nl t).fromIter w s = (.ok c, w')) ∧
    (∃ c w', (arrayR nl t).fromIterIn w s = (.ok c, w')) ∧
    (∃ c w', (arrayR nl t).tryFromIter w s = (.ok c, w')) ∧
    (∃ c, (arrayR nl t).withCap n = .ok c ∧ ∃ c', (arrayR nl t).extend c s = (c', .ok)) ∧
    (∃ c w', (arrayR nl t).tryWithCap w n = (.ok c, w')) := by
  have hf' := (fits_iff ht _ _).mp hf
  have hn' := (fits_iff ht _ _).mp hn
  have V := array_live nl t ht
  have key : ∀ x : Try (arrayR nl t).C × World, x.1 ≠ .err → x.1 ≠ .panic →
      ∃ c w', x = (.ok c, w') := by
    rintro ⟨x, w'⟩ h1 h2
    cases x with
    | ok c => exact ⟨c, w', rfl⟩
    | err => exact absurd rfl h1
    | panic => exact absurd rfl h2
  refine ⟨key _ ((arrayL nl t ht).fromIter_ne w s) (V.fromIter hh hs hp hf'),
    key _ ((arrayL nl t ht).fromIterIn_ne w s) (V.fromIterIn hh hs hp hf'),
    key _ (V.tryFromIter hw hh hs hf') ((arrayL nl t ht).tryFromIter_np hs hp), ?_,
    key _ (V.tryWithCap hw hh hn') ((arrayL nl t ht).tryWithCap_np w n)⟩
  have h1 := (arrayL nl t ht).withCap_ne n
  have h2 := V.withCap hn'
  generalize hE : (arrayR nl t).withCap n = E at *
  cases E with
  | err => exact absurd rfl h1
  | panic => exact absurd rfl h2
  | ok c =>
    obtain ⟨a, b, -⟩ := (arrayL nl t ht).withCap_ok hE
    obtain ⟨c', h, -⟩ := C10_extend_returns (s := s) ht (.withCap hE) (shows_of_inv ht a b)
      (by simpa using hf) hp
    exact ⟨c, rfl, c', h⟩

example : ∃ c1 c2 c3 w1 w2 w3, (arrayR true Sample.ty).fromIter Sample.world (Src.ofList Sample.items) = (.ok c1, w1) ∧
    (arrayR true Sample.ty).fromIterIn Sample.world (Src.ofList Sample.items) = (.ok c2, w2) ∧
    (arrayR true Sample.ty).tryFromIter Sample.world (Src.ofList Sample.items) = (.ok c3, w3) ∧
    Shows true Sample.ty c1 Sample.items ∧ Shows true Sample.ty c2 Sample.items ∧
    Shows true Sample.ty c3 Sample.items := by
  obtain ⟨⟨c1, w1, h1⟩, ⟨c2, w2, h2⟩, ⟨c3, w3, h3⟩, ⟨c4, h4, c5, h5⟩, -⟩ :=
    C18_constructors_succeed (n := 7) (w := Sample.world) (s := Src.ofList Sample.items) Sample.ty_wf
      (ofList_fused _) (by simp) Sample.generous Sample.tight (by simpa using Sample.fits)
      ⟨Nat.le_of_ble_eq_true rfl, Nat.le_of_ble_eq_true rfl, Nat.le_of_ble_eq_true rfl,
        Nat.le_of_ble_eq_true rfl, Nat.le_of_ble_eq_true rfl⟩
  obtain ⟨a, b, c, -⟩ := C18_constructors_agree Sample.ty_wf (ofList_fused _) h1 h2 h3 h4 h5
  rw [Src.items_ofList] at a b c
  exact ⟨c1, c2, c3, w1, w2, w3, h1, h2, h3, a, b, c⟩

example : ∃ c1 c2 w', (arrayR true Sample.ty).withCap 7 = .ok c1 ∧
    (arrayR true Sample.ty).tryWithCap Sample.world 7 = (.ok c2, w') ∧
    Shows true Sample.ty c1 [] ∧ Shows true Sample.ty c2 [] := by
  obtain ⟨-, -, -, ⟨c4, h4, -⟩, ⟨c6, w6, h6⟩⟩ :=
    C18_constructors_succeed (n := 7) (w := Sample.world) (s := Src.ofList Sample.items) Sample.ty_wf
      (ofList_fused _) (by simp) Sample.generous Sample.tight (by simpa using Sample.fits)
      ⟨Nat.le_of_ble_eq_true rfl, Nat.le_of_ble_eq_true rfl, Nat.le_of_ble_eq_true rfl,
        Nat.le_of_ble_eq_true rfl, Nat.le_of_ble_eq_true rfl⟩
  obtain ⟨-, a, b⟩ := C18_empty Sample.ty_wf h4 h6
  exact ⟨c4, c6, w6, h4, h6, a, b⟩

end Narrow.Props
