import Verif.Proof.Boxed
import Verif.Proof.Fallible
import Verif.Props.Storages

/-!
# Constructors of boxed arrays (C48, C49)

`boxedCtor t`: the constructors of `Array<T, BoxBuffer>`, for the item types that
have them. `Reads (arrayS .box false t) c l`: the length, the items at every index
and both iterators of the boxed array `c` are those of `l`.
-/

namespace Narrow.Props

open Spec

variable {t : Ty} {B : Ctor (baseR t).C (Val t)} {w w' : World} {s : Src (Val t)}
  {c c' : (baseR t).C} {l : List (Val t)}

/-- The item types with boxed constructors: booleans, primitives and fixed-size
lists of those without nulls. -/
example : (boxedCtor (.fsl 2 false (.fsl 3 false .bool))).isSome ∧ (boxedCtor (.prim .f64)).isSome ∧
    (boxedCtor (.fsl 2 true .bool)).isNone ∧ (boxedCtor (.vsl .i32 false .bool)).isNone :=
  ⟨rfl, rfl, rfl, rfl⟩

theorem shrink_reads (ht : t.WF) (hB : boxedCtor t = some B) (hi : (arrayL false t ht).Inv c)
    (hl : (arrayL false t ht).abs c = l) :
    Reach false t (shrink t c) ∧ Reads (arrayS .box false t) (shrink t c) l := by
  obtain ⟨h1, h2⟩ := shrink_ok t ht hB (c := c) hi
  exact ⟨h1, C41_arrays .box ht h1 (shows_of_inv ht (reach_inv h1 ht) (h2.trans hl))⟩

theorem mapOk_ok {α β : Type} {f : α → β} {x : Try α} {b : β} (h : x.mapOk f = .ok b) :
    ∃ a, x = .ok a ∧ f a = b := by
  cases x with
  | ok a => exact ⟨a, rfl, by injection h⟩
  | err => cases h
  | panic => cases h

/-- C48. Collecting a source into a boxed array and reading it back gives the
collected items. -/
theorem C48_collect (ht : t.WF) (hB : boxedCtor t = some B) (hs : s.Fused)
    (h : B.fromIter w s = (.ok c, w') ∨ B.fromIterIn w s = (.ok c, w') ∨
      B.tryFromIter w s = (.ok c, w')) :
    Reach false t c ∧ Reads (arrayS .box false t) c s.items := by
  have hb := boxed_of t hB
  rcases h with h | h | h
  · rw [hb.fromIter] at h
    obtain ⟨a, h1, rfl⟩ := mapOk_ok (congrArg Prod.fst h)
    obtain ⟨h2, h3, -⟩ := (arrayL false t ht).fromIter_ok (w := w) hs (Prod.ext h1 rfl)
    exact shrink_reads ht hB h2 h3
  · rw [hb.fromIterIn] at h
    obtain ⟨a, h1, rfl⟩ := mapOk_ok (congrArg Prod.fst h)
    obtain ⟨h2, h3, -⟩ := (arrayL false t ht).fromIterIn_ok (w := w) hs (Prod.ext h1 rfl)
    exact shrink_reads ht hB h2 h3
  · have hq := hb.tryFromIter w s
    rw [h] at hq
    generalize hr : (baseR t).tryFromIter w s = r at hq
    obtain ⟨x, w1⟩ := r
    cases x with
    | ok a =>
      rcases hq with hq | ⟨hq, -⟩
      · injection hq with hq
        subst hq
        obtain ⟨h2, h3, -⟩ := (arrayL false t ht).tryFromIter_ok (w := w) hs hr
        exact shrink_reads ht hB h2 h3
      · cases hq
    | err => cases hq
    | panic => cases hq

/-- C48. Collecting into a boxed array returns when the items fit in memory and
the source does not panic. -/
theorem C48_collect_returns (ht : t.WF) (hB : boxedCtor t = some B) (hs : s.Fused)
    (hp : s.panics = false) (hh : TightHints w.oracle) (hf : Fits false t 0 s.items) :
    ∃ c w', B.fromIter w s = (.ok c, w') ∧ Reads (arrayS .box false t) c s.items := by
  obtain ⟨a, w', h, -⟩ := C08_collect_returns (nl := false) ht hs hp hh hf
  have h1 : B.fromIter w s = (.ok (shrink t a), w') := by
    rw [(boxed_of t hB).fromIter, show (baseR t).fromIter w s = (.ok a, w') from h]; rfl
  exact ⟨_, w', h1, (C48_collect ht hB hs (.inl h1)).2⟩

/-- C48. For every source, also one that resumes after `None`, `collect` into boxed
storage panics exactly when `collect` into growable storage does, and otherwise the
arrays show the same items. -/
theorem C48_same_as_vec (ht : t.WF) (hB : boxedCtor t = some B) (w : World) (s : Src (Val t)) :
    (((B.fromIter w s).1 = .panic ↔ ((arrayR false t).fromIter w s).1 = .panic) ∧
      (B.fromIter w s).1 ≠ .err) ∧
    ∀ c c', ((arrayR false t).fromIter w s).1 = .ok c → (B.fromIter w s).1 = .ok c' →
      ∃ l, Shows false t c l ∧ Reads (arrayS .box false t) c' l := by
  have hb := (boxed_of t hB).fromIter w s
  have hn := (arrayL false t ht).fromIter_ne w s
  have he : (arrayR false t).fromIter w s = (baseR t).fromIter w s := rfl
  rw [he] at hn ⊢
  rw [hb]
  generalize hr : (baseR t).fromIter w s = r at hn
  obtain ⟨x, w1⟩ := r
  cases x with
  | ok a =>
    refine ⟨⟨by simp [Try.mapOk], by simp [Try.mapOk]⟩, fun c c' h1 h2 => ?_⟩
    injection h1 with h1
    injection h2 with h2
    subst h1 h2
    have h3 := ((arrayL false t ht).fromIter_any (w := w) (s := s) hr).1
    exact ⟨_, shows_of_inv ht h3 rfl, (shrink_reads ht hB h3 rfl).2⟩
  | err => exact absurd rfl hn
  | panic => exact ⟨⟨Iff.intro (fun _ => rfl) fun _ => rfl, by simp [Try.mapOk]⟩, fun c c' h1 => by cases h1⟩

/-- C48. `with_capacity` and `try_with_capacity_in` give an empty boxed array. -/
theorem C48_with_capacity (ht : t.WF) (hB : boxedCtor t = some B) {n : Nat}
    (h : B.withCap n = .ok c ∨ B.tryWithCap w n = (.ok c, w')) :
    Reach false t c ∧ Reads (arrayS .box false t) c [] := by
  have hb := boxed_of t hB
  rcases h with h | h
  · rw [hb.withCap] at h
    obtain ⟨a, h1, rfl⟩ := mapOk_ok h
    obtain ⟨h2, h3, -⟩ := (arrayL false t ht).withCap_ok h1
    exact shrink_reads ht hB h2 h3
  · rw [hb.tryWithCap] at h
    obtain ⟨a, h1, rfl⟩ := mapOk_ok (congrArg Prod.fst h)
    obtain ⟨h2, h3, -⟩ := (arrayL false t ht).tryWithCap_ok (w := w) (Prod.ext h1 rfl)
    exact shrink_reads ht hB h2 h3

/-- Pairs of booleans. -/
def Sample.boxTy : Ty := .fsl 2 false .bool

def Sample.boxItems : List (Val Sample.boxTy) := [⟨[true, false], rfl⟩, ⟨[true, true], rfl⟩]

example : ∃ B c w', boxedCtor Sample.boxTy = some B ∧
    B.fromIter Sample.world (Src.ofList Sample.boxItems) = (.ok c, w') ∧
    Reads (arrayS .box false Sample.boxTy) c Sample.boxItems := by
  obtain ⟨c, w', h1, h2⟩ := C48_collect_returns (t := Sample.boxTy) ⟨by decide, trivial⟩ rfl
    (w := Sample.world) (s := Src.ofList Sample.boxItems) (ofList_fused _) (by simp) Sample.tight
    (by rw [Src.items_ofList]; exact (Nat.le_of_ble_eq_true rfl : (2 * 2 : Nat) ≤ 2 ^ 61))
  rw [Src.items_ofList] at h2
  exact ⟨_, c, w', rfl, h1, h2⟩

/-- C49. `try_with_capacity_in` for boxed storage returns, whatever the capacity
and the allocator. -/
theorem C49_try_with_capacity (ht : t.WF) (hB : boxedCtor t = some B) (w : World) (n : Nat) :
    (B.tryWithCap w n).1 ≠ .panic := by
  have h := (arrayL false t ht).tryWithCap_np w n
  rw [(boxed_of t hB).tryWithCap]
  change ((baseR t).tryWithCap w n).1 ≠ .panic at h
  generalize (baseR t).tryWithCap w n = r at h
  obtain ⟨x, w1⟩ := r
  cases x with
  | ok a => simp [Try.mapOk]
  | err => simp [Try.mapOk]
  | panic => exact absurd rfl h

/-- C49. Memory refused while collecting is reported as an error: boxed storage
returns `Err` exactly when growable storage does. -/
theorem C49_refused_is_error (hB : boxedCtor t = some B) (w : World) (s : Src (Val t)) :
    (B.tryFromIter w s).1 = .err ↔ ((arrayR false t).tryFromIter w s).1 = .err := by
  have h := (boxed_of t hB).tryFromIter w s
  show _ ↔ ((baseR t).tryFromIter w s).1 = .err
  generalize (baseR t).tryFromIter w s = r at h
  obtain ⟨x, w1⟩ := r
  cases x with
  | ok a => rcases h with h | ⟨h, -⟩ <;> simp [h]
  | err => simp only [BoxTry] at h; rw [h]
  | panic => simp only [BoxTry] at h; rw [h]

/-- The buffer of the array has no spare capacity. -/
def NoSpare : (t : Ty) → (baseR t).C → Prop
  | .bool => fun (b : Bitmap) => b.buffer.cap = b.buffer.items.length
  | .prim _ => fun (v : RVec _) => v.cap = v.items.length
  | .fsl _ false t => fun (c : Flatten (baseR t).C) => NoSpare t c.child
  | _ => fun _ => True

theorem shrink_noSpare : (t : Ty) → (c : (baseR t).C) → NoSpare t c → shrink t c = c
  | .bool, (⟨⟨l, n⟩, _, _⟩ : Bitmap), h => by cases (show n = l.length from h); rfl
  | .prim _, (⟨l, n⟩ : RVec _), h => by cases (show n = l.length from h); rfl
  | .fsl _ false t, (⟨c⟩ : Flatten (baseR t).C), h => congrArg Flatten.mk (shrink_noSpare t c h)
  | .fsl _ true _, _, _ => rfl
  | .vsl _ _ _, _, _ => rfl

/-- C49. `try_from_iter_in` for boxed storage returns, whatever the size hints and
the allocator, if the source does not panic and either no spare capacity is left, or
the allocator does not refuse the request that follows the collected items, which is the
one for the smaller block.
Missing for C49: that condition, which `C49_shrink_refused` shows is needed. -/
theorem C49_try_from_iter_partial (ht : t.WF) (hB : boxedCtor t = some B)
    (hs : ∀ e ∈ s, e ≠ .panic)
    (hw : ∀ c w', (arrayR false t).tryFromIter w s = (.ok c, w') →
      NoSpare t c ∨ ∀ n, (w'.oracle.grant w'.tick n).isSome) : (B.tryFromIter w s).1 ≠ .panic := by
  have h := (boxed_of t hB).tryFromIter w s
  have hn := array_noPanic false t ht w s hs
  change ((baseR t).tryFromIter w s).1 ≠ .panic at hn
  change ∀ c w', (baseR t).tryFromIter w s = (.ok c, w') → _ at hw
  generalize (baseR t).tryFromIter w s = r at h hn hw
  obtain ⟨x, w1⟩ := r
  cases x with
  | ok a =>
    rcases h with h | ⟨h, ⟨n, h'⟩, hne⟩
    · rw [h]; simp
    · rcases hw a w1 rfl with hf | hg
      · exact absurd (shrink_noSpare t a hf) hne
      · have := hg n
        rw [h'] at this
        cases this
  | err => simp only [BoxTry] at h; rw [h]; simp
  | panic => exact absurd rfl hn

/-- An allocator that grants the first request, with spare capacity, and refuses all
others. -/
def Sample.noShrink : World :=
  ⟨⟨fun k _ => if k < 2 then some 8 else none, fun _ _ => 0, fun _ _ => none⟩, 0⟩

/-- C49 fails: collecting three numbers whose number is unknown in advance into a
boxed array with `try_from_iter_in` does not return, although the source does not
panic: the memory for the items is granted, the smaller block is refused. -/
theorem C49_shrink_refused : ∃ (w : World) (s : Src (Val (.prim .u8))) (B : Ctor _ _),
    boxedCtor (.prim .u8) = some B ∧ (∀ e ∈ s, e ≠ .panic) ∧
    (∃ c, ((arrayR false (.prim .u8)).tryFromIter w s).1 = .ok c) ∧ (B.tryFromIter w s).1 = .panic :=
  ⟨Sample.noShrink, Src.ofList [1#8, 2#8, 3#8], _, rfl, by simp [Src.ofList], ⟨_, rfl⟩, rfl⟩

/-- An allocator that grants what the first request asks for and refuses all others. -/
def Sample.exact : World :=
  ⟨⟨fun k _ => if k < 2 then some 0 else none, fun _ n => n, fun _ _ => none⟩, 0⟩

/-- The hypotheses of the partial theorem are met by an allocator that refuses
nothing, by one that refuses at once, and by one that refuses all but the first request if
the number of items is known in advance. -/
example : ∃ B, boxedCtor (.prim .u8) = some B ∧
    (B.tryFromIter Sample.world (Src.ofList [1#8, 2#8, 3#8])).1 ≠ .panic ∧
    (B.tryFromIter Sample.hostile (Src.ofList [1#8, 2#8, 3#8])).1 ≠ .panic ∧
    (B.tryFromIter Sample.exact (Src.ofList [1#8, 2#8, 3#8])).1 ≠ .panic :=
  ⟨_, rfl, C49_try_from_iter_partial (t := .prim .u8) trivial rfl (by simp [Src.ofList])
      (fun _ _ h => .inr fun n => by cases h; rfl),
    C49_try_from_iter_partial (t := .prim .u8) trivial rfl (by simp [Src.ofList])
      (fun _ _ h => .inr fun n => by cases h),
    C49_try_from_iter_partial (t := .prim .u8) trivial rfl (by simp [Src.ofList])
      (fun _ _ h => .inl (by cases h; exact (Eq.refl (3 : Nat))))⟩

end Narrow.Props
