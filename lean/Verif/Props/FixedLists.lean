import Verif.Props.Lists

/-!
# Properties of fixed-size list arrays (C29, C30)

A fixed-size list array is a `Flatten` over the array of its elements:
`arrayR false (.fsl n nl t)` over `arrayR nl t`.
-/

namespace Narrow.Props

open Spec

variable {n : Nat} {nl : Bool} {t : Ty}

theorem parts_eq (ht : t.WF) {c : (arrayR nl t).C} {xs : List (ItemVal nl (Val t))}
    (hc : Reach nl t c) (hx : Shows nl t c xs) :
    Flatten.tryFromParts (arrayR nl t).toColl n c = .ok (if n = 0 then .error .zeroChunkSize
      else if xs.length % n = 0 then .ok ⟨c⟩ else .error (.notMultiple xs.length n)) := by
  have hi := reach_inv hc ht
  have he : (arrayL nl t ht).abs c = xs := hx.abs_eq hi
  have := Flatten.tryFromParts_eq (L := (arrayL nl t ht).toLawfulColl) n hi
  rw [he] at this
  exact this

/-- C29. `try_from_parts` accepts exactly whole groups of a positive width;
`into_parts` gives the child back. -/
theorem C29_accepts (ht : t.WF) {c : (arrayR nl t).C} {xs : List (ItemVal nl (Val t))}
    (hc : Reach nl t c) (hx : Shows nl t c xs) :
    (∃ f, Flatten.tryFromParts (arrayR nl t).toColl n c = .ok (.ok f) ∧ f.intoParts = c) ↔
      0 < n ∧ ∃ groups, groups * n = xs.length := by
  have hp := parts_eq (n := n) ht hc hx
  constructor
  · rintro ⟨f, hf, -⟩
    rw [hp] at hf
    split at hf
    · simp at hf
    · split at hf
      · next h0 h1 => exact ⟨by omega, xs.length / n, Nat.div_mul_cancel (Nat.dvd_of_mod_eq_zero h1)⟩
      · simp at hf
  · rintro ⟨h0, g, hg⟩
    refine ⟨⟨c⟩, hp.trans ?_, rfl⟩
    rw [if_neg (by omega), if_pos (by rw [← hg]; exact Nat.mul_mod_left g n)]

theorem groups_get {α : Type} {n : Nat} (xs : List (FixArr α n)) (i : Nat) (h : i < xs.length) :
    xs[i].1 = ((Flatten.flat xs).drop (i * n)).take n := by
  have h1 := Flatten.flat_drop xs i
  rw [← h1, List.drop_eq_getElem_cons h]
  rw [Flatten.flat_cons, List.take_append_of_le_length (by rw [xs[i].2]; exact Nat.le_refl _),
    List.take_of_length_le (by rw [xs[i].2]; exact Nat.le_refl _)]

/-- C29. What an accepted child shows: its items in groups of `n`. -/
theorem C29_groups (ht : t.WF) {c : (arrayR nl t).C} {xs : List (ItemVal nl (Val t))}
    {f : Flatten (arrayR nl t).C} (hc : Reach nl t c) (hx : Shows nl t c xs)
    (h : Flatten.tryFromParts (arrayR nl t).toColl n c = .ok (.ok f)) :
    Reach false (.fsl n nl t) f ∧
    ∃ groups, Shows false (.fsl n nl t) f groups ∧ Groups (n := n) xs groups := by
  have hi := reach_inv hc ht
  have he : (arrayL nl t ht).abs c = xs := hx.abs_eq hi
  have hp := parts_eq (n := n) ht hc hx
  rw [h] at hp
  have hr : Reach false (.fsl n nl t) f := .flattenParts hc h
  split at hp
  · simp at hp
  · next h0 =>
    split at hp
    · next h1 =>
      simp only [Res.ok.injEq, Except.ok.injEq] at hp
      subst hp
      have hn : 0 < n := by omega
      have hf : (Ty.fsl n nl t).WF := ⟨hn, ht⟩
      have hinv : flatInv (arrayL nl t ht).toLawfulColl n ⟨c⟩ := ⟨hi, by
        show ((arrayL nl t ht).abs c).length % n = 0
        rw [he]; exact h1⟩
      refine ⟨hr, flatAbs (arrayL nl t ht).toLawfulColl n ⟨c⟩,
        shows_of_inv (t := .fsl n nl t) hf hinv rfl, ?_, ?_⟩
      · have := flat_abs_length hn hinv
        rw [← he]; exact this.symm
      · intro i hlt
        have := groups_get (flatAbs (arrayL nl t ht).toLawfulColl n ⟨c⟩) i hlt
        rw [flat_abs hn hinv] at this
        rw [← he]; exact this
    · simp at hp

/-- C29. The error of a rejected child. -/
theorem C29_rejects (ht : t.WF) {c : (arrayR nl t).C} {xs : List (ItemVal nl (Val t))}
    (hc : Reach nl t c) (hx : Shows nl t c xs) :
    (n = 0 → Flatten.tryFromParts (arrayR nl t).toColl n c = .ok (.error .zeroChunkSize)) ∧
    (0 < n → (¬ ∃ groups, groups * n = xs.length) →
      Flatten.tryFromParts (arrayR nl t).toColl n c = .ok (.error (.notMultiple xs.length n))) := by
  have hp := parts_eq (n := n) ht hc hx
  constructor
  · intro h0
    rw [hp, if_pos h0]
  · intro h0 hg
    rw [hp, if_neg (by omega), if_neg]
    intro h1
    exact hg ⟨xs.length / n, Nat.div_mul_cancel (Nat.dvd_of_mod_eq_zero h1)⟩

/-- C29: five bytes as one group; not in groups of three or zero. -/
example : (∃ f, Flatten.tryFromParts (arrayR false (.prim .u8)).toColl 5 Ints.data = .ok (.ok f)) ∧
    Flatten.tryFromParts (arrayR false (.prim .u8)).toColl 3 Ints.data = .ok (.error (.notMultiple 5 3)) ∧
    Flatten.tryFromParts (arrayR false (.prim .u8)).toColl 0 Ints.data = .ok (.error .zeroChunkSize) :=
  ⟨⟨_, rfl⟩, (C29_rejects (t := .prim .u8) trivial Ints.data_reach Ints.data_shows).2 (by decide)
    (by rintro ⟨g, hg⟩; have : g * 3 = 5 := hg; omega), rfl⟩

example : ∃ f groups, Flatten.tryFromParts (arrayR false (.prim .u8)).toColl 5 Ints.data = .ok (.ok f) ∧
    Shows false (.fsl 5 false (.prim .u8)) f groups ∧
    Groups (n := 5) (Ints.data.items : List (BitVec 8)) groups := by
  obtain ⟨g, h1, h2⟩ := (C29_groups (n := 5) (t := .prim .u8) trivial Ints.data_reach
    Ints.data_shows rfl).2
  exact ⟨_, g, rfl, h1, h2⟩

/-! ## C30: width zero -/

/-- Asking for the length of a fixed-size list array of width zero, or iterating
over its views, always panics. -/
theorem C30_zero_width_unusable (c : (arrayR false (.fsl 0 nl t)).C) :
    (arrayR false (.fsl 0 nl t)).len c = .panic ∧ (arrayR false (.fsl 0 nl t)).iter c = .panic := by
  have h : Flatten.len (nullR nl (baseR t)).toColl 0 c = .panic := by
    simp only [Flatten.len, Res.bind, strictDiv]
    split <;> rfl
  exact ⟨h, (congrArg (Res.map _) h).trans rfl⟩

theorem flatSrc_zero {α : Type} : ∀ l : List (FixArr α 0), Flatten.flatSrc (Src.ofList l) = []
  | [] => rfl
  | a :: l => by
    have ha : a.1 = [] := List.length_eq_zero_iff.mp a.2
    have := flatSrc_zero l
    simp only [Src.ofList, List.map_cons, Flatten.flatSrc, ha, List.map_nil, List.nil_append] at this ⊢
    exact this

/-- C30 is false: `Default`, `with_capacity`, `collect`, and the other
constructors do produce arrays of width zero, for every item type. -/
theorem C30_zero_width_constructible (ht : t.WF) {w : World} (hh : TightHints w.oracle)
    (hw : Generous w.oracle) (hf : Fits nl t 0 []) (l : List (Val (.fsl 0 nl t))) (k : Nat) :
    Reach false (.fsl 0 nl t) (arrayR false (.fsl 0 nl t)).empty ∧
    (∃ c, (arrayR false (.fsl 0 nl t)).withCap k = .ok c) ∧
    (∃ c w', (arrayR false (.fsl 0 nl t)).fromIter w (Src.ofList l) = (.ok c, w')) ∧
    (∃ c w', (arrayR false (.fsl 0 nl t)).fromIterIn w (Src.ofList l) = (.ok c, w')) ∧
    (∃ c w', (arrayR false (.fsl 0 nl t)).tryWithCap w k = (.ok c, w')) ∧
    (∃ c w', (arrayR false (.fsl 0 nl t)).tryFromIter w (Src.ofList l) = (.ok c, w')) := by
  obtain ⟨⟨c1, w1, h1⟩, ⟨c2, w2, h2⟩, ⟨c3, w3, h3⟩, ⟨c4, h4, -⟩, ⟨c5, w5, h5⟩⟩ :=
    C18_constructors_succeed (nl := nl) (t := t) (n := 0) (w := w) (s := []) ht rfl rfl hw hh hf hf
  have hl : Flatten.flatSrc (Src.ofList l) = [] := flatSrc_zero l
  refine ⟨.empty, ⟨⟨c4⟩, ?_⟩, ⟨⟨c1⟩, w1, ?_⟩, ⟨⟨c2⟩, w2, ?_⟩, ⟨⟨c5⟩, w5, ?_⟩, ⟨⟨c3⟩, w3, ?_⟩⟩
  · show (match strictMul k 0 with
      | .panic => Try.panic
      | .ok m => Flatten.wrapTry ((nullR nl (baseR t)).withCap m)) = _
    have : strictMul k 0 = .ok 0 := by simp [strictMul]
    rw [this]
    exact congrArg Flatten.wrapTry h4
  · show (Flatten.wrapTry ((nullR nl (baseR t)).fromIter w (Flatten.flatSrc (Src.ofList l))).1,
      ((nullR nl (baseR t)).fromIter w (Flatten.flatSrc (Src.ofList l))).2) = _
    rw [hl]
    exact congrArg (fun r => (Flatten.wrapTry r.1, r.2)) h1
  · show (Flatten.wrapTry ((nullR nl (baseR t)).fromIterIn w (Flatten.flatSrc (Src.ofList l))).1,
      ((nullR nl (baseR t)).fromIterIn w (Flatten.flatSrc (Src.ofList l))).2) = _
    rw [hl]
    exact congrArg (fun r => (Flatten.wrapTry r.1, r.2)) h2
  · show (match checkedMul k 0 with
      | none => (Try.err, w)
      | some m => (Flatten.wrapTry ((nullR nl (baseR t)).tryWithCap w m).1,
          ((nullR nl (baseR t)).tryWithCap w m).2)) = _
    have : checkedMul k 0 = some 0 := by simp [checkedMul]
    rw [this]
    exact congrArg (fun r => (Flatten.wrapTry r.1, r.2)) h5
  · show (Flatten.wrapTry ((nullR nl (baseR t)).tryFromIter w (Flatten.flatSrc (Src.ofList l))).1,
      ((nullR nl (baseR t)).tryFromIter w (Flatten.flatSrc (Src.ofList l))).2) = _
    rw [hl]
    exact congrArg (fun r => (Flatten.wrapTry r.1, r.2)) h3

/-- C30, the part that holds: `try_from_parts` never produces width zero. Missing:
every other constructor, which does (above). -/
theorem C30_try_from_parts_partial (ht : t.WF) {c : (arrayR nl t).C} (hc : Reach nl t c) :
    Flatten.tryFromParts (arrayR nl t).toColl 0 c = .ok (.error .zeroChunkSize) :=
  let ⟨_, hx, _⟩ := reach_reads ht hc
  (C29_rejects (n := 0) ht hc hx).1 rfl

/-- C30: collecting two items of type `[bool; 0]`: the array exists, and its
length panics. -/
example : ∃ c w', (arrayR false (.fsl 0 false .bool)).fromIter Sample.world
      (Src.ofList [(⟨[], rfl⟩ : FixArr Bool 0), ⟨[], rfl⟩]) = (.ok c, w') ∧
    Reach false (.fsl 0 false .bool) c ∧ (arrayR false (.fsl 0 false .bool)).len c = .panic := by
  obtain ⟨-, -, ⟨c, w', h⟩, -⟩ := C30_zero_width_constructible (nl := false) (t := .bool) (k := 3) trivial
    Sample.tight Sample.generous (Nat.le_of_ble_eq_true rfl) [(⟨[], rfl⟩ : FixArr Bool 0), ⟨[], rfl⟩]
  exact ⟨c, w', h, .fromIter h, (C30_zero_width_unusable c).1⟩

end Narrow.Props
