import Verif.Proof.Capacity
import Verif.Props.Arrays

/-!
# C14: a successful `try_reserve` makes room
-/

namespace Narrow.Props

open Spec

variable {nl : Bool} {t : Ty}

/-- `try_extend` with one source after the other, stopping at the first one that
does not return `Ok`. -/
def tryExtendAll (R : Realloc O) (w : World) (c : R.C) : List (Src O) → R.C × Out × World
  | [] => (c, .ok, w)
  | s :: rest =>
    match R.tryExtend w c s with
    | (c', .ok, w') => tryExtendAll R w' c' rest
    | r => r

theorem capacity_all {O : Type} {R : Realloc O} {L : LawfulR R} (K : CapR L) :
    ∀ (ss : List (Src O)) {c : R.C} {n : Nat}, L.Inv c → K.Cap c n →
      (∀ s ∈ ss, s.panics = false) → (ss.map fun s => s.items.length).sum ≤ n →
      ∃ c', L.Inv c' ∧ L.abs c' = L.abs c ++ ss.flatMap Src.items ∧
        ∀ w, HonestLower w.oracle → ∃ w', tryExtendAll R w c ss = (c', .ok, w')
  | [], c, n, hc, _, _, _ => ⟨c, hc, by simp, fun w _ => ⟨w, rfl⟩⟩
  | s :: ss, c, n, hc, hn, hp, hs => by
    simp only [List.map_cons, List.sum_cons] at hs
    obtain ⟨c1, h1, h2⟩ := K.ext (s := s) hc hn (hp s (by simp)) (by omega)
    obtain ⟨w1, e1, -⟩ := h2 ⟨⟨fun _ _ => none, fun _ _ => 0, fun _ _ => none⟩, 0⟩
      (fun _ _ => Nat.zero_le _)
    obtain ⟨i1, i2, -⟩ := L.tryExt_ok hc e1
    obtain ⟨c2, j1, j2, j3⟩ := capacity_all K ss i1 h1 (fun s' h => hp s' (by simp [h])) (by omega)
    refine ⟨c2, j1, by rw [j2, i2]; simp, fun w hw => ?_⟩
    obtain ⟨w', e, o⟩ := h2 w hw
    obtain ⟨w'', e'⟩ := j3 w' (o ▸ hw)
    exact ⟨w'', by simp only [tryExtendAll, e, e']⟩

/-- C14. After `try_reserve(n)` returned `Ok`, appending at most `n` items with
`try_extend` always returns `Ok`, and gives one and the same array whatever the
allocator answers from then on: no allocation request influences it. Only the
size hints of the source must be honest. -/
theorem C14_try_reserve_makes_room (ht : t.WF) (hv : NoVec t) {c c1 : (arrayR nl t).C}
    {l : List (ItemVal nl (Val t))} {n : Nat} {w w1 : World} {s : Src (ItemVal nl (Val t))}
    (hr : Reach nl t c) (hl : Shows nl t c l)
    (h : (arrayR nl t).tryReserve w c n = (c1, .ok, w1))
    (hp : s.panics = false) (hs : s.items.length ≤ n) :
    ∃ c2, Shows nl t c2 (l ++ s.items) ∧
      ∀ w2, HonestLower w2.oracle → ∃ w3, (arrayR nl t).tryExtend w2 c1 s = (c2, .ok, w3) := by
  have hi := reach_inv hr ht
  obtain ⟨i1, i2, -, -⟩ := (arrayL nl t ht).tryReserve_ok hi h
  obtain ⟨c2, -, h2⟩ := (arrayCap nl t ht hv).ext i1 ((arrayCap nl t ht hv).reserve hi h) hp hs
  obtain ⟨w3, e, -⟩ := h2 ⟨⟨fun _ _ => none, fun _ _ => 0, fun _ _ => none⟩, 0⟩
    (fun _ _ => Nat.zero_le _)
  obtain ⟨j1, j2, -⟩ := (arrayL nl t ht).tryExt_ok i1 e
  rw [i2, hl.abs_eq hi] at j2
  exact ⟨c2, shows_of_inv ht j1 j2, fun w2 hw => let ⟨w3, e, _⟩ := h2 w2 hw; ⟨w3, e⟩⟩

/-- C14 for the room used up in several calls: as long as the items of all calls
together are at most `n`, every call returns `Ok`. -/
theorem C14_in_several_calls (ht : t.WF) (hv : NoVec t) {c c1 : (arrayR nl t).C}
    {l : List (ItemVal nl (Val t))} {n : Nat} {w w1 : World}
    {sources : List (Src (ItemVal nl (Val t)))}
    (hr : Reach nl t c) (hl : Shows nl t c l)
    (h : (arrayR nl t).tryReserve w c n = (c1, .ok, w1))
    (hp : ∀ s ∈ sources, s.panics = false) (hs : (sources.map fun s => s.items.length).sum ≤ n) :
    ∃ c2, Shows nl t c2 (l ++ sources.flatMap Src.items) ∧
      ∀ w2, HonestLower w2.oracle → ∃ w3, tryExtendAll (arrayR nl t) w2 c1 sources = (c2, .ok, w3) := by
  have hi := reach_inv hr ht
  obtain ⟨i1, i2, -, -⟩ := (arrayL nl t ht).tryReserve_ok hi h
  obtain ⟨c2, j1, j2, j3⟩ := capacity_all (arrayCap nl t ht hv) sources i1
    ((arrayCap nl t ht hv).reserve hi h) hp hs
  rw [i2, hl.abs_eq hi] at j2
  exact ⟨c2, shows_of_inv ht j1 j2, j3⟩

namespace Room

/-- `Option<[Option<bool>; 3]>` -/
abbrev ty : Ty := .fsl 3 true .bool

theorem ty_wf : ty.WF := ⟨by decide, trivial⟩

/-- `Some([a, b, c])` -/
def triple (a b c : Option Bool) : ItemVal true (Val ty) := some ⟨[a, b, c], rfl⟩

/-- Five items. -/
def items : List (ItemVal true (Val ty)) :=
  [triple (some true) none (some false), none, triple none none none, none,
    triple (some true) (some true) (some true)]

/-- An environment with honest hints whose allocator refuses everything. -/
def refusing : World := ⟨⟨fun _ _ => none, fun _ n => n, fun _ n => some n⟩, 0⟩

theorem refusing_honest : HonestLower refusing.oracle := fun _ n => Nat.le_refl n

end Room

/-- The hypotheses of C14 hold: reserving for 5 nullable triples on an array of 5
succeeds in a generous environment, after which 5 items are appended although
the allocator refuses everything. -/
example : ∃ c c1 c2 w1 w3, Reach true Room.ty c ∧ Shows true Room.ty c Room.items ∧
    (arrayR true Room.ty).tryReserve Sample.world c 5 = (c1, .ok, w1) ∧
    (arrayR true Room.ty).tryExtend Room.refusing c1 (Src.ofList Room.items) = (c2, .ok, w3) ∧
    Shows true Room.ty c2 (Room.items ++ Room.items) := by
  obtain ⟨c, w', -, hg, hs⟩ := C08_collect_list (nl := true) (t := Room.ty) (w := Sample.world)
    Room.ty_wf Room.items Sample.tight
    ⟨Nat.le_of_ble_eq_true rfl, Nat.le_of_ble_eq_true rfl, Nat.le_of_ble_eq_true rfl⟩
  have h := C13_try_reserve_succeeds (n := 5) (w := Sample.world) Room.ty_wf hg hs
    Sample.generous Sample.tight
    ⟨Nat.le_of_ble_eq_true rfl, Nat.le_of_ble_eq_true rfl, Nat.le_of_ble_eq_true rfl⟩
  obtain ⟨c1, w1, h1⟩ : ∃ c1 w1, (arrayR true Room.ty).tryReserve Sample.world c 5 = (c1, .ok, w1) :=
    ⟨_, _, Prod.ext rfl (Prod.ext h rfl)⟩
  obtain ⟨c2, h2, h3⟩ := C14_try_reserve_makes_room (s := Src.ofList Room.items) Room.ty_wf trivial
    hg.reach hs h1 (by simp) (by rw [Src.items_ofList]; exact Nat.le_refl 5)
  obtain ⟨w3, h3⟩ := h3 Room.refusing Room.refusing_honest
  exact ⟨c, c1, c2, w1, w3, hg.reach, hs, h1, h3, by simpa using h2⟩

/-- Why C14 excludes variable-size lists: `try_reserve(1)` on an `Array<Vec<u8>>`
reserves one byte of values, so that appending one list of two bytes needs the
allocator. -/
theorem C14_lists_excluded :
    ∃ c1 w1 c2 w3, (arrayR false (.vsl .i32 false (.prim .u8))).tryReserve Sample.world
        (arrayR false (.vsl .i32 false (.prim .u8))).empty 1 = (c1, .ok, w1) ∧
      (arrayR false (.vsl .i32 false (.prim .u8))).tryExtend Room.refusing c1
        [.item ([7#8, 8#8] : List (BitVec 8))] = (c2, .err, w3) :=
  ⟨_, _, _, _, rfl, rfl⟩

end Narrow.Props
