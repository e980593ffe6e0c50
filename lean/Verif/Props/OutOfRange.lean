import Verif.Proof.Oob
import Verif.Props.Arrays

/-!
# C09: reads past the end

The property "`view(i)` and `owned(i)` return `None` for every index `i` past the
end" holds for every array type except two: `Array<[T; N]>` (any index past the
end panics) and `Array<Vec<T>>` at the single index `usize::MAX` (panics).
-/

namespace Narrow.Props

open Spec

variable {nl : Bool} {t : Ty}

/-- C09, the part that holds: `None` past the end. Missing: `Array<[T; N]>`, and
`Array<Vec<T>>` at `usize::MAX`, where the call panics (below). -/
theorem C09_out_of_range_none_partial (ht : t.WF) {c : (arrayR nl t).C} {l : List (ItemVal nl (Val t))}
    {i : Nat} (hr : Reach nl t c) (hl : Shows nl t c l) (hi : l.length ≤ i) (hn : ReturnsNone nl t i) :
    (arrayR nl t).view c i = .ok none ∧ (arrayR nl t).owned c i = .ok none := by
  have hinv := reach_inv hr ht
  rw [← hl.abs_eq hinv] at hi
  have h : (arrayR nl t).view c i = .ok none := by
    cases nl with
    | true => exact validity_oob (baseL t ht).toLawfulColl hinv hi
    | false =>
      cases t with
      | bool => exact bitmap_oob hinv hi
      | prim p => exact vec_oob p.lim_le 0#(8 * p.size) hinv hi
      | fsl n nl t => exact hn.elim
      | vsl ow nl t =>
        exact Offsets.view_oob (L := (nullL nl (baseL t ht)).toLawfulColl) (ow := ow) hinv hi hn
  exact ⟨h, by simp only [Coll.owned, h]⟩

/-- C09 is false of fixed-size list arrays: every read past the end panics. -/
theorem C09_fixed_size_list_panics {n : Nat} (ht : (Ty.fsl n nl t).WF)
    {c : (arrayR false (.fsl n nl t)).C} {l : List (ItemVal false (Val (.fsl n nl t)))} {i : Nat}
    (hr : Reach false (.fsl n nl t) c) (hl : Shows false (.fsl n nl t) c l) (hi : l.length ≤ i) :
    (arrayR false (.fsl n nl t)).view c i = .panic := by
  have hinv := reach_inv hr ht
  rw [← hl.abs_eq hinv] at hi
  exact flatten_oob (L := (nullL nl (baseL t ht.2)).toLawfulColl) ht.1
    (oobAny_null nl (oobAny_base t ht.2)) hinv hi

/-- C09 is false of list arrays at `usize::MAX`, on 64-bit targets `2 ^ 64 - 1`. -/
theorem C09_list_panics_at_max {ow : OffW} (c : (arrayR false (.vsl ow nl t)).C) :
    (arrayR false (.vsl ow nl t)).view c (2 ^ 64 - 1) = .panic := by
  show Offsets.view c usizeMax = .panic
  simp only [Offsets.view, strictAdd]
  rw [if_neg (by simp)]; rfl

/-- The hypotheses of the partial theorem hold for the nested sample. -/
example : ∃ c, Reach true Sample.ty c ∧ (arrayR true Sample.ty).owned c 4 = .ok none ∧
    (arrayR true Sample.ty).owned c usizeMax = .ok none := by
  obtain ⟨c, -, hr, hs⟩ := Sample.array
  exact ⟨c, hr, (C09_out_of_range_none_partial Sample.ty_wf hr hs (by decide) trivial).2,
    (C09_out_of_range_none_partial Sample.ty_wf hr hs (by decide) trivial).2⟩

/-- The array of `[1, 2, 3]` and `[4, 5, 6]`, two items of type `[u8; 3]`. -/
def twoTriples : (arrayR false (.fsl 3 false (.prim .u8))).C :=
  (⟨⟨[1#8, 2#8, 3#8, 4#8, 5#8, 6#8], 6⟩⟩ : Flatten (RVec (BitVec 8)))

/-- A concrete violation: reading it at index 2 panics. -/
example : Reach false (.fsl 3 false (.prim .u8)) twoTriples ∧
    (arrayR false (.fsl 3 false (.prim .u8))).len twoTriples = .ok 2 ∧
    (arrayR false (.fsl 3 false (.prim .u8))).view twoTriples 2 = .panic :=
  ⟨.flattenParts (t := .prim .u8) (nl := false) (c := (⟨[1#8, 2#8, 3#8, 4#8, 5#8, 6#8], 6⟩ : RVec (BitVec 8)))
    (.vec ⟨by decide, by decide⟩) rfl, rfl, rfl⟩

end Narrow.Props
