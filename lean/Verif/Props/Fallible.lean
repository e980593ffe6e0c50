import Verif.Proof.Fallible
import Verif.Props.Arrays

/-!
# Fallible calls do not panic (C46)
-/

namespace Narrow.Props

open Spec

variable {nl : Bool} {t : Ty}

/-- C46. `try_with_capacity_in` returns, whatever the capacity and the allocator. -/
theorem C46_try_with_capacity (ht : t.WF) (w : World) (n : Nat) :
    ((arrayR nl t).tryWithCap w n).1 ≠ .panic := (arrayL nl t ht).tryWithCap_np w n

/-- C46. `try_from_iter_in` returns, whatever the size hints, the allocator and
the number of items, if no call of the source's `next` panics. The source may
resume after `None`. -/
theorem C46_try_from_iter (ht : t.WF) (w : World) {s : Src (ItemVal nl (Val t))}
    (hs : ∀ e ∈ s, e ≠ .panic) : ((arrayR nl t).tryFromIter w s).1 ≠ .panic :=
  array_noPanic nl t ht w s hs

/-- C46. `try_extend` returns, whatever the size hints, the allocator and the
number of items, if the source does not panic before its first `None`. -/
theorem C46_try_extend (ht : t.WF) (w : World) {c : (arrayR nl t).C} {s : Src (ItemVal nl (Val t))}
    (hr : Reach nl t c) (hs : s.panics = false) : ((arrayR nl t).tryExtend w c s).2.1 ≠ .panic :=
  (arrayL nl t ht).tryExt_np (reach_inv hr ht) hs

/-- C46. `try_reserve` returns, whatever the number and the allocator. -/
theorem C46_try_reserve (ht : t.WF) (w : World) {c : (arrayR nl t).C} (n : Nat) (hr : Reach nl t c) :
    ((arrayR nl t).tryReserve w c n).2.1 ≠ .panic :=
  ((arrayL nl t ht).tryReserve_ok (reach_inv hr ht) rfl).2.2.1

/-- The hypotheses are met by the sample, and the calls by absurd arguments. -/
example : ((arrayR true Sample.ty).tryWithCap Sample.hostile usizeMax).1 ≠ .panic ∧
    ((arrayR true Sample.ty).tryFromIter Sample.hostile (Src.ofList Sample.items)).1 ≠ .panic ∧
    ∃ c, Reach true Sample.ty c ∧
      ((arrayR true Sample.ty).tryExtend Sample.hostile c (Src.ofList Sample.more)).2.1 ≠ .panic ∧
      ((arrayR true Sample.ty).tryReserve Sample.hostile c usizeMax).2.1 ≠ .panic := by
  obtain ⟨c, -, hr, -⟩ := Sample.array
  exact ⟨C46_try_with_capacity Sample.ty_wf _ _,
    C46_try_from_iter Sample.ty_wf _ (by simp [Src.ofList]), c, hr,
    C46_try_extend Sample.ty_wf _ hr (by simp), C46_try_reserve Sample.ty_wf _ _ hr⟩

/-- A source that resumes after `None`. -/
example : ((arrayR false .bool).tryFromIter Sample.world [.item true, .none, .item false]).1 ≠ .panic :=
  C46_try_from_iter (nl := false) (t := .bool) trivial _ (by simp)

end Narrow.Props
