import Verif.Proof.Storage
import Verif.Props.Arrays

/-!
# Storage backends (C41)

`Store.coll st α`: the collection of elements `α` in storage `st`; its state is
the list of elements held. `arrayS st nl t`: arrays whose buffers are in storage
`st`; its state is the contents of the buffers.
-/

namespace Narrow.Props

open Spec

variable {nl : Bool} {t : Ty} {α : Type}

/-- C41. The index-based owned iterator yields each element once, in order, and
always reports the exact number of elements left. No allocation holds more than
`usize::MAX` elements. -/
theorem C41_slice_into_iter (l : List α) (hl : l.length ≤ usizeMax) :
    Iterates SliceIntoIter.next SliceIntoIter.len Res.ok (SliceIntoIter.new l) l := by
  intro n
  refine iterates_of (Rep := fun (it : SliceIntoIter α) l =>
    it.index ≤ it.slice.length ∧ it.slice.length ≤ usizeMax ∧ it.slice.drop it.index = l)
    ?_ ?_ ?_ n ⟨Nat.zero_le _, hl, rfl⟩
  · rintro it ⟨h1, h2, h3⟩
    exact ⟨it, by rw [indexed_next it h2, h3], h1, h2, h3⟩
  · rintro it a r ⟨h1, h2, h3⟩
    have h5 : it.index < it.slice.length := by
      apply Decidable.byContradiction
      intro h6
      rw [List.drop_eq_nil_of_le (by omega)] at h3
      cases h3
    refine ⟨a, ⟨it.slice, it.index + 1⟩, by rw [indexed_next it h2, h3], rfl, h5, h2, ?_⟩
    rw [List.drop_eq_getElem_cons h5] at h3
    injection h3
  · rintro it r ⟨h1, h2, h3⟩
    rw [indexed_len it h1, h3]

example : Iterates SliceIntoIter.next SliceIntoIter.len Res.ok (SliceIntoIter.new [3, 1, 2]) [3, 1, 2] :=
  C41_slice_into_iter _ (by decide)

theorem list_iterates (l : List α) :
    Iterates (OwnIt.list α).next (OwnIt.list α).len Res.ok l l := by
  intro n
  refine iterates_of (Rep := fun (it : List α) l => it = l) ?_ ?_ ?_ n rfl
  · rintro it rfl; exact ⟨[], rfl, rfl⟩
  · rintro it a r rfl; exact ⟨a, r, rfl, rfl, rfl⟩
  · rintro it r rfl; rfl

/-- C41. Every storage holding the elements `l` reads as `l`: its length, its
views at every index and both its iterators. -/
theorem C41_storage (st : Store) (l : List α) (hl : l.length ≤ usizeMax) :
    Reads (st.coll α) l l ∧ ∀ i, (st.coll α).view l i = .ok l[i]? := by
  have hv : ∀ i, (st.coll α).view l i = .ok l[i]? := by intro i; cases st <;> rfl
  refine ⟨⟨by cases st <;> rfl, ?_, ⟨l, rfl, list_iterates l⟩, ?_⟩, hv⟩
  · intro i h
    unfold Coll.owned
    rw [hv i, List.getElem?_eq_getElem h]
    rfl
  · cases st
    · exact ⟨l, rfl, list_iterates l⟩
    · exact ⟨l, rfl, list_iterates l⟩
    · exact ⟨.new l, rfl, C41_slice_into_iter l hl⟩
    · exact ⟨.new l, rfl, C41_slice_into_iter l hl⟩
    · exact ⟨.new l, rfl, C41_slice_into_iter l hl⟩
    · exact ⟨l, rfl, list_iterates l⟩

example : Reads (Store.coll .arc Bool) [true, false] [true, false] :=
  (C41_storage .arc _ (by decide)).1

theorem withOwn_owned {O : Type} (K : Coll O) (A : OwnIt K.C O) (c : K.C) (i : Nat) :
    (K.withOwn A).owned c i = K.owned c i := by
  unfold Coll.owned
  cases K.view c i with
  | panic => rfl
  | ok o => cases o <;> rfl

/-- C41. An array shows the same items whatever storage holds its buffers. -/
theorem C41_arrays (st : Store) (ht : t.WF) {c : (arrayR nl t).C} {l : List (ItemVal nl (Val t))}
    (hr : Reach nl t c) (hs : Shows nl t c l) : Reads (arrayS st nl t) c l where
  len := hs.len
  owned i h := (withOwn_owned _ _ c i).trans (hs.owned i h)
  iter := hs.iter
  into := sim_iterates (simArray st nl t ht) (reach_inv hr ht) hs.into

/-- A nullable array of lists of nullable arrays of bits, in every storage. -/
example (st : Store) : ∃ c, Reach true Sample.ty c ∧ Reads (arrayS st true Sample.ty) c Sample.items := by
  obtain ⟨c, w', h1, _, h3⟩ := C08_collect_returns Sample.ty_wf (w := Sample.world)
    (s := Src.ofList Sample.items) (ofList_fused _) (by simp) Sample.tight
    (by rw [Src.items_ofList]; exact Sample.fits)
  rw [Src.items_ofList] at h3
  exact ⟨c, .fromIter h1, C41_arrays st Sample.ty_wf (.fromIter h1) h3⟩

end Narrow.Props
