import Verif.Proof.Newtypes
import Verif.Props.Arrays

/-!
# Arrays and layouts behave as the collections they wrap (C53)

The other theorems are about `arrayR`, the collections composed without the
newtypes `Array`, `Boolean`, `FixedSizePrimitive`, `FixedSizeList` and
`VariableSizeList`; these connect them to the types a user names.
-/

namespace Narrow.Props

open Spec

variable {nl : Bool} {t : Ty}

/-- C53. Around any collection, each newtype has exactly the operations of the
collection. -/
theorem C53_newtypes_forward {O : Type} (R : Realloc O) :
    arrayNewtypeR R = R ∧ booleanR R = R ∧ fixedSizePrimitiveR R = R ∧ fixedSizeListR R = R ∧
      variableSizeListR R = R :=
  ⟨arrayNewtypeR_eq R, booleanR_eq R, fixedSizePrimitiveR_eq R, fixedSizeListR_eq R,
    variableSizeListR_eq R⟩

/-- C53. `Array<T>`, with every newtype at every level of `T` in place, has exactly
the operations the other theorems are about; and so has its memory layout. -/
theorem C53_arrays_forward (nl : Bool) (t : Ty) :
    arrayTypeR nl t = arrayR nl t ∧ memoryR nl t = arrayR nl t :=
  ⟨arrayTypeR_eq nl t, memoryR_eq nl t⟩

/-- C53. So collecting into an `Array<T>`, extending it and truncating it does to
its items what it does to a list, through every newtype. -/
theorem C53_collect_extend_truncate (ht : t.WF) {w w' : World} {s s' : Src (ItemVal nl (Val t))}
    {n : Nat} {o : Out} {c c' c'' : (arrayTypeR nl t).C} (hs : s.Fused)
    (h1 : (arrayTypeR nl t).fromIter w s = (.ok c, w')) (h2 : (arrayTypeR nl t).extend c s' = (c', .ok))
    (h3 : (arrayTypeR nl t).truncate c' n = (c'', o)) :
    o = .ok ∧ Reads (arrayTypeR nl t).toColl c'' ((s.items ++ s'.items).take n) := by
  have e := arrayTypeR_eq nl t
  generalize arrayTypeR nl t = R at *
  subst e
  obtain ⟨r1, r2⟩ := C08_collect_round_trip ht hs h1
  obtain ⟨r3, r4, -⟩ := C10_extend_appends ht r1 r2 h2
  obtain ⟨d, r5, -, r6⟩ := C11_truncate ht n r3 r4
  rw [h3] at r5
  simp only [Prod.mk.injEq] at r5
  obtain ⟨rfl, rfl⟩ := r5
  exact ⟨rfl, r6⟩

/-- C53. `into_buffer` and `from_buffer` are inverse and `buffer_ref` shows the
wrapped collection. -/
theorem C53_buffers {C : Type} (m : C) :
    (Array.fromBuffer m).intoBuffer = m ∧ (Array.fromBuffer m).bufferRef = m ∧
    (Boolean.fromBuffer m).intoBuffer = m ∧ (Boolean.fromBuffer m).bufferRef = m ∧
    (FixedSizePrimitive.fromBuffer m).intoBuffer = m ∧ (FixedSizePrimitive.fromBuffer m).bufferRef = m ∧
    (FixedSizeList.fromBuffer m).intoBuffer = m ∧ (FixedSizeList.fromBuffer m).bufferRef = m ∧
    (VariableSizeList.fromBuffer m).intoBuffer = m ∧ (VariableSizeList.fromBuffer m).bufferRef = m :=
  ⟨rfl, rfl, rfl, rfl, rfl, rfl, rfl, rfl, rfl, rfl⟩

/-- The sample through the newtypes. -/
example : ∃ c c' c'' w', (arrayTypeR true Sample.ty).fromIter Sample.world (Src.ofList Sample.items) = (.ok c, w') ∧
    (arrayTypeR true Sample.ty).extend c (Src.ofList Sample.more) = (c', .ok) ∧
    (arrayTypeR true Sample.ty).truncate c' 5 = (c'', .ok) ∧
    Reads (arrayTypeR true Sample.ty).toColl c'' ((Sample.items ++ Sample.more).take 5) := by
  have e := arrayTypeR_eq true Sample.ty
  have key := @C53_collect_extend_truncate true Sample.ty Sample.ty_wf
  generalize arrayTypeR true Sample.ty = R at *
  subst e
  obtain ⟨c, w', h1, hg, hs⟩ := Sample.built
  obtain ⟨c', h2, -, -⟩ := C10_extend_returns (s := Src.ofList Sample.more) Sample.ty_wf hg hs
    (by simpa using Sample.fits_more) (by simp)
  obtain ⟨h4, h5⟩ := key (n := 5) (ofList_fused _) h1 h2 rfl
  simp only [Src.items_ofList] at h5
  exact ⟨c, c', _, w', h1, h2, Prod.ext rfl h4, h5⟩

end Narrow.Props
