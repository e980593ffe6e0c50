import Verif.Proof.UserArrays
import Verif.Props.Backends
import Verif.Props.Access
import Verif.Props.Newtypes

/-!
# Arrays in storages written by users (C70)

`Array<T, Storage>` for every item type and every implementation of `Buffer` whose storages
keep their contract.
-/

namespace Narrow.Props

open Spec

variable {env : World} {S : Stores} {G : Goods S} {nl : Bool} {t : Ty}

/-- C70. An array is the composition of collections that its item type spells out, through
the newtypes, and its storages make the composition sound: what is proved of compositions
over user storages holds of arrays. -/
theorem C70_array_composition (hk : Kept S G) (ht : t.WF) :
    arrayInR env S nl t = scompR (arrayComp env S G nl t ht) ∧ Sound (arrayComp env S G nl t ht) :=
  ⟨arrayInR_eq nl t ht, opt_sound hk nl (base_sound hk t ht)⟩

/-- C70. However an array was built, reading shows the items a plain list would hold. -/
theorem C70_reads (hk : Kept S G) (ht : t.WF) {c : (arrayInR env S nl t).C}
    {l : List (ItemVal nl (Val t))} (h : BuiltBy (arrayInR env S nl t) c l) :
    Reads (arrayInR env S nl t).toColl c l := by
  obtain ⟨e, hs⟩ := C70_array_composition (env := env) (nl := nl) hk ht
  generalize arrayInR env S nl t = R at *
  subst e
  exact C56_built_reads hs h.sbuilt

/-- C70. Collecting, extending and truncating do to an array what they do to a list. -/
theorem C70_collect_extend_truncate (hk : Kept S G) (ht : t.WF) {w w' : World}
    {s s' : Src (ItemVal nl (Val t))} {n : Nat} {o : Out} {c c' c'' : (arrayInR env S nl t).C}
    (hs : s.Fused) (h1 : (arrayInR env S nl t).fromIter w s = (.ok c, w'))
    (h2 : (arrayInR env S nl t).extend c s' = (c', .ok))
    (h3 : (arrayInR env S nl t).truncate c' n = (c'', o)) :
    o = .ok ∧ Reads (arrayInR env S nl t).toColl c'' ((s.items ++ s'.items).take n) := by
  have hb := BuiltBy.extend (.fromIter hs h1) h2
  refine ⟨?_, C70_reads hk ht (.truncate hb h3)⟩
  obtain ⟨e, hs'⟩ := C70_array_composition (env := env) (nl := nl) hk ht
  generalize arrayInR env S nl t = R at *
  subst e
  have := C56_truncate_returns hs' hb.sbuilt n
  rw [h3] at this
  exact this

/-- C70. `try_extend` is all or nothing: it appends every item, or reports the error and
leaves the items as they were; it does not panic unless the source does. -/
theorem C70_try_extend (hk : Kept S G) (ht : t.WF) {w w' : World} {s : Src (ItemVal nl (Val t))}
    {o : Out} {c c' : (arrayInR env S nl t).C} {l : List (ItemVal nl (Val t))}
    (h : BuiltBy (arrayInR env S nl t) c l) (hp : s.panics = false)
    (e : (arrayInR env S nl t).tryExtend w c s = (c', o, w')) :
    (o = .ok ∧ Reads (arrayInR env S nl t).toColl c' (l ++ s.items)) ∨
      (o = .err ∧ Reads (arrayInR env S nl t).toColl c' l) := by
  have hn : ((arrayInR env S nl t).tryExtend w c s).2.1 ≠ .panic := by
    obtain ⟨e', hs'⟩ := C70_array_composition (env := env) (nl := nl) hk ht
    generalize arrayInR env S nl t = R at *
    subst e'
    exact (C56_fallible_calls_return hs' h.sbuilt w 0 hp).2.1
  rw [e] at hn
  cases o with
  | ok => exact .inl ⟨rfl, C70_reads hk ht (.tryExtend h e)⟩
  | err => exact .inr ⟨rfl, C70_reads hk ht (.tryExtendErr h e)⟩
  | panic => exact absurd rfl hn

/-- C70. Arrays built in two storages by calls that build the same list have the same
length and the same items, wherever one looks. -/
theorem C70_storage_invisible {S' : Stores} {G' : Goods S'} {env' : World} (hk : Kept S G)
    (hk' : Kept S' G') (ht : t.WF) {c : (arrayInR env S nl t).C} {d : (arrayInR env' S' nl t).C}
    {l : List (ItemVal nl (Val t))} (hc : BuiltBy (arrayInR env S nl t) c l)
    (hd : BuiltBy (arrayInR env' S' nl t) d l) :
    (arrayInR env S nl t).len c = (arrayInR env' S' nl t).len d ∧
      ∀ m, Reads (arrayInR env S nl t).toColl c m ↔ Reads (arrayInR env' S' nl t).toColl d m := by
  have h1 := C70_reads hk ht hc
  have h2 := C70_reads hk' ht hd
  refine ⟨h1.len.trans h2.len.symm, fun m => ⟨fun h => ?_, fun h => ?_⟩⟩
  · rw [h.unique h1]; exact h2
  · rw [h.unique h2]; exact h1

/-- C70. In the storage `VecBuffer`, all of this is what `Array<T>` does: the two models of
arrays agree on every call. -/
theorem C70_vec_same (env : World) (nl : Bool) (t : Ty) :
    ∃ f, Same (arrayTypeR nl t) (arrayInR env Stores.vec nl t) f := by
  rw [arrayTypeR, arrayInR, arrayNewtypeR_eq, arrayNewtypeR_eq]
  exact memory_same env nl t

/-! ## Concrete cases -/

/-- A `Buffer` of eight slots. -/
def Backends.eight : Stores where
  bytes := Backends.slots 8 0#8
  offsets _ := Backends.slots 8 0
  values p := Backends.slots 8 0#(8 * p.size)

/-- At most eight slots are taken. -/
def Backends.eightGood : Goods Backends.eight where
  bytes c := c.length ≤ 8
  offsets _ c := c.length ≤ 8
  values _ c := c.length ≤ 8

theorem Backends.eight_kept : Kept Backends.eight Backends.eightGood where
  bytes := Backends.slots_honours (by decide) _
  offsets _ := Backends.slots_honours (by decide) _
  first _ := rfl
  values _ := (Backends.slots_honours (by decide) _).toHonours

/-- The array type of the cases below. -/
abbrev Backends.lists := arrayInR Sample.world Backends.eight true Sample.ty

/-- Was an array made? -/
def Backends.made {C : Type} : Try C → Bool
  | .ok _ => true
  | _ => false

theorem Backends.made_ok {C : Type} {x : Try C × World} (h : Backends.made x.1 = true) :
    ∃ c w, x = (.ok c, w) := by
  obtain ⟨x, w⟩ := x
  cases x with
  | ok c => exact ⟨c, w, rfl⟩
  | err => cases h
  | panic => cases h

/-- Nullable lists of nullable pairs, in eight slots: four are collected. -/
theorem Backends.lists_made : ∃ c w, Backends.lists.fromIter Sample.world (Src.ofList Sample.items) =
    (.ok c, w) := Backends.made_ok (by decide +kernel)

example : ∃ c w, Backends.lists.fromIter Sample.world (Src.ofList Sample.items) = (.ok c, w) ∧
    Reads Backends.lists.toColl c Sample.items := by
  obtain ⟨c, w, h⟩ := Backends.lists_made
  have := C70_reads Backends.eight_kept Sample.ty_wf (.fromIter (ofList_fused _) h)
  exact ⟨c, w, h, by simpa using this⟩

/-- Two more are appended, and dropped again. -/
example : ∃ c c' c'', Backends.lists.extend Backends.lists.empty (Src.ofList Sample.items) = (c, .ok) ∧
    Backends.lists.extend c (Src.ofList Sample.more) = (c', .ok) ∧
    Backends.lists.truncate c' 4 = (c'', .ok) ∧ Reads Backends.lists.toColl c'' Sample.items := by
  have h1 : Backends.lists.extend Backends.lists.empty (Src.ofList Sample.items) =
    ((Backends.lists.extend Backends.lists.empty (Src.ofList Sample.items)).1, .ok) :=
    Prod.ext rfl (by decide +kernel)
  have h2 : Backends.lists.extend (Backends.lists.extend Backends.lists.empty
      (Src.ofList Sample.items)).1 (Src.ofList Sample.more) =
    ((Backends.lists.extend (Backends.lists.extend Backends.lists.empty
      (Src.ofList Sample.items)).1 (Src.ofList Sample.more)).1, .ok) :=
    Prod.ext rfl (by decide +kernel)
  have h3 : Backends.lists.truncate (Backends.lists.extend (Backends.lists.extend Backends.lists.empty
      (Src.ofList Sample.items)).1 (Src.ofList Sample.more)).1 4 =
    ((Backends.lists.truncate (Backends.lists.extend (Backends.lists.extend Backends.lists.empty
      (Src.ofList Sample.items)).1 (Src.ofList Sample.more)).1 4).1, .ok) :=
    Prod.ext rfl (by decide +kernel)
  refine ⟨_, _, _, h1, h2, h3, ?_⟩
  have := C70_reads Backends.eight_kept Sample.ty_wf (.truncate (.extend (.extend .empty h1) h2) h3)
  simp only [Src.items_ofList] at this
  exact this

/-- Nine numbers do not fit in eight slots: an error, and nothing changes. -/
example : ∃ c' w', (arrayInR Sample.world Backends.eight false (.prim .u8)).tryExtend Sample.world
      (arrayInR Sample.world Backends.eight false (.prim .u8)).empty
      (Src.ofList (List.replicate 9 (7#8 : Byte))) = (c', .err, w') ∧
    Reads (arrayInR Sample.world Backends.eight false (.prim .u8)).toColl c' [] := by
  have h : ((arrayInR Sample.world Backends.eight false (.prim .u8)).tryExtend Sample.world
    (arrayInR Sample.world Backends.eight false (.prim .u8)).empty
    (Src.ofList (List.replicate 9 (7#8 : Byte)))).2.1 = .err := by decide +kernel
  refine ⟨_, _, Prod.ext rfl (Prod.ext h rfl), ?_⟩
  rcases C70_try_extend Backends.eight_kept (nl := false) (t := .prim .u8) trivial .empty
    (s := Src.ofList (List.replicate 9 (7#8 : Byte))) (by simp) (Prod.ext rfl (Prod.ext h rfl)) with h | h
  · cases h.1
  · exact h.2

end Narrow.Props
