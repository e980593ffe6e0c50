import Verif.Proof.Session
import Verif.Props.Export

/-! # Proofs about importing children that were taken out of exports -/

namespace Narrow.Ffi.Raw

open Narrow.Spec Narrow.Ffi.Spec Narrow.Props

/-- The items `depth` levels down. -/
def tyBelow (nl : Bool) (t : Ty) : Nat → Option (Bool × Ty)
  | 0 => some (nl, t)
  | d + 1 => (tyBelow nl t d).bind fun y => childOf y.2

/-- The types of the pieces are those of their depths. -/
theorem session_ty {env : Env} {base h : Heap} {pieces : List Piece} {out : List (List Byte)}
    (hs : Session env base h pieces out) : ∀ x ∈ pieces, tyBelow x.item.nl x.item.t x.depth = some (x.nl, x.t) := by
  have sub : ∀ {pieces rest : List Piece} {x : Piece}, (∀ x ∈ pieces, tyBelow x.item.nl x.item.t x.depth = some (x.nl, x.t)) →
      pieces.Perm (x :: rest) → tyBelow x.item.nl x.item.t x.depth = some (x.nl, x.t) ∧
        ∀ x ∈ rest, tyBelow x.item.nl x.item.t x.depth = some (x.nl, x.t) :=
    fun h hp => ⟨h _ (hp.symm.subset List.mem_cons_self), fun y hy => h y (hp.symm.subset (List.mem_cons_of_mem _ hy))⟩
  induction hs with
  | start _ => nofun
  | other _ _ ih => exact ih
  | exported _ _ _ _ _ _ ih =>
    intro y hy
    rcases List.mem_cons.1 hy with rfl | hy
    · rfl
    · rcases List.mem_cons.1 hy with rfl | hy
      · rfl
      · exact ih y hy
  | failed _ _ _ _ ih => exact ih
  | dropped _ one _ ih =>
    intro y hy
    rcases List.mem_cons.1 hy with rfl | hy
    · exact (sub ih one).1
    · exact (sub ih one).2 y hy
  | moved _ one _ _ _ _ ih =>
    intro y hy
    rcases List.mem_cons.1 hy with rfl | hy
    · exact (sub ih one).1
    · exact (sub ih one).2 y hy
  | taken _ one _ _ child _ _ _ _ _ _ ih =>
    intro y hy
    rcases List.mem_cons.1 hy with rfl | hy
    · exact (sub ih one).1
    · rcases List.mem_cons.1 hy with rfl | hy
      · show (tyBelow _ _ _).bind _ = _
        rw [(sub ih one).1]
        exact child
      · exact (sub ih one).2 y hy
  | disowned _ one _ _ _ _ _ _ ih =>
    intro y hy
    rcases List.mem_cons.1 hy with rfl | hy
    · exact (sub ih one).1
    · exact (sub ih one).2 y hy
  | vacated _ one _ _ ih => exact (sub ih one).2

theorem onlyKid_of {a kid : CArray} (h1 : firstChild a = some kid) (h2 : (a.children.elim 0 List.length) = 1) :
    onlyKid a = kid := by
  obtain ⟨_, _, _, _, _, _, children, _, _⟩ := a
  cases children with
  | none => cases h2
  | some l =>
    match l, h2 with
    | [some k], _ => cases h1; rfl
    | [none], _ => cases h1

theorem onlyKidSchema_of {s kid : CSchema} (h1 : firstSchema s = some kid) (h2 : (s.children.elim 0 List.length) = 1) :
    onlyKidSchema s = kid := by
  obtain ⟨_, _, _, _, _, children, _, _⟩ := s
  cases children with
  | none => cases h2
  | some l =>
    match l, h2 with
    | [some k], _ => cases h1; rfl
    | [none], _ => cases h1

/-- What describes an array describes its children. -/
theorem part_below {m : Mem} {nl : Bool} {t : Ty} {ht : t.WF} {c : (arrayR nl t).C} {a : APlace nl t}
    {array : CArray} {schema : CSchema} (hh : Held m nl t ht c a) (hd : Describes nl t c array schema)
    (hp : PointsTo nl t c a array) : ∀ {depth : Nat} {nl' : Bool} {t' : Ty}, tyBelow nl t depth = some (nl', t') →
    ∃ ht' c' a', Part c depth nl' t' c' ∧ Held m nl' t' ht' c' a' ∧
      Describes nl' t' c' (arrayBelow depth array) (schemaBelow depth schema) ∧
      PointsTo nl' t' c' a' (arrayBelow depth array) := by
  intro depth
  induction depth with
  | zero => intro nl' t' h; cases h; exact ⟨ht, c, a, .here, hh, hd, hp⟩
  | succ d ih =>
    intro nl' t' h
    obtain ⟨⟨nl1, t1⟩, e1, e2⟩ := Option.bind_eq_some_iff.1 h
    obtain ⟨ht1, c1, a1, g1, g2, g3, g4⟩ := ih e1
    cases t1 with
    | bool => cases e2
    | prim _ => cases e2
    | fsl n nl2 t2 =>
      cases e2
      obtain ⟨array', schema', h1, h2, h3, h4⟩ := g3.2
      obtain ⟨array2, h5, h6, h7⟩ := g4.2
      rw [h1] at h5; cases h5
      refine ⟨ht1.2, _, _, .fsl g1, g2.fsl, ?_⟩
      rw [show arrayBelow (d + 1) array = array' from onlyKid_of h1 g3.1.children,
        show schemaBelow (d + 1) schema = schema' from onlyKidSchema_of h2 g3.1.schemas]
      exact ⟨⟨h3, h4⟩, h6, h7⟩
    | vsl ow nl2 t2 =>
      cases e2
      obtain ⟨array', schema', h1, h2, h3, h4⟩ := g3.2
      obtain ⟨_, array2, h5, h6, h7⟩ := g4.2
      rw [h1] at h5; cases h5
      refine ⟨ht1, _, _, .vsl g1, g2.vsl, ?_⟩
      rw [show arrayBelow (d + 1) array = array' from onlyKid_of h1 g3.1.children,
        show schemaBelow (d + 1) schema = schema' from onlyKidSchema_of h2 g3.1.schemas]
      exact ⟨⟨h3, h4⟩, h6, h7⟩

/-- Importing what describes an array gives back its items. -/
theorem described_imports {m : Mem} {nl : Bool} {t : Ty} {ht : t.WF} {c : (arrayR nl t).C} {a : APlace nl t}
    {array : CArray} {schema : CSchema} (hh : Held m nl t ht c a) (hd : Describes nl t c array schema)
    (hp : PointsTo nl t c a array) : ∃ c' a' l, Narrow.Ffi.importLayout m t nl array schema = .ok (c', a') ∧ Reach nl t c' ∧
      Shows nl t c l ∧ Shows nl t c' l := by
  obtain ⟨hs, hcl⟩ := clean t nl ht c a array schema hh hd hp
  obtain ⟨⟨c', a'⟩, h'⟩ := (C36_accepts_iff hh.exportable hs).2 hcl
  obtain ⟨_, hr', _⟩ := C35_imported_is_valid hh.exportable hs h'
  exact ⟨c', a', (arrayL nl t ht).abs c, h', hr', shows_of_inv ht hh.inv rfl,
    shows_of_inv ht (reach_inv hr' ht) (content ht hh.inv (reach_inv hr' ht) hh.memory hh.zero hd hp
      (C34_import_borrows hh.exportable hs h'))⟩

end Narrow.Ffi.Raw
