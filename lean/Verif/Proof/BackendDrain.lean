import Verif.Proof.Drain
import Verif.Proof.BackendComp

/-! # What a caught panic leaves to be consumed, over storages written by users -/

namespace Narrow

open Spec Validity Offsets

section
variable {O : Type}

theorem ValidityOf.full {M : Coll Bool} {LM : LawfulColl M} {K : Coll O} {c : K.C} {b : M.C}
    {l : List O} (h : Ready K c l) (hb : LM.Inv b) (hl : (LM.abs b).length ≤ l.length) :
    Full (validityBC M K) ⟨c, some b⟩ (mask l (LM.abs b)) := by
  obtain ⟨it, h1, h2⟩ := h.into
  obtain ⟨bi, h3, h4⟩ := LM.into_ok hb
  refine ⟨vis (LM := LM) h.vis hb hl, (it, some bi), by simp [pair, h1, h3, Res.bind, Res.map],
    fun n => ?_⟩
  refine iterates_of (Rep := fun it m => ∃ xs bi bs, Yields K it.1 xs ∧ it.2 = some bi ∧
    LM.JRep bi bs ∧ bs.length ≤ xs.length ∧ m = mask xs bs) ?_ ?_ ?_ n
    ⟨l, _, LM.abs b, h2, rfl, h4, hl, rfl⟩
  · rintro ⟨i, ob⟩ ⟨xs, bi, bs, e1, rfl, e3, e4, e5⟩
    have hbs : bs = [] := by
      have := congrArg List.length e5
      simp only [List.length_nil, mask_length] at this
      exact List.length_eq_zero_iff.mp (by omega)
    subst hbs
    obtain ⟨bi', q1, q2⟩ := LM.jnext_nil e3
    exact ⟨(i, some bi'), by simp [validityNext, q1, Res.bind], xs, bi', [], e1, rfl, q2, e4, e5⟩
  · rintro ⟨i, ob⟩ o m ⟨xs, bi, bs, e1, rfl, e3, e4, e5⟩
    cases bs with
    | nil => simp at e5
    | cons v bs =>
      cases xs with
      | nil => simp at e4
      | cons x xs =>
        obtain ⟨bi', q1, q2⟩ := LM.jnext_cons e3
        obtain ⟨-, i', q3, q4⟩ := e1
        have e6 : o = (if v then some x else none) ∧ m = mask xs bs := by
          simpa [mask] using e5
        refine ⟨o, (i', some bi'), ?_, rfl, xs, bi', bs, q4, rfl, q2, by simpa using e4, e6.2⟩
        simp [validityNext, q1, q3, Res.bind, Res.map, e6.1]
  · rintro ⟨i, ob⟩ m ⟨xs, bi, bs, e1, rfl, e3, e4, rfl⟩
    show pairLen K.jlen M.jlen (i, some bi) = _
    simp [pairLen, e1.len, Res.bind, LM.jlen_ok e3, Res.map]

theorem OffsetsIn.full {D : Buf Int} {LD : LawfulColl D.toColl} {K : Coll O} {d : K.C} {of : D.C}
    {rs : List (List O)} {x : List O} (h : Vis K d (rs.flatten ++ x)) (hd : LD.Inv of)
    (ho : LD.abs of = totals 0 rs) : Full (offsetsBC D K) ⟨d, of⟩ rs := by
  obtain ⟨t, ht⟩ := totals_cons 0 rs
  obtain ⟨it, h1, h2⟩ := LD.into_ok hd
  rw [ho, ht] at h2
  obtain ⟨it', h3, h4⟩ := LD.jnext_cons h2
  refine ⟨vis (LD := LD) h hd ho, ⟨d, it', ((0 : Nat) : Int)⟩, ?_, fun n => ?_⟩
  · show into D _ = _
    unfold into
    simp [h1, h3, Res.bind]
  refine iterates_of (Rep := fun it m => ∃ (p : Nat) (rest : List Int), it.data = d ∧
    it.position = (p : Int) ∧ LD.JRep it.offsets rest ∧ (p : Int) :: rest = totals p m ∧
    m.flatten <+: (rs.flatten ++ x).drop p) ?_ ?_ ?_ n
    ⟨0, t, rfl, rfl, h4, ht.symm, List.prefix_append _ _⟩
  · rintro it ⟨p, rest, h1, h2, h5, h3, h4⟩
    have : rest = [] := by simpa [totals] using h3
    subst this
    obtain ⟨o, e1, e2⟩ := LD.jnext_nil h5
    exact ⟨⟨it.data, o, it.position⟩, by simp [intoNext, e1, Res.bind], p, [], h1, h2, e2, h3, h4⟩
  · rintro it r m ⟨p, rest, h1, h2, h5, h3, h4⟩
    simp only [totals, List.cons.injEq, true_and] at h3
    obtain ⟨t, ht⟩ := totals_cons (p + r.length) m
    rw [ht] at h3
    subst h3
    obtain ⟨o, e1, e2⟩ := LD.jnext_cons h5
    have hr : r <+: (rs.flatten ++ x).drop p := List.IsPrefix.trans (by simp) h4
    refine ⟨r, ⟨it.data, o, ((p + r.length : Nat) : Int)⟩, ?_, rfl, p + r.length, t, h1, rfl, e2,
      ht.symm, ?_⟩
    · show intoNext D K it = _
      unfold intoNext
      rw [e1, h2, h1]
      simp only [asUsize_ofNat, Res.bind, Nat.add_sub_cancel_left]
      rw [collectRange_ok r p fun j hj => ?_]
      · rfl
      · obtain ⟨hd, he⟩ := OffsetView.prefix_get hr hj
        obtain ⟨v, hx, hv⟩ := h.view _ hd
        rw [hx]
        simp only [Res.expect]
        rw [hv, he]
    · obtain ⟨t, ht⟩ := h4
      refine ⟨t, ?_⟩
      rw [← List.drop_drop, ← ht, List.flatten_cons, List.append_assoc, List.drop_left]
  · rintro it m ⟨p, rest, h1, h2, h5, h3, h4⟩
    have := congrArg List.length h3
    simp at this
    show D.jlen it.offsets = _
    rw [LD.jlen_ok h5, this]

end

section
variable {O : Type} {R : Realloc O} {L : LawfulR R}

theorem ValidityOf.fullE {B : Backing Byte} {LB : LawfulB B} (env : World)
    (h : PanicE L (Ready R.toColl)) (hb : KeepE LB.toLawfulR) :
    PanicE (validityBG env LB L).lawful (Full (validityBR env B R).toColl) :=
  leavesE env (Q := Full (validityBR env B R).toColl) h hb
    (fun hc => Full.of_inv (validityBG env LB L).lawful.toLawfulColl hc)
    fun h1 h2 h3 => full (LM := bitmapBL LB) h1 h2 (by
      show (BitmapOf.bitsAre _).length ≤ _; rw [BitmapOf.bits_length]; exact h3)

theorem ValidityOf.fullT {B : Backing Byte} {LB : LawfulB B} (env : World)
    (h : PanicT L (Ready R.toColl)) :
    PanicT (validityBG env LB L).lawful (Full (validityBR env B R).toColl) :=
  leavesT env (Q := Full (validityBR env B R).toColl) h
    fun h1 h2 h3 => full (LM := bitmapBL LB) h1 h2 (by
      show (BitmapOf.bitsAre _).length ≤ _; rw [BitmapOf.bits_length]; exact h3)

theorem OffsetsIn.fullE {ow : OffW} {D : Backing Int} {LD : LawfulB D}
    (hz : (D.extend D.empty [.item 0]).2 = .ok) (h : PanicE L (Ready R.toColl))
    (hd : KeepE LD.toLawfulR) :
    PanicE (offsetsBG ow LD L hz).lawful (Full (offsetsBR ow D R).toColl) :=
  leavesE hz (Q := Full (offsetsBR ow D R).toColl) h hd
    (fun hc => Full.of_inv (offsetsBG ow LD L hz).lawful.toLawfulColl hc)
    fun h1 h2 h3 => full h1.vis h2 h3

end

theorem scomp_readyE : {O : Type} → (k : SComp O) → (h : Sound k) → Surviving k →
    PanicE (scompL k h) (Ready (scompR k).toColl)
  | _, .leaf R G f, h, hv => PanicE.ready (KeepE.full (scomp_keepE (.leaf R G f) h hv trivial))
  | _, .bitmap B G, h, hv => PanicE.ready (KeepE.full (scomp_keepE (.bitmap B G) h hv trivial))
  | _, .flatten _ hn k, h, hv => flatten_readyE hn (scomp_readyE k h hv)
  | _, .validity env B G k, h, hv => PanicE.ready (L := scompL (.validity env B G k) h)
    (ValidityOf.fullE env (scomp_readyE k h.2 hv.2) (buf_keepE h.1 hv.1))
  | _, .offsets ow D G k, h, hv => PanicE.ready (L := scompL (.offsets ow D G k) h)
    (OffsetsIn.fullE h.2.1 (scomp_readyE k h.2.2 hv.2) (buf_keepE h.1 hv.1))

theorem scomp_readyT : {O : Type} → (k : SComp O) → (h : Sound k) → Surviving k →
    PanicT (scompL k h) (Ready (scompR k).toColl)
  | _, .leaf R G f, h, hv => PanicT.ready (KeepT.full (scomp_keepT (.leaf R G f) h hv trivial))
  | _, .bitmap B G, h, hv => PanicT.ready (KeepT.full (scomp_keepT (.bitmap B G) h hv trivial))
  | _, .flatten _ hn k, h, hv => flatten_readyT hn (scomp_readyT k h hv)
  | _, .validity env B G k, h, hv => PanicT.ready (L := scompL (.validity env B G k) h)
    (ValidityOf.fullT env (scomp_readyT k h.2 hv.2))
  | _, .offsets ow D G k, h, hv =>
    PanicT.ready (KeepT.full (scomp_keepT (.offsets ow D G k) h hv trivial))

theorem scomp_fullE : {O : Type} → (k : SComp O) → (h : Sound k) → Surviving k → ¬SGrouped k →
    PanicE (scompL k h) (Full (scompR k).toColl)
  | _, .leaf R G f, h, hv, _ => KeepE.full (scomp_keepE (.leaf R G f) h hv trivial)
  | _, .bitmap B G, h, hv, _ => KeepE.full (scomp_keepE (.bitmap B G) h hv trivial)
  | _, .flatten _ _ _, _, _, hg => absurd trivial hg
  | _, .validity env _ _ k, h, hv, _ =>
    ValidityOf.fullE env (scomp_readyE k h.2 hv.2) (buf_keepE h.1 hv.1)
  | _, .offsets _ _ _ k, h, hv, _ =>
    OffsetsIn.fullE h.2.1 (scomp_readyE k h.2.2 hv.2) (buf_keepE h.1 hv.1)

theorem scomp_fullT : {O : Type} → (k : SComp O) → (h : Sound k) → Surviving k → ¬SGrouped k →
    PanicT (scompL k h) (Full (scompR k).toColl)
  | _, .leaf R G f, h, hv, _ => KeepT.full (scomp_keepT (.leaf R G f) h hv trivial)
  | _, .bitmap B G, h, hv, _ => KeepT.full (scomp_keepT (.bitmap B G) h hv trivial)
  | _, .flatten _ _ _, _, _, hg => absurd trivial hg
  | _, .validity env _ _ k, h, hv, _ => ValidityOf.fullT env (scomp_readyT k h.2 hv.2)
  | _, .offsets ow D G k, h, hv, _ => KeepT.full (scomp_keepT (.offsets ow D G k) h hv trivial)

end Narrow
