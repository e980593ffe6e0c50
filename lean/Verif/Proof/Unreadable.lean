import Verif.Proof.ListItems
import Verif.Proof.Visible

/-! # Lists given as collections that cannot be read -/

namespace Narrow

open Spec

variable {O : Type} {U : Coll O}

theorem answers_panics : ∀ (m fuel : Nat) (it it' : U.J) xs, m < fuel →
    polls U.jnext m it = .ok (xs, it') → (∀ x ∈ xs, x ≠ none) → U.jnext it' = .panic →
    (OffsetsOf.answers U fuel it).panics = true
  | 0, fuel + 1, it, it', xs, _, hp, _, hj => by
    simp only [polls, Res.ok.injEq, Prod.mk.injEq] at hp
    obtain ⟨-, rfl⟩ := hp
    simp [OffsetsOf.answers, hj]
  | m + 1, fuel + 1, it, it', xs, hf, hp, hx, hj => by
    simp only [polls] at hp
    cases h1 : U.jnext it with
    | panic => rw [h1] at hp; cases hp
    | ok r =>
      obtain ⟨x, it2⟩ := r
      rw [h1] at hp
      simp only at hp
      cases h2 : polls U.jnext m it2 with
      | panic => rw [h2] at hp; cases hp
      | ok r =>
        obtain ⟨ys, it3⟩ := r
        rw [h2] at hp
        simp only [Res.map, Res.ok.injEq, Prod.mk.injEq] at hp
        obtain ⟨rfl, rfl⟩ := hp
        cases x with
        | none => exact absurd rfl (hx none List.mem_cons_self)
        | some o =>
          have := answers_panics m fuel it2 it3 ys (by omega) h2
            (fun x h => hx x (List.mem_cons_of_mem _ h)) hj
          simpa [OffsetsOf.answers, h1, Src.panics] using this

/-- The two ways in which an item with a length is not read. -/
theorem Unreadable.cases {row : U.C} (h : Unreadable U row) :
    U.len row = .panic ∨ ∃ n, U.len row = .ok n ∧ (U.into row = .panic ∨
      ∃ it, U.into row = .ok it ∧ (OffsetsOf.answers U (usizeMax + 1) it).panics = true) := by
  cases h with
  | len h => exact .inl h
  | into h1 h2 => exact .inr ⟨_, h1, .inl h2⟩
  | next h1 h2 h3 h4 h5 h6 =>
    exact .inr ⟨_, h1, .inr ⟨_, h2, answers_panics _ _ _ _ _ (by omega) h4 h5 h6⟩⟩

theorem sameRows_of {us : List U.C} {ls : List (List O)} (h : ShowRows U us ls)
    (hl : ∀ x ∈ ls, x.length ≤ usizeMax) : SameRows U (Src.ofList us) (Src.ofList ls) := by
  induction us generalizing ls with
  | nil =>
    cases ls with
    | nil => exact .nil
    | cons x ls => simp [ShowRows] at h
  | cons u us ih =>
    cases ls with
    | nil => simp [ShowRows] at h
    | cons x ls =>
      refine .item (h.2 0 (by simp) (by simp)) (hl x List.mem_cons_self)
        (ih ⟨by simpa using h.1, fun i h1 h2 => ?_⟩ fun x hx => hl x (List.mem_cons_of_mem _ hx))
      exact h.2 (i + 1) (by simpa using h1) (by simpa using h2)

variable {R : Realloc O} {ow : OffW}

/-- Items are taken in turn. -/
theorem extendLoop_append (t : Src U.C) : ∀ (us : List U.C) (ls : List (List O)),
    SameRows U (Src.ofList us) (Src.ofList ls) → ∀ d of p,
    OffsetsOf.extendLoop ow R U d of p (Src.ofList us ++ t) =
      match Offsets.extendLoop ow R d of p (Src.ofList ls) with
      | (c, .ok) => OffsetsOf.extendLoop ow R U c.data c.offsets (p + ls.flatten.length) t
      | r => r
  | [], [], _, d, of, p => by simp [Src.ofList, Offsets.extendLoop]
  | [], _ :: _, h, _, _, _ => nomatch h
  | _ :: _, [], h, _, _, _ => nomatch h
  | u :: us, x :: ls, h, d, of, p => by
    cases h with
    | item hr hl h =>
      obtain ⟨it, h1, h2⟩ := into_answers hr hl
      have ih := extendLoop_append t us ls h
      simp only [Src.ofList, List.map_cons, List.cons_append] at ih ⊢
      simp only [OffsetsOf.extendLoop, Offsets.extendLoop, hr.len, h1, h2]
      split
      · cases hV : R.reserve d x.length with
        | mk d1 o1 =>
          cases o1 <;> try rfl
          simp only
          cases hE : R.extend d1 (Src.ofList x) with
          | mk d2 o2 =>
            cases o2 <;> try rfl
            simp only
            cases hF : RVec.extend ow.lim of [.item (p + x.length)] with
            | mk of1 o3 =>
              cases o3 <;> try rfl
              simp only
              rw [ih]
              have e : p + (x.length : Int) + ls.flatten.length = p + (x :: ls).flatten.length := by
                simp; omega
              rw [e]
      · rfl

theorem tryExtendLoop_append (t : Src U.C) (rows dataLen : Nat) : ∀ (us : List U.C)
    (ls : List (List O)), SameRows U (Src.ofList us) (Src.ofList ls) → ∀ w d of (p : Nat),
    OffsetsOf.tryExtendLoop ow R U rows dataLen w d of (p : Int) (Src.ofList us ++ t) =
      match Offsets.tryExtendLoop ow R rows dataLen w d of (p : Int) (Src.ofList ls) with
      | (c, .ok, w') => OffsetsOf.tryExtendLoop ow R U rows dataLen w' c.data c.offsets
          ((p + ls.flatten.length : Nat) : Int) t
      | r => r
  | [], [], _, w, d, of, p => by simp [Src.ofList, Offsets.tryExtendLoop]
  | [], _ :: _, h, _, _, _, _ => nomatch h
  | _ :: _, [], h, _, _, _, _ => nomatch h
  | u :: us, x :: ls, h, w, d, of, p => by
    cases h with
    | item hr hl h =>
      obtain ⟨it, h1, h2⟩ := into_answers hr hl
      have ih := tryExtendLoop_append t rows dataLen us ls h
      have hrb : ∀ d1 of1 w1, (match Offsets.rollback R d1 of1 rows dataLen w1 with
          | (c, .ok, w') => OffsetsOf.tryExtendLoop ow R U rows dataLen w' c.data c.offsets
              ((p + (x :: ls).flatten.length : Nat) : Int) t
          | r => r) = Offsets.rollback R d1 of1 rows dataLen w1 := by
        intro d1 of1 w1
        unfold Offsets.rollback
        cases strictAdd rows 1 with
        | panic => rfl
        | ok n =>
          simp only
          cases R.truncate d1 dataLen with
          | mk d2 o2 => cases o2 <;> rfl
      simp only [Src.ofList, List.map_cons, List.cons_append] at ih ⊢
      simp only [OffsetsOf.tryExtendLoop, Offsets.tryExtendLoop, hr.len, h1, h2, Offsets.asUsize_ofNat]
      split
      · cases hE : R.tryExtend w d (Src.ofList x) with
        | mk d1 r =>
          obtain ⟨o1, w1⟩ := r
          cases o1 with
          | panic => rfl
          | err => exact (hrb _ _ _).symm
          | ok =>
            simp only
            cases hF : RVec.tryExtend ow.lim w1 of [.item ((p + x.length : Nat) : Int)] with
            | mk of1 r =>
              obtain ⟨o2, w2⟩ := r
              cases o2 with
              | panic => rfl
              | err => exact (hrb _ _ _).symm
              | ok =>
                simp only
                rw [ih]
                have e : p + x.length + ls.flatten.length = p + (x :: ls).flatten.length := by
                  simp; omega
                rw [e]
      · exact (hrb _ _ _).symm

namespace Offsets

variable {L : LawfulR R} {W : O → Prop} {bad : U.C} {rest : Src U.C}

/-- `extend` reaching an item that cannot be read. -/
theorem unreadable_step (hk : HoldE W L) (hbad : Unreadable U bad) {c c' : Offsets R.C} {o : Out}
    {rows : List (List O)} (hm : Mid L ow c rows)
    (h : OffsetsOf.extendLoop ow R U c.data c.offsets (rows.flatten.length : Int)
      (.item bad :: rest) = (c', o)) :
    o = .panic ∧ Half (InRow W) (offsetsL ow L) c' rows := by
  have stay : Half (InRow W) (offsetsL ow L) c rows :=
    Half.of_inv _ (L := offsetsL ow L) hm.toInv.1 hm.toInv.2
  simp only [OffsetsOf.extendLoop] at h
  rcases Unreadable.cases hbad with h1 | ⟨n, h1, h2⟩
  · rw [h1] at h
    simp only [Prod.mk.injEq] at h
    obtain ⟨rfl, rfl⟩ := h
    exact ⟨rfl, stay⟩
  · rw [h1] at h
    simp only at h
    split at h
    · generalize hV : R.reserve c.data n = V at *
      obtain ⟨d1, o1⟩ := V
      obtain ⟨v1, v2, v3, v4⟩ := L.reserve_ok hm.inv hV
      rw [hm.data] at v2
      obtain ⟨i1, i2⟩ := keep_trailing hm v1 (x := []) (by simpa using v2)
      cases o1 with
      | err => exact absurd rfl v3
      | panic =>
        simp only [Prod.mk.injEq] at h
        obtain ⟨rfl, rfl⟩ := h
        exact ⟨rfl, Half.of_inv _ (L := offsetsL ow L) i1 i2⟩
      | ok =>
        simp only at h
        rcases h2 with h2 | ⟨it, h2, h3⟩
        · rw [h2] at h
          simp only [Prod.mk.injEq] at h
          obtain ⟨rfl, rfl⟩ := h
          exact ⟨rfl, Half.of_inv _ (L := offsetsL ow L) i1 i2⟩
        · rw [h2] at h
          simp only at h
          have hne := L.ext_ne (OffsetsOf.answers U (usizeMax + 1) it) v1
          generalize hE : R.extend d1 (OffsetsOf.answers U (usizeMax + 1) it) = E at *
          obtain ⟨d2, o2⟩ := E
          cases o2 with
          | err => exact absurd rfl hne
          | ok => exact absurd (L.ext_ok v1 hE).2.2 (by simp [h3])
          | panic =>
            simp only [Prod.mk.injEq] at h
            obtain ⟨rfl, rfl⟩ := h
            obtain ⟨k, e1⟩ := hk v1 hE
            rw [v2] at e1
            exact ⟨rfl, half_offsets (L := L) (ow := ow) e1 hm.items hm.wf hm.small⟩
    · simp only [Prod.mk.injEq] at h
      obtain ⟨rfl, rfl⟩ := h
      exact ⟨rfl, stay⟩

/-- `extend` with items that can be read, and then one that cannot. -/
theorem extend_unreadable (hk : HoldE W L) (hbad : Unreadable U bad) {c c' : Offsets R.C} {o : Out}
    {us : List U.C} {ls : List (List O)} (hs : SameRows U (Src.ofList us) (Src.ofList ls))
    (hc : Inv L.toLawfulColl ow c)
    (h : OffsetsOf.extend ow R U c (Src.ofList us ++ .item bad :: rest) = (c', o)) :
    o = .panic ∧ ∃ n, Half (InRow W) (offsetsL ow L) c' (abs L.toLawfulColl c ++ ls.take n) := by
  unfold OffsetsOf.extend at h
  rw [last_ok hc.2.items] at h
  simp only [asUsize_ofNat] at h
  obtain ⟨d, h1, h2, h3, h4⟩ := L.trunc_ok (abs L.toLawfulColl c).flatten.length hc.2.inv
  simp only [h1] at h
  have hm := Mid.of_inv hc h2 h3
  rw [extendLoop_append _ us ls hs] at h
  generalize hE : extendLoop ow R d c.offsets ((abs L.toLawfulColl c).flatten.length : Int)
    (Src.ofList ls) = E at h
  obtain ⟨c1, o1⟩ := E
  obtain ⟨e1, e2, -⟩ := extendLoop_spec (L := L) _ ⟨d, c.offsets⟩ _ hm c1 o1 hE
  cases o1 with
  | err => exact absurd rfl e1
  | panic =>
    simp only [Prod.mk.injEq] at h
    obtain ⟨rfl, rfl⟩ := h
    obtain ⟨n, hn⟩ := extendLoop_leaves (P := Half W L) (Q := Half (InRow W) (offsetsL ow L)) hk
      (fun h => Half.of_inv _ (L := offsetsL ow L) h rfl) half_offsets _ ⟨d, c.offsets⟩ _ hm _ hE
    exact ⟨rfl, n, by simpa using hn⟩
  | ok =>
    simp only at h
    have hm1 := (e2 rfl).1
    rw [Src.items_ofList] at hm1
    obtain ⟨rfl, hh⟩ := unreadable_step hk hbad (rest := rest) hm1 (c' := c') (o := o) (by
      simpa using h)
    exact ⟨rfl, ls.length, by simpa using hh⟩

/-- `try_extend` reaching an item that cannot be read. -/
theorem try_unreadable_step (hk : HoldT W L) (hbad : Unreadable U bad) {c c' : Offsets R.C} {o : Out}
    {rows more : List (List O)} {w w' : World} (hm : Mid L ow c (rows ++ more))
    (h : OffsetsOf.tryExtendLoop ow R U rows.length rows.flatten.length w c.data c.offsets
      ((rows ++ more).flatten.length : Int) (.item bad :: rest) = (c', o, w')) :
    (o = .panic ∧ Half (InRow W) (offsetsL ow L) c' (rows ++ more)) ∨
    (o = .err ∧ Mid L ow c' rows) := by
  have stay : Half (InRow W) (offsetsL ow L) c (rows ++ more) :=
    Half.of_inv _ (L := offsetsL ow L) hm.toInv.1 hm.toInv.2
  simp only [OffsetsOf.tryExtendLoop, asUsize_ofNat] at h
  rcases Unreadable.cases hbad with h1 | ⟨n, h1, h2⟩
  · rw [h1] at h
    simp only [Prod.mk.injEq] at h
    obtain ⟨rfl, rfl, -⟩ := h
    exact .inl ⟨rfl, stay⟩
  · rw [h1] at h
    simp only at h
    split at h
    · rcases h2 with h2 | ⟨it, h2, h3⟩
      · rw [h2] at h
        simp only [Prod.mk.injEq] at h
        obtain ⟨rfl, rfl, -⟩ := h
        exact .inl ⟨rfl, stay⟩
      · rw [h2] at h
        simp only at h
        generalize hE : R.tryExtend w c.data (OffsetsOf.answers U (usizeMax + 1) it) = E at *
        obtain ⟨d2, o2, w2⟩ := E
        cases o2 with
        | ok => exact absurd (L.tryExt_ok hm.inv hE).2.2 (by simp [h3])
        | err =>
          simp only at h
          obtain ⟨i1, i2⟩ := L.tryExt_err hm.inv hE
          obtain ⟨r1, r2, -⟩ := rollback_spec (L := L) hm.wf i1 hm.items
            (by rw [i2, hm.data]; simp) h
          exact .inr ⟨r1, r2⟩
        | panic =>
          simp only [Prod.mk.injEq] at h
          obtain ⟨rfl, rfl, -⟩ := h
          obtain ⟨k, e1⟩ := hk hm.inv hE
          rw [hm.data] at e1
          exact .inl ⟨rfl, half_offsets (L := L) (ow := ow) e1 hm.items hm.wf hm.small⟩
    · obtain ⟨r1, r2, -⟩ := rollback_spec (L := L) hm.wf hm.inv hm.items
        (by rw [hm.data]; simp) h
      exact .inr ⟨r1, r2⟩

/-- `try_extend` with items that can be read, and then one that cannot. -/
theorem tryExtend_unreadable (hk : HoldT W L) (hbad : Unreadable U bad) {c c' : Offsets R.C}
    {o : Out} {w w' : World} {us : List U.C} {ls : List (List O)}
    (hs : SameRows U (Src.ofList us) (Src.ofList ls)) (hc : Inv L.toLawfulColl ow c)
    (h : OffsetsOf.tryExtend ow R U w c (Src.ofList us ++ .item bad :: rest) = (c', o, w')) :
    (o = .panic ∧ Half (InRow W) (offsetsL ow L) c' (abs L.toLawfulColl c ++ ls)) ∨
    (o = .err ∧ Mid L ow c' (abs L.toLawfulColl c)) := by
  unfold OffsetsOf.tryExtend at h
  rw [last_ok hc.2.items, hc.len_ok] at h
  simp only [asUsize_ofNat] at h
  obtain ⟨d, h1, h2, h3, h4⟩ := L.trunc_ok (abs L.toLawfulColl c).flatten.length hc.2.inv
  simp only [h1] at h
  have hm := Mid.of_inv hc h2 h3
  rw [tryExtendLoop_append _ _ _ us ls hs] at h
  generalize hE : tryExtendLoop ow R (abs L.toLawfulColl c).length
    (abs L.toLawfulColl c).flatten.length w d c.offsets
    ((abs L.toLawfulColl c).flatten.length : Int) (Src.ofList ls) = E at h
  obtain ⟨c1, o1, w1⟩ := E
  obtain ⟨e1, e2, e3, -⟩ := tryExtendLoop_spec (L := L) (abs L.toLawfulColl c) (Src.ofList ls) w
    ⟨d, c.offsets⟩ [] (by simpa using hm) c1 o1 w1 (by simpa using hE)
  cases o1 with
  | panic => exact absurd rfl (e3 (by simp))
  | err =>
    simp only [Prod.mk.injEq] at h
    obtain ⟨rfl, rfl, -⟩ := h
    exact .inr ⟨rfl, e2 rfl⟩
  | ok =>
    simp only at h
    have hm1 := (e1 rfl).1
    rw [Src.items_ofList, List.append_nil] at hm1
    exact try_unreadable_step hk hbad (rest := rest) hm1 (by simpa using h)

end Offsets

end Narrow
