import Verif.Model.UserListItems
import Verif.Proof.Unreadable
import Verif.Proof.BackendComp

/-! # Lists whose owned items are not `Vec`, in storages written by users -/

namespace Narrow

open Spec

namespace UserItems

variable {O : Type} {U : Coll O} {R : Realloc O} {D : Backing Int} {ow : OffW}

theorem extendLoop_same {s : Src U.C} {ls : Src (List O)} (h : SameRows U s ls) :
    ∀ data offsets position, OffsetsInOf.extendLoop ow D R U data offsets position s =
      OffsetsIn.extendLoop ow D R data offsets position ls := by
  induction h with
  | nil => intros; simp [OffsetsInOf.extendLoop, OffsetsIn.extendLoop]
  | none _ _ => intros; simp [OffsetsInOf.extendLoop, OffsetsIn.extendLoop]
  | panic _ _ => intros; simp [OffsetsInOf.extendLoop, OffsetsIn.extendLoop]
  | item hr hl _ ih =>
    intro data offsets position
    obtain ⟨it, h1, h2⟩ := into_answers hr hl
    simp only [OffsetsInOf.extendLoop, OffsetsIn.extendLoop, hr.len, h1, h2, ih]
    rfl

theorem tryExtendLoop_same {s : Src U.C} {ls : Src (List O)} (h : SameRows U s ls) :
    ∀ rows dataLen w data offsets position,
      OffsetsInOf.tryExtendLoop ow D R U rows dataLen w data offsets position s =
      OffsetsIn.tryExtendLoop ow D R rows dataLen w data offsets position ls := by
  induction h with
  | nil => intros; simp [OffsetsInOf.tryExtendLoop, OffsetsIn.tryExtendLoop]
  | none _ _ => intros; simp [OffsetsInOf.tryExtendLoop, OffsetsIn.tryExtendLoop]
  | panic _ _ => intros; simp [OffsetsInOf.tryExtendLoop, OffsetsIn.tryExtendLoop]
  | item hr hl _ ih =>
    intro rows dataLen w data offsets position
    obtain ⟨it, h1, h2⟩ := into_answers hr hl
    simp only [OffsetsInOf.tryExtendLoop, OffsetsIn.tryExtendLoop, hr.len, h1, h2, ih]
    rfl

theorem extend_same {s : Src U.C} {ls : Src (List O)} (h : SameRows U s ls) (c : OffsetsIn.Of D R) :
    OffsetsInOf.extend ow D R U c s = OffsetsIn.extend ow D R c ls := by
  simp only [OffsetsInOf.extend, OffsetsIn.extend, extendLoop_same h]
  rfl

theorem tryExtend_same {s : Src U.C} {ls : Src (List O)} (h : SameRows U s ls) (w : World)
    (c : OffsetsIn.Of D R) : OffsetsInOf.tryExtend ow D R U w c s = OffsetsIn.tryExtend ow D R w c ls := by
  simp only [OffsetsInOf.tryExtend, OffsetsIn.tryExtend, tryExtendLoop_same h]
  rfl

theorem fromIter_same {s : Src U.C} {ls : Src (List O)} (h : SameRows U s ls) :
    OffsetsInOf.fromIter ow D R U s = OffsetsIn.fromIter ow D R ls := by
  simp only [OffsetsInOf.fromIter, OffsetsIn.fromIter, extend_same h]
  rfl

theorem fromIterIn_same {s : Src U.C} {ls : Src (List O)} (h : SameRows U s ls) (w : World) :
    OffsetsInOf.fromIterIn ow D R U w s = OffsetsIn.fromIterIn ow D R w ls := by
  simp only [OffsetsInOf.fromIterIn, OffsetsIn.fromIterIn, extend_same h, sameRows_length h]
  rfl

theorem tryFromIter_same {s : Src U.C} {ls : Src (List O)} (h : SameRows U s ls) (w : World) :
    OffsetsInOf.tryFromIter ow D R U w s = OffsetsIn.tryFromIter ow D R w ls := by
  simp only [OffsetsInOf.tryFromIter, OffsetsIn.tryFromIter, tryExtend_same h, sameRows_length h]
  rfl

/-- Items are taken in turn. -/
theorem extendLoop_append (t : Src U.C) : ∀ (us : List U.C) (ls : List (List O)),
    SameRows U (Src.ofList us) (Src.ofList ls) → ∀ d of p,
    OffsetsInOf.extendLoop ow D R U d of p (Src.ofList us ++ t) =
      match OffsetsIn.extendLoop ow D R d of p (Src.ofList ls) with
      | (c, .ok) => OffsetsInOf.extendLoop ow D R U c.data c.offsets (p + ls.flatten.length) t
      | r => r
  | [], [], _, d, of, p => by simp [Src.ofList, OffsetsIn.extendLoop]
  | [], _ :: _, h, _, _, _ => nomatch h
  | _ :: _, [], h, _, _, _ => nomatch h
  | u :: us, x :: ls, h, d, of, p => by
    cases h with
    | item hr hl h =>
      obtain ⟨it, h1, h2⟩ := into_answers hr hl
      have ih := extendLoop_append t us ls h
      simp only [Src.ofList, List.map_cons, List.cons_append] at ih ⊢
      simp only [OffsetsInOf.extendLoop, OffsetsIn.extendLoop, hr.len, h1, h2]
      split
      · cases hV : R.reserve d x.length with
        | mk d1 o1 =>
          cases o1 <;> try rfl
          simp only
          cases hE : R.extend d1 (Src.ofList x) with
          | mk d2 o2 =>
            cases o2 <;> try rfl
            simp only
            cases hF : D.extend of [.item (p + x.length)] with
            | mk of1 o3 =>
              cases o3 <;> try rfl
              simp only
              rw [ih]
              have e : p + (x.length : Int) + ls.flatten.length = p + (x :: ls).flatten.length := by
                simp; omega
              rw [e]
      · rfl

theorem tryExtendLoop_append (t : Src U.C) (rows dataLen : Nat) : ∀ (us : List U.C)
    (ls : List (List O)), SameRows U (Src.ofList us) (Src.ofList ls) → ∀ w d of (p : Nat),
    OffsetsInOf.tryExtendLoop ow D R U rows dataLen w d of (p : Int) (Src.ofList us ++ t) =
      match OffsetsIn.tryExtendLoop ow D R rows dataLen w d of (p : Int) (Src.ofList ls) with
      | (c, .ok, w') => OffsetsInOf.tryExtendLoop ow D R U rows dataLen w' c.data c.offsets
          ((p + ls.flatten.length : Nat) : Int) t
      | r => r
  | [], [], _, w, d, of, p => by simp [Src.ofList, OffsetsIn.tryExtendLoop]
  | [], _ :: _, h, _, _, _, _ => nomatch h
  | _ :: _, [], h, _, _, _, _ => nomatch h
  | u :: us, x :: ls, h, w, d, of, p => by
    cases h with
    | item hr hl h =>
      obtain ⟨it, h1, h2⟩ := into_answers hr hl
      have ih := tryExtendLoop_append t rows dataLen us ls h
      have hrb : ∀ d1 of1 w1, (match OffsetsIn.rollback D R d1 of1 rows dataLen w1 with
          | (c, .ok, w') => OffsetsInOf.tryExtendLoop ow D R U rows dataLen w' c.data c.offsets
              ((p + (x :: ls).flatten.length : Nat) : Int) t
          | r => r) = OffsetsIn.rollback D R d1 of1 rows dataLen w1 := by
        intro d1 of1 w1
        unfold OffsetsIn.rollback
        cases strictAdd rows 1 with
        | panic => rfl
        | ok n =>
          simp only
          cases D.truncate of1 n with
          | mk of2 o2 =>
            cases o2 <;> try rfl
            cases R.truncate d1 dataLen with
            | mk d2 o2 => cases o2 <;> rfl
      simp only [Src.ofList, List.map_cons, List.cons_append] at ih ⊢
      simp only [OffsetsInOf.tryExtendLoop, OffsetsIn.tryExtendLoop, hr.len, h1, h2, Offsets.asUsize_ofNat]
      split
      · cases hE : R.tryExtend w d (Src.ofList x) with
        | mk d1 r =>
          obtain ⟨o1, w1⟩ := r
          cases o1 with
          | panic => rfl
          | err => exact (hrb _ _ _).symm
          | ok =>
            simp only
            cases hF : D.tryExtend w1 of [.item ((p + x.length : Nat) : Int)] with
            | mk of1 r =>
              obtain ⟨o2, w2⟩ := r
              cases o2 with
              | panic => rfl
              | err => exact (hrb _ _ _).symm
              | ok =>
                simp only
                rw [ih]
                have e : p + x.length + ls.flatten.length = p + (x :: ls).flatten.length := by
                  simp; omega
                rw [e]
      · exact (hrb _ _ _).symm

end UserItems

namespace OffsetsIn

open UserItems
open Offsets (totals totals_length totals_get totals_snoc asUsize_ofNat)

variable {O : Type} {U : Coll O} {R : Realloc O} {D : Backing Int} {ow : OffW}
  {LD : LawfulB D} {L : LawfulR R} {W : O → Prop} {bad : U.C} {rest : Src U.C}
  {hz : (D.extend D.empty [.item 0]).2 = .ok}

/-- `extend` reaching an item that cannot be read. -/
theorem unreadable_step (hk : HoldE W L) (hbad : Unreadable U bad) {c c' : Of D R} {o : Out}
    {rows : List (List O)} (hm : Mid LD L c rows)
    (h : OffsetsInOf.extendLoop ow D R U c.data c.offsets (rows.flatten.length : Int)
      (.item bad :: rest) = (c', o)) :
    o = .panic ∧ Half (InRow W) (offsetsBG ow LD L hz).lawful c' rows := by
  have stay : Half (InRow W) (offsetsBG ow LD L hz).lawful c rows :=
    Half.of_inv _ (L := (offsetsBG ow LD L hz).lawful) hm.toInv.1 hm.toInv.2
  simp only [OffsetsInOf.extendLoop] at h
  rcases Unreadable.cases hbad with h1 | ⟨n, h1, h2⟩
  · rw [h1] at h
    simp only [Prod.mk.injEq] at h
    obtain ⟨rfl, rfl⟩ := h
    exact ⟨rfl, stay⟩
  · rw [h1] at h
    simp only at h
    split at h
    · generalize hV : R.reserve c.data n = V at *
      obtain ⟨d1, o1⟩ := V
      obtain ⟨v1, v2, v3, v4⟩ := L.reserve_ok hm.inv hV
      rw [hm.data] at v2
      have hm1 : Mid LD L ⟨d1, c.offsets⟩ rows := ⟨hm.off, v1, hm.items, v2⟩
      obtain ⟨i1, i2⟩ := hm1.toInv
      cases o1 with
      | err => exact absurd rfl v3
      | panic =>
        simp only [Prod.mk.injEq] at h
        obtain ⟨rfl, rfl⟩ := h
        exact ⟨rfl, Half.of_inv _ (L := (offsetsBG ow LD L hz).lawful) i1 i2⟩
      | ok =>
        simp only at h
        rcases h2 with h2 | ⟨it, h2, h3⟩
        · rw [h2] at h
          simp only [Prod.mk.injEq] at h
          obtain ⟨rfl, rfl⟩ := h
          exact ⟨rfl, Half.of_inv _ (L := (offsetsBG ow LD L hz).lawful) i1 i2⟩
        · rw [h2] at h
          simp only at h
          have hne := L.ext_ne (OffsetsOf.answers U (usizeMax + 1) it) v1
          generalize hE : R.extend d1 (OffsetsOf.answers U (usizeMax + 1) it) = E at *
          obtain ⟨d2, o2⟩ := E
          cases o2 with
          | err => exact absurd rfl hne
          | ok => exact absurd (L.ext_ok v1 hE).2.2 (by simp [h3])
          | panic =>
            simp only [Prod.mk.injEq] at h
            obtain ⟨rfl, rfl⟩ := h
            obtain ⟨k, e1⟩ := hk v1 hE
            rw [v2] at e1
            exact ⟨rfl, half hz e1 hm.off hm.items⟩
    · simp only [Prod.mk.injEq] at h
      obtain ⟨rfl, rfl⟩ := h
      exact ⟨rfl, stay⟩

/-- `extend` with items that can be read, and then one that cannot. -/
theorem extend_unreadable (hk : HoldE W L) (hd : KeepE LD.toLawfulR) (hbad : Unreadable U bad) {c c' : Of D R} {o : Out}
    {us : List U.C} {ls : List (List O)} (hs : SameRows U (Src.ofList us) (Src.ofList ls))
    (hc : Ok LD L c)
    (h : OffsetsInOf.extend ow D R U c (Src.ofList us ++ .item bad :: rest) = (c', o)) :
    o = .panic ∧ ∃ n, Half (InRow W) (offsetsBG ow LD L hz).lawful c' (rows LD L c ++ ls.take n) := by
  unfold OffsetsInOf.extend at h
  rw [last_ok hc.off hc.items] at h
  simp only [asUsize_ofNat] at h
  obtain ⟨d, h1, h2, h3, h4⟩ := L.trunc_ok (rows LD L c).flatten.length hc.inv
  simp only [h1] at h
  have hm := Mid.of_inv hc h2 h3
  rw [UserItems.extendLoop_append _ us ls hs] at h
  change (match extendLoop ow D R d c.offsets ((rows LD L c).flatten.length : Int) (Src.ofList ls) with
    | (c, .ok) => _ | r => r) = _ at h
  generalize hE : extendLoop ow D R d c.offsets ((rows LD L c).flatten.length : Int)
    (Src.ofList ls) = E at h
  obtain ⟨c1, o1⟩ := E
  obtain ⟨e1, e2⟩ := extendLoop_spec (LD := LD) (L := L) _ ⟨d, c.offsets⟩ _ hm c1 o1 hE
  cases o1 with
  | err => exact absurd rfl e1
  | panic =>
    simp only [Prod.mk.injEq] at h
    obtain ⟨rfl, rfl⟩ := h
    obtain ⟨n, hn⟩ := extendLoop_leaves (P := Half W L)
      (Q := Half (InRow W) (offsetsBG ow LD L hz).lawful) hk hd
      (fun h => Half.of_inv _ (L := (offsetsBG ow LD L hz).lawful) h rfl)
      (fun h1 h2 h3 => half hz h1 h2 h3) _ ⟨d, c.offsets⟩ _ hm _ hE
    exact ⟨rfl, n, by simpa using hn⟩
  | ok =>
    simp only at h
    have hm1 := (e2 rfl).1
    rw [Src.items_ofList] at hm1
    obtain ⟨rfl, hh⟩ := unreadable_step (hz := hz) hk hbad (rest := rest) hm1 (c' := c') (o := o) (by
      simpa using h)
    exact ⟨rfl, ls.length, by simpa using hh⟩

/-- `try_extend` reaching an item that cannot be read. -/
theorem try_unreadable_step (hk : HoldT W L) (hbad : Unreadable U bad) {c c' : Of D R} {o : Out}
    {rows more : List (List O)} {w w' : World} (hm : Mid LD L c (rows ++ more))
    (h : OffsetsInOf.tryExtendLoop ow D R U rows.length rows.flatten.length w c.data c.offsets
      ((rows ++ more).flatten.length : Int) (.item bad :: rest) = (c', o, w')) :
    (o = .panic ∧ Half (InRow W) (offsetsBG ow LD L hz).lawful c' (rows ++ more)) ∨
    (o = .err ∧ Mid LD L c' rows) := by
  have stay : Half (InRow W) (offsetsBG ow LD L hz).lawful c (rows ++ more) :=
    Half.of_inv _ (L := (offsetsBG ow LD L hz).lawful) hm.toInv.1 hm.toInv.2
  simp only [OffsetsInOf.tryExtendLoop, asUsize_ofNat] at h
  rcases Unreadable.cases hbad with h1 | ⟨n, h1, h2⟩
  · rw [h1] at h
    simp only [Prod.mk.injEq] at h
    obtain ⟨rfl, rfl, -⟩ := h
    exact .inl ⟨rfl, stay⟩
  · rw [h1] at h
    simp only at h
    split at h
    · rcases h2 with h2 | ⟨it, h2, h3⟩
      · rw [h2] at h
        simp only [Prod.mk.injEq] at h
        obtain ⟨rfl, rfl, -⟩ := h
        exact .inl ⟨rfl, stay⟩
      · rw [h2] at h
        simp only at h
        generalize hE : R.tryExtend w c.data (OffsetsOf.answers U (usizeMax + 1) it) = E at *
        obtain ⟨d2, o2, w2⟩ := E
        cases o2 with
        | ok => exact absurd (L.tryExt_ok hm.inv hE).2.2 (by simp [h3])
        | err =>
          simp only at h
          obtain ⟨i1, i2⟩ := L.tryExt_err hm.inv hE
          obtain ⟨r1, r2⟩ := rollback_spec (LD := LD) (L := L) hm.off i1 hm.items
            (by rw [i2, hm.data]; simp) h
          exact .inr ⟨r1, r2⟩
        | panic =>
          simp only [Prod.mk.injEq] at h
          obtain ⟨rfl, rfl, -⟩ := h
          obtain ⟨k, e1⟩ := hk hm.inv hE
          rw [hm.data] at e1
          exact .inl ⟨rfl, half hz e1 hm.off hm.items⟩
    · obtain ⟨r1, r2⟩ := rollback_spec (LD := LD) (L := L) hm.off hm.inv hm.items
        (by rw [hm.data]; simp) h
      exact .inr ⟨r1, r2⟩

/-- `try_extend` with items that can be read, and then one that cannot. -/
theorem tryExtend_unreadable (hk : HoldT W L) (hbad : Unreadable U bad) {c c' : Of D R}
    {o : Out} {w w' : World} {us : List U.C} {ls : List (List O)}
    (hs : SameRows U (Src.ofList us) (Src.ofList ls)) (hc : Ok LD L c)
    (h : OffsetsInOf.tryExtend ow D R U w c (Src.ofList us ++ .item bad :: rest) = (c', o, w')) :
    (o = .panic ∧ Half (InRow W) (offsetsBG ow LD L hz).lawful c' (rows LD L c ++ ls)) ∨
    (o = .err ∧ Mid LD L c' (rows LD L c)) := by
  unfold OffsetsInOf.tryExtend at h
  rw [last_ok hc.off hc.items, hc.len_ok] at h
  simp only [asUsize_ofNat] at h
  obtain ⟨d, h1, h2, h3, h4⟩ := L.trunc_ok (rows LD L c).flatten.length hc.inv
  simp only [h1] at h
  have hm := Mid.of_inv hc h2 h3
  rw [UserItems.tryExtendLoop_append _ _ _ us ls hs] at h
  change (match tryExtendLoop ow D R (rows LD L c).length (rows LD L c).flatten.length w d c.offsets
    ((rows LD L c).flatten.length : Int) (Src.ofList ls) with | (c, .ok, w') => _ | r => r) = _ at h
  generalize hE : tryExtendLoop ow D R (rows LD L c).length
    (rows LD L c).flatten.length w d c.offsets
    ((rows LD L c).flatten.length : Int) (Src.ofList ls) = E at h
  obtain ⟨c1, o1, w1⟩ := E
  obtain ⟨e1, e2, e3⟩ := tryExtendLoop_spec (LD := LD) (L := L) (rows LD L c) (Src.ofList ls) w
    ⟨d, c.offsets⟩ [] (by simpa using hm) c1 o1 w1 (by simpa using hE)
  cases o1 with
  | panic => exact absurd rfl (e3 (by simp))
  | err =>
    simp only [Prod.mk.injEq] at h
    obtain ⟨rfl, rfl, -⟩ := h
    exact .inr ⟨rfl, e2 rfl⟩
  | ok =>
    simp only at h
    have hm1 := (e1 rfl).1
    rw [Src.items_ofList, List.append_nil] at hm1
    exact try_unreadable_step (hz := hz) hk hbad (rest := rest) hm1 (by simpa using h)

/-- `extend` panics at an item that cannot be read, whatever the storages do. -/
theorem unreadable_panics (hbad : Unreadable U bad) {c c' : Of D R} {o : Out}
    {rows : List (List O)} (hm : Mid LD L c rows)
    (h : OffsetsInOf.extendLoop ow D R U c.data c.offsets (rows.flatten.length : Int)
      (.item bad :: rest) = (c', o)) : o = .panic := by
  simp only [OffsetsInOf.extendLoop] at h
  rcases Unreadable.cases hbad with h1 | ⟨n, h1, h2⟩
  · rw [h1] at h
    exact (Prod.mk.inj h).2.symm
  · rw [h1] at h
    simp only at h
    split at h
    · generalize hV : R.reserve c.data n = V at *
      obtain ⟨d1, o1⟩ := V
      obtain ⟨v1, v2, v3, v4⟩ := L.reserve_ok hm.inv hV
      cases o1 with
      | err => exact absurd rfl v3
      | panic => exact (Prod.mk.inj h).2.symm
      | ok =>
        simp only at h
        rcases h2 with h2 | ⟨it, h2, h3⟩
        · rw [h2] at h
          exact (Prod.mk.inj h).2.symm
        · rw [h2] at h
          simp only at h
          have hne := L.ext_ne (OffsetsOf.answers U (usizeMax + 1) it) v1
          generalize hE : R.extend d1 (OffsetsOf.answers U (usizeMax + 1) it) = E at *
          obtain ⟨d2, o2⟩ := E
          cases o2 with
          | err => exact absurd rfl hne
          | ok => exact absurd (L.ext_ok v1 hE).2.2 (by simp [h3])
          | panic => exact (Prod.mk.inj h).2.symm
    · exact (Prod.mk.inj h).2.symm

theorem extend_panics (hbad : Unreadable U bad) {c c' : Of D R} {o : Out}
    {us : List U.C} {ls : List (List O)} (hs : SameRows U (Src.ofList us) (Src.ofList ls))
    (hc : Ok LD L c)
    (h : OffsetsInOf.extend ow D R U c (Src.ofList us ++ .item bad :: rest) = (c', o)) :
    o = .panic := by
  unfold OffsetsInOf.extend at h
  rw [last_ok hc.off hc.items] at h
  simp only [asUsize_ofNat] at h
  obtain ⟨d, h1, h2, h3, h4⟩ := L.trunc_ok (rows LD L c).flatten.length hc.inv
  simp only [h1] at h
  have hm := Mid.of_inv hc h2 h3
  rw [UserItems.extendLoop_append _ us ls hs] at h
  change (match extendLoop ow D R d c.offsets ((rows LD L c).flatten.length : Int) (Src.ofList ls) with
    | (c, .ok) => _ | r => r) = _ at h
  generalize hE : extendLoop ow D R d c.offsets ((rows LD L c).flatten.length : Int)
    (Src.ofList ls) = E at h
  obtain ⟨c1, o1⟩ := E
  obtain ⟨e1, e2⟩ := extendLoop_spec (LD := LD) (L := L) _ ⟨d, c.offsets⟩ _ hm c1 o1 hE
  cases o1 with
  | err => exact absurd rfl e1
  | panic => exact (Prod.mk.inj h).2.symm
  | ok =>
    simp only at h
    have hm1 := (e2 rfl).1
    rw [Src.items_ofList] at hm1
    exact unreadable_panics hbad (rest := rest) hm1 (c' := c') (o := o) (by simpa using h)

theorem try_unreadable_fails (hbad : Unreadable U bad) {c c' : Of D R} {o : Out}
    {rows more : List (List O)} {w w' : World} (hm : Mid LD L c (rows ++ more))
    (h : OffsetsInOf.tryExtendLoop ow D R U rows.length rows.flatten.length w c.data c.offsets
      ((rows ++ more).flatten.length : Int) (.item bad :: rest) = (c', o, w')) :
    o = .panic ∨ (o = .err ∧ Mid LD L c' rows) := by
  simp only [OffsetsInOf.tryExtendLoop, asUsize_ofNat] at h
  rcases Unreadable.cases hbad with h1 | ⟨n, h1, h2⟩
  · rw [h1] at h
    exact .inl (Prod.mk.inj (Prod.mk.inj h).2).1.symm
  · rw [h1] at h
    simp only at h
    split at h
    · rcases h2 with h2 | ⟨it, h2, h3⟩
      · rw [h2] at h
        exact .inl (Prod.mk.inj (Prod.mk.inj h).2).1.symm
      · rw [h2] at h
        simp only at h
        generalize hE : R.tryExtend w c.data (OffsetsOf.answers U (usizeMax + 1) it) = E at *
        obtain ⟨d2, o2, w2⟩ := E
        cases o2 with
        | ok => exact absurd (L.tryExt_ok hm.inv hE).2.2 (by simp [h3])
        | err =>
          simp only at h
          obtain ⟨i1, i2⟩ := L.tryExt_err hm.inv hE
          obtain ⟨r1, r2⟩ := rollback_spec (LD := LD) (L := L) hm.off i1 hm.items
            (by rw [i2, hm.data]; simp) h
          exact .inr ⟨r1, r2⟩
        | panic => exact .inl (Prod.mk.inj (Prod.mk.inj h).2).1.symm
    · obtain ⟨r1, r2⟩ := rollback_spec (LD := LD) (L := L) hm.off hm.inv hm.items
        (by rw [hm.data]; simp) h
      exact .inr ⟨r1, r2⟩

/-- `try_extend` does not succeed with an item that cannot be read, whatever the
storages do. -/
theorem tryExtend_fails (hbad : Unreadable U bad) {c c' : Of D R}
    {o : Out} {w w' : World} {us : List U.C} {ls : List (List O)}
    (hs : SameRows U (Src.ofList us) (Src.ofList ls)) (hc : Ok LD L c)
    (h : OffsetsInOf.tryExtend ow D R U w c (Src.ofList us ++ .item bad :: rest) = (c', o, w')) :
    o = .panic ∨ (o = .err ∧ Mid LD L c' (rows LD L c)) := by
  unfold OffsetsInOf.tryExtend at h
  rw [last_ok hc.off hc.items, hc.len_ok] at h
  simp only [asUsize_ofNat] at h
  obtain ⟨d, h1, h2, h3, h4⟩ := L.trunc_ok (rows LD L c).flatten.length hc.inv
  simp only [h1] at h
  have hm0 := Mid.of_inv hc h2 h3
  rw [UserItems.tryExtendLoop_append _ _ _ us ls hs] at h
  change (match tryExtendLoop ow D R (rows LD L c).length (rows LD L c).flatten.length w d c.offsets
    ((rows LD L c).flatten.length : Int) (Src.ofList ls) with | (c, .ok, w') => _ | r => r) = _ at h
  generalize hE : tryExtendLoop ow D R (rows LD L c).length
    (rows LD L c).flatten.length w d c.offsets
    ((rows LD L c).flatten.length : Int) (Src.ofList ls) = E at h
  obtain ⟨c1, o1, w1⟩ := E
  obtain ⟨e1, e2, e3⟩ := tryExtendLoop_spec (LD := LD) (L := L) (rows LD L c) (Src.ofList ls) w
    ⟨d, c.offsets⟩ [] (by simpa using hm0) c1 o1 w1 (by simpa using hE)
  cases o1 with
  | panic => exact absurd rfl (e3 (by simp))
  | err =>
    simp only [Prod.mk.injEq] at h
    obtain ⟨rfl, rfl, -⟩ := h
    exact .inr ⟨rfl, e2 rfl⟩
  | ok =>
    simp only at h
    have hm := (e1 rfl).1
    rw [Src.items_ofList, List.append_nil] at hm
    exact try_unreadable_fails hbad (rest := rest) hm (by simpa using h)

end OffsetsIn

/-! ## Reading -/

namespace UserItems

variable {O : Type} {D : Buf Int} {K : Coll O} {V : Realloc O} {w : World}

theorem toOwned_of {v : RowView K.C} {l : List O} (h : RowView.toOwned K v = .ok l) :
    OffsetsInOf.toOwned K V w v = OffsetsOf.collect V w (Src.ofList l) := by
  unfold RowView.toOwned at h
  unfold OffsetsInOf.toOwned
  cases hl : v.len with
  | panic => rw [hl] at h; cases h
  | ok n =>
    rw [hl] at h
    simp only [Res.bind] at h ⊢
    exact congrArg _ (rangeSrc_of_collect h)

theorem intoNext_none {it it' : OffsetIntoIterOf K.C D.J}
    (h : OffsetsIn.intoNext D K it = .ok (none, it')) :
    OffsetsInOf.intoNext D K V w it = .ok (none, it') := by
  unfold OffsetsIn.intoNext at h
  unfold OffsetsInOf.intoNext
  cases hj : D.jnext it.offsets with
  | panic => rw [hj] at h; cases h
  | ok r =>
    obtain ⟨x, o⟩ := r
    rw [hj] at h
    cases x with
    | none => simpa [Res.bind] using h
    | some e =>
      exfalso
      simp only [Res.bind] at h
      cases h1 : asUsize it.position with
      | panic => rw [h1] at h; cases h
      | ok s =>
        cases h2 : asUsize e with
        | panic => rw [h1, h2] at h; cases h
        | ok e' =>
          rw [h1, h2] at h
          simp only at h
          generalize collectRange _ _ _ = x at h
          cases x <;> simp [Res.map] at h

theorem intoNext_some {it it' : OffsetIntoIterOf K.C D.J} {l : List O}
    (h : OffsetsIn.intoNext D K it = .ok (some l, it')) :
    OffsetsInOf.intoNext D K V w it =
      (OffsetsOf.collect V w (Src.ofList l)).map fun u => (some u, it') := by
  unfold OffsetsIn.intoNext at h
  unfold OffsetsInOf.intoNext
  cases hj : D.jnext it.offsets with
  | panic => rw [hj] at h; cases h
  | ok r =>
    obtain ⟨x, o⟩ := r
    rw [hj] at h
    cases x with
    | none => simp [Res.bind] at h
    | some e =>
      simp only [Res.bind] at h ⊢
      cases h1 : asUsize it.position with
      | panic => rw [h1] at h; cases h
      | ok s =>
        cases h2 : asUsize e with
        | panic => rw [h1, h2] at h; cases h
        | ok e' =>
          rw [h1, h2] at h
          change (collectRange (fun i => (K.view it.data i).expect.bind K.toOwned) s (e' - s)).map
            (fun l => (some l, OffsetIntoIterOf.mk it.data o e)) = _ at h
          change (OffsetsOf.collect V w (OffsetsOf.rangeSrc
            (fun i => (K.view it.data i).expect.bind K.toOwned) s (e' - s))).map
              (fun u => (some u, OffsetIntoIterOf.mk it.data o e)) = _
          cases hx : collectRange (fun i => (K.view it.data i).expect.bind K.toOwned) s (e' - s) with
          | panic => rw [hx] at h; cases h
          | ok m =>
            rw [hx] at h
            simp only [Res.map, Res.ok.injEq, Prod.mk.injEq, Option.some.injEq] at h
            obtain ⟨rfl, rfl⟩ := h
            rw [rangeSrc_of_collect hx]

theorem polls_into {g : List O → V.C} : ∀ (n : Nat) (it it' : OffsetIntoIterOf K.C D.J) xs,
    polls (OffsetsIn.intoNext D K) n it = .ok (xs, it') →
    (∀ l, some l ∈ xs → OffsetsOf.collect V w (Src.ofList l) = .ok (g l)) →
    polls (OffsetsInOf.intoNext D K V w) n it = .ok (xs.map (Option.map g), it')
  | 0, it, it', xs, h, _ => by
    simp only [polls, Res.ok.injEq, Prod.mk.injEq] at h
    obtain ⟨rfl, rfl⟩ := h; rfl
  | n + 1, it, it', xs, h, hg => by
    simp only [polls] at h
    cases h1 : OffsetsIn.intoNext D K it with
    | panic => rw [h1] at h; cases h
    | ok r =>
      obtain ⟨x, it2⟩ := r
      rw [h1] at h
      simp only at h
      cases h2 : polls (OffsetsIn.intoNext D K) n it2 with
      | panic => rw [h2] at h; cases h
      | ok r =>
        obtain ⟨ys, it3⟩ := r
        rw [h2] at h
        simp only [Res.map, Res.ok.injEq, Prod.mk.injEq] at h
        obtain ⟨rfl, rfl⟩ := h
        have ih := polls_into n it2 it3 ys h2 fun l hl => hg l (List.mem_cons_of_mem _ hl)
        simp only [polls]
        cases x with
        | none => rw [intoNext_none h1]; simp [ih, Res.map]
        | some l =>
          rw [intoNext_some h1, hg l List.mem_cons_self]
          simp [ih, Res.map]

theorem mapRes_views {g : List O → V.C} :
    ∀ (xs : List (Option (RowView K.C))) (ls : List (Option (List O))),
    mapRes (convOpt (RowView.toOwned K)) xs = .ok ls →
    (∀ l, some l ∈ ls → OffsetsOf.collect V w (Src.ofList l) = .ok (g l)) →
    mapRes (convOpt (OffsetsInOf.toOwned K V w)) xs = .ok (ls.map (Option.map g))
  | [], ls, h, _ => by
    simp only [mapRes, Res.ok.injEq] at h
    subst h; rfl
  | x :: xs, ls, h, hg => by
    simp only [mapRes] at h
    cases hm : mapRes (convOpt (RowView.toOwned K)) xs with
    | panic => rw [hm] at h; cases hx : convOpt (RowView.toOwned K) x <;> rw [hx] at h <;> cases h
    | ok ms =>
      rw [hm] at h
      cases x with
      | none =>
        simp only [convOpt, Res.map, Res.ok.injEq] at h
        subst h
        simp [mapRes, convOpt, Res.map,
          mapRes_views xs ms hm fun l hl => hg l (List.mem_cons_of_mem _ hl)]
      | some v =>
        cases hv : RowView.toOwned K v with
        | panic => simp only [convOpt, hv, Res.map] at h; cases h
        | ok l =>
          simp only [convOpt, hv, Res.map, Res.ok.injEq] at h
          subst h
          simp [mapRes, convOpt, Res.map, toOwned_of hv, hg l List.mem_cons_self,
            mapRes_views xs ms hm fun l hl => hg l (List.mem_cons_of_mem _ hl)]

theorem reads_rows {c : OffsetsIn K.C D.C} {ls : List (List O)} {g : List O → V.C}
    (h : Reads (offsetsBC D K) c ls)
    (hg : ∀ l ∈ ls, OffsetsOf.collect V w (Src.ofList l) = .ok (g l)) :
    Reads (offsetsInOfC D K V w) c (ls.map g) where
  len := by simpa using h.len
  owned i hi := by
    have hi' : i < ls.length := by simpa using hi
    have := h.owned i hi'
    simp only [Coll.owned] at this ⊢
    generalize OffsetsIn.view D c i = x at this
    cases x with
    | panic => cases this
    | ok x =>
      cases x with
      | none => simp at this
      | some v =>
        simp only [Res.map] at this ⊢
        cases hv : RowView.toOwned K v with
        | panic => rw [hv] at this; cases this
        | ok l =>
          rw [hv] at this
          simp only [Res.ok.injEq, Option.some.injEq] at this
          subst this
          rw [toOwned_of hv, hg _ (List.getElem_mem _)]
          simp
  iter := by
    obtain ⟨it, h1, h2⟩ := h.iter
    refine ⟨it, h1, fun n => ?_⟩
    obtain ⟨xs, it', h3, h4, h5⟩ := h2 n
    refine ⟨xs, it', h3, ?_, by simpa using h5⟩
    rw [← map_answers]
    exact mapRes_views xs _ h4 fun l hl => hg l (mem_answers hl)
  into := by
    obtain ⟨it, h1, h2⟩ := h.into
    refine ⟨it, h1, fun n => ?_⟩
    obtain ⟨xs, it', h3, h4, h5⟩ := h2 n
    have := mapRes_ok h4
    subst this
    refine ⟨_, it', polls_into (g := g) n it it' _ h3 fun l hl => hg l (mem_answers hl), ?_,
      by simpa using h5⟩
    rw [map_answers]
    exact mapRes_ok' _

/-- Whatever reading an item returns was collected from the list there. -/
theorem owned_of {c : OffsetsIn K.C D.C} {ls : List (List O)} (h : Reads (offsetsBC D K) c ls)
    {i : Nat} (hi : i < ls.length) :
    (offsetsInOfC D K V w).owned c i =
      (OffsetsOf.collect V w (Src.ofList ls[i])).map some := by
  have h1 := h.owned i hi
  simp only [Coll.owned] at h1 ⊢
  generalize OffsetsIn.view D c i = y at h1 ⊢
  cases y with
  | panic => cases h1
  | ok y =>
    cases y with
    | none => simp at h1
    | some v =>
      simp only at h1 ⊢
      cases hv : RowView.toOwned K v with
      | panic => rw [hv] at h1; cases h1
      | ok m =>
        rw [hv] at h1
        simp only [Res.map, Res.ok.injEq, Option.some.injEq] at h1
        subst h1
        rw [toOwned_of hv]

end UserItems

end Narrow
