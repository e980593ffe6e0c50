import Verif.Spec.Backend
import Verif.Proof.Storage

/-! # Collections keeping their contract are lawful -/

namespace Narrow

open Spec

/-! ## Iterators -/

section Iter

variable {σ τ O : Type} {next : σ → Res (Option τ × σ)} {len : σ → Res Nat} {conv : τ → Res O}

/-- The first answer of an iterator, and the iterator afterwards. -/
theorem iterates_next {it : σ} {l : List O} (h : Iterates next len conv it l) :
    ∃ x it', next it = .ok (x, it') ∧ convOpt conv x = .ok l[0]? ∧
      Iterates next len conv it' l.tail := by
  obtain ⟨ans, it1, e1, e2, e3⟩ := h 1
  unfold polls at e1
  cases h1 : next it with
  | panic => rw [h1] at e1; cases e1
  | ok r =>
    obtain ⟨x, it'⟩ := r
    rw [h1] at e1
    simp only [polls, Res.map, Res.ok.injEq, Prod.mk.injEq] at e1
    obtain ⟨rfl, rfl⟩ := e1
    refine ⟨x, it', rfl, ?_, fun n => ?_⟩
    · unfold mapRes at e2
      cases h2 : convOpt conv x with
      | panic => rw [h2] at e2; cases e2
      | ok b =>
        rw [h2] at e2
        simp only [mapRes, Res.map, Res.ok.injEq, List.range_one, List.map_cons, List.map_nil,
          List.cons.injEq, and_true] at e2
        rw [e2]
    · obtain ⟨ans, it2, f1, f2, f3⟩ := h (n + 1)
      unfold polls at f1
      rw [h1] at f1
      simp only at f1
      cases h3 : polls next n it' with
      | panic => rw [h3] at f1; cases f1
      | ok r =>
        obtain ⟨as, it3⟩ := r
        rw [h3] at f1
        simp only [Res.map, Res.ok.injEq, Prod.mk.injEq] at f1
        obtain ⟨rfl, rfl⟩ := f1
        refine ⟨as, it3, rfl, ?_, ?_⟩
        · unfold mapRes at f2
          cases h2 : convOpt conv x with
          | panic => rw [h2] at f2; cases f2
          | ok b =>
            rw [h2] at f2
            simp only at f2
            cases h4 : mapRes (convOpt conv) as with
            | panic => rw [h4] at f2; cases f2
            | ok bs =>
              rw [h4] at f2
              simp only [Res.map, Res.ok.injEq] at f2
              rw [List.range_succ_eq_map, List.map_cons, List.map_map] at f2
              injection f2 with _ f2
              rw [f2]
              congr 1
              apply List.map_congr_left
              intro i _
              cases l <;> simp
        · rw [f3]; congr 1; simp; omega

theorem iterates_end {it : σ} (h : Iterates next len conv it ([] : List O)) :
    ∃ it', next it = .ok (none, it') ∧ Iterates next len conv it' ([] : List O) := by
  obtain ⟨x, it', h1, h2, h3⟩ := iterates_next h
  cases x with
  | none => exact ⟨it', h1, h3⟩
  | some a =>
    simp only [convOpt, List.getElem?_nil] at h2
    cases h4 : conv a <;> rw [h4] at h2 <;> cases h2

theorem iterates_head {it : σ} {o : O} {l : List O} (h : Iterates next len conv it (o :: l)) :
    ∃ v it', next it = .ok (some v, it') ∧ conv v = .ok o ∧ Iterates next len conv it' l := by
  obtain ⟨x, it', h1, h2, h3⟩ := iterates_next h
  cases x with
  | none => simp [convOpt] at h2
  | some a =>
    refine ⟨a, it', h1, ?_, h3⟩
    simp only [convOpt, List.getElem?_cons_zero] at h2
    cases h4 : conv a with
    | panic => rw [h4] at h2; cases h2
    | ok b =>
      rw [h4] at h2
      simp only [Res.map, Res.ok.injEq, Option.some.injEq] at h2
      rw [h2]

theorem iterates_count {it : σ} {l : List O} (h : Iterates next len conv it l) :
    len it = .ok l.length := by
  obtain ⟨ans, it1, e1, e2, e3⟩ := h 0
  simp only [polls, Res.ok.injEq, Prod.mk.injEq] at e1
  obtain ⟨rfl, rfl⟩ := e1
  exact e3

end Iter

/-- Collections read as a list are lawful. -/
def lawfulOfReads {O : Type} (K : Coll O) (Good : K.C → Prop) (held : K.C → List O)
    (hr : ∀ {c}, Good c → Reads K c (held c)) (hs : ∀ {c}, Good c → (held c).length ≤ usizeMax) :
    LawfulColl K where
  Inv := Good
  abs := held
  VRep v o := K.toOwned v = .ok o
  IRep it l := Iterates K.inext K.ilen K.toOwned it l
  JRep it l := Iterates K.jnext K.jlen Res.ok it l
  len_ok h := (hr h).len
  len_le h := hs h
  view_some := by
    intro c i h hi
    have h1 := (hr h).owned i hi
    unfold Coll.owned at h1
    split at h1
    · cases h1
    · cases h1
    · next v hv =>
      refine ⟨v, hv, ?_⟩
      cases h4 : K.toOwned v with
      | panic => rw [h4] at h1; cases h1
      | ok b =>
        rw [h4] at h1
        simp only [Res.map, Res.ok.injEq, Option.some.injEq] at h1
        rw [h1]
  owned_ok h := h
  iter_ok h := (hr h).iter
  inext_nil h := iterates_end h
  inext_cons h := iterates_head h
  ilen_ok h := iterates_count h
  into_ok h := (hr h).into
  jnext_nil h := iterates_end h
  jnext_cons h := by
    obtain ⟨v, it', h1, h2, h3⟩ := iterates_head h
    cases h2
    exact ⟨it', h1, h3⟩
  jlen_ok h := iterates_count h

/-! ## Growing, without claims about when it succeeds -/

structure Grows {O : Type} (R : Realloc O) (L : LawfulColl R.toColl) : Prop where
  empty_ok : L.Inv R.empty ∧ L.abs R.empty = []
  pulled_fused : ∀ {α : Type} {s : Src α}, s.Fused → R.pulled s = s.items
  pulled_map : ∀ {α β : Type} (f : α → β) (s : Src α),
    (R.pulled (s.map f)).length = (R.pulled s).length
  fromIter_any : ∀ {w w' s c}, R.fromIter w s = (.ok c, w') →
    L.Inv c ∧ (L.abs c).length = (R.pulled s).length
  fromIterIn_any : ∀ {w w' s c}, R.fromIterIn w s = (.ok c, w') →
    L.Inv c ∧ (L.abs c).length = (R.pulled s).length
  tryFromIter_any : ∀ {w w' s c}, R.tryFromIter w s = (.ok c, w') → L.Inv c
  withCap_ok : ∀ {n c}, R.withCap n = .ok c → L.Inv c ∧ L.abs c = []
  withCap_ne : ∀ n, R.withCap n ≠ .err
  fromIter_ok : ∀ {w w' s c}, s.Fused → R.fromIter w s = (.ok c, w') →
    L.Inv c ∧ L.abs c = s.items ∧ s.panics = false
  fromIter_ne : ∀ w s, (R.fromIter w s).1 ≠ .err
  fromIterIn_ok : ∀ {w w' s c}, s.Fused → R.fromIterIn w s = (.ok c, w') →
    L.Inv c ∧ L.abs c = s.items ∧ s.panics = false
  fromIterIn_ne : ∀ w s, (R.fromIterIn w s).1 ≠ .err
  tryWithCap_ok : ∀ {w w' n c}, R.tryWithCap w n = (.ok c, w') → L.Inv c ∧ L.abs c = []
  tryWithCap_np : ∀ w n, (R.tryWithCap w n).1 ≠ .panic
  tryFromIter_ok : ∀ {w w' s c}, s.Fused → R.tryFromIter w s = (.ok c, w') →
    L.Inv c ∧ L.abs c = s.items ∧ s.panics = false
  tryFromIter_np : ∀ {w s}, s.Fused → s.panics = false → (R.tryFromIter w s).1 ≠ .panic
  ext_ok : ∀ {c c' s}, L.Inv c → R.extend c s = (c', .ok) →
    L.Inv c' ∧ L.abs c' = L.abs c ++ s.items ∧ s.panics = false
  ext_ne : ∀ {c} s, L.Inv c → (R.extend c s).2 ≠ .err
  ext_fuse : ∀ c s, R.extend c s = R.extend c s.fuse
  reserve_ok : ∀ {c c' n o}, L.Inv c → R.reserve c n = (c', o) →
    L.Inv c' ∧ L.abs c' = L.abs c ∧ o ≠ .err
  tryReserve_ok : ∀ {w w' c c' n o}, L.Inv c → R.tryReserve w c n = (c', o, w') →
    L.Inv c' ∧ L.abs c' = L.abs c ∧ o ≠ .panic
  tryExt_ok : ∀ {w w' c c' s}, L.Inv c → R.tryExtend w c s = (c', .ok, w') →
    L.Inv c' ∧ L.abs c' = L.abs c ++ s.items ∧ s.panics = false
  tryExt_err : ∀ {w w' c c' s}, L.Inv c → R.tryExtend w c s = (c', .err, w') →
    L.Inv c' ∧ L.abs c' = L.abs c
  tryExt_np : ∀ {w c s}, L.Inv c → s.panics = false → (R.tryExtend w c s).2.1 ≠ .panic
  tryExt_fuse : ∀ w c s, R.tryExtend w c s = R.tryExtend w c s.fuse
  trunc_ok : ∀ {c} n, L.Inv c →
    ∃ c', R.truncate c n = (c', .ok) ∧ L.Inv c' ∧ L.abs c' = (L.abs c).take n

/-- The laws with no promise of room. -/
def Grows.lawful {O : Type} {R : Realloc O} {L : LawfulColl R.toColl} (G : Grows R L) : LawfulR R :=
  { L with
    Canon := fun _ => True
    Room := fun _ _ => False
    room_prefix := fun h => h.elim
    room_mono := fun _ h => h.elim
    room_len := fun h => h.elim
    empty_ok := ⟨G.empty_ok.1, G.empty_ok.2, trivial⟩
    pulled_fused := G.pulled_fused
    pulled_map := G.pulled_map
    fromIter_any := G.fromIter_any
    fromIterIn_any := G.fromIterIn_any
    tryFromIter_any := G.tryFromIter_any
    withCap_ok := fun h => ⟨(G.withCap_ok h).1, (G.withCap_ok h).2, trivial⟩
    withCap_ne := G.withCap_ne
    fromIter_ok := fun f h =>
      let r := G.fromIter_ok f h; ⟨r.1, r.2.1, r.2.2, fun h => h.elim⟩
    fromIter_ne := G.fromIter_ne
    fromIterIn_ok := fun f h =>
      let r := G.fromIterIn_ok f h; ⟨r.1, r.2.1, r.2.2, fun h => h.elim⟩
    fromIterIn_ne := G.fromIterIn_ne
    tryWithCap_ok := fun h => ⟨(G.tryWithCap_ok h).1, (G.tryWithCap_ok h).2, trivial⟩
    tryWithCap_np := G.tryWithCap_np
    tryFromIter_ok := fun f h =>
      let r := G.tryFromIter_ok f h; ⟨r.1, r.2.1, r.2.2, fun h => h.elim⟩
    tryFromIter_np := G.tryFromIter_np
    ext_ok := G.ext_ok
    ext_ne := G.ext_ne
    ext_canon := fun _ _ h => h.elim
    ext_live := fun _ _ _ h => h.elim
    ext_fuse := G.ext_fuse
    reserve_ok := fun h e =>
      let r := G.reserve_ok h e; ⟨r.1, r.2.1, r.2.2, fun _ => trivial⟩
    reserve_live := fun _ _ h => h.elim
    tryReserve_ok := fun h e =>
      let r := G.tryReserve_ok h e; ⟨r.1, r.2.1, r.2.2, fun _ => trivial⟩
    tryExt_ok := G.tryExt_ok
    tryExt_canon := fun _ _ h => h.elim
    tryExt_err := G.tryExt_err
    tryExt_np := G.tryExt_np
    tryExt_fuse := G.tryExt_fuse
    trunc_ok := fun n h =>
      let ⟨c', h1, h2, h3⟩ := G.trunc_ok n h; ⟨c', h1, h2, h3, fun _ => trivial⟩ }

/-- Reading a collection that keeps its contract. -/
def honoursC {α : Type} {R : Realloc α} {Good : R.C → Prop} {held : R.C → List α}
    (H : Honours R Good held) : LawfulColl R.toColl :=
  lawfulOfReads R.toColl Good held H.reads H.size

theorem honoursG {α : Type} {R : Realloc α} {Good : R.C → Prop} {held : R.C → List α}
    (H : Honours R Good held) : Grows R (honoursC H) where
  empty_ok := H.empty
  pulled_fused _ := H.pulled _
  pulled_map f s := by rw [H.pulled, H.pulled, Src.items_map, List.length_map]
  fromIter_any h := by
    obtain ⟨h1, h2, -⟩ := H.fromIter h
    exact ⟨h1, by rw [H.pulled]; exact congrArg List.length h2⟩
  fromIterIn_any h := by
    obtain ⟨h1, h2, -⟩ := H.fromIterIn h
    exact ⟨h1, by rw [H.pulled]; exact congrArg List.length h2⟩
  tryFromIter_any h := (H.tryFromIter h).1
  withCap_ok h := H.withCap h
  withCap_ne := H.withCapOnly
  fromIter_ok _ h := H.fromIter h
  fromIter_ne := H.fromIterOnly
  fromIterIn_ok _ h := H.fromIterIn h
  fromIterIn_ne := H.fromIterInOnly
  tryWithCap_ok h := H.tryWithCap h
  tryWithCap_np := H.tryWithCapCalm
  tryFromIter_ok _ h := H.tryFromIter h
  tryFromIter_np _ h := H.tryFromIterCalm h
  ext_ok h e := H.extend h e
  ext_ne s h := H.extendOnly s h
  ext_fuse := H.extendStops
  reserve_ok h e := H.reserve h e
  tryReserve_ok h e := H.tryReserve h e
  tryExt_ok h e := H.tryExtend h e
  tryExt_err h e := H.tryExtendErr h e
  tryExt_np h hp := H.tryExtendCalm h hp
  tryExt_fuse := H.tryExtendStops
  trunc_ok n h := H.truncate n h

/-- The laws of a storage that is only read. -/
structure LawfulBuf {α : Type} (B : Buf α) extends LawfulColl B.toColl where
  borrow_ok : ∀ {c}, Inv c → B.borrow c = abs c
  small : ∀ {c}, Inv c → (abs c).length ≤ byteMax

/-- The laws of a storage. -/
structure LawfulB {α : Type} (B : Backing α) extends LawfulR B.toRealloc where
  borrow_ok : ∀ {c}, Inv c → B.borrow c = abs c
  small : ∀ {c}, Inv c → (abs c).length ≤ byteMax
  write_ok : ∀ {c l}, Inv c → l.length = (abs c).length →
    Inv (B.write c l) ∧ abs (B.write c l) = l

/-- The reading side. -/
@[reducible] def LawfulB.buf {α : Type} {B : Backing α} (L : LawfulB B) : LawfulBuf B.toBuf :=
  { L.toLawfulColl with
    borrow_ok := L.borrow_ok
    small := L.small }

def honoursB {α : Type} {B : Backing α} {Good : B.C → Prop} (H : HonoursBuf B Good) : LawfulB B :=
  { (honoursG H.toHonours).lawful with
    borrow_ok := fun _ => rfl
    small := H.memory
    write_ok := H.write }

end Narrow
