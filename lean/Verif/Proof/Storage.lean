import Verif.Model.Storage
import Verif.Proof.Layout
import Verif.Spec.Reads

/-!
# Owned iterators of different storages answer alike

`Sim A K`: the owned iterator `A` answers every call as the owned iterator of `K`
does. It holds for every storage of a buffer and is kept by the layouts.
-/

namespace Narrow

open Spec

/-- Both panic, or both return related values. -/
def ResRel {α β : Type} (P : α → β → Prop) : Res α → Res β → Prop
  | .ok a, .ok b => P a b
  | .panic, .panic => True
  | _, _ => False

namespace ResRel

variable {α β γ δ : Type} {P : α → β → Prop} {Q : γ → δ → Prop}

theorem bind {x : Res α} {y : Res β} {f : α → Res γ} {g : β → Res δ}
    (h : ResRel P x y) (hf : ∀ a b, P a b → ResRel Q (f a) (g b)) :
    ResRel Q (x.bind f) (y.bind g) := by
  cases x <;> cases y <;> simp_all [ResRel, Res.bind]

theorem map {x : Res α} {y : Res β} {f : α → γ} {g : β → δ}
    (h : ResRel P x y) (hf : ∀ a b, P a b → Q (f a) (g b)) :
    ResRel Q (x.map f) (y.map g) := by
  cases x <;> cases y <;> simp_all [ResRel, Res.map]

theorem ok_inv {x : Res α} {b : β} (h : ResRel P x (.ok b)) : ∃ a, x = .ok a ∧ P a b := by
  cases x with
  | ok a => exact ⟨a, rfl, h⟩
  | panic => exact h.elim

theorem eq_of {x y : Res α} (h : ResRel (fun a b => a = b) x y) : x = y := by
  cases x <;> cases y <;> simp_all [ResRel]

theorem of_eq {x y : Res α} (h : x = y) : ResRel (fun a b => a = b) x y := by
  subst h; cases x <;> simp [ResRel]

end ResRel

/-- Related answers of `next`. -/
def Step {σ τ O : Type} (Rel : σ → τ → Prop) (x : Option O × σ) (y : Option O × τ) : Prop :=
  x.1 = y.1 ∧ Rel x.2 y.2

/-- The owned iterator `A` answers as the one of `K`, on collections satisfying
`Inv`. -/
structure Sim {O : Type} (K : Coll O) (A : OwnIt K.C O) (Inv : K.C → Prop) where
  Rel : A.J → K.J → Prop
  into : ∀ c, Inv c → ResRel Rel (A.into c) (K.into c)
  next : ∀ a b, Rel a b → ResRel (Step Rel) (A.next a) (K.jnext b)
  len : ∀ a b, Rel a b → A.len a = K.jlen b

theorem sim_polls {O : Type} {K : Coll O} {A : OwnIt K.C O} {Inv : K.C → Prop} (S : Sim K A Inv) :
    ∀ (n : Nat) (a : A.J) (b : K.J), S.Rel a b →
      ResRel (fun x y => x.1 = y.1 ∧ S.Rel x.2 y.2) (polls A.next n a) (polls K.jnext n b)
  | 0, a, b, h => ⟨rfl, h⟩
  | n + 1, a, b, h => by
    have h1 := S.next a b h
    unfold polls
    cases h2 : A.next a with
    | panic =>
      cases h3 : K.jnext b with
      | panic => trivial
      | ok y => rw [h2, h3] at h1; exact h1.elim
    | ok x =>
      cases h3 : K.jnext b with
      | panic => rw [h2, h3] at h1; exact h1.elim
      | ok y =>
        rw [h2, h3] at h1
        obtain ⟨x1, x2⟩ := x
        obtain ⟨y1, y2⟩ := y
        obtain ⟨e1, e2⟩ := h1
        exact (sim_polls S n x2 y2 e2).map fun p q h => ⟨by rw [h.1]; simp only at e1; rw [e1], h.2⟩

/-- Simulated iterators yield the same list. -/
theorem sim_iterates {O : Type} {K : Coll O} {A : OwnIt K.C O} {Inv : K.C → Prop} (S : Sim K A Inv)
    {c : K.C} (hc : Inv c) {l : List O}
    (h : ∃ it, K.into c = .ok it ∧ Iterates K.jnext K.jlen Res.ok it l) :
    ∃ it, A.into c = .ok it ∧ Iterates A.next A.len Res.ok it l := by
  obtain ⟨it, h1, h2⟩ := h
  have h3 := S.into c hc
  rw [h1] at h3
  obtain ⟨a, h4, h5⟩ := h3.ok_inv
  refine ⟨a, h4, fun n => ?_⟩
  obtain ⟨ans, it', e1, e2, e3⟩ := h2 n
  have h6 := sim_polls S n a it h5
  rw [e1] at h6
  obtain ⟨⟨ans', a'⟩, h7, h8, h9⟩ := h6.ok_inv
  simp only at h8
  subst h8
  exact ⟨_, a', h7, e2, (S.len a' it' h9).trans e3⟩

/-! ## Buffers -/

theorem strictSub_ok {a b : Nat} (h : b ≤ a) : strictSub a b = .ok (a - b) := by
  simp [strictSub, h]

theorem indexed_next {α : Type} (it : SliceIntoIter α)
    (hu : it.slice.length ≤ usizeMax) :
    it.next = match it.slice.drop it.index with
      | [] => .ok (none, it)
      | a :: _ => .ok (some a, ⟨it.slice, it.index + 1⟩) := by
  unfold SliceIntoIter.next
  cases h1 : it.slice[it.index]? with
  | none =>
    have : it.slice.length ≤ it.index := List.getElem?_eq_none_iff.1 h1
    rw [List.drop_eq_nil_of_le this]
  | some a =>
    obtain ⟨h2, h3⟩ := List.getElem?_eq_some_iff.1 h1
    rw [List.drop_eq_getElem_cons h2, strictAdd_ok' (by omega)]
    simp [Res.map, h3]

theorem indexed_len {α : Type} (it : SliceIntoIter α) (h : it.index ≤ it.slice.length) :
    it.len = .ok (it.slice.drop it.index).length := by
  simp [SliceIntoIter.len, strictSub_ok h, Res.bind, Unpacked.exactLen]

/-- Every storage of a buffer. -/
def simStore {α : Type} (lim : Nat) (d : α) (st : Store) :
    Sim (vecR lim d).toColl (st.own α).ofVec (fun v => v.items.length ≤ usizeMax) := by
  have hl : Sim (vecR lim d).toColl (OwnIt.list α).ofVec (fun v => v.items.length ≤ usizeMax) :=
    { Rel := fun (a : List α) (b : List α) => a = b
      into := fun c _ => rfl
      next := fun a b h => by
        subst h
        cases a with
        | nil => exact ⟨rfl, rfl⟩
        | cons x a => exact ⟨rfl, rfl⟩
      len := fun a b h => by subst h; rfl }
  have hi : Sim (vecR lim d).toColl (OwnIt.indexed α).ofVec (fun v => v.items.length ≤ usizeMax) :=
    { Rel := fun (a : SliceIntoIter α) (b : List α) =>
        a.index ≤ a.slice.length ∧ a.slice.length ≤ usizeMax ∧ a.slice.drop a.index = b
      into := fun c h => ⟨Nat.zero_le _, h, rfl⟩
      next := fun a b h => by
        obtain ⟨h1, h2, h3⟩ := h
        show ResRel _ (SliceIntoIter.next a) _
        rw [indexed_next a h2]
        subst h3
        cases h4 : a.slice.drop a.index with
        | nil => exact ⟨rfl, h1, h2, h4⟩
        | cons x r =>
          have h5 : a.index < a.slice.length := by
            apply Decidable.byContradiction
            intro h6
            rw [List.drop_eq_nil_of_le (by omega)] at h4
            cases h4
          refine ⟨rfl, h5, h2, ?_⟩
          rw [List.drop_eq_getElem_cons h5] at h4
          injection h4
      len := fun a b h => by
        obtain ⟨h1, h2, h3⟩ := h
        exact (indexed_len a h1).trans (by rw [h3]) }
  cases st
  · exact hl
  · exact hl
  · exact hi
  · exact hi
  · exact hi
  · exact hl

/-! ## Layouts -/

section Bits

/-- The owned byte iterator `A` answers as the iterator over a list does. -/
structure Tracks {C : Type} (A : OwnIt C Byte) where
  Rel : A.J → List Byte → Prop
  next : ∀ a b, Rel a b → ResRel (Step Rel) (A.next a) ((vecR byteMax 0#8).jnext b)
  len : ∀ a b, Rel a b → A.len a = .ok b.length

variable {C : Type} {A : OwnIt C Byte} (S : Tracks A)

def UnRel (a : UnpackedOf A.J) (b : Unpacked) : Prop :=
  S.Rel a.rest b.rest ∧ a.byte = b.byte ∧ a.mask = b.mask

theorem un_fetch (a : UnpackedOf A.J) (b : Unpacked) (h : UnRel S a b) :
    ResRel (UnRel S) (a.fetch A) (.ok b.fetch) := by
  obtain ⟨ar, ab, am⟩ := a
  obtain ⟨br, bb, bm⟩ := b
  obtain ⟨h1, h2, h3⟩ := h
  simp only at h1 h2 h3
  subst h2; subst h3
  unfold UnpackedOf.fetch Unpacked.fetch
  dsimp only
  by_cases hm : am = 1#8
  · rw [if_pos hm, if_pos hm]
    have h4 := S.next ar br h1
    cases br with
    | nil =>
      obtain ⟨⟨x, s⟩, h5, h6⟩ := ResRel.ok_inv h4
      rw [h5]
      exact ⟨h6.2, h6.1, rfl⟩
    | cons y r =>
      obtain ⟨⟨x, s⟩, h5, h6⟩ := ResRel.ok_inv h4
      rw [h5]
      exact ⟨h6.2, h6.1, rfl⟩
  · rw [if_neg hm, if_neg hm]
    exact ⟨h1, rfl, rfl⟩

theorem un_next (a : UnpackedOf A.J) (b : Unpacked) (h : UnRel S a b) :
    ResRel (Step (UnRel S)) (a.next A) (.ok b.next) := by
  have h1 := un_fetch S a b h
  obtain ⟨v, h2, h3⟩ := h1.ok_inv
  unfold UnpackedOf.next Unpacked.next
  rw [h2]
  generalize b.fetch = u at h3
  obtain ⟨vr, vb, vm⟩ := v
  obtain ⟨ur, ub, um⟩ := u
  obtain ⟨h4, h5, h6⟩ := h3
  simp only at h4 h5 h6
  subst h5; subst h6
  cases vb with
  | none => exact ⟨rfl, h4, rfl, rfl⟩
  | some y => exact ⟨rfl, h4, rfl, rfl⟩

theorem un_advance : ∀ (n : Nat) (a : UnpackedOf A.J) (b : Unpacked), UnRel S a b →
    ResRel (fun x y => x.1 = y.1 ∧ UnRel S x.2 y.2) (a.advance A n) (.ok (b.advance n))
  | 0, a, b, h => ⟨rfl, h⟩
  | n + 1, a, b, h => by
    obtain ⟨⟨x, u⟩, h1, h2, h3⟩ := (un_next S a b h).ok_inv
    unfold UnpackedOf.advance Unpacked.advance
    rw [h1]
    generalize b.next = q at h2 h3
    obtain ⟨y, v⟩ := q
    simp only at h2 h3
    subst h2
    cases x with
    | none => exact ⟨rfl, h3⟩
    | some z => exact un_advance n u v h3

theorem un_sizeHint (a : UnpackedOf A.J) (b : Unpacked) (h : UnRel S a b) :
    a.sizeHint A = .ok b.sizeHint := by
  obtain ⟨h1, h2, h3⟩ := h
  unfold UnpackedOf.sizeHint Unpacked.sizeHint
  rw [S.len _ _ h1, h3]
  rfl

def BitRel (a : BitIterOf A.J) (b : BitIter) : Prop :=
  UnRel S a.un b.un ∧ a.skip = b.skip ∧ a.take = b.take

theorem bit_next (a : BitIterOf A.J) (b : BitIter) (h : BitRel S a b) :
    ResRel (Step (BitRel S)) (a.next A) (.ok b.next) := by
  obtain ⟨au, ask, at'⟩ := a
  obtain ⟨bu, bs, bt⟩ := b
  obtain ⟨h1, h2, h3⟩ := h
  simp only at h1 h2 h3
  subst h2; subst h3
  have key : ResRel (Step (UnRel S)) (BitIterOf.skipNext A au ask)
      (.ok (BitIter.skipNext bu ask)) := by
    unfold BitIterOf.skipNext BitIter.skipNext
    by_cases h0 : ask = 0
    · rw [if_pos h0, if_pos h0]; exact un_next S _ _ h1
    · rw [if_neg h0, if_neg h0]
      obtain ⟨⟨x, u⟩, h4, h5, h6⟩ := (un_advance S ask au bu h1).ok_inv
      rw [h4]
      generalize bu.advance ask = q at h5 h6
      obtain ⟨y, v⟩ := q
      simp only at h5 h6
      subst h5
      cases x with
      | false => exact ⟨rfl, h6⟩
      | true => exact un_next S _ _ h6
  unfold BitIterOf.next BitIter.next
  dsimp only
  by_cases h0 : at' = 0
  · rw [if_pos h0, if_pos h0]; exact ⟨rfl, h1, rfl, rfl⟩
  · rw [if_neg h0, if_neg h0]
    obtain ⟨x, h4, h5⟩ := key.ok_inv
    rw [h4]
    exact ⟨h5.1, h5.2, rfl, rfl⟩

theorem bit_len (a : BitIterOf A.J) (b : BitIter) (h : BitRel S a b) : a.len A = b.len := by
  obtain ⟨h1, h2, h3⟩ := h
  unfold BitIterOf.len BitIter.len BitIter.sizeHint
  rw [un_sizeHint S _ _ h1, h2, h3]
  by_cases h0 : b.take = 0
  · rw [if_pos h0, if_pos h0]
  · rw [if_neg h0, if_neg h0]; rfl

def Sim.tracks {A : OwnIt (RVec Byte) Byte} {lim : Nat} {d : Byte} {Inv : RVec Byte → Prop}
    (S : Sim (vecR lim d).toColl A Inv) : Tracks A := ⟨S.Rel, S.next, S.len⟩

def simBitmap {A : OwnIt (RVec Byte) Byte} {lim : Nat} {d : Byte} {Inv : RVec Byte → Prop}
    (S : Sim (vecR lim d).toColl A Inv) :
    Sim bitmapR.toColl (bitmapOwn A) (fun b => Inv b.buffer) where
  Rel := BitRel S.tracks
  into c hc := by
    obtain ⟨x, h4, h5⟩ := ResRel.ok_inv (S.into c.buffer hc)
    show ResRel _ ((A.into c.buffer).map _) _
    rw [h4]
    exact ⟨⟨h5, rfl, rfl⟩, rfl, rfl⟩
  next a b h := bit_next S.tracks a b h
  len a b h := bit_len S.tracks a b h

end Bits

def simValidity {O : Type} {R : Realloc O} {A : OwnIt R.C O} {Inv : R.C → Prop}
    (S : Sim R.toColl A Inv) {B : OwnIt Bitmap Bool} {BInv : Bitmap → Prop}
    (T : Sim bitmapR.toColl B BInv) :
    Sim (validityR R).toColl (validityOwn A B)
      (fun v => Inv v.coll ∧ ∀ b, v.bitmap = some b → BInv b) where
  Rel a b := S.Rel a.1 b.1 ∧
    match a.2, b.2 with
    | none, none => True
    | some x, some y => T.Rel x y
    | _, _ => False
  into c hc := by
    obtain ⟨h1, h2⟩ := hc
    refine (S.into c.coll h1).bind fun a b hab => ?_
    cases h3 : c.bitmap with
    | none => exact ⟨hab, trivial⟩
    | some m =>
      obtain ⟨x, h4, h5⟩ := ResRel.ok_inv (T.into m (h2 m h3))
      dsimp only
      rw [h4]
      exact ⟨hab, h5⟩
  next a b h := by
    obtain ⟨a1, a2⟩ := a
    obtain ⟨b1, b2⟩ := b
    obtain ⟨h1, h2⟩ := h
    show ResRel _ (validityNext A.next B.next (a1, a2)) (Validity.iterNext R.jnext (b1, b2))
    unfold validityNext Validity.iterNext
    cases a2 with
    | none =>
      cases b2 with
      | some y => exact h2.elim
      | none => exact (S.next _ _ h1).map fun p q h => ⟨by rw [h.1], h.2, trivial⟩
    | some x =>
      cases b2 with
      | none => exact h2.elim
      | some y =>
        obtain ⟨⟨v, x'⟩, h4, h5, h6⟩ := ResRel.ok_inv (T.next x y h2)
        dsimp only
        rw [h4]
        simp only at h5 h6
        generalize y.next = q at h5 h6
        obtain ⟨v', y'⟩ := q
        simp only at h5 h6
        subst h5
        cases v with
        | none => exact ⟨rfl, h1, h6⟩
        | some val => exact (S.next _ _ h1).map fun p q h => ⟨by rw [h.1], h.2, h6⟩
  len a b h := by
    obtain ⟨a1, a2⟩ := a
    obtain ⟨b1, b2⟩ := b
    obtain ⟨h1, h2⟩ := h
    show _ = Validity.iterLen R.jlen (b1, b2)
    unfold Validity.iterLen
    cases a2 with
    | none =>
      cases b2 with
      | some y => exact h2.elim
      | none => exact S.len _ _ h1
    | some x =>
      cases b2 with
      | none => exact h2.elim
      | some y =>
        dsimp only
        rw [S.len _ _ h1, T.len _ _ h2]

theorem chunkRest_rel {O : Type} {K : Coll O} {A : OwnIt K.C O} {Inv : K.C → Prop}
    (S : Sim K A Inv) : ∀ (k : Nat) (a : A.J) (b : K.J), S.Rel a b →
      ResRel (fun x y => x.1 = y.1 ∧ S.Rel x.2 y.2)
        (Flatten.chunkRest (K.withOwn A) k a) (Flatten.chunkRest K k b)
  | 0, a, b, h => ⟨rfl, h⟩
  | k + 1, a, b, h => by
    have h1 := S.next a b h
    unfold Flatten.chunkRest
    change ResRel _ ((K.withOwn A).jnext a) _ at h1
    cases h2 : (K.withOwn A).jnext a with
    | panic =>
      cases h3 : K.jnext b with
      | panic => trivial
      | ok y => rw [h2, h3] at h1; exact h1.elim
    | ok x =>
      cases h3 : K.jnext b with
      | panic => rw [h2, h3] at h1; exact h1.elim
      | ok y =>
        rw [h2, h3] at h1
        obtain ⟨x1, x2⟩ := x
        obtain ⟨y1, y2⟩ := y
        obtain ⟨e1, e2⟩ := h1
        exact (chunkRest_rel S k x2 y2 e2).map fun p q h =>
          ⟨by rw [h.1]; simp only at e1; rw [e1], h.2⟩

def simFlatten {O : Type} (n : Nat) {R : Realloc O} {A : OwnIt R.C O} {Inv : R.C → Prop}
    (S : Sim R.toColl A Inv) :
    Sim (flattenR n R).toColl (flattenOwn n R.toColl A) (fun c => Inv c.child) where
  Rel := S.Rel
  into c hc := S.into c.child hc
  next a b h := by
    have h1 := S.next a b h
    show ResRel _ (Flatten.chunksNext (R.toColl.withOwn A) n a) (Flatten.chunksNext R.toColl n b)
    unfold Flatten.chunksNext
    change ResRel _ ((R.toColl.withOwn A).jnext a) _ at h1
    cases h2 : (R.toColl.withOwn A).jnext a with
    | panic =>
      cases h3 : R.jnext b with
      | panic => trivial
      | ok y => rw [h2, h3] at h1; exact h1.elim
    | ok x =>
      cases h3 : R.jnext b with
      | panic => rw [h2, h3] at h1; exact h1.elim
      | ok y =>
        rw [h2, h3] at h1
        obtain ⟨x1, x2⟩ := x
        obtain ⟨y1, y2⟩ := y
        obtain ⟨e1, e2⟩ := h1
        simp only at e1 e2
        subst e1
        cases x1 with
        | none => exact ⟨rfl, e2⟩
        | some f =>
          dsimp only
          by_cases h0 : n = 0
          · rw [if_pos h0, if_pos h0]; trivial
          · rw [if_neg h0, if_neg h0]
            have h4 := chunkRest_rel S (n - 1) x2 y2 e2
            cases h5 : Flatten.chunkRest (R.toColl.withOwn A) (n - 1) x2 with
            | panic =>
              cases h6 : Flatten.chunkRest R.toColl (n - 1) y2 with
              | panic => trivial
              | ok y => rw [h5, h6] at h4; exact h4.elim
            | ok p =>
              cases h6 : Flatten.chunkRest R.toColl (n - 1) y2 with
              | panic => rw [h5, h6] at h4; exact h4.elim
              | ok q =>
                rw [h5, h6] at h4
                obtain ⟨p1, p2⟩ := p
                obtain ⟨q1, q2⟩ := q
                obtain ⟨e3, e4⟩ := h4
                simp only at e3 e4
                subst e3
                dsimp only
                cases Flatten.toFix n (some f :: p1) with
                | panic => trivial
                | ok v => exact ⟨rfl, e4⟩
  len a b h := by
    show Flatten.chunksLen (R.toColl.withOwn A) n a = Flatten.chunksLen R.toColl n b
    unfold Flatten.chunksLen
    show (A.len a).bind _ = _
    rw [S.len _ _ h]

def simOffsets {O : Type} (ow : OffW) (R : Realloc O) {A : OwnIt (RVec Int) Int}
    {lim : Nat} {d : Int} {Inv : RVec Int → Prop} (S : Sim (vecR lim d).toColl A Inv) :
    Sim (offsetsR ow R).toColl (offsetsOwn R.toColl A) (fun c => Inv c.offsets) where
  Rel a b := S.Rel a.offsets b.offsets ∧ a.data = b.data ∧ a.position = b.position
  into c hc := by
    obtain ⟨a, h1, h2⟩ := ResRel.ok_inv (S.into c.offsets hc)
    show ResRel _ ((A.into c.offsets).bind _) (Offsets.into c)
    unfold Offsets.into
    rw [h1]
    have h3 := S.next _ _ h2
    show ResRel _ ((A.next a).bind _) _
    cases h4 : c.offsets.items with
    | nil =>
      rw [h4] at h3
      obtain ⟨⟨x, s⟩, h5, h6, h7⟩ := ResRel.ok_inv h3
      simp only at h6
      subst h6
      rw [h5]; trivial
    | cons p rest =>
      rw [h4] at h3
      obtain ⟨⟨x, s⟩, h5, h6, h7⟩ := ResRel.ok_inv h3
      simp only at h6
      subst h6
      rw [h5]; exact ⟨h7, rfl, rfl⟩
  next a b h := by
    obtain ⟨ad, ao, ap⟩ := a
    obtain ⟨bd, bo, bp⟩ := b
    obtain ⟨h1, h2, h3⟩ := h
    simp only at h1 h2 h3
    subst h2; subst h3
    have h4 := S.next _ _ h1
    show ResRel _ ((A.next ao).bind _) (Offsets.intoNext R.toColl ⟨ad, bo, ap⟩)
    unfold Offsets.intoNext
    cases bo with
    | nil =>
      obtain ⟨⟨x, s⟩, h5, h6, h7⟩ := ResRel.ok_inv h4
      simp only at h6
      subst h6
      rw [h5]; exact ⟨rfl, h7, rfl, rfl⟩
    | cons e rest =>
      obtain ⟨⟨x, s⟩, h5, h6, h7⟩ := ResRel.ok_inv h4
      simp only at h6
      subst h6
      rw [h5]
      show ResRel _ ((asUsize ap).bind _) ((asUsize ap).bind _)
      cases asUsize ap with
      | panic => trivial
      | ok s' =>
        show ResRel _ ((asUsize e).bind _) ((asUsize e).bind _)
        cases asUsize e with
        | panic => trivial
        | ok e' =>
          show ResRel _ (Res.map _ _) (Res.map _ _)
          cases collectRange (fun i => (R.view ad i).expect.bind R.toOwned) s' (e' - s') with
          | panic => trivial
          | ok l => exact ⟨rfl, h7, rfl, rfl⟩
  len a b h := S.len _ _ h.1

/-- Fewer collections. -/
def Sim.mono {O : Type} {K : Coll O} {A : OwnIt K.C O} {P Q : K.C → Prop} (S : Sim K A P)
    (h : ∀ c, Q c → P c) : Sim K A Q where
  Rel := S.Rel
  into c hc := S.into c (h c hc)
  next := S.next
  len := S.len

theorem byteMax_le : byteMax ≤ usizeMax := by decide

/-- Bitmaps over every storage. -/
def simBits (st : Store) : Sim bitmapR.toColl (bitmapOwn (st.own Byte).ofVec) Bitmap.Inv :=
  (simBitmap (simStore byteMax (0#8 : Byte) st)).mono fun _ h =>
    Nat.le_trans (RVec.WF.le_lim h.wf) byteMax_le

def simNull {O : Type} (st : Store) (nl : Bool) {R : Realloc O} {A : OwnIt R.C O} (L : LawfulR R)
    (S : Sim R.toColl A L.Inv) :
    Sim (nullR nl R).toColl (nullOwn nl R A (bitmapOwn (st.own Byte).ofVec)) (nullL nl L).Inv :=
  match nl with
  | false => S
  | true => (simValidity S (simBits st)).mono fun _ h => ⟨h.1, fun b hb => (h.2 b hb).1⟩

def simBase (st : Store) : (t : Ty) → (h : t.WF) →
    Sim (baseR t).toColl (baseOwn st t) (baseL t h).Inv
  | .bool, _ => simBits st
  | .prim p, _ => (simStore p.lim 0#(8 * p.size) st).mono fun _ h =>
      Nat.le_trans (RVec.WF.le_lim h) p.lim_le
  | .fsl n nl t, h => (simFlatten n (simNull st nl (baseL t h.2) (simBase st t h.2))).mono
      fun _ h => h.1
  | .vsl ow nl t, h => (simOffsets ow (nullR nl (baseR t)) (simStore ow.lim (0 : Int) st)).mono
      fun _ h => Nat.le_trans (RVec.WF.le_lim h.1) (Nat.le_trans (Offsets.OffW.lim_le ow) byteMax_le)

/-- Arrays over every storage. -/
def simArray (st : Store) (nl : Bool) (t : Ty) (h : t.WF) :
    Sim (arrayR nl t).toColl (arrayOwn st nl t) (arrayL nl t h).Inv :=
  simNull st nl (baseL t h) (simBase st t h)

end Narrow
