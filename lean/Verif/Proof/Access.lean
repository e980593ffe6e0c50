import Verif.Spec.Access
import Verif.Proof.Refill
import Verif.Props.Lists

/-! # The parts of collections over user storages -/

namespace Narrow

open Spec

theorem mask_isSome {O : Type} : ∀ (xs : List O) (bs : List Bool), bs.length ≤ xs.length →
    (Validity.mask xs bs).map Option.isSome = bs
  | [], [], _ => rfl
  | x :: xs, [], _ => rfl
  | [], b :: bs, h => by simp at h
  | x :: xs, b :: bs, h => by
    have := mask_isSome xs bs (by simpa using h)
    cases b <;> simp [this]

theorem mask_get {O : Type} : ∀ (xs : List O) (bs : List Bool) (i : Nat) (x : O),
    (Validity.mask xs bs)[i]? = some (some x) → xs[i]? = some x
  | [], bs, i, x, h => by simp at h
  | x :: xs, [], i, y, h => by simp at h
  | x :: xs, b :: bs, 0, y, h => by cases b <;> simp_all
  | x :: xs, b :: bs, i + 1, y, h => by
    simp only [Validity.mask_cons, List.getElem?_cons_succ] at h ⊢
    exact mask_get xs bs i y h

theorem bitsAt_of {B : Backing Byte} {L : LawfulB B} {b : BitmapOf B.C} (h : b.Within L.buf) :
    BitsAt B b (b.seen B.toBuf).abs := by
  refine ⟨reads_abs (bitmapBL L) h, Bitmap.abs_length _, fun i hi => ?_⟩
  rw [Bitmap.abs_length] at hi
  have e : B.borrow b.buffer = L.buf.abs b.buffer := L.borrow_ok h.buf
  have := h.le
  refine ⟨?_, ?_⟩
  · show b.offset + i < 8 * (B.borrow b.buffer).length
    rw [e]
    have hi : i < b.bits := hi
    omega
  · rw [Bitmap.abs_getElem]
    show bitAt (B.borrow b.buffer) (b.offset + i) = bit (B.borrow b.buffer) (b.offset + i)
    unfold bitAt bit
    rw [List.getD_eq_getElem?_getD]
    split <;> simp_all

theorem encoded_of : {O : Type} → (k : SComp O) → (hs : Sound k) → (c : (scompR k).C) →
    (scompL k hs).Inv c → Encoded k c ((scompL k hs).abs c)
  | _, .leaf _ _ _, hs, c, h => ⟨reads_abs (scompL (.leaf _ _ _) hs).toLawfulColl h, rfl⟩
  | _, .bitmap _ _, hs, c, h => bitsAt_of (L := honoursB hs) h
  | _, .flatten n hn k, hs, c, h => by
    refine ⟨reads_abs (scompL (.flatten n hn k) hs).toLawfulColl h, ?_⟩
    have h : flatInv (scompL k hs).toLawfulColl n c := h
    have e : ((scompL (.flatten n hn k) hs).abs c).flatMap Subtype.val = (scompL k hs).abs c.child :=
      flat_abs hn h
    rw [e]
    exact encoded_of k hs c.child h.1
  | _, .validity env B Good k, hs, c, h => by
    refine ⟨reads_abs (scompL (.validity env B Good k) hs).toLawfulColl h, ?_⟩
    have h : ValidityOf.Inv (bitmapBL (honoursB hs.1)) (scompL k hs.2).toLawfulColl c := h
    refine ⟨_, encoded_of k hs.2 c.coll h.1, ?_⟩
    show match c.bitmap with
      | none => ValidityOf.abs (bitmapBL (honoursB hs.1)) (scompL k hs.2).toLawfulColl c = _
      | some b => BitsAt B b ((ValidityOf.abs (bitmapBL (honoursB hs.1)) (scompL k hs.2).toLawfulColl c).map _) ∧ _
    obtain ⟨coll, bitmap⟩ := c
    cases bitmap with
    | none => rfl
    | some b =>
      obtain ⟨h1, h2⟩ := h.2 b rfl
      refine ⟨?_, ?_, ?_⟩
      · rw [show ValidityOf.abs (bitmapBL (honoursB hs.1)) (scompL k hs.2).toLawfulColl ⟨coll, some b⟩ = _ from rfl,
          ValidityOf.abs_some, mask_isSome _ _ h2]
        exact bitsAt_of h1
      · show (Validity.mask _ _).length ≤ _
        rw [Validity.mask_length]; exact Nat.min_le_left _ _
      · intro i x hx
        exact mask_get _ _ i x hx
  | _, .offsets ow D Good k, hs, c, h => by
    refine ⟨reads_abs (scompL (.offsets ow D Good k) hs).toLawfulColl h, ?_⟩
    have h : OffsetsIn.Rep (honoursB hs.1).toLawfulColl (scompL k hs.2.2).toLawfulColl c
      ((scompL (.offsets ow D Good k) hs).abs c) := h
    refine ⟨?_, _, encoded_of k hs.2.2 c.data h.inv, h.pre⟩
    rw [Props.offsetsOf_eq]
    exact h.items

theorem encoded_reads : {O : Type} → (k : SComp O) → {c : (scompR k).C} → {l : List O} →
    Encoded k c l → Reads (scompR k).toColl c l
  | _, .leaf _ _ _, _, _, h => h.1
  | _, .bitmap _ _, _, _, h => h.1
  | _, .flatten _ _ _, _, _, h => h.1
  | _, .validity _ _ _ _, _, _, h => h.1
  | _, .offsets _ _ _ _, _, _, h => h.1

theorem exactly_reads : {O : Type} → (k : SComp O) → {c : (scompR k).C} → {l : List O} →
    EncodedExactly k c l → Reads (scompR k).toColl c l
  | _, .leaf _ _ _, _, _, h => h.1
  | _, .bitmap _ _, _, _, h => h.1.1
  | _, .flatten _ _ _, _, _, h => h.1
  | _, .validity _ _ _ _, _, _, h => h.1
  | _, .offsets _ _ _ _, _, _, h => h.1

theorem firm_loose : {O : Type} → (k : SComp O) → (hs : Sound k) → {c : (scompR k).C} →
    sfirm k hs c → sloose k hs c
  | _, .leaf _ _ _, _, _, _ => trivial
  | _, .bitmap _ _, _, _, h => h
  | _, .flatten _ _ k, hs, _, h => firm_loose k hs h
  | _, .validity _ _ _ k, hs, _, h => ⟨firm_loose k hs.2 h.1.1, h.1.2⟩
  | _, .offsets _ _ _ _, _, _, h => h

theorem exactly_of : {O : Type} → (k : SComp O) → (hs : Sound k) → (c : (scompR k).C) →
    (scompL k hs).Inv c → sloose k hs c → EncodedExactly k c ((scompL k hs).abs c)
  | _, .leaf _ _ _, hs, c, h, _ => ⟨reads_abs (scompL (.leaf _ _ _) hs).toLawfulColl h, rfl⟩
  | _, .bitmap _ _, hs, c, h, hz => ⟨bitsAt_of (L := honoursB hs) h, hz⟩
  | _, .flatten n hn k, hs, c, h, hz => by
    refine ⟨reads_abs (scompL (.flatten n hn k) hs).toLawfulColl h, ?_⟩
    have h : flatInv (scompL k hs).toLawfulColl n c := h
    have e : ((scompL (.flatten n hn k) hs).abs c).flatMap Subtype.val = (scompL k hs).abs c.child :=
      flat_abs hn h
    rw [e]
    exact exactly_of k hs c.child h.1 hz
  | _, .validity env B Good k, hs, c, h, hz => by
    obtain ⟨z1, z2, z3⟩ := hz
    refine ⟨reads_abs (scompL (.validity env B Good k) hs).toLawfulColl h, ?_, ?_⟩
    · have h : ValidityOf.Inv (bitmapBL (honoursB hs.1)) (scompL k hs.2).toLawfulColl c := h
      have := exactly_of k hs.2 c.coll h.1 z1
      rw [z3] at this
      exact this
    · obtain ⟨-, m, -, e⟩ := encoded_of (.validity env B Good k) hs c h
      obtain ⟨coll, bitmap⟩ := c
      cases bitmap with
      | none =>
        intro x hx
        have e : (scompL (.validity env B Good k) hs).abs ⟨coll, none⟩ = m.map some := e
        rw [e] at hx
        obtain ⟨y, -, rfl⟩ := List.mem_map.mp hx
        rfl
      | some b => exact ⟨e.1, z2 b rfl⟩
  | _, .offsets ow D Good k, hs, c, h, hz => by
    refine ⟨reads_abs (scompL (.offsets ow D Good k) hs).toLawfulColl h, ?_⟩
    have h : OffsetsIn.Rep (honoursB hs.1).toLawfulColl (scompL k hs.2.2).toLawfulColl c
      ((scompL (.offsets ow D Good k) hs).abs c) := h
    refine ⟨?_, ?_⟩
    · rw [Props.offsetsOf_eq]
      exact h.items
    · have := exactly_of k hs.2.2 c.data h.inv (firm_loose k hs.2.2 hz.1.1)
      rw [hz.1.2] at this
      exact this

theorem bitsAt_same {B : Backing Byte} {b d : BitmapOf B.C} {l m : List Bool} (hl : BitsAt B b l)
    (hm : BitsAt B d m) (h : SameBits B b d) : l = m := by
  obtain ⟨-, h1, h2⟩ := hl
  obtain ⟨-, h3, h4⟩ := hm
  obtain ⟨e1, e2⟩ := h
  refine List.ext_getElem (by rw [h1, h3, e2]) fun i hi hj => ?_
  rw [(h2 i hi).2, (h4 i hj).2, e1, e2]

theorem encoded_same : {O : Type} → (k : SComp O) → {c d : (scompR k).C} → {l m : List O} →
    Encoded k c l → Encoded k d m → SameParts k c d → l = m
  | _, .leaf _ _ _, c, d, l, m, hl, hm, h => by
    rw [← hl.2, ← hm.2]; exact h
  | _, .bitmap _ _, c, d, l, m, hl, hm, h => bitsAt_same hl hm h
  | _, .flatten n hn k, c, d, l, m, hl, hm, h => Flatten.flat_inj hn (encoded_same k hl.2 hm.2 h)
  | _, .validity _ B _ k, c, d, l, m, hl, hm, h => by
    obtain ⟨-, x, hx, h1⟩ := hl
    obtain ⟨-, y, hy, h2⟩ := hm
    obtain ⟨h3, h4⟩ := h
    obtain rfl := encoded_same k hx hy h3
    obtain ⟨cc, cb⟩ := c
    obtain ⟨dc, db⟩ := d
    cases cb with
    | none =>
      cases db with
      | none => exact Eq.trans h1 (Eq.symm h2)
      | some _ => exact h4.elim
    | some b =>
      cases db with
      | none => exact h4.elim
      | some b' =>
        obtain ⟨i1, i2, i3⟩ := h1
        obtain ⟨j1, j2, j3⟩ := h2
        have e := bitsAt_same i1 j1 h4
        apply List.ext_getElem?
        intro i
        have e' := congrArg (·[i]?) e
        simp only [List.getElem?_map] at e'
        cases a : l[i]? with
        | none => rw [a] at e'; cases b : m[i]? <;> simp_all
        | some u =>
          cases b : m[i]? with
          | none => simp [a, b] at e'
          | some v =>
            rw [a, b] at e'
            cases u <;> cases v <;> simp at e' ⊢
            have := (i3 i _ a).symm.trans (j3 i _ b)
            simpa using this
  | _, .offsets _ _ _ k, c, d, l, m, hl, hm, h => by
    obtain ⟨-, e1, x, hx, h1⟩ := hl
    obtain ⟨-, e2, y, hy, h2⟩ := hm
    obtain rfl := encoded_same k hx hy h.1
    have e : offsetsOf l = offsetsOf m := e1.symm.trans (h.2.trans e2)
    rw [Props.offsetsOf_eq, Props.offsetsOf_eq] at e
    rw [← Offsets.slices_totals x 0 l (by simpa using h1), e,
      Offsets.slices_totals x 0 m (by simpa using h2)]

end Narrow
