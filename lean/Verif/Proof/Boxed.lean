import Verif.Model.Boxed
import Verif.Proof.Reach

/-!
# Boxed constructors are the growable ones followed by a shrink
-/

namespace Narrow

open Spec

/-- Drop the spare capacity of every buffer. -/
def shrink : (t : Ty) → (baseR t).C → (baseR t).C
  | .bool => fun (b : Bitmap) => (⟨b.buffer.boxed, b.bits, b.offset⟩ : Bitmap)
  | .prim _ => fun (v : RVec _) => v.boxed
  | .fsl _ false t => fun (c : Flatten (baseR t).C) => (⟨shrink t c.child⟩ : Flatten (baseR t).C)
  | .fsl _ true _ => fun c => c
  | .vsl _ _ _ => fun c => c

/-- What a fallible boxed constructor returns, given what the growable one does:
the same result, or a panic because the allocator refuses the next request, which is made
only if there is spare capacity. -/
def BoxTry {C : Type} (f : C → C) (r b : Try C × World) : Prop :=
  match r with
  | (.ok c, w') => b.1 = .ok (f c) ∨ (b.1 = .panic ∧ (∃ n, w'.oracle.grant w'.tick n = none) ∧ f c ≠ c)
  | (.err, w') => b = (.err, w')
  | (.panic, w') => b = (.panic, w')

/-- `B` makes what the growable constructors `R` make, applying `f`. -/
structure BoxOf {O : Type} (R : Realloc O) (f : R.C → R.C) (B : Ctor R.C O) : Prop where
  withCap : ∀ n, B.withCap n = (R.withCap n).mapOk f
  fromIter : ∀ w s, B.fromIter w s = ((R.fromIter w s).1.mapOk f, (R.fromIter w s).2)
  fromIterIn : ∀ w s, B.fromIterIn w s = ((R.fromIterIn w s).1.mapOk f, (R.fromIterIn w s).2)
  tryWithCap : ∀ w n, B.tryWithCap w n = ((R.tryWithCap w n).1.mapOk f, (R.tryWithCap w n).2)
  tryFromIter : ∀ w s, BoxTry f (R.tryFromIter w s) (B.tryFromIter w s)

theorem mapOk_mapOk {α β γ : Type} (f : α → β) (g : β → γ) (x : Try α) :
    (x.mapOk f).mapOk g = x.mapOk fun a => g (f a) := by cases x <;> rfl

theorem wrapTry_eq {C : Type} (x : Try C) : Flatten.wrapTry x = x.mapOk Flatten.mk := by
  cases x <;> rfl

theorem vec_boxOf {α : Type} (lim : Nat) (d : α) : BoxOf (vecR lim d) RVec.boxed (boxCtor lim) where
  withCap _ := rfl
  fromIter _ _ := rfl
  fromIterIn _ _ := rfl
  tryWithCap w n := by
    show RVec.mapBoxed lim (RVec.tryWithCap lim w n) = _
    simp only [vecR]
    generalize h : (RVec.tryWithCap lim w n : Try (RVec α) × World) = r
    obtain ⟨x, w'⟩ := r
    cases x with
    | ok v =>
      have := (RVec.tryWithCap_ok h).1
      simp [RVec.mapBoxed, RVec.intoBoxed, this, Try.mapOk]
    | err => rfl
    | panic => rfl
  tryFromIter w s := by
    show BoxTry _ (RVec.tryFromIter lim w s) (RVec.mapBoxed lim (RVec.tryFromIter lim w s))
    generalize (RVec.tryFromIter lim w s : Try (RVec α) × World) = r
    obtain ⟨x, w'⟩ := r
    cases x with
    | ok v =>
      simp only [BoxTry, RVec.mapBoxed, RVec.intoBoxed]
      split
      · exact .inl rfl
      · next hne =>
        split
        · next hg =>
          refine .inr ⟨rfl, ⟨v.items.length, hg⟩, fun h => hne (.inr (.inl ?_))⟩
          exact congrArg RVec.cap h
        · exact .inl rfl
    | err => rfl
    | panic => rfl

theorem bitmap_boxOf : BoxOf bitmapR (fun b => ⟨b.buffer.boxed, b.bits, b.offset⟩)
    (bitmapCtor (boxCtor byteMax)) where
  withCap n := by
    show ((RVec.withCap byteMax (bytesForBits n)).mapOk RVec.boxed).mapOk _ = (Bitmap.withCap n).mapOk _
    unfold Bitmap.withCap
    cases (RVec.withCap byteMax (bytesForBits n) : Try (RVec Byte)) <;> rfl
  fromIter w s := by
    show (((RVec.fromIter byteMax (pack s).1).mapOk RVec.boxed).mapOk _, w) = ((Bitmap.fromIter s).mapOk _, w)
    unfold Bitmap.fromIter
    cases RVec.fromIter byteMax (pack s).1 <;> rfl
  fromIterIn w s := by
    show (((RVec.fromIter byteMax (pack s).1).mapOk RVec.boxed).mapOk _, w) = ((Bitmap.fromIter s).mapOk _, w)
    unfold Bitmap.fromIter
    cases RVec.fromIter byteMax (pack s).1 <;> rfl
  tryWithCap w n := by
    have h := (vec_boxOf byteMax 0#8).tryWithCap w (bytesForBits n)
    show ((((boxCtor byteMax).tryWithCap w (bytesForBits n)).1.mapOk _ : Try Bitmap), _) =
      ((Bitmap.tryWithCap w n).1.mapOk _, (Bitmap.tryWithCap w n).2)
    rw [h]
    unfold Bitmap.tryWithCap
    simp only [vecR]
    generalize (RVec.tryWithCap byteMax w (bytesForBits n) : Try (RVec Byte) × World) = r
    obtain ⟨x, w'⟩ := r
    cases x <;> rfl
  tryFromIter w s := by
    have h := (vec_boxOf byteMax 0#8).tryFromIter w (pack s).1
    show BoxTry _ (Bitmap.tryFromIter w s) (((boxCtor byteMax).tryFromIter w (pack s).1).1.mapOk _,
      ((boxCtor byteMax).tryFromIter w (pack s).1).2)
    unfold Bitmap.tryFromIter
    simp only [vecR] at h
    generalize (RVec.tryFromIter byteMax w (pack s).1 : Try (RVec Byte) × World) = r at h
    generalize (boxCtor byteMax).tryFromIter w (pack s).1 = q at h
    obtain ⟨x, w'⟩ := r
    obtain ⟨y, w''⟩ := q
    cases x with
    | ok v =>
      rcases h with h | ⟨h, h'⟩
      · simp only at h; subst h; exact .inl rfl
      · simp only at h; subst h; exact .inr ⟨rfl, h'.1, fun e => h'.2 (congrArg Bitmap.buffer e)⟩
    | err => cases h; rfl
    | panic => cases h; rfl

theorem flatten_boxOf {O : Type} {R : Realloc O} {f : R.C → R.C} {B : Ctor R.C O} (h : BoxOf R f B)
    (n : Nat) : BoxOf (flattenR n R) (fun c => ⟨f c.child⟩) (flattenCtor n B) where
  withCap k := by
    show (match strictMul k n with | .panic => .panic | .ok m => (B.withCap m).mapOk Flatten.mk) =
      Try.mapOk _ (match strictMul k n with | .panic => .panic | .ok m => Flatten.wrapTry (R.withCap m))
    cases strictMul k n with
    | panic => rfl
    | ok m =>
      simp only [h.withCap]
      cases R.withCap m <;> rfl
  fromIter w s := by
    show ((B.fromIter w (Flatten.flatSrc s)).1.mapOk Flatten.mk, (B.fromIter w (Flatten.flatSrc s)).2) = _
    rw [h.fromIter]
    simp only [flattenR]
    generalize R.fromIter w (Flatten.flatSrc s) = r
    obtain ⟨x, w'⟩ := r
    cases x <;> rfl
  fromIterIn w s := by
    show ((B.fromIterIn w (Flatten.flatSrc s)).1.mapOk Flatten.mk, (B.fromIterIn w (Flatten.flatSrc s)).2) = _
    rw [h.fromIterIn]
    simp only [flattenR]
    generalize R.fromIterIn w (Flatten.flatSrc s) = r
    obtain ⟨x, w'⟩ := r
    cases x <;> rfl
  tryWithCap w k := by
    simp only [flattenCtor, flattenR]
    cases checkedMul k n with
    | none => rfl
    | some m =>
      simp only [h.tryWithCap]
      generalize R.tryWithCap w m = r
      obtain ⟨x, w'⟩ := r
      cases x <;> rfl
  tryFromIter w s := by
    have h := h.tryFromIter w (Flatten.flatSrc s)
    simp only [flattenCtor, flattenR]
    generalize R.tryFromIter w (Flatten.flatSrc s) = r at h
    generalize B.tryFromIter w (Flatten.flatSrc s) = q at h
    obtain ⟨x, w'⟩ := r
    obtain ⟨y, w''⟩ := q
    cases x with
    | ok v =>
      rcases h with h | ⟨h, h'⟩
      · simp only at h; subst h; exact .inl rfl
      · simp only at h; subst h; exact .inr ⟨rfl, h'.1, fun e => h'.2 (congrArg Flatten.child e)⟩
    | err => cases h; rfl
    | panic => cases h; rfl

theorem boxed_of : (t : Ty) → {B : Ctor (baseR t).C (Val t)} → boxedCtor t = some B →
    BoxOf (baseR t) (shrink t) B
  | .bool, _, h => by cases h; exact bitmap_boxOf
  | .prim p, _, h => by cases h; exact vec_boxOf p.lim _
  | .fsl n false t, _, h => by
    obtain ⟨B, h', rfl⟩ := Option.map_eq_some_iff.mp h
    exact flatten_boxOf (boxed_of t h') n

theorem RVec.boxed_wf {α : Type} {lim : Nat} {v : RVec α} (h : v.WF lim) : v.boxed.WF lim :=
  ⟨Nat.le_refl _, Nat.le_trans h.le_cap h.cap_lim⟩

/-- Shrinking keeps the items, and gives an array that safe constructors can build. -/
theorem shrink_ok : (t : Ty) → (ht : t.WF) → {B : Ctor (baseR t).C (Val t)} → boxedCtor t = some B →
    {c : (baseR t).C} → (baseL t ht).Inv c →
    Reach false t (shrink t c) ∧ (baseL t ht).abs (shrink t c) = (baseL t ht).abs c
  | .bool, _, _, _, (c : Bitmap), (h : c.Inv) => by
    refine ⟨.bitmapParts (buffer := c.buffer.boxed) (bits := c.bits) (offset := c.offset)
      (RVec.boxed_wf h.wf) ?_, rfl⟩
    have h1 := h.le
    have h2 := h.small
    have h3 := h.bytes_le
    simp only [byteMax] at h3
    have h4 : checkedAdd c.offset c.bits = some (c.offset + c.bits) := by
      unfold checkedAdd usizeMax; rw [if_pos (by omega)]
    have h5 : c.offset + c.bits ≤ satMul c.buffer.items.length 8 := by
      simp only [satMul, usizeMax]; omega
    unfold Bitmap.tryFromParts
    simp only [RVec.boxed, h4, h5, if_true]
    rfl
  | .prim p, _, _, _, (c : RVec _), (h : RVec.WF p.lim c) => ⟨.vec (RVec.boxed_wf h), rfl⟩
  | .fsl n false t, ht, _, hB, (c : Flatten (baseR t).C), (h : flatInv (baseL t ht.2).toLawfulColl n c) => by
    obtain ⟨B, hB', rfl⟩ := Option.map_eq_some_iff.mp hB
    obtain ⟨h1, h2⟩ := shrink_ok t ht.2 hB' h.1
    have h3 : (baseR t).len (shrink t c.child) = .ok ((baseL t ht.2).abs c.child).length := by
      rw [(baseL t ht.2).len_ok (show (baseL t ht.2).Inv _ from reach_inv h1 ht.2), h2]
    refine ⟨.flattenParts (nl := false) (t := t) (n := n) (c := shrink t c.child) h1 ?_, ?_⟩
    · show ((baseR t).len (shrink t c.child)).map _ = _
      rw [h3]
      simp only [Res.map]
      rw [if_neg (by have := ht.1; omega), if_pos h.2]
      rfl
    · exact congrArg (Flatten.group n) h2

end Narrow
