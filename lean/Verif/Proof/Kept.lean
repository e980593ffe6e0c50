import Verif.Proof.Splits

/-! # How many of the yielded items a caught panic keeps -/

namespace Narrow

open Spec

section
variable {O : Type} {R : Realloc O}

/-- `try_extend` that panics after a multiple of `m` items keeps `f` of them, a multiple
of `m`. -/
def CountT (m : Nat) (f : Nat → Option Nat) (L : LawfulR R) : Prop :=
  ∀ {w w' c c' s k}, L.Inv c → m ∣ s.items.length → f s.items.length = some k →
    R.tryExtend w c s = (c', .panic, w') →
    L.Inv c' ∧ m ∣ k ∧ L.abs c' = L.abs c ++ s.items.take k

variable {L : LawfulR R} {m n : Nat} {f : Nat → Option Nat}

theorem ExactT.count (m : Nat) (h : ExactT L) : CountT m some L := by
  intro w w' c c' s k hc hm hf he
  cases hf
  obtain ⟨h1, h2⟩ := h hc he
  exact ⟨h1, hm, by rw [h2, List.take_length]⟩

theorem ChunkT.count (hm : m ∣ 1024 ∨ 1024 ∣ m) (h : ChunkT L) :
    CountT m (fun n => some (n / 1024 * 1024)) L := by
  intro w w' c c' s k hc hn hf he
  cases hf
  obtain ⟨h1, h2⟩ := h hc he
  exact ⟨h1, dvd_chunks hm hn, h2⟩

theorem flatten_countT (hn : 0 < n) (h : CountT (m * n) f L) :
    CountT m (fun N => (f (N * n)).map (· / n)) (flattenL L n hn) := by
  intro w w' c c' s k hc hm hf he
  simp only [flattenR, Prod.mk.injEq] at he
  obtain ⟨rfl, he, rfl⟩ := he
  obtain ⟨k', hk', rfl⟩ := Option.map_eq_some_iff.mp hf
  obtain ⟨h1, h2, h3⟩ := h (k := k') hc.1 (by
    rw [Flatten.items_flatSrc, Flatten.flat_length]; exact Nat.mul_dvd_mul_right hm n)
    (by rw [Flatten.items_flatSrc, Flatten.flat_length]; exact hk')
    (Prod.ext rfl (Prod.ext he rfl))
  rw [Flatten.items_flatSrc] at h3
  obtain ⟨h4, h5⟩ := take_flat_div hn (Src.items s) h2
  rw [← flat_abs hn hc, h5, ← Flatten.flat_append] at h3
  obtain ⟨i1, i2⟩ := flat_inv_of L (c := ⟨(R.tryExtend w c.child (Flatten.flatSrc s)).1⟩) hn h1 h3
  exact ⟨i1, h4, i2⟩

end

theorem kept_null (t : Ty) : kept t true = fun n => some (n / 1024 * 1024) := by
  funext n; cases t <;> rfl

theorem countT_null {t : Ty} (h : t.WF) (hk : KeepT (baseL t h)) {m : Nat}
    (hm : m ∣ 1024 ∨ 1024 ∣ m) : CountT m (kept t true) (nullL true (baseL t h)) := by
  rw [kept_null]
  exact ChunkT.count hm (Validity.chunkT hk)

theorem countT_base : (t : Ty) → (h : t.WF) → (w : Nat) → Whole (· = 1) w t →
    CountT w (kept t false) (baseL t h)
  | .bool, _, _, _ => fun _ _ hf _ => by cases hf
  | .prim _, _, w, _ => ExactT.count w (vec_exactT _ _)
  | .fsl n false t, h, w, hs => flatten_countT h.1 (countT_base t h.2 (w * n) hs)
  | .fsl n true t, h, w, hs =>
    flatten_countT h.1 (countT_null h.2 (keepT_base t h.2 hs.2) hs.1)
  | .vsl _ nl t, h, w, _ => ExactT.count w Offsets.exactT

theorem countT_array {nl : Bool} {t : Ty} (h : t.WF) (hs : TrySafe t) :
    CountT 1 (kept t nl) (arrayL nl t h) := by
  cases nl
  · exact countT_base t h 1 hs
  · exact countT_null h (keepT_base t h hs) (.inl (Nat.one_dvd _))

end Narrow
