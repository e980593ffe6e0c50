import Verif.Proof.Layout

/-!
# Fallible constructors do not panic

Not even on sources that go on after their first `None`.
-/

namespace Narrow

/-- No call of `next` panics. -/
def Calm {α : Type} (s : Src α) : Prop := ∀ e ∈ s, e ≠ .panic

theorem Calm.panics {α : Type} : ∀ {s : Src α}, Calm s → s.panics = false
  | [], _ => rfl
  | .none :: _, _ => rfl
  | .panic :: _, h => absurd rfl (h .panic List.mem_cons_self)
  | .item _ :: s, h => Calm.panics (s := s) fun e he => h e (List.mem_cons_of_mem _ he)

theorem packRest_calm : ∀ (k pos : Nat) (byte : Byte) (s : Src Bool) (n : Nat), Calm s →
    ∃ b s' n', packRest k pos byte s n = some (b, s', n') ∧ Calm s'
  | 0, _, byte, s, n, h => ⟨byte, s, n, rfl, h⟩
  | k + 1, pos, byte, [], n, h => by
    simp only [packRest]; exact packRest_calm k _ _ _ _ h
  | k + 1, pos, byte, .none :: s, n, h => by
    simp only [packRest]; exact packRest_calm k _ _ _ _ fun e he => h e (List.mem_cons_of_mem _ he)
  | k + 1, pos, byte, .panic :: s, n, h => absurd rfl (h .panic List.mem_cons_self)
  | k + 1, pos, byte, .item x :: s, n, h => by
    simp only [packRest]; exact packRest_calm k _ _ _ _ fun e he => h e (List.mem_cons_of_mem _ he)

theorem pack_calm (s : Src Bool) (h : Calm s) : (pack s).1.panics = false := by
  induction hn : s.length using Nat.strongRecOn generalizing s with
  | ind n ih =>
  match s, h with
  | [], _ => rw [pack]; rfl
  | .none :: s, _ => rw [pack]; rfl
  | .panic :: s, h => exact absurd rfl (h .panic List.mem_cons_self)
  | .item x :: s, h =>
    obtain ⟨b, s', n', h1, h2⟩ := packRest_calm 7 1 (boolByte x) s 0
      fun e he => h e (List.mem_cons_of_mem _ he)
    have hl := packRest_length h1
    rw [pack]
    split
    · next h' => rw [h1] at h'; cases h'
    · next h' =>
      rw [h1] at h'
      cases h'
      exact ih _ (by rw [← hn]; simp only [List.length_cons]; omega) s' h2 rfl

/-- `try_from_iter_in` does not panic unless the source does. -/
def NoPanicR {O : Type} (R : Realloc O) : Prop :=
  ∀ (w : World) (s : Src O), Calm s → (R.tryFromIter w s).1 ≠ .panic

theorem bitmap_noPanic : NoPanicR bitmapR := fun w s h => by
  have := (RVec.tryFromIter_spec byteMax (pack s).1 w).2 (pack_calm s h)
  show (Bitmap.tryFromIter w s).1 ≠ .panic
  unfold Bitmap.tryFromIter
  split
  · simp
  · simp
  · next heq => rw [heq] at this; simp at this

theorem flatten_noPanic {O : Type} {R : Realloc O} (L : LawfulR R) (n : Nat) :
    NoPanicR (flattenR n R) := fun _ s h h' =>
  L.tryFromIter_np (Flatten.flatSrc_fused s) (by rw [Flatten.panics_flatSrc]; exact h.panics) (wrapTry_panic h')

theorem null_noPanic {O : Type} {R : Realloc O} (L : LawfulR R) (h : NoPanicR R) :
    (nl : Bool) → NoPanicR (nullR nl R)
  | false => h
  | true => fun _ _ hs => Validity.tryFromIter_np hs.panics L

theorem base_noPanic : (t : Ty) → t.WF → NoPanicR (baseR t)
  | .bool, _ => bitmap_noPanic
  | .prim p, _ => fun w s h => (RVec.tryFromIter_spec p.lim s w).2 h.panics
  | .fsl n nl t, h => flatten_noPanic (nullL nl (baseL t h.2)) n
  | .vsl _ nl t, h => fun _ _ hs => Offsets.tryFromIter_np (nullL nl (baseL t h)) hs.panics

theorem array_noPanic (nl : Bool) (t : Ty) (h : t.WF) : NoPanicR (arrayR nl t) :=
  null_noPanic (baseL t h) (base_noPanic t h) nl

end Narrow
