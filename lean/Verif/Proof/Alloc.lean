import Verif.Spec.Alloc
import Verif.Proof.BackendComp

/-! # Collections stay in their allocator -/

namespace Narrow

open Spec

/-- Every collection that is built, or grown from one with `U`, has `U`. `Q` has to
hold for the constructors that choose the allocator themselves, `K` for those that
take one. -/
structure Within {O : Type} (Q K : Prop) (R : Realloc O) (U : R.C → Prop) : Prop where
  empty : Q → U R.empty
  fromIter : ∀ {w w' s c}, Q → R.fromIter w s = (.ok c, w') → U c
  withCap : ∀ {n c}, K → R.withCap n = .ok c → U c
  fromIterIn : ∀ {w w' s c}, K → R.fromIterIn w s = (.ok c, w') → U c
  tryWithCap : ∀ {w w' n c}, K → R.tryWithCap w n = (.ok c, w') → U c
  tryFromIter : ∀ {w w' s c}, K → R.tryFromIter w s = (.ok c, w') → U c
  extend : ∀ {c c' s o}, U c → R.extend c s = (c', o) → U c'
  reserve : ∀ {c c' n o}, U c → R.reserve c n = (c', o) → U c'
  tryReserve : ∀ {w w' c c' n o}, U c → R.tryReserve w c n = (c', o, w') → U c'
  tryExtend : ∀ {w w' c c' s o}, U c → R.tryExtend w c s = (c', o, w') → U c'
  truncate : ∀ {c c' n o}, U c → R.truncate c n = (c', o) → U c'

structure WithinB {α : Type} (Q K : Prop) (B : Backing α) (U : B.C → Prop) : Prop
    extends Within Q K B.toRealloc U where
  write : ∀ {c} l, U c → U (B.write c l)

variable {Q K KB : Prop}

/-! ## Bitmaps -/

namespace BitmapOf

variable {B : Backing Byte} {U : B.C → Prop}

theorem extend_within (h : WithinB Q K B U) {b b' : BitmapOf B.C} {s : Src Bool} {o : Out}
    (hu : U b.buffer) (e : extend B b s = (b', o)) : U b'.buffer := by
  unfold extend at e
  have hw := fun l => h.write (c := b.buffer) l hu
  split at e
  · cases e; exact hw _
  · split at e
    · cases e; exact hw _
    · cases e; exact hw _
    · split at e
      · next heq =>
        have := h.extend (hw _) heq
        split at e <;> (cases e; exact this)
      · next heq => cases e; exact h.extend (hw _) heq

theorem tryExtend_within (h : WithinB Q K B U) {w w' : World} {b b' : BitmapOf B.C} {s : Src Bool} {o : Out}
    (hu : U b.buffer) (e : tryExtend B w b s = (b', o, w')) : U b'.buffer := by
  unfold tryExtend at e
  have hw := fun l => h.write (c := b.buffer) l hu
  split at e
  · cases e; exact hw _
  · split at e
    · cases e; exact hw _
    · cases e; exact hw _
    · split at e
      · next heq => cases e; exact h.tryExtend (hw _) heq
      · next heq => cases e; exact h.tryExtend (hw _) heq
      · next heq =>
        have := h.tryExtend (hw _) heq
        split at e <;> (cases e; exact this)

theorem around_within {bits : Nat} {t : Try B.C} {b : BitmapOf B.C} (h : ∀ c, t = .ok c → U c)
    (e : around bits t = .ok b) : U b.buffer := by
  cases t with
  | ok c => cases e; exact h c rfl
  | err => cases e
  | panic => cases e

theorem reserve_within (h : WithinB Q K B U) {b b' : BitmapOf B.C} {n : Nat} {o : Out}
    (hu : U b.buffer) (e : reserve B b n = (b', o)) : U b'.buffer := by
  unfold reserve at e
  split at e
  · cases e; exact hu
  · split at e
    · cases e; exact h.reserve hu (Prod.ext rfl rfl)
    · cases e; exact hu

theorem tryReserve_within (h : WithinB Q K B U) {w w' : World} {b b' : BitmapOf B.C} {n : Nat} {o : Out}
    (hu : U b.buffer) (e : tryReserve B w b n = (b', o, w')) : U b'.buffer := by
  unfold tryReserve at e
  split at e
  · cases e; exact hu
  · split at e
    · cases e; exact h.tryReserve hu (Prod.ext rfl (Prod.ext rfl rfl))
    · cases e; exact hu

theorem truncate_within {C : Type} {U : C → Prop} {b : BitmapOf C} (n : Nat) (hu : U b.buffer) :
    U (b.truncate n).buffer := by
  unfold truncate
  split <;> exact hu

theorem withCap_within (h : WithinB Q K B U) (hk : K) {n : Nat} {b : BitmapOf B.C} (e : withCap B n = .ok b) :
    U b.buffer :=
  around_within (fun _ hc => h.withCap hk hc) e

theorem tryWithCap_within (h : WithinB Q K B U) (hk : K) {w w' : World} {n : Nat} {b : BitmapOf B.C}
    (e : tryWithCap B w n = (.ok b, w')) : U b.buffer :=
  around_within (fun _ hc => h.tryWithCap hk (Prod.ext hc rfl)) (Prod.mk.inj e).1

theorem allSet_within (h : WithinB Q K B U) (hk : K) {w : World} {n : Nat} {b : BitmapOf B.C}
    (e : (allSet B w n).1 = .ok b) : U b.buffer :=
  around_within (fun _ hc => h.fromIterIn hk (Prod.ext hc rfl)) e

theorem tryAllSet_within (h : WithinB Q K B U) (hk : K) {w w' : World} {n : Nat} {b : BitmapOf B.C}
    (e : tryAllSet B w n = (.ok b, w')) : U b.buffer :=
  around_within (fun _ hc => h.tryFromIter hk (Prod.ext hc rfl)) (Prod.mk.inj e).1

end BitmapOf

open BitmapOf in
theorem bitmap_within {B : Backing Byte} {U : B.C → Prop} (h : WithinB Q K B U) :
    Within Q K (bitmapBR B) fun b => U b.buffer where
  empty hq := h.empty hq
  fromIter hq e := around_within (fun _ hc => h.fromIter hq (Prod.ext hc rfl)) (Prod.mk.inj e).1
  withCap hk e := withCap_within h hk e
  fromIterIn hk e := around_within (fun _ hc => h.fromIterIn hk (Prod.ext hc rfl)) (Prod.mk.inj e).1
  tryWithCap hk e := tryWithCap_within h hk e
  tryFromIter hk e := around_within (fun _ hc => h.tryFromIter hk (Prod.ext hc rfl)) (Prod.mk.inj e).1
  extend hu e := extend_within h hu e
  reserve hu e := reserve_within h hu e
  tryReserve hu e := tryReserve_within h hu e
  tryExtend hu e := tryExtend_within h hu e
  truncate hu e := by cases e; exact truncate_within _ hu

/-! ## Arrays of fixed length -/

theorem Flatten.wrapTry_within {C : Type} {U : C → Prop} {t : Try C} {c : Flatten C}
    (h : ∀ c, t = .ok c → U c) (e : wrapTry t = .ok c) : U c.child := by
  cases t with
  | ok c => cases e; exact h c rfl
  | err => cases e
  | panic => cases e

open Flatten in
theorem flatten_within {O : Type} (n : Nat) {R : Realloc O} {U : R.C → Prop} (h : Within Q K R U) :
    Within Q K (flattenR n R) fun c => U c.child where
  empty hq := h.empty hq
  fromIter hq e := wrapTry_within (fun _ hc => h.fromIter hq (Prod.ext hc rfl)) (Prod.mk.inj e).1
  withCap hk e := by
    dsimp only at e
    split at e
    · cases e
    · exact wrapTry_within (fun _ hc => h.withCap hk hc) e
  fromIterIn hk e := wrapTry_within (fun _ hc => h.fromIterIn hk (Prod.ext hc rfl)) (Prod.mk.inj e).1
  tryWithCap hk e := by
    dsimp only at e
    split at e
    · cases e
    · exact wrapTry_within (fun _ hc => h.tryWithCap hk (Prod.ext hc rfl)) (Prod.mk.inj e).1
  tryFromIter hk e := wrapTry_within (fun _ hc => h.tryFromIter hk (Prod.ext hc rfl)) (Prod.mk.inj e).1
  extend hu e := by cases e; exact h.extend hu (Prod.ext rfl rfl)
  reserve hu e := by
    dsimp only at e
    split at e
    · cases e; exact hu
    · cases e; exact h.reserve hu (Prod.ext rfl rfl)
  tryReserve hu e := by
    dsimp only at e
    split at e
    · cases e; exact hu
    · cases e; exact h.tryReserve hu (Prod.ext rfl (Prod.ext rfl rfl))
  tryExtend hu e := by cases e; exact h.tryExtend hu (Prod.ext rfl (Prod.ext rfl rfl))
  truncate hu e := by
    dsimp only at e
    split at e
    · cases e; exact hu
    · split at e
      · split at e
        · cases e; exact hu
        · cases e; exact h.truncate hu (Prod.ext rfl rfl)
      · cases e; exact hu

/-! ## Nullable collections -/

namespace ValidityOf

variable {O : Type} {B : Backing Byte} {R : Realloc O} {UB : B.C → Prop} {U : R.C → Prop}

/-- Both parts are inside, and so is a bitmap that is still to be made. -/
def Both (UB : B.C → Prop) (U : R.C → Prop) (KB : Prop) (v : Of B R) : Prop :=
  U v.coll ∧ (∀ b, v.bitmap = some b → UB b.buffer) ∧ (v.bitmap = none → KB)

theorem both_some {c : R.C} {b : BitmapOf B.C} (h : U c) (hb : UB b.buffer) :
    Both UB U KB (⟨c, some b⟩ : Of B R) :=
  ⟨h, fun _ e => by cases e; exact hb, fun e => by cases e⟩

theorem materialize_within (hB : WithinB Q KB B UB) {env : World} {v : Of B R} {b : BitmapOf B.C}
    (hu : Both UB U KB v) (e : materialize B R env v = .ok b) : UB b.buffer := by
  unfold materialize at e
  split at e
  · next heq => cases e; exact hu.2.1 _ heq
  · next hn =>
    split at e
    · cases e
    · split at e
      · next heq => cases e; exact BitmapOf.allSet_within hB (hu.2.2 hn) heq
      · cases e

theorem tryMaterialize_within (hB : WithinB Q KB B UB) {w w' : World} {v : Of B R} {b : BitmapOf B.C}
    (hu : Both UB U KB v) (e : tryMaterialize B R w v = (.ok b, w')) : UB b.buffer := by
  unfold tryMaterialize at e
  split at e
  · next heq => cases e; exact hu.2.1 _ heq
  · next hn =>
    split at e
    · cases e
    · exact BitmapOf.tryAllSet_within hB (hu.2.2 hn) e

theorem pushBits_within (hB : WithinB Q KB B UB) : ∀ (l : List Bool) {b b' : BitmapOf B.C} {o : Out},
    UB b.buffer → pushBits B b l = (b', o) → UB b'.buffer
  | [], _, _, _, hu, e => by cases e; exact hu
  | x :: xs, b, b', o, hu, e => by
    unfold pushBits at e
    split at e
    · next heq => exact pushBits_within hB xs (BitmapOf.extend_within hB hu heq) e
    · next heq => cases e; exact BitmapOf.extend_within hB hu heq

theorem extendLoop_within (hB : WithinB Q KB B UB) (h : Within Q K R U) {c : R.C} {b : BitmapOf B.C}
    {s : Src (Option O)} {v' : Of B R} {o : Out} (hu : U c) (hb : UB b.buffer)
    (e : extendLoop B R c b s = (v', o)) : Both UB U KB v' := by
  fun_induction extendLoop B R c b s with
  | case1 c b s c' h1 b' h2 h3 =>
    cases e; exact both_some (h.extend hu h1) (BitmapOf.extend_within hB hb h2)
  | case2 c b s c' h1 b' h2 h3 ih =>
    exact ih (h.extend hu h1) (BitmapOf.extend_within hB hb h2) e
  | case3 c b s c' h1 b' o' h2 h3 =>
    cases e; exact both_some (h.extend hu h1) (BitmapOf.extend_within hB hb h3)
  | case4 c b s c' o' h1 h2 => cases e; exact both_some (h.extend hu h2) hb

theorem extend_within (hB : WithinB Q KB B UB) (h : Within Q K R U) {env : World} {v v' : Of B R}
    {s : Src (Option O)} {o : Out} (hu : Both UB U KB v) (e : extend B R env v s = (v', o)) :
    Both UB U KB v' := by
  unfold extend at e
  split at e
  · cases e; exact hu
  · next heq =>
    have hm := materialize_within hB hu heq
    split at e
    · next ht => exact extendLoop_within hB h (h.truncate hu.1 ht) hm e
    · next ht => cases e; exact both_some (h.truncate hu.1 ht) hm

theorem truncate_within (h : Within Q K R U) {v v' : Of B R} {n : Nat} {o : Out} (hu : Both UB U KB v)
    (e : truncate B R v n = (v', o)) : Both UB U KB v' := by
  cases e
  obtain ⟨c, ob⟩ := v
  refine ⟨h.truncate hu.1 (Prod.ext rfl rfl), fun b hb => ?_, fun hn => ?_⟩
  · cases ob with
    | none => cases hb
    | some b0 =>
      cases hb
      exact BitmapOf.truncate_within (U := UB) n (hu.2.1 b0 rfl)
  · cases ob with
    | none => exact hu.2.2 rfl
    | some b0 => cases hn

theorem rollback_within (h : Within Q K R U) {v v' : Of B R} {n : Nat} {w w' : World} {o : Out}
    (hu : Both UB U KB v) (e : rollback B R v n w = (v', o, w')) : Both UB U KB v' := by
  unfold rollback at e
  split at e
  · next heq => cases e; exact truncate_within h hu heq
  · next heq => cases e; exact truncate_within h hu heq

theorem tryExtendLoop_within (hB : WithinB Q KB B UB) (h : Within Q K R U) {n : Nat} {w w' : World} {c : R.C}
    {b : BitmapOf B.C} {s : Src (Option O)} {v' : Of B R} {o : Out} (hu : U c) (hb : UB b.buffer)
    (e : tryExtendLoop B R n w c b s = (v', o, w')) : Both UB U KB v' := by
  fun_induction tryExtendLoop B R n w c b s with
  | case1 w c b s c' w1 h1 b' w2 h2 h3 =>
    cases e; exact both_some (h.tryExtend hu h1) (BitmapOf.tryExtend_within hB hb h2)
  | case2 w c b s c' w1 h1 b' w2 h2 h3 ih =>
    exact ih (h.tryExtend hu h1) (BitmapOf.tryExtend_within hB hb h2) e
  | case3 w c b s c' w1 h1 b' w2 h2 =>
    exact rollback_within h
      (both_some (h.tryExtend hu h1) (BitmapOf.tryExtend_within hB hb h2)) e
  | case4 w c b s c' w1 h1 b' w2 h2 =>
    cases e; exact both_some (h.tryExtend hu h1) (BitmapOf.tryExtend_within hB hb h2)
  | case5 w c b s c' w1 h1 => exact rollback_within h (both_some (h.tryExtend hu h1) hb) e
  | case6 w c b s c' w1 h1 => cases e; exact both_some (h.tryExtend hu h1) hb

theorem tryExtend_within (hB : WithinB Q KB B UB) (h : Within Q K R U) {w w' : World} {v v' : Of B R}
    {s : Src (Option O)} {o : Out} (hu : Both UB U KB v) (e : tryExtend B R w v s = (v', o, w')) :
    Both UB U KB v' := by
  unfold tryExtend at e
  split at e
  · cases e; exact hu
  · split at e
    · cases e; exact hu
    · cases e; exact hu
    · next heq =>
      have hm := tryMaterialize_within hB hu heq
      split at e
      · next ht => exact tryExtendLoop_within hB h (h.truncate hu.1 ht) hm e
      · next ht => cases e; exact both_some (h.truncate hu.1 ht) hm

theorem reserve_within (hB : WithinB Q KB B UB) (h : Within Q K R U) {env : World} {v v' : Of B R}
    {n : Nat} {o : Out} (hu : Both UB U KB v) (e : reserve B R env v n = (v', o)) : Both UB U KB v' := by
  unfold reserve at e
  split at e
  · cases e; exact hu
  · next heq =>
    have hm := materialize_within hB hu heq
    split at e
    · next hr =>
      cases e
      exact both_some (h.reserve hu.1 (Prod.ext rfl rfl)) (BitmapOf.reserve_within hB hm hr)
    · next hr => cases e; exact both_some hu.1 (BitmapOf.reserve_within hB hm hr)

theorem tryReserve_within (hB : WithinB Q KB B UB) (h : Within Q K R U) {w w' : World} {v v' : Of B R}
    {n : Nat} {o : Out} (hu : Both UB U KB v) (e : tryReserve B R w v n = (v', o, w')) :
    Both UB U KB v' := by
  unfold tryReserve at e
  split at e
  · cases e; exact hu
  · cases e; exact hu
  · next heq =>
    have hm := tryMaterialize_within hB hu heq
    split at e
    · next hr =>
      cases e
      exact both_some (h.tryReserve hu.1 hr)
        (BitmapOf.tryReserve_within hB hm (Prod.ext rfl (Prod.ext rfl rfl)))
    · next hr => cases e; exact both_some (h.tryReserve hu.1 hr) hm

theorem fromIterWith_within (hB : WithinB Q KB B UB) (hk : KB) {mk : World → Src O → Try R.C × World}
    (hmk : ∀ {w w' s c}, mk w s = (.ok c, w') → U c) {w w' : World} {s : Src (Option O)} {v : Of B R}
    (e : fromIterWith B R mk w s = (.ok v, w')) : Both UB U KB v := by
  unfold fromIterWith at e
  split at e
  · next hb =>
    split at e
    · next hc =>
      split at e
      · next hp =>
        cases e
        exact both_some (hmk hc) (pushBits_within hB _ (BitmapOf.withCap_within hB hk hb) hp)
      · cases e
    · cases e
    · cases e
  · cases e

theorem withCap_within (hB : WithinB Q KB B UB) (h : Within Q K R U) (hk : KB ∧ K) {n : Nat} {v : Of B R}
    (e : withCap B R n = .ok v) : Both UB U KB v := by
  unfold withCap at e
  split at e
  · next hc =>
    split at e
    · next hb => cases e; exact both_some (h.withCap hk.2 hc) (BitmapOf.withCap_within hB hk.1 hb)
    · cases e
    · cases e
  · cases e
  · cases e

theorem tryWithCap_within (hB : WithinB Q KB B UB) (h : Within Q K R U) (hk : KB ∧ K) {w w' : World} {n : Nat} {v : Of B R}
    (e : tryWithCap B R w n = (.ok v, w')) : Both UB U KB v := by
  unfold tryWithCap at e
  split at e
  · next hc =>
    split at e
    · next hb => cases e; exact both_some (h.tryWithCap hk.2 hc) (BitmapOf.tryWithCap_within hB hk.1 hb)
    · cases e
    · cases e
  · cases e
  · cases e

theorem tryFromIter_within (hB : WithinB Q KB B UB) (h : Within Q K R U) (hk : KB ∧ K) {w w' : World}
    {s : Src (Option O)} {v : Of B R} (e : tryFromIter B R w s = (.ok v, w')) : Both UB U KB v := by
  unfold tryFromIter at e
  split at e
  · next hc =>
    split at e
    · next hx => cases e; exact tryExtend_within hB h (tryWithCap_within hB h hk hc) hx
    · cases e
    · cases e
  · cases e
  · cases e

end ValidityOf

open ValidityOf in
theorem validity_within {O : Type} (env : World) {B : Backing Byte} {R : Realloc O} {UB : B.C → Prop}
    {U : R.C → Prop} (hB : WithinB Q KB B UB) (h : Within Q K R U) (hQ : Q → KB) :
    Within Q (KB ∧ K) (validityBR env B R) (Both UB U KB) where
  empty hq := ⟨h.empty hq, fun _ e => (by cases e), fun _ => hQ hq⟩
  fromIter hq e := fromIterWith_within hB (hQ hq) (h.fromIter hq) e
  withCap hk e := withCap_within hB h hk e
  fromIterIn hk e := fromIterWith_within hB hk.1 (h.fromIterIn hk.2) e
  tryWithCap hk e := tryWithCap_within hB h hk e
  tryFromIter hk e := tryFromIter_within hB h hk e
  extend hu e := extend_within hB h hu e
  reserve hu e := reserve_within hB h hu e
  tryReserve hu e := tryReserve_within hB h hu e
  tryExtend hu e := tryExtend_within hB h hu e
  truncate hu e := truncate_within h hu e

/-! ## Lists -/

namespace OffsetsIn

variable {O : Type} {ow : OffW} {D : Backing Int} {R : Realloc O} {UD : D.C → Prop} {U : R.C → Prop}

/-- Both parts are inside. -/
def Both (UD : D.C → Prop) (U : R.C → Prop) (c : Of D R) : Prop := U c.data ∧ UD c.offsets

theorem extendLoop_within (hD : WithinB Q KB D UD) (h : Within Q K R U) {data : R.C} {offsets : D.C}
    {p : Int} {s : Src (List O)} {c' : Of D R} {o : Out} (hu : U data) (hd : UD offsets)
    (e : extendLoop ow D R data offsets p s = (c', o)) : Both UD U c' := by
  fun_induction extendLoop ow D R data offsets p s with
  | case1 => cases e; exact ⟨hu, hd⟩
  | case2 => cases e; exact ⟨hu, hd⟩
  | case3 => cases e; exact ⟨hu, hd⟩
  | case4 data offsets p row s hl d1 h1 d2 h2 f1 h3 ih =>
    exact ih (h.extend (h.reserve hu h1) h2) (hD.extend hd h3) e
  | case5 data offsets p row s hl d1 h1 d2 h2 f1 o' h3 h4 =>
    cases e; exact ⟨h.extend (h.reserve hu h1) h2, hD.extend hd h4⟩
  | case6 data offsets p row s hl d1 h1 d2 o' h2 h3 =>
    cases e; exact ⟨h.extend (h.reserve hu h1) h3, hd⟩
  | case7 data offsets p row s hl d1 o' h1 h2 => cases e; exact ⟨h.reserve hu h2, hd⟩
  | case8 => cases e; exact ⟨hu, hd⟩

theorem extend_within (hD : WithinB Q KB D UD) (h : Within Q K R U) {c c' : Of D R} {s : Src (List O)}
    {o : Out} (hu : Both UD U c) (e : extend ow D R c s = (c', o)) : Both UD U c' := by
  unfold extend at e
  split at e
  · cases e; exact hu
  · split at e
    · cases e; exact hu
    · split at e
      · next ht => exact extendLoop_within hD h (h.truncate hu.1 ht) hu.2 e
      · next ht => cases e; exact ⟨h.truncate hu.1 ht, hu.2⟩

theorem rollback_within (hD : WithinB Q KB D UD) (h : Within Q K R U) {data : R.C} {offsets : D.C}
    {n m : Nat} {w w' : World} {c' : Of D R} {o : Out} (hu : U data) (hd : UD offsets)
    (e : rollback D R data offsets n m w = (c', o, w')) : Both UD U c' := by
  unfold rollback at e
  split at e
  · cases e; exact ⟨hu, hd⟩
  · split at e
    · next hf =>
      split at e
      · next ht => cases e; exact ⟨h.truncate hu ht, hD.truncate hd hf⟩
      · next ht => cases e; exact ⟨h.truncate hu ht, hD.truncate hd hf⟩
    · next hf => cases e; exact ⟨hu, hD.truncate hd hf⟩

theorem tryExtendLoop_within (hD : WithinB Q KB D UD) (h : Within Q K R U) {n m : Nat} {w w' : World}
    {data : R.C} {offsets : D.C} {p : Int} {s : Src (List O)} {c' : Of D R} {o : Out} (hu : U data)
    (hd : UD offsets) (e : tryExtendLoop ow D R n m w data offsets p s = (c', o, w')) :
    Both UD U c' := by
  induction s generalizing w data offsets p with
  | nil => cases e; exact ⟨hu, hd⟩
  | cons x s ih =>
    cases x with
    | none => cases e; exact ⟨hu, hd⟩
    | panic => cases e; exact ⟨hu, hd⟩
    | item row =>
      unfold tryExtendLoop at e
      split at e
      · cases e; exact ⟨hu, hd⟩
      · split at e
        · split at e
          · next h1 =>
            split at e
            · next h2 => exact ih (h.tryExtend hu h1) (hD.tryExtend hd h2) e
            · next h2 => exact rollback_within hD h (h.tryExtend hu h1) (hD.tryExtend hd h2) e
            · next h2 => cases e; exact ⟨h.tryExtend hu h1, hD.tryExtend hd h2⟩
          · next h1 => exact rollback_within hD h (h.tryExtend hu h1) hd e
          · next h1 => cases e; exact ⟨h.tryExtend hu h1, hd⟩
        · exact rollback_within hD h hu hd e

theorem tryExtend_within (hD : WithinB Q KB D UD) (h : Within Q K R U) {w w' : World} {c c' : Of D R}
    {s : Src (List O)} {o : Out} (hu : Both UD U c) (e : tryExtend ow D R w c s = (c', o, w')) :
    Both UD U c' := by
  unfold tryExtend at e
  split at e
  · split at e
    · cases e; exact hu
    · split at e
      · next ht => exact tryExtendLoop_within hD h (h.truncate hu.1 ht) hu.2 e
      · next ht => cases e; exact ⟨h.truncate hu.1 ht, hu.2⟩
  · cases e; exact hu

theorem reserve_within (hD : WithinB Q KB D UD) (h : Within Q K R U) {c c' : Of D R} {n : Nat} {o : Out}
    (hu : Both UD U c) (e : reserve D R c n = (c', o)) : Both UD U c' := by
  unfold reserve at e
  split at e
  · next hr => cases e; exact ⟨h.reserve hu.1 hr, hD.reserve hu.2 (Prod.ext rfl rfl)⟩
  · next hr => cases e; exact ⟨h.reserve hu.1 hr, hu.2⟩

theorem tryReserve_within (hD : WithinB Q KB D UD) (h : Within Q K R U) {w w' : World} {c c' : Of D R}
    {n : Nat} {o : Out} (hu : Both UD U c) (e : tryReserve D R w c n = (c', o, w')) :
    Both UD U c' := by
  unfold tryReserve at e
  split at e
  · next hr =>
    cases e; exact ⟨h.tryReserve hu.1 hr, hD.tryReserve hu.2 (Prod.ext rfl (Prod.ext rfl rfl))⟩
  · next hr => cases e; exact ⟨h.tryReserve hu.1 hr, hu.2⟩

theorem truncate_within (hD : WithinB Q KB D UD) (h : Within Q K R U) {c c' : Of D R} {n : Nat} {o : Out}
    (hu : Both UD U c) (e : truncate D R c n = (c', o)) : Both UD U c' := by
  unfold truncate at e
  split at e
  · cases e; exact hu
  · split at e
    · split at e
      · cases e; exact hu
      · split at e
        · cases e; exact hu
        · split at e
          · next ht => cases e; exact ⟨h.truncate hu.1 (Prod.ext rfl rfl), hD.truncate hu.2 ht⟩
          · next ht => cases e; exact ⟨hu.1, hD.truncate hu.2 ht⟩
    · cases e; exact hu

theorem withCap_within (hD : WithinB Q KB D UD) (h : Within Q K R U) (hk : KB ∧ K) {n : Nat} {c : Of D R}
    (e : withCap D R n = .ok c) : Both UD U c := by
  unfold withCap at e
  split at e
  · cases e
  · cases e
  · next hc =>
    split at e
    · cases e
    · split at e
      · cases e
      · cases e
      · next hd =>
        split at e
        · next hx => cases e; exact ⟨h.withCap hk.2 hc, hD.extend (hD.withCap hk.1 hd) hx⟩
        · cases e

theorem empty_within (hD : WithinB Q KB D UD) (h : Within Q K R U) (hq : Q) : Both UD U (empty D R) :=
  ⟨h.empty hq, hD.extend (hD.empty hq) (Prod.ext rfl rfl)⟩

theorem fromIter_within (hD : WithinB Q KB D UD) (h : Within Q K R U) (hq : Q) {s : Src (List O)}
    {c : Of D R} (e : fromIter ow D R s = .ok c) : Both UD U c := by
  unfold fromIter at e
  split at e
  · split at e
    · next hx => cases e; exact extend_within hD h (empty_within hD h hq) hx
    · cases e
  · cases e

theorem fromIterIn_within (hD : WithinB Q KB D UD) (h : Within Q K R U) (hk : KB ∧ K) {w w' : World} {s : Src (List O)}
    {c : Of D R} (e : fromIterIn ow D R w s = (.ok c, w')) : Both UD U c := by
  unfold fromIterIn at e
  split at e
  · next hc =>
    split at e
    · next hx => cases e; exact extend_within hD h (withCap_within hD h hk hc) hx
    · cases e
  · cases e
  · cases e

theorem tryWithCap_within (hD : WithinB Q KB D UD) (h : Within Q K R U) (hk : KB ∧ K) {w w' : World} {n : Nat}
    {c : Of D R} (e : tryWithCap D R w n = (.ok c, w')) : Both UD U c := by
  unfold tryWithCap at e
  split at e
  · cases e
  · split at e
    · cases e
    · cases e
    · next hc =>
      split at e
      · cases e
      · cases e
      · next hd =>
        split at e
        · next hx => cases e; exact ⟨h.tryWithCap hk.2 hc, hD.tryExtend (hD.tryWithCap hk.1 hd) hx⟩
        · cases e
        · cases e

theorem tryFromIter_within (hD : WithinB Q KB D UD) (h : Within Q K R U) (hk : KB ∧ K) {w w' : World}
    {s : Src (List O)} {c : Of D R} (e : tryFromIter ow D R w s = (.ok c, w')) : Both UD U c := by
  unfold tryFromIter at e
  split at e
  · next hc =>
    split at e
    · next hx => cases e; exact tryExtend_within hD h (tryWithCap_within hD h hk hc) hx
    · cases e
    · cases e
  · cases e
  · cases e

end OffsetsIn

open OffsetsIn in
theorem offsets_within {O : Type} (ow : OffW) {D : Backing Int} {R : Realloc O} {UD : D.C → Prop}
    {U : R.C → Prop} (hD : WithinB Q KB D UD) (h : Within Q K R U) :
    Within Q (KB ∧ K) (offsetsBR ow D R) (Both UD U) where
  empty hq := empty_within hD h hq
  fromIter hq e := fromIter_within hD h hq (Prod.mk.inj e).1
  withCap hk e := withCap_within hD h hk e
  fromIterIn hk e := fromIterIn_within hD h hk e
  tryWithCap hk e := tryWithCap_within hD h hk e
  tryFromIter hk e := tryFromIter_within hD h hk e
  extend hu e := extend_within hD h hu e
  reserve hu e := reserve_within hD h hu e
  tryReserve hu e := tryReserve_within hD h hu e
  tryExtend hu e := tryExtend_within hD h hu e
  truncate hu e := truncate_within hD h hu e

/-! ## Newtypes -/

theorem Try.mapOk_same {C : Type} (x : Try C) : x.mapOk (fun c => c) = x := by cases x <;> rfl

theorem newtypeA_eq {A O : Type} (R : AllocR A O) : newtypeA R = R := by
  obtain ⟨K, x1, x2, x3, x4, x5, x6, x7, x8, x9, x10, x11, x12, x13, x14⟩ := R
  have h4 : (fun w s => ((x4 w s).1.mapOk (fun c => c), (x4 w s).2)) = x4 :=
    funext fun w => funext fun s => Prod.ext (Try.mapOk_same _) rfl
  have h11 : (fun a n => (x11 a n).mapOk (fun c => c)) = x11 :=
    funext fun a => funext fun n => Try.mapOk_same _
  have h12 : (fun a w s => ((x12 a w s).1.mapOk (fun c => c), (x12 a w s).2)) = x12 :=
    funext fun a => funext fun w => funext fun s => Prod.ext (Try.mapOk_same _) rfl
  have h13 : (fun a w s => ((x13 a w s).1.mapOk (fun c => c), (x13 a w s).2)) = x13 :=
    funext fun a => funext fun w => funext fun s => Prod.ext (Try.mapOk_same _) rfl
  have h14 : (fun a w s => ((x14 a w s).1.mapOk (fun c => c), (x14 a w s).2)) = x14 :=
    funext fun a => funext fun w => funext fun s => Prod.ext (Try.mapOk_same _) rfl
  change AllocR.mk K x1 x2 x3 (fun w s => ((x4 w s).1.mapOk (fun c => c), (x4 w s).2)) x5 x6 x7
    x8 x9 x10 (fun a n => (x11 a n).mapOk (fun c => c))
    (fun a w s => ((x12 a w s).1.mapOk (fun c => c), (x12 a w s).2))
    (fun a w s => ((x13 a w s).1.mapOk (fun c => c), (x13 a w s).2))
    (fun a w s => ((x14 a w s).1.mapOk (fun c => c), (x14 a w s).2)) = _
  rw [h4, h11, h12, h13, h14]

theorem newtype_grows {A O : Type} {R : AllocR A O} {a : A} {L : LawfulColl R.toColl}
    (h : Grows (R.given a) L) : Grows ((newtypeA R).given a) L := by
  have key : ∀ (R' : AllocR A O), R' = R → ∀ L' : LawfulColl R'.toColl, HEq L' L →
      Grows (R'.given a) L' := by
    intro R' e L' hL
    subst e
    cases hL
    exact h
  exact key _ (newtypeA_eq R) L HEq.rfl

theorem newtype_within {A O : Type} {R : AllocR A O} {a : A} {U : R.C → Prop}
    (h : Within Q K (R.given a) U) : Within Q K ((newtypeA R).given a) U := by
  have key : ∀ (R' : AllocR A O), R' = R → ∀ U' : R'.C → Prop, HEq U' U →
      Within Q K (R'.given a) U' := by
    intro R' e U' hU
    subst e
    cases hU
    exact h
  exact key _ (newtypeA_eq R) U HEq.rfl

/-! ## Compositions -/

section
variable {A : Type} {d : A}

theorem LawfulR.grows {O : Type} {R : Realloc O} (L : LawfulR R) : Grows R L.toLawfulColl where
  empty_ok := ⟨L.empty_ok.1, L.empty_ok.2.1⟩
  pulled_fused := L.pulled_fused
  pulled_map := L.pulled_map
  fromIter_any := L.fromIter_any
  fromIterIn_any := L.fromIterIn_any
  tryFromIter_any := L.tryFromIter_any
  withCap_ok h := ⟨(L.withCap_ok h).1, (L.withCap_ok h).2.1⟩
  withCap_ne := L.withCap_ne
  fromIter_ok f h := let r := L.fromIter_ok f h; ⟨r.1, r.2.1, r.2.2.1⟩
  fromIter_ne := L.fromIter_ne
  fromIterIn_ok f h := let r := L.fromIterIn_ok f h; ⟨r.1, r.2.1, r.2.2.1⟩
  fromIterIn_ne := L.fromIterIn_ne
  tryWithCap_ok h := ⟨(L.tryWithCap_ok h).1, (L.tryWithCap_ok h).2.1⟩
  tryWithCap_np := L.tryWithCap_np
  tryFromIter_ok f h := let r := L.tryFromIter_ok f h; ⟨r.1, r.2.1, r.2.2.1⟩
  tryFromIter_np := L.tryFromIter_np
  ext_ok := L.ext_ok
  ext_ne := L.ext_ne
  ext_fuse := L.ext_fuse
  reserve_ok h e := let r := L.reserve_ok h e; ⟨r.1, r.2.1, r.2.2.1⟩
  tryReserve_ok h e := let r := L.tryReserve_ok h e; ⟨r.1, r.2.1, r.2.2.1⟩
  tryExt_ok := L.tryExt_ok
  tryExt_err := L.tryExt_err
  tryExt_np := L.tryExt_np
  tryExt_fuse := L.tryExt_fuse
  trunc_ok n h := let ⟨c', h1, h2, h3, _⟩ := L.trunc_ok n h; ⟨c', h1, h2, h3⟩

/-- The laws of reading a composition. -/
@[reducible] def acompL (d : A) : {O : Type} → (k : AComp A O) → ASound d k → LawfulColl (acompR d k).toColl
  | _, .leaf _ _ _, h => honoursC (h.1 d)
  | _, .bitmap _ _, h => bitmapBL (honoursB (h.1 d))
  | _, .flatten n hn k, h => flattenCL (acompL d k h) n hn
  | _, .validity _ _ _ k, h => validityBL (bitmapBL (honoursB (h.1 d))) (acompL d k h.2.2)
  | _, .offsets _ D _ k, h =>
    offsetsBL (D := D.toBuf) (honoursB (h.1 d)).toLawfulColl (acompL d k h.2.2.2)
  | _, .newtype k, h => acompL d k h

theorem acompG (d : A) : {O : Type} → (k : AComp A O) → (h : ASound d k) → ∀ a,
    Grows ((acompR d k).given a) (acompL d k h)
  | _, .leaf _ _ _, h, a => honoursG (h.1 a)
  | _, .bitmap B _, h, a =>
    have G := fun b => bitmapBG (honoursB (h.1 b))
    { empty_ok := (G d).empty_ok
      pulled_fused := (G d).pulled_fused
      pulled_map := (G d).pulled_map
      fromIter_any := (G d).fromIter_any
      fromIterIn_any := (G a).fromIterIn_any
      tryFromIter_any := (G a).tryFromIter_any
      withCap_ok := (G a).withCap_ok
      withCap_ne := (G a).withCap_ne
      fromIter_ok := (G d).fromIter_ok
      fromIter_ne := (G d).fromIter_ne
      fromIterIn_ok := (G a).fromIterIn_ok
      fromIterIn_ne := (G a).fromIterIn_ne
      tryWithCap_ok := (G a).tryWithCap_ok
      tryWithCap_np := (G a).tryWithCap_np
      tryFromIter_ok := (G a).tryFromIter_ok
      tryFromIter_np := (G a).tryFromIter_np
      ext_ok := fun {c _ _} => (G (B.allocator c.buffer)).ext_ok
      ext_ne := fun {c} => (G (B.allocator c.buffer)).ext_ne
      ext_fuse := fun c => (G (B.allocator c.buffer)).ext_fuse c
      reserve_ok := fun {c _ _ _} => (G (B.allocator c.buffer)).reserve_ok
      tryReserve_ok := fun {_ _ c _ _ _} => (G (B.allocator c.buffer)).tryReserve_ok
      tryExt_ok := fun {_ _ c _ _} => (G (B.allocator c.buffer)).tryExt_ok
      tryExt_err := fun {_ _ c _ _} => (G (B.allocator c.buffer)).tryExt_err
      tryExt_np := fun {_ c _} => (G (B.allocator c.buffer)).tryExt_np
      tryExt_fuse := fun w c => (G (B.allocator c.buffer)).tryExt_fuse w c
      trunc_ok := (G d).trunc_ok }
  | _, .flatten n hn k, h, a =>
    have G := fun b => (flattenL (acompG d k h b).lawful n hn).grows
    { empty_ok := (G d).empty_ok
      pulled_fused := (G d).pulled_fused
      pulled_map := (G d).pulled_map
      fromIter_any := (G d).fromIter_any
      fromIterIn_any := (G a).fromIterIn_any
      tryFromIter_any := (G a).tryFromIter_any
      withCap_ok := (G a).withCap_ok
      withCap_ne := (G a).withCap_ne
      fromIter_ok := (G d).fromIter_ok
      fromIter_ne := (G d).fromIter_ne
      fromIterIn_ok := (G a).fromIterIn_ok
      fromIterIn_ne := (G a).fromIterIn_ne
      tryWithCap_ok := (G a).tryWithCap_ok
      tryWithCap_np := (G a).tryWithCap_np
      tryFromIter_ok := (G a).tryFromIter_ok
      tryFromIter_np := (G a).tryFromIter_np
      ext_ok := fun {c _ _} => (G ((acompR d k).allocator c.child)).ext_ok
      ext_ne := fun {c} => (G ((acompR d k).allocator c.child)).ext_ne
      ext_fuse := fun c => (G ((acompR d k).allocator c.child)).ext_fuse c
      reserve_ok := fun {c _ _ _} => (G ((acompR d k).allocator c.child)).reserve_ok
      tryReserve_ok := fun {_ _ c _ _ _} => (G ((acompR d k).allocator c.child)).tryReserve_ok
      tryExt_ok := fun {_ _ c _ _} => (G ((acompR d k).allocator c.child)).tryExt_ok
      tryExt_err := fun {_ _ c _ _} => (G ((acompR d k).allocator c.child)).tryExt_err
      tryExt_np := fun {_ c _} => (G ((acompR d k).allocator c.child)).tryExt_np
      tryExt_fuse := fun w c => (G ((acompR d k).allocator c.child)).tryExt_fuse w c
      trunc_ok := fun {c} => (G ((acompR d k).allocator c.child)).trunc_ok }
  | _, .validity env _ _ k, h, a =>
    have G := fun b => validityBG env (honoursB (h.1 b)) (acompG d k h.2.2 b).lawful
    { empty_ok := (G d).empty_ok
      pulled_fused := (G d).pulled_fused
      pulled_map := (G d).pulled_map
      fromIter_any := (G d).fromIter_any
      fromIterIn_any := (G a).fromIterIn_any
      tryFromIter_any := (G a).tryFromIter_any
      withCap_ok := (G a).withCap_ok
      withCap_ne := (G a).withCap_ne
      fromIter_ok := (G d).fromIter_ok
      fromIter_ne := (G d).fromIter_ne
      fromIterIn_ok := (G a).fromIterIn_ok
      fromIterIn_ne := (G a).fromIterIn_ne
      tryWithCap_ok := (G a).tryWithCap_ok
      tryWithCap_np := (G a).tryWithCap_np
      tryFromIter_ok := (G a).tryFromIter_ok
      tryFromIter_np := (G a).tryFromIter_np
      ext_ok := fun {c _ _} => (G ((acompR d k).allocator c.coll)).ext_ok
      ext_ne := fun {c} => (G ((acompR d k).allocator c.coll)).ext_ne
      ext_fuse := fun c => (G ((acompR d k).allocator c.coll)).ext_fuse c
      reserve_ok := fun {c _ _ _} => (G ((acompR d k).allocator c.coll)).reserve_ok
      tryReserve_ok := fun {_ _ c _ _ _} => (G ((acompR d k).allocator c.coll)).tryReserve_ok
      tryExt_ok := fun {_ _ c _ _} => (G ((acompR d k).allocator c.coll)).tryExt_ok
      tryExt_err := fun {_ _ c _ _} => (G ((acompR d k).allocator c.coll)).tryExt_err
      tryExt_np := fun {_ c _} => (G ((acompR d k).allocator c.coll)).tryExt_np
      tryExt_fuse := fun w c => (G ((acompR d k).allocator c.coll)).tryExt_fuse w c
      trunc_ok := fun {c} => (G ((acompR d k).allocator c.coll)).trunc_ok }
  | _, .offsets ow D _ k, h, a =>
    have G := fun e b => offsetsBG ow (honoursB (h.1 e)) (acompG d k h.2.2.2 b).lawful h.2.2.1
    { empty_ok := (G d d).empty_ok
      pulled_fused := (G d d).pulled_fused
      pulled_map := (G d d).pulled_map
      fromIter_any := (G d d).fromIter_any
      fromIterIn_any := (G a a).fromIterIn_any
      tryFromIter_any := (G a a).tryFromIter_any
      withCap_ok := (G a a).withCap_ok
      withCap_ne := (G a a).withCap_ne
      fromIter_ok := (G d d).fromIter_ok
      fromIter_ne := (G d d).fromIter_ne
      fromIterIn_ok := (G a a).fromIterIn_ok
      fromIterIn_ne := (G a a).fromIterIn_ne
      tryWithCap_ok := (G a a).tryWithCap_ok
      tryWithCap_np := (G a a).tryWithCap_np
      tryFromIter_ok := (G a a).tryFromIter_ok
      tryFromIter_np := (G a a).tryFromIter_np
      ext_ok := fun {c _ _} => (G (D.allocator c.offsets) ((acompR d k).allocator c.data)).ext_ok
      ext_ne := fun {c} => (G (D.allocator c.offsets) ((acompR d k).allocator c.data)).ext_ne
      ext_fuse := fun c => (G (D.allocator c.offsets) ((acompR d k).allocator c.data)).ext_fuse c
      reserve_ok := fun {c _ _ _} => (G (D.allocator c.offsets) ((acompR d k).allocator c.data)).reserve_ok
      tryReserve_ok := fun {_ _ c _ _ _} =>
        (G (D.allocator c.offsets) ((acompR d k).allocator c.data)).tryReserve_ok
      tryExt_ok := fun {_ _ c _ _} => (G (D.allocator c.offsets) ((acompR d k).allocator c.data)).tryExt_ok
      tryExt_err := fun {_ _ c _ _} => (G (D.allocator c.offsets) ((acompR d k).allocator c.data)).tryExt_err
      tryExt_np := fun {_ c _} => (G (D.allocator c.offsets) ((acompR d k).allocator c.data)).tryExt_np
      tryExt_fuse := fun w c => (G (D.allocator c.offsets) ((acompR d k).allocator c.data)).tryExt_fuse w c
      trunc_ok := fun {c} => (G (D.allocator c.offsets) ((acompR d k).allocator c.data)).trunc_ok }
  | _, .newtype k, h, a => newtype_grows (acompG d k h a)

theorem keeps_within {α : Type} {R : AllocR A α} (h : Keeps d R) (a x : A) :
    Within (d = x) (a = x) (R.given a) fun c => R.allocator c = x where
  empty hq := h.empty.trans hq
  fromIter hq e := (h.fromIter e).trans hq
  withCap hk e := (h.withCapIn e).trans hk
  fromIterIn hk e := (h.fromIterIn e).trans hk
  tryWithCap hk e := (h.tryWithCapIn e).trans hk
  tryFromIter hk e := (h.tryFromIterIn e).trans hk
  extend {c _ s _} hu e := by
    have := h.extend c s
    rw [show R.extend c s = _ from e] at this
    exact this.trans hu
  reserve {c _ n _} hu e := by
    have := h.reserve c n
    rw [show R.reserve c n = _ from e] at this
    exact this.trans hu
  tryReserve {w _ c _ n _} hu e := by
    have := h.tryReserve w c n
    rw [show R.tryReserve w c n = _ from e] at this
    exact this.trans hu
  tryExtend {w _ c _ s _} hu e := by
    have := h.tryExtend w c s
    rw [show R.tryExtend w c s = _ from e] at this
    exact this.trans hu
  truncate {c _ n _} hu e := by
    have := h.truncate c n
    rw [show R.truncate c n = _ from e] at this
    exact this.trans hu

theorem keeps_withinB {α : Type} {B : AllocB A α} (h : KeepsBuf d B) (a x : A) :
    WithinB (d = x) (a = x) (B.given a) fun c => B.allocator c = x where
  toWithin := keeps_within h.toKeeps a x
  write {c} l hu := (h.write c l).trans hu

/-- The number of storages. -/
def asize : {O : Type} → AComp A O → Nat
  | _, .leaf _ _ _ => 1
  | _, .bitmap _ _ => 1
  | _, .flatten _ _ k => asize k
  | _, .validity _ _ _ k => asize k + 1
  | _, .offsets _ _ _ k => asize k + 1
  | _, .newtype k => asize k

theorem places_head : {O : Type} → (k : AComp A O) → (c : (acompR d k).C) →
    ∃ l, places d k c = (acompR d k).allocator c :: l
  | _, .leaf _ _ _, _ => ⟨_, rfl⟩
  | _, .bitmap _ _, _ => ⟨_, rfl⟩
  | _, .flatten _ _ k, c => places_head k c.child
  | _, .validity _ _ _ k, v => by
    obtain ⟨l, h⟩ := places_head k v.coll
    exact ⟨_, by simp only [places]; rw [h]; rfl⟩
  | _, .offsets _ _ _ k, c => by
    obtain ⟨l, h⟩ := places_head k c.data
    exact ⟨_, by simp only [places]; rw [h]; rfl⟩
  | _, .newtype k, c => places_head k c

theorem snoc_inj {α : Type} {l p : List α} {x y : α} : l ++ [y] = p ++ [x] ↔ l = p ∧ y = x := by
  constructor
  · intro h
    have := List.append_inj' h rfl
    exact ⟨this.1, by simpa using this.2⟩
  · rintro ⟨rfl, rfl⟩; rfl

/-- Where the storages of a nullable collection are. -/
theorem places_validity {O : Type} {env : World} {B : AllocB A Byte} {Good : B.C → Prop}
    {k : AComp A O} {v : (acompR d (.validity env B Good k)).C} {p : List A} {x : A} :
    places d (.validity env B Good k) v = p ++ [x] ↔
      places d k v.coll = p ∧ (∀ b, v.bitmap = some b → B.allocator b.buffer = x) ∧
        (v.bitmap = none → (acompR d k).allocator v.coll = x) := by
  obtain ⟨c, ob⟩ := v
  obtain ⟨l, h⟩ := places_head k c
  simp only [places]
  cases ob with
  | some b =>
    dsimp only
    rw [snoc_inj]
    exact ⟨fun ⟨h1, h2⟩ => ⟨h1, fun _ e => (by cases e; exact h2), fun e => (by cases e)⟩,
      fun ⟨h1, h2, _⟩ => ⟨h1, h2 b rfl⟩⟩
  | none =>
    dsimp only
    rw [show (places d k c).take 1 = [(acompR d k).allocator c] by rw [h]; rfl, snoc_inj]
    exact ⟨fun ⟨h1, h2⟩ => ⟨h1, fun _ e => (by cases e), fun _ => h2⟩, fun ⟨h1, _, h2⟩ => ⟨h1, h2 rfl⟩⟩

theorem places_length : {O : Type} → (k : AComp A O) → (c : (acompR d k).C) →
    (places d k c).length = asize k
  | _, .leaf _ _ _, _ => rfl
  | _, .bitmap _ _, _ => rfl
  | _, .flatten _ _ k, c => places_length k c.child
  | _, .validity _ _ _ k, v => by
    obtain ⟨c, ob⟩ := v
    obtain ⟨l, h⟩ := places_head k c
    have := places_length k c
    simp only [places, asize, List.length_append, this]
    cases ob <;> simp [h]
  | _, .offsets _ _ _ k, c => by
    simp [places, asize, places_length k c.data]
  | _, .newtype k, c => places_length k c

/-- The places of a fresh collection. -/
abbrev AtOnce (k : AComp A O) (a : A) (p : List A) : Prop := List.replicate (asize k) a = p

theorem replicate_snoc {α : Type} {n : Nat} {a x : α} {p : List α} :
    List.replicate (n + 1) a = p ++ [x] ↔ List.replicate n a = p ∧ a = x := by
  rw [List.replicate_succ', snoc_inj]

theorem flatten_places {O : Type} {n : Nat} {h : 0 < n} {k : AComp A O} {p : List A}
    (ih : ∀ a, Within (AtOnce k d p) (AtOnce k a p) ((acompR d k).given a) fun c => places d k c = p) (a : A) :
    Within (AtOnce k d p) (AtOnce k a p) ((acompR d (.flatten n h k)).given a)
      fun c => places d (.flatten n h k) c = p :=
  have G := fun b => flatten_within n (ih b)
  { empty := (G d).empty
    fromIter := (G d).fromIter
    withCap := (G a).withCap
    fromIterIn := (G a).fromIterIn
    tryWithCap := (G a).tryWithCap
    tryFromIter := (G a).tryFromIter
    extend := fun {c _ _ _} => (G ((acompR d k).allocator c.child)).extend
    reserve := fun {c _ _ _} => (G ((acompR d k).allocator c.child)).reserve
    tryReserve := fun {_ _ c _ _ _} => (G ((acompR d k).allocator c.child)).tryReserve
    tryExtend := fun {_ _ c _ _ _} => (G ((acompR d k).allocator c.child)).tryExtend
    truncate := fun {c _ _ _} => (G ((acompR d k).allocator c.child)).truncate }

theorem bitmap_places {B : AllocB A Byte} {Good : B.C → Prop} (h : KeepsBuf d B) (a x : A) :
    Within (d = x) (a = x) ((acompR d (.bitmap B Good)).given a) fun c => B.allocator c.buffer = x :=
  have G := fun b => bitmap_within (keeps_withinB h b x)
  { empty := (G d).empty
    fromIter := (G d).fromIter
    withCap := (G a).withCap
    fromIterIn := (G a).fromIterIn
    tryWithCap := (G a).tryWithCap
    tryFromIter := (G a).tryFromIter
    extend := fun {c _ _ _} => (G (B.allocator c.buffer)).extend
    reserve := fun {c _ _ _} => (G (B.allocator c.buffer)).reserve
    tryReserve := fun {_ _ c _ _ _} => (G (B.allocator c.buffer)).tryReserve
    tryExtend := fun {_ _ c _ _ _} => (G (B.allocator c.buffer)).tryExtend
    truncate := fun {c _ _ _} => (G (B.allocator c.buffer)).truncate }

theorem Within.mono {O : Type} {Q Q' K K' : Prop} {R : Realloc O} {U : R.C → Prop} (h : Within Q K R U)
    (hq : Q' → Q) (hk : K' → K) : Within Q' K' R U :=
  { h with
    empty := fun x => h.empty (hq x)
    fromIter := fun x => h.fromIter (hq x)
    withCap := fun x => h.withCap (hk x)
    fromIterIn := fun x => h.fromIterIn (hk x)
    tryWithCap := fun x => h.tryWithCap (hk x)
    tryFromIter := fun x => h.tryFromIter (hk x) }

theorem WithinB.mono {α : Type} {Q Q' K K' : Prop} {B : Backing α} {U : B.C → Prop} (h : WithinB Q K B U)
    (hq : Q' → Q) (hk : K' → K) : WithinB Q' K' B U :=
  { h.toWithin.mono hq hk with write := h.write }

theorem atOnce_head {O : Type} {k : AComp A O} {a : A} {c : (acompR d k).C}
    (h : AtOnce k a (places d k c)) : (acompR d k).allocator c = a := by
  obtain ⟨l, hl⟩ := places_head k c
  unfold AtOnce at h
  rw [hl] at h
  exact (List.eq_of_mem_replicate (h ▸ List.mem_cons_self))

theorem same_head {O : Type} {k : AComp A O} {c c' : (acompR d k).C}
    (h : places d k c' = places d k c) : (acompR d k).allocator c' = (acompR d k).allocator c := by
  obtain ⟨l, hl⟩ := places_head k c
  obtain ⟨l', hl'⟩ := places_head k c'
  rw [hl, hl'] at h
  exact (List.cons.inj h).1

theorem validity_places {O : Type} {env : World} {B : AllocB A Byte} {Good : B.C → Prop} {k : AComp A O}
    {p : List A} {x : A} (h : KeepsBuf d B)
    (ih : ∀ a, Within (AtOnce k d p) (AtOnce k a p) ((acompR d k).given a) fun c => places d k c = p) (a : A) :
    Within (AtOnce (.validity env B Good k) d (p ++ [x])) (AtOnce (.validity env B Good k) a (p ++ [x]))
      ((acompR d (.validity env B Good k)).given a)
      fun c => places d (.validity env B Good k) c = p ++ [x] := by
  have G0 := validity_within env ((keeps_withinB h d x).mono And.right id)
    ((ih d).mono (And.left (b := d = x)) id) And.right
  have G := fun b => validity_within env ((keeps_withinB h b x).mono False.elim id)
    ((ih b).mono False.elim id) False.elim
  have fresh : ∀ {b} {v : (acompR d (.validity env B Good k)).C}, AtOnce k b p →
      ValidityOf.Both (B := B.given b) (R := (acompR d k).given b)
        (fun c => B.allocator c = x) (fun c => places d k c = p) (b = x) v →
      places d (.validity env B Good k) v = p ++ [x] := by
    intro b v hb hv
    refine places_validity.mpr ⟨hv.1, hv.2.1, fun hn => ?_⟩
    rw [← hv.2.2 hn]
    exact atOnce_head (by rw [hv.1]; exact hb)
  have into : ∀ {v : (acompR d (.validity env B Good k)).C},
      places d (.validity env B Good k) v = p ++ [x] →
      ValidityOf.Both (B := B.given ((acompR d k).allocator v.coll))
        (R := (acompR d k).given ((acompR d k).allocator v.coll))
        (fun c => B.allocator c = x) (fun c => places d k c = p) ((acompR d k).allocator v.coll = x) v :=
    fun hv => places_validity.mp hv
  have back : ∀ {v v' : (acompR d (.validity env B Good k)).C},
      places d (.validity env B Good k) v = p ++ [x] →
      ValidityOf.Both (B := B.given ((acompR d k).allocator v.coll))
        (R := (acompR d k).given ((acompR d k).allocator v.coll))
        (fun c => B.allocator c = x) (fun c => places d k c = p) ((acompR d k).allocator v.coll = x) v' →
      places d (.validity env B Good k) v' = p ++ [x] := by
    intro v v' hv hv'
    refine places_validity.mpr ⟨hv'.1, hv'.2.1, fun hn => ?_⟩
    rw [← hv'.2.2 hn]
    exact same_head (hv'.1.trans (places_validity.mp hv).1.symm)
  have once : ∀ {b}, AtOnce (.validity env B Good k) b (p ++ [x]) → AtOnce k b p ∧ b = x :=
    fun hb => replicate_snoc.mp hb
  exact
    { empty := fun hq => fresh (once hq).1 (G0.empty (once hq))
      fromIter := fun hq e => fresh (once hq).1 (G0.fromIter (once hq) e)
      withCap := fun hk e => fresh (once hk).1 ((G a).withCap (once hk).symm e)
      fromIterIn := fun hk e => fresh (once hk).1 ((G a).fromIterIn (once hk).symm e)
      tryWithCap := fun hk e => fresh (once hk).1 ((G a).tryWithCap (once hk).symm e)
      tryFromIter := fun hk e => fresh (once hk).1 ((G a).tryFromIter (once hk).symm e)
      extend := fun hv e => back hv ((G _).extend (into hv) e)
      reserve := fun hv e => back hv ((G _).reserve (into hv) e)
      tryReserve := fun hv e => back hv ((G _).tryReserve (into hv) e)
      tryExtend := fun hv e => back hv ((G _).tryExtend (into hv) e)
      truncate := fun hv e => back hv ((G _).truncate (into hv) e) }

theorem offsets_places {O : Type} {ow : OffW} {D : AllocB A Int} {Good : D.C → Prop} {k : AComp A O}
    {p : List A} {x : A} (h : KeepsBuf d D)
    (ih : ∀ a, Within (AtOnce k d p) (AtOnce k a p) ((acompR d k).given a) fun c => places d k c = p) (a : A) :
    Within (AtOnce (.offsets ow D Good k) d (p ++ [x])) (AtOnce (.offsets ow D Good k) a (p ++ [x]))
      ((acompR d (.offsets ow D Good k)).given a)
      fun c => places d (.offsets ow D Good k) c = p ++ [x] := by
  have G := fun e b => offsets_within ow ((keeps_withinB h e x).mono And.right id)
    ((ih b).mono (And.left (b := d = x)) id)
  have once : ∀ {b}, AtOnce (.offsets ow D Good k) b (p ++ [x]) → AtOnce k b p ∧ b = x :=
    fun hb => replicate_snoc.mp hb
  have iff : ∀ {c : (acompR d (.offsets ow D Good k)).C},
      places d (.offsets ow D Good k) c = p ++ [x] ↔ places d k c.data = p ∧ D.allocator c.offsets = x :=
    snoc_inj
  exact
    { empty := fun hq => iff.mpr ((G d d).empty (once hq))
      fromIter := fun hq e => iff.mpr ((G d d).fromIter (once hq) e)
      withCap := fun hk e => iff.mpr ((G a a).withCap (once hk).symm e)
      fromIterIn := fun hk e => iff.mpr ((G a a).fromIterIn (once hk).symm e)
      tryWithCap := fun hk e => iff.mpr ((G a a).tryWithCap (once hk).symm e)
      tryFromIter := fun hk e => iff.mpr ((G a a).tryFromIter (once hk).symm e)
      extend := fun hv e => iff.mpr ((G _ _).extend (iff.mp hv) e)
      reserve := fun hv e => iff.mpr ((G _ _).reserve (iff.mp hv) e)
      tryReserve := fun hv e => iff.mpr ((G _ _).tryReserve (iff.mp hv) e)
      tryExtend := fun hv e => iff.mpr ((G _ _).tryExtend (iff.mp hv) e)
      truncate := fun hv e => iff.mpr ((G _ _).truncate (iff.mp hv) e) }

theorem snoc_of {α : Type} {l : List α} {n : Nat} (h : l.length = n + 1) : ∃ p x, l = p ++ [x] :=
  ⟨l.dropLast, l.getLast (by rintro rfl; simp at h), (List.dropLast_concat_getLast _).symm⟩

theorem one_of {α : Type} {l : List α} (h : l.length = 1) : ∃ x, l = [x] := List.length_eq_one_iff.mp h

theorem acomp_places : {O : Type} → (k : AComp A O) → ASound d k → ∀ {p : List A}, p.length = asize k →
    ∀ a, Within (AtOnce k d p) (AtOnce k a p) ((acompR d k).given a) fun c => places d k c = p
  | _, .leaf R Good held, h, p, hp, a => by
    obtain ⟨x, rfl⟩ := one_of hp
    have G := (keeps_within h.2 a x).mono (Q' := AtOnce (.leaf R Good held) d [x])
      (K' := AtOnce (.leaf R Good held) a [x]) (fun e => (List.cons.inj e).1) (fun e => (List.cons.inj e).1)
    have iff : ∀ {c : R.C}, places d (.leaf R Good held) c = [x] ↔ R.allocator c = x := by
      intro c; simp [places]
    simpa only [iff] using G
  | _, .bitmap B Good, h, p, hp, a => by
    obtain ⟨x, rfl⟩ := one_of hp
    have G := (bitmap_places (Good := Good) h.2 a x).mono (Q' := AtOnce (.bitmap B Good) d [x])
      (K' := AtOnce (.bitmap B Good) a [x]) (fun e => (List.cons.inj e).1) (fun e => (List.cons.inj e).1)
    have iff : ∀ {c : BitmapOf B.C}, places d (.bitmap B Good) c = [x] ↔ B.allocator c.buffer = x := by
      intro c; simp [places]
    simpa only [iff] using G
  | _, .flatten n hn k, h, _, hp, a => flatten_places (h := hn) (acomp_places k h hp) a
  | _, .validity env B Good k, h, p, hp, a => by
    obtain ⟨q, x, rfl⟩ := snoc_of hp
    exact validity_places h.2.1 (acomp_places k h.2.2 (by simpa [asize] using hp)) a
  | _, .offsets ow D Good k, h, p, hp, a => by
    obtain ⟨q, x, rfl⟩ := snoc_of hp
    exact offsets_places h.2.1 (acomp_places k h.2.2.2 (by simpa [asize] using hp)) a
  | _, .newtype k, h, _, hp, a => newtype_within (acomp_places k h hp a)

/-- The calls on a collection leave every storage where it is. -/
theorem acomp_stays {O : Type} {k : AComp A O} (hs : ASound d k) (c : (acompR d k).C) :
    Within (AtOnce k d (places d k c)) (AtOnce k d (places d k c)) ((acompR d k).given d)
      fun c' => places d k c' = places d k c :=
  acomp_places k hs (places_length k c) d

/-- The constructors put every storage where they are told to. -/
theorem acomp_fresh {O : Type} {k : AComp A O} (hs : ASound d k) (a : A) :
    Within (d = a) True ((acompR d k).given a) fun c => places d k c = List.replicate (asize k) a :=
  (acomp_places k hs (List.length_replicate) a).mono (fun e => by subst e; rfl) (fun _ => rfl)

theorem at_of {α : Type} {P : α → Prop} {l : List α} {n : Nat} {a : α} (h : l = List.replicate n a)
    (ha : P a) : ∀ x ∈ l, P x := by
  subst h
  intro x hx
  rw [List.eq_of_mem_replicate hx]
  exact ha

theorem amade_places {P : A → Prop} {O : Type} {k : AComp A O} {c : (acompR d k).C}
    (h : AMade d P k c) : ASound d k → ∀ x ∈ places d k c, P x := by
  induction h with
  | empty hd => intro hs; exact at_of ((acomp_fresh hs d).empty rfl) hd
  | fromIter hd e => intro hs; exact at_of ((acomp_fresh hs d).fromIter rfl e) hd
  | withCapacity hd e => intro hs; exact at_of ((acomp_fresh hs d).withCap trivial e) hd
  | withCapIn ha e => intro hs; exact at_of ((acomp_fresh hs _).withCap trivial e) ha
  | fromIterIn ha e => intro hs; exact at_of ((acomp_fresh hs _).fromIterIn trivial e) ha
  | tryWithCapIn ha e => intro hs; exact at_of ((acomp_fresh hs _).tryWithCap trivial e) ha
  | tryFromIterIn ha e => intro hs; exact at_of ((acomp_fresh hs _).tryFromIter trivial e) ha
  | extend _ e ih => intro hs; rw [(acomp_stays hs _).extend rfl e]; exact ih hs
  | reserve _ e ih => intro hs; rw [(acomp_stays hs _).reserve rfl e]; exact ih hs
  | tryReserve _ e ih => intro hs; rw [(acomp_stays hs _).tryReserve rfl e]; exact ih hs
  | tryExtend _ e ih => intro hs; rw [(acomp_stays hs _).tryExtend rfl e]; exact ih hs
  | truncate _ e ih => intro hs; rw [(acomp_stays hs _).truncate rfl e]; exact ih hs
  | leaf hp => intro _ x hx; cases List.mem_singleton.mp hx; exact hp
  | bitmapParts hp e =>
    intro _ x hx
    unfold BitmapOf.tryFromParts at e
    dsimp only at e
    split at e
    · split at e
      · cases e; cases List.mem_singleton.mp hx; exact hp
      · cases e
    · cases e
  | @flattenParts O k n h c f _ e ih =>
    intro hs
    have hu := ih hs
    unfold Flatten.tryFromParts at e
    cases hl : (acompR d k).len c with
    | panic => rw [hl] at e; cases e
    | ok m =>
      rw [hl] at e
      simp only [Res.map, Res.ok.injEq] at e
      split at e
      · cases e
      · split at e
        · cases e; exact hu
        · cases e
  | flattenChild _ ih => intro hs; exact ih hs
  | @validityParts O k env B Good c b v _ _ e ih1 ih2 =>
    intro hs
    have h1 := ih1 hs.2.2
    have h2 := ih2 ⟨hs.1, hs.2.1⟩
    unfold ValidityOf.tryFromParts at e
    cases hl : (acompR d k).len c with
    | panic => rw [hl] at e; cases e
    | ok n =>
      rw [hl] at e
      simp only [Res.bind, Res.map] at e
      split at e
      · cases e
        intro x hx
        rcases List.mem_append.mp hx with hx | hx
        · exact h1 x hx
        · exact h2 x hx
      · cases e
  | fromCollection _ ih =>
    intro hs x hx
    rcases List.mem_append.mp hx with hx | hx
    · exact ih hs.2.2 x hx
    · exact ih hs.2.2 x (List.mem_of_mem_take hx)
  | @offsetsParts O k ow D Good c f offsets _ hp e ih =>
    intro hs
    have hu := ih hs.2.2.2
    rw [OffsetsIn.tryFromParts_eq] at e
    cases hr : Offsets.tryFromParts (acompR d k).toColl c ⟨D.toBuf.borrow offsets, 0⟩ with
    | panic => rw [hr] at e; cases e
    | ok r =>
      rw [hr] at e
      cases r with
      | error x => cases e
      | ok x =>
        cases e
        intro y hy
        rcases List.mem_append.mp hy with hy | hy
        · exact hu y hy
        · cases List.mem_singleton.mp hy; exact hp
  | fromBuffer _ ih => intro hs; exact ih hs
  | intoBuffer _ ih => intro hs; exact ih hs

theorem abuilt_inv {O : Type} {k : AComp A O} {c : (acompR d k).C} {l : List O} (h : ABuilt d k c l) :
    ∀ hs : ASound d k, (acompL d k hs).Inv c ∧ (acompL d k hs).abs c = l := by
  induction h with
  | empty => intro hs; exact (acompG d _ hs d).empty_ok
  | withCapIn e => intro hs; exact (acompG d _ hs _).withCap_ok e
  | tryWithCapIn e => intro hs; exact (acompG d _ hs _).tryWithCap_ok e
  | fromIter hf e => intro hs; have := (acompG d _ hs d).fromIter_ok hf e; exact ⟨this.1, this.2.1⟩
  | fromIterIn hf e => intro hs; have := (acompG d _ hs _).fromIterIn_ok hf e; exact ⟨this.1, this.2.1⟩
  | tryFromIterIn hf e => intro hs; have := (acompG d _ hs _).tryFromIter_ok hf e; exact ⟨this.1, this.2.1⟩
  | extend _ e ih =>
    intro hs
    obtain ⟨h1, h2, -⟩ := (acompG d _ hs d).ext_ok (ih hs).1 e
    exact ⟨h1, by rw [h2, (ih hs).2]⟩
  | tryExtend _ e ih =>
    intro hs
    obtain ⟨h1, h2, -⟩ := (acompG d _ hs d).tryExt_ok (ih hs).1 e
    exact ⟨h1, by rw [h2, (ih hs).2]⟩
  | tryExtendErr _ e ih =>
    intro hs
    obtain ⟨h1, h2⟩ := (acompG d _ hs d).tryExt_err (ih hs).1 e
    exact ⟨h1, by rw [h2, (ih hs).2]⟩
  | reserve _ e ih =>
    intro hs
    obtain ⟨h1, h2, -⟩ := (acompG d _ hs d).reserve_ok (ih hs).1 e
    exact ⟨h1, by rw [h2, (ih hs).2]⟩
  | tryReserve _ e ih =>
    intro hs
    obtain ⟨h1, h2, -⟩ := (acompG d _ hs d).tryReserve_ok (ih hs).1 e
    exact ⟨h1, by rw [h2, (ih hs).2]⟩
  | @truncate O k c c' l n o _ e ih =>
    intro hs
    obtain ⟨c1, h1, h2, h3⟩ := (acompG d k hs d).trunc_ok n (ih hs).1
    rw [show (acompR d k).truncate c n = _ from h1] at e
    simp only [Prod.mk.injEq] at e
    obtain ⟨rfl, -⟩ := e
    exact ⟨h2, by rw [h3, (ih hs).2]⟩
  | leaf hg => intro hs; exact ⟨hg, rfl⟩
  | @bitmapParts B Good buffer bits offset b hg e =>
    intro hs
    obtain ⟨rfl, h1⟩ := BitmapOf.tryFromParts_inv (L := (honoursB (hs.1 d)).buf) hg e
    refine ⟨h1, List.map_congr_left fun i _ => ?_⟩
    show bitAt (B.borrow buffer) (offset + i) = bit _ _
    unfold bitAt bit
    rw [List.getD_eq_getElem?_getD]
    split <;> simp_all
  | @flattenParts O k n h c l f g _ e hg ih =>
    intro hs
    have ih := ih hs
    have h1 := Flatten.tryFromParts_inv (L := acompL d k hs) ih.1 e
    rw [Flatten.tryFromParts_eq (L := acompL d k hs) n ih.1] at e
    split at e
    · simp at e
    · split at e
      · simp only [Res.ok.injEq, Except.ok.injEq] at e
        subst e
        refine ⟨h1, ?_⟩
        show Flatten.group n ((acompL d k hs).abs c) = g
        rw [ih.2]
        exact groups_group h hg
      · simp at e
  | @flattenChild O k n h f g _ ih =>
    intro hs
    have ih := ih hs
    refine ⟨ih.1.1, ?_⟩
    have h1 := flat_abs (L := acompL d k hs) h ih.1
    have h2 : flatAbs (acompL d k hs) n f = g := ih.2
    rw [h2] at h1
    exact h1.symm
  | @validityParts O k env B Good c l b bs v _ _ e ih1 ih2 =>
    intro hs
    have ih1 := ih1 hs.2.2
    have ih2 := ih2 ⟨hs.1, hs.2.1⟩
    unfold ValidityOf.tryFromParts at e
    rw [(acompL d k hs.2.2).len_ok ih1.1] at e
    have hl := (bitmapBL (honoursB (hs.1 d))).len_ok ih2.1
    rw [hl] at e
    simp only [Res.bind, Res.map] at e
    split at e
    · next hlen =>
      simp only [Res.ok.injEq, Except.ok.injEq] at e
      subst e
      refine ⟨ValidityOf.inv_mk (LM := bitmapBL (honoursB (hs.1 d))) ih1.1 ih2.1 (Nat.le_of_eq hlen.symm), ?_⟩
      show Validity.mask ((acompL d k hs.2.2).abs c) ((bitmapBL (honoursB (hs.1 d))).abs b) = _
      rw [ih1.2, show (bitmapBL (honoursB (hs.1 d))).abs b = bs from ih2.2]
      rfl
    · simp at e
  | @fromCollection O k env B Good c l _ ih =>
    intro hs
    have ih := ih hs.2.2
    refine ⟨⟨ih.1, fun b hb => by cases hb⟩, ?_⟩
    show ((acompL d k hs.2.2).abs c).map some = _
    rw [ih.2]
  | @offsetsParts O k ow D Good c l f offsets _ hw e ih =>
    intro hs
    have ih := ih hs.2.2.2
    obtain ⟨h1, h2⟩ := OffsetsIn.tryFromParts_inv (D := D.toBuf) (LD := (honoursB (hs.1 d)).toLawfulColl)
      (L := acompL d k hs.2.2.2) ih.1 hw rfl e
    refine ⟨h2, ?_⟩
    subst h1
    show Offsets.slices ((acompL d k hs.2.2.2).abs c) (D.borrow offsets) = _
    rw [ih.2, slices_rowsOf]
  | fromBuffer _ ih => intro hs; exact ih hs
  | intoBuffer _ ih => intro hs; exact ih hs

end

end Narrow
