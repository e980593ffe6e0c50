import Verif.Proof.Layout

/-!
# Constructors that stop at the first `None`
-/

namespace Narrow

/-- The constructors treat a source like its fused version. -/
structure StopsR {O : Type} (R : Realloc O) : Prop where
  pulled : ∀ {α : Type} (s : Src α), R.pulled s = s.items
  fromIter : ∀ w s, R.fromIter w s = R.fromIter w s.fuse
  fromIterIn : ∀ w s, R.fromIterIn w s = R.fromIterIn w s.fuse

theorem RVec.tryFromIterLoop_fuse {α : Type} (lim : Nat) : ∀ (s : Src α) (w : World) (v : RVec α),
    RVec.tryFromIterLoop lim w v s = RVec.tryFromIterLoop lim w v s.fuse
  | [], _, _ => rfl
  | .none :: _, _, _ => rfl
  | .panic :: _, _, _ => rfl
  | .item a :: s, w, v => by
    simp only [Src.fuse, RVec.tryFromIterLoop, RVec.tryFromIterLoop_fuse lim s]

theorem vec_stops {α : Type} (lim : Nat) (d : α) : StopsR (vecR lim d) where
  pulled _ := rfl
  fromIter w s := by simp only [RVec.fromIter, ← RVec.extend_fuse]
  fromIterIn w s := by simp only [RVec.fromIter, ← RVec.extend_fuse]

theorem flatten_stops {O : Type} (n : Nat) (R : Realloc O) : StopsR (flattenR n R) where
  pulled _ := rfl
  fromIter w s := by simp only [Flatten.flatSrc_fuse]
  fromIterIn w s := by simp only [Flatten.flatSrc_fuse]

theorem offsets_stops {O : Type} (ow : OffW) {R : Realloc O} (L : LawfulR R) :
    StopsR (offsetsR ow R) where
  pulled _ := rfl
  fromIter w s := by
    have h : ∀ c, Offsets.extend ow R c s = Offsets.extend ow R c s.fuse :=
      fun c => (offsetsL ow L).ext_fuse c s
    simp only [Offsets.fromIter, h]
  fromIterIn w s := by
    have h : ∀ c, Offsets.extend ow R c s = Offsets.extend ow R c s.fuse :=
      fun c => (offsetsL ow L).ext_fuse c s
    simp only [Offsets.fromIterIn, h, Src.items_fuse]

theorem validity_stops {O : Type} {R : Realloc O} (h : StopsR R) : StopsR (validityR R) where
  pulled s := h.pulled s
  fromIter w s := by
    simp only [Validity.fromIterWith, Src.items_fuse, h.pulled, Validity.values]
    rw [h.fromIter _ (s.map _), Src.fuse_map]
  fromIterIn w s := by
    simp only [Validity.fromIterWith, Src.items_fuse, h.pulled, Validity.values]
    rw [h.fromIterIn _ (s.map _), Src.fuse_map]

theorem base_stops : ∀ (t : Ty), t.WF → t ≠ .bool → StopsR (baseR t)
  | .bool, _, h => absurd rfl h
  | .prim _, _, _ => vec_stops _ _
  | .fsl n _ _, _, _ => flatten_stops n _
  | .vsl ow nl t, ht, _ => offsets_stops ow (arrayL nl t ht)

theorem array_stops (nl : Bool) (t : Ty) (ht : t.WF) (h : t ≠ .bool) : StopsR (arrayR nl t) :=
  match nl with
  | false => base_stops t ht h
  | true => validity_stops (base_stops t ht h)

theorem offsets_tryStops {O : Type} (ow : OffW) {R : Realloc O} (L : LawfulR R) (w : World)
    (s : Src (List O)) : (offsetsR ow R).tryFromIter w s = (offsetsR ow R).tryFromIter w s.fuse := by
  have h : ∀ w c, Offsets.tryExtend ow R w c s = Offsets.tryExtend ow R w c s.fuse :=
    fun w c => (offsetsL ow L).tryExt_fuse w c s
  simp only [Offsets.tryFromIter, h, Src.items_fuse]

theorem validity_tryStops {O : Type} {R : Realloc O} (L : LawfulR R) (w : World)
    (s : Src (Option O)) : (validityR R).tryFromIter w s = (validityR R).tryFromIter w s.fuse := by
  have h : ∀ w c, Validity.tryExtend R w c s = Validity.tryExtend R w c s.fuse :=
    fun w c => (validityL L).tryExt_fuse w c s
  simp only [Validity.tryFromIter, h, Src.items_fuse]

/-- `try_from_iter_in` of the base layouts. -/
theorem base_tryStops : ∀ (t : Ty), t.WF → t ≠ .bool → ∀ w s,
    (baseR t).tryFromIter w s = (baseR t).tryFromIter w s.fuse
  | .bool, _, h => absurd rfl h
  | .prim p, _, _ => fun w s => by
    show RVec.tryFromIter _ w s = RVec.tryFromIter _ w s.fuse
    simp only [RVec.tryFromIter, Src.items_fuse, ← RVec.tryFromIterLoop_fuse]
  | .fsl n nl t, _, _ => fun w s => by
    show (flattenR n (nullR nl (baseR t))).tryFromIter w s =
      (flattenR n (nullR nl (baseR t))).tryFromIter w s.fuse
    have h : Flatten.flatSrc s.fuse = Flatten.flatSrc s := Flatten.flatSrc_fuse s
    exact congrArg (fun x => (Flatten.wrapTry ((nullR nl (baseR t)).tryFromIter w x).1,
      ((nullR nl (baseR t)).tryFromIter w x).2)) h.symm
  | .vsl ow nl t, ht, _ => fun w s => offsets_tryStops ow (arrayL nl t ht) w s

theorem array_tryStops (nl : Bool) (t : Ty) (ht : t.WF) (h : nl = true ∨ t ≠ .bool) (w : World)
    (s : Src (ItemVal nl (Val t))) :
    (arrayR nl t).tryFromIter w s = (arrayR nl t).tryFromIter w s.fuse := by
  cases nl with
  | false => exact base_tryStops t ht (h.resolve_left (by simp)) w s
  | true => exact validity_tryStops (baseL t ht) w s

end Narrow
