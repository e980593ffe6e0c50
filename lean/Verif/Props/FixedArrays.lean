import Verif.Proof.FixedArrays
import Verif.Props.Access
import Verif.Props.Arrays

/-!
# Fixed-size values and views of groups give access to their elements (C71)
-/

namespace Narrow.Props

open Spec

/-- C71. A `FixedSizeArray` made from an array dereferences to the array, and there are no
others. -/
theorem C71_round_trip {n : Nat} {p : Prim} :
    (∀ a : FixArr (PrimVal p) n, FixedSizeArray.deref (FixedSizeArray.ofArray a) = a) ∧
      ∀ v : PrimVal (.array n p), FixedSizeArray.ofArray (FixedSizeArray.deref v) = v :=
  ⟨deref_ofArray, ofArray_deref⟩

/-- C71. The default dereferences to default elements, and is the value that null items
have in an array. -/
theorem C71_default (n : Nat) (p : Prim) :
    (FixedSizeArray.deref (FixedSizeArray.default n p)).1 = List.replicate n 0#(8 * p.size) ∧
      FixedSizeArray.default n p = (baseR (.prim (.array n p))).dflt := by
  refine ⟨congrArg Subtype.val (deref_ofArray _), deref_inj ((deref_ofArray _).trans ?_)⟩
  apply Subtype.ext
  apply List.ext_getElem
  · simp [FixArr.replicate, FixedSizeArray.deref]
  · intro i h1 h2
    simp only [FixArr.replicate, FixedSizeArray.deref, List.getElem_map, List.getElem_replicate]
    show _ = BitVec.extractLsb' _ _ (0#(8 * (Prim.array n p).size))
    simp

/-- C71. If elements are equal exactly if they are the same, so are `FixedSizeArray`s. -/
theorem C71_eq {n : Nat} {p : Prim} {same : PrimVal p → PrimVal p → Bool}
    (hs : ∀ x y, same x y = true ↔ x = y) (a b : PrimVal (.array n p)) :
    FixedSizeArray.eq same a b = true ↔ a = b := by
  have hl : (FixedSizeArray.deref a).1.length = (FixedSizeArray.deref b).1.length :=
    (FixedSizeArray.deref a).2.trans (FixedSizeArray.deref b).2.symm
  refine ⟨fun h => deref_inj (Subtype.ext (List.ext_getElem hl fun i h1 h2 => ?_)), fun h => ?_⟩
  · rw [FixedSizeArray.eq, List.all_eq_true] at h
    exact (hs _ _).mp (h _ (List.mem_iff_getElem.mpr
      ⟨i, by rw [List.length_zip]; omega, List.getElem_zip ..⟩))
  · subst h
    rw [FixedSizeArray.eq, List.all_eq_true]
    intro x hx
    obtain ⟨i, h1, rfl⟩ := List.mem_iff_getElem.mp hx
    rw [List.getElem_zip]
    exact (hs _ _).mpr rfl

/-- C71. The first element that differs decides the order, and without one the values are
the same. -/
theorem C71_order {n : Nat} {p : Prim} {cmp : PrimVal p → PrimVal p → Ordering}
    (hs : ∀ x y, cmp x y = .eq ↔ x = y) (a b : FixArr (PrimVal p) n) :
    (∀ o, o ≠ .eq → (FixedSizeArray.cmp cmp (FixedSizeArray.ofArray a) (FixedSizeArray.ofArray b) = o ↔
      ∃ j, ∃ h1 : j < a.1.length, ∃ h2 : j < b.1.length, cmp a.1[j] b.1[j] = o ∧
        a.1.take j = b.1.take j)) ∧
      (FixedSizeArray.cmp cmp (FixedSizeArray.ofArray a) (FixedSizeArray.ofArray b) = .eq ↔ a = b) := by
  have hl : a.1.length = b.1.length := a.2.trans b.2.symm
  have first : ∀ o, o ≠ .eq → (FixedSizeArray.cmp cmp (FixedSizeArray.ofArray a)
      (FixedSizeArray.ofArray b) = o ↔ ∃ j, ∃ h1 : j < a.1.length, ∃ h2 : j < b.1.length,
        cmp a.1[j] b.1[j] = o ∧ a.1.take j = b.1.take j) := by
    intro o ho
    rw [FixedSizeArray.cmp, deref_ofArray, deref_ofArray, sliceCmp_iff ho hl]
    constructor
    · rintro ⟨j, h1, h2, h3, h4⟩
      refine ⟨j, h1, h2, h3, List.ext_getElem (by simp; omega) fun i hi _ => ?_⟩
      rw [List.getElem_take, List.getElem_take]
      exact (hs _ _).mp (h4 i (by simp at hi; omega))
    · rintro ⟨j, h1, h2, h3, h4⟩
      refine ⟨j, h1, h2, h3, fun i hi => (hs _ _).mpr ?_⟩
      have e1 : (a.1.take j)[i]? = (b.1.take j)[i]? := by rw [h4]
      rw [List.getElem?_take_of_lt hi, List.getElem?_take_of_lt hi,
        List.getElem?_eq_getElem (Nat.lt_trans hi h1), List.getElem?_eq_getElem (Nat.lt_trans hi h2)] at e1
      exact Option.some.inj e1
  refine ⟨first, fun h => ?_, fun h => ?_⟩
  · have none : ∀ o, o ≠ .eq → ¬ ∃ j, ∃ h1 : j < a.1.length, ∃ h2 : j < b.1.length,
        cmp a.1[j] b.1[j] = o ∧ a.1.take j = b.1.take j := fun o ho e => by
      have := (first o ho).mpr e
      rw [h] at this
      exact ho this.symm
    have same : ∀ m, m ≤ a.1.length → a.1.take m = b.1.take m := by
      intro m
      induction m with
      | zero => intro _; rfl
      | succ m ih =>
        intro hm
        have ih := ih (by omega)
        have hb : m < b.1.length := by omega
        rw [List.take_succ_eq_append_getElem hm, List.take_succ_eq_append_getElem hb, ih]
        congr 2
        apply (hs _ _).mp
        match hc : cmp (a.1[m]'hm) (b.1[m]'hb) with
        | .eq => rfl
        | .lt => exact absurd ⟨m, hm, hb, hc, ih⟩ (none .lt (by decide))
        | .gt => exact absurd ⟨m, hm, hb, hc, ih⟩ (none .gt (by decide))
    have := same a.1.length (Nat.le_refl _)
    rw [List.take_length, hl, List.take_length] at this
    exact Subtype.ext this
  · subst h
    match hc : FixedSizeArray.cmp cmp (FixedSizeArray.ofArray a) (FixedSizeArray.ofArray a) with
    | .eq => rfl
    | .lt =>
      obtain ⟨j, h1, h2, h3, -⟩ := (first .lt (by decide)).mp hc
      exact absurd (h3.symm.trans ((hs _ _).mpr rfl)) (by decide)
    | .gt =>
      obtain ⟨j, h1, h2, h3, -⟩ := (first .gt (by decide)).mp hc
      exact absurd (h3.symm.trans ((hs _ _).mpr rfl)) (by decide)

/-- C71. The elements lie one after the other: byte `b` of element `j` is byte
`j * size + b` of the value. -/
theorem C71_bytes {n : Nat} {p : Prim} (a : FixArr (PrimVal p) n) {j b : Nat} (hj : j < n)
    (hb : b < p.size) : (FixedSizeArray.ofArray a).extractLsb' (8 * (j * p.size + b)) 8 =
      (a.1[j]'(by rw [a.2]; exact hj)).extractLsb' (8 * b) 8 :=
  ofArray_byte a hj hb

/-- C71. Arrays of `FixedSizeArray`s: what is collected from arrays is read back as the
same arrays, nulls included. -/
theorem C71_collect {n : Nat} {p : Prim} {w : World} (l : List (Option (FixArr (PrimVal p) n)))
    (hh : TightHints w.oracle)
    (hf : Fits true (.prim (.array n p)) 0 (l.map (Option.map FixedSizeArray.ofArray))) :
    ∃ c w' m, (arrayR true (.prim (.array n p))).fromIter w
        (Src.ofList (l.map (Option.map FixedSizeArray.ofArray))) = (.ok c, w') ∧
      Shows true (.prim (.array n p)) c m ∧ m.map (Option.map FixedSizeArray.deref) = l := by
  obtain ⟨c, w', h1, -, h2⟩ := C08_collect_list (nl := true) (t := .prim (.array n p)) trivial (w := w)
    (l.map (Option.map FixedSizeArray.ofArray)) hh hf
  have key : ∀ l : List (Option (FixArr (PrimVal p) n)),
      (l.map (Option.map FixedSizeArray.ofArray)).map (Option.map FixedSizeArray.deref) = l := by
    intro l
    rw [List.map_map]
    refine (List.map_congr_left fun x _ => ?_).trans (List.map_id l)
    cases x with
    | none => rfl
    | some a => exact congrArg some (deref_ofArray a)
  exact ⟨c, w', _, h1, h2, key l⟩

/-- C71. The view of a group dereferences to the views of its elements in the child, in
order, and so does a copy of it. -/
theorem C71_group_view {O : Type} {k : SComp O} {n : Nat} {hn : 0 < n} (hs : Sound k)
    {c : Flatten (scompR k).C} {l : List (FixArr O n)} (h : SBuilt (.flatten n hn k) c l) {i : Nat}
    (hi : i < l.length) :
    ∃ v, (scompR (.flatten n hn k)).view c i = .ok (some v) ∧
      ∀ j (hj : j < n), (scompR k).view c.childRef (i * n + j) =
          .ok (some ((FlattenView.deref v).1[j]'(by rw [(FlattenView.deref v).2]; exact hj))) ∧
        FlattenView.deref (FlattenView.clone v) = FlattenView.deref v := by
  obtain ⟨h1, h2⟩ := sbuilt_inv h hs
  have h1 : flatInv (scompL k hs).toLawfulColl n c := h1
  have h2 : flatAbs (scompL k hs).toLawfulColl n c = l := h2
  have hlen := flat_abs_length hn h1
  rw [h2] at hlen
  have hmax := (scompL k hs).len_le h1.1
  have hle : (i + 1) * n ≤ l.length * n := Nat.mul_le_mul_right n hi
  rw [Nat.add_mul, Nat.one_mul] at hle
  obtain ⟨a, ha, hp⟩ := FixArr.fromFn_ok n (fun idx =>
      ((strictMul i n).bind fun b => strictAdd b idx).bind fun j =>
        ((scompR k).view c.child j).expect)
    (fun j v => (scompR k).view c.child (i * n + j) = .ok (some v)) fun j hj => by
      obtain ⟨v, hv, -⟩ := (scompL k hs).view_some h1.1 (i := i * n + j) (by omega)
      refine ⟨v, ?_, hv⟩
      have e1 : strictMul i n = .ok (i * n) := if_pos (by omega)
      have e2 : strictAdd (i * n) j = .ok (i * n + j) := if_pos (by omega)
      simp only [e1, e2, Res.bind, hv, Res.expect]
  refine ⟨a, ?_, fun j hj => ⟨hp j (by rw [a.2]; exact hj), rfl⟩⟩
  show Flatten.view _ n c i = _
  unfold Flatten.view
  rw [ha]; rfl

/-- C71. A clone of the view of a list reads as the list. -/
theorem C71_list_view_clone {O : Type} {k : SComp O} {ow : OffW} {D : Backing Int} {Good : D.C → Prop}
    (hs : Sound (.offsets ow D Good k)) {c : OffsetsIn (scompR k).C D.C} {rows : List (List O)}
    (h : SBuilt (.offsets ow D Good k) c rows) {i : Nat} (hi : i < rows.length) :
    ∃ v, (scompR (.offsets ow D Good k)).view c i = .ok (some v) ∧
      Reads (rowViewC (scompR k).toColl) (RowView.clone v) rows[i] ∧
      RowView.toOwned (scompR k).toColl (RowView.clone v) = .ok rows[i] := by
  obtain ⟨v, h1, h2, h3, -⟩ := C56_list_views hs h hi
  exact ⟨v, h1, h2, h3⟩

/-! ## Concrete cases -/

/-- `[1_u16, 2]`: the first element lies lowest. -/
example : FixedSizeArray.ofArray (p := .u16) (n := 2) ⟨[1#16, 2#16], rfl⟩ = 0x00020001#32 := rfl

example : (FixedSizeArray.deref (p := .u16) (n := 2) 0x00020001#32).1 = [1#16, 2#16] := rfl

/-- Other elements, another value. -/
example : FixedSizeArray.eq (p := .u16) (n := 2) (fun x y => x == y) 0x00020001#32 0x00010002#32 = false :=
  Bool.eq_false_iff.mpr fun h => absurd ((C71_eq (p := .u16) (n := 2) (fun _ _ => beq_iff_eq) _ _).mp h)
    (by show ¬ (0x00020001#32 : BitVec 32) = 0x00010002#32; decide)

/-- `[1, 2] < [2, 1]`, although the bit pattern is greater. -/
example : FixedSizeArray.cmp (p := .u16) (n := 2) (fun x y => compare x.toNat y.toNat)
    (FixedSizeArray.ofArray ⟨[1#16, 2#16], rfl⟩) (FixedSizeArray.ofArray ⟨[2#16, 1#16], rfl⟩) = .lt :=
  ((C71_order (p := .u16) (n := 2) (fun _ _ => Nat.compare_eq_eq.trans BitVec.toNat_inj) _ _).1 .lt
    (by decide)).mpr ⟨0, by decide, by decide, by decide, rfl⟩

/-- A nullable array of pairs of `u16`. -/
example : ∃ c w' m, (arrayR true (.prim (.array 2 .u16))).fromIter Sample.world
      (Src.ofList ([some ⟨[1#16, 2#16], rfl⟩, none].map (Option.map (FixedSizeArray.ofArray (p := .u16))))) =
        (.ok c, w') ∧
    Shows true (.prim (.array 2 .u16)) c m ∧
    m.map (Option.map FixedSizeArray.deref) = [some ⟨[1#16, 2#16], rfl⟩, none] :=
  C71_collect (p := .u16) _ Sample.tight ⟨Nat.le_of_ble_eq_true rfl, Nat.le_of_ble_eq_true rfl⟩

/-- The second of two pairs in a `Vec`. -/
example : ∃ v : FixArr Byte 2, (scompR Backends.vecPairs).view ⟨⟨[1#8, 2#8, 3#8, 4#8], 4⟩⟩ 1 = .ok (some v) ∧
    (FlattenView.deref v).1[0]'(by show 0 < v.1.length; rw [v.2]; decide) = 3#8 := by
  have hs : Sound Backends.vecPairs := (C56_vec _ (by decide) _).toHonours
  have h := SBuilt.extend (k := Backends.vecPairs) (c' := ⟨⟨[1#8, 2#8, 3#8, 4#8], 4⟩⟩)
    (s := [.item ⟨[1#8, 2#8], rfl⟩, .item ⟨[3#8, 4#8], rfl⟩]) .empty rfl
  obtain ⟨v, h1, h2⟩ := C71_group_view (k := .leaf _ _ _) hs h (i := 1) (by decide)
  have h3 := (h2 0 (by decide)).1
  have h3 : Res.ok (some 3#8) = Res.ok (some ((FlattenView.deref v).1[0]'(by show 0 < v.1.length; rw [v.2]; decide))) := h3
  simp only [Res.ok.injEq, Option.some.injEq] at h3
  exact ⟨v, h1, h3.symm⟩

/-- The third of three lists. -/
example : ∃ v, (offsetsBC (Backends.slots 4 0).toBuf (Backends.slots 4 0#8).toColl).view
      ⟨[7#8, 8#8, 9#8], [0, 2, 2, 3]⟩ 2 = .ok (some v) ∧
    RowView.toOwned (Backends.slots 4 0#8).toColl (RowView.clone v) = .ok [9#8] := by
  obtain ⟨v, h1, -, h2⟩ := C71_list_view_clone Backends.kind_sound.2 Backends.rows_built (i := 2)
    (by decide)
  exact ⟨v, h1, h2⟩

end Narrow.Props
