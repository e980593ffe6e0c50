import Verif.Proof.Validity

/-! # What growing a nullable collection does to its value storage and bitmap -/

namespace Narrow.Validity

variable {O : Type} {R : Realloc O} {L : LawfulR R}

/-- The parts after a successful extension: the values follow the committed
values, their validity follows the bitmap. -/
def Grew (L : LawfulR R) (xs : List O) (b : Bitmap) (l : List (Option O)) (v' : Validity R.C) : Prop :=
  L.abs v'.coll = xs ++ l.map (·.getD R.dflt) ∧
  ∃ b', v'.bitmap = some b' ∧ b'.abs = b.abs ++ l.map Option.isSome ∧ b'.offset = b.offset

theorem Grew.trans {xs : List O} {b b1 : Bitmap} {l1 l2 : List (Option O)} {v' : Validity R.C}
    (hb : b1.abs = b.abs ++ l1.map Option.isSome) (ho : b1.offset = b.offset)
    (h : Grew L (xs ++ l1.map (·.getD R.dflt)) b1 l2 v') : Grew L xs b (l1 ++ l2) v' := by
  obtain ⟨h1, b', h2, h3, h4⟩ := h
  exact ⟨by simpa using h1, b', h2, by simp [h3, hb], by omega⟩

theorem extendLoop_grew (s : Src (Option O)) : ∀ (c : R.C) (b : Bitmap), Mid (L := L) c b →
    ∀ v', extendLoop R c b s = (v', .ok) → Grew L (L.abs c) b s.items v' := by
  intro c b hm v' h
  rw [extendLoop] at h
  have htk := Src.takeChunk_items validityChunk s
  generalize hE : R.extend c (values R.dflt (Src.takeChunk validityChunk s).1) = E at *
  obtain ⟨c1, o1⟩ := E
  split at h
  · next c' heq =>
    simp only [Prod.mk.injEq] at heq
    obtain ⟨rfl, rfl⟩ := heq
    obtain ⟨e1, e2, e3⟩ := L.ext_ok hm.inv hE
    rw [values_items, htk] at e2
    obtain ⟨b1, b2, b3, b4, -⟩ := Bitmap.extend_spec
      (s := Src.ofList (flags (Src.takeChunk validityChunk s).1)) hm.binv
    have hfl : flags (Src.takeChunk validityChunk s).1 = (s.items.take validityChunk).map Option.isSome := by
      simp [flags, htk]
    simp only [Src.items_ofList, Src.panics_ofList, hfl] at b4 h
    rw [hfl] at b1 b2 b3
    generalize hF : b.extend (Src.ofList (List.map Option.isSome (List.take validityChunk s.items))) = F at *
    obtain ⟨bb, o2⟩ := F
    simp only at b1 b2 b3 b4 h
    cases o2 with
    | err => exact absurd rfl b3
    | panic => simp at h
    | ok =>
      obtain ⟨b4, -⟩ := b4 rfl
      obtain ⟨m1, m2⟩ := hm.step e1 e2 b1 b4
      simp only at h
      split at h
      · next hlt =>
        simp only [Prod.mk.injEq, and_true] at h
        subst h
        have hall : s.items.take validityChunk = s.items := by
          apply List.take_of_length_le
          simp only [List.length_map, List.length_take] at hlt; omega
        rw [hall] at e2 b4
        exact ⟨e2, bb, rfl, b4, b2⟩
      · next hge =>
        have hge' : validityChunk ≤ s.items.length := by
          simp only [List.length_map, List.length_take] at hge; omega
        obtain ⟨r1, r2⟩ := Src.takeChunk_rest_items validityChunk s hge'
        have hdec : (Src.takeChunk validityChunk s).2.length < List.length s := by
          have := takeChunk_length validityChunk s
          rw [htk, List.length_take, Nat.min_eq_left hge'] at this
          unfold validityChunk at this ⊢; omega
        have := extendLoop_grew (Src.takeChunk validityChunk s).2 c1 bb m1 v' h
        rw [e2, r1] at this
        have := Grew.trans b4 b2 this
        rwa [List.take_append_drop] at this
  · next c' o' hno heq =>
    simp only [Prod.mk.injEq] at heq h
    obtain ⟨rfl, rfl⟩ := heq
    obtain ⟨rfl, rfl⟩ := h
    exact (hno rfl).elim
termination_by s.length

theorem tryExtendLoop_grew (len0 : Nat) (s : Src (Option O)) : ∀ (w : World) (c : R.C) (b : Bitmap),
    Mid (L := L) c b → ∀ v' w', tryExtendLoop R len0 w c b s = (v', .ok, w') →
      Grew L (L.abs c) b s.items v' := by
  intro w c b hm v' w' h
  rw [tryExtendLoop] at h
  have htk := Src.takeChunk_items validityChunk s
  have hroll : ∀ (v v' : Validity R.C) w w', rollback R v len0 w ≠ (v', .ok, w') := by
    intro v v' w w' h
    unfold rollback at h
    split at h
    · simp at h
    · next hno heq =>
      simp only [Prod.mk.injEq] at h
      obtain ⟨-, rfl, -⟩ := h
      exact hno rfl
  generalize hE : R.tryExtend w c (values R.dflt (Src.takeChunk validityChunk s).1) = E at *
  obtain ⟨c1, o1, w1⟩ := E
  split at h
  · next c' w2 heq =>
    simp only [Prod.mk.injEq] at heq
    obtain ⟨rfl, rfl, rfl⟩ := heq
    obtain ⟨e1, e2, e3⟩ := L.tryExt_ok hm.inv hE
    rw [values_items, htk] at e2
    have hfl : flags (Src.takeChunk validityChunk s).1 = (s.items.take validityChunk).map Option.isSome := by
      simp [flags, htk]
    simp only [hfl] at h
    generalize hF : b.tryExtend w1 (Src.ofList (List.map Option.isSome (List.take validityChunk s.items))) = F at *
    obtain ⟨bb, o2, w2⟩ := F
    cases o2 with
    | err => exact absurd h (hroll _ _ _ _)
    | panic => simp at h
    | ok =>
      obtain ⟨b1, b2, -⟩ := bitmapL.tryExt_ok hm.binv hF
      have b4 : bb.abs = b.abs ++ (s.items.take validityChunk).map Option.isSome := by
        have : bb.abs = b.abs ++ _ := b2
        simpa using this
      have bo : bb.offset = b.offset := (Bitmap.tryExtend_spec hm.binv hF).2.1
      obtain ⟨m1, m2⟩ := hm.step e1 e2 b1 b4
      simp only at h
      split at h
      · next hlt =>
        simp only [Prod.mk.injEq, true_and] at h
        obtain ⟨rfl, rfl⟩ := h
        have hall : s.items.take validityChunk = s.items := by
          apply List.take_of_length_le
          simp only [List.length_map, List.length_take] at hlt; omega
        rw [hall] at e2 b4
        exact ⟨e2, bb, rfl, b4, bo⟩
      · next hge =>
        have hge' : validityChunk ≤ s.items.length := by
          simp only [List.length_map, List.length_take] at hge; omega
        obtain ⟨r1, r2⟩ := Src.takeChunk_rest_items validityChunk s hge'
        have hdec : (Src.takeChunk validityChunk s).2.length < List.length s := by
          have := takeChunk_length validityChunk s
          rw [htk, List.length_take, Nat.min_eq_left hge'] at this
          unfold validityChunk at this ⊢; omega
        have := tryExtendLoop_grew len0 (Src.takeChunk validityChunk s).2 w2 c1 bb m1 v' w' h
        rw [e2, r1] at this
        have := Grew.trans b4 bo this
        rwa [List.take_append_drop] at this
  · exact absurd h (hroll _ _ _ _)
  · simp at h
termination_by s.length

/-- The parts of a nullable collection as an extension finds them. -/
def Parts (L : LawfulR R) (v : Validity R.C) (b : Bitmap) : Prop :=
  match v.bitmap with
  | some b' => b = b'
  | none => b.abs = List.replicate (L.abs v.coll).length true ∧ b.offset = 0

theorem extend_grew {v v' : Validity R.C} {s : Src (Option O)} (hv : Inv L.toLawfulColl v)
    (h : extend R v s = (v', .ok)) :
    ∃ b, Parts L v b ∧ Grew L ((L.abs v.coll).take b.bits) b s.items v' := by
  unfold extend at h
  cases hm : materialize R.toColl v with
  | panic => rw [hm] at h; simp at h
  | ok b =>
    rw [hm] at h
    obtain ⟨m1, m2, m3, m4⟩ := materialize_ok hv hm
    obtain ⟨c, h1, h2, h3, h4⟩ := L.trunc_ok b.len hv.1
    simp only [h1] at h
    obtain ⟨d1, d2⟩ := Mid.of_trunc m1 h2 h3
    have h5 : L.abs c = (L.abs v.coll).take b.bits := h3
    refine ⟨b, ?_, h5 ▸ extendLoop_grew s c b d1 v' h⟩
    unfold Parts
    rcases m4 with m | ⟨m, m5, -⟩
    · rw [m]
    · rw [m]
      refine ⟨?_, m5⟩
      simp only [materialize, m, L.len_ok hv.1] at hm
      split at hm
      · next b' heq =>
        simp only [Res.ok.injEq] at hm
        subst hm
        exact (Bitmap.allSet_ok heq).2.1
      · simp at hm

theorem tryExtend_grew {w w' : World} {v v' : Validity R.C} {s : Src (Option O)}
    (hv : Inv L.toLawfulColl v) (h : tryExtend R w v s = (v', .ok, w')) :
    ∃ b, Parts L v b ∧ Grew L ((L.abs v.coll).take b.bits) b s.items v' := by
  unfold tryExtend at h
  rw [len_ok hv] at h
  simp only at h
  cases hm : tryMaterialize R.toColl w v with
  | mk r w1 =>
    rw [hm] at h
    cases r with
    | err => simp at h
    | panic => simp at h
    | ok b =>
      obtain ⟨m1, m2, m3, m4⟩ := tryMaterialize_ok hv hm
      obtain ⟨c, h1, h2, h3, h4⟩ := L.trunc_ok (abs L.toLawfulColl v).length hv.1
      simp only [h1] at h
      rw [← m3] at h3
      obtain ⟨d1, d2⟩ := Mid.of_trunc m1 h2 h3
      refine ⟨b, ?_, h3 ▸ tryExtendLoop_grew _ s w1 c b d1 v' w' h⟩
      unfold Parts
      rcases m4 with m | ⟨m, m5, -⟩
      · rw [m]
      · rw [m]
        refine ⟨?_, m5⟩
        simp only [tryMaterialize, m, L.len_ok hv.1] at hm
        exact (Bitmap.tryAllSet_ok hm).2.1

theorem reserve_parts {c : R.C} {v' : Validity R.C} {n : Nat} (hc : L.Inv c)
    (h : reserve R ⟨c, none⟩ n = (v', .ok)) :
    L.abs v'.coll = L.abs c ∧ ∃ b, v'.bitmap = some b ∧ b.offset = 0 ∧ b.bits = (L.abs c).length ∧
      b.buffer.items = Bitmap.allSetBytes (L.abs c).length := by
  unfold reserve at h
  simp only [materialize, L.len_ok hc] at h
  split at h
  · simp at h
  · next b hm =>
    split at hm
    · next b0 heq =>
      simp only [Res.ok.injEq] at hm
      subst hm
      obtain ⟨a1, a2, a3, a4⟩ := Bitmap.allSet_ok heq
      have hit : b0.buffer.items = Bitmap.allSetBytes (L.abs c).length ∧ b0.bits = (L.abs c).length := by
        unfold Bitmap.allSet at heq
        split at heq
        · next buf hb =>
          simp only [Try.ok.injEq] at heq
          subst heq
          exact ⟨by simpa using (RVec.fromIter_ok hb).1, rfl⟩
        · simp at heq
        · simp at heq
      generalize hB : b0.reserve n = B at *
      obtain ⟨b', o1⟩ := B
      obtain ⟨p1, p2, p3, p4, p5, p6⟩ := Bitmap.reserve_ok a1 hB
      cases o1 with
      | err => exact absurd rfl p3
      | panic => simp at h
      | ok =>
        simp only [Prod.mk.injEq] at h
        obtain ⟨rfl, h⟩ := h
        obtain ⟨c1, c2, c3, c4⟩ := L.reserve_ok (n := n) hc (Prod.ext rfl rfl)
        exact ⟨c2, b', rfl, by rw [p4, a3], by rw [p5, hit.2], by rw [p6, hit.1]⟩
    · simp at hm

theorem tryReserve_parts {c : R.C} {v' : Validity R.C} {n : Nat} {w w' : World} (hc : L.Inv c)
    (h : tryReserve R w ⟨c, none⟩ n = (v', .ok, w')) :
    L.abs v'.coll = L.abs c ∧ ∃ b, v'.bitmap = some b ∧ b.offset = 0 ∧ b.bits = (L.abs c).length ∧
      b.buffer.items = Bitmap.allSetBytes (L.abs c).length := by
  unfold tryReserve at h
  simp only [tryMaterialize, L.len_ok hc] at h
  split at h
  · simp at h
  · simp at h
  · next b0 w1 heq =>
    obtain ⟨a1, a2, a3, a4⟩ := Bitmap.tryAllSet_ok heq
    have hit : b0.buffer.items = Bitmap.allSetBytes (L.abs c).length ∧ b0.bits = (L.abs c).length := by
      unfold Bitmap.tryAllSet at heq
      split at heq
      · next buf w2 hb =>
        simp only [Prod.mk.injEq, Try.ok.injEq] at heq
        obtain ⟨rfl, rfl⟩ := heq
        exact ⟨by simpa using ((RVec.tryFromIter_spec _ _ _).1 _ _ hb).1, rfl⟩
      · simp at heq
      · simp at heq
    generalize hC : R.tryReserve w1 c n = C at *
    obtain ⟨c', o1, w2⟩ := C
    obtain ⟨c1, c2, c3, c4⟩ := L.tryReserve_ok hc hC
    cases o1 with
    | panic => exact absurd rfl c3
    | err => simp at h
    | ok =>
      simp only [Prod.mk.injEq] at h
      obtain ⟨rfl, h1, h2⟩ := h
      obtain ⟨p1, p2, p3, p4, p5, p6, p7⟩ :=
        Bitmap.tryReserve_ok (b' := (Bitmap.tryReserve w2 b0 n).1) (o := (Bitmap.tryReserve w2 b0 n).2.1)
          (w' := (Bitmap.tryReserve w2 b0 n).2.2) a1 rfl
      exact ⟨c2, _, rfl, by rw [p4, a3], by rw [p5, hit.2], by rw [p6, hit.1]⟩

end Narrow.Validity
