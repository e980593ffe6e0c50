import Verif.Proof.Layout

/-!
# What a caught panic leaves behind

`KeepE`: after any panic of `extend` the collection is valid and holds its old
items and a prefix of the new ones. `KeepT`: the same for `try_extend`.
-/

namespace Narrow

/-- `extend` keeps a valid collection whatever makes it panic. -/
def KeepE {O : Type} {R : Realloc O} (L : LawfulR R) : Prop :=
  ∀ {c c' s}, L.Inv c → R.extend c s = (c', .panic) →
    L.Inv c' ∧ ∃ k, L.abs c' = L.abs c ++ s.items.take k

/-- `try_extend` keeps a valid collection when its source panics. -/
def KeepT {O : Type} {R : Realloc O} (L : LawfulR R) : Prop :=
  ∀ {w w' c c' s}, L.Inv c → R.tryExtend w c s = (c', .panic, w') →
    L.Inv c' ∧ ∃ k, L.abs c' = L.abs c ++ s.items.take k

/-- `try_extend` keeps exactly the items yielded before the panic. -/
def ExactT {O : Type} {R : Realloc O} (L : LawfulR R) : Prop :=
  ∀ {w w' c c' s}, L.Inv c → R.tryExtend w c s = (c', .panic, w') →
    L.Inv c' ∧ L.abs c' = L.abs c ++ s.items

theorem ExactT.keep {O : Type} {R : Realloc O} {L : LawfulR R} (h : ExactT L) : KeepT L := by
  intro w w' c c' s hc he
  obtain ⟨h1, h2⟩ := h hc he
  exact ⟨h1, s.items.length, by rw [h2, List.take_length]⟩

/-- When `try_extend` panics after a multiple of `m` items was yielded, the collection
is valid and keeps a multiple of `m` of them. -/
def WholeT {O : Type} {R : Realloc O} (m : Nat) (L : LawfulR R) : Prop :=
  ∀ {w w' c c' s}, L.Inv c → m ∣ s.items.length → R.tryExtend w c s = (c', .panic, w') →
    L.Inv c' ∧ ∃ k, m ∣ k ∧ L.abs c' = L.abs c ++ s.items.take k

/-- `try_extend` keeps the yielded items up to a multiple of the chunk size. -/
def ChunkT {O : Type} {R : Realloc O} (L : LawfulR R) : Prop :=
  ∀ {w w' c c' s}, L.Inv c → R.tryExtend w c s = (c', .panic, w') →
    L.Inv c' ∧ L.abs c' = L.abs c ++ s.items.take (s.items.length / validityChunk * validityChunk)

theorem WholeT.keep {O : Type} {R : Realloc O} {L : LawfulR R} (h : WholeT 1 L) : KeepT L := by
  intro w w' c c' s hc he
  obtain ⟨h1, k, -, h2⟩ := h hc (Nat.one_dvd _) he
  exact ⟨h1, k, h2⟩

theorem KeepT.whole {O : Type} {R : Realloc O} {L : LawfulR R} (h : KeepT L) : WholeT 1 L := by
  intro w w' c c' s hc _ he
  obtain ⟨h1, k, h2⟩ := h hc he
  exact ⟨h1, k, Nat.one_dvd k, h2⟩

theorem ExactT.whole {O : Type} {R : Realloc O} {L : LawfulR R} (m : Nat) (h : ExactT L) : WholeT m L := by
  intro w w' c c' s hc hm he
  obtain ⟨h1, h2⟩ := h hc he
  exact ⟨h1, s.items.length, hm, by rw [h2, List.take_length]⟩

theorem dvd_chunks {m n : Nat} (hm : m ∣ validityChunk ∨ validityChunk ∣ m) (hn : m ∣ n) :
    m ∣ n / validityChunk * validityChunk := by
  rcases hm with hm | hm
  · exact Nat.dvd_mul_left_of_dvd hm _
  · rw [Nat.div_mul_cancel (Nat.dvd_trans hm hn)]; exact hn

theorem ChunkT.whole {O : Type} {R : Realloc O} {L : LawfulR R} {m : Nat}
    (hm : m ∣ validityChunk ∨ validityChunk ∣ m) (h : ChunkT L) : WholeT m L := by
  intro w w' c c' s hc hn he
  obtain ⟨h1, h2⟩ := h hc he
  exact ⟨h1, _, dvd_chunks hm hn, h2⟩

theorem ChunkT.keep {O : Type} {R : Realloc O} {L : LawfulR R} (h : ChunkT L) : KeepT L := by
  intro w w' c c' s hc he
  obtain ⟨h1, h2⟩ := h hc he
  exact ⟨h1, _, h2⟩

/-- Whole fixed-size lists are the elements up to a multiple of their width. -/
theorem take_flat {O : Type} {m n k : Nat} (xs : List (FixArr O n)) (hk : m * n ∣ k) :
    ∃ j, m ∣ j ∧ (Flatten.flat xs).take k = Flatten.flat (xs.take j) := by
  obtain ⟨b, rfl⟩ := hk
  exact ⟨m * b, Nat.dvd_mul_right m b, by rw [Flatten.flat_take, Nat.mul_right_comm]⟩

theorem vec_keepE {α : Type} {lim : Nat} (hlim : lim ≤ usizeMax) (d : α) : KeepE (vecL lim hlim d) := by
  intro c c' s hc h
  have h1 := RVec.extend_wf (s := s) hc
  obtain ⟨k, h2⟩ := RVec.extend_prefix lim s c
  rw [show RVec.extend lim c s = (c', .panic) from h] at h1 h2
  exact ⟨h1, k, h2⟩

theorem vec_exactT {α : Type} {lim : Nat} (hlim : lim ≤ usizeMax) (d : α) : ExactT (vecL lim hlim d) := by
  intro w w' c c' s hc h
  obtain ⟨h1, -, -, h2, -⟩ := RVec.tryExtend_spec hc h
  exact ⟨h1, (h2 rfl).1⟩

theorem bitmap_keepE : KeepE bitmapL := by
  intro c c' s hc h
  obtain ⟨h1, h2, h3, h4, h5, h6, h7⟩ := Bitmap.extend_spec (s := s) hc
  rw [show Bitmap.extend c s = (c', .panic) from h] at h1 h5
  exact ⟨h1, h5 rfl⟩

theorem bitmap_keepT : KeepT bitmapL := by
  intro w w' c c' s hc h
  obtain ⟨h1, h2, h3, h4, h5, h6, h7⟩ := Bitmap.tryExtend_spec hc h
  exact ⟨h1, (h6 rfl).2⟩

theorem flatten_wholeT {O : Type} {R : Realloc O} {L : LawfulR R} {m n : Nat} (hn : 0 < n)
    (h : WholeT (m * n) L) : WholeT m (flattenL L n hn) := by
  intro w w' c c' s hc hm he
  simp only [flattenR, Prod.mk.injEq] at he
  obtain ⟨rfl, he, rfl⟩ := he
  obtain ⟨h1, k, h2, h3⟩ := h hc.1 (by
    rw [Flatten.items_flatSrc, Flatten.flat_length]; exact Nat.mul_dvd_mul_right hm n)
    (Prod.ext rfl (Prod.ext he rfl))
  rw [Flatten.items_flatSrc] at h3
  obtain ⟨j, h4, h5⟩ := take_flat (Src.items s) h2
  rw [← flat_abs hn hc, h5, ← Flatten.flat_append] at h3
  obtain ⟨i1, i2⟩ := flat_inv_of L (c := ⟨(R.tryExtend w c.child (Flatten.flatSrc s)).1⟩) hn h1 h3
  exact ⟨i1, j, h4, i2⟩

namespace Validity

variable {O : Type} {R : Realloc O} {L : LawfulR R}

theorem take_prefix {A l : List (Option O)} {n k : Nat} :
    ∃ j, A ++ (l.take n).take k = A ++ l.take j := ⟨min k n, by rw [List.take_take]⟩

theorem take_rest {A l : List (Option O)} {n k : Nat} :
    A ++ l.take n ++ (l.drop n).take k = A ++ l.take (n + k) := by
  rw [List.append_assoc, List.take_add]

theorem mask_half {c' : R.C} {b b' : Bitmap} {c : R.C} {l : List (Option O)} {k : Nat}
    (hm : Mid (L := L) c b) (hca : L.abs c' = L.abs c ++ l.map (·.getD R.dflt))
    (hba : b'.abs = b.abs ++ (l.map Option.isSome).take k) :
    mask (L.abs c') b'.abs = mask (L.abs c) b.abs ++ l.take k ∧ b'.bits ≤ (L.abs c').length := by
  have hb : b'.bits = b.bits + ((l.map Option.isSome).take k).length := by
    have := congrArg List.length hba; simpa using this
  constructor
  · rw [hca, hba, mask_append (by simp [hm.len]), ← List.map_take]
    congr 1
    have := mask_append_left (xs := (l.take k).map (·.getD R.dflt)) (ys := (l.drop k).map (·.getD R.dflt))
      (bs := (l.take k).map Option.isSome) (by simp)
    rw [← List.map_append, List.take_append_drop] at this
    rw [this, mask_items]
  · rw [hca, hb]; simp [hm.len]; omega

theorem extendLoop_keep (hk : KeepE L) (s : Src (Option O)) : ∀ (c : R.C) (b : Bitmap),
    Mid (L := L) c b → ∀ v', extendLoop R c b s = (v', .panic) →
      Inv L.toLawfulColl v' ∧ ∃ k, abs L.toLawfulColl v' = mask (L.abs c) b.abs ++ s.items.take k := by
  intro c b hm v' h
  rw [extendLoop] at h
  have htk := Src.takeChunk_items validityChunk s
  have hne := L.ext_ne (values R.dflt (Src.takeChunk validityChunk s).1) hm.inv
  generalize hE : R.extend c (values R.dflt (Src.takeChunk validityChunk s).1) = E at *
  obtain ⟨c1, o1⟩ := E
  cases o1 with
  | err => exact absurd rfl hne
  | panic =>
    simp only [Prod.mk.injEq, and_true] at h
    subst h
    obtain ⟨e1, k, e2⟩ := hk hm.inv hE
    refine ⟨inv_mk e1 hm.binv (by rw [e2]; simp [hm.len]), 0, ?_⟩
    rw [abs_some, e2, mask_append_left (by simp [hm.len])]; simp
  | ok =>
    obtain ⟨e1, e2, e3⟩ := L.ext_ok hm.inv hE
    rw [values_items, htk] at e2
    have hfl : flags (Src.takeChunk validityChunk s).1 = (s.items.take validityChunk).map Option.isSome := by
      simp [flags, htk]
    simp only [hfl] at h
    obtain ⟨b1, b2, b3, b4, b5, -, -⟩ := Bitmap.extend_spec
      (s := Src.ofList ((s.items.take validityChunk).map Option.isSome)) hm.binv
    generalize hF : b.extend (Src.ofList ((s.items.take validityChunk).map Option.isSome)) = F at *
    obtain ⟨bb, o2⟩ := F
    simp only [Src.items_ofList] at b1 b3 b4 b5 h
    cases o2 with
    | err => exact absurd rfl b3
    | panic =>
      simp only [Prod.mk.injEq, and_true] at h
      subst h
      obtain ⟨k, b5⟩ := b5 rfl
      obtain ⟨m1, m2⟩ := mask_half hm e2 b5
      refine ⟨inv_mk e1 b1 m2, ?_⟩
      rw [abs_some, m1]
      exact take_prefix
    | ok =>
      obtain ⟨b4, -⟩ := b4 rfl
      obtain ⟨m1, m2⟩ := hm.step e1 e2 b1 b4
      simp only at h
      split at h
      · simp at h
      · next hge =>
        have hge' : validityChunk ≤ s.items.length := by
          simp only [List.length_map, List.length_take] at hge; omega
        obtain ⟨r1, r2⟩ := Src.takeChunk_rest_items validityChunk s hge'
        have hdec : (Src.takeChunk validityChunk s).2.length < List.length s := by
          have := takeChunk_length validityChunk s
          rw [htk, List.length_take, Nat.min_eq_left hge'] at this
          unfold validityChunk at this ⊢; omega
        obtain ⟨i1, k, i2⟩ := extendLoop_keep hk (Src.takeChunk validityChunk s).2 c1 bb m1 v' h
        refine ⟨i1, validityChunk + k, ?_⟩
        rw [i2, m2, r1, take_rest]
termination_by s.length

theorem keepE (hk : KeepE L) : KeepE (validityL L) := by
  intro v v' s hv h
  replace h : extend R v s = (v', .panic) := h
  unfold extend at h
  cases hm : materialize R.toColl v with
  | panic =>
    rw [hm] at h
    simp only [Prod.mk.injEq, and_true] at h
    subst h
    exact ⟨hv, 0, by simp⟩
  | ok b =>
    rw [hm] at h
    obtain ⟨m1, m2, m3, m4⟩ := materialize_ok hv hm
    obtain ⟨c, h1, h2, h3, h4⟩ := L.trunc_ok b.len hv.1
    simp only [h1] at h
    obtain ⟨d1, d2⟩ := Mid.of_trunc m1 h2 h3
    have := extendLoop_keep hk s c b d1 v' h
    rw [d2, m2] at this
    exact this

theorem rollback_np {v v' : Validity R.C} {n : Nat} {w w' : World} {o : Out}
    (hv : Inv L.toLawfulColl v) (h : rollback R v n w = (v', o, w')) : o ≠ .panic := by
  rw [(rollback_spec hv h).1]; simp

theorem chunks_succ {n : Nat} (h : validityChunk ≤ n) :
    validityChunk + (n - validityChunk) / validityChunk * validityChunk =
      n / validityChunk * validityChunk := by
  unfold validityChunk at h ⊢; omega

theorem tryExtendLoop_keep (hk : KeepT L) (len0 : Nat) (s : Src (Option O)) :
    ∀ (w : World) (c : R.C) (b : Bitmap),
    Mid (L := L) c b → ∀ v' w', tryExtendLoop R len0 w c b s = (v', .panic, w') →
      Inv L.toLawfulColl v' ∧ abs L.toLawfulColl v' = mask (L.abs c) b.abs ++ s.items.take (s.items.length / validityChunk * validityChunk) := by
  intro w c b hm v' w' h
  rw [tryExtendLoop] at h
  have htk := Src.takeChunk_items validityChunk s
  generalize hE : R.tryExtend w c (values R.dflt (Src.takeChunk validityChunk s).1) = E at *
  obtain ⟨c1, o1, w1⟩ := E
  cases o1 with
  | err =>
    simp only at h
    obtain ⟨e1, e2⟩ := L.tryExt_err hm.inv hE
    have hm1 : Mid (L := L) c1 b := ⟨e1, hm.binv, by rw [e2]; exact hm.len⟩
    exact absurd rfl (rollback_np hm1.inv_v h)
  | panic =>
    simp only [Prod.mk.injEq, true_and] at h
    obtain ⟨rfl, rfl⟩ := h
    have hshort : s.items.length < validityChunk := by
      cases hp : (Src.takeChunk validityChunk s).1.panics with
      | true => rw [Src.takeChunk_panics] at hp; simp at hp; exact hp.2
      | false =>
        have := L.tryExt_np (w := w) (s := values R.dflt (Src.takeChunk validityChunk s).1) hm.inv
          (by rw [values_panics]; exact hp)
        rw [hE] at this
        exact absurd rfl this
    obtain ⟨e1, k, e2⟩ := hk hm.inv hE
    refine ⟨inv_mk e1 hm.binv (by rw [e2]; simp [hm.len]), ?_⟩
    rw [abs_some, e2, mask_append_left (by simp [hm.len]), Nat.div_eq_of_lt hshort]; simp
  | ok =>
    obtain ⟨e1, e2, e3⟩ := L.tryExt_ok hm.inv hE
    rw [values_items, htk] at e2
    have hfl : flags (Src.takeChunk validityChunk s).1 = (s.items.take validityChunk).map Option.isSome := by
      simp [flags, htk]
    simp only [hfl] at h
    generalize hF : b.tryExtend w1 (Src.ofList ((s.items.take validityChunk).map Option.isSome)) = F at *
    obtain ⟨bb, o2, w2⟩ := F
    obtain ⟨b1, b2, b3, b4, b5, b6, b7⟩ := Bitmap.tryExtend_spec hm.binv hF
    simp only [Src.items_ofList, Src.panics_ofList] at b4 b6
    cases o2 with
    | panic => exact absurd (b6 rfl).1 (by simp)
    | err =>
      simp only at h
      obtain ⟨b5, b8⟩ := b5 rfl
      have hbits : bb.bits = b.bits := by
        have := congrArg List.length b5; simpa using this
      have hi1 : Inv L.toLawfulColl ⟨c1, some bb⟩ := inv_mk e1 b1 (by rw [e2, hbits]; simp [hm.len])
      exact absurd rfl (rollback_np hi1 h)
    | ok =>
      obtain ⟨b4, -⟩ := b4 rfl
      obtain ⟨m1, m2⟩ := hm.step e1 e2 b1 b4
      simp only at h
      split at h
      · simp at h
      · next hge =>
        have hge' : validityChunk ≤ s.items.length := by
          simp only [List.length_map, List.length_take] at hge; omega
        obtain ⟨r1, r2⟩ := Src.takeChunk_rest_items validityChunk s hge'
        have hdec : (Src.takeChunk validityChunk s).2.length < List.length s := by
          have := takeChunk_length validityChunk s
          rw [htk, List.length_take, Nat.min_eq_left hge'] at this
          unfold validityChunk at this ⊢; omega
        obtain ⟨i1, i2⟩ := tryExtendLoop_keep hk len0 (Src.takeChunk validityChunk s).2 w2 c1 bb m1 v' w' h
        refine ⟨i1, ?_⟩
        rw [i2, m2, r1, take_rest, List.length_drop]
        congr 2
        exact chunks_succ hge'
termination_by s.length

theorem chunkT (hk : KeepT L) : ChunkT (validityL L) := by
  intro w w' v v' s hv h
  replace h : tryExtend R w v s = (v', .panic, w') := h
  unfold tryExtend at h
  simp only [len_ok hv] at h
  have hnp := tryMaterialize_np (w := w) hv
  generalize hm : tryMaterialize R.toColl w v = M at *
  obtain ⟨t, w1⟩ := M
  cases t with
  | panic => exact absurd rfl hnp
  | err => simp at h
  | ok b =>
    obtain ⟨m1, m2, m3, m4⟩ := tryMaterialize_ok hv hm
    obtain ⟨c, h1, h2, h3, h4⟩ := L.trunc_ok (abs L.toLawfulColl v).length hv.1
    simp only [h1] at h
    rw [← m3] at h3
    obtain ⟨d1, d2⟩ := Mid.of_trunc m1 h2 h3
    have := tryExtendLoop_keep hk _ s w1 c b d1 v' w' h
    rw [d2, m2] at this
    exact this

theorem keepT (hk : KeepT L) : KeepT (validityL L) := ChunkT.keep (chunkT hk)

end Validity

namespace Offsets

variable {O : Type} {R : Realloc O} {L : LawfulR R} {ow : OffW}

/-- Rows followed by unreferenced data. -/
theorem keep_trailing {c : Offsets R.C} {d : R.C} {rows : List (List O)} {x : List O}
    (hm : Mid L ow c rows) (hd : L.Inv d) (ha : L.abs d = rows.flatten ++ x) :
    Inv L.toLawfulColl ow ⟨d, c.offsets⟩ ∧ abs L.toLawfulColl ⟨d, c.offsets⟩ = rows :=
  Rep.toInv hm.wf ⟨hd, hm.items, by rw [ha]; exact List.prefix_append _ _⟩

theorem extendLoop_keep (hk : KeepE L) : ∀ (s : Src (List O)) (c : Offsets R.C) (rows : List (List O)),
    Mid L ow c rows → ∀ c',
    extendLoop ow R c.data c.offsets (rows.flatten.length : Int) s = (c', .panic) →
      Inv L.toLawfulColl ow c' ∧ ∃ k, abs L.toLawfulColl c' = rows ++ s.items.take k
  | [], c, rows, hm, c', h => by simp [extendLoop] at h
  | .none :: s, c, rows, hm, c', h => by simp [extendLoop] at h
  | .panic :: s, c, rows, hm, c', h => by
    simp only [extendLoop, Prod.mk.injEq, and_true] at h
    subst h
    exact ⟨hm.toInv.1, 0, by simpa using hm.toInv.2⟩
  | .item r :: s, c, rows, hm, c', h => by
    simp only [extendLoop] at h
    split at h
    · next hfit =>
      generalize hV : R.reserve c.data r.length = V at *
      obtain ⟨d1, o1⟩ := V
      obtain ⟨v1, v2, v3, v4⟩ := L.reserve_ok hm.inv hV
      rw [hm.data] at v2
      cases o1 with
      | err => exact absurd rfl v3
      | panic =>
        simp only [Prod.mk.injEq, and_true] at h
        subst h
        obtain ⟨i1, i2⟩ := keep_trailing hm v1 (x := []) (by simpa using v2)
        exact ⟨i1, 0, by simpa using i2⟩
      | ok =>
        simp only at h
        have hne := L.ext_ne (Src.ofList r) v1
        generalize hE : R.extend d1 (Src.ofList r) = E at *
        obtain ⟨d2, o2⟩ := E
        cases o2 with
        | err => exact absurd rfl hne
        | panic =>
          simp only [Prod.mk.injEq, and_true] at h
          subst h
          obtain ⟨e1, k, e2⟩ := hk v1 hE
          rw [v2] at e2
          obtain ⟨i1, i2⟩ := keep_trailing hm e1 e2
          exact ⟨i1, 0, by simpa using i2⟩
        | ok =>
          simp only at h
          obtain ⟨e1, e2, -⟩ := L.ext_ok v1 hE
          rw [v2, Src.items_ofList] at e2
          obtain ⟨k, k1, k2, k3, k4, k5, k6⟩ := RVec.extend_items ow.lim
            [.item ((rows.flatten.length : Int) + r.length)] c.offsets
          replace k6 := k6 hm.wf
          generalize hF : RVec.extend ow.lim c.offsets [.item ((rows.flatten.length : Int) + r.length)] = F at *
          obtain ⟨of, o3⟩ := F
          simp only at h k1 k2 k3 k4 k5 k6
          have hone : k = 1 → Mid L ow ⟨d2, of⟩ (rows ++ [r]) := by
            rintro rfl
            refine ⟨k6, e1, ?_, by simp [e2]⟩
            simp only [k2, hm.items, totals_snoc]
            simp [Src.items]
          cases o3 with
          | err => exact absurd rfl k4
          | panic =>
            simp only [Prod.mk.injEq, and_true] at h
            subst h
            have hk1 : k = 0 ∨ k = 1 := by simp [Src.items] at k1; omega
            rcases hk1 with rfl | rfl
            · have hof : of.items = totals 0 rows := by
                rw [k2, hm.items]; simp
              obtain ⟨i1, i2⟩ := Rep.toInv (L := L.toLawfulColl) (c := ⟨d2, of⟩) (ow := ow) k6 ⟨e1, hof, by rw [e2]; exact List.prefix_append _ _⟩
              exact ⟨i1, 0, by simpa using i2⟩
            · obtain ⟨i1, i2⟩ := (hone rfl).toInv
              exact ⟨i1, 1, by simpa [Src.items] using i2⟩
          | ok =>
            obtain ⟨rfl, -⟩ := k3 rfl
            have hm' := hone rfl
            have hpos : ((rows.flatten.length : Int) + r.length) = (((rows ++ [r]).flatten.length : Nat) : Int) := by
              simp
            simp only [hpos] at h
            obtain ⟨i1, k, i2⟩ := extendLoop_keep hk s ⟨d2, of⟩ (rows ++ [r]) hm' c' h
            exact ⟨i1, k + 1, by simpa [Src.items] using i2⟩
    · next hfit =>
      simp only [Prod.mk.injEq, and_true] at h
      subst h
      exact ⟨hm.toInv.1, 0, by simpa using hm.toInv.2⟩

theorem keepE (hk : KeepE L) : KeepE (offsetsL ow L) := by
  intro c c' s hc h
  replace h : extend ow R c s = (c', .panic) := h
  unfold extend at h
  have hc' : Inv L.toLawfulColl ow c := hc
  rw [last_ok hc'.2.items] at h
  simp only [asUsize_ofNat] at h
  obtain ⟨d, h1, h2, h3, h4⟩ := L.trunc_ok (abs L.toLawfulColl c).flatten.length hc'.2.inv
  simp only [h1] at h
  exact extendLoop_keep hk s ⟨d, c.offsets⟩ _ (Mid.of_inv hc' h2 h3) c' h

theorem tryExtendLoop_exact (rows0 : List (List O)) : ∀ (s : Src (List O)) (w : World)
    (c : Offsets R.C) (rows : List (List O)), Mid L ow c rows → rows0 <+: rows →
    ∀ c' w', tryExtendLoop ow R rows0.length rows0.flatten.length w c.data c.offsets
      (rows.flatten.length : Int) s = (c', .panic, w') →
      Mid L ow c' (rows ++ s.items) ∧ (L.Canon c.data → Room L ow 0 (rows ++ s.items) → L.Canon c'.data)
  | [], w, c, rows, hm, _, c', w', h => by simp [tryExtendLoop] at h
  | .none :: s, w, c, rows, hm, _, c', w', h => by simp [tryExtendLoop] at h
  | .panic :: s, w, c, rows, hm, _, c', w', h => by
    simp only [tryExtendLoop, Prod.mk.injEq, true_and] at h
    obtain ⟨rfl, rfl⟩ := h
    exact ⟨by simpa [Src.items] using hm, fun hk _ => hk⟩
  | .item r :: s, w, c, rows, hm, hp, c', w', h => by
    have hroll : ∀ {d : R.C} {of : RVec Int} {w1 : World}, L.Inv d → 
        rollback R d of rows0.length rows0.flatten.length w1 ≠ (c', .panic, w') := by
      intro d of w1 hd hr
      unfold rollback at hr
      have hsm : rows0.length + 1 ≤ byteMax := by
        have h1 := hm.toInv.1.small
        rw [hm.toInv.2] at h1
        have := hp.length_le
        omega
      rw [strictAdd_one hsm] at hr
      obtain ⟨d', t1, -⟩ := L.trunc_ok rows0.flatten.length hd
      rw [t1] at hr
      simp at hr
    simp only [tryExtendLoop, asUsize_ofNat] at h
    split at h
    · next hfit =>
      have hnp := L.tryExt_np (w := w) (s := Src.ofList r) hm.inv (by simp)
      generalize hE : R.tryExtend w c.data (Src.ofList r) = E at *
      obtain ⟨d1, o1, w1⟩ := E
      cases o1 with
      | panic => exact absurd rfl hnp
      | err => exact absurd h (hroll (L.tryExt_err hm.inv hE).1)
      | ok =>
        simp only at h
        obtain ⟨e1, e2, -⟩ := L.tryExt_ok hm.inv hE
        rw [hm.data, Src.items_ofList] at e2
        generalize hF : RVec.tryExtend ow.lim w1 c.offsets [.item ((rows.flatten.length + r.length : Nat) : Int)] = F at *
        obtain ⟨of, o2, w2⟩ := F
        obtain ⟨f1, f2, f3, f4, f5⟩ := RVec.tryExtend_spec hm.wf hF
        cases o2 with
        | panic => exact absurd (f4 rfl).2 (by simp [Src.panics])
        | err => exact absurd h (hroll e1)
        | ok =>
          have hm' : Mid L ow ⟨d1, of⟩ (rows ++ [r]) := by
            refine ⟨f1, e1, ?_, by simp [e2]⟩
            simp only [(f2 rfl).1, hm.items, totals_snoc]
            simp [Src.items]
          have hpos : ((rows.flatten.length + r.length : Nat) : Int) = (((rows ++ [r]).flatten.length : Nat) : Int) := by
            simp
          simp only [hpos] at h
          obtain ⟨i1, i2⟩ := tryExtendLoop_exact rows0 s w2 ⟨d1, of⟩ (rows ++ [r]) hm'
            (hp.trans (List.prefix_append _ _)) c' w' h
          refine ⟨by simpa [Src.items] using i1, fun hk hr => i2 ?_ (by simpa [Src.items] using hr)⟩
          refine L.tryExt_canon hm.inv hk ?_ hE (by simp)
          rw [hm.data, Src.items_ofList]
          exact (room_row (e := 0) (by simpa [Src.items] using hr)).1
    · exact absurd h (hroll hm.inv)

theorem exactT_mid {w w' : World} {c c' : Offsets R.C} {s : Src (List O)}
    (hc : Inv L.toLawfulColl ow c) (h : tryExtend ow R w c s = (c', .panic, w')) :
    Mid L ow c' (abs L.toLawfulColl c ++ s.items) ∧
      (L.Canon c.data → Room L ow 0 (abs L.toLawfulColl c ++ s.items) → L.Canon c'.data) := by
  unfold tryExtend at h
  rw [hc.len_ok, last_ok hc.2.items] at h
  simp only [asUsize_ofNat] at h
  obtain ⟨d, h1, h2, h3, h4⟩ := L.trunc_ok (abs L.toLawfulColl c).flatten.length hc.2.inv
  simp only [h1] at h
  obtain ⟨i1, i2⟩ := tryExtendLoop_exact _ s w ⟨d, c.offsets⟩ _ (Mid.of_inv hc h2 h3)
    (List.prefix_refl _) c' w' h
  exact ⟨i1, fun hk => i2 (h4 hk)⟩

theorem exactT : ExactT (offsetsL ow L) := by
  intro w w' c c' s hc h
  obtain ⟨i1, -⟩ := exactT_mid hc h
  exact i1.toInv

end Offsets

end Narrow
