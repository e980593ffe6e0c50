import Verif.Proof.Spare

/-! # Room in nullable collections over any storage -/

namespace Narrow

open Spec
open Validity (mask mask_append mask_length mask_items values values_items values_panics flags
  takeChunk_length)
open BitmapOf (bitsAre bits_length Exact)

variable {O : Type}

namespace ValidityOf

variable {B : Backing Byte} {R : Realloc O} {LB : LawfulB B} {L : LawfulR R} {Canon : R.C → Prop}
  {X : BitmapOf B.C → Prop}

/-- The bitmap has the form `X`, there is no value beyond the items, and nulls have
default values. -/
def Neat (LB : LawfulB B) (X : BitmapOf B.C → Prop) (L : LawfulR R) (Canon : R.C → Prop) (v : Of B R) : Prop :=
  Canon v.coll ∧ (∀ b, v.bitmap = some b → X b) ∧
    L.abs v.coll = (holds LB L v).map (·.getD R.dflt)

theorem neat_mk {c : R.C} {b : BitmapOf B.C} (h1 : Canon c) (h2 : X b)
    (h3 : L.abs c = (mask (L.abs c) (bitsAre b)).map (·.getD R.dflt)) :
    Neat LB X L Canon ⟨c, some b⟩ :=
  ⟨h1, fun b' hb => by simp at hb; subst hb; exact h2, by rw [holds_some]; exact h3⟩

theorem Neat.length {v : Of B R} (h : Neat LB X L Canon v) :
    (L.abs v.coll).length = (holds LB L v).length := by
  rw [h.2.2, List.length_map]

theorem materialize_neat (TX : BTidy LB X) {env : World} {v : Of B R} {b : BitmapOf B.C} (hv : Ok LB L v)
    (hn : Neat LB X L Canon v) (h : materialize B R env v = .ok b) :
    Neat LB X L Canon ⟨v.coll, some b⟩ := by
  obtain ⟨m1, m2, m3⟩ := materialize_ok hv h
  refine ⟨hn.1, ?_, by rw [m2]; exact hn.2.2⟩
  intro b' hb
  simp only [Option.some.injEq] at hb
  subst hb
  obtain ⟨c, ob⟩ := v
  cases ob with
  | some b' =>
    simp only [materialize, Res.ok.injEq] at h
    subst h
    exact hn.2.1 _ rfl
  | none =>
    simp only [materialize, L.len_ok hv.1] at h
    split at h
    · next b' heq =>
      simp only [Res.ok.injEq] at h
      subst h
      exact TX.allSet (Prod.ext heq rfl)
    · simp at h

theorem tryMaterialize_neat (TX : BTidy LB X) {w w' : World} {v : Of B R} {b : BitmapOf B.C} (hv : Ok LB L v)
    (hn : Neat LB X L Canon v) (h : tryMaterialize B R w v = (.ok b, w')) :
    Neat LB X L Canon ⟨v.coll, some b⟩ := by
  obtain ⟨m1, m2, m3⟩ := tryMaterialize_ok hv h
  refine ⟨hn.1, ?_, by rw [m2]; exact hn.2.2⟩
  intro b' hb
  simp only [Option.some.injEq] at hb
  subst hb
  obtain ⟨c, ob⟩ := v
  cases ob with
  | some b' =>
    simp only [tryMaterialize, Prod.mk.injEq, Try.ok.injEq] at h
    obtain ⟨rfl, rfl⟩ := h
    exact hn.2.1 _ rfl
  | none =>
    simp only [tryMaterialize, L.len_ok hv.1] at h
    exact TX.tryAllSet h

theorem materialize_live {cap : Nat} (TB : Takes LB.toLawfulR cap) {env : World} {v : Of B R}
    (he : TightHints env.oracle) (hv : Ok LB L v) (hr : (holds LB L v).length ≤ 8 * cap) :
    ∃ b, materialize B R env v = .ok b := by
  obtain ⟨c, ob⟩ := v
  cases ob with
  | some b => exact ⟨b, rfl⟩
  | none =>
    simp only [materialize, L.len_ok hv.1]
    have h1 := BitmapOf.allSet_live TB (n := (L.abs c).length) he (by simpa [holds, abs] using hr)
    have h2 : (BitmapOf.allSet B env (L.abs c).length).1 ≠ .err :=
      BitmapOf.around_ne_err (LB.fromIterIn_ne _ _)
    split
    · exact ⟨_, rfl⟩
    · next h =>
      cases e : (BitmapOf.allSet B env (L.abs c).length).1 with
      | ok b => exact absurd e (h b)
      | err => exact absurd e h2
      | panic => exact absurd e h1

theorem tryMaterialize_live {cap : Nat} (TB : Takes LB.toLawfulR cap) {w : World} {v : Of B R}
    (hw : Kind w) (hv : Ok LB L v) (hr : (holds LB L v).length ≤ 8 * cap) :
    ∃ b w', tryMaterialize B R w v = (.ok b, w') ∧ Kind w' := by
  obtain ⟨c, ob⟩ := v
  cases ob with
  | some b => exact ⟨b, w, rfl, hw⟩
  | none =>
    simp only [tryMaterialize, L.len_ok hv.1]
    exact BitmapOf.tryAllSet_live TB hw (by simpa [holds, abs] using hr)

/-- The state between two chunks. -/
structure Held (LB : LawfulB B) (X : BitmapOf B.C → Prop) (L : LawfulR R) (Canon : R.C → Prop) (c : R.C) (b : BitmapOf B.C) :
    Prop where
  mid : Mid LB L c b
  canon : Canon c
  exact : X b
  vals : L.abs c = (mask (L.abs c) (bitsAre b)).map (·.getD R.dflt)

theorem Held.neat {c : R.C} {b : BitmapOf B.C} (h : Held LB X L Canon c b) :
    Neat LB X L Canon ⟨c, some b⟩ := neat_mk h.canon h.exact h.vals

/-- Truncating drops nothing. -/
theorem held_of {v : Of B R} {b : BitmapOf B.C} {c : R.C} {n : Nat} (T : Tidy L Canon)
    (hi : Ok LB L ⟨v.coll, some b⟩) (hn : Neat LB X L Canon ⟨v.coll, some b⟩) (hb : n = b.bits)
    (h : R.truncate v.coll n = (c, .ok)) : Held LB X L Canon c b ∧ L.abs c = L.abs v.coll := by
  subst hb
  obtain ⟨c', h1, h2, h3, -⟩ := L.trunc_ok b.bits hi.1
  rw [h] at h1
  simp only [Prod.mk.injEq, and_true] at h1
  subst h1
  have hlen : (L.abs v.coll).length = b.bits := by
    have := hn.length
    rw [← own_bits hi] at this; exact this
  have hab : L.abs c = L.abs v.coll := by rw [h3, List.take_of_length_le (Nat.le_of_eq hlen)]
  refine ⟨⟨(Mid.of_trunc hi h2 h3).1, T.trunc hi.1 hn.1 (Nat.le_of_eq hlen) h,
    hn.2.1 _ rfl, ?_⟩, hab⟩
  rw [hab]
  have := hn.2.2
  rw [holds_some] at this
  exact this

theorem Held.step {c c' : R.C} {b b' : BitmapOf B.C} {l : List (Option O)} (h : Held LB X L Canon c b)
    (hc : L.Inv c') (hca : L.abs c' = L.abs c ++ l.map (·.getD R.dflt)) (hk : Canon c')
    (hb : b'.Inv LB) (hba : bitsAre b' = bitsAre b ++ l.map Option.isSome) (hx : X b') :
    Held LB X L Canon c' b' := by
  obtain ⟨m1, m2⟩ := h.mid.step hc hca hb hba
  refine ⟨m1, hk, hx, ?_⟩
  rw [m2, List.map_append, ← h.vals, hca]

theorem extendLoop_neat (TX : BTidy LB X) (T : Tidy L Canon) (s : Src (Option O)) :
    ∀ (c : R.C) (b : BitmapOf B.C), Held LB X L Canon c b →
    ∀ v', extendLoop B R c b s = (v', .ok) → Neat LB X L Canon v' := by
  intro c b hm v' h
  rw [extendLoop] at h
  have htk := Src.takeChunk_items validityChunk s
  generalize hE : R.extend c (values R.dflt (Src.takeChunk validityChunk s).1) = E at *
  obtain ⟨c1, o1⟩ := E
  cases o1 with
  | err => simp at h
  | panic => simp at h
  | ok =>
    simp only at h
    obtain ⟨e1, e2, e3⟩ := L.ext_ok hm.mid.inv hE
    rw [values_items, htk] at e2
    have hfl : flags (Src.takeChunk validityChunk s).1 = (s.items.take validityChunk).map Option.isSome := by
      simp [flags, htk]
    rw [hfl] at h
    obtain ⟨b3, b4⟩ := BitmapOf.extend_spec
      (s := Src.ofList ((s.items.take validityChunk).map Option.isSome)) hm.mid.binv
    simp only [Src.items_ofList, Src.panics_ofList] at b4
    generalize hF : BitmapOf.extend B b (Src.ofList (List.map Option.isSome (List.take validityChunk s.items))) = F at *
    obtain ⟨bb, o2⟩ := F
    cases o2 with
    | err => simp at h
    | panic => simp at h
    | ok =>
      simp only at h
      obtain ⟨b1, b4, -⟩ := b4 rfl
      have hst := hm.step e1 e2 (T.ext hm.mid.inv hm.canon hE) b1 b4
        (TX.ext hm.mid.binv hm.exact hF)
      split at h
      · simp only [Prod.mk.injEq, and_true] at h
        subst h
        exact hst.neat
      · next hge =>
        have hge' : validityChunk ≤ s.items.length := by
          simp only [List.length_map, List.length_take] at hge; omega
        have hdec : (Src.takeChunk validityChunk s).2.length < List.length s := by
          have := takeChunk_length validityChunk s
          rw [htk, List.length_take, Nat.min_eq_left hge'] at this
          unfold validityChunk at this ⊢; omega
        exact extendLoop_neat TX T (Src.takeChunk validityChunk s).2 c1 bb hst v' h
termination_by s.length

theorem tryExtendLoop_neat (TX : BTidy LB X) (T : Tidy L Canon) (len0 : Nat) (s : Src (Option O)) :
    ∀ (w : World) (c : R.C) (b : BitmapOf B.C), Held LB X L Canon c b →
    ∀ v' w', tryExtendLoop B R len0 w c b s = (v', .ok, w') → Neat LB X L Canon v' := by
  intro w c b hm v' w' h
  rw [tryExtendLoop] at h
  have htk := Src.takeChunk_items validityChunk s
  generalize hE : R.tryExtend w c (values R.dflt (Src.takeChunk validityChunk s).1) = E at *
  obtain ⟨c1, o1, w1⟩ := E
  have hroll : ∀ {v : Of B R} {w}, rollback B R v len0 w ≠ (v', .ok, w') := by
    intro v w hr
    unfold rollback at hr
    split at hr
    · simp at hr
    · next hx he => simp only [Prod.mk.injEq] at hr; exact hx hr.2.1
  cases o1 with
  | err => exact absurd h hroll
  | panic => simp at h
  | ok =>
    simp only at h
    obtain ⟨e1, e2, e3⟩ := L.tryExt_ok hm.mid.inv hE
    rw [values_items, htk] at e2
    have hfl : flags (Src.takeChunk validityChunk s).1 = (s.items.take validityChunk).map Option.isSome := by
      simp [flags, htk]
    rw [hfl] at h
    generalize hF : BitmapOf.tryExtend B w1 b (Src.ofList (List.map Option.isSome (List.take validityChunk s.items))) = F at *
    obtain ⟨bb, o2, w2⟩ := F
    have b4 := (BitmapOf.tryExtend_spec hm.mid.binv hF).1
    simp only [Src.items_ofList, Src.panics_ofList] at b4
    cases o2 with
    | err => exact absurd h hroll
    | panic => simp at h
    | ok =>
      simp only at h
      obtain ⟨b1, b4, -⟩ := b4 rfl
      have hst := hm.step e1 e2 (T.tryExt hm.mid.inv hm.canon hE) b1 b4
        (TX.tryExt hm.mid.binv hm.exact hF)
      split at h
      · simp only [Prod.mk.injEq, true_and] at h
        obtain ⟨rfl, rfl⟩ := h
        exact hst.neat
      · next hge =>
        have hge' : validityChunk ≤ s.items.length := by
          simp only [List.length_map, List.length_take] at hge; omega
        have hdec : (Src.takeChunk validityChunk s).2.length < List.length s := by
          have := takeChunk_length validityChunk s
          rw [htk, List.length_take, Nat.min_eq_left hge'] at this
          unfold validityChunk at this ⊢; omega
        exact tryExtendLoop_neat TX T len0 (Src.takeChunk validityChunk s).2 w2 c1 bb hst v' w' h
termination_by s.length

variable {Rm : List O → Prop} {Sp : Nat → List O → Prop}

/-- The first chunk fits. -/
theorem room_chunk (Q : TryGrows L Canon Rm) {l : List O} {m : List (Option O)} {n : Nat} {d : O}
    (h : Rm (l ++ m.map (·.getD d))) : Rm (l ++ (m.take n).map (·.getD d)) := by
  have : l ++ m.map (·.getD d) = (l ++ (m.take n).map (·.getD d)) ++ (m.drop n).map (·.getD d) := by
    rw [List.append_assoc, ← List.map_append, List.take_append_drop]
  rw [this] at h
  exact Q.pre h

theorem extendLoop_live {cap : Nat} (TX : BTidy LB X)
    (GX : ExtGrows (bitmapBG LB).lawful X fun l => l.length ≤ 8 * cap) (T : Tidy L Canon)
    (Q : ExtGrows L Canon Rm) (s : Src (Option O)) (hp : s.panics = false) :
    ∀ (c : R.C) (b : BitmapOf B.C), Held LB X L Canon c b →
    b.bits + s.items.length ≤ 8 * cap → Rm (L.abs c ++ s.items.map (·.getD R.dflt)) →
    (extendLoop B R c b s).2 = .ok := by
  intro c b hm hb hr
  rw [extendLoop]
  have htk := Src.takeChunk_items validityChunk s
  have htp := Src.takeChunk_panics validityChunk s
  have hok := Q.ext (s := values R.dflt (Src.takeChunk validityChunk s).1) hm.mid.inv hm.canon
    (by rw [values_panics, htp, hp]; rfl) (by rw [values_items, htk]; exact room_chunk Q.toTryGrows hr)
  generalize hE : R.extend c (values R.dflt (Src.takeChunk validityChunk s).1) = E at *
  obtain ⟨c1, o1⟩ := E
  simp only at hok
  subst hok
  obtain ⟨e1, e2, e3⟩ := L.ext_ok hm.mid.inv hE
  rw [values_items, htk] at e2
  have hfl : flags (Src.takeChunk validityChunk s).1 = (s.items.take validityChunk).map Option.isSome := by
    simp [flags, htk]
  rw [hfl]
  have hok2 : (BitmapOf.extend B b
      (Src.ofList ((s.items.take validityChunk).map Option.isSome))).2 = .ok := GX.ext (s := Src.ofList ((s.items.take validityChunk).map Option.isSome))
    hm.mid.binv hm.exact (by simp) (by
      show (bitsAre b ++ _).length ≤ _
      rw [List.length_append, bits_length]; simp; omega)
  obtain ⟨b3, b4⟩ := BitmapOf.extend_spec
    (s := Src.ofList ((s.items.take validityChunk).map Option.isSome)) hm.mid.binv
  simp only [Src.items_ofList, Src.panics_ofList] at b4
  generalize hF : BitmapOf.extend B b (Src.ofList (List.map Option.isSome (List.take validityChunk s.items))) = F at *
  obtain ⟨bb, o2⟩ := F
  simp only at hok2
  subst hok2
  obtain ⟨b1, b4, -⟩ := b4 rfl
  have hst := hm.step e1 e2 (T.ext hm.mid.inv hm.canon hE) b1 b4
    (TX.ext hm.mid.binv hm.exact hF)
  have hbits : bb.bits = b.bits + (s.items.take validityChunk).length := by
    have := congrArg List.length b4
    rw [bits_length, List.length_append, bits_length] at this; simpa using this
  simp only
  split
  · rfl
  · next hge =>
    have hge' : validityChunk ≤ s.items.length := by
      simp only [List.length_map, List.length_take] at hge; omega
    obtain ⟨r1, r2⟩ := Src.takeChunk_rest_items validityChunk s hge'
    have hdec : (Src.takeChunk validityChunk s).2.length < List.length s := by
      have := takeChunk_length validityChunk s
      rw [htk, List.length_take, Nat.min_eq_left hge'] at this
      unfold validityChunk at this ⊢; omega
    refine extendLoop_live TX GX T Q (Src.takeChunk validityChunk s).2 (by rw [r2]; exact hp) c1 bb hst
      ?_ ?_
    · rw [r1, hbits, List.length_take, List.length_drop]; omega
    · rw [r1, e2, List.append_assoc, ← List.map_append, List.take_append_drop]; exact hr
termination_by s.length

theorem tryExtendLoop_live {cap : Nat} (TX : BTidy LB X)
    (GX : TryGrows (bitmapBG LB).lawful X fun l => l.length ≤ 8 * cap) (T : Tidy L Canon)
    (Q : TryGrows L Canon Rm) (len0 : Nat) (s : Src (Option O)) (hp : s.panics = false) :
    ∀ (w : World) (c : R.C) (b : BitmapOf B.C), Kind w → Held LB X L Canon c b →
    b.bits + s.items.length ≤ 8 * cap → Rm (L.abs c ++ s.items.map (·.getD R.dflt)) →
    ∃ v' w', tryExtendLoop B R len0 w c b s = (v', .ok, w') ∧ Kind w' := by
  intro w c b hw hm hb hr
  rw [tryExtendLoop]
  have htk := Src.takeChunk_items validityChunk s
  have htp := Src.takeChunk_panics validityChunk s
  obtain ⟨c1, w1, hE, hw1⟩ := Q.tryExt (s := values R.dflt (Src.takeChunk validityChunk s).1)
    hw hm.mid.inv hm.canon
    (by rw [values_panics, htp, hp]; rfl) (by rw [values_items, htk]; exact room_chunk Q hr)
  obtain ⟨e1, e2, e3⟩ := L.tryExt_ok hm.mid.inv hE
  rw [values_items, htk] at e2
  have hfl : flags (Src.takeChunk validityChunk s).1 = (s.items.take validityChunk).map Option.isSome := by
    simp [flags, htk]
  rw [hfl]
  obtain ⟨bb, w2, hF, hw2⟩ : ∃ b' w', BitmapOf.tryExtend B w1 b
      (Src.ofList ((s.items.take validityChunk).map Option.isSome)) = (b', .ok, w') ∧ Kind w' :=
    GX.tryExt
    (s := Src.ofList ((s.items.take validityChunk).map Option.isSome))
    hw1 hm.mid.binv hm.exact (by simp) (by
      show (bitsAre b ++ _).length ≤ _
      rw [List.length_append, bits_length]; simp; omega)
  obtain ⟨b1, b4, -⟩ := (BitmapOf.tryExtend_spec hm.mid.binv hF).1 rfl
  simp only [Src.items_ofList] at b4
  have hst := hm.step e1 e2 (T.tryExt hm.mid.inv hm.canon hE) b1 b4
    (TX.tryExt hm.mid.binv hm.exact hF)
  have hbits : bb.bits = b.bits + (s.items.take validityChunk).length := by
    have := congrArg List.length b4
    rw [bits_length, List.length_append, bits_length] at this; simpa using this
  simp only [hE, hF]
  split
  · exact ⟨_, _, rfl, hw2⟩
  · next hge =>
    have hge' : validityChunk ≤ s.items.length := by
      simp only [List.length_map, List.length_take] at hge; omega
    obtain ⟨r1, r2⟩ := Src.takeChunk_rest_items validityChunk s hge'
    have hdec : (Src.takeChunk validityChunk s).2.length < List.length s := by
      have := takeChunk_length validityChunk s
      rw [htk, List.length_take, Nat.min_eq_left hge'] at this
      unfold validityChunk at this ⊢; omega
    refine tryExtendLoop_live TX GX T Q len0 (Src.takeChunk validityChunk s).2 (by rw [r2]; exact hp)
      w2 c1 bb hw2 hst ?_ ?_
    · rw [r1, hbits, List.length_take, List.length_drop]; omega
    · rw [r1, e2, List.append_assoc, ← List.map_append, List.take_append_drop]; exact hr
termination_by s.length

theorem extend_neat (TX : BTidy LB X) (T : Tidy L Canon) {env : World} {v v' : Of B R} {s : Src (Option O)}
    (hv : Ok LB L v) (hn : Neat LB X L Canon v) (h : extend B R env v s = (v', .ok)) :
    Neat LB X L Canon v' := by
  unfold extend at h
  cases hm : materialize B R env v with
  | panic => rw [hm] at h; simp at h
  | ok b =>
    rw [hm] at h
    obtain ⟨m1, m2, m3⟩ := materialize_ok hv hm
    obtain ⟨c, h1, h2, h3, -⟩ := L.trunc_ok b.bits hv.1
    simp only [h1] at h
    exact extendLoop_neat TX T s c b (held_of T m1 (materialize_neat TX hv hn hm) rfl h1).1 v' h

theorem tryExtend_neat (TX : BTidy LB X) (T : Tidy L Canon) {w w' : World} {v v' : Of B R} {s : Src (Option O)}
    (hv : Ok LB L v) (hn : Neat LB X L Canon v) (h : tryExtend B R w v s = (v', .ok, w')) :
    Neat LB X L Canon v' := by
  unfold tryExtend at h
  simp only [len_ok hv] at h
  generalize hm : tryMaterialize B R w v = M at *
  obtain ⟨t, w1⟩ := M
  cases t with
  | panic => simp at h
  | err => simp at h
  | ok b =>
    obtain ⟨m1, m2, m3⟩ := tryMaterialize_ok hv hm
    obtain ⟨c, h1, h2, h3, -⟩ := L.trunc_ok (holds LB L v).length hv.1
    simp only [h1] at h
    exact tryExtendLoop_neat TX T _ s w1 c b
      (held_of T m1 (tryMaterialize_neat TX hv hn hm) m3.symm h1).1 v' w' h

theorem extend_live {cap : Nat} (TB : Takes LB.toLawfulR cap) (TX : BTidy LB X)
    (GX : ExtGrows (bitmapBG LB).lawful X fun l => l.length ≤ 8 * cap) (T : Tidy L Canon)
    (Q : ExtGrows L Canon Rm) {env : World} {v : Of B R} {s : Src (Option O)}
    (he : TightHints env.oracle) (hv : Ok LB L v) (hn : Neat LB X L Canon v) (hp : s.panics = false)
    (h1 : (holds LB L v ++ s.items).length ≤ 8 * cap)
    (h2 : Rm ((holds LB L v ++ s.items).map (·.getD R.dflt))) :
    (extend B R env v s).2 = .ok := by
  rw [List.length_append] at h1
  rw [List.map_append, ← hn.2.2] at h2
  obtain ⟨b, hm⟩ := materialize_live TB he hv (by omega)
  obtain ⟨m1, m2, m3⟩ := materialize_ok hv hm
  obtain ⟨c, e1, e2, e3, -⟩ := L.trunc_ok b.bits hv.1
  obtain ⟨d1, d2⟩ := held_of T m1 (materialize_neat TX hv hn hm) rfl e1
  simp only [extend, hm, e1]
  exact extendLoop_live TX GX T Q s hp c b d1 (by omega) (by rw [d2]; exact h2)

theorem tryExtend_live {cap : Nat} (TB : Takes LB.toLawfulR cap) (TX : BTidy LB X)
    (GX : TryGrows (bitmapBG LB).lawful X fun l => l.length ≤ 8 * cap) (T : Tidy L Canon)
    (Q : TryGrows L Canon Rm) {w : World} {v : Of B R} {s : Src (Option O)}
    (hw : Kind w) (hv : Ok LB L v) (hn : Neat LB X L Canon v) (hp : s.panics = false)
    (h1 : (holds LB L v ++ s.items).length ≤ 8 * cap)
    (h2 : Rm ((holds LB L v ++ s.items).map (·.getD R.dflt))) :
    ∃ v' w', tryExtend B R w v s = (v', .ok, w') ∧ Kind w' := by
  rw [List.length_append] at h1
  rw [List.map_append, ← hn.2.2] at h2
  obtain ⟨b, w1, hm, hw1⟩ := tryMaterialize_live TB hw hv (by omega)
  obtain ⟨m1, m2, m3⟩ := tryMaterialize_ok hv hm
  obtain ⟨c, e1, e2, e3, -⟩ := L.trunc_ok (holds LB L v).length hv.1
  obtain ⟨d1, d2⟩ := held_of T m1 (tryMaterialize_neat TX hv hn hm) m3.symm e1
  simp only [tryExtend, len_ok hv, hm, e1]
  exact tryExtendLoop_live TX GX T Q _ s hp w1 c b hw1 d1 (by omega) (by rw [d2]; exact h2)

theorem neat_same {c c' : R.C} {b b' : BitmapOf B.C} (h : Neat LB X L Canon ⟨c, some b⟩)
    (hk : Canon c') (ha : L.abs c' = L.abs c) (hx : X b') (hba : bitsAre b' = bitsAre b) :
    Neat LB X L Canon ⟨c', some b'⟩ := by
  refine neat_mk hk hx ?_
  rw [ha, hba]
  have := h.2.2
  rwa [holds_some] at this

theorem reserve_neat (TX : BTidy LB X) (T : Tidy L Canon) {env : World} {v v' : Of B R} {n : Nat} {o : Out}
    (hv : Ok LB L v) (hn : Neat LB X L Canon v) (h : reserve B R env v n = (v', o)) :
    Neat LB X L Canon v' := by
  unfold reserve at h
  cases hm : materialize B R env v with
  | panic =>
    rw [hm] at h
    simp only [Prod.mk.injEq] at h
    obtain ⟨rfl, rfl⟩ := h
    exact hn
  | ok b =>
    rw [hm] at h
    obtain ⟨m1, m2, m3⟩ := materialize_ok hv hm
    have hk := materialize_neat TX hv hn hm
    simp only at h
    generalize hB : BitmapOf.reserve B b n = F at *
    obtain ⟨b', o1⟩ := F
    obtain ⟨p1, p2, p3⟩ := BitmapOf.reserve_ok m1.bits.1 hB
    have hx := TX.reserve m1.bits.1 (hk.2.1 _ rfl) hB
    cases o1 with
    | err => exact absurd rfl p3
    | panic =>
      simp only [Prod.mk.injEq] at h
      obtain ⟨rfl, rfl⟩ := h
      exact neat_same hk hn.1 rfl hx p2
    | ok =>
      simp only [Prod.mk.injEq] at h
      obtain ⟨rfl, rfl⟩ := h
      obtain ⟨c1, c2, c3, -⟩ := L.reserve_ok (n := n) hv.1 (Prod.ext rfl rfl)
      exact neat_same hk (T.reserve hv.1 hn.1 (Prod.ext rfl rfl)) c2 hx p2

theorem tryReserve_neat (TX : BTidy LB X) (T : Tidy L Canon) {w w' : World} {v v' : Of B R} {n : Nat} {o : Out}
    (hv : Ok LB L v) (hn : Neat LB X L Canon v) (h : tryReserve B R w v n = (v', o, w')) :
    Neat LB X L Canon v' := by
  unfold tryReserve at h
  have hnp := tryMaterialize_np (w := w) hv
  generalize hm : tryMaterialize B R w v = M at *
  obtain ⟨t, w1⟩ := M
  cases t with
  | panic => exact absurd rfl hnp
  | err =>
    simp only [Prod.mk.injEq] at h
    obtain ⟨rfl, rfl, rfl⟩ := h
    exact hn
  | ok b =>
    obtain ⟨m1, m2, m3⟩ := tryMaterialize_ok hv hm
    have hk := tryMaterialize_neat TX hv hn hm
    simp only at h
    generalize hC : R.tryReserve w1 v.coll n = C at *
    obtain ⟨c, o1, w2⟩ := C
    obtain ⟨c1, c2, c3, -⟩ := L.tryReserve_ok hv.1 hC
    have hc := T.tryReserve hv.1 hn.1 hC
    cases o1 with
    | panic => exact absurd rfl c3
    | err =>
      simp only [Prod.mk.injEq] at h
      obtain ⟨rfl, rfl, rfl⟩ := h
      exact neat_same hk hc c2 (hk.2.1 _ rfl) rfl
    | ok =>
      simp only [Prod.mk.injEq] at h
      generalize hB : BitmapOf.tryReserve B w2 b n = F at *
      obtain ⟨b', o2, w3⟩ := F
      obtain ⟨rfl, rfl, rfl⟩ := h
      obtain ⟨p1, p2, p3⟩ := BitmapOf.tryReserve_ok m1.bits.1 hB
      exact neat_same hk hc c2 (TX.tryReserve m1.bits.1 (hk.2.1 _ rfl) hB) p2

theorem reserve_live {cap : Nat} (TB : Takes LB.toLawfulR cap) (Q : Roomy L Canon Rm Sp)
    {env : World} {v : Of B R} {n : Nat} (he : TightHints env.oracle) (hv : Ok LB L v)
    (hn : Neat LB (Exact LB) L Canon v) (h1 : (holds LB L v).length + n ≤ 8 * cap)
    (h2 : Sp n ((holds LB L v).map (·.getD R.dflt))) : (reserve B R env v n).2 = .ok := by
  rw [← hn.2.2] at h2
  obtain ⟨b, hm⟩ := materialize_live TB he hv (by omega)
  obtain ⟨m1, m2, m3⟩ := materialize_ok hv hm
  have hk := materialize_neat (bitmap_exact LB) hv hn hm
  have hb := BitmapOf.reserve_live TB (n := n) m1.bits.1 (hk.2.1 _ rfl) (by omega)
  simp only [reserve, hm]
  generalize hB : BitmapOf.reserve B b n = F at *
  obtain ⟨b', o1⟩ := F
  simp only at hb
  subst hb
  exact Q.reserve hv.1 hn.1 h2

theorem tryReserve_live {cap : Nat} (TB : Takes LB.toLawfulR cap) (Q : Roomy L Canon Rm Sp)
    {w : World} {v : Of B R} {n : Nat} (hw : Kind w) (hv : Ok LB L v)
    (hn : Neat LB (Exact LB) L Canon v) (h1 : (holds LB L v).length + n ≤ 8 * cap)
    (h2 : Sp n ((holds LB L v).map (·.getD R.dflt))) :
    ∃ v' w', tryReserve B R w v n = (v', .ok, w') ∧ Kind w' := by
  rw [← hn.2.2] at h2
  obtain ⟨b, w1, hm, hw1⟩ := tryMaterialize_live TB hw hv (by omega)
  obtain ⟨m1, m2, m3⟩ := tryMaterialize_ok hv hm
  have hk := tryMaterialize_neat (bitmap_exact LB) hv hn hm
  obtain ⟨c, w2, hc, hw2⟩ := Q.tryReserve hw1 hv.1 hn.1 h2
  obtain ⟨b', w3, hb, hw3⟩ := BitmapOf.tryReserve_live TB (n := n) hw2 m1.bits.1 (hk.2.1 _ rfl)
    (by omega)
  simp only [tryReserve, hm, hc, hb]
  exact ⟨_, _, rfl, hw3⟩

/-! ## Constructors -/

theorem pushBits_exact (TX : BTidy LB X) : ∀ (l : List Bool) {b b' : BitmapOf B.C}, b.Inv LB → X b →
    pushBits B b l = (b', .ok) → X b'
  | [], b, b', hb, hx, h => by
    simp only [pushBits, Prod.mk.injEq, and_true] at h
    subst h
    exact hx
  | x :: l, b, b', hb, hx, h => by
    obtain ⟨b3, b4⟩ := BitmapOf.extend_spec (s := [.item x]) hb
    simp only [pushBits] at h
    generalize hE : BitmapOf.extend B b [.item x] = E at *
    obtain ⟨bb, o1⟩ := E
    cases o1 with
    | err => simp at h
    | panic => simp at h
    | ok => exact pushBits_exact TX l (b4 rfl).1 (TX.ext hb hx hE) h

theorem pushBits_live {cap : Nat} (TB : Takes LB.toLawfulR cap) : ∀ (l : List Bool)
    {b : BitmapOf B.C}, b.Inv LB → Exact LB b → b.bits + l.length ≤ 8 * cap →
    (pushBits B b l).2 = .ok
  | [], b, hb, hx, h => rfl
  | x :: l, b, hb, hx, h => by
    obtain ⟨b3, b4⟩ := BitmapOf.extend_spec (s := [.item x]) hb
    simp only [List.length_cons] at h
    have hok := BitmapOf.ext_live TB (s := [.item x]) hb hx rfl (by simp [Src.items]; omega)
    simp only [pushBits]
    generalize hE : BitmapOf.extend B b [.item x] = E at *
    obtain ⟨bb, o1⟩ := E
    simp only at hok
    subst hok
    obtain ⟨i1, i2, -⟩ := b4 rfl
    have hbits : bb.bits = b.bits + 1 := by
      have := congrArg List.length i2
      rw [bits_length, List.length_append, bits_length] at this; simpa [Src.items] using this
    exact pushBits_live TB l i1 (BitmapOf.ext_exact hb hx hE) (by omega)

theorem fromIterWith_neat (TX : BTidy LB X) {mk : World → Src O → Try R.C × World}
    (hmk : ∀ {w w' s c}, s.Fused → mk w s = (.ok c, w') →
      L.Inv c ∧ L.abs c = s.items ∧ s.panics = false)
    (hc : ∀ {w w' s c}, s.Fused → mk w s = (.ok c, w') → Canon c) {w w' : World}
    {s : Src (Option O)} {v : Of B R} (hs : s.Fused) (h : fromIterWith B R mk w s = (.ok v, w')) :
    Neat LB X L Canon v := by
  have hall := (fromIterWith_ok (LB := LB) (L := L) hmk hs h).2.1
  unfold fromIterWith at h
  generalize hB : BitmapOf.withCap B (w.capHint s.items.length) = F at *
  cases F with
  | err => simp at h
  | panic => simp at h
  | ok b =>
    obtain ⟨q1, q2⟩ := BitmapOf.withCap_ok (L := LB) hB
    simp only at h
    generalize hC : mk w.next (values R.dflt s) = C at *
    obtain ⟨t, w1⟩ := C
    cases t with
    | err => simp at h
    | panic => simp at h
    | ok c =>
      have hvf : (values R.dflt s).Fused := by unfold values; exact hs.map
      obtain ⟨k1, k2, k3⟩ := hmk hvf hC
      rw [values_items] at k2
      simp only at h
      generalize hP : pushBits B b ((R.pulled s).map Option.isSome) = P at *
      obtain ⟨b', o⟩ := P
      cases o with
      | err => simp at h
      | panic => simp at h
      | ok =>
        simp only [Prod.mk.injEq, Try.ok.injEq] at h
        obtain ⟨rfl, rfl⟩ := h
        refine ⟨hc hvf hC, ?_, by rw [hall]; exact k2⟩
        intro b1 hb1
        simp only [Option.some.injEq] at hb1
        subst hb1
        exact pushBits_exact TX _ q1 (TX.withCap hB) hP

theorem fromIterWith_live {cap : Nat} (TB : Takes LB.toLawfulR cap) (L : LawfulR R)
    {mk : World → Src O → Try R.C × World} {w : World} {s : Src (Option O)}
    (ht : TightHints w.oracle) (hs : s.Fused) (h1 : s.items.length ≤ 8 * cap)
    (h2 : (mk w.next (values R.dflt s)).1 ≠ .panic) :
    (fromIterWith B R mk w s).1 ≠ .panic := by
  have hcap := BitmapOf.withCap_live TB (n := w.capHint s.items.length)
    (Nat.le_trans (tight_capHint ht _) h1)
  have hne : BitmapOf.withCap B (w.capHint s.items.length) ≠ .err := (bitmapBG LB).withCap_ne _
  unfold fromIterWith
  generalize hB : BitmapOf.withCap B (w.capHint s.items.length) = F at *
  cases F with
  | err => exact absurd rfl hne
  | panic => exact absurd rfl hcap
  | ok b =>
    obtain ⟨q1, q2⟩ := BitmapOf.withCap_ok (L := LB) hB
    have hb0 : b.bits = 0 := by rw [← bits_length, q2]; rfl
    simp only
    generalize hC : mk w.next (values R.dflt s) = C at *
    obtain ⟨t, w1⟩ := C
    cases t with
    | err => simp
    | panic => exact absurd rfl h2
    | ok c =>
      have hp := pushBits_live TB ((R.pulled s).map Option.isSome) q1 ((bitmap_tidy LB).withCap hB)
        (by rw [L.pulled_fused hs, List.length_map]; omega)
      simp only
      generalize pushBits B b ((R.pulled s).map Option.isSome) = P at *
      obtain ⟨b', o⟩ := P
      simp only at hp
      subst hp
      simp

end ValidityOf

open ValidityOf

section
variable {B : Backing Byte} {R : Realloc O} {LB : LawfulB B} {L : LawfulR R} {Canon : R.C → Prop}
  {env : World}

theorem neat_empty {c : R.C} {b : BitmapOf B.C} (hc : Canon c) (hx : X b) (h1 : L.abs c = []) :
    Neat LB X L Canon ⟨c, some b⟩ := neat_mk hc hx (by simp [h1, mask])

theorem validity_tidy (TX : BTidy LB X) (T : Tidy L Canon) :
    Tidy (validityBG env LB L).lawful (Neat LB X L Canon) where
  empty := ⟨T.empty, by simp, by
    show L.abs R.empty = ((L.abs R.empty).map some).map _
    simp [L.empty_ok.2.1]⟩
  withCap {n c} h := by
    have h : ValidityOf.withCap B R n = .ok c := h
    unfold ValidityOf.withCap at h
    split at h
    · next c hc =>
      split at h
      · next b hb =>
        simp only [Try.ok.injEq] at h
        subst h
        exact neat_empty (T.withCap hc) (TX.withCap hb) (L.withCap_ok hc).2.1
      · simp at h
      · simp at h
    · simp at h
    · simp at h
  tryWithCap {w w' n c} h := by
    have h : ValidityOf.tryWithCap B R w n = (.ok c, w') := h
    unfold ValidityOf.tryWithCap at h
    split at h
    · next c w1 hc =>
      split at h
      · next b w2 hb =>
        simp only [Prod.mk.injEq, Try.ok.injEq] at h
        obtain ⟨rfl, rfl⟩ := h
        exact neat_empty (T.tryWithCap hc) (TX.tryWithCap hb) (L.tryWithCap_ok hc).2.1
      · simp at h
      · simp at h
    · simp at h
    · simp at h
  fromIter hs h := fromIterWith_neat TX (fun h1 h2 => by
      obtain ⟨a, b, c, -⟩ := L.fromIter_ok h1 h2; exact ⟨a, b, c⟩) T.fromIter hs h
  fromIterIn hs h := fromIterWith_neat TX (fun h1 h2 => by
      obtain ⟨a, b, c, -⟩ := L.fromIterIn_ok h1 h2; exact ⟨a, b, c⟩) T.fromIterIn hs h
  tryFromIter {w w' s c} hs h := by
    have h : ValidityOf.tryFromIter B R w s = (.ok c, w') := h
    unfold ValidityOf.tryFromIter at h
    split at h
    · next v0 w1 hv =>
      obtain ⟨h1, h2⟩ := tryWithCap_ok (LB := LB) (L := L) hv
      split at h
      · next v1 w2 he =>
        simp only [Prod.mk.injEq, Try.ok.injEq] at h
        obtain ⟨rfl, rfl⟩ := h
        refine tryExtend_neat TX T h1 ?_ he
        unfold ValidityOf.tryWithCap at hv
        split at hv
        · next c w1 hc =>
          split at hv
          · next b w2 hb =>
            simp only [Prod.mk.injEq, Try.ok.injEq] at hv
            obtain ⟨rfl, rfl⟩ := hv
            exact neat_empty (T.tryWithCap hc) (TX.tryWithCap hb)
              (L.tryWithCap_ok hc).2.1
          · simp at hv
          · simp at hv
        · simp at hv
        · simp at hv
      · simp at h
      · simp at h
    · simp at h
    · simp at h
  ext hc hk h := extend_neat TX T hc hk h
  tryExt hc hk h := tryExtend_neat TX T hc hk h
  reserve hc hk h := reserve_neat TX T hc hk h
  tryReserve hc hk h := tryReserve_neat TX T hc hk h
  trunc {v v' n o} hv hk hle h := by
    have hv : Ok LB L v := hv
    have hle : (holds LB L v).length ≤ n := hle
    have h : ValidityOf.truncate B R v n = (v', o) := h
    obtain ⟨v1, t1, t2, t3⟩ := ValidityOf.trunc_ok n hv
    rw [t1] at h
    simp only [Prod.mk.injEq] at h
    obtain ⟨rfl, -⟩ := h
    obtain ⟨c', c1, c2, c3, -⟩ := L.trunc_ok n hv.1
    simp only [ValidityOf.truncate, c1, Prod.mk.injEq, and_true] at t1
    subst t1
    have hcl := hk.length
    refine ⟨T.trunc hv.1 hk.1 (by omega) c1, ?_, ?_⟩
    · intro b hb
      simp only [Option.map_eq_some_iff] at hb
      obtain ⟨b0, hb0, rfl⟩ := hb
      refine TX.trunc (n := n) (hv.2 _ hb0).1 (hk.2.1 _ hb0) ?_ rfl
      show (bitsAre b0).length ≤ n
      rw [bits_length]
      obtain ⟨c, ob⟩ := v
      simp only at hb0
      subst hb0
      rw [own_bits hv]; exact hle
    · rw [t3, List.take_of_length_le hle, ← hk.2.2]
      show L.abs c' = _
      rw [c3, List.take_of_length_le (by omega)]

theorem validity_roomy {cap : Nat} {Rm : List O → Prop} {Sp : Nat → List O → Prop}
    (he : TightHints env.oracle) (TB : Takes LB.toLawfulR cap) (hcap : 8 * cap ≤ usizeMax)
    (T : Tidy L Canon) (Q : Roomy L Canon Rm Sp) :
    Roomy (validityBG env LB L).lawful (Neat LB (Exact LB) L Canon)
      (fun l => l.length ≤ 8 * cap ∧ Rm (l.map (·.getD R.dflt)))
      (fun n l => l.length + n ≤ 8 * cap ∧ Sp n (l.map (·.getD R.dflt))) where
  pre h := by
    obtain ⟨h1, h2⟩ := h
    rw [List.length_append] at h1
    rw [List.map_append] at h2
    exact ⟨by omega, Q.pre h2⟩
  mono h1 h2 := ⟨by omega, Q.mono h1 h2.2⟩
  size h := Q.size h.2
  withCap {n} h := by
    show ValidityOf.withCap B R n ≠ .panic
    have h1 := Q.withCap h.2
    have h2 := BitmapOf.withCap_live TB (n := n) (by simpa using h.1)
    unfold ValidityOf.withCap
    split
    · split <;> simp_all
    · simp
    · simp_all
  fromIter {w s} ht hs hp h :=
    fromIterWith_live TB L ht hs h.1 (Q.fromIter (w := w.next) ht (by unfold values; exact hs.map)
      (by rw [values_panics]; exact hp) (by rw [values_items]; exact h.2))
  fromIterIn {w s} ht hs hp h h2 :=
    fromIterWith_live TB L ht hs h.1 (Q.fromIterIn (w := w.next) ht (by unfold values; exact hs.map)
      (by rw [values_panics]; exact hp) (by rw [values_items]; exact h.2)
      (by rw [values_items, List.length_map]; exact h2.2))
  ext hc hk hp h := extend_live TB (bitmap_exact LB) (bitmap_roomy TB hcap).toExtGrows T Q.toExtGrows he hc hk hp h.1 h.2
  reserve hc hk h := reserve_live TB Q he hc hk h.1 h.2
  tryWithCap {w n} hw h := by
    obtain ⟨c, w1, h1, hw1⟩ := Q.tryWithCap hw h.2
    obtain ⟨b, w2, h2, hw2⟩ := BitmapOf.tryWithCap_live TB (n := n) hw1 (by simpa using h.1)
    refine ⟨⟨c, some b⟩, w2, ?_, hw2⟩
    show ValidityOf.tryWithCap B R w n = _
    simp only [ValidityOf.tryWithCap, h1, h2]
  tryFromIter {w s} hw hs hp h h2 := by
    have hhint := tight_capHint hw.2 s.items.length
    obtain ⟨c, w1, h1, hw1⟩ := Q.tryWithCap (w := w.next) hw (Q.mono hhint h2.2)
    obtain ⟨b, w2, h3, hw2⟩ := BitmapOf.tryWithCap_live TB (n := w.capHint s.items.length) hw1
      (by have := h.1; omega)
    have hv : ValidityOf.tryWithCap B R w.next (w.capHint s.items.length) = (.ok ⟨c, some b⟩, w2) := by
      simp only [ValidityOf.tryWithCap, h1, h3]
    obtain ⟨o1, o2⟩ := ValidityOf.tryWithCap_ok (LB := LB) (L := L) hv
    obtain ⟨v', w3, h4, hw3⟩ := tryExtend_live TB (bitmap_exact LB) (bitmap_roomy TB hcap).toTryGrows T Q.toTryGrows (s := s) hw2 o1
      (neat_empty (T.tryWithCap h1) ((bitmap_tidy LB).tryWithCap h3) (L.tryWithCap_ok h1).2.1) hp
      (by rw [o2]; exact h.1) (by rw [o2]; exact h.2)
    refine ⟨v', w3, ?_, hw3⟩
    show ValidityOf.tryFromIter B R w s = _
    simp only [ValidityOf.tryFromIter, hv, h4]
  tryExt hw hc hk hp h := tryExtend_live TB (bitmap_exact LB) (bitmap_roomy TB hcap).toTryGrows T Q.toTryGrows hw hc hk hp h.1 h.2
  tryReserve hw hc hk h := tryReserve_live TB Q hw hc hk h.1 h.2

end

end Narrow
