import Verif.Spec.BackendSame

/-! # The model over storages agrees with the model over vectors -/

namespace Narrow

open Spec

/-! ## Bitmaps -/

namespace BitmapOf

theorem phase1_seen (b : Bitmap) (s : Src Bool) : ∃ cap,
    Bitmap.phase1 ((storeBits b).seen (vecB byteMax 0#8).toBuf) s =
      (⟨⟨(Bitmap.phase1 b s).1.buffer.items, cap⟩, (Bitmap.phase1 b s).1.bits,
        (Bitmap.phase1 b s).1.offset⟩, (Bitmap.phase1 b s).2) ∧
    (Bitmap.phase1 b s).1.buffer.cap = b.buffer.cap := by
  obtain ⟨⟨items, cap⟩, bits, offset⟩ := b
  refine ⟨items.length, ?_⟩
  unfold Bitmap.phase1 seen
  simp only [Bitmap.bitIndex, Bitmap.byteIndex]
  cases strictAdd offset bits with
  | panic => exact ⟨rfl, rfl⟩
  | ok x =>
    simp only [Res.map]
    split
    · exact ⟨rfl, rfl⟩
    · cases items[x / 8]? <;> exact ⟨rfl, rfl⟩

theorem phase2_cap (items : List Byte) (cap cap' bits offset : Nat) (s : Src Bool) :
    Bitmap.phase2 ⟨⟨items, cap⟩, bits, offset⟩ s = Bitmap.phase2 ⟨⟨items, cap'⟩, bits, offset⟩ s := rfl

theorem extend_same (b : Bitmap) (s : Src Bool) :
    extend (vecB byteMax 0#8) (storeBits b) s = (storeBits (b.extend s).1, (b.extend s).2) := by
  obtain ⟨cap, h1, h2⟩ := phase1_seen b s.fuse
  unfold extend Bitmap.extend
  rw [h1]
  generalize Bitmap.phase1 b s.fuse = P at *
  obtain ⟨⟨⟨items, cap1⟩, bits, offset⟩, s1, p⟩ := P
  simp only at h2 ⊢
  subst h2
  cases p with
  | true => rfl
  | false =>
    simp only
    rw [phase2_cap items cap b.buffer.cap]
    generalize Bitmap.phase2 ⟨⟨items, b.buffer.cap⟩, bits, offset⟩ s1 = Q
    cases Q with
    | none => rfl
    | some q =>
      obtain ⟨buf, packed, consumed, p⟩ := q
      cases p with
      | true => rfl
      | false =>
        simp only
        generalize RVec.extend byteMax ⟨buf, b.buffer.cap⟩ packed = E
        obtain ⟨buf', o⟩ := E
        cases o <;> simp only
        cases strictAdd bits consumed <;> rfl

theorem tryExtend_same (w : World) (b : Bitmap) (s : Src Bool) :
    tryExtend (vecB byteMax 0#8) w (storeBits b) s =
      (storeBits (b.tryExtend w s).1, (b.tryExtend w s).2) := by
  obtain ⟨cap, h1, h2⟩ := phase1_seen b s.fuse
  unfold tryExtend Bitmap.tryExtend
  rw [h1]
  generalize Bitmap.phase1 b s.fuse = P at *
  obtain ⟨⟨⟨items, cap1⟩, bits, offset⟩, s1, p⟩ := P
  simp only at h2 ⊢
  subst h2
  cases p with
  | true => rfl
  | false =>
    simp only
    rw [phase2_cap items cap b.buffer.cap]
    generalize Bitmap.phase2 ⟨⟨items, b.buffer.cap⟩, bits, offset⟩ s1 = Q
    cases Q with
    | none => rfl
    | some q =>
      obtain ⟨buf, packed, consumed, p⟩ := q
      cases p with
      | true => rfl
      | false =>
        simp only
        generalize RVec.tryExtend byteMax w ⟨buf, b.buffer.cap⟩ packed = E
        obtain ⟨buf', o, w'⟩ := E
        cases o <;> simp only
        cases strictAdd bits consumed <;> rfl

theorem reserve_same (b : Bitmap) (n : Nat) :
    reserve (vecB byteMax 0#8) (storeBits b) n = (storeBits (b.reserve n).1, (b.reserve n).2) := by
  have h : ((storeBits b).seen (vecB byteMax 0#8).toBuf).trailingBits = b.trailingBits := rfl
  unfold reserve Bitmap.reserve
  rw [h]
  cases b.trailingBits with
  | panic => rfl
  | ok t =>
    simp only
    split <;> rfl

theorem tryReserve_same (w : World) (b : Bitmap) (n : Nat) :
    tryReserve (vecB byteMax 0#8) w (storeBits b) n =
      (storeBits (b.tryReserve w n).1, (b.tryReserve w n).2) := by
  have h : ((storeBits b).seen (vecB byteMax 0#8).toBuf).trailingBits = b.trailingBits := rfl
  unfold tryReserve Bitmap.tryReserve
  rw [h]
  cases b.trailingBits with
  | panic => rfl
  | ok t =>
    simp only
    split <;> rfl

theorem truncate_same (b : Bitmap) (n : Nat) : (storeBits b).truncate n = storeBits (b.truncate n) := by
  unfold truncate Bitmap.truncate
  split <;> rfl

theorem allSet_same (env : World) (n : Nat) :
    (allSet (vecB byteMax 0#8) env n).1 = (Bitmap.allSet n).mapOk storeBits := by
  unfold allSet Bitmap.allSet
  simp only
  cases RVec.fromIter byteMax (Src.ofList (Bitmap.allSetBytes n)) <;> rfl

theorem tryAllSet_same (w : World) (n : Nat) :
    tryAllSet (vecB byteMax 0#8) w n =
      ((Bitmap.tryAllSet w n).1.mapOk storeBits, (Bitmap.tryAllSet w n).2) := by
  unfold tryAllSet Bitmap.tryAllSet
  simp only
  generalize RVec.tryFromIter byteMax w (Src.ofList (Bitmap.allSetBytes n)) = E
  obtain ⟨x, w'⟩ := E
  cases x <;> rfl

theorem withCap_same (n : Nat) :
    withCap (vecB byteMax 0#8) n = (Bitmap.withCap n).mapOk storeBits := by
  unfold withCap Bitmap.withCap
  simp only
  cases (RVec.withCap byteMax (bytesForBits n) : Try (RVec Byte)) <;> rfl

theorem tryWithCap_same (w : World) (n : Nat) :
    tryWithCap (vecB byteMax 0#8) w n =
      ((Bitmap.tryWithCap w n).1.mapOk storeBits, (Bitmap.tryWithCap w n).2) := by
  unfold tryWithCap Bitmap.tryWithCap
  simp only
  generalize (RVec.tryWithCap byteMax w (bytesForBits n) : Try (RVec Byte) × World) = E
  obtain ⟨x, w'⟩ := E
  cases x <;> rfl

end BitmapOf

theorem bitmap_same : Same bitmapR (bitmapBR (vecB byteMax 0#8)) storeBits where
  len _ := rfl
  dflt := rfl
  empty := rfl
  pulled _ := rfl
  withCap := BitmapOf.withCap_same
  tryWithCap := BitmapOf.tryWithCap_same
  fromIter w s := by
    simp only [BitmapOf.fromIter, Bitmap.fromIter]
    cases RVec.fromIter byteMax (pack s).1 <;> rfl
  fromIterIn w s := by
    simp only [BitmapOf.fromIterIn, Bitmap.fromIterIn, Bitmap.fromIter]
    cases RVec.fromIter byteMax (pack s).1 <;> rfl
  tryFromIter w s := by
    simp only [BitmapOf.tryFromIter, Bitmap.tryFromIter]
    generalize RVec.tryFromIter byteMax w (pack s).1 = E
    obtain ⟨x, w'⟩ := E
    cases x <;> rfl
  extend := BitmapOf.extend_same
  reserve := BitmapOf.reserve_same
  tryReserve := BitmapOf.tryReserve_same
  tryExtend := BitmapOf.tryExtend_same
  truncate c n := congrArg (·, Out.ok) (BitmapOf.truncate_same c n)

/-! ## Fixed-width grouping -/

section
variable {O : Type} {R R' : Realloc O} {f : R.C → R'.C}

theorem wrapTry_map {C C' : Type} (g : C → C') (x : Try C) :
    Flatten.wrapTry (x.mapOk g) = (Flatten.wrapTry x).mapOk fun c => ⟨g c.child⟩ := by
  cases x <;> rfl

theorem flatten_same (n : Nat) (S : Same R R' f) :
    Same (flattenR n R) (flattenR n R') (fun c => ⟨f c.child⟩) where
  len c := by simp only [Flatten.len, S.len]
  dflt := by simp only [S.dflt]
  empty := by simp only [S.empty]
  pulled _ := rfl
  withCap k := by
    simp only
    cases strictMul k n with
    | panic => rfl
    | ok m => simp only [S.withCap]; exact wrapTry_map f _
  tryWithCap w k := by
    simp only
    cases checkedMul k n with
    | none => rfl
    | some m => simp only [S.tryWithCap]; exact congrArg (·, _) (wrapTry_map f _)
  fromIter w s := by simp only [S.fromIter]; exact congrArg (·, _) (wrapTry_map f _)
  fromIterIn w s := by simp only [S.fromIterIn]; exact congrArg (·, _) (wrapTry_map f _)
  tryFromIter w s := by simp only [S.tryFromIter]; exact congrArg (·, _) (wrapTry_map f _)
  extend c s := by simp only [S.extend]
  reserve c k := by
    simp only
    cases strictMul k n with
    | panic => rfl
    | ok m => simp only [S.reserve]
  tryReserve w c k := by
    simp only
    cases checkedMul k n with
    | none => rfl
    | some m => simp only [S.tryReserve]
  tryExtend w c s := by simp only [S.tryExtend]
  truncate c k := by
    simp only [Flatten.len, S.len]
    cases (R.len c.child).bind fun l => strictDiv l n with
    | panic => rfl
    | ok l =>
      simp only
      split
      · cases strictMul k n with
        | panic => rfl
        | ok m => simp only [S.truncate]
      · rfl

/-! ## Nullable collections -/

namespace ValidityOf

/-- The same nullable collection. -/
@[reducible] def to (f : R.C → R'.C) (v : Validity R.C) : Of (vecB byteMax 0#8) R' :=
  ⟨f v.coll, v.bitmap.map storeBits⟩

theorem len_same (S : Same R R' f) (v : Validity R.C) :
    len (bitmapBC (vecB byteMax 0#8).toBuf) R'.toColl (to f v) = v.len R.toColl := by
  obtain ⟨c, b⟩ := v
  cases b with
  | none => exact S.len c
  | some b => rfl

theorem materialize_same (S : Same R R' f) (env : World) (v : Validity R.C) :
    materialize (vecB byteMax 0#8) R' env (to f v) = (v.materialize R.toColl).map storeBits := by
  obtain ⟨c, b⟩ := v
  cases b with
  | some b => rfl
  | none =>
    simp only [materialize, Validity.materialize, S.len, Option.map]
    cases R.len c with
    | panic => rfl
    | ok l =>
      simp only [BitmapOf.allSet_same]
      cases Bitmap.allSet l <;> rfl

theorem tryMaterialize_same (S : Same R R' f) (w : World) (v : Validity R.C) :
    tryMaterialize (vecB byteMax 0#8) R' w (to f v) =
      ((v.tryMaterialize R.toColl w).1.mapOk storeBits, (v.tryMaterialize R.toColl w).2) := by
  obtain ⟨c, b⟩ := v
  cases b with
  | some b => rfl
  | none =>
    simp only [tryMaterialize, Validity.tryMaterialize, S.len, Option.map]
    cases R.len c with
    | panic => rfl
    | ok l => simp only [BitmapOf.tryAllSet_same]

theorem pushBits_same : ∀ (l : List Bool) (b : Bitmap),
    pushBits (vecB byteMax 0#8) (storeBits b) l =
      (storeBits (Validity.pushBits b l).1, (Validity.pushBits b l).2)
  | [], b => rfl
  | x :: xs, b => by
    simp only [pushBits, Validity.pushBits, BitmapOf.extend_same]
    generalize b.extend [.item x] = E
    obtain ⟨b', o⟩ := E
    cases o <;> simp only
    exact pushBits_same xs b'

theorem extendLoop_same (S : Same R R' f) (c : R.C) (b : Bitmap) (s : Src (Option O)) :
    extendLoop (vecB byteMax 0#8) R' (f c) (storeBits b) s =
      (to f (Validity.extendLoop R c b s).1, (Validity.extendLoop R c b s).2) := by
  rw [extendLoop, Validity.extendLoop]
  simp only [S.dflt, S.extend, BitmapOf.extend_same]
  generalize hE : R.extend c _ = E
  obtain ⟨c', o⟩ := E
  cases o <;> simp only
  · generalize hF : b.extend _ = F
    obtain ⟨b', o⟩ := F
    cases o <;> simp only
    · split
      · rfl
      · exact extendLoop_same S c' b' _
    · rfl
    · rfl
  · rfl
  · rfl
termination_by s.length
decreasing_by
  have h1 := Validity.takeChunk_length validityChunk s
  simp only [Validity.flags, List.length_map, validityChunk] at *
  omega

theorem extend_same (S : Same R R' f) (env : World) (v : Validity R.C) (s : Src (Option O)) :
    extend (vecB byteMax 0#8) R' env (to f v) s =
      (to f (v.extend R s).1, (v.extend R s).2) := by
  simp only [extend, Validity.extend, materialize_same S]
  cases v.materialize R.toColl with
  | panic => rfl
  | ok b =>
    simp only [Res.map, S.truncate]
    generalize hE : R.truncate v.coll b.len = E
    rw [show b.bits = b.len from rfl, hE]
    obtain ⟨c, o⟩ := E
    cases o <;> simp only
    · exact extendLoop_same S c b s
    · rfl
    · rfl

theorem truncate_same (S : Same R R' f) (v : Validity R.C) (n : Nat) :
    truncate (vecB byteMax 0#8) R' (to f v) n = (to f (v.truncate R n).1, (v.truncate R n).2) := by
  obtain ⟨c, b⟩ := v
  simp only [truncate, Validity.truncate, S.truncate]
  cases b with
  | none => rfl
  | some b => simp only [Option.map, BitmapOf.truncate_same]; rfl

theorem rollback_same (S : Same R R' f) (v : Validity R.C) (n : Nat) (w : World) :
    rollback (vecB byteMax 0#8) R' (to f v) n w =
      (to f (v.rollback R n w).1, (v.rollback R n w).2) := by
  simp only [rollback, Validity.rollback, truncate_same S]
  generalize v.truncate R n = E
  obtain ⟨v', o⟩ := E
  cases o <;> rfl

theorem tryExtendLoop_same (S : Same R R' f) (len0 : Nat) (w : World) (c : R.C) (b : Bitmap)
    (s : Src (Option O)) :
    tryExtendLoop (vecB byteMax 0#8) R' len0 w (f c) (storeBits b) s =
      (to f (Validity.tryExtendLoop R len0 w c b s).1, (Validity.tryExtendLoop R len0 w c b s).2) := by
  rw [tryExtendLoop, Validity.tryExtendLoop]
  simp only [S.dflt, S.tryExtend]
  generalize hE : R.tryExtend w c _ = E
  obtain ⟨c', o, w'⟩ := E
  cases o <;> simp only [BitmapOf.tryExtend_same]
  · generalize hF : b.tryExtend w' _ = F
    obtain ⟨b', o, w''⟩ := F
    cases o <;> simp only
    · split
      · rfl
      · exact tryExtendLoop_same S len0 w'' c' b' _
    · exact rollback_same S ⟨c', some b'⟩ len0 w''
    · rfl
  · exact rollback_same S ⟨c', some b⟩ len0 w'
  · rfl
termination_by s.length
decreasing_by
  have h1 := Validity.takeChunk_length validityChunk s
  simp only [Validity.flags, List.length_map, validityChunk] at *
  omega

theorem tryExtend_same (S : Same R R' f) (w : World) (v : Validity R.C) (s : Src (Option O)) :
    tryExtend (vecB byteMax 0#8) R' w (to f v) s =
      (to f (v.tryExtend R w s).1, (v.tryExtend R w s).2) := by
  simp only [tryExtend, Validity.tryExtend, len_same S]
  cases v.len R.toColl with
  | panic => rfl
  | ok l =>
    simp only [tryMaterialize_same S]
    generalize v.tryMaterialize R.toColl w = E
    obtain ⟨x, w'⟩ := E
    cases x with
    | panic => rfl
    | err => rfl
    | ok b =>
      simp only [Try.mapOk, S.truncate]
      generalize R.truncate v.coll l = T
      obtain ⟨c, o⟩ := T
      cases o <;> simp only
      · exact tryExtendLoop_same S l w' c b s
      · rfl
      · rfl

theorem withCap_same (S : Same R R' f) (n : Nat) :
    withCap (vecB byteMax 0#8) R' n = (Validity.withCap R n).mapOk (to f) := by
  simp only [withCap, Validity.withCap, S.withCap, BitmapOf.withCap_same]
  cases R.withCap n with
  | err => rfl
  | panic => rfl
  | ok c =>
    simp only [Try.mapOk]
    cases Bitmap.withCap n <;> rfl

theorem tryWithCap_same (S : Same R R' f) (w : World) (n : Nat) :
    tryWithCap (vecB byteMax 0#8) R' w n =
      ((Validity.tryWithCap R w n).1.mapOk (to f), (Validity.tryWithCap R w n).2) := by
  simp only [tryWithCap, Validity.tryWithCap, S.tryWithCap]
  generalize R.tryWithCap w n = E
  obtain ⟨x, w'⟩ := E
  cases x with
  | err => rfl
  | panic => rfl
  | ok c =>
    simp only [Try.mapOk, BitmapOf.tryWithCap_same]
    generalize Bitmap.tryWithCap w' n = F
    obtain ⟨y, w''⟩ := F
    cases y <;> rfl

theorem fromIterWith_same (S : Same R R' f) {mk : World → Src O → Try R.C × World}
    {mk' : World → Src O → Try R'.C × World}
    (hm : ∀ w s, mk' w s = ((mk w s).1.mapOk f, (mk w s).2)) (w : World) (s : Src (Option O)) :
    fromIterWith (vecB byteMax 0#8) R' mk' w s =
      ((Validity.fromIterWith R mk w s).1.mapOk (to f), (Validity.fromIterWith R mk w s).2) := by
  simp only [fromIterWith, Validity.fromIterWith, BitmapOf.withCap_same]
  cases Bitmap.withCap (w.capHint s.items.length) with
  | err => rfl
  | panic => rfl
  | ok b =>
    simp only [Try.mapOk, hm, S.dflt, S.pulled]
    generalize mk w.next _ = E
    obtain ⟨x, w'⟩ := E
    cases x with
    | err => rfl
    | panic => rfl
    | ok c =>
      simp only [pushBits_same]
      generalize Validity.pushBits b _ = F
      obtain ⟨b', o⟩ := F
      cases o <;> rfl

end ValidityOf

theorem validity_same (env : World) (S : Same R R' f) :
    Same (validityR R) (validityBR env (vecB byteMax 0#8) R') (ValidityOf.to f) where
  len := ValidityOf.len_same S
  dflt := rfl
  empty := by simp only [S.empty]; rfl
  pulled := S.pulled
  withCap := ValidityOf.withCap_same S
  tryWithCap := ValidityOf.tryWithCap_same S
  fromIter := ValidityOf.fromIterWith_same S S.fromIter
  fromIterIn := ValidityOf.fromIterWith_same S S.fromIterIn
  tryFromIter w s := by
    simp only [ValidityOf.tryFromIter, Validity.tryFromIter, ValidityOf.tryWithCap_same S]
    generalize Validity.tryWithCap R w.next _ = E
    obtain ⟨x, w'⟩ := E
    cases x with
    | err => rfl
    | panic => rfl
    | ok v =>
      simp only [Try.mapOk]
      have := ValidityOf.tryExtend_same S w' v s
      rw [this]
      generalize v.tryExtend R w' s = F
      obtain ⟨v', o, w''⟩ := F
      cases o <;> rfl
  extend := ValidityOf.extend_same S env
  reserve v n := by
    simp only [ValidityOf.reserve, Validity.reserve, ValidityOf.materialize_same S]
    cases v.materialize R.toColl with
    | panic => rfl
    | ok b =>
      simp only [Res.map, BitmapOf.reserve_same]
      generalize b.reserve n = E
      obtain ⟨b', o⟩ := E
      cases o <;> simp only [S.reserve] <;> rfl
  tryReserve w v n := by
    simp only [ValidityOf.tryReserve, Validity.tryReserve, ValidityOf.tryMaterialize_same S]
    generalize v.tryMaterialize R.toColl w = E
    obtain ⟨x, w'⟩ := E
    cases x with
    | err => rfl
    | panic => rfl
    | ok b =>
      simp only [Try.mapOk, S.tryReserve]
      generalize R.tryReserve w' v.coll n = F
      obtain ⟨c, o, w''⟩ := F
      cases o <;> simp only [BitmapOf.tryReserve_same] <;> rfl
  tryExtend := ValidityOf.tryExtend_same S
  truncate := ValidityOf.truncate_same S

/-! ## Lists -/

namespace OffsetsIn

/-- The same lists. -/
@[reducible] def to (ow : OffW) (f : R.C → R'.C) (c : Offsets R.C) : Of (vecB ow.lim 0) R' :=
  ⟨f c.data, c.offsets⟩

theorem extendLoop_same (ow : OffW) (S : Same R R' f) : ∀ (s : Src (List O)) (d : R.C)
    (o : RVec Int) (p : Int),
    extendLoop ow (vecB ow.lim 0) R' (f d) o p s =
      (to ow f (Offsets.extendLoop ow R d o p s).1, (Offsets.extendLoop ow R d o p s).2)
  | [], d, o, p => rfl
  | .none :: s, d, o, p => rfl
  | .panic :: s, d, o, p => rfl
  | .item row :: s, d, o, p => by
    simp only [extendLoop, Offsets.extendLoop, S.reserve]
    split
    · generalize R.reserve d row.length = E
      obtain ⟨d1, x⟩ := E
      cases x <;> simp only [S.extend]
      generalize R.extend d1 _ = F
      obtain ⟨d2, x⟩ := F
      cases x <;> simp only
      generalize RVec.extend ow.lim o _ = G
      obtain ⟨o', x⟩ := G
      cases x <;> simp only
      exact extendLoop_same ow S s _ _ _
    · rfl

theorem extend_same (ow : OffW) (S : Same R R' f) (c : Offsets R.C) (s : Src (List O)) :
    extend ow (vecB ow.lim 0) R' (to ow f c) s =
      (to ow f (c.extend ow R s).1, (c.extend ow R s).2) := by
  simp only [extend, Offsets.extend]
  rw [show last (vecB ow.lim 0) (to ow f c) = c.last from rfl]
  cases c.last with
  | panic => rfl
  | ok p =>
    simp only
    cases asUsize p with
    | panic => rfl
    | ok n =>
      simp only [S.truncate]
      generalize R.truncate c.data n = E
      obtain ⟨d, o⟩ := E
      cases o <;> simp only
      exact extendLoop_same ow S s _ _ _

theorem rollback_same (ow : OffW) (S : Same R R' f) (d : R.C) (o : RVec Int) (rows n : Nat)
    (w : World) : rollback (vecB ow.lim 0) R' (f d) o rows n w =
      (to ow f (Offsets.rollback R d o rows n w).1, (Offsets.rollback R d o rows n w).2) := by
  simp only [rollback, Offsets.rollback]
  cases strictAdd rows 1 with
  | panic => rfl
  | ok k =>
    simp only [S.truncate]
    generalize R.truncate d n = E
    obtain ⟨d', x⟩ := E
    cases x <;> rfl

theorem tryExtendLoop_same (ow : OffW) (S : Same R R' f) (rows n : Nat) : ∀ (s : Src (List O))
    (w : World) (d : R.C) (o : RVec Int) (p : Int),
    tryExtendLoop ow (vecB ow.lim 0) R' rows n w (f d) o p s =
      (to ow f (Offsets.tryExtendLoop ow R rows n w d o p s).1,
        (Offsets.tryExtendLoop ow R rows n w d o p s).2)
  | [], w, d, o, p => rfl
  | .none :: s, w, d, o, p => rfl
  | .panic :: s, w, d, o, p => rfl
  | .item row :: s, w, d, o, p => by
    simp only [tryExtendLoop, Offsets.tryExtendLoop]
    cases asUsize p with
    | panic => rfl
    | ok q =>
      simp only
      split
      · simp only [S.tryExtend]
        generalize R.tryExtend w d _ = E
        obtain ⟨d1, x, w1⟩ := E
        cases x <;> simp only
        · generalize RVec.tryExtend ow.lim w1 o _ = F
          obtain ⟨o1, x, w2⟩ := F
          cases x <;> simp only
          · exact tryExtendLoop_same ow S rows n s _ _ _ _
          · exact rollback_same ow S _ _ _ _ _
        · exact rollback_same ow S _ _ _ _ _
      · exact rollback_same ow S _ _ _ _ _

theorem tryExtend_same (ow : OffW) (S : Same R R' f) (w : World) (c : Offsets R.C)
    (s : Src (List O)) : tryExtend ow (vecB ow.lim 0) R' w (to ow f c) s =
      (to ow f (c.tryExtend ow R w s).1, (c.tryExtend ow R w s).2) := by
  simp only [tryExtend, Offsets.tryExtend]
  rw [show last (vecB ow.lim 0) (to ow f c) = c.last from rfl,
    show len (vecB ow.lim 0).toBuf (to ow f c) = c.len from rfl]
  cases c.len with
  | panic => rfl
  | ok rows =>
    cases c.last with
    | panic => rfl
    | ok p =>
      simp only
      cases asUsize p with
      | panic => rfl
      | ok n =>
        simp only [S.truncate]
        generalize R.truncate c.data n = E
        obtain ⟨d, o⟩ := E
        cases o <;> simp only
        exact tryExtendLoop_same ow S _ _ s _ _ _ _

theorem truncate_same (ow : OffW) (S : Same R R' f) (c : Offsets R.C) (n : Nat) :
    truncate (vecB ow.lim 0) R' (to ow f c) n = (to ow f (c.truncate R n).1, (c.truncate R n).2) := by
  simp only [truncate, Offsets.truncate]
  rw [show len (vecB ow.lim 0).toBuf (to ow f c) = c.len from rfl]
  cases c.len with
  | panic => rfl
  | ok l =>
    simp only
    split
    · rw [show (vecB ow.lim 0).toColl.owned c.offsets n = .ok c.offsets.items[n]? from by
        unfold Coll.owned; simp only; cases c.offsets.items[n]? <;> rfl]
      cases c.offsets.items[n]? with
      | none => rfl
      | some o =>
        simp only [Res.expect, Res.bind]
        cases asUsize o with
        | panic => rfl
        | ok m =>
          simp only
          cases strictAdd n 1 with
          | panic => rfl
          | ok k => simp only [S.truncate]
    · rfl

theorem withCap_same (ow : OffW) (S : Same R R' f) (n : Nat) :
    withCap (vecB ow.lim 0) R' n = (Offsets.withCap ow R n).mapOk (to ow f) := by
  simp only [withCap, Offsets.withCap, S.withCap]
  cases R.withCap n with
  | err => rfl
  | panic => rfl
  | ok d =>
    simp only [Try.mapOk]
    cases strictAdd n 1 with
    | panic => rfl
    | ok k =>
      simp only
      cases (RVec.withCap ow.lim k : Try (RVec Int)) with
      | err => rfl
      | panic => rfl
      | ok o =>
        simp only
        generalize RVec.extend ow.lim o _ = E
        obtain ⟨o', x⟩ := E
        cases x <;> rfl

theorem tryWithCap_same (ow : OffW) (S : Same R R' f) (w : World) (n : Nat) :
    tryWithCap (vecB ow.lim 0) R' w n =
      ((Offsets.tryWithCap ow R w n).1.mapOk (to ow f), (Offsets.tryWithCap ow R w n).2) := by
  simp only [tryWithCap, Offsets.tryWithCap]
  cases checkedAdd n 1 with
  | none => rfl
  | some k =>
    simp only [S.tryWithCap]
    generalize R.tryWithCap w n = E
    obtain ⟨x, w1⟩ := E
    cases x with
    | err => rfl
    | panic => rfl
    | ok d =>
      simp only [Try.mapOk]
      generalize (RVec.tryWithCap ow.lim w1 k : Try (RVec Int) × World) = F
      obtain ⟨x, w2⟩ := F
      cases x with
      | err => rfl
      | panic => rfl
      | ok o =>
        simp only
        generalize RVec.tryExtend ow.lim w2 o _ = G
        obtain ⟨o', x, w3⟩ := G
        cases x <;> rfl

end OffsetsIn

theorem offsets_same (ow : OffW) (S : Same R R' f) :
    Same (offsetsR ow R) (offsetsBR ow (vecB ow.lim 0) R') (OffsetsIn.to ow f) where
  len _ := rfl
  dflt := rfl
  empty := by simp only [OffsetsIn.empty, Offsets.empty, S.empty]
  pulled _ := rfl
  withCap := OffsetsIn.withCap_same ow S
  tryWithCap := OffsetsIn.tryWithCap_same ow S
  fromIter w s := by
    simp only [OffsetsIn.fromIter, Offsets.fromIter]
    rw [show (RVec.extend ow.lim RVec.empty [.item (0 : Int)]).2 = .ok from by cases ow <;> rfl]
    have := OffsetsIn.extend_same ow S (Offsets.empty ow R) s
    simp only [OffsetsIn.empty, S.empty]
    rw [show (⟨f R.empty, (RVec.extend ow.lim RVec.empty [.item (0 : Int)]).1⟩ :
      OffsetsIn.Of (vecB ow.lim 0) R') = OffsetsIn.to ow f (Offsets.empty ow R) from rfl, this]
    generalize Offsets.extend ow R _ s = E
    obtain ⟨c, x⟩ := E
    cases x <;> rfl
  fromIterIn w s := by
    simp only [OffsetsIn.fromIterIn, Offsets.fromIterIn, OffsetsIn.withCap_same ow S]
    cases Offsets.withCap ow R _ with
    | err => rfl
    | panic => rfl
    | ok c =>
      simp only [Try.mapOk]
      rw [OffsetsIn.extend_same ow S]
      generalize Offsets.extend ow R c s = E
      obtain ⟨c', x⟩ := E
      cases x <;> rfl
  tryFromIter w s := by
    simp only [OffsetsIn.tryFromIter, Offsets.tryFromIter, OffsetsIn.tryWithCap_same ow S]
    generalize Offsets.tryWithCap ow R w.next _ = E
    obtain ⟨x, w'⟩ := E
    cases x with
    | err => rfl
    | panic => rfl
    | ok c =>
      simp only [Try.mapOk]
      rw [OffsetsIn.tryExtend_same ow S]
      generalize Offsets.tryExtend ow R w' c s = F
      obtain ⟨c', o, w''⟩ := F
      cases o <;> rfl
  extend := OffsetsIn.extend_same ow S
  reserve c n := by
    simp only [OffsetsIn.reserve, Offsets.reserve, S.reserve]
    generalize R.reserve c.data n = E
    obtain ⟨d, o⟩ := E
    cases o <;> rfl
  tryReserve w c n := by
    simp only [OffsetsIn.tryReserve, Offsets.tryReserve, S.tryReserve]
    generalize R.tryReserve w c.data n = E
    obtain ⟨d, o, w'⟩ := E
    cases o <;> rfl
  tryExtend := OffsetsIn.tryExtend_same ow S
  truncate := OffsetsIn.truncate_same ow S

end

/-! ## Compositions -/

theorem vec_same {α : Type} (lim : Nat) (d : α) : Same (vecR lim d) (vecR lim d) (fun c => c) where
  len _ := rfl
  dflt := rfl
  empty := rfl
  pulled _ := rfl
  withCap n := by cases h : (vecR lim d).withCap n <;> rfl
  tryWithCap w n := by
    generalize (vecR lim d).tryWithCap w n = E
    obtain ⟨x, w'⟩ := E
    cases x <;> rfl
  fromIter w s := by
    generalize (vecR lim d).fromIter w s = E
    obtain ⟨x, w'⟩ := E
    cases x <;> rfl
  fromIterIn w s := by
    generalize (vecR lim d).fromIterIn w s = E
    obtain ⟨x, w'⟩ := E
    cases x <;> rfl
  tryFromIter w s := by
    generalize (vecR lim d).tryFromIter w s = E
    obtain ⟨x, w'⟩ := E
    cases x <;> rfl
  extend _ _ := rfl
  reserve _ _ := rfl
  tryReserve _ _ _ := rfl
  tryExtend _ _ _ := rfl
  truncate _ _ := rfl

theorem store_same (env : World) : {O : Type} → (k : Comp O) →
    Same (compR k) (scompR (asStored env k)) (store env k)
  | _, .vec lim _ d => vec_same lim d
  | _, .bitmap => bitmap_same
  | _, .flatten n _ k => flatten_same n (store_same env k)
  | _, .validity k => validity_same env (store_same env k)
  | _, .offsets ow k => offsets_same ow (store_same env k)

end Narrow
