import Verif.Proof.Access
import Verif.Proof.Messages
import Verif.Proof.Layout
import Verif.Spec.Debug

/-! # `Debug` output -/

namespace Narrow

open Spec
open Ffi (ascii decimal)

theorem ended_cons {b : Byte} (h : b ∈ endings) (r : List Byte) : Ended (b :: r) := by
  intro x hx; cases hx; exact h

theorem ended_comma (r : List Byte) : Ended (ascii ", " ++ r) := ended_cons (b := 44#8) (by decide) _
theorem ended_paren (r : List Byte) : Ended (ascii ")" ++ r) := ended_cons (b := 41#8) (by decide) _
theorem ended_brace (r : List Byte) : Ended (ascii " }" ++ r) := ended_cons (b := 32#8) (by decide) _
theorem ended_bracket (r : List Byte) : Ended (ascii "]" ++ r) := ended_cons (b := 93#8) (by decide) _

/-- A name begins a text. -/
theorem starts_name {b : Byte} (s : String) (bs r : List Byte) (h : ascii s = b :: bs) (hb : b ∉ endings) :
    ∃ c rest, ascii s ++ r = c :: rest ∧ c ∉ endings := ⟨b, bs ++ r, by rw [h]; rfl, hb⟩

theorem Spec.Tells.weaken {α : Type} {text : α → List Byte} {p q : α → α → Prop} (h : Tells text p)
    (hpq : ∀ a b, p a b → q a b) : Tells text q :=
  ⟨h.starts, fun hr hs e => ⟨hpq _ _ (h.tells hr hs e).1, (h.tells hr hs e).2⟩⟩

theorem Spec.Tells.comp {α β : Type} {text : β → List Byte} {p : β → β → Prop} (h : Tells text p) (g : α → β) :
    Tells (fun a => text (g a)) (fun a b => p (g a) (g b)) :=
  ⟨fun a => h.starts (g a), fun hr hs e => h.tells hr hs e⟩

/-! ## Numbers and booleans -/

theorem takeWhile_ended {r : List Byte} (h : Ended r) : r.takeWhile digitish = [] := by
  cases r with
  | nil => rfl
  | cons b r =>
    have hb : b ∈ endings := h b rfl
    have : ∀ b ∈ endings, digitish b = false := by decide
    simp [this b hb]

theorem digits_end {d d' r s : List Byte} (hd : ∀ b ∈ d, digitish b = true)
    (hd' : ∀ b ∈ d', digitish b = true) (hr : r.takeWhile digitish = [])
    (hs : s.takeWhile digitish = []) (e : d ++ r = d' ++ s) : d = d' ∧ r = s := by
  have e1 := congrArg (List.takeWhile digitish) e
  rw [List.takeWhile_append_of_pos hd, hr, List.takeWhile_append_of_pos hd', hs,
    List.append_nil, List.append_nil] at e1
  subst e1
  exact ⟨rfl, List.append_cancel_left e⟩

theorem starts_digits {d : List Byte} (hne : d ≠ []) (hd : ∀ b ∈ d, digitish b = true) :
    ∃ b rest, d = b :: rest ∧ b ∉ endings := by
  cases d with
  | nil => exact absurd rfl hne
  | cons b r =>
    have h1 := hd b (List.mem_cons_self ..)
    have : ∀ b ∈ endings, digitish b = false := by decide
    exact ⟨b, r, rfl, fun hb => by rw [this b hb] at h1; cases h1⟩

theorem tells_decimal : Tells decimal (· = ·) where
  starts n := starts_digits (Ffi.decimal_spec n).1.1 (decimal_digitish n)
  tells hr hs e := by
    obtain ⟨h1, h2⟩ := digits_end (decimal_digitish _) (decimal_digitish _) (takeWhile_ended hr)
      (takeWhile_ended hs) e
    exact ⟨decimal_inj h1, h2⟩

theorem decimalInt_ne (i : Int) : decimalInt i ≠ [] := by
  unfold decimalInt
  split
  · intro h; exact (Ffi.decimal_spec _).1.1 (List.append_eq_nil_iff.mp h).2
  · exact (Ffi.decimal_spec _).1.1

theorem tells_decimalInt : Tells decimalInt (· = ·) where
  starts i := starts_digits (decimalInt_ne i) (decimalInt_digitish i)
  tells hr hs e := by
    obtain ⟨h1, h2⟩ := digits_end (decimalInt_digitish _) (decimalInt_digitish _) (takeWhile_ended hr)
      (takeWhile_ended hs) e
    exact ⟨decimalInt_inj h1, h2⟩

theorem tells_bool : Tells debugBool (· = ·) where
  starts b := by cases b <;> exact ⟨_, _, rfl, by decide⟩
  tells {a b r s} _ _ e := by
    cases a <;> cases b
    · exact ⟨rfl, List.append_cancel_left e⟩
    · exact absurd (List.cons.inj e).1 (by decide)
    · exact absurd (List.cons.inj e).1 (by decide)
    · exact ⟨rfl, List.append_cancel_left e⟩

/-! ## Tuples, options and lists -/

theorem tells_tuple {α : Type} {text : α → List Byte} {same : α → α → Prop} (h : Tells text same)
    (name : String) {b : Byte} {bs : List Byte} (hn : ascii name = b :: bs) (hb : b ∉ endings) :
    Tells (fun a => debugTuple name (text a)) same where
  starts a := by
    simp only [debugTuple, List.append_assoc]
    exact starts_name name bs _ hn hb
  tells {a c r s} _ _ e := by
    simp only [debugTuple, List.append_assoc, List.append_cancel_left_eq] at e
    obtain ⟨h1, h2⟩ := h.tells (ended_paren _) (ended_paren _) e
    exact ⟨h1, List.append_cancel_left h2⟩

/-- Both are missing, or both are there and the same. -/
def OptSame {α : Type} (same : α → α → Prop) : Option α → Option α → Prop
  | none, none => True
  | some a, some b => same a b
  | _, _ => False

theorem tells_option {α : Type} {text : α → List Byte} {same : α → α → Prop} (h : Tells text same) :
    Tells (fun o : Option α => debugOption (o.map text)) (OptSame same) where
  starts o := by
    cases o with
    | none => exact ⟨_, _, rfl, by decide⟩
    | some a => exact ⟨_, _, rfl, by decide⟩
  tells {a b r s} hr hs e := by
    cases a <;> cases b
    · exact ⟨trivial, List.append_cancel_left e⟩
    · exact absurd (List.cons.inj e).1 (by decide)
    · exact absurd (List.cons.inj e).1 (by decide)
    · exact (tells_tuple h "Some" (b := 83#8) rfl (by decide)).tells hr hs e

/-- The rest of a list behind an entry. -/
def listTail {α : Type} (text : α → List Byte) : List α → List Byte
  | [] => ascii "]"
  | x :: xs => ascii ", " ++ (text x ++ listTail text xs)

theorem commas_cons {α : Type} (text : α → List Byte) : ∀ (x : α) (xs : List α),
    commas ((x :: xs).map text) ++ ascii "]" = text x ++ listTail text xs
  | x, [] => rfl
  | x, y :: ys => by
    have := commas_cons text y ys
    simp only [List.map_cons, commas, listTail, List.append_assoc] at this ⊢
    rw [this]

theorem listTail_ended {α : Type} (text : α → List Byte) (l : List α) (r : List Byte) :
    Ended (listTail text l ++ r) := by
  cases l with
  | nil => exact ended_bracket r
  | cons x xs =>
    simp only [listTail, List.append_assoc]
    exact ended_comma _

theorem listTail_inj {α : Type} {text : α → List Byte} (h : Tells text (· = ·)) :
    ∀ {l m : List α} {r s : List Byte}, listTail text l ++ r = listTail text m ++ s → l = m ∧ r = s
  | [], [], _, _, e => ⟨rfl, List.append_cancel_left e⟩
  | [], _ :: _, _, _, e => absurd (List.cons.inj e).1 (by decide)
  | _ :: _, [], _, _, e => absurd (List.cons.inj e).1 (by decide)
  | x :: xs, y :: ys, r, s, e => by
    simp only [listTail, List.append_assoc, List.append_cancel_left_eq] at e
    obtain ⟨rfl, h2⟩ := h.tells (listTail_ended _ _ _) (listTail_ended _ _ _) e
    obtain ⟨rfl, h3⟩ := listTail_inj h h2
    exact ⟨rfl, h3⟩

theorem tells_list {α : Type} {text : α → List Byte} (h : Tells text (· = ·)) :
    Tells (fun l : List α => debugList (l.map text)) (· = ·) where
  starts l := by
    simp only [debugList, List.append_assoc]
    exact starts_name (b := 91#8) "[" [] _ rfl (by decide)
  tells {l m r s} _ _ e := by
    simp only [debugList, List.append_assoc, List.append_cancel_left_eq] at e
    have close : ∀ x (xs : List α) r, commas ((x :: xs).map text) ++ (ascii "]" ++ r) =
        text x ++ (listTail text xs ++ r) := fun x xs r => by
      rw [← List.append_assoc, commas_cons, List.append_assoc]
    have clash : ∀ x (xs : List α) r s, ascii "]" ++ r ≠ commas ((x :: xs).map text) ++ (ascii "]" ++ s) := by
      intro x xs r s e
      rw [close] at e
      obtain ⟨b, rest, hb, hn⟩ := h.starts x
      rw [hb] at e
      have := (List.cons.inj e).1
      exact hn (by rw [← this]; decide)
    cases l with
    | nil =>
      cases m with
      | nil => exact ⟨rfl, List.append_cancel_left (List.append_cancel_left e)⟩
      | cons y ys => exact absurd e (clash _ _ _ _)
    | cons x xs =>
      cases m with
      | nil => exact absurd e.symm (clash _ _ _ _)
      | cons y ys =>
        rw [close, close] at e
        obtain ⟨rfl, h2⟩ := h.tells (listTail_ended _ _ _) (listTail_ended _ _ _) e
        obtain ⟨rfl, h3⟩ := listTail_inj h h2
        exact ⟨rfl, h3⟩

theorem tells_vec {α : Type} {text : α → List Byte} (h : Tells text (· = ·)) :
    Tells (RVec.debug text) (fun v w => v.items = w.items) := (tells_list h).comp RVec.items

/-! ## Collections -/

theorem tells_bitmap {C : Type} {text : C → List Byte} {same : C → C → Prop} (h : Tells text same) :
    Tells (BitmapOf.debug text)
      (fun b d => same b.buffer d.buffer ∧ b.bits = d.bits ∧ b.offset = d.offset) where
  starts b := by
    simp only [BitmapOf.debug, debugStruct, List.append_assoc]
    exact starts_name (b := 66#8) "Bitmap" _ _ rfl (by decide)
  tells {b d r s} _ _ e := by
    simp only [BitmapOf.debug, debugStruct, commas, List.map, debugField, List.append_assoc,
      List.append_cancel_left_eq] at e
    obtain ⟨h1, e⟩ := h.tells (ended_comma _) (ended_comma _) e
    simp only [List.append_cancel_left_eq] at e
    obtain ⟨h2, e⟩ := tells_decimal.tells (ended_comma _) (ended_comma _) e
    simp only [List.append_cancel_left_eq] at e
    obtain ⟨h3, e⟩ := tells_decimal.tells (ended_brace _) (ended_brace _) e
    exact ⟨⟨h1, h2, h3⟩, List.append_cancel_left e⟩

theorem tells_flatten {C : Type} {text : C → List Byte} {same : C → C → Prop} (h : Tells text same) :
    Tells (Flatten.debug text) (fun c d => same c.child d.child) :=
  (tells_tuple h "Flatten" (b := 70#8) rfl (by decide)).comp Flatten.child

theorem tells_validity {C M : Type} {text : C → List Byte} {same : C → C → Prop} (h : Tells text same)
    {bits : M → List Byte} {same' : M → M → Prop} (h' : Tells bits same') :
    Tells (ValidityOf.debug text bits)
      (fun v w => same v.coll w.coll ∧ OptSame same' v.bitmap w.bitmap) where
  starts b := by
    simp only [ValidityOf.debug, debugStruct, List.append_assoc]
    exact starts_name (b := 86#8) "Validity" _ _ rfl (by decide)
  tells {b d r s} _ _ e := by
    simp only [ValidityOf.debug, debugStruct, commas, List.map, debugField, List.append_assoc,
      List.append_cancel_left_eq] at e
    obtain ⟨h1, e⟩ := h.tells (ended_comma _) (ended_comma _) e
    simp only [List.append_cancel_left_eq] at e
    obtain ⟨h2, e⟩ := (tells_option h').tells (ended_brace _) (ended_brace _) e
    exact ⟨⟨h1, h2⟩, List.append_cancel_left e⟩

theorem tells_offsets {C D : Type} {text : C → List Byte} {same : C → C → Prop} (h : Tells text same)
    {offs : D → List Byte} {same' : D → D → Prop} (h' : Tells offs same') :
    Tells (OffsetsIn.debug text offs)
      (fun v w => same v.data w.data ∧ same' v.offsets w.offsets) where
  starts b := by
    simp only [OffsetsIn.debug, debugStruct, List.append_assoc]
    exact starts_name (b := 79#8) "Offset" _ _ rfl (by decide)
  tells {b d r s} _ _ e := by
    simp only [OffsetsIn.debug, debugStruct, commas, List.map, debugField, List.append_assoc,
      List.append_cancel_left_eq] at e
    obtain ⟨h1, e⟩ := h.tells (ended_comma _) (ended_comma _) e
    simp only [List.append_cancel_left_eq] at e
    obtain ⟨h2, e⟩ := h'.tells (ended_brace _) (ended_brace _) e
    exact ⟨⟨h1, h2⟩, List.append_cancel_left e⟩

theorem tells_row {C : Type} :
    Tells (RowView.debug (C := C)) (fun v w => v.start = w.start ∧ v.stop = w.stop) where
  starts b := by
    simp only [RowView.debug, debugOpenStruct, List.append_assoc]
    exact starts_name (b := 79#8) "OffsetView" _ _ rfl (by decide)
  tells {b d r s} _ _ e := by
    simp only [RowView.debug, debugOpenStruct, commas, List.map, debugField, List.append_assoc,
      List.append_cancel_left_eq] at e
    have dots : ∀ r, (ascii ".." ++ r).takeWhile digitish = [] := fun r => by
      show (46#8 :: (46#8 :: r)).takeWhile digitish = []
      simp [show digitish 46#8 = false by decide]
    have open' : ∀ r, (ascii ", .. }" ++ r).takeWhile digitish = [] := fun r =>
      takeWhile_ended (ended_cons (b := 44#8) (by decide) _)
    obtain ⟨h1, e⟩ := digits_end (decimal_digitish _) (decimal_digitish _) (dots _) (dots _) e
    obtain ⟨h2, e⟩ := digits_end (decimal_digitish _) (decimal_digitish _) (open' _) (open' _)
      (List.append_cancel_left e)
    exact ⟨⟨decimal_inj h1, decimal_inj h2⟩, List.append_cancel_left e⟩

/-! ## Compositions -/

theorem sameBits_iff {B : Backing Byte} {b d : BitmapOf B.C} :
    SameBits B b d ↔ B.borrow b.buffer = B.borrow d.buffer ∧ b.bits = d.bits ∧ b.offset = d.offset := by
  show _ ∧ (b.bits, b.offset) = (d.bits, d.offset) ↔ _
  rw [Prod.mk.injEq]; rfl

theorem tells_sameBits {B : Backing Byte} {t : B.C → List Byte}
    (h : Tells t (fun c d => B.borrow c = B.borrow d)) : Tells (BitmapOf.debug t) (SameBits B) :=
  (tells_bitmap h).weaken fun _ _ h => sameBits_iff.mpr h

theorem tells_scomp : ∀ {O : Type} (k : SComp O) (t : Texts k), Telling k t →
    Tells (debugText k t) (SameParts k)
  | _, .leaf _ _ _, _, h => h
  | _, .bitmap _ _, _, h => tells_sameBits h
  | _, .flatten _ _ k, t, h => tells_flatten (tells_scomp k t h)
  | _, .validity _ B _ k, t, h =>
    (tells_validity (tells_scomp k t.2 h.2) (tells_sameBits h.1)).weaken fun v w e => by
      refine ⟨e.1, ?_⟩
      have e2 := e.2
      unfold OptSame at e2
      show match v.bitmap, w.bitmap with
        | none, none => True
        | some b, some b' => SameBits B b b'
        | _, _ => False
      split at e2 <;> simp_all
  | _, .offsets _ _ _ k, t, h => tells_offsets (tells_scomp k t.2 h.2) h.1

theorem bitmap_text {B : Backing Byte} {t : B.C → List Byte}
    (h : ∀ c d, B.borrow c = B.borrow d → t c = t d) {b d : BitmapOf B.C} (e : SameBits B b d) :
    BitmapOf.debug t b = BitmapOf.debug t d := by
  obtain ⟨h1, h2, h3⟩ := sameBits_iff.mp e
  simp only [BitmapOf.debug, h _ _ h1, h2, h3]

theorem scomp_text : ∀ {O : Type} (k : SComp O) (t : Texts k), OnlyHeld k t →
    ∀ {c d : (scompR k).C}, SameParts k c d → debugText k t c = debugText k t d
  | _, .leaf _ _ _, _, h, _, _, e => h _ _ e
  | _, .bitmap _ _, _, h, _, _, e => bitmap_text h e
  | _, .flatten _ _ k, t, h, _, _, e => congrArg (debugTuple "Flatten") (scomp_text k t h e)
  | _, .validity _ B _ k, t, h, c, d, e => by
    have h1 := scomp_text k t.2 h.2 e.1
    have h2 : (ValidityOf.bitmap c).map (BitmapOf.debug t.1) =
        (ValidityOf.bitmap d).map (BitmapOf.debug t.1) := by
      have e2 : match ValidityOf.bitmap c, ValidityOf.bitmap d with
        | none, none => True
        | some b, some b' => SameBits B b b'
        | _, _ => False := e.2
      split at e2
      · simp_all
      · rename_i b b' hb hb'
        rw [hb, hb']
        exact congrArg some (bitmap_text h.1 e2)
      · cases e2
    show debugStruct "Validity" [("collection", debugText k t.2 (ValidityOf.coll c)),
      ("bitmap", debugOption ((ValidityOf.bitmap c).map (BitmapOf.debug t.1)))] = _
    rw [h2]
    exact congrArg (fun x => debugStruct "Validity" [("collection", x), _]) h1
  | _, .offsets _ _ _ k, t, h, c, d, e => by
    have h1 := scomp_text k t.2 h.2 e.1
    have h2 := h.1 _ _ e.2
    show debugStruct "Offset" [("data", debugText k t.2 (OffsetsIn.data c)),
      ("offsets", t.1 (OffsetsIn.offsets c))] = _
    refine (congrArg (fun x => debugStruct "Offset" [("data", x), _]) h1).trans ?_
    exact congrArg (fun x => debugStruct "Offset" [_, ("offsets", x)]) h2

/-! ## Arrays -/

theorem pieces_eq {n w : Nat} {v u : BitVec (8 * (n * w))}
    (h : ∀ i < n, v.extractLsb' (8 * w * i) (8 * w) = u.extractLsb' (8 * w * i) (8 * w)) : v = u := by
  apply BitVec.eq_of_getLsbD_eq
  intro j hj
  have hw : 0 < 8 * w := by
    rcases Nat.eq_zero_or_pos w with rfl | h
    · simp at hj
    · omega
  have hq : j / (8 * w) < n := by
    rw [Nat.div_lt_iff_lt_mul hw]
    have : 8 * (n * w) = n * (8 * w) := by rw [Nat.mul_left_comm]
    omega
  have hm := Nat.mod_lt j hw
  have := congrArg (fun x => x.getLsbD (j % (8 * w))) (h _ hq)
  simp only [BitVec.getLsbD_extractLsb', hm, decide_true, Bool.true_and, Nat.div_add_mod] at this
  exact this

theorem tells_nat {w : Nat} : Tells (fun v : BitVec w => decimal v.toNat) (· = ·) :=
  (tells_decimal.comp BitVec.toNat).weaken fun _ _ h => BitVec.eq_of_toNat_eq h

theorem tells_int {w : Nat} : Tells (fun v : BitVec w => decimalInt v.toInt) (· = ·) :=
  (tells_decimalInt.comp BitVec.toInt).weaken fun _ _ h => BitVec.eq_of_toInt_eq h

theorem tells_prim (f : FloatText) : ∀ p : Prim, p.NoFloat → Tells (p.debug f) (· = ·)
  | .u8, _ | .u16, _ | .u32, _ | .u64, _ | .u128, _ | .usize, _ => tells_nat
  | .i8, _ | .i16, _ | .i32, _ | .i64, _ | .i128, _ | .isize, _ => tells_int
  | .array n p, h => by
    have h1 := tells_tuple (tells_list (tells_prim f p h)) "FixedSizeArray" (b := 70#8) rfl (by decide)
    have h2 := h1.comp (fun v : PrimVal (.array n p) =>
      (List.range n).map fun i => v.extractLsb' (8 * p.size * i) (8 * p.size))
    have e : (Prim.array n p).debug f = fun v : PrimVal (.array n p) => debugTuple "FixedSizeArray"
        (debugList (((List.range n).map fun i =>
          v.extractLsb' (8 * p.size * i) (8 * p.size)).map (p.debug f))) := by
      funext v
      simp only [Prim.debug, List.map_map]
      rfl
    rw [e]
    refine h2.weaken fun v u h => pieces_eq fun i hi => ?_
    exact (List.map_inj_left.mp h) i (List.mem_range.mpr hi)

theorem bitmap_abs {a b : Bitmap} (h : a.buffer.items = b.buffer.items ∧ a.bits = b.bits ∧
    a.offset = b.offset) : a.abs = b.abs := by
  obtain ⟨⟨ai, ac⟩, an, ao⟩ := a
  obtain ⟨⟨bi, bc⟩, bn, bo⟩ := b
  obtain ⟨rfl, rfl, rfl⟩ := h
  rfl

theorem tells_bits : Tells Bitmap.debug (fun a b => a.abs = b.abs) :=
  ((tells_bitmap (tells_vec tells_nat)).comp
    (fun b : Bitmap => (⟨b.buffer, b.bits, b.offset⟩ : BitmapOf (RVec Byte)))).weaken
      fun _ _ h => bitmap_abs h

theorem tells_null {O : Type} {R : Realloc O} (L : LawfulR R) {text : R.C → List Byte}
    (h : Tells text (fun a b => L.abs a = L.abs b)) :
    ∀ nl, Tells (nullDebug R text nl) (fun a b => (nullL nl L).abs a = (nullL nl L).abs b)
  | false => h
  | true => by
    have h1 := (tells_validity h tells_bits).comp
      (fun v : Validity R.C => (⟨v.coll, v.bitmap⟩ : ValidityOf R.C Bitmap))
    refine h1.weaken fun a b e => ?_
    obtain ⟨ac, ab⟩ := a
    obtain ⟨bc, bb⟩ := b
    obtain ⟨e1, e2⟩ := e
    show Validity.abs L.toLawfulColl _ = Validity.abs L.toLawfulColl _
    cases ab <;> cases bb
    · simp only [Validity.abs]; rw [show L.abs ac = L.abs bc from e1]
    · cases e2
    · cases e2
    · rw [Validity.abs_some, Validity.abs_some, show L.abs ac = L.abs bc from e1,
        show Bitmap.abs _ = Bitmap.abs _ from e2]

theorem tells_memory (f : FloatText) : ∀ (nl : Bool) (t : Ty) (ht : t.WF), t.NoFloat →
    Tells (memoryDebug f nl t) (fun a b => (arrayL nl t ht).abs a = (arrayL nl t ht).abs b)
  | nl, .bool, _, _ =>
    tells_tuple (tells_null bitmapL tells_bits nl) "Boolean" (b := 66#8) rfl (by decide)
  | nl, .prim p, _, hf =>
    tells_tuple (tells_null (vecL p.lim p.lim_le 0#(8 * p.size)) (tells_vec (tells_prim f p hf)) nl)
      "FixedSizePrimitive" (b := 70#8) rfl (by decide)
  | nl, .fsl n nl' t, ht, hf =>
    tells_tuple (tells_null (flattenL (arrayL nl' t ht.2) n ht.1)
      ((tells_flatten (tells_memory f nl' t ht.2 hf)).weaken fun _ _ e => congrArg (Flatten.group n) e) nl)
      "FixedSizeList" (b := 70#8) rfl (by decide)
  | nl, .vsl ow nl' t, ht, hf =>
    tells_tuple (tells_null (offsetsL ow (arrayL nl' t ht))
      (((tells_offsets (tells_memory f nl' t ht hf) (tells_vec tells_decimalInt)).comp
        (fun c : Offsets (arrayR nl' t).C => (⟨c.data, c.offsets⟩ : OffsetsIn _ _))).weaken
          fun a b e => by
            show Offsets.abs _ a = Offsets.abs _ b
            unfold Offsets.abs
            rw [show (arrayL nl' t ht).abs a.data = (arrayL nl' t ht).abs b.data from e.1,
              show a.offsets.items = b.offsets.items from e.2]) nl)
      "VariableSizeList" (b := 86#8) rfl (by decide)

end Narrow
