import Verif.Spec.RawExport
import Verif.Proof.Raw

/-!
# Exported structures are in memory
-/

namespace Narrow.Ffi.Raw

open Narrow.Ffi Narrow.Ffi.Spec

/-! ## Bytes -/

theorem put_in {m : Mem} {p : Nat} {l : List Byte} {h} {i : Nat} (hi : i < l.length) :
    (put m p l h).byte (p + i) = some l[i] := by
  show (if p ≤ p + i ∧ p + i < p + l.length then l[p + i - p]? else _) = _
  rw [if_pos ⟨Nat.le_add_right _ _, Nat.add_lt_add_left hi _⟩, Nat.add_sub_cancel_left,
    List.getElem?_eq_getElem hi]

theorem put_out {m : Mem} {p : Nat} {l : List Byte} {h} {q : Nat} (hq : ¬ (p ≤ q ∧ q < p + l.length)) :
    (put m p l h).byte q = m.byte q := if_neg hq

theorem put_bytes {m : Mem} {p : Nat} {l : List Byte} {h} : BytesAt (put m p l h) p l :=
  fun _ hi => put_in hi

theorem _root_.Narrow.Ffi.Spec.Extends.refl (m : Mem) : Extends m m := fun _ _ h => h

theorem _root_.Narrow.Ffi.Spec.Extends.trans {m m' m'' : Mem} (h : Extends m m') (h' : Extends m' m'') : Extends m m'' :=
  fun p b hb => h' p b (h p b hb)

theorem _root_.Narrow.Ffi.Spec.BytesAt.mono {m m' : Mem} {p : Nat} {l : List Byte} (h : BytesAt m p l) (h' : Extends m m') :
    BytesAt m' p l := fun i hi => h' _ _ (h i hi)

theorem _root_.Narrow.Ffi.Spec.StringAt.mono {m m' : Mem} {p : Nat} {l : List Byte} (h : StringAt m p l) (h' : Extends m m') :
    StringAt m' p l :=
  ⟨fun i hi => ⟨(h.1 i hi).1, h' _ _ (h.1 i hi).2⟩, h' _ _ h.2⟩

/-- Memory outside a block is the same. -/
def Same (m m' : Mem) (p n : Nat) : Prop := ∀ q, ¬ (p ≤ q ∧ q < p + n) → m'.byte q = m.byte q

/-- There is memory in all of a block. -/
def Full (m : Mem) (p n : Nat) : Prop := ∀ i, i < n → (m.byte (p + i)).isSome = true

theorem Same.weaken {m m' : Mem} {p n q k : Nat} (h : Same m m' (p + q) k) (hk : q + k ≤ n) : Same m m' p n := by
  intro x hx
  exact h x (by omega)

theorem Same.trans {m m' m'' : Mem} {p n : Nat} (h : Same m m' p n) (h' : Same m' m'' p n) :
    Same m m'' p n := fun q hq => (h' q hq).trans (h q hq)

theorem _root_.Narrow.Ffi.Spec.BytesAt.same {m m' : Mem} {p n b q : Nat} {l : List Byte} (h : BytesAt m (b + q) l)
    (h' : Same m m' (b + p) n) (ha : Apart q l.length p n ∨ Apart p n q l.length) : BytesAt m' (b + q) l := by
  intro i hi
  rw [h' _ (by rcases ha with ha | ha <;> unfold Apart at ha <;> omega)]
  exact h i hi

theorem alloc_ok (env : Env) (h : Heap) (align : Nat) (l : List Byte) :
    h.alloc env align l = .abort ∨ ∃ p h', h.alloc env align l = .ok (p, h') ∧ p % align = 0 ∧ p ≠ 0 ∧ p + l.length ≤ byteMax ∧
      (∀ i, i < l.length → h.mem.byte (p + i) = none) ∧ Extends h.mem h'.mem ∧
      Same h.mem h'.mem p l.length ∧ BytesAt h'.mem p l ∧ Full h'.mem p l.length ∧
      (∀ q, h'.blocks q = if q = p then some l.length else h.blocks q) ∧ h'.dropped = h.dropped := by
  unfold Heap.alloc
  split
  · next hp =>
    refine .inr ⟨_, _, rfl, hp.2.1, hp.1.1, hp.1.2, hp.2.2, fun q b hb => ?_, fun q hq => put_out (h := fun _ => hp.1) hq,
      put_bytes (h := fun _ => hp.1), fun i hi => by rw [put_in hi]; rfl, fun _ => rfl, rfl⟩
    rw [put_out]
    · exact hb
    · rintro ⟨h1, h2⟩
      have := hp.2.2 (q - env.place h.count) (by omega)
      rw [Nat.add_sub_cancel' h1, hb] at this
      cases this
  · exact .inl rfl

theorem write_ok {h : Heap} {b n p : Nat} {l : List Byte} (hf : Full h.mem b n) (hp : p + l.length ≤ n) :
    ∃ h', h.write (b + p) l = .ok h' ∧ Same h.mem h'.mem (b + p) l.length ∧ BytesAt h'.mem (b + p) l ∧
      Full h'.mem b n ∧ h'.blocks = h.blocks ∧ h'.dropped = h.dropped := by
  have hw : ∀ i, i < l.length → (h.mem.byte (b + p + i)).isSome = true := fun i hi => by
    rw [Nat.add_assoc]; exact hf (p + i) (by omega)
  refine ⟨_, dif_pos hw, fun q hq => put_out (h := writable hw) hq, put_bytes (h := writable hw), fun i hi => ?_, rfl, rfl⟩
  show (Mem.byte (put h.mem (b + p) l (writable hw)) _).isSome = true
  by_cases hin : b + p ≤ b + i ∧ b + i < b + p + l.length
  · have : b + i = b + p + (i - p) := by omega
    rw [this, put_in (by omega)]; rfl
  · rw [put_out hin]; exact hf i hi

/-! ## Words -/

theorem wordBytes_length (v : Nat) : (wordBytes v).length = 8 := by
  unfold wordBytes; rw [List.length_map, List.length_range]

theorem holds_word {m : Mem} {p v : Nat} (h : BytesAt m p (wordBytes v)) (hv : v < 2 ^ 64) : Holds m p v := by
  refine ⟨hv, fun i hi => ?_⟩
  rw [h i (by rw [wordBytes_length]; exact hi)]
  simp [wordBytes]

theorem _root_.Narrow.Ffi.Spec.BytesAt.left {m : Mem} {p : Nat} {l l' : List Byte} (h : BytesAt m p (l ++ l')) : BytesAt m p l := by
  intro i hi
  rw [h i (by rw [List.length_append]; omega), List.getElem_append_left hi]

theorem _root_.Narrow.Ffi.Spec.BytesAt.right {m : Mem} {p : Nat} {l l' : List Byte} (h : BytesAt m p (l ++ l')) :
    BytesAt m (p + l.length) l' := by
  intro i hi
  rw [Nat.add_assoc, h (l.length + i) (by rw [List.length_append]; omega),
    List.getElem_append_right (Nat.le_add_right _ _)]
  congr 2
  omega

theorem flatMap_at {α : Type} {m : Mem} {f : α → List Byte} {k : Nat} (hf : ∀ a, (f a).length = k) :
    ∀ {l : List α} {p : Nat}, BytesAt m p (l.flatMap f) →
    ∀ i (h : i < l.length), BytesAt m (p + k * i) (f l[i])
  | [], _, _, i, h => absurd h (Nat.not_lt_zero _)
  | a :: l, p, hb, 0, _ => by
    rw [List.flatMap_cons] at hb
    exact hb.left
  | a :: l, p, hb, i + 1, h => by
    rw [List.flatMap_cons] at hb
    have := flatMap_at hf hb.right i (Nat.lt_of_succ_lt_succ h)
    rw [hf, Nat.add_assoc, ← Nat.mul_one k, Nat.mul_assoc, Nat.one_mul, ← Nat.mul_add, Nat.add_comm 1] at this
    exact this

theorem flatMap_length {α : Type} {f : α → List Byte} {k : Nat} (hf : ∀ a, (f a).length = k) :
    ∀ l : List α, (l.flatMap f).length = k * l.length
  | [] => rfl
  | a :: l => by
    rw [List.flatMap_cons, List.length_append, hf, flatMap_length hf l, List.length_cons, Nat.mul_succ,
      Nat.add_comm]

theorem words_length (l : List Nat) : (words l).length = 8 * l.length :=
  flatMap_length wordBytes_length l

theorem words_at {m : Mem} {p : Nat} {l : List Nat} (h : BytesAt m p (words l)) (hs : ∀ v ∈ l, v < 2 ^ 64)
    (i : Nat) (hi : i < l.length) : Holds m (p + 8 * i) l[i] :=
  holds_word (flatMap_at wordBytes_length h i hi) (hs _ (List.getElem_mem hi))

theorem arrayBytes_length (r : RawArray) : (arrayBytes r).length = 80 := words_length _

theorem schemaBytes_length (r : RawSchema) : (schemaBytes r).length = 72 := words_length _

/-- The addresses fit into a word. -/
def SmallA (r : RawArray) : Prop :=
  r.buffers < 2 ^ 64 ∧ r.children < 2 ^ 64 ∧ r.dictionary < 2 ^ 64 ∧ r.release < 2 ^ 64 ∧
    r.privateData < 2 ^ 64

def SmallS (r : RawSchema) : Prop :=
  r.format < 2 ^ 64 ∧ r.name < 2 ^ 64 ∧ r.metadata < 2 ^ 64 ∧ r.children < 2 ^ 64 ∧
    r.dictionary < 2 ^ 64 ∧ r.release < 2 ^ 64 ∧ r.privateData < 2 ^ 64

theorem stored_of_bytes {m : Mem} {p : Nat} {r : RawArray} (h : BytesAt m p (arrayBytes r))
    (hr : SmallA r) : ArrayStored m p r := by
  obtain ⟨h1, h2, h3, h4, h5⟩ := hr
  have hw := words_at h (by
    simp only [List.mem_cons, List.not_mem_nil, or_false]
    rintro v (rfl | rfl | rfl | rfl | rfl | rfl | rfl | rfl | rfl | rfl)
    · exact r.length.isLt
    · exact r.nullCount.isLt
    · exact r.offset.isLt
    · exact r.nBuffers.isLt
    · exact r.nChildren.isLt
    all_goals assumption)
  exact ⟨hw 0 (by show _ < 10; omega), hw 1 (by show _ < 10; omega), hw 2 (by show _ < 10; omega), hw 3 (by show _ < 10; omega), hw 4 (by show _ < 10; omega),
    hw 5 (by show _ < 10; omega), hw 6 (by show _ < 10; omega), hw 7 (by show _ < 10; omega), hw 8 (by show _ < 10; omega), hw 9 (by show _ < 10; omega)⟩

theorem schemaStored_of_bytes {m : Mem} {p : Nat} {r : RawSchema} (h : BytesAt m p (schemaBytes r))
    (hr : SmallS r) : SchemaStored m p r := by
  obtain ⟨h1, h2, h3, h4, h5, h6, h7⟩ := hr
  have hw := words_at h (by
    simp only [List.mem_cons, List.not_mem_nil, or_false]
    rintro v (rfl | rfl | rfl | rfl | rfl | rfl | rfl | rfl | rfl)
    · assumption
    · assumption
    · assumption
    · exact r.flags.isLt
    · exact r.nChildren.isLt
    all_goals assumption)
  exact ⟨hw 0 (by show _ < 9; omega), hw 1 (by show _ < 9; omega), hw 2 (by show _ < 9; omega), hw 3 (by show _ < 9; omega), hw 4 (by show _ < 9; omega),
    hw 5 (by show _ < 9; omega), hw 6 (by show _ < 9; omega), hw 7 (by show _ < 9; omega), hw 8 (by show _ < 9; omega)⟩

/-! ## One structure -/

theorem byteMax_lt : byteMax < 2 ^ 64 := by decide

theorem _root_.Narrow.Ffi.Spec.Holds.pointer {m : Mem} {p q : Nat} {P : Prop} (h : Holds m p q) (e : q ≠ 0 ↔ P) : Pointer m p P :=
  ⟨q, h, e⟩

theorem intoRaw_fields {m : Mem} {lay : DataLayout} {box table release no : Nat} {buffers : List Nat}
    {kids : List CArray} {raws : List RawArray} {length nullCount : I64} {owner : Option (List Nat)}
    (hbox : box ≠ 0) (hb : BytesAt m (box + lay.buffers) (words buffers)) (hne : buffers ≠ [])
    (hs : ∀ v ∈ buffers, v < 2 ^ 64) (hrel : release ≠ 0) (hl : raws.length = kids.length)
    (ht : raws ≠ [] → table ≠ 0)
    {p : Nat} (h : ArrayStored m p (intoRaw lay release box table buffers.length raws.length length nullCount)) :
    ArrayFields m p (intoArray no owner buffers kids length nullCount) := by
  have hn : buffers.length ≠ 0 := fun e => hne (List.eq_nil_of_length_eq_zero e)
  obtain ⟨h1, h2, h3, h4, h5, h6, h7, h8, h9, h10⟩ := h
  simp only [intoRaw, if_neg hn] at h6
  refine ⟨h1, h2, h3, h4, ?_, ?_, ?_, h8.pointer (by simp [intoRaw, intoArray]),
    h9.pointer (by simp [intoRaw, intoArray, hrel]), _, h10⟩
  · simpa only [intoRaw, intoArray, hl] using h5
  · simp only [intoArray, List.isEmpty_iff, if_neg hne]
    exact ⟨_, by omega, h6, words_at hb hs⟩
  · refine h7.pointer ?_
    simp only [intoRaw, intoArray, List.isEmpty_iff]
    by_cases he : kids = []
    · simp [he] at hl ⊢
      simp [hl]
    · have he' : raws ≠ [] := fun e => he (List.eq_nil_of_length_eq_zero (by rw [← hl, e]; rfl))
      have hr' : raws.length ≠ 0 := fun e => he' (List.eq_nil_of_length_eq_zero e)
      simp [he, hr', ht he']

theorem intoRaw_at {m : Mem} {lay : DataLayout} {box table release no : Nat} {buffers : List Nat}
    {kids : List CArray} {raws : List RawArray} {length nullCount : I64} {owner : Option (List Nat)}
    (hbox : box ≠ 0) (hb : BytesAt m (box + lay.buffers) (words buffers)) (hne : buffers ≠ [])
    (hs : ∀ v ∈ buffers, v < 2 ^ 64) (hrel : release ≠ 0) (hl : raws.length = kids.length)
    (ht : raws ≠ [] → table ≠ 0 ∧ ∀ i, i < raws.length → Holds m (table + 8 * i) (box + lay.children + 80 * i))
    (hc : BytesAt m (box + lay.children) (raws.flatMap arrayBytes)) (hsm : ∀ r ∈ raws, SmallA r)
    (hk : ∀ i (h : i < raws.length) (h' : i < kids.length), ∀ d q, ArrayStored m q raws[i] →
      ArrayAt m d q kids[i])
    {p : Nat} (h : ArrayStored m p (intoRaw lay release box table buffers.length raws.length length nullCount))
    (d : Nat) : ArrayAt m d p (intoArray no owner buffers kids length nullCount) := by
  have hf : ArrayFields m p (intoArray no owner buffers kids length nullCount) :=
    intoRaw_fields hbox hb hne hs hrel hl (fun e => (ht e).1) h
  obtain ⟨_, _, _, _, _, _, h7, _⟩ := h
  cases d with
  | zero => exact hf
  | succ d =>
    refine ⟨hf, ?_⟩
    by_cases he : kids = []
    · subst he
      have : raws.length = 0 := hl
      simp only [intoRaw, this, if_pos] at h7
      simp only [intoArray, List.isEmpty_nil, if_pos]
      exact h7
    · have he' : raws ≠ [] := fun e => he (List.eq_nil_of_length_eq_zero (by rw [← hl, e]; rfl))
      have hr' : raws.length ≠ 0 := fun e => he' (List.eq_nil_of_length_eq_zero e)
      simp only [intoRaw, if_neg hr'] at h7
      simp only [intoArray, List.isEmpty_iff, if_neg he]
      refine ⟨table, (ht he').1, h7, fun i hi => ?_⟩
      rw [List.length_map] at hi
      rw [List.getElem_map]
      refine ⟨_, ?_, (ht he').2 i (by omega), ?_⟩
      · omega
      · have hi' : i < raws.length := by omega
        refine hk i hi' hi d _ (stored_of_bytes (flatMap_at arrayBytes_length hc i hi') ?_)
        exact hsm _ (List.getElem_mem hi')

/-! ## Boxes of arrays -/

theorem Ex.bind_ok {α β : Type} {a : α} {f : α → Ex β} : (Ex.ok a).bind f = f a := rfl

theorem newData_ok (env : Env) {lay : DataLayout} {owner : List Byte} {buffers : List Nat}
    {children : List RawArray} (h : Heap) (hl : DataFields lay buffers.length children.length owner.length) :
    newData env lay owner buffers children h = .abort ∨
    ∃ box h', newData env lay owner buffers children h = .ok (box, h') ∧ box % lay.align = 0 ∧ box ≠ 0 ∧
      box + lay.size ≤ byteMax ∧ (∀ i, i < lay.size → h.mem.byte (box + i) = none) ∧
      Same h.mem h'.mem box lay.size ∧ Full h'.mem box lay.size ∧
      BytesAt h'.mem (box + lay.buffers) (words buffers) ∧
      BytesAt h'.mem (box + lay.children) (children.flatMap arrayBytes) ∧
      BytesAt h'.mem (box + lay.pointers) (words [0, 8, 0]) ∧
      BytesAt h'.mem (box + lay.owner) owner ∧
      (∀ q, h'.blocks q = if q = box then some lay.size else h.blocks q) ∧ h'.dropped = h.dropped := by
  obtain ⟨⟨i1, i2, i3, i4⟩, _, a1, a2, a3, a4, a5, a6, _⟩ := hl
  have e1 := words_length buffers
  have e2 := flatMap_length arrayBytes_length children
  have e0 : (words [0, 8, 0]).length = 24 := words_length _
  unfold newData
  rcases alloc_ok env h lay.align (List.replicate lay.size 0#8) with e | ⟨box, h1, e, hal, hb, hm, hfree, _, hs, _, hf, hk, hd⟩
  · left; rw [e]; rfl
  · simp only [List.length_replicate] at hm hfree hs hf hk
    obtain ⟨h2, w1, s1, b1, f1, k1, d1⟩ := write_ok (l := words buffers) (p := lay.buffers) hf (by omega)
    obtain ⟨h3, w2, s2, b2, f2, k2, d2⟩ := write_ok (l := children.flatMap arrayBytes) (p := lay.children) f1 (by omega)
    obtain ⟨h3', w0, s0, b0, f0, k0, d0⟩ := write_ok (l := words [0, 8, 0]) (p := lay.pointers) f2 (by omega)
    obtain ⟨h4, w3, s3, b3, f3, k3, d3⟩ := write_ok (l := owner) (p := lay.owner) f0 (by omega)
    refine .inr ⟨box, h4, ?_, hal, hb, hm, hfree, ?_, f3, ?_, ?_, ?_, b3,
      by rw [k3, k0, k2, k1]; exact hk, by rw [d3, d0, d2, d1, hd]⟩
    · rw [e, Ex.bind_ok]; simp only; rw [w1, Ex.bind_ok, w2, Ex.bind_ok, w0, Ex.bind_ok, w3, Ex.bind_ok]
    · exact (hs.trans (s1.weaken (by omega))).trans
        ((s2.weaken (by omega)).trans ((s0.weaken (by omega)).trans (s3.weaken (by omega))))
    · exact ((b1.same s2 (.inl (by rw [e1, e2]; exact a1))).same s0 (.inl (by rw [e1, e0]; exact a2))).same s3
        (.inl (by rw [e1]; exact a3))
    · exact (b2.same s0 (.inl (by rw [e2, e0]; exact a4))).same s3 (.inl (by rw [e2]; exact a5))
    · exact b0.same s3 (.inl (by rw [e0]; exact a6))

theorem setChildPointers_ok (env : Env) {lay : DataLayout} {box n : Nat} {h : Heap}
    (hf : Full h.mem box lay.size) (hp : lay.pointers + 24 ≤ lay.size) :
    setChildPointers env lay box n h = .abort ∨
    ∃ table h', setChildPointers env lay box n h = .ok (table, h') ∧ table % 8 = 0 ∧ table < 2 ^ 64 ∧ table ≠ 0 ∧
      (∀ i, i < 8 * n → h.mem.byte (table + i) = none) ∧
      (∀ q, ¬ (box + lay.pointers ≤ q ∧ q < box + lay.pointers + 24) →
        ¬ (table ≤ q ∧ q < table + 8 * n) → h'.mem.byte q = h.mem.byte q) ∧
      BytesAt h'.mem table (words ((List.range n).map fun i => box + lay.children + 80 * i)) ∧
      BytesAt h'.mem (box + lay.pointers) (words [n, table, n]) ∧
      (∀ q, h'.blocks q = if n ≠ 0 ∧ q = table then some (8 * n) else h.blocks q) ∧
      h'.dropped = h.dropped := by
  have hx : (words ((List.range n).map fun i => box + lay.children + 80 * i)).length = 8 * n := by
    rw [words_length, List.length_map, List.length_range]
  unfold setChildPointers
  by_cases hn : n = 0
  · obtain ⟨h2, w1, s1, b1, f1, k1, d1⟩ := write_ok (l := words [n, 8, n]) (p := lay.pointers) hf
      (by rw [words_length]; exact hp)
    refine .inr ⟨8, h2, ?_, rfl, by decide, by decide, fun i hi => by omega, ?_, ?_, b1, fun q => ?_, d1⟩
    · rw [if_pos hn, Ex.bind_ok, w1, Ex.bind_ok]
    · intro q hq _
      exact s1 q (by rw [words_length]; exact hq)
    · intro i hi
      exact absurd hi (by rw [hx]; omega)
    · rw [if_neg (fun h => h.1 hn), k1]
  · rcases alloc_ok env h 8 (words ((List.range n).map fun i => box + lay.children + 80 * i)) with
      e | ⟨table, h1, e, hal, ht, hm', hfree, hx1, hs, hb, _, hk, hd⟩
    · left; rw [if_neg hn, e]; rfl
    · rw [hx] at hm' hfree hs
      simp only [hx] at hk
      have hf1 : Full h1.mem box lay.size := fun i hi => by
        obtain ⟨b, hb⟩ := Option.isSome_iff_exists.1 (hf i hi)
        rw [hx1 _ _ hb]; rfl
      obtain ⟨h2, w1, s1, b1, f1, k1, d1⟩ := write_ok (l := words [n, table, n]) (p := lay.pointers) hf1
        (by rw [words_length]; exact hp)
      rw [words_length] at s1
      refine .inr ⟨table, h2, ?_, hal, Nat.lt_of_le_of_lt (by omega) byteMax_lt, ht, hfree, ?_, ?_, b1,
        fun q => ?_, d1.trans hd⟩
      · rw [if_neg hn, e, Ex.bind_ok]; simp only; rw [w1, Ex.bind_ok]
      · intro q hq hq'
        rw [s1 q hq, hs q hq']
      · intro i hi
        rw [s1]
        · exact hb i hi
        · intro hin
          have h1 := hfree i (by omega)
          have h2 := hf (table + i - box) (by simp only [List.length_cons, List.length_nil] at hin; omega)
          rw [Nat.add_sub_cancel' (by omega), h1] at h2
          cases h2
      · rw [k1, hk]
        by_cases hq : q = table
        · rw [if_pos hq, if_pos ⟨hn, hq⟩]
        · rw [if_neg hq, if_neg (fun h => hq h.2)]

/-- Memory was only added. -/
structure Grew (h h' : Heap) : Prop where
  ext : Extends h.mem h'.mem
  old : ∀ q, ¬ New h h' q → h'.blocks q = h.blocks q
  tidy : Tidy h'
  dropped : h'.dropped = h.dropped

/-- A box of private data, its table of children and the memory of its children
(`New h1 h2`) were added. -/
structure DataOk (lay : DataLayout) (box table : Nat) (raws : List RawArray) (buffers : List Nat)
    (owner : List Byte) (h h1 h2 h' : Heap) : Prop where
  boxA : box % lay.align = 0
  box0 : box ≠ 0
  boxM : box + lay.size ≤ byteMax
  table0 : table ≠ 0
  tableA : table % 8 = 0
  tableS : table < 2 ^ 64
  new : ∀ q, New h h' q ↔ InBlock box lay.size q ∨ InBlock table (8 * raws.length) q ∨ New h1 h2 q
  kidsBox : ∀ q, New h1 h2 q → ¬ InBlock box lay.size q
  kidsTable : ∀ q, New h1 h2 q → ¬ InBlock table (8 * raws.length) q
  boxTable : ∀ q, InBlock box lay.size q → ¬ InBlock table (8 * raws.length) q
  kids : ∀ q, New h1 h2 q → h'.mem.byte q = h2.mem.byte q ∧ h'.blocks q = h2.blocks q
  buffersAt : BytesAt h'.mem (box + lay.buffers) (words buffers)
  childrenAt : BytesAt h'.mem (box + lay.children) (raws.flatMap arrayBytes)
  ownerAt : BytesAt h'.mem (box + lay.owner) owner
  pointersAt : BytesAt h'.mem (box + lay.pointers) (words [raws.length, table, raws.length])
  tableAt : BytesAt h'.mem table (words ((List.range raws.length).map fun i => box + lay.children + 80 * i))
  blkBox : h'.blocks box = some lay.size
  blkTable : raws.length ≠ 0 → h'.blocks table = some (8 * raws.length)
  blkNew : ∀ q, New h h' q → ¬ New h1 h2 q → q ≠ box → ¬ (raws.length ≠ 0 ∧ q = table) → h'.blocks q = none
  grew : Grew h h'

theorem dataOk_of (env : Env) {lay : DataLayout} {box : Nat} {raws : List RawArray} {buffers : List Nat}
    {owner : List Byte} {h h1 h2 hx : Heap} (hl : DataFields lay buffers.length raws.length owner.length)
    (hal : box % lay.align = 0) (hbox : box ≠ 0) (hm : box + lay.size ≤ byteMax)
    (hfree : ∀ i, i < lay.size → h.mem.byte (box + i) = none)
    (h01 : ∀ q, ¬ InBlock box lay.size q → h1.mem.byte q = h.mem.byte q)
    (hkb : ∀ q, New h1 h2 q → ¬ InBlock box lay.size q) (e12 : Extends h1.mem h2.mem)
    (hx2 : ∀ q, ¬ InBlock box lay.size q → hx.mem.byte q = h2.mem.byte q) (hf : Full hx.mem box lay.size)
    (b1 : BytesAt hx.mem (box + lay.buffers) (words buffers))
    (b2 : BytesAt hx.mem (box + lay.children) (raws.flatMap arrayBytes))
    (b3 : BytesAt hx.mem (box + lay.owner) owner)
    (k1 : hx.blocks box = some lay.size) (k2 : ∀ q, New h1 h2 q → hx.blocks q = h2.blocks q)
    (k3 : ∀ q, ¬ New h1 h2 q → q ≠ box → hx.blocks q = h.blocks q) (ht : Tidy h)
    (hd : hx.dropped = h.dropped) :
    setChildPointers env lay box raws.length hx = .abort ∨
    ∃ table h', setChildPointers env lay box raws.length hx = .ok (table, h') ∧
      DataOk lay box table raws buffers owner h h1 h2 h' := by
  obtain ⟨⟨i1, i2, i3, i4⟩, _, _, a2, _, a4, _, a6⟩ := hl
  rcases setChildPointers_ok env (n := raws.length) hf i3 with e | ⟨table, h', e, hta', hts, ht0, htf, hs, hta, hpa, hk, hd'⟩
  · exact .inl e
  have e1 := words_length buffers
  have e2 := flatMap_length arrayBytes_length raws
  have e3 : (words [raws.length, table, raws.length]).length = 24 := words_length _
  have e4 : (words ((List.range raws.length).map fun i => box + lay.children + 80 * i)).length = 8 * raws.length := by
    rw [words_length, List.length_map, List.length_range]
  have hbt : ∀ q, InBlock box lay.size q → ¬ InBlock table (8 * raws.length) q := by
    intro q hq hq'
    have h1 := htf (q - table) (by unfold InBlock at hq'; omega)
    have h2 := hf (q - box) (by unfold InBlock at hq; omega)
    rw [Nat.add_sub_cancel' hq'.1] at h1
    rw [Nat.add_sub_cancel' hq.1, h1] at h2
    cases h2
  have hin : ∀ {o n : Nat}, o + n ≤ lay.size → (o + n ≤ lay.pointers ∨ lay.pointers + 24 ≤ o ∨ n = 0) →
      ∀ i, i < n → h'.mem.byte (box + o + i) = hx.mem.byte (box + o + i) := by
    intro o n ho ha i hi
    refine hs _ (by omega) (hbt _ ⟨by omega, by omega⟩)
  have hout : ∀ q, ¬ InBlock box lay.size q → ¬ InBlock table (8 * raws.length) q →
      h'.mem.byte q = h2.mem.byte q := by
    intro q hq hq'
    rw [hs q (fun h => hq ⟨by omega, by omega⟩) hq', hx2 q hq]
  have hfull : Full h'.mem box lay.size := by
    intro i hi
    by_cases hp : lay.pointers ≤ i ∧ i < lay.pointers + 24
    · have := hpa (i - lay.pointers) (by rw [e3]; omega)
      rw [Nat.add_assoc, Nat.add_sub_cancel' hp.1] at this
      rw [this]; rfl
    · rw [hs (box + i) (by omega) (hbt _ ⟨by omega, by omega⟩)]
      exact hf i hi
  have hkt : ∀ q, New h1 h2 q → ¬ InBlock table (8 * raws.length) q := by
    intro q hq hq'
    have h1 := htf (q - table) (by unfold InBlock at hq'; omega)
    rw [Nat.add_sub_cancel' hq'.1, hx2 q (hkb q hq)] at h1
    exact hq.2 h1
  have hboxnew : ∀ q, InBlock box lay.size q → h.mem.byte q = none := by
    intro q hq
    have := hfree (q - box) (by unfold InBlock at hq; omega)
    rwa [Nat.add_sub_cancel' hq.1] at this
  have hext2 : ∀ q, ¬ InBlock box lay.size q → h2.mem.byte q = none → h.mem.byte q = none := by
    intro q hq hn
    rw [← h01 q hq]
    cases hc : h1.mem.byte q with
    | none => rfl
    | some b => rw [e12 q b hc] at hn; cases hn
  have hnew : ∀ q, New h h' q ↔ InBlock box lay.size q ∨ InBlock table (8 * raws.length) q ∨ New h1 h2 q := by
    intro q
    constructor
    · intro hq
      by_cases hb : InBlock box lay.size q
      · exact .inl hb
      by_cases htb : InBlock table (8 * raws.length) q
      · exact .inr (.inl htb)
      refine .inr (.inr ⟨?_, ?_⟩)
      · rw [h01 q hb]; exact hq.1
      · rw [← hout q hb htb]; exact hq.2
    · rintro (hb | htb | hk)
      · refine ⟨hboxnew q hb, fun hn => ?_⟩
        have := hfull (q - box) (by unfold InBlock at hb; omega)
        rw [Nat.add_sub_cancel' hb.1, hn] at this
        cases this
      · have hnb : ¬ InBlock box lay.size q := fun hb => hbt q hb htb
        have h3 := htf (q - table) (by unfold InBlock at htb; omega)
        rw [Nat.add_sub_cancel' htb.1, hx2 q hnb] at h3
        refine ⟨hext2 q hnb h3, fun hn => ?_⟩
        have := hta (q - table) (by rw [e4]; unfold InBlock at htb; omega)
        rw [Nat.add_sub_cancel' htb.1, hn] at this
        cases this
      · have hnb := hkb q hk
        refine ⟨?_, ?_⟩
        · rw [← h01 q hnb]; exact hk.1
        · rw [hout q hnb (hkt q hk)]; exact hk.2
  have hsz : ∀ {q}, ¬ InBlock box lay.size q → q ≠ box := by
    rintro q hq rfl
    exact hq ⟨Nat.le_refl _, by omega⟩
  have htz : ∀ {q}, ¬ InBlock table (8 * raws.length) q → ¬ (raws.length ≠ 0 ∧ q = table) := by
    rintro q hq ⟨hn, rfl⟩
    exact hq ⟨Nat.le_refl _, by omega⟩
  have hold : ∀ q, ¬ New h h' q → h'.blocks q = h.blocks q := by
    intro q hq
    have hq' := fun h => hq ((hnew q).2 h)
    rw [hk, if_neg (htz fun h => hq' (.inr (.inl h))), k3 q (fun h => hq' (.inr (.inr h)))
      (hsz fun h => hq' (.inl h))]
  refine .inr ⟨table, h', e, hal, hbox, hm, ht0, hta', hts, hnew, hkb, hkt, hbt, ?_, ?_, ?_, ?_, hpa, hta, ?_, ?_, ?_, ?_⟩
  · intro q hq
    refine ⟨hout q (hkb q hq) (hkt q hq), ?_⟩
    rw [hk, if_neg (htz (hkt q hq)), k2 q hq]
  · intro i hi
    rw [hin (o := lay.buffers) (n := 8 * buffers.length) (by omega) (by unfold Apart at a2; omega) i (by omega)]
    exact b1 i hi
  · intro i hi
    rw [hin (o := lay.children) (n := 80 * raws.length) (by omega) (by unfold Apart at a4; omega) i (by omega)]
    exact b2 i hi
  · intro i hi
    rw [hin (o := lay.owner) (n := owner.length) (by omega) (by unfold Apart at a6; omega) i hi]
    exact b3 i hi
  · rw [hk, if_neg (htz (hbt box ⟨Nat.le_refl _, by omega⟩)), k1]
  · intro hn
    rw [hk, if_pos ⟨hn, rfl⟩]
  · intro q hq hq' hb htb
    rw [hk, if_neg htb, k3 q hq' hb]
    exact ht q hq.1
  · refine ⟨?_, hold, ?_, hd'.trans hd⟩
    · intro q b hb
      have hnb : ¬ InBlock box lay.size q := fun hq => by rw [hboxnew q hq] at hb; cases hb
      have h2b := e12 q b ((h01 q hnb).trans hb)
      have hnt : ¬ InBlock table (8 * raws.length) q := fun hq => by
        have h3 := htf (q - table) (by unfold InBlock at hq; omega)
        rw [Nat.add_sub_cancel' hq.1, hx2 q hnb, h2b] at h3
        cases h3
      rw [hout q hnb hnt, h2b]
    · intro q hq
      rw [hold q fun h => h.2 hq]
      apply ht
      have hnb : ¬ InBlock box lay.size q := fun hb => by
        have := hfull (q - box) (by unfold InBlock at hb; omega)
        rw [Nat.add_sub_cancel' hb.1, hq] at this
        cases this
      have hnt : ¬ InBlock table (8 * raws.length) q := fun htb => by
        have := hta (q - table) (by rw [e4]; unfold InBlock at htb; omega)
        rw [Nat.add_sub_cancel' htb.1, hq] at this
        cases this
      rw [hout q hnb hnt] at hq
      exact hext2 q hnb hq

/-! ## Releasing a box of an array -/

/-- Between `H` and `H'`, what was added between `h` and `h'` was freed. Besides only
`n` bytes at `p` changed. -/
structure Freed (h h' : Heap) (p n : Nat) (H H' : Heap) : Prop where
  gone : ∀ q, New h h' q → H'.mem.byte q = none ∧ H'.blocks q = none
  mem : ∀ q, ¬ New h h' q → ¬ InBlock p n q → H'.mem.byte q = H.mem.byte q
  blocks : ∀ q, ¬ New h h' q → H'.blocks q = H.blocks q
  kept : Full H'.mem p n

theorem readWord_ok {h : Heap} {p v : Nat} (hv : Holds h.mem p v) : readWord h p = .ok v := by
  obtain ⟨w, hw, e⟩ := word_addr hv
  unfold readWord
  rw [hw, ← e]

theorem read_bytes {m : Mem} : ∀ {l : List Byte} {p : Nat}, BytesAt m p l → m.read p l.length = some l
  | [], _, _ => rfl
  | b :: l, p, h => by
    have h0 := h 0 (Nat.zero_lt_succ _)
    have h1 : BytesAt m (p + 1) l := fun i hi => by
      have := h (i + 1) (Nat.succ_lt_succ hi)
      rw [show p + 1 + i = p + (i + 1) by omega]
      exact this
    show (m.byte p).bind _ = _
    rw [show m.byte p = some b from h0, Option.bind_some, read_bytes h1]
    rfl

theorem full_of_holds {m : Mem} {p v : Nat} (h : Holds m p v) {i : Nat} (hi : i < 8) :
    (m.byte (p + i)).isSome = true := by rw [h.2 i hi]; rfl

theorem full_of_stored {m : Mem} {p : Nat} {r : RawArray} (h : ArrayStored m p r) : Full m p 80 := by
  obtain ⟨h0, h1, h2, h3, h4, h5, h6, h7, h8, h9⟩ := h
  have key : ∀ {k v : Nat}, Holds m (p + 8 * k) v → ∀ i, 8 * k ≤ i → i < 8 * k + 8 → (m.byte (p + i)).isSome = true := by
    intro k v hv i h h'
    have := full_of_holds hv (i := i - 8 * k) (by omega)
    rwa [Nat.add_assoc, Nat.add_sub_cancel' h] at this
  intro i hi
  have : i / 8 = 0 ∨ i / 8 = 1 ∨ i / 8 = 2 ∨ i / 8 = 3 ∨ i / 8 = 4 ∨ i / 8 = 5 ∨ i / 8 = 6 ∨ i / 8 = 7 ∨
    i / 8 = 8 ∨ i / 8 = 9 := by omega
  rcases this with h | h | h | h | h | h | h | h | h | h
  · exact key (k := 0) h0 i (by omega) (by omega)
  · exact key (k := 1) h1 i (by omega) (by omega)
  · exact key (k := 2) h2 i (by omega) (by omega)
  · exact key (k := 3) h3 i (by omega) (by omega)
  · exact key (k := 4) h4 i (by omega) (by omega)
  · exact key (k := 5) h5 i (by omega) (by omega)
  · exact key (k := 6) h6 i (by omega) (by omega)
  · exact key (k := 7) h7 i (by omega) (by omega)
  · exact key (k := 8) h8 i (by omega) (by omega)
  · exact key (k := 9) h9 i (by omega) (by omega)

theorem clearArray_ok {h : Heap} {p : Nat} (hf : Full h.mem p 80) :
    ∃ h', clearArray p h = .ok h' ∧ Same h.mem h'.mem p 80 ∧ Holds h'.mem (p + 64) 0 ∧
      h'.blocks = h.blocks ∧ h'.dropped = h.dropped ∧ Full h'.mem p 80 := by
  have e : (wordBytes 0).length = 8 := wordBytes_length 0
  obtain ⟨h1, w1, s1, b1, f1, k1, d1⟩ := write_ok (l := wordBytes 0) (p := 64) hf (by omega)
  obtain ⟨h2, w2, s2, _, f2, k2, d2⟩ := write_ok (l := wordBytes 0) (p := 72) f1 (by omega)
  obtain ⟨h3, w3, s3, _, f3, k3, d3⟩ := write_ok (l := wordBytes 0) (p := 40) f2 (by omega)
  obtain ⟨h4, w4, s4, _, f4, k4, d4⟩ := write_ok (l := wordBytes 0) (p := 48) f3 (by omega)
  obtain ⟨h5, w5, s5, _, f5, k5, d5⟩ := write_ok (l := wordBytes 0) (p := 56) f4 (by omega)
  rw [e] at s1 s2 s3 s4 s5
  refine ⟨h5, ?_, ?_, ?_, by rw [k5, k4, k3, k2, k1], by rw [d5, d4, d3, d2, d1], f5⟩
  · unfold clearArray
    rw [w1, Ex.bind_ok, w2, Ex.bind_ok, w3, Ex.bind_ok, w4, Ex.bind_ok, w5]
  · exact ((((s1.weaken (by omega)).trans (s2.weaken (by omega))).trans (s3.weaken (by omega))).trans
      (s4.weaken (by omega))).trans (s5.weaken (by omega))
  · refine holds_word ((((b1.same s2 (.inl ?_)).same s3 (.inl ?_)).same s4 (.inl ?_)).same s5 (.inl ?_)) (by decide)
    all_goals unfold Apart; omega

theorem free_ok {h : Heap} {p n : Nat} (hb : h.blocks p = some n) :
    ∃ h', h.free p n = .ok h' ∧ (∀ q, InBlock p n q → h'.mem.byte q = none) ∧
      (∀ q, ¬ InBlock p n q → h'.mem.byte q = h.mem.byte q) ∧
      (∀ q, h'.blocks q = if q = p then none else h.blocks q) ∧ h'.dropped = h.dropped :=
  ⟨_, if_pos hb, fun _ hq => if_pos hq, fun _ hq => if_neg hq, fun _ => rfl, rfl⟩

theorem Holds.same {m m' : Mem} {p v : Nat} (h : Holds m p v) (hs : ∀ i, i < 8 → m'.byte (p + i) = m.byte (p + i)) :
    Holds m' p v := ⟨h.1, fun i hi => (hs i hi).trans (h.2 i hi)⟩

theorem BytesAt.same' {m m' : Mem} {p : Nat} {l : List Byte} (h : BytesAt m p l)
    (hs : ∀ i, i < l.length → m'.byte (p + i) = m.byte (p + i)) : BytesAt m' p l :=
  fun i hi => (hs i hi).trans (h i hi)

theorem releaseData_ok {lay : DataLayout} {box table : Nat} {raws : List RawArray} {buffers : List Nat}
    {owner : List Byte} {h h1 h2 h' : Heap} (hd : DataOk lay box table raws buffers owner h h1 h2 h')
    (hl : DataFields lay buffers.length raws.length owner.length) {children : Nat → Heap → Ex Heap}
    (hk : ∀ H, Carries h1 h2 H → BytesAt H.mem (box + lay.children) (raws.flatMap arrayBytes) →
      ∃ H', children (box + lay.children) H = .ok H' ∧
        Freed h1 h2 (box + lay.children) (80 * raws.length) H H' ∧ H'.dropped = H.dropped)
    {H : Heap} {p : Nat} {r : RawArray} (hc : Carries h h' H) (hs : ArrayStored H.mem p r)
    (hr : r.privateData = box) (hp : ∀ q, New h h' q → ¬ InBlock p 80 q) (root : Bool) :
    ∃ H', releaseData lay root children p H = .ok H' ∧ Freed h h' p 80 H H' ∧ Holds H'.mem (p + 64) 0 ∧
      H'.dropped = H.dropped ++ if root then [(box + lay.owner, owner)] else [] := by
  obtain ⟨⟨i1, i2, i3, i4⟩, io, _, _, _, a4, a5, a6⟩ := hl
  have e2 := flatMap_length arrayBytes_length raws
  have e3 : (words [raws.length, table, raws.length]).length = 24 := words_length _
  obtain ⟨H1, w1, s1, z1, k1, d1, F1⟩ := clearArray_ok (full_of_stored hs)
  have inB : ∀ {o n : Nat}, o + n ≤ lay.size → ∀ i, i < n → InBlock box lay.size (box + o + i) :=
    fun ho i hi => ⟨by omega, by omega⟩
  have newB : ∀ q, InBlock box lay.size q → New h h' q := fun q hq => (hd.new q).2 (.inl hq)
  have c1 : ∀ q, New h h' q → H1.mem.byte q = h'.mem.byte q ∧ H1.blocks q = h'.blocks q := by
    intro q hq
    rw [s1 q (hp q hq), k1]
    exact hc q hq
  obtain ⟨H2, w2, f2, d2⟩ := hk H1 (fun q hq => by
      obtain ⟨ea, eb⟩ := c1 q ((hd.new q).2 (.inr (.inr hq)))
      obtain ⟨ec, ed⟩ := hd.kids q hq
      exact ⟨ea.trans ec, eb.trans ed⟩)
    (BytesAt.same' hd.childrenAt fun i hi => (c1 _ (newB _ (inB (n := 80 * raws.length) i2 i (by omega)))).1)
  have c2 : ∀ {o n : Nat}, o + n ≤ lay.size → Apart lay.children (80 * raws.length) o n →
      ∀ i, i < n → H2.mem.byte (box + o + i) = h'.mem.byte (box + o + i) := by
    intro o n ho ha i hi
    rw [f2.mem _ (fun hn => hd.kidsBox _ hn (inB ho i hi))
      (by unfold InBlock; unfold Apart at ha; omega)]
    exact (c1 _ (newB _ (inB ho i hi))).1
  have notkid : ∀ {q}, InBlock box lay.size q ∨ InBlock table (8 * raws.length) q → ¬ New h1 h2 q := by
    rintro q (hq | hq) hn
    · exact hd.kidsBox q hn hq
    · exact hd.kidsTable q hn hq
  have b2 : ∀ q, New h h' q → ¬ New h1 h2 q → H2.blocks q = h'.blocks q := by
    intro q hq hq'
    rw [f2.blocks q hq']
    exact (c1 q hq).2
  have pa := words_at (BytesAt.same' hd.pointersAt (m' := H2.mem) fun i hi =>
      c2 i3 a4 i (by omega)) (by
    intro v hv
    simp only [List.mem_cons, List.not_mem_nil, or_false] at hv
    have hb := byteMax_lt
    have hm := hd.boxM
    rcases hv with rfl | rfl | rfl
    · omega
    · exact hd.tableS
    · omega)
  -- the table
  obtain ⟨H3, w3, g3, m3, k3, d3⟩ : ∃ H3, dropPointers H2 (box + lay.pointers) = .ok H3 ∧
      (∀ q, InBlock table (8 * raws.length) q → H3.mem.byte q = none) ∧
      (∀ q, ¬ InBlock table (8 * raws.length) q → H3.mem.byte q = H2.mem.byte q) ∧
      (∀ q, H3.blocks q = if raws.length ≠ 0 ∧ q = table then none else H2.blocks q) ∧
      H3.dropped = H2.dropped := by
    have p0 := readWord_ok (pa 0 (by show _ < 3; omega))
    have p1 := readWord_ok (pa 1 (by show _ < 3; omega))
    unfold dropPointers
    rw [show readWord H2 (box + lay.pointers) = .ok raws.length from p0, Ex.bind_ok]
    by_cases hn : raws.length = 0
    · refine ⟨H2, if_pos hn, fun q hq => ?_, fun _ _ => rfl, fun q => (if_neg fun h => h.1 hn).symm, rfl⟩
      unfold InBlock at hq; omega
    · rw [if_neg hn, show readWord H2 (box + lay.pointers + 8) = .ok table from p1, Ex.bind_ok]
      have hin : InBlock table (8 * raws.length) table := ⟨Nat.le_refl _, by omega⟩
      obtain ⟨H3, w, g, m, k, d⟩ := free_ok (h := H2) (p := table) (n := 8 * raws.length)
        (by rw [b2 table ((hd.new _).2 (.inr (.inl hin))) (notkid (.inr hin)), hd.blkTable hn])
      refine ⟨H3, w, g, m, fun q => ?_, d⟩
      rw [k]
      by_cases hq : q = table
      · rw [if_pos hq, if_pos ⟨hn, hq⟩]
      · rw [if_neg hq, if_neg fun h => hq h.2]
  -- the owner
  obtain ⟨H4, w4, m4, k4, d4⟩ : ∃ H4, dropOwner lay root box H3 = .ok H4 ∧ H4.mem = H3.mem ∧
      H4.blocks = H3.blocks ∧ H4.dropped = H3.dropped ++ if root then [(box + lay.owner, owner)] else [] := by
    cases root with
    | false => exact ⟨H3, rfl, rfl, rfl, (List.append_nil _).symm⟩
    | true =>
      have : H3.mem.read (box + lay.owner) lay.ownerSize = some owner := by
        rw [io]
        refine read_bytes (BytesAt.same' hd.ownerAt fun i hi => ?_)
        rw [m3 _ (hd.boxTable _ (inB i4 i hi))]
        exact c2 i4 a5 i hi
      refine ⟨⟨H3.mem, H3.blocks, H3.count, H3.dropped ++ [(box + lay.owner, owner)]⟩, ?_, rfl, rfl, rfl⟩
      unfold dropOwner
      rw [if_pos rfl, this]
  have hbb : InBlock box lay.size box := ⟨Nat.le_refl _, by omega⟩
  obtain ⟨H5, w5, g5, m5, k5, d5⟩ := free_ok (h := H4) (p := box) (n := lay.size) (by
    rw [k4, k3, if_neg]
    · rw [b2 box (newB _ hbb) (notkid (.inl hbb)), hd.blkBox]
    · rintro ⟨hn, e⟩
      exact hd.boxTable _ hbb (by rw [e]; exact ⟨Nat.le_refl _, by omega⟩))
  have same : ∀ q, ¬ New h h' q → H5.mem.byte q = H1.mem.byte q := by
    intro q hq
    have hq' := fun h => hq ((hd.new q).2 h)
    rw [m5 q (fun h => hq' (.inl h)), m4, m3 q (fun h => hq' (.inr (.inl h))),
      f2.mem q (fun h => hq' (.inr (.inr h)))]
    intro h
    exact hq' (.inl ⟨by unfold InBlock at h; omega, by unfold InBlock at h; omega⟩)
  refine ⟨H5, ?_, ⟨?_, ?_, ?_, fun i hi => by rw [same _ fun hq => hp _ hq ⟨by omega, by omega⟩]; exact F1 i hi⟩, ?_, ?_⟩
  · unfold releaseData dropData
    have := hs.2.2.2.2.2.2.2.2.2
    rw [hr] at this
    rw [readWord_ok this, Ex.bind_ok, w1, Ex.bind_ok, w2, Ex.bind_ok, w3, Ex.bind_ok, w4, Ex.bind_ok, w5]
  · intro q hq
    rw [k5, k4, k3]
    by_cases hb : InBlock box lay.size q
    · refine ⟨g5 q hb, ?_⟩
      by_cases e : q = box
      · rw [if_pos e]
      · rw [if_neg e]
        split
        · rfl
        · next ht => rw [b2 q hq (notkid (.inl hb)), hd.blkNew q hq (notkid (.inl hb)) e ht]
    · have e : q ≠ box := fun e => hb (e ▸ hbb)
      rw [m5 q hb, m4, if_neg e]
      by_cases ht : InBlock table (8 * raws.length) q
      · refine ⟨g3 q ht, ?_⟩
        split
        · rfl
        · next ht' => rw [b2 q hq (notkid (.inr ht)), hd.blkNew q hq (notkid (.inr ht)) e ht']
      · have hn : New h1 h2 q := by
          rcases (hd.new q).1 hq with h | h | h
          · exact absurd h hb
          · exact absurd h ht
          · exact h
        have ht' : ¬ (raws.length ≠ 0 ∧ q = table) := by
          rintro ⟨hn, rfl⟩
          exact ht ⟨Nat.le_refl _, by omega⟩
        rw [m3 q ht, if_neg ht']
        exact f2.gone q hn
  · intro q hq hq'
    rw [same q hq]
    exact s1 q hq'
  · intro q hq
    have hq' := fun h => hq ((hd.new q).2 h)
    have hb : q ≠ box := fun e => hq' (.inl (e ▸ hbb))
    have ht : ¬ (raws.length ≠ 0 ∧ q = table) := by
      rintro ⟨hn, rfl⟩
      exact hq' (.inr (.inl ⟨Nat.le_refl _, by omega⟩))
    rw [k5, k4, k3, if_neg hb, if_neg ht, f2.blocks q (fun h => hq' (.inr (.inr h))), k1]
  · refine Holds.same z1 fun i hi => same _ fun hq => hp _ hq ⟨by omega, by omega⟩
  · rw [d5, d4, d3, d2, d1]

/-! ## Structures and what they hold -/

/-- A kind of structure: its size, where its callback and the pointer to its table of
children are, how it is dropped, what it means for one to be in memory, and for one
whose child was taken out, and the arrays that are dropped with it. -/
structure Kind where
  size : Nat
  callback : Nat
  children : Nat
  drop : Nat → Heap → Ex Heap
  reads : Mem → Nat → Prop
  cut : Mem → Nat → Prop
  owner : List (List Byte)

/-- Those whose child was taken out. -/
def Kind.bare (k : Kind) : Kind := { k with reads := k.cut }

/-- `H'` holds what `H` holds at `new`. -/
def Alike (new : Nat → Prop) (H H' : Heap) : Prop :=
  ∀ q, new q → H'.mem.byte q = H.mem.byte q ∧ H'.blocks q = H.blocks q

/-- Between `H` and `H'`, `new` was freed. Besides only `n` bytes at `p` changed. -/
structure Emptied (new : Nat → Prop) (p n : Nat) (H H' : Heap) : Prop where
  gone : ∀ q, new q → H'.mem.byte q = none ∧ H'.blocks q = none
  mem : ∀ q, ¬ new q → ¬ InBlock p n q → H'.mem.byte q = H.mem.byte q
  blocks : ∀ q, ¬ new q → H'.blocks q = H.blocks q
  kept : Full H'.mem p n

theorem Freed.emptied {h h' H H' : Heap} {p n : Nat} (f : Freed h h' p n H H') : Emptied (New h h') p n H H' :=
  ⟨f.gone, f.mem, f.blocks, f.kept⟩

theorem Emptied.congr {new new' : Nat → Prop} {H H' : Heap} {p n : Nat} (f : Emptied new p n H H')
    (h : ∀ q, new q ↔ new' q) : Emptied new' p n H H' :=
  ⟨fun q hq => f.gone q ((h q).2 hq), fun q hq => f.mem q fun hn => hq ((h q).1 hn),
    fun q hq => f.blocks q fun hn => hq ((h q).1 hn), f.kept⟩

/-- Wherever the structure is, it reads, and dropping it frees `new`. -/
def Bare (k : Kind) (bytes : List Byte) (new : Nat → Prop) (H : Heap) : Prop :=
  ∀ H' p, Alike new H H' → BytesAt H'.mem p bytes → (∀ q, new q → ¬ InBlock p k.size q) →
    k.reads H'.mem p ∧ ∃ H1, k.drop p H' = .ok H1 ∧ Emptied new p k.size H' H1 ∧
      Holds H1.mem (p + k.callback) 0 ∧ ∃ D, H1.dropped = H'.dropped ++ D ∧ D.map (·.2) = k.owner

/-- What is left when the child at `slot`, whose memory was `new'`, was taken out or
released there. -/
structure Left (new new' : Nat → Prop) (slot size callback : Nat) (H H' : Heap) : Prop where
  same : ∀ q, new q → ¬ new' q → (¬ InBlock slot size q → H'.mem.byte q = H.mem.byte q) ∧ H'.blocks q = H.blocks q
  full : Full H'.mem slot size
  mark : Holds H'.mem (slot + callback) 0

/-- A structure, its child, the child of that, and so on. -/
inductive Chain : List Kind → List Byte → (Nat → Prop) → Heap → Prop
  | last {k : Kind} {bytes : List Byte} {new : Nat → Prop} {H : Heap} (bare : Bare k bytes new H) :
      Chain [k] bytes new H
  | link {k k' : Kind} {ks : List Kind} {bytes bytes' : List Byte} {new new' : Nat → Prop} {H : Heap} {slot : Nat}
      (bare : Bare k bytes new H) (stored : BytesAt H.mem slot bytes') (size : bytes'.length = k'.size)
      (inside : ∀ q, InBlock slot k'.size q → new q ∧ ¬ new' q) (part : ∀ q, new' q → new q)
      (leads : ∀ H' p, Alike new H H' → BytesAt H'.mem p bytes → ∃ r, Holds H'.mem (p + k.children) r ∧ Holds H'.mem r slot)
      (kid : Chain (k' :: ks) bytes' new' H)
      (left : ∀ H', Left new new' slot k'.size k'.callback H H' → Bare k.bare bytes (fun q => new q ∧ ¬ new' q) H') :
      Chain (k :: k' :: ks) bytes new H

theorem Alike.trans {new : Nat → Prop} {H H' H'' : Heap} (h : Alike new H H') (h' : Alike new H' H'') :
    Alike new H H'' := fun q hq => ⟨(h' q hq).1.trans (h q hq).1, (h' q hq).2.trans (h q hq).2⟩

theorem Bare.keep {k : Kind} {bytes : List Byte} {new : Nat → Prop} {H H' : Heap} (h : Bare k bytes new H)
    (a : Alike new H H') : Bare k bytes new H' := fun H'' p a' => h H'' p (a.trans a')

theorem Left.trans {new new' : Nat → Prop} {slot size callback : Nat} {H H' H'' : Heap} (h : Alike new H H')
    (l : Left new new' slot size callback H' H'') : Left new new' slot size callback H H'' :=
  ⟨fun q hq hn => ⟨fun hi => ((l.same q hq hn).1 hi).trans (h q hq).1, (l.same q hq hn).2.trans (h q hq).2⟩, l.full, l.mark⟩

theorem Chain.keep {ks : List Kind} {bytes : List Byte} {new : Nat → Prop} {H : Heap} (h : Chain ks bytes new H) :
    ∀ {H' : Heap}, Alike new H H' → Chain ks bytes new H' := by
  induction h with
  | last bare => exact fun a => .last (bare.keep a)
  | link bare stored size inside part leads kid left ih =>
    intro H' a
    refine .link (bare.keep a) (fun i hi => ?_) size inside part (fun H'' p a' => leads H'' p (a.trans a'))
      (ih fun q hq => a q (part q hq)) (fun H'' l => left H'' (l.trans a))
    rw [(a _ (inside _ ⟨by omega, by omega⟩).1).1]
    exact stored i hi

theorem Chain.bare {k : Kind} {ks : List Kind} {bytes : List Byte} {new : Nat → Prop} {H : Heap}
    (h : Chain (k :: ks) bytes new H) : Bare k bytes new H := by
  cases h with
  | last bare => exact bare
  | link bare => exact bare

/-- The kind of the structure `tree`, whose array, if it has one, is at `q`. -/
def arrayKind (env : Env) (t : Ty) (root nl : Bool) (tree : CArray) (q : Nat) (owner : List Byte) : Kind where
  size := 80
  callback := 64
  children := 48
  drop := dropArray (env.releaseArray root nl t) (releaseArray env t root nl)
  reads m p := BytesAt m q owner ∧ ∀ d, ArrayAt m d p tree
  cut m p := BytesAt m q owner ∧ ArrayFields m p tree
  owner := if root then [owner] else []

/-- The kinds of `tree` and its descendants. -/
def arrayKinds (env : Env) : Ty → (root nl : Bool) → CArray → Nat → List Byte → List Kind
  | .bool, root, nl, tree, q, owner => [arrayKind env .bool root nl tree q owner]
  | .prim p, root, nl, tree, q, owner => [arrayKind env (.prim p) root nl tree q owner]
  | .fsl n nl' t, root, nl, tree, q, owner =>
    arrayKind env (.fsl n nl' t) root nl tree q owner :: arrayKinds env t false nl' (onlyKid tree) 0 []
  | .vsl ow nl' t, root, nl, tree, q, owner =>
    arrayKind env (.vsl ow nl' t) root nl tree q owner :: arrayKinds env t false nl' (onlyKid tree) 0 []

/-- Those of its child. -/
def kidKinds (env : Env) : Ty → CArray → List Kind
  | .bool, _ => []
  | .prim _, _ => []
  | .fsl _ nl' t, kid => arrayKinds env t false nl' kid 0 []
  | .vsl _ nl' t, kid => arrayKinds env t false nl' kid 0 []

theorem arrayKinds_cons (env : Env) (t : Ty) (root nl : Bool) (tree : CArray) (q : Nat) (owner : List Byte) :
    arrayKinds env t root nl tree q owner = arrayKind env t root nl tree q owner :: kidKinds env t (onlyKid tree) := by
  cases t <;> rfl

/-- Where the array of a child is does not matter: it has none. -/
theorem Chain.nowhere {env : Env} {t : Ty} {nl : Bool} {tree : CArray} {q : Nat} {ks : List Kind} {bytes : List Byte}
    {new : Nat → Prop} {H : Heap} (h : Chain (arrayKind env t false nl tree q [] :: ks) bytes new H) :
    Chain (arrayKind env t false nl tree 0 [] :: ks) bytes new H := by
  have e : arrayKind env t false nl tree q [] = arrayKind env t false nl tree 0 [] := by
    have : ∀ m, BytesAt m q [] = BytesAt m 0 [] := fun m =>
      propext ⟨fun _ i hi => absurd hi (Nat.not_lt_zero _), fun _ i hi => absurd hi (Nat.not_lt_zero _)⟩
    simp only [arrayKind, this]
  rwa [← e]

theorem holds_unique {m : Mem} {p v v' : Nat} (h : Holds m p v) (h' : Holds m p v') : v = v' := by
  have e := readWord_ok (h := ⟨m, fun _ => none, 0, []⟩) h
  rw [readWord_ok (h := ⟨m, fun _ => none, 0, []⟩) h'] at e
  cases e
  rfl

theorem number_of_full {m : Mem} : ∀ (n p : Nat), Full m p n →
    ∃ v, v < 256 ^ n ∧ ∀ i, i < n → m.byte (p + i) = some (BitVec.ofNat 8 (v / 256 ^ i))
  | 0, _, _ => ⟨0, by decide, nofun⟩
  | n + 1, p, h => by
    obtain ⟨v, h1, h2⟩ := number_of_full n (p + 1) fun i hi => by
      have := h (i + 1) (by omega)
      rwa [show p + (i + 1) = p + 1 + i by omega] at this
    obtain ⟨b, hb⟩ := Option.isSome_iff_exists.1 (h 0 (by omega))
    have hb' := b.isLt
    refine ⟨b.toNat + 256 * v, by rw [Nat.pow_succ]; omega, fun i hi => ?_⟩
    cases i with
    | zero =>
      rw [hb, Nat.pow_zero, Nat.div_one]
      congr 1
      apply BitVec.eq_of_toNat_eq
      rw [BitVec.toNat_ofNat]
      omega
    | succ i =>
      rw [show p + (i + 1) = p + 1 + i by omega, h2 i (by omega), Nat.pow_succ, Nat.mul_comm (256 ^ i) 256,
        ← Nat.div_div_eq_div_mul, show (b.toNat + 256 * v) / 256 = v by omega]

theorem words_of_full {m : Mem} : ∀ (n p : Nat), Full m p (8 * n) →
    ∃ l : List Nat, l.length = n ∧ (∀ v ∈ l, v < 2 ^ 64) ∧ BytesAt m p (words l)
  | 0, _, _ => ⟨[], rfl, nofun, nofun⟩
  | n + 1, p, h => by
    obtain ⟨v, h1, h2⟩ := number_of_full (m := m) 8 p fun i hi => h i (by omega)
    obtain ⟨l, e1, e2, e3⟩ := words_of_full n (p + 8) fun i hi => by
      have := h (8 + i) (by omega)
      rwa [← Nat.add_assoc] at this
    have hw : (wordBytes v).length = 8 := wordBytes_length v
    refine ⟨v :: l, by rw [List.length_cons, e1], ?_, ?_⟩
    · intro w hw
      rcases List.mem_cons.1 hw with rfl | hw
      · exact h1
      · exact e2 w hw
    · have e : words (v :: l) = wordBytes v ++ words l := rfl
      intro i hi
      simp only [e]
      by_cases h8 : i < 8
      · rw [List.getElem_append_left (by omega), h2 i h8]
        simp [wordBytes]
      · rw [List.getElem_append_right (by omega)]
        have := e3 (i - 8) (by rw [e, List.length_append] at hi; omega)
        rw [show p + 8 + (i - 8) = p + i by omega] at this
        simp only [hw, this]

/-- Any 80 bytes are those of an `ArrowArray`. -/
theorem raw_of_full {m : Mem} {p : Nat} (hf : Full m p 80) (hz : Holds m (p + 64) 0) :
    ∃ raw, SmallA raw ∧ raw.release = 0 ∧ BytesAt m p (arrayBytes raw) := by
  obtain ⟨l, e, hs, hb⟩ := words_of_full 10 p hf
  match l, e with
  | [a, b, c, d, e, f, g, i, j, k], _ =>
    have hs' : ∀ v ∈ [a, b, c, d, e, f, g, i, j, k], v < 2 ^ 64 := hs
    simp only [List.mem_cons, List.not_mem_nil, or_false, forall_eq_or_imp, forall_eq] at hs
    obtain ⟨sa, sb, sc, sd, se, sf, sg, si, sj, sk⟩ := hs
    obtain rfl := holds_unique (words_at hb hs' 8 (by show 8 < 10; omega)) hz
    refine ⟨⟨BitVec.ofNat 64 a, BitVec.ofNat 64 b, BitVec.ofNat 64 c, BitVec.ofNat 64 d, BitVec.ofNat 64 e, f, g, i, _, k⟩,
      ⟨sf, sg, si, sj, sk⟩, rfl, ?_⟩
    simpa [arrayBytes, BitVec.toNat_ofNat, Nat.mod_eq_of_lt sa, Nat.mod_eq_of_lt sb, Nat.mod_eq_of_lt sc,
      Nat.mod_eq_of_lt sd, Nat.mod_eq_of_lt se] using hb

/-- Any 72 bytes are those of an `ArrowSchema`. -/
theorem rawSchema_of_full {m : Mem} {p : Nat} (hf : Full m p 72) (hz : Holds m (p + 56) 0) :
    ∃ raw, SmallS raw ∧ raw.release = 0 ∧ BytesAt m p (schemaBytes raw) := by
  obtain ⟨l, e, hs, hb⟩ := words_of_full 9 p hf
  match l, e with
  | [a, b, c, d, e, f, g, i, j], _ =>
    have hs' : ∀ v ∈ [a, b, c, d, e, f, g, i, j], v < 2 ^ 64 := hs
    simp only [List.mem_cons, List.not_mem_nil, or_false, forall_eq_or_imp, forall_eq] at hs
    obtain ⟨sa, sb, sc, sd, se, sf, sg, si, sj⟩ := hs
    obtain rfl := holds_unique (words_at hb hs' 7 (by show 7 < 9; omega)) hz
    refine ⟨⟨a, b, c, BitVec.ofNat 64 d, BitVec.ofNat 64 e, f, g, _, j⟩, ⟨sa, sb, sc, sf, sg, si, sj⟩, rfl, ?_⟩
    simpa [schemaBytes, BitVec.toNat_ofNat, Nat.mod_eq_of_lt sd, Nat.mod_eq_of_lt se] using hb

open Classical in
/-- `h`, and what `H` holds at `new`. -/
noncomputable def patch (h H : Heap) (new : Nat → Prop) : Heap where
  mem :=
    { byte := fun q => if new q then H.mem.byte q else h.mem.byte q
      null := by split; · exact H.mem.null
                 · exact h.mem.null
      high := fun q hq => by split; · exact H.mem.high q hq
                             · exact h.mem.high q hq }
  blocks q := if new q then H.blocks q else h.blocks q
  count := h.count
  dropped := h.dropped

theorem patch_in {h H : Heap} {new : Nat → Prop} {q : Nat} (hq : new q) :
    (patch h H new).mem.byte q = H.mem.byte q ∧ (patch h H new).blocks q = H.blocks q := ⟨if_pos hq, if_pos hq⟩

theorem patch_out {h H : Heap} {new : Nat → Prop} {q : Nat} (hq : ¬ new q) :
    (patch h H new).mem.byte q = h.mem.byte q ∧ (patch h H new).blocks q = h.blocks q := ⟨if_neg hq, if_neg hq⟩

theorem patch_new {h H : Heap} {new : Nat → Prop} (h0 : ∀ q, new q → h.mem.byte q = none)
    (h1 : ∀ q, new q → H.mem.byte q ≠ none) (q : Nat) : New h (patch h H new) q ↔ new q := by
  constructor
  · intro hn
    by_cases hq : new q
    · exact hq
    · exact absurd hn.1 (by rw [← (patch_out (H := H) hq).1]; exact hn.2)
  · exact fun hq => ⟨h0 q hq, by rw [(patch_in hq).1]; exact h1 q hq⟩

theorem patch_grew {h H : Heap} {new : Nat → Prop} (ht : Tidy h) (h0 : ∀ q, new q → h.mem.byte q = none)
    (h1 : ∀ q, new q → H.mem.byte q ≠ none) : Grew h (patch h H new) := by
  refine ⟨fun q b hb => ?_, fun q hq => ?_, fun q hq => ?_, rfl⟩
  · rw [(patch_out fun hn => by rw [h0 q hn] at hb; cases hb).1, hb]
  · exact (patch_out fun hn => hq ((patch_new h0 h1 q).2 hn)).2
  · have hn : ¬ new q := fun hn => h1 q hn (by rw [← (patch_in (h := h) hn).1]; exact hq)
    rw [(patch_out hn).2]
    rw [(patch_out hn).1] at hq
    exact ht q hq

/-- A box of which the child was taken out is a box with a released child. -/
theorem DataOk.taken {lay : DataLayout} {box table : Nat} {raw : RawArray} {buffers : List Nat}
    {owner : List Byte} {h h1 h2 h' H : Heap} (hd : DataOk lay box table [raw] buffers owner h h1 h2 h')
    (hl : DataFields lay buffers.length 1 owner.length) (ht : Tidy h)
    (hH : Left (New h h') (New h1 h2) (box + lay.children) 80 64 h' H) :
    ∃ h'' raw', (∀ q, New h h'' q ↔ New h h' q ∧ ¬ New h1 h2 q) ∧ Carries h h'' H ∧
      (SmallA raw' ∧ raw'.release = 0) ∧ DataOk lay box table [raw'] buffers owner h h h h'' := by
  obtain ⟨⟨i1, i2, i3, i4⟩, _, a1, _, _, a4, a5, _⟩ := hl
  have h0 : ∀ q, New h h' q ∧ ¬ New h1 h2 q → h.mem.byte q = none := fun q hq => hq.1.1
  have hfull : ∀ q, New h h' q ∧ ¬ New h1 h2 q → H.mem.byte q ≠ none := by
    intro q hq
    by_cases hin : InBlock (box + lay.children) 80 q
    · have := hH.full (q - (box + lay.children)) (by unfold InBlock at hin; omega)
      rw [Nat.add_sub_cancel' hin.1] at this
      exact Option.isSome_iff_ne_none.1 this
    · rw [(hH.same q hq.1 hq.2).1 hin]; exact hq.1.2
  have hnew := patch_new h0 hfull
  have hbox : ∀ q, InBlock box lay.size q → New h h' q ∧ ¬ New h1 h2 q := fun q hq =>
    ⟨(hd.new q).2 (.inl hq), fun hn => hd.kidsBox q hn hq⟩
  have htab : ∀ q, InBlock table 8 q → New h h' q ∧ ¬ New h1 h2 q := fun q hq =>
    ⟨(hd.new q).2 (.inr (.inl hq)), fun hn => hd.kidsTable q hn hq⟩
  have hno : ∀ q, ¬ New h h q := fun q hq => hq.2 hq.1
  have hb : ∀ {o n : Nat}, o + n ≤ lay.size → (n = 0 ∨ o + n ≤ lay.children ∨ lay.children + 80 ≤ o) → ∀ i, i < n →
      (patch h H fun q => New h h' q ∧ ¬ New h1 h2 q).mem.byte (box + o + i) = h'.mem.byte (box + o + i) := by
    intro o n ho ha i hi
    have hin := hbox (box + o + i) ⟨by omega, by omega⟩
    rw [(patch_in hin).1, (hH.same _ hin.1 hin.2).1 (by unfold InBlock; omega)]
  have hkid : (patch h H fun q => New h h' q ∧ ¬ New h1 h2 q).blocks box = h'.blocks box := by
    have hin := hbox box ⟨Nat.le_refl _, by omega⟩
    rw [(patch_in hin).2, (hH.same _ hin.1 hin.2).2]
  have e1 := words_length buffers
  have i2' : lay.children + 80 ≤ lay.size := i2
  have same : ∀ i, i < 80 → (patch h H fun q => New h h' q ∧ ¬ New h1 h2 q).mem.byte (box + lay.children + i) =
      H.mem.byte (box + lay.children + i) := fun i hi => (patch_in (hbox _ ⟨by omega, by omega⟩)).1
  obtain ⟨raw', small, rel, ec⟩ := raw_of_full (m := (patch h H fun q => New h h' q ∧ ¬ New h1 h2 q).mem)
    (p := box + lay.children) (fun i hi => by rw [same i hi]; exact hH.full i hi) (Holds.same hH.mark fun i hi => by
      have := same (64 + i) (by omega)
      rwa [← Nat.add_assoc] at this)
  refine ⟨patch h H fun q => New h h' q ∧ ¬ New h1 h2 q, raw', hnew, ?_, ⟨small, rel⟩,
    hd.boxA, hd.box0, hd.boxM, hd.table0, hd.tableA, hd.tableS, ?_, fun q hq => absurd hq (hno q),
    fun q hq => absurd hq (hno q), hd.boxTable, fun q hq => absurd hq (hno q), ?_, ?_, ?_, ?_, ?_, ?_, ?_, ?_, ?_⟩
  · intro q hq
    have := patch_in (h := h) (H := H) (new := fun q => New h h' q ∧ ¬ New h1 h2 q) ((hnew q).1 hq)
    exact ⟨this.1.symm, this.2.symm⟩
  · intro q
    rw [hnew, hd.new]
    constructor
    · rintro ⟨hq | hq | hq, hn⟩
      · exact .inl hq
      · exact .inr (.inl hq)
      · exact absurd hq hn
    · rintro (hq | hq | hq)
      · exact ⟨.inl hq, (hbox q hq).2⟩
      · exact ⟨.inr (.inl hq), (htab q hq).2⟩
      · exact absurd hq (hno q)
  · exact BytesAt.same' hd.buffersAt fun i hi => hb (n := 8 * buffers.length) i1 (by unfold Apart at a1; omega) i (by omega)
  · rw [List.flatMap_singleton]
    exact ec
  · exact BytesAt.same' hd.ownerAt fun i hi => hb i4 (by unfold Apart at a5; omega) i hi
  · exact BytesAt.same' hd.pointersAt fun i hi => hb (n := 24) i3 (by unfold Apart at a4; omega) i (by rw [words_length] at hi; exact hi)
  · refine BytesAt.same' hd.tableAt fun i hi => ?_
    have hi : i < 8 := hi
    have hin := htab (table + i) ⟨by omega, by omega⟩
    rw [(patch_in hin).1, (hH.same _ hin.1 hin.2).1]
    intro hi'
    exact hd.boxTable _ ⟨by unfold InBlock at hi'; omega, by unfold InBlock at hi'; omega⟩
      (show InBlock table 8 (table + i) from ⟨by omega, by omega⟩)
  · rw [hkid, hd.blkBox]
  · intro hn
    have hin := htab table ⟨Nat.le_refl _, by omega⟩
    rw [(patch_in hin).2, (hH.same _ hin.1 hin.2).2]
    exact hd.blkTable hn
  · intro q hq _ hb ht
    have hin := (hnew q).1 hq
    rw [(patch_in hin).2, (hH.same _ hin.1 hin.2).2]
    exact hd.blkNew q hin.1 hin.2 hb ht
  · exact patch_grew ht h0 hfull

/-! ## Children -/

theorem releaseArray_eq (env : Env) (t : Ty) (root nl : Bool) :
    releaseArray env t root nl = releaseData (env.data root nl t) root (dropChildren env t) := by
  cases t <;> rfl

/-- `raw` is the structure `kid`, and can be released. -/
structure ChildOk (env : Env) (nl : Bool) (t : Ty) (h : Heap) (kid : CArray) (raw : RawArray) (h' : Heap) :
    Prop where
  grew : Grew h h'
  small : SmallA raw
  release : raw.release ≠ 0 ∧ raw.release = env.releaseArray false nl t
  structure_ : ∀ m : Mem, (∀ q, New h h' q → m.byte q = h'.mem.byte q) → ∀ p, ArrayStored m p raw →
    ∀ d, ArrayAt m d p kid
  aligned : ∀ m : Mem, (∀ q, New h h' q → m.byte q = h'.mem.byte q) → ∀ p, ArrayStored m p raw →
    p % 8 = 0 → ∀ d, AlignedArray m d p
  free : ∀ H p, Carries h h' H → ArrayStored H.mem p raw → (∀ q, New h h' q → ¬ InBlock p 80 q) →
    ∃ H', releaseArray env t false nl p H = .ok H' ∧ Freed h h' p 80 H H' ∧ H'.dropped = H.dropped
  chain : Chain (arrayKinds env t false nl kid 0 []) (arrayBytes raw) (New h h') h'

/-- `raws` are the structures `kids`, and can be dropped. -/
structure KidsOk (env : Env) (t : Ty) (h : Heap) (kids : List CArray) (raws : List RawArray) (h' : Heap) :
    Prop where
  slots : raws.length = childrenIn t
  length : raws.length = kids.length
  grew : Grew h h'
  small : ∀ r ∈ raws, SmallA r
  structures : ∀ m : Mem, (∀ q, New h h' q → m.byte q = h'.mem.byte q) →
    ∀ i (hi : i < raws.length) (hi' : i < kids.length), ∀ d p, ArrayStored m p raws[i] → ArrayAt m d p kids[i]
  aligned : ∀ m : Mem, (∀ q, New h h' q → m.byte q = h'.mem.byte q) →
    ∀ i (hi : i < raws.length), ∀ d p, p % 8 = 0 → ArrayStored m p raws[i] → AlignedArray m d p
  free : ∀ r H, Carries h h' H → BytesAt H.mem r (raws.flatMap arrayBytes) →
    (∀ q, New h h' q → ¬ InBlock r (80 * raws.length) q) →
    ∃ H', dropChildren env t r H = .ok H' ∧ Freed h h' r (80 * raws.length) H H' ∧ H'.dropped = H.dropped
  chain : (∀ tree, kidKinds env t tree = []) ∨ ∃ kid raw, kids = [kid] ∧ raws = [raw] ∧
    (∃ k ks, kidKinds env t kid = k :: ks ∧ k.size = 80 ∧ k.callback = 64) ∧
    (∀ r H, Holds H.mem (r + 64) 0 → dropChildren env t r H = .ok H) ∧
    Chain (kidKinds env t kid) (arrayBytes raw) (New h h') h'

/-- In memory the same happens as to the tree, unless the allocator refuses. Nothing
is allocated before an error. -/
def Follows {α β : Type} (h : Heap) (tree : Built α) (raw : Ex (β × Heap)) (P : α → β → Heap → Prop) : Prop :=
  match tree with
  | .panic => raw = .panic
  | .ok (.error e) => raw = .err e h
  | .ok (.ok (x, _)) => raw = .abort ∨ ∃ y h', raw = .ok (y, h') ∧ P x y h'

theorem buffers_small (nl : Bool) (t : Ty) {c : (arrayR nl t).C} {a : APlace nl t}
    (h : ∀ q ∈ allBuffers t nl a, q < 2 ^ 64) : ∀ q ∈ buffersOf nl t c a, q < 2 ^ 64 := by
  have h0 : (0 : Nat) < 2 ^ 64 := by decide
  have hv : ∀ {b : Option Bitmap} {x : Option Nat}, (∀ q ∈ x.toList, q < 2 ^ 64) →
      validityPointer b x < 2 ^ 64 := by
    intro b x hx
    cases b with
    | none => exact h0
    | some b =>
      cases x with
      | none => exact h0
      | some x => exact hx x (List.mem_singleton.2 rfl)
  intro q hq
  cases nl <;> cases t
  · rcases List.mem_cons.1 hq with rfl | hq
    · exact h0
    · exact h q hq
  · rcases List.mem_cons.1 hq with rfl | hq
    · exact h0
    · exact h q hq
  · rcases List.mem_cons.1 hq with rfl | hq
    · exact h0
    · cases hq
  · rcases List.mem_cons.1 hq with rfl | hq
    · exact h0
    · rcases List.mem_cons.1 hq with rfl | hq
      · exact h _ List.mem_cons_self
      · cases hq
  · rcases List.mem_cons.1 hq with rfl | hq
    · exact hv fun q hq => h q (List.mem_append_left _ hq)
    · exact h q (List.mem_append_right _ hq)
  · rcases List.mem_cons.1 hq with rfl | hq
    · exact hv fun q hq => h q (List.mem_append_left _ hq)
    · exact h q (List.mem_append_right _ hq)
  · rcases List.mem_cons.1 hq with rfl | hq
    · exact hv fun q hq => h q (List.mem_append_left _ hq)
    · cases hq
  · rcases List.mem_cons.1 hq with rfl | hq
    · exact hv fun q hq => h q (List.mem_append_left _ hq)
    · rcases List.mem_cons.1 hq with rfl | hq
      · exact h _ (List.mem_append_right _ List.mem_cons_self)
      · cases hq

theorem fslPlace_mem {n : Nat} {nl' : Bool} {t : Ty} (nl : Bool) {a : APlace nl (.fsl n nl' t)} {q : Nat}
    (h : q ∈ allBuffers t nl' (fslPlace nl a)) : q ∈ allBuffers (.fsl n nl' t) nl a := by
  cases nl
  · exact h
  · exact List.mem_append_right _ h

theorem vslPlace_mem {ow : OffW} {nl' : Bool} {t : Ty} (nl : Bool) {a : APlace nl (.vsl ow nl' t)} {q : Nat}
    (h : q ∈ allBuffers t nl' (vslPlace nl a)) : q ∈ allBuffers (.vsl ow nl' t) nl a := by
  cases nl
  · exact List.mem_cons_of_mem _ h
  · exact List.mem_append_right _ (List.mem_cons_of_mem _ h)

theorem DataOk.structure_ {env : Env} {t : Ty} {lay : DataLayout} {box table release no : Nat} {raws : List RawArray}
    {buffers : List Nat} {owner : List Byte} {h h1 h2 h' : Heap} {kids : List CArray} {length nullCount : I64}
    {o : Option (List Nat)}
    (hd : DataOk lay box table raws buffers owner h h1 h2 h') (hk : KidsOk env t h1 kids raws h2)
    (hl : DataFields lay buffers.length raws.length owner.length)
    (hne : buffers ≠ []) (hs : ∀ v ∈ buffers, v < 2 ^ 64) (hrel : release ≠ 0)
    (m : Mem) (hm : ∀ q, New h h' q → m.byte q = h'.mem.byte q) (p : Nat)
    (hp : ArrayStored m p (intoRaw lay release box table buffers.length raws.length length nullCount)) (d : Nat) :
    ArrayAt m d p (intoArray no o buffers kids length nullCount) := by
  obtain ⟨⟨i1, i2, i3, i4⟩, _⟩ := hl
  have e1 := words_length buffers
  have e2 := flatMap_length arrayBytes_length raws
  have e4 : (words ((List.range raws.length).map fun i => box + lay.children + 80 * i)).length = 8 * raws.length := by
    rw [words_length, List.length_map, List.length_range]
  have hb : ∀ {o n : Nat}, o + n ≤ lay.size → ∀ i, i < n → m.byte (box + o + i) = h'.mem.byte (box + o + i) :=
    fun ho i hi => hm _ ((hd.new _).2 (.inl ⟨by omega, by omega⟩))
  refine intoRaw_at hd.box0 (BytesAt.same' hd.buffersAt fun i hi => hb (n := 8 * buffers.length) i1 i (by omega))
    hne hs hrel hk.length (fun _ => ⟨hd.table0, ?_⟩)
    (BytesAt.same' hd.childrenAt fun i hi => hb (n := 80 * raws.length) i2 i (by omega)) hk.small ?_ hp d
  · intro i hi
    have := words_at (BytesAt.same' hd.tableAt (m' := m) fun i hi => hm _ ((hd.new _).2
      (.inr (.inl ⟨by omega, by omega⟩)))) (by
        intro v hv
        obtain ⟨i, hi, rfl⟩ := List.mem_map.1 hv
        have hi := List.mem_range.1 hi
        have hb := byteMax_lt
        have hm := hd.boxM
        omega) i (by rw [List.length_map, List.length_range]; exact hi)
    rwa [List.getElem_map, List.getElem_range] at this
  · intro i hi hi' d q
    exact hk.structures m (fun q hq => (hm q ((hd.new q).2 (.inr (.inr hq)))).trans (hd.kids q hq).1) i hi hi' d q

theorem DataOk.table {lay : DataLayout} {box table : Nat} {raws : List RawArray}
    {buffers : List Nat} {owner : List Byte} {h h1 h2 h' : Heap}
    (hd : DataOk lay box table raws buffers owner h h1 h2 h')
    (hl : DataFields lay buffers.length raws.length owner.length)
    (m : Mem) (hm : ∀ q, New h h' q → m.byte q = h'.mem.byte q) (i : Nat) (hi : i < raws.length) :
    Holds m (table + 8 * i) (box + lay.children + 80 * i) := by
  obtain ⟨⟨i1, i2, i3, i4⟩, _⟩ := hl
  have e4 : (words ((List.range raws.length).map fun i => box + lay.children + 80 * i)).length = 8 * raws.length := by
    rw [words_length, List.length_map, List.length_range]
  have := words_at (BytesAt.same' hd.tableAt (m' := m) fun i hi => hm _ ((hd.new _).2
    (.inr (.inl ⟨by omega, by omega⟩)))) (by
      intro v hv
      obtain ⟨i, hi, rfl⟩ := List.mem_map.1 hv
      have hi := List.mem_range.1 hi
      have hb := byteMax_lt
      have hm := hd.boxM
      omega) i (by rw [List.length_map, List.length_range]; exact hi)
  rwa [List.getElem_map, List.getElem_range] at this

theorem aligned_add {a b n : Nat} (h : b % n = 0) (ha : n % a = 0) {k : Nat} (hk : k % a = 0) : (b + k) % a = 0 :=
  Nat.mod_eq_zero_of_dvd (Nat.dvd_add (Nat.dvd_trans (Nat.dvd_of_mod_eq_zero ha) (Nat.dvd_of_mod_eq_zero h))
    (Nat.dvd_of_mod_eq_zero hk))

theorem DataOk.aligned {env : Env} {t : Ty} {lay : DataLayout} {box table release : Nat} {raws : List RawArray}
    {buffers : List Nat} {owner : List Byte} {h h1 h2 h' : Heap} {kids : List CArray} {length nullCount : I64}
    (hd : DataOk lay box table raws buffers owner h h1 h2 h') (hk : KidsOk env t h1 kids raws h2)
    (hl : DataFields lay buffers.length raws.length owner.length)
    (m : Mem) (hm : ∀ q, New h h' q → m.byte q = h'.mem.byte q) (p : Nat)
    (hp : ArrayStored m p (intoRaw lay release box table buffers.length raws.length length nullCount))
    (h8 : p % 8 = 0) (d : Nat) : AlignedArray m d p := by
  obtain ⟨_, _, _, _, p5, p6, p7, _⟩ := hp
  have ht := hd.tableA
  have hb := aligned_add hd.boxA hl.aligned.1 hl.aligned.2.1
  have hc := aligned_add hd.boxA hl.aligned.1 hl.aligned.2.2
  have h0 : AlignedFields m p := by
    refine ⟨h8, _, _, p6, ?_, p7, ?_⟩
    · simp only [intoRaw]; split <;> omega
    · simp only [intoRaw]; split <;> omega
  cases d with
  | zero => exact h0
  | succ d =>
    refine ⟨h0, _, _, p5, p7, fun i hi => ?_⟩
    have hi : i < raws.length := by
      have : (intoRaw lay release box table buffers.length raws.length length nullCount).nChildren.toNat ≤
        raws.length := by
        simp only [intoRaw, BitVec.toNat_ofNat]
        exact Nat.mod_le _ _
      omega
    have hne : raws.length ≠ 0 := by omega
    refine ⟨_, by simp only [intoRaw, if_neg hne]; exact hd.table hl m hm i hi, ?_⟩
    refine hk.aligned m (fun q hq => (hm q ((hd.new q).2 (.inr (.inr hq)))).trans (hd.kids q hq).1) i hi d _
      (by omega) (stored_of_bytes (flatMap_at arrayBytes_length (BytesAt.same' hd.childrenAt fun i hi => ?_) i hi)
        (hk.small _ (List.getElem_mem hi)))
    have e2 := flatMap_length arrayBytes_length raws
    have := hl.inside.2.1
    exact hm _ ((hd.new _).2 (.inl ⟨by omega, by omega⟩))

theorem DataOk.small {lay : DataLayout} {box table release n : Nat} {raws : List RawArray} {buffers : List Nat}
    {owner : List Byte} {h h1 h2 h' : Heap} {length nullCount : I64}
    (hd : DataOk lay box table raws buffers owner h h1 h2 h')
    (hl : DataFields lay buffers.length raws.length owner.length) (hrel : release < 2 ^ 64) :
    SmallA (intoRaw lay release box table n raws.length length nullCount) := by
  obtain ⟨⟨i1, i2, i3, i4⟩, _⟩ := hl
  have hb := byteMax_lt
  have hm := hd.boxM
  have ht := hd.tableS
  refine ⟨?_, ?_, by show 0 < _; decide, hrel, ?_⟩
  · simp only [intoRaw]; split <;> omega
  · simp only [intoRaw]; split <;> omega
  · simp only [intoRaw]; omega

theorem DataOk.chain {env : Env} {t : Ty} {nl root : Bool} {box table no : Nat} {raws : List RawArray}
    {buffers : List Nat} {owner : List Byte} {h h1 h2 h' : Heap} {kids : List CArray} {length nullCount : I64}
    {o : Option (List Nat)}
    (hd : DataOk (env.data root nl t) box table raws buffers owner h h1 h2 h') (hk : KidsOk env t h1 kids raws h2)
    (hl : DataFields (env.data root nl t) buffers.length raws.length owner.length) (ht : Tidy h)
    (hne : buffers ≠ []) (hs : ∀ v ∈ buffers, v < 2 ^ 64)
    (hrel : env.releaseArray root nl t ≠ 0 ∧ env.releaseArray root nl t < 2 ^ 64) :
    Chain (arrayKinds env t root nl (intoArray no o buffers kids length nullCount) (box + (env.data root nl t).owner) owner)
      (arrayBytes (intoRaw (env.data root nl t) (env.releaseArray root nl t) box table buffers.length raws.length length
        nullCount)) (New h h') h' := by
  have small := hd.small (n := buffers.length) (length := length) (nullCount := nullCount) hl hrel.2
  have i1 := hl.inside.1
  have i2 := hl.inside.2.1
  have i4 := hl.inside.2.2.2
  have e1 := words_length buffers
  -- dropping a structure whose callback is there
  have drops : ∀ {H H1 : Heap} {p : Nat},
      ArrayStored H.mem p (intoRaw (env.data root nl t) (env.releaseArray root nl t) box table buffers.length raws.length
        length nullCount) → releaseArray env t root nl p H = .ok H1 →
      dropArray (env.releaseArray root nl t) (releaseArray env t root nl) p H = .ok H1 := by
    intro H H1 p hst w
    rw [dropArray, readWord_ok hst.2.2.2.2.2.2.2.2.1, Ex.bind_ok]
    simp only [intoRaw]
    rw [if_neg hrel.1, if_pos trivial, w]
  have bare : Bare (arrayKind env t root nl (intoArray no o buffers kids length nullCount)
      (box + (env.data root nl t).owner) owner) (arrayBytes (intoRaw (env.data root nl t) (env.releaseArray root nl t) box
        table buffers.length raws.length length nullCount)) (New h h') h' := by
    intro H p ha hb hp
    have hst := stored_of_bytes hb small
    refine ⟨⟨?_, hd.structure_ hk hl hne hs hrel.1 H.mem (fun q hq => (ha q hq).1) p hst⟩, ?_⟩
    · exact BytesAt.same' hd.ownerAt fun i hi => (ha _ ((hd.new _).2 (.inl ⟨by omega, by omega⟩))).1
    obtain ⟨H', w, f, z, dr⟩ := releaseData_ok hd hl (children := dropChildren env t)
      (fun H hc hb => hk.free _ H hc hb fun q hq hin => hd.kidsBox q hq
        ⟨by unfold InBlock at hin; omega, by unfold InBlock at hin; omega⟩)
      ha hst rfl hp root
    refine ⟨H', drops hst (by rw [releaseArray_eq]; exact w), f.emptied, z, _, dr, ?_⟩
    cases root <;> rfl
  rw [arrayKinds_cons]
  rcases hk.chain with hnil | ⟨kid, raw, rfl, rfl, ⟨k, ks, hks, hsize, hcb⟩, hdrop, hchain⟩
  · rw [hnil]
    exact .last bare
  have hkid : onlyKid (intoArray no o buffers [kid] length nullCount) = kid := rfl
  rw [hkid, hks]
  rw [hks] at hchain
  have e2 := arrayBytes_length raw
  refine .link (new' := New h1 h2) (slot := box + (env.data root nl t).children) (bytes' := arrayBytes raw) bare ?_ (by omega)
    ?_ (fun q hq => (hd.new q).2 (.inr (.inr hq))) ?_ (hchain.keep hd.kids) ?_
  · have := hd.childrenAt
    rwa [List.flatMap_singleton] at this
  · intro q hq
    rw [hsize] at hq
    have hin : InBlock box (env.data root nl t).size q := by
      simp only [List.length_singleton] at i2
      exact ⟨by unfold InBlock at hq; omega, by unfold InBlock at hq; omega⟩
    exact ⟨(hd.new q).2 (.inl hin), fun hn => hd.kidsBox q hn hin⟩
  · intro H p ha hb
    have hst := stored_of_bytes hb small
    exact ⟨table, hst.2.2.2.2.2.2.1, hd.table hl H.mem (fun q hq => (ha q hq).1) 0 Nat.one_pos⟩
  · intro H hH
    rw [hsize, hcb] at hH
    obtain ⟨h'', raw', hn, hc, ⟨small', rel⟩, hd'⟩ := hd.taken hl ht hH
    intro H' p ha hb hp
    have hst := stored_of_bytes hb small
    have hc' : Carries h h'' H' := fun q hq =>
      ⟨(ha q ((hn q).1 hq)).1.trans (hc q hq).1, (ha q ((hn q).1 hq)).2.trans (hc q hq).2⟩
    have hb' : ∀ {o n : Nat}, o + n ≤ (env.data root nl t).size → ∀ i, i < n →
        H'.mem.byte (box + o + i) = h''.mem.byte (box + o + i) :=
      fun ho i hi => (hc' _ ((hd'.new _).2 (.inl ⟨by omega, by omega⟩))).1
    refine ⟨⟨?_, ?_⟩, ?_⟩
    · exact BytesAt.same' hd'.ownerAt fun i hi => hb' i4 i hi
    · exact intoRaw_fields (raws := [raw]) hd.box0
        (BytesAt.same' hd'.buffersAt fun i hi => hb' (n := 8 * buffers.length) i1 i (by omega)) hne hs hrel.1 rfl
        (fun _ => hd.table0) hst
    obtain ⟨H1, w, f, z, dr⟩ := releaseData_ok hd' hl (children := dropChildren env t) (fun H hc hb => by
        rw [List.flatMap_singleton] at hb
        have hst := stored_of_bytes hb small'
        refine ⟨H, hdrop _ _ (rel ▸ hst.2.2.2.2.2.2.2.2.1), ⟨fun q hq => absurd hq.1 hq.2, fun _ _ _ => rfl, fun _ _ => rfl,
          full_of_stored hst⟩, rfl⟩)
      hc' hst rfl (fun q hq => hp q ((hn q).1 hq)) root
    refine ⟨H1, drops hst (by rw [releaseArray_eq]; exact w), f.emptied.congr hn, z, _, dr, ?_⟩
    cases root <;> rfl

theorem childArray_ok {env : Env} (hch : ∀ nl t, DataFields (env.data false nl t) (buffersIn t) (childrenIn t) 0)
    (hrel : ∀ root nl t, env.releaseArray root nl t ≠ 0 ∧ env.releaseArray root nl t < 2 ^ 64)
    {t : Ty} {nl : Bool} {c : (arrayR nl t).C} {a : APlace nl t} {h : Heap} (ht : Tidy h)
    (hs : ∀ q ∈ allBuffers t nl a, q < 2 ^ 64) {tree : Built (List CArray)}
    {raw : Heap → Ex (List RawArray × Heap)} (hk : Follows h tree (raw h) (KidsOk env t h)) :
    Follows h (childArray nl t c a tree) (childArrayAt env nl t c a raw h) (ChildOk env nl t h) := by
  unfold childArray childArrayAt
  by_cases ho : offsetOf nl t c ≠ 0
  · rw [if_pos ho, if_pos ho]; rfl
  rw [if_neg ho, if_neg ho]
  cases ((arrayR nl t).len c).bind toI64 with
  | panic => rfl
  | ok length =>
    cases nullCountOf nl t c with
    | panic => rfl
    | ok nullCount =>
      match tree, hk with
      | .panic, hk =>
        show Ex.bind (raw h) _ = _
        rw [show raw h = .panic from hk]; rfl
      | .ok (.error e), hk =>
        show Ex.bind (raw h) _ = _
        rw [show raw h = .err e h from hk]; rfl
      | .ok (.ok (kids, next)), hk =>
        show _ = Ex.abort ∨ _
        simp only [Ex.ofRes, Ex.bind_ok]
        rcases hk with hk | ⟨raws, h2, hk, hko⟩
        · left; rw [hk]; rfl
        have hl := hch nl t
        rw [← hko.slots, ← buffersOf_length nl t c a] at hl
        rw [hk, Ex.bind_ok]
        simp only
        rcases newData_ok env (owner := []) (buffers := buffersOf nl t c a) (children := raws) h2 hl with
          e | ⟨box, h3, e, hal, hb0, hbm, hfree, hsame, hfull, b1, b2, _, b3, k, d⟩
        · left; rw [e]; rfl
        have hnb : ∀ q, InBlock box (env.data false nl t).size q → h2.mem.byte q = none := by
          intro q hq
          have := hfree (q - box) (by unfold InBlock at hq; omega)
          rwa [Nat.add_sub_cancel' hq.1] at this
        have hpos : 0 < (env.data false nl t).size := by have := hl.inside.2.2.1; omega
        have hbb : InBlock box (env.data false nl t).size box := ⟨Nat.le_refl _, by omega⟩
        have hfree0 : ∀ q, h2.mem.byte q = none → h.mem.byte q = none := by
          intro q hq
          cases hc : h.mem.byte q with
          | none => rfl
          | some b => rw [hko.grew.ext q b hc] at hq; cases hq
        rcases dataOk_of env (raws := raws) (buffers := buffersOf nl t c a) (owner := []) (h := h) (h1 := h) (h2 := h2)
          (hx := h3) hl hal hb0 hbm (fun i hi => hfree0 _ (hfree i hi)) (fun _ _ => rfl)
          (fun q hq hin => hq.2 (hnb q hin)) hko.grew.ext hsame hfull b1 b2 b3
          (by rw [k, if_pos rfl])
          (fun q hq => by rw [k, if_neg]; rintro rfl; exact hq.2 (hnb _ hbb))
          (fun q hq hne => by rw [k, if_neg hne, hko.grew.old q hq]) ht (d.trans hko.grew.dropped) with
          e' | ⟨table, h', e', hd⟩
        · left; rw [e, Ex.bind_ok]; simp only; rw [e']; rfl
        refine .inr ⟨_, h', ?_, hd.grew, hd.small hl (hrel false nl t).2, ⟨(hrel false nl t).1, rfl⟩,
          hd.structure_ hko hl (buffersOf_ne nl t c a) (buffers_small nl t hs) (hrel false nl t).1, hd.aligned hko hl, ?_, ?_⟩
        · rw [e, Ex.bind_ok]; simp only; rw [e', Ex.bind_ok]
        · intro H p hc hst hp
          obtain ⟨H', w, f, _, dr⟩ := releaseData_ok hd hl (children := dropChildren env t)
            (fun H hc hb => hko.free _ H hc hb fun q hq hin => hd.kidsBox q hq
              ⟨by unfold InBlock at hin; omega, by have := hl.inside.2.1; unfold InBlock at hin; omega⟩)
            hc hst rfl hp false
          exact ⟨H', by rw [releaseArray_eq]; exact w, f, by simpa using dr⟩
        · have := hd.chain (no := next) (o := none) (length := length) (nullCount := nullCount) hko hl ht
            (buffersOf_ne nl t c a) (buffers_small nl t hs) (hrel false nl t)
          rw [arrayKinds_cons] at this ⊢
          exact this.nowhere

theorem kidsOk_nil {env : Env} {t : Ty} {h : Heap} (ht : Tidy h) (h0 : childrenIn t = 0)
    (hd : dropChildren env t = fun _ h => .ok h) (hk : ∀ tree, kidKinds env t tree = []) : KidsOk env t h [] [] h := by
  have hn : ∀ q, ¬ New h h q := fun q hq => hq.2 hq.1
  refine ⟨h0.symm, rfl, ⟨Extends.refl _, fun _ _ => rfl, ht, rfl⟩, nofun, fun _ _ _ hi => absurd hi (Nat.not_lt_zero _),
    fun _ _ _ hi => absurd hi (Nat.not_lt_zero _),
    fun r H _ _ _ => ⟨H, by rw [hd], ⟨fun q hq => absurd hq (hn q), fun _ _ _ => rfl, fun _ _ => rfl,
      fun i hi => absurd hi (Nat.not_lt_zero _)⟩, rfl⟩, .inl hk⟩

theorem kidsOk_one {env : Env} {t t' : Ty} {nl' : Bool} {h h' : Heap} {kid : CArray} {raw : RawArray}
    (hc : ChildOk env nl' t' h kid raw h') (h1 : childrenIn t = 1)
    (hd : dropChildren env t = dropArray (env.releaseArray false nl' t') (releaseArray env t' false nl'))
    (hkk : kidKinds env t kid = arrayKinds env t' false nl' kid 0 []) : KidsOk env t h [kid] [raw] h' := by
  refine ⟨h1.symm, rfl, hc.grew, ?_, ?_, ?_, ?_, .inr ⟨kid, raw, rfl, rfl, ⟨_, _, hkk.trans (arrayKinds_cons ..), rfl, rfl⟩,
    fun r H hz => by rw [hd, dropArray, readWord_ok hz]; rfl, by rw [hkk]; exact hc.chain⟩⟩
  · intro r hr
    rw [List.mem_singleton.1 hr]
    exact hc.small
  · intro m hm i hi _ d p hp
    obtain rfl : i = 0 := Nat.lt_one_iff.1 hi
    exact hc.structure_ m hm p hp d
  · intro m hm i hi d p h8 hp
    obtain rfl : i = 0 := Nat.lt_one_iff.1 hi
    exact hc.aligned m hm p hp h8 d
  · intro r H hcar hb hdis
    rw [List.flatMap_singleton] at hb
    have hst := stored_of_bytes hb hc.small
    obtain ⟨H', w, f, dr⟩ := hc.free H r hcar hst hdis
    refine ⟨H', ?_, f, dr⟩
    rw [hd, dropArray, readWord_ok hst.2.2.2.2.2.2.2.2.1, Ex.bind_ok, if_neg hc.release.1, if_pos hc.release.2, w]

theorem Follows.one {env : Env} {t t' : Ty} {nl' : Bool} {h : Heap} (h1 : childrenIn t = 1)
    (hd : dropChildren env t = dropArray (env.releaseArray false nl' t') (releaseArray env t' false nl'))
    (hkk : ∀ kid, kidKinds env t kid = arrayKinds env t' false nl' kid 0 []) {tree : Built CArray}
    {raw : Ex (RawArray × Heap)} (hf : Follows h tree raw (ChildOk env nl' t' h)) :
    Follows h (tree.map fun r => match r with
        | .error e => .error e
        | .ok (kid, next') => .ok ([kid], next'))
      (raw.bind fun r => .ok ([r.1], r.2)) (KidsOk env t h) := by
  match tree, hf with
  | .panic, hf => rw [show raw = .panic from hf]; rfl
  | .ok (.error e), hf => rw [show raw = .err e h from hf]; rfl
  | .ok (.ok (kid, next)), hf =>
    rcases hf with hf | ⟨y, h', hf, hc⟩
    · left; rw [hf]; rfl
    · right
      exact ⟨[y], h', by rw [hf]; rfl, kidsOk_one hc h1 hd (hkk kid)⟩

theorem children_ok {env : Env} (hch : ∀ nl t, DataFields (env.data false nl t) (buffersIn t) (childrenIn t) 0)
    (hrel : ∀ root nl t, env.releaseArray root nl t ≠ 0 ∧ env.releaseArray root nl t < 2 ^ 64) :
    ∀ (t : Ty) (nl : Bool) (c : (arrayR nl t).C) (a : APlace nl t) (h : Heap) (next : Nat), Tidy h →
    (∀ q ∈ allBuffers t nl a, q < 2 ^ 64) →
    Follows h (childrenOf t nl c a next) (childrenAt env t nl c a h) (KidsOk env t h)
  | .bool, _, _, _, h, _, ht, _ => .inr ⟨[], h, rfl, kidsOk_nil ht rfl rfl fun _ => rfl⟩
  | .prim _, _, _, _, h, _, ht, _ => .inr ⟨[], h, rfl, kidsOk_nil ht rfl rfl fun _ => rfl⟩
  | .fsl n nl' t, nl, c, a, h, next, ht, hs =>
    Follows.one rfl rfl (fun _ => rfl) (childArray_ok hch hrel ht (fun q hq => hs q (fslPlace_mem nl hq))
      (children_ok hch hrel t nl' (fslChild nl c) (fslPlace nl a) h next ht
        fun q hq => hs q (fslPlace_mem nl hq)))
  | .vsl ow nl' t, nl, c, a, h, next, ht, hs =>
    Follows.one rfl rfl (fun _ => rfl) (childArray_ok hch hrel ht (fun q hq => hs q (vslPlace_mem nl hq))
      (children_ok hch hrel t nl' (vslChild nl c) (vslPlace nl a) h next ht
        fun q hq => hs q (vslPlace_mem nl hq)))

/-! ## Schemas -/

theorem newSchemaData_ok (env : Env) {lay : SchemaLayout} {format : List Nat} {child : RawSchema} (h : Heap)
    (hl : SchemaDataFields lay (8 * format.length)) :
    newSchemaData env lay format child h = .abort ∨
    ∃ box h', newSchemaData env lay format child h = .ok (box, h') ∧ box % lay.align = 0 ∧ box ≠ 0 ∧
      box + lay.size ≤ byteMax ∧ (∀ i, i < lay.size → h.mem.byte (box + i) = none) ∧
      Same h.mem h'.mem box lay.size ∧ Full h'.mem box lay.size ∧
      BytesAt h'.mem (box + lay.format) (words format) ∧
      BytesAt h'.mem (box + lay.children) (schemaBytes child) ∧
      BytesAt h'.mem (box + lay.pointers) (words [box + lay.children]) ∧
      (∀ q, h'.blocks q = if q = box then some lay.size else h.blocks q) ∧ h'.dropped = h.dropped := by
  obtain ⟨⟨i1, i2, i3⟩, a1, a2, a3⟩ := hl
  have e1 := words_length format
  have e2 := schemaBytes_length child
  have e3 : ∀ v : Nat, (words [v]).length = 8 := fun v => words_length [v]
  unfold newSchemaData
  rcases alloc_ok env h lay.align (List.replicate lay.size 0#8) with e | ⟨box, h1, e, hal, hb, hm, hfree, _, hs, _, hf, hk, hd⟩
  · left; rw [e]; rfl
  · simp only [List.length_replicate] at hm hfree hs hf hk
    have e4 := e3 0
    have e5 := e3 (box + lay.children)
    obtain ⟨h2, w1, s1, b1, f1, k1, d1⟩ := write_ok (l := words format) (p := lay.format) hf (by omega)
    obtain ⟨h3, w2, s2, b2, f2, k2, d2⟩ := write_ok (l := schemaBytes child) (p := lay.children) f1 (by omega)
    obtain ⟨h4, w3, s3, _, f3, k3, d3⟩ := write_ok (l := words [0]) (p := lay.pointers) f2 (by omega)
    obtain ⟨h5, w4, s4, b4, f4, k4, d4⟩ := write_ok (l := words [box + lay.children]) (p := lay.pointers) f3 (by omega)
    refine .inr ⟨box, h5, ?_, hal, hb, hm, hfree, ?_, f4, ?_, ?_, b4,
      by rw [k4, k3, k2, k1]; exact hk, by rw [d4, d3, d2, d1, hd]⟩
    · rw [e, Ex.bind_ok]; simp only; rw [w1, Ex.bind_ok, w2, Ex.bind_ok, w3, Ex.bind_ok, w4, Ex.bind_ok]
    · exact (hs.trans (s1.weaken (by omega))).trans ((s2.weaken (by omega)).trans
        ((s3.weaken (by omega)).trans (s4.weaken (by omega))))
    · exact ((b1.same s2 (.inl (by rw [e1, e2]; exact a1))).same s3 (.inl (by rw [e1, e4]; exact a2))).same s4
        (.inl (by rw [e1, e5]; exact a2))
    · exact (b2.same s3 (.inl (by rw [e2, e4]; exact a3))).same s4 (.inl (by rw [e2, e5]; exact a3))

/-- A box of a list schema, its format string (`n` bytes at `f`; `n` is 0 if it has
none) and the memory of its child (`New h hc`) were added. -/
structure SchemaBoxOk (lay : SchemaLayout) (box f n : Nat) (format : List Nat) (child : RawSchema)
    (h hc hf h' : Heap) : Prop where
  boxA : box % lay.align = 0
  box0 : box ≠ 0
  boxM : box + lay.size ≤ byteMax
  new : ∀ q, New h h' q ↔ InBlock box lay.size q ∨ InBlock f n q ∨ New h hc q
  kidsBox : ∀ q, New h hc q → ¬ InBlock box lay.size q
  kidsString : ∀ q, New h hc q → ¬ InBlock f n q
  boxString : ∀ q, InBlock box lay.size q → ¬ InBlock f n q
  kids : ∀ q, New h hc q → h'.mem.byte q = hc.mem.byte q ∧ h'.blocks q = hc.blocks q
  stringAt : ∀ q, InBlock f n q → h'.mem.byte q = hf.mem.byte q
  formatAt : BytesAt h'.mem (box + lay.format) (words format)
  childAt : BytesAt h'.mem (box + lay.children) (schemaBytes child)
  pointerAt : BytesAt h'.mem (box + lay.pointers) (words [box + lay.children])
  blkBox : h'.blocks box = some lay.size
  blkString : n ≠ 0 → h'.blocks f = some n
  blkNew : ∀ q, New h h' q → ¬ New h hc q → q ≠ box → ¬ (n ≠ 0 ∧ q = f) → h'.blocks q = none
  grew : Grew h h'

theorem schemaBox_ok (env : Env) {lay : SchemaLayout} {f n : Nat} {format : List Nat} {child : RawSchema}
    {h hc hf : Heap} (hl : SchemaDataFields lay (8 * format.length)) (hg : Grew h hc)
    (hfree : ∀ i, i < n → hc.mem.byte (f + i) = none) (hsame : Same hc.mem hf.mem f n) (hfull : Full hf.mem f n)
    (hblk : ∀ q, hf.blocks q = if n ≠ 0 ∧ q = f then some n else hc.blocks q)
    (hdr : hf.dropped = hc.dropped) (ht : Tidy h) :
    newSchemaData env lay format child hf = .abort ∨
    ∃ box h', newSchemaData env lay format child hf = .ok (box, h') ∧
      SchemaBoxOk lay box f n format child h hc hf h' := by
  rcases newSchemaData_ok env (child := child) hf hl with
    e | ⟨box, h', e, hal, hb0, hbm, hbf, hs', hf', b1, b2, b3, k, d⟩
  · exact .inl e
  refine .inr ⟨box, h', e, ?_⟩
  have hbn : ∀ q, InBlock box lay.size q → hf.mem.byte q = none := by
    intro q hq
    have := hbf (q - box) (by unfold InBlock at hq; omega)
    rwa [Nat.add_sub_cancel' hq.1] at this
  have hbF : ∀ q, InBlock box lay.size q → h'.mem.byte q ≠ none := by
    intro q hq
    have := hf' (q - box) (by unfold InBlock at hq; omega)
    rw [Nat.add_sub_cancel' hq.1] at this
    intro e; rw [e] at this; cases this
  have hfF : ∀ q, InBlock f n q → hf.mem.byte q ≠ none := by
    intro q hq
    have := hfull (q - f) (by unfold InBlock at hq; omega)
    rw [Nat.add_sub_cancel' hq.1] at this
    intro e; rw [e] at this; cases this
  have hfn : ∀ q, InBlock f n q → hc.mem.byte q = none := by
    intro q hq
    have := hfree (q - f) (by unfold InBlock at hq; omega)
    rwa [Nat.add_sub_cancel' hq.1] at this
  have bs : ∀ q, InBlock box lay.size q → ¬ InBlock f n q := fun q hq hq' => hfF q hq' (hbn q hq)
  have ks : ∀ q, New h hc q → ¬ InBlock f n q := fun q hq hq' => hq.2 (hfn q hq')
  have hbc : ∀ q, InBlock box lay.size q → hc.mem.byte q = none := by
    intro q hq
    rw [← hsame q (bs q hq)]; exact hbn q hq
  have kb : ∀ q, New h hc q → ¬ InBlock box lay.size q := fun q hq hq' => hq.2 (hbc q hq')
  have back : ∀ q, hc.mem.byte q = none → h.mem.byte q = none := by
    intro q hq
    cases hx : h.mem.byte q with
    | none => rfl
    | some b => rw [hg.ext q b hx] at hq; cases hq
  have out : ∀ q, ¬ InBlock box lay.size q → ¬ InBlock f n q → h'.mem.byte q = hc.mem.byte q :=
    fun q hq hq' => (hs' q hq).trans (hsame q hq')
  have hpos : 0 < lay.size := by have := hl.inside.2.2; omega
  have hbb : InBlock box lay.size box := ⟨Nat.le_refl _, by omega⟩
  have hnew : ∀ q, New h h' q ↔ InBlock box lay.size q ∨ InBlock f n q ∨ New h hc q := by
    intro q
    constructor
    · rintro ⟨h1, h2⟩
      by_cases hb : InBlock box lay.size q
      · exact .inl hb
      · by_cases hs : InBlock f n q
        · exact .inr (.inl hs)
        · rw [out q hb hs] at h2
          exact .inr (.inr ⟨h1, h2⟩)
    · rintro (hq | hq | hq)
      · exact ⟨back q (hbc q hq), hbF q hq⟩
      · refine ⟨back q (hfn q hq), ?_⟩
        rw [hs' q (fun hb => bs q hb hq)]
        exact hfF q hq
      · refine ⟨hq.1, ?_⟩
        rw [out q (kb q hq) (ks q hq)]
        exact hq.2
  have kblk : ∀ q, ¬ InBlock box lay.size q → ¬ InBlock f n q → h'.blocks q = hc.blocks q := by
    intro q hq hq'
    rw [k, if_neg, hblk, if_neg]
    · rintro ⟨hn, rfl⟩
      exact hq' ⟨Nat.le_refl _, by omega⟩
    · rintro rfl
      exact hq hbb
  have fresh : ∀ q, InBlock box lay.size q ∨ InBlock f n q → q ≠ box → ¬ (n ≠ 0 ∧ q = f) → h'.blocks q = none := by
    intro q hq h1 h2
    rw [k, if_neg h1, hblk, if_neg h2]
    refine hg.tidy q ?_
    rcases hq with hq | hq
    · exact hbc q hq
    · exact hfn q hq
  refine ⟨hal, hb0, hbm, hnew, kb, ks, bs, fun q hq => ⟨out q (kb q hq) (ks q hq), kblk q (kb q hq) (ks q hq)⟩,
    fun q hq => hs' q fun hb => bs q hb hq, b1, b2, b3, ?_, ?_, ?_, ?_, ?_, ?_, ?_⟩
  · rw [k, if_pos rfl]
  · intro hn
    rw [k, if_neg, hblk, if_pos ⟨hn, rfl⟩]
    intro e'
    exact bs box hbb (e' ▸ ⟨Nat.le_refl _, by omega⟩)
  · intro q hq hq' h1 h2
    refine fresh q ?_ h1 h2
    rcases (hnew q).1 hq with hq | hq | hq
    · exact .inl hq
    · exact .inr hq
    · exact absurd hq hq'
  · intro q b hb
    have hc1 := hg.ext q b hb
    have n1 : ¬ InBlock box lay.size q := fun hq => by rw [hbc q hq] at hc1; cases hc1
    have n2 : ¬ InBlock f n q := fun hq => by rw [hfn q hq] at hc1; cases hc1
    rw [out q n1 n2]; exact hc1
  · intro q hq
    have hq' := fun h => hq ((hnew q).2 h)
    rw [kblk q (fun h => hq' (.inl h)) (fun h => hq' (.inr (.inl h))), hg.old q fun h => hq' (.inr (.inr h))]
  · intro q hq
    have n1 : ¬ InBlock box lay.size q := fun h => hbF q h hq
    have n2 : ¬ InBlock f n q := fun h => by
      rw [hs' q n1] at hq
      exact hfF q h hq
    rw [kblk q n1 n2]
    rw [out q n1 n2] at hq
    exact hg.tidy q hq
  · rw [d, hdr, hg.dropped]

theorem full_of_schema {m : Mem} {p : Nat} {r : RawSchema} (h : SchemaStored m p r) : Full m p 72 := by
  obtain ⟨h0, h1, h2, h3, h4, h5, h6, h7, h8⟩ := h
  have key : ∀ {k v : Nat}, Holds m (p + 8 * k) v → ∀ i, 8 * k ≤ i → i < 8 * k + 8 → (m.byte (p + i)).isSome = true := by
    intro k v hv i h h'
    have := full_of_holds hv (i := i - 8 * k) (by omega)
    rwa [Nat.add_assoc, Nat.add_sub_cancel' h] at this
  intro i hi
  have : i / 8 = 0 ∨ i / 8 = 1 ∨ i / 8 = 2 ∨ i / 8 = 3 ∨ i / 8 = 4 ∨ i / 8 = 5 ∨ i / 8 = 6 ∨ i / 8 = 7 ∨
    i / 8 = 8 := by omega
  rcases this with h | h | h | h | h | h | h | h | h
  · exact key (k := 0) h0 i (by omega) (by omega)
  · exact key (k := 1) h1 i (by omega) (by omega)
  · exact key (k := 2) h2 i (by omega) (by omega)
  · exact key (k := 3) h3 i (by omega) (by omega)
  · exact key (k := 4) h4 i (by omega) (by omega)
  · exact key (k := 5) h5 i (by omega) (by omega)
  · exact key (k := 6) h6 i (by omega) (by omega)
  · exact key (k := 7) h7 i (by omega) (by omega)
  · exact key (k := 8) h8 i (by omega) (by omega)

theorem clearSchema_ok {h : Heap} {p : Nat} (hf : Full h.mem p 72) :
    ∃ h', clearSchema p h = .ok h' ∧ Same h.mem h'.mem p 72 ∧ Holds h'.mem (p + 56) 0 ∧
      h'.blocks = h.blocks ∧ h'.dropped = h.dropped ∧ Full h'.mem p 72 := by
  have e : (wordBytes 0).length = 8 := wordBytes_length 0
  obtain ⟨h1, w1, s1, b1, f1, k1, d1⟩ := write_ok (l := wordBytes 0) (p := 56) hf (by omega)
  obtain ⟨h2, w2, s2, _, f2, k2, d2⟩ := write_ok (l := wordBytes 0) (p := 64) f1 (by omega)
  obtain ⟨h3, w3, s3, _, f3, k3, d3⟩ := write_ok (l := wordBytes 0) (p := 40) f2 (by omega)
  obtain ⟨h4, w4, s4, _, f4, k4, d4⟩ := write_ok (l := wordBytes 0) (p := 48) f3 (by omega)
  rw [e] at s1 s2 s3 s4
  refine ⟨h4, ?_, ?_, ?_, by rw [k4, k3, k2, k1], by rw [d4, d3, d2, d1], f4⟩
  · unfold clearSchema
    rw [w1, Ex.bind_ok, w2, Ex.bind_ok, w3, Ex.bind_ok, w4]
  · exact (((s1.weaken (by omega)).trans (s2.weaken (by omega))).trans (s3.weaken (by omega))).trans
      (s4.weaken (by omega))
  · refine holds_word (((b1.same s2 (.inl ?_)).same s3 (.inl ?_)).same s4 (.inl ?_)) (by decide)
    all_goals unfold Apart; omega

theorem releaseSchemaData_ok {lay : SchemaLayout} {box f n : Nat} {format : List Nat} {child : RawSchema}
    {h hc hf h' : Heap} (hd : SchemaBoxOk lay box f n format child h hc hf h')
    (hl : SchemaDataFields lay (8 * format.length)) (hfmt : n ≠ 0 → format = [f, n] ∧ f + n ≤ byteMax)
    {drop : Nat → Heap → Ex Heap}
    (hk : ∀ H, Carries h hc H → BytesAt H.mem (box + lay.children) (schemaBytes child) →
      ∃ H', drop (box + lay.children) H = .ok H' ∧
        Freed h hc (box + lay.children) 72 H H' ∧ H'.dropped = H.dropped)
    {H : Heap} {p : Nat} {r : RawSchema} (hcar : Carries h h' H) (hs : SchemaStored H.mem p r)
    (hr : r.privateData = box) (hp : ∀ q, New h h' q → ¬ InBlock p 72 q) :
    ∃ H', releaseSchemaData lay (decide (n ≠ 0)) drop p H = .ok H' ∧ Freed h h' p 72 H H' ∧
      Holds H'.mem (p + 56) 0 ∧ H'.dropped = H.dropped := by
  obtain ⟨⟨i1, i2, i3⟩, a1, a2, a3⟩ := hl
  have e2 := schemaBytes_length child
  obtain ⟨H1, w1, s1, z1, k1, d1, F1⟩ := clearSchema_ok (full_of_schema hs)
  have inB : ∀ {o n : Nat}, o + n ≤ lay.size → ∀ i, i < n → InBlock box lay.size (box + o + i) :=
    fun ho i hi => ⟨by omega, by omega⟩
  have newB : ∀ q, InBlock box lay.size q → New h h' q := fun q hq => (hd.new q).2 (.inl hq)
  have c1 : ∀ q, New h h' q → H1.mem.byte q = h'.mem.byte q ∧ H1.blocks q = h'.blocks q := by
    intro q hq
    rw [s1 q (hp q hq), k1]
    exact hcar q hq
  -- the string
  obtain ⟨H2, w2, g2, m2, k2, d2⟩ : ∃ H2, (if decide (n ≠ 0) = true then dropString H1 (box + lay.format) else .ok H1) = .ok H2 ∧
      (∀ q, InBlock f n q → H2.mem.byte q = none) ∧
      (∀ q, ¬ InBlock f n q → H2.mem.byte q = H1.mem.byte q) ∧
      (∀ q, H2.blocks q = if n ≠ 0 ∧ q = f then none else H1.blocks q) ∧
      H2.dropped = H1.dropped := by
    by_cases hn : n = 0
    · refine ⟨H1, if_neg (by simp [hn]), fun q hq => ?_, fun _ _ => rfl, fun q => (if_neg fun h => h.1 hn).symm, rfl⟩
      unfold InBlock at hq; omega
    · obtain ⟨rfl, hfm⟩ := hfmt hn
      have hb := byteMax_lt
      have pa := words_at (BytesAt.same' hd.formatAt (m' := H1.mem) fun i hi => by
          rw [words_length] at hi
          exact (c1 _ (newB _ (inB (n := 16) i1 i hi))).1) (by
        intro v hv
        simp only [List.mem_cons, List.not_mem_nil, or_false] at hv
        rcases hv with rfl | rfl <;> omega)
      have p0 := readWord_ok (pa 0 (by show _ < 2; omega))
      have p1 := readWord_ok (pa 1 (by show _ < 2; omega))
      have hin : InBlock f n f := ⟨Nat.le_refl _, by omega⟩
      have hF : Full H1.mem f n := by
        intro i hi
        have hi' : InBlock f n (f + i) := ⟨by omega, by omega⟩
        have hq := (hd.new _).2 (.inr (.inl hi'))
        have := hq.2
        rw [← (c1 _ hq).1] at this
        exact Option.isSome_iff_ne_none.2 this
      obtain ⟨Hx, wx, sx, _, _, kx, dx⟩ := write_ok (p := 0) (l := [0#8]) hF (by show 0 + 1 ≤ n; omega)
      rw [Nat.add_zero] at wx sx
      obtain ⟨H2, w, g, m, k, d⟩ := free_ok (h := Hx) (p := f) (n := n)
        (by rw [kx, (c1 _ ((hd.new _).2 (.inr (.inl hin)))).2, hd.blkString hn])
      refine ⟨H2, ?_, g, fun q hq => ?_, fun q => ?_, d.trans dx⟩
      · rw [if_pos (by simp [hn])]
        unfold dropString
        rw [show readWord H1 (box + lay.format) = .ok f from p0, Ex.bind_ok,
          show readWord H1 (box + lay.format + 8) = .ok n from p1, Ex.bind_ok, wx, Ex.bind_ok, w]
      · rw [m q hq, sx q]
        intro h
        exact hq ⟨h.1, by have := h.2; simp only [List.length_singleton] at this; omega⟩
      · rw [k, kx]
        by_cases hq : q = f
        · rw [if_pos hq, if_pos ⟨hn, hq⟩]
        · rw [if_neg hq, if_neg fun h => hq h.2]
  have notF : ∀ q, ¬ InBlock f n q → ¬ (n ≠ 0 ∧ q = f) := by
    rintro q hq ⟨hn, rfl⟩
    exact hq ⟨Nat.le_refl _, by omega⟩
  obtain ⟨H3, w3, f3, d3⟩ := hk H2 (fun q hq => by
      obtain ⟨ea, eb⟩ := c1 q ((hd.new q).2 (.inr (.inr hq)))
      obtain ⟨ec, ed⟩ := hd.kids q hq
      rw [m2 q (hd.kidsString q hq), k2, if_neg (notF q (hd.kidsString q hq))]
      exact ⟨ea.trans ec, eb.trans ed⟩)
    (BytesAt.same' hd.childAt fun i hi => by
      have hb := inB (n := 72) i2 i (by omega)
      rw [m2 _ (hd.boxString _ hb)]
      exact (c1 _ (newB _ hb)).1)
  have hbb : InBlock box lay.size box := ⟨Nat.le_refl _, by omega⟩
  have kid : ∀ {q}, InBlock box lay.size q → ¬ New h hc q := fun hq hn => hd.kidsBox _ hn hq
  have bk : ∀ q, InBlock box lay.size q → H3.blocks q = h'.blocks q := by
    intro q hq
    rw [f3.blocks q (kid hq), k2, if_neg (notF q (hd.boxString q hq)), (c1 q (newB q hq)).2]
  obtain ⟨H4, w4, g4, m4, k4, d4⟩ := free_ok (h := H3) (p := box) (n := lay.size) (by
    rw [bk box hbb, hd.blkBox])
  have same : ∀ q, ¬ New h h' q → H4.mem.byte q = H1.mem.byte q := by
    intro q hq
    have hq' := fun h => hq ((hd.new q).2 h)
    rw [m4 q (fun h => hq' (.inl h)), f3.mem q (fun h => hq' (.inr (.inr h))),
      m2 q (fun h => hq' (.inr (.inl h)))]
    intro h
    exact hq' (.inl ⟨by unfold InBlock at h; omega, by unfold InBlock at h; omega⟩)
  refine ⟨H4, ?_, ⟨?_, ?_, ?_, fun i hi => by rw [same _ fun hq => hp _ hq ⟨by omega, by omega⟩]; exact F1 i hi⟩, ?_, ?_⟩
  · unfold releaseSchemaData
    have := hs.2.2.2.2.2.2.2.2
    rw [hr] at this
    rw [readWord_ok this, Ex.bind_ok, w1, Ex.bind_ok, w2, Ex.bind_ok, w3, Ex.bind_ok, w4]
  · intro q hq
    rw [k4]
    by_cases hb : InBlock box lay.size q
    · refine ⟨g4 q hb, ?_⟩
      by_cases e : q = box
      · rw [if_pos e]
      · rw [if_neg e, bk q hb, hd.blkNew q hq (kid hb) e (notF q (hd.boxString q hb))]
    · have e : q ≠ box := fun e => hb (e ▸ hbb)
      rw [m4 q hb, if_neg e]
      by_cases ht : InBlock f n q
      · have nk : ¬ New h hc q := fun hn => hd.kidsString q hn ht
        have nc : ¬ InBlock (box + lay.children) 72 q := fun hq => hb
          ⟨by unfold InBlock at hq; omega, by unfold InBlock at hq; omega⟩
        refine ⟨(f3.mem q nk nc).trans (g2 q ht), ?_⟩
        rw [f3.blocks q nk, k2]
        split
        · rfl
        · next ht' => rw [(c1 q hq).2, hd.blkNew q hq nk e ht']
      · refine f3.gone q ?_
        rcases (hd.new q).1 hq with h | h | h
        · exact absurd h hb
        · exact absurd h ht
        · exact h
  · intro q hq hq'
    rw [same q hq]
    exact s1 q hq'
  · intro q hq
    have hq' := fun h => hq ((hd.new q).2 h)
    have hb : q ≠ box := fun e => hq' (.inl (e ▸ hbb))
    rw [k4, if_neg hb, f3.blocks q (fun h => hq' (.inr (.inr h))), k2,
      if_neg (notF q fun h => hq' (.inr (.inl h))), k1]
  · refine Holds.same z1 fun i hi => same _ fun hq => hp _ hq ⟨by omega, by omega⟩
  · rw [d4, d3, d2, d1]

/-- The kind of the schema `s`. -/
def schemaKind (env : Env) (t : Ty) (s : CSchema) : Kind where
  size := 72
  callback := 56
  children := 40
  drop := dropSchema (env.releaseSchema t) (releaseSchema env t)
  reads m p := (∀ s ∈ literals, StringAt m (env.literal s) s) → ∀ d, SchemaAt m d p s
  cut m p := (∀ s ∈ literals, StringAt m (env.literal s) s) → SchemaFields m p s
  owner := []

/-- The kinds of `s` and its descendants. -/
def schemaKinds (env : Env) : Ty → CSchema → List Kind
  | .bool, s => [schemaKind env .bool s]
  | .prim p, s => [schemaKind env (.prim p) s]
  | .fsl n nl' t, s => schemaKind env (.fsl n nl' t) s :: schemaKinds env t (onlyKidSchema s)
  | .vsl ow nl' t, s => schemaKind env (.vsl ow nl' t) s :: schemaKinds env t (onlyKidSchema s)

theorem schemaKinds_cons (env : Env) (t : Ty) (s : CSchema) :
    ∃ ks, schemaKinds env t s = schemaKind env t s :: ks := by
  cases t <;> exact ⟨_, rfl⟩

/-- A box of which the child was taken out is a box with a released child. -/
theorem SchemaBoxOk.taken {lay : SchemaLayout} {box f n : Nat} {format : List Nat} {child : RawSchema}
    {h hc hf h' H : Heap} (hd : SchemaBoxOk lay box f n format child h hc hf h')
    (hl : SchemaDataFields lay (8 * format.length)) (ht : Tidy h)
    (hH : Left (New h h') (New h hc) (box + lay.children) 72 56 h' H) :
    ∃ h'' child', (∀ q, New h h'' q ↔ New h h' q ∧ ¬ New h hc q) ∧ Carries h h'' H ∧
      (SmallS child' ∧ child'.release = 0) ∧ SchemaBoxOk lay box f n format child' h h hf h'' := by
  obtain ⟨⟨i1, i2, i3⟩, a1, _, a3, _⟩ := hl
  have h0 : ∀ q, New h h' q ∧ ¬ New h hc q → h.mem.byte q = none := fun q hq => hq.1.1
  have hfull : ∀ q, New h h' q ∧ ¬ New h hc q → H.mem.byte q ≠ none := by
    intro q hq
    by_cases hin : InBlock (box + lay.children) 72 q
    · have := hH.full (q - (box + lay.children)) (by unfold InBlock at hin; omega)
      rw [Nat.add_sub_cancel' hin.1] at this
      exact Option.isSome_iff_ne_none.1 this
    · rw [(hH.same q hq.1 hq.2).1 hin]; exact hq.1.2
  have hnew := patch_new h0 hfull
  have hbox : ∀ q, InBlock box lay.size q → New h h' q ∧ ¬ New h hc q := fun q hq =>
    ⟨(hd.new q).2 (.inl hq), fun hn => hd.kidsBox q hn hq⟩
  have hstr : ∀ q, InBlock f n q → New h h' q ∧ ¬ New h hc q := fun q hq =>
    ⟨(hd.new q).2 (.inr (.inl hq)), fun hn => hd.kidsString q hn hq⟩
  have hno : ∀ q, ¬ New h h q := fun q hq => hq.2 hq.1
  have hb : ∀ {o k : Nat}, o + k ≤ lay.size → (k = 0 ∨ o + k ≤ lay.children ∨ lay.children + 72 ≤ o) → ∀ i, i < k →
      (patch h H fun q => New h h' q ∧ ¬ New h hc q).mem.byte (box + o + i) = h'.mem.byte (box + o + i) := by
    intro o k ho ha i hi
    have hin := hbox (box + o + i) ⟨by omega, by omega⟩
    rw [(patch_in hin).1, (hH.same _ hin.1 hin.2).1 (by unfold InBlock; omega)]
  have e1 := words_length format
  have same : ∀ i, i < 72 → (patch h H fun q => New h h' q ∧ ¬ New h hc q).mem.byte (box + lay.children + i) =
      H.mem.byte (box + lay.children + i) := fun i hi => (patch_in (hbox _ ⟨by omega, by omega⟩)).1
  obtain ⟨child', small, rel, ec⟩ := rawSchema_of_full (m := (patch h H fun q => New h h' q ∧ ¬ New h hc q).mem)
    (p := box + lay.children) (fun i hi => by rw [same i hi]; exact hH.full i hi) (Holds.same hH.mark fun i hi => by
      have := same (56 + i) (by omega)
      rwa [← Nat.add_assoc] at this)
  refine ⟨patch h H fun q => New h h' q ∧ ¬ New h hc q, child', hnew, ?_, ⟨small, rel⟩,
    hd.boxA, hd.box0, hd.boxM, ?_, fun q hq => absurd hq (hno q), fun q hq => absurd hq (hno q), hd.boxString,
    fun q hq => absurd hq (hno q), ?_, ?_, ?_, ?_, ?_, ?_, ?_, ?_⟩
  · intro q hq
    have := patch_in (h := h) (H := H) (new := fun q => New h h' q ∧ ¬ New h hc q) ((hnew q).1 hq)
    exact ⟨this.1.symm, this.2.symm⟩
  · intro q
    rw [hnew, hd.new]
    constructor
    · rintro ⟨hq | hq | hq, hn⟩
      · exact .inl hq
      · exact .inr (.inl hq)
      · exact absurd hq hn
    · rintro (hq | hq | hq)
      · exact ⟨.inl hq, (hbox q hq).2⟩
      · exact ⟨.inr (.inl hq), (hstr q hq).2⟩
      · exact absurd hq (hno q)
  · intro q hq
    have hin := hstr q hq
    rw [(patch_in hin).1, (hH.same _ hin.1 hin.2).1, hd.stringAt q hq]
    intro hi'
    exact hd.boxString _ ⟨by unfold InBlock at hi'; omega, by unfold InBlock at hi'; omega⟩ hq
  · exact BytesAt.same' hd.formatAt fun i hi => hb (k := 8 * format.length) i1 (by unfold Apart at a1; omega) i (by omega)
  · exact ec
  · exact BytesAt.same' hd.pointerAt fun i hi => hb (k := 8) i3 (by unfold Apart at a3; omega) i hi
  · have hin := hbox box ⟨Nat.le_refl _, by omega⟩
    rw [(patch_in hin).2, (hH.same _ hin.1 hin.2).2, hd.blkBox]
  · intro hn
    have hin := hstr f ⟨Nat.le_refl _, by omega⟩
    rw [(patch_in hin).2, (hH.same _ hin.1 hin.2).2]
    exact hd.blkString hn
  · intro q hq _ hb ht
    have hin := (hnew q).1 hq
    rw [(patch_in hin).2, (hH.same _ hin.1 hin.2).2]
    exact hd.blkNew q hin.1 hin.2 hb ht
  · exact patch_grew ht h0 hfull

/-- `raw` is the schema `s`, and can be released. -/
structure SchemaOk (env : Env) (t : Ty) (h : Heap) (s : CSchema) (raw : RawSchema) (h' : Heap) : Prop where
  grew : Grew h h'
  small : SmallS raw
  release : raw.release ≠ 0 ∧ raw.release = env.releaseSchema t
  structure_ : ∀ m : Mem, (∀ s ∈ literals, StringAt m (env.literal s) s) →
    (∀ q, New h h' q → m.byte q = h'.mem.byte q) → ∀ p, SchemaStored m p raw → ∀ d, SchemaAt m d p s
  aligned : ∀ m : Mem, (∀ q, New h h' q → m.byte q = h'.mem.byte q) → ∀ p, SchemaStored m p raw →
    p % 8 = 0 → ∀ d, AlignedSchema m d p
  free : ∀ H p, Carries h h' H → SchemaStored H.mem p raw → (∀ q, New h h' q → ¬ InBlock p 72 q) →
    ∃ H', releaseSchema env t p H = .ok H' ∧ Freed h h' p 72 H H' ∧ Holds H'.mem (p + 56) 0 ∧
      H'.dropped = H.dropped
  chain : Chain (schemaKinds env t s) (schemaBytes raw) (New h h') h'

/-- A schema that can be released is dropped like that. -/
theorem schema_bare {env : Env} {t : Ty} {h h' : Heap} {s : CSchema} {raw : RawSchema} (hsm : SmallS raw)
    (hrel : raw.release ≠ 0 ∧ raw.release = env.releaseSchema t)
    (hs : ∀ m : Mem, (∀ s ∈ literals, StringAt m (env.literal s) s) →
      (∀ q, New h h' q → m.byte q = h'.mem.byte q) → ∀ p, SchemaStored m p raw → ∀ d, SchemaAt m d p s)
    (hf : ∀ H p, Carries h h' H → SchemaStored H.mem p raw → (∀ q, New h h' q → ¬ InBlock p 72 q) →
      ∃ H', releaseSchema env t p H = .ok H' ∧ Freed h h' p 72 H H' ∧ Holds H'.mem (p + 56) 0 ∧
        H'.dropped = H.dropped) : Bare (schemaKind env t s) (schemaBytes raw) (New h h') h' := by
  intro H p ha hb hp
  have hst := schemaStored_of_bytes hb hsm
  refine ⟨fun hl => hs H.mem hl (fun q hq => (ha q hq).1) p hst, ?_⟩
  obtain ⟨H', w, f, z, d⟩ := hf H p ha hst hp
  refine ⟨H', ?_, f.emptied, z, [], by rw [d, List.append_nil], rfl⟩
  show dropSchema _ _ _ _ = _
  rw [dropSchema, readWord_ok hst.2.2.2.2.2.2.2.1, Ex.bind_ok, if_neg hrel.1, if_pos hrel.2, w]

theorem empty_literal : ([] : List Byte) ∈ literals := by decide

theorem format_literal : ∀ p : Prim, formatOf (.prim p) ∈ literals := by
  intro p; cases p <;> first | decide | exact empty_literal

theorem offset_literal : ∀ ow : OffW, offsetFormat ow ∈ literals := by
  intro ow; cases ow <;> decide

theorem width_chars (n : Nat) : ∀ b ∈ widthFormat n, b ≠ 0#8 := by
  intro b hb
  rcases List.mem_append.1 hb with hb | hb
  · exact (by decide : ∀ b ∈ ascii "+w:", b ≠ 0#8) b hb
  · rintro rfl
    have := ((decimal_spec n).1.2 _ hb).1
    revert this
    decide

theorem flat_ok {env : Env} {t : Ty} {nl : Bool} {h : Heap} {s : CSchema}
    (hlit : ∀ s ∈ literals, env.literal s ≠ 0 ∧ env.literal s < 2 ^ 64)
    (hrel : ∀ t, env.releaseSchema t ≠ 0 ∧ env.releaseSchema t < 2 ^ 64)
    (hf : formatOf t ∈ literals) (hr : releaseSchema env t = releaseFlat) (ht : Tidy h)
    (hk : ∀ s, schemaKinds env t s = [schemaKind env t s])
    (hs : s = ⟨some (formatOf t), some [], false, flagsOf nl, 0#64, none, false, some none⟩) :
    SchemaOk env t h s (flatSchema env t nl) h := by
  subst hs
  have hn : ∀ q, ¬ New h h q := fun q hq => hq.2 hq.1
  have h0 : (0 : Nat) < 2 ^ 64 := by decide
  have small : SmallS (flatSchema env t nl) := ⟨(hlit _ hf).2, (hlit _ empty_literal).2, h0, h0, h0, (hrel t).2, h0⟩
  have str : ∀ m : Mem, (∀ s ∈ literals, StringAt m (env.literal s) s) →
      (∀ q, New h h q → m.byte q = h.mem.byte q) → ∀ p, SchemaStored m p (flatSchema env t nl) → ∀ d, SchemaAt m d p
        ⟨some (formatOf t), some [], false, flagsOf nl, 0#64, none, false, some none⟩ := by
    intro m hl _ p hp d
    obtain ⟨h1, h2, h3, h4, h5, h6, h7, h8, h9⟩ := hp
    have hfld : SchemaFields m p ⟨some (formatOf t), some [], false, flagsOf nl, 0#64, none, false, some none⟩ :=
      ⟨⟨_, (hlit _ hf).1, h1, hl _ hf⟩, ⟨_, (hlit _ empty_literal).1, h2, hl _ empty_literal⟩,
        h3.pointer (by simp [flatSchema]), h4, h5, h6.pointer (by simp [flatSchema]),
        h7.pointer (by simp [flatSchema]), h8.pointer (by simp [flatSchema, (hrel t).1]), _, h9⟩
    cases d with
    | zero => exact hfld
    | succ d => exact ⟨hfld, h6⟩
  have free : ∀ H p, Carries h h H → SchemaStored H.mem p (flatSchema env t nl) → (∀ q, New h h q → ¬ InBlock p 72 q) →
      ∃ H', releaseSchema env t p H = .ok H' ∧ Freed h h p 72 H H' ∧ Holds H'.mem (p + 56) 0 ∧ H'.dropped = H.dropped := by
    intro H p _ hst _
    have e : (wordBytes 0).length = 8 := wordBytes_length 0
    obtain ⟨H', w, s, b, F, k, d⟩ := write_ok (l := wordBytes 0) (p := 56) (full_of_schema hst) (by omega)
    refine ⟨H', by rw [hr]; exact w, ⟨fun q hq => absurd hq (hn q), fun q _ hq => ?_, fun q _ => by rw [k], F⟩,
      holds_word b (by decide), d⟩
    exact s q fun h => hq ⟨by omega, by omega⟩
  refine ⟨⟨Extends.refl _, fun _ _ => rfl, ht, rfl⟩, small, ⟨(hrel t).1, rfl⟩, str, ?_, free,
    by rw [hk]; exact .last (schema_bare small ⟨(hrel t).1, rfl⟩ str free)⟩
  intro m _ p hp h8 d
  obtain ⟨_, _, _, _, h5, h6, _⟩ := hp
  cases d with
  | zero => exact ⟨h8, _, h6, rfl⟩
  | succ d => exact ⟨⟨h8, _, h6, rfl⟩, _, _, h5, h6, fun i hi => absurd hi (Nat.not_lt_zero _)⟩

theorem list_ok {env : Env} {t t' : Ty} {nl : Bool} {h hc hf h' : Heap} {box f n fmt no : Nat} {format : List Nat}
    {kid : CSchema} {child : RawSchema} {str : List Byte} {drop : Nat → Heap → Ex Heap}
    (hk : SchemaOk env t' h kid child hc)
    (hd : SchemaBoxOk (env.schema t) box f n format child h hc hf h')
    (hl : SchemaDataFields (env.schema t) (8 * format.length))
    (hfmt : n ≠ 0 → format = [f, n] ∧ f + n ≤ byteMax)
    (hrel : ∀ t, env.releaseSchema t ≠ 0 ∧ env.releaseSchema t < 2 ^ 64)
    (hlit : ∀ s ∈ literals, env.literal s ≠ 0 ∧ env.literal s < 2 ^ 64)
    (hf0 : fmt ≠ 0 ∧ fmt < 2 ^ 64)
    (hstr : ∀ m : Mem, (∀ s ∈ literals, StringAt m (env.literal s) s) →
      (∀ q, InBlock f n q → m.byte q = hf.mem.byte q) → StringAt m fmt str)
    (hdrop : drop = dropSchema (env.releaseSchema t') (releaseSchema env t'))
    (hr : releaseSchema env t = releaseSchemaData (env.schema t) (decide (n ≠ 0)) drop) (ht : Tidy h)
    (hks : ∀ s, schemaKinds env t s = schemaKind env t s :: schemaKinds env t' (onlyKidSchema s)) :
    SchemaOk env t h ⟨some str, some [], false, flagsOf nl, 1#64, some [some kid], false, some (some no)⟩
      (listSchema env t nl fmt box) h' := by
  have hb := byteMax_lt
  have hm := hd.boxM
  obtain ⟨i1, i2, i3⟩ := hl.inside
  have h0 : (0 : Nat) < 2 ^ 64 := by decide
  have e2 := schemaBytes_length child
  have small : SmallS (listSchema env t nl fmt box) := by
    refine ⟨hf0.2, (hlit _ empty_literal).2, h0, ?_, h0, (hrel t).2, ?_⟩
    · simp only [listSchema]; omega
    · simp only [listSchema]; omega
  have fields : ∀ m : Mem, (∀ s ∈ literals, StringAt m (env.literal s) s) →
      (∀ q, InBlock f n q → m.byte q = hf.mem.byte q) → ∀ p, SchemaStored m p (listSchema env t nl fmt box) →
      SchemaFields m p ⟨some str, some [], false, flagsOf nl, 1#64, some [some kid], false, some (some no)⟩ := by
    intro m hlits hm' p hp
    obtain ⟨h1, h2, h3, h4, h5, h6, h7, h8, h9⟩ := hp
    exact
      ⟨⟨_, hf0.1, h1, hstr m hlits hm'⟩,
        ⟨_, (hlit _ empty_literal).1, h2, hlits _ empty_literal⟩,
        h3.pointer (by simp [listSchema]), h4, h5, h6.pointer (by simp [listSchema, hd.box0]),
        h7.pointer (by simp [listSchema]), h8.pointer (by simp [listSchema, (hrel t).1]), _, h9⟩
  have reads : ∀ m : Mem, (∀ s ∈ literals, StringAt m (env.literal s) s) →
      (∀ q, New h h' q → m.byte q = h'.mem.byte q) → ∀ p, SchemaStored m p (listSchema env t nl fmt box) → ∀ d,
      SchemaAt m d p ⟨some str, some [], false, flagsOf nl, 1#64, some [some kid], false, some (some no)⟩ := by
    intro m hlits hm' p hp d
    have hfld := fields m hlits (fun q hq => (hm' q ((hd.new q).2 (.inr (.inl hq)))).trans (hd.stringAt q hq)) p hp
    obtain ⟨_, _, _, _, _, h6, _⟩ := hp
    cases d with
    | zero => exact hfld
    | succ d =>
      refine ⟨hfld, _, ?_, h6, ?_⟩
      · simp only [listSchema]; have := hd.box0; omega
      · intro i hi
        obtain rfl : i = 0 := Nat.lt_one_iff.1 hi
        have hbs : ∀ {o k : Nat}, o + k ≤ (env.schema t).size → ∀ i, i < k →
            m.byte (box + o + i) = h'.mem.byte (box + o + i) :=
          fun ho i hi => hm' _ ((hd.new _).2 (.inl ⟨by omega, by omega⟩))
        refine ⟨box + (env.schema t).children, by have := hd.box0; omega, ?_, ?_⟩
        · exact words_at (BytesAt.same' hd.pointerAt (m' := m) fun i hi => by
            rw [words_length] at hi
            exact hbs (k := 8) i3 i hi) (by
              intro v hv
              rw [List.mem_singleton.1 hv]; omega) 0 (by show _ < 1; omega)
        · refine hk.structure_ m hlits (fun q hq => (hm' q ((hd.new q).2 (.inr (.inr hq)))).trans (hd.kids q hq).1) _
            (schemaStored_of_bytes (BytesAt.same' hd.childAt fun i hi => hbs (k := 72) i2 i (by omega)) hk.small) d
  have free : ∀ H p, Carries h h' H → SchemaStored H.mem p (listSchema env t nl fmt box) →
      (∀ q, New h h' q → ¬ InBlock p 72 q) → ∃ H', releaseSchema env t p H = .ok H' ∧ Freed h h' p 72 H H' ∧
        Holds H'.mem (p + 56) 0 ∧ H'.dropped = H.dropped := by
    intro H p hcar hst hp
    rw [hr]
    refine releaseSchemaData_ok hd hl hfmt ?_ hcar hst rfl hp
    intro H hc hb
    have hst' := schemaStored_of_bytes hb hk.small
    obtain ⟨H', w, f, _, dr⟩ := hk.free H _ hc hst' fun q hq hin => hd.kidsBox q hq
      ⟨by unfold InBlock at hin; omega, by unfold InBlock at hin; omega⟩
    refine ⟨H', ?_, f, dr⟩
    rw [hdrop, dropSchema, readWord_ok hst'.2.2.2.2.2.2.2.1, Ex.bind_ok, if_neg hk.release.1, if_pos hk.release.2, w]
  refine ⟨hd.grew, small, ⟨(hrel t).1, rfl⟩, reads, ?_, free, ?_⟩
  · intro m hm' p hp h8 d
    obtain ⟨_, _, _, _, h5, h6, _⟩ := hp
    have hp8 := aligned_add hd.boxA hl.aligned.1 hl.aligned.2.2
    have hc8 := aligned_add hd.boxA hl.aligned.1 hl.aligned.2.1
    have hbs : ∀ {o k : Nat}, o + k ≤ (env.schema t).size → ∀ i, i < k →
        m.byte (box + o + i) = h'.mem.byte (box + o + i) :=
      fun ho i hi => hm' _ ((hd.new _).2 (.inl ⟨by omega, by omega⟩))
    have h0 : AlignedSchemaFields m p := ⟨h8, _, h6, hp8⟩
    cases d with
    | zero => exact h0
    | succ d =>
      refine ⟨h0, _, _, h5, h6, fun i hi => ?_⟩
      obtain rfl : i = 0 := Nat.lt_one_iff.1 hi
      refine ⟨box + (env.schema t).children, ?_, ?_⟩
      · exact words_at (BytesAt.same' hd.pointerAt (m' := m) fun i hi => by
          rw [words_length] at hi
          exact hbs (k := 8) i3 i hi) (by
            intro v hv
            rw [List.mem_singleton.1 hv]; omega) 0 (by show _ < 1; omega)
      · exact hk.aligned m (fun q hq => (hm' q ((hd.new q).2 (.inr (.inr hq)))).trans (hd.kids q hq).1) _
          (schemaStored_of_bytes (BytesAt.same' hd.childAt fun i hi => hbs (k := 72) i2 i (by omega)) hk.small)
          hc8 d
  · have bare := schema_bare small ⟨(hrel t).1, rfl⟩ reads free
    obtain ⟨ks, hks'⟩ := schemaKinds_cons env t' kid
    have hchain := hk.chain
    rw [hks, show onlyKidSchema ⟨some str, some [], false, flagsOf nl, 1#64, some [some kid], false, some (some no)⟩ = kid from rfl]
    rw [hks'] at hchain ⊢
    refine .link (new' := New h hc) (slot := box + (env.schema t).children) (bytes' := schemaBytes child) bare hd.childAt e2
      ?_ (fun q hq => (hd.new q).2 (.inr (.inr hq))) ?_ (hchain.keep hd.kids) ?_
    · intro q hq
      have hq : InBlock (box + (env.schema t).children) 72 q := hq
      have hin : InBlock box (env.schema t).size q :=
        ⟨by unfold InBlock at hq; omega, by unfold InBlock at hq; omega⟩
      exact ⟨(hd.new q).2 (.inl hin), fun hn => hd.kidsBox q hn hin⟩
    · intro H p ha hb
      have hst := schemaStored_of_bytes hb small
      refine ⟨_, hst.2.2.2.2.2.1, ?_⟩
      exact words_at (BytesAt.same' hd.pointerAt (m' := H.mem) fun i hi => by
        rw [words_length] at hi
        exact (ha _ ((hd.new _).2 (.inl ⟨by omega, by simp only [List.length_singleton] at hi; omega⟩))).1) (by
          intro v hv
          rw [List.mem_singleton.1 hv]; omega) 0 (by show _ < 1; omega)
    · intro H hH
      obtain ⟨h'', child', hn, hc', ⟨small', rel⟩, hd'⟩ := hd.taken hl ht hH
      intro H' p ha hb hp
      have hst := schemaStored_of_bytes hb small
      have hc'' : Carries h h'' H' := fun q hq =>
        ⟨(ha q ((hn q).1 hq)).1.trans (hc' q hq).1, (ha q ((hn q).1 hq)).2.trans (hc' q hq).2⟩
      refine ⟨fun hlits => fields H'.mem hlits (fun q hq => ?_) p hst, ?_⟩
      · rw [(hc'' q ((hd'.new q).2 (.inr (.inl hq)))).1, hd'.stringAt q hq]
      obtain ⟨H1, w, f, z, dr⟩ := releaseSchemaData_ok hd' hl hfmt (drop := drop) (fun H _ hb => by
          have hst := schemaStored_of_bytes hb small'
          refine ⟨H, ?_, ⟨fun q hq => absurd hq.1 hq.2, fun _ _ _ => rfl, fun _ _ => rfl, full_of_schema hst⟩, rfl⟩
          rw [hdrop, dropSchema, readWord_ok hst.2.2.2.2.2.2.2.1, rel]; rfl)
        hc'' hst rfl (fun q hq => hp q ((hn q).1 hq))
      refine ⟨H1, ?_, f.emptied.congr hn, z, [], by rw [dr, List.append_nil], rfl⟩
      show dropSchema _ _ _ _ = _
      rw [dropSchema, readWord_ok hst.2.2.2.2.2.2.2.1, Ex.bind_ok]
      simp only [listSchema]
      rw [if_neg (hrel t).1, if_pos trivial, hr, w]

theorem schema_ok {env : Env} (hlit : ∀ s ∈ literals, env.literal s ≠ 0 ∧ env.literal s < 2 ^ 64)
    (hrel : ∀ t, env.releaseSchema t ≠ 0 ∧ env.releaseSchema t < 2 ^ 64)
    (hfld : ∀ t, SchemaDataFields (env.schema t) (match t with | .fsl _ _ _ => 16 | _ => 0)) :
    ∀ (t : Ty) (nl : Bool) (h : Heap) (next : Nat), Tidy h →
    schemaIn env t nl h = .abort ∨
    ∃ raw h', schemaIn env t nl h = .ok (raw, h') ∧ SchemaOk env t h (schemaOf t nl next).1 raw h'
  | .bool, nl, h, _, ht => .inr ⟨_, h, rfl, flat_ok hlit hrel (by decide) rfl ht (fun _ => rfl) rfl⟩
  | .prim p, nl, h, _, ht => .inr ⟨_, h, rfl, flat_ok hlit hrel (format_literal p) rfl ht (fun _ => rfl) rfl⟩
  | .fsl n nl' t, nl, h, next, ht => by
    unfold schemaIn
    rcases schema_ok hlit hrel hfld t nl' h next ht with e | ⟨child, hc, e, hk⟩
    · left; rw [e]; rfl
    rw [e, Ex.bind_ok]
    simp only
    rcases alloc_ok env hc 1 (widthFormat n ++ [0#8]) with e | ⟨f, hf, e, _, hf0, hfm, hfree, _, hs, hb, hF, hkb, hdr⟩
    · left; rw [e]; rfl
    rw [e, Ex.bind_ok]
    simp only
    have hlen : (widthFormat n ++ [0#8]).length = (widthFormat n).length + 1 := by
      rw [List.length_append, List.length_singleton]
    rw [hlen] at hfm hfree hs hF hkb
    rcases schemaBox_ok env (child := child) (format := [f, (widthFormat n).length + 1])
      (lay := env.schema (.fsl n nl' t)) (hfld (.fsl n nl' t)) hk.grew hfree hs hF
      (fun q => by
        rw [hkb]
        by_cases hq : q = f
        · rw [if_pos hq, if_pos ⟨by omega, hq⟩]
        · rw [if_neg hq, if_neg fun h => hq h.2]) hdr ht with e | ⟨box, h', e, hd⟩
    · left; rw [e]; rfl
    refine .inr ⟨_, h', by rw [e]; rfl, ?_⟩
    have hb' := byteMax_lt
    refine list_ok hk hd (hfld (.fsl n nl' t)) (fun _ => ⟨rfl, hfm⟩) hrel hlit ⟨hf0, by omega⟩ ?_ rfl ?_ ht fun _ => rfl
    · intro m _ hm
      have hbm : BytesAt m f (widthFormat n ++ [0#8]) :=
        BytesAt.same' hb fun i hi => hm _ ⟨by omega, by omega⟩
      refine ⟨fun i hi => ⟨width_chars n _ (List.getElem_mem hi), hbm.left i hi⟩, ?_⟩
      exact hbm.right 0 (by show 0 < 1; omega)
    · rw [decide_eq_true (by omega)]; rfl
  | .vsl ow nl' t, nl, h, next, ht => by
    unfold schemaIn
    rcases schema_ok hlit hrel hfld t nl' h next ht with e | ⟨child, hc, e, hk⟩
    · left; rw [e]; rfl
    rw [e, Ex.bind_ok]
    simp only
    rcases schemaBox_ok env (child := child) (format := []) (f := 0) (n := 0) (hf := hc)
      (lay := env.schema (.vsl ow nl' t)) (hfld (.vsl ow nl' t)) hk.grew (fun i hi => absurd hi (Nat.not_lt_zero _))
      (fun _ _ => rfl) (fun i hi => absurd hi (Nat.not_lt_zero _))
      (fun q => (if_neg fun h => h.1 rfl).symm) rfl ht with e | ⟨box, h', e, hd⟩
    · left; rw [e]; rfl
    refine .inr ⟨_, h', by rw [e]; rfl, ?_⟩
    refine list_ok hk hd (hfld (.vsl ow nl' t)) (fun h => absurd rfl h) hrel hlit (hlit _ (offset_literal ow)) ?_ rfl rfl ht fun _ => rfl
    intro m hl _
    exact hl _ (offset_literal ow)

/-! ## The array itself -/

/-- What an export gave: the array in its box at `q`, and `h3` between the array and
the schema. -/
structure RootOk (env : Env) (nl : Bool) (t : Ty) (owner : List Byte) (align : Nat) (h : Heap) (q : Nat)
    (array : CArray) (schema : CSchema) (ra : RawArray) (rs : RawSchema) (h3 h' : Heap) : Prop where
  q0 : q ≠ 0
  qA : q % align = 0
  qM : q + owner.length ≤ byteMax
  ownerAt : BytesAt h3.mem q owner
  ownerNew : ∀ i, InBlock q owner.length i → h.mem.byte i = none
  grew : Grew h h3
  structure_ : ∀ m : Mem, (∀ q, New h h3 q → m.byte q = h3.mem.byte q) → ∀ p, ArrayStored m p ra →
    ∀ d, ArrayAt m d p array
  aligned : ∀ m : Mem, (∀ q, New h h3 q → m.byte q = h3.mem.byte q) → ∀ p, ArrayStored m p ra →
    p % 8 = 0 → ∀ d, AlignedArray m d p
  small : SmallA ra
  release : ra.release ≠ 0 ∧ ra.release = env.releaseArray true nl t
  free : ∀ H p, Carries h h3 H → ArrayStored H.mem p ra → (∀ q, New h h3 q → ¬ InBlock p 80 q) →
    ∃ H', releaseArray env t true nl p H = .ok H' ∧ Freed h h3 p 80 H H' ∧ Holds H'.mem (p + 64) 0 ∧
      H'.dropped = H.dropped ++ [(q, owner)]
  schema : SchemaOk env t h3 schema rs h'
  chain : Chain (arrayKinds env t true nl array q owner) (arrayBytes ra) (New h h3) h3

/-- Between `h` and `h'` the array was dropped, at `origin` or after being moved to `q`. -/
structure Undone (owner : List Byte) (origin align q : Nat) (h h' : Heap) : Prop where
  mem : ∀ p, h'.mem.byte p = h.mem.byte p
  blocks : ∀ p, h'.blocks p = h.blocks p
  dropped : h'.dropped = h.dropped ++ [(origin, owner)] ∨
    q % align = 0 ∧ h'.dropped = h.dropped ++ [(q, owner)]

/-- In memory the same happens as to the tree. -/
def Exported (env : Env) (nl : Bool) (t : Ty) (owner : List Byte) (origin align : Nat) (h : Heap) (q : Nat)
    (tree : Res (Except ExportError (CArray × CSchema))) (raw : Ex ((RawArray × RawSchema) × Heap)) : Prop :=
  match tree with
  | .panic => raw = .panic
  | .ok (.error e) => ∃ h', raw = .err e h' ∧ Undone owner origin align q h h'
  | .ok (.ok (array, schema)) => ∃ ra rs h3 h', raw = .ok ((ra, rs), h') ∧
      RootOk env nl t owner align h q array schema ra rs h3 h'

theorem dropFresh_ok {env : Env} {t : Ty} {lay : DataLayout} {box : Nat} {owner : List Byte} {h : Heap}
    (ho : lay.ownerSize = owner.length)
    (hc : BytesAt h.mem (box + lay.children) ((List.replicate (childSlots t) defaultArray).flatMap arrayBytes))
    (hp : BytesAt h.mem (box + lay.pointers) (words [0, 8, 0])) (hq : BytesAt h.mem (box + lay.owner) owner)
    (hb : h.blocks box = some lay.size) :
    ∃ H, dropData lay true (dropChildren env t) box h = .ok H ∧
      (∀ q, InBlock box lay.size q → H.mem.byte q = none) ∧
      (∀ q, ¬ InBlock box lay.size q → H.mem.byte q = h.mem.byte q) ∧
      (∀ q, H.blocks q = if q = box then none else h.blocks q) ∧
      H.dropped = h.dropped ++ [(box + lay.owner, owner)] := by
  have hk : dropChildren env t (box + lay.children) h = .ok h := by
    have key : childSlots t = 1 → readWord h (box + lay.children + 64) = .ok 0 := by
      intro e
      rw [e] at hc
      have : BytesAt h.mem (box + lay.children) (arrayBytes defaultArray) := by simpa using hc
      have hs := stored_of_bytes this (by refine ⟨?_, ?_, ?_, ?_, ?_⟩ <;> decide)
      exact readWord_ok hs.2.2.2.2.2.2.2.2.1
    cases t with
    | bool => rfl
    | prim _ => rfl
    | fsl n nl t => show dropArray _ _ _ _ = _; rw [dropArray, key rfl]; rfl
    | vsl ow nl t => show dropArray _ _ _ _ = _; rw [dropArray, key rfl]; rfl
  have p0 : readWord h (box + lay.pointers) = .ok 0 := readWord_ok (words_at hp (by decide) 0 (by decide))
  have hr : h.mem.read (box + lay.owner) lay.ownerSize = some owner := by rw [ho]; exact read_bytes hq
  obtain ⟨H, w, g, m, k, d⟩ := free_ok (h := ⟨h.mem, h.blocks, h.count, h.dropped ++ [(box + lay.owner, owner)]⟩) hb
  refine ⟨H, ?_, g, m, k, d⟩
  unfold dropData
  rw [hk, Ex.bind_ok]
  unfold dropPointers
  rw [p0, Ex.bind_ok, if_pos rfl, Ex.bind_ok]
  unfold dropOwner
  rw [if_pos rfl, hr]
  exact w

theorem root_ok {env : Env} {nl : Bool} {t : Ty} {c : (arrayR nl t).C} {owner : List Byte} {align : Nat}
    {a : Nat → APlace nl t} {h : Heap} (hP : Provided env h.mem nl t owner.length align)
    (hO : Owned h.mem nl t c owner align a) (ht : Tidy h) (origin next : Nat) :
    exportAt env nl t c owner origin a h = .abort ∨
    ∃ q, Exported env nl t owner origin align h q (exportArray nl t c (a q) next).result
      (exportAt env nl t c owner origin a h) := by
  unfold exportAt
  by_cases ho : offsetOf nl t c ≠ 0
  · right
    refine ⟨0, ?_⟩
    rw [if_pos ho]
    unfold exportArray
    rw [if_pos ho]
    exact ⟨_, rfl, fun _ => rfl, fun _ => rfl, .inl rfl⟩
  rw [if_neg ho]
  have hl := hP.root
  have hl0 : DataFields (env.data true nl t) (List.replicate (buffersOf nl t c (a 0)).length 0).length
      (List.replicate (childSlots t) defaultArray).length owner.length := by
    rw [List.length_replicate, List.length_replicate, buffersOf_length]
    cases t <;> exact hl
  rcases newData_ok env (owner := owner) (buffers := List.replicate (buffersOf nl t c (a 0)).length 0)
    (children := List.replicate (childSlots t) defaultArray) h hl0 with
    e | ⟨box, hb, e, hal, hb0, hbm, hfree, hsame, hfull, _, bc, bp, b3, k, d⟩
  · left; rw [e]; rfl
  obtain ⟨i1, i2, i3, i4⟩ := hl.inside
  have hq0 : box + (env.data true nl t).owner ≠ 0 := by omega
  have hqA := aligned_add hal hP.rootAligned.1 hP.rootAligned.2
  have hqM : box + (env.data true nl t).owner + owner.length ≤ byteMax := by omega
  have hnone : ∀ q, InBlock box (env.data true nl t).size q → h.mem.byte q = none := by
    intro q hq
    have := hfree (q - box) (by unfold InBlock at hq; omega)
    rwa [Nat.add_sub_cancel' hq.1] at this
  have hext : Extends h.mem hb.mem := by
    intro q b hq
    rw [hsame q fun hin => by rw [hnone q hin] at hq; cases hq]
    exact hq
  have hs := (hO hb.mem _ hext hq0 hqA hqM b3).2
  rw [e, Ex.bind_ok]
  simp only
  have hlb : (buffersOf nl t c (a (box + (env.data true nl t).owner))).length = buffersIn t := buffersOf_length _ _ _ _
  have ew := words_length (buffersOf nl t c (a (box + (env.data true nl t).owner)))
  rw [hlb] at ew
  obtain ⟨h1, w1, s1, b1, f1, k1, d1⟩ := write_ok
    (l := words (buffersOf nl t c (a (box + (env.data true nl t).owner)))) (p := (env.data true nl t).buffers)
    hfull (by omega)
  rw [w1, Ex.bind_ok]
  have hbb : InBlock box (env.data true nl t).size box := ⟨Nat.le_refl _, by omega⟩
  have h01 : ∀ q, ¬ InBlock box (env.data true nl t).size q → h1.mem.byte q = h.mem.byte q := by
    intro q hq
    rw [s1 q, hsame q hq]
    intro hin
    exact hq ⟨by omega, by omega⟩
  have full1 : ∀ q, InBlock box (env.data true nl t).size q → h1.mem.byte q ≠ none := by
    intro q hq hn
    have := f1 (q - box) (by unfold InBlock at hq; omega)
    rw [Nat.add_sub_cancel' hq.1, hn] at this
    cases this
  have ht1 : Tidy h1 := by
    intro q hq
    have hnb : ¬ InBlock box (env.data true nl t).size q := fun hin => full1 q hin hq
    rw [k1, k, if_neg (by rintro rfl; exact hnb hbb)]
    rw [h01 q hnb] at hq
    exact ht q hq
  have hkids := children_ok hP.child hP.releaseArray t nl c (a (box + (env.data true nl t).owner)) h1 (next + 1) ht1 hs
  by_cases habort : (childrenAt env t nl c (a (box + (env.data true nl t).owner)) h1) = .abort
  · left; rw [habort]; rfl
  have eD := flatMap_length arrayBytes_length (List.replicate (childSlots t) defaultArray)
  rw [List.length_replicate] at eD
  have eC : childSlots t = childrenIn t := by cases t <;> rfl
  unfold exportArray
  cases htree : childrenOf t nl c (a (box + (env.data true nl t).owner)) (next + 1) with
  | panic =>
    rw [htree] at hkids
    right
    refine ⟨box + (env.data true nl t).owner, ?_⟩
    rw [if_neg ho, htree]
    rw [show childrenAt env t nl c (a (box + (env.data true nl t).owner)) h1 = .panic from hkids]
    rfl
  | ok r =>
    rw [htree] at hkids
    cases r with
    | error e =>
      right
      refine ⟨box + (env.data true nl t).owner, ?_⟩
      rw [if_neg ho, htree]
      rw [show childrenAt env t nl c (a (box + (env.data true nl t).owner)) h1 = .err e h1 from hkids]
      obtain ⟨H, w, gone, same, kept, dr⟩ := dropFresh_ok (env := env) (t := t) (owner := owner) (box := box)
        (lay := env.data true nl t) (h := h1) hl.ownerSize
        (BytesAt.same bc s1 (.inr (by rw [ew, eD, eC]; exact hl.buffersChildren)))
        (BytesAt.same bp s1 (.inr (by rw [ew]; exact hl.buffersPointers)))
        (BytesAt.same b3 s1 (.inr (by rw [ew]; exact hl.buffersOwner)))
        (by rw [k1, k, if_pos rfl])
      refine ⟨H, by simp only [Ex.orDrop, w, Ex.bind_ok]; rfl, fun q => ?_, fun q => ?_, .inr ⟨hqA, by rw [dr, d1, d]⟩⟩
      · by_cases hq : InBlock box (env.data true nl t).size q
        · rw [gone q hq, hnone q hq]
        · rw [same q hq, h01 q hq]
      · rw [kept]
        by_cases hq : q = box
        · rw [if_pos hq, hq, ht _ (hnone _ hbb)]
        · rw [if_neg hq, k1, k, if_neg hq]
    | ok r =>
      obtain ⟨kids, next'⟩ := r
      rcases hkids with hk | ⟨raws, h2, hk, hko⟩
      · exact absurd hk habort
      rw [hk, show ∀ x : List RawArray × Heap, (Ex.ok x).orDrop
        (dropData (env.data true nl t) true (dropChildren env t) box) = .ok x from fun _ => rfl, Ex.bind_ok]
      simp only
      have hl' : DataFields (env.data true nl t) (buffersOf nl t c (a (box + (env.data true nl t).owner))).length
          raws.length owner.length := by rw [hlb, hko.slots]; exact hl
      have e2 := flatMap_length arrayBytes_length raws
      rw [hko.slots] at e2
      have f2 : Full h2.mem box (env.data true nl t).size := by
        intro i hi
        obtain ⟨b, hb⟩ := Option.isSome_iff_exists.1 (f1 i hi)
        rw [hko.grew.ext _ _ hb]; rfl
      obtain ⟨hx, w2, s2, b2, fx, k2, d2⟩ := write_ok (l := raws.flatMap arrayBytes)
        (p := (env.data true nl t).children) f2 (by omega)
      rw [w2, Ex.bind_ok]
      have hkb : ∀ q, New h1 h2 q → ¬ InBlock box (env.data true nl t).size q := fun q hq hin => full1 q hin hq.1
      have x12 : ∀ {q}, InBlock box (env.data true nl t).size q → h2.mem.byte q = h1.mem.byte q := by
        intro q hq
        cases hc : h1.mem.byte q with
        | none => exact absurd hc (full1 q hq)
        | some b => exact hko.grew.ext q b hc
      have bB : BytesAt hx.mem (box + (env.data true nl t).buffers)
          (words (buffersOf nl t c (a (box + (env.data true nl t).owner)))) := by
        refine BytesAt.same (BytesAt.same' b1 fun i hi => x12 ⟨by omega, by omega⟩) s2 (.inl ?_)
        rw [ew, e2]; exact hl.buffersChildren
      have bO : BytesAt hx.mem (box + (env.data true nl t).owner) owner := by
        refine BytesAt.same (BytesAt.same' (b3.same s1 (.inr ?_)) fun i hi => x12 ⟨by omega, by omega⟩) s2 (.inr ?_)
        · rw [ew]; exact hl.buffersOwner
        · rw [e2]; exact hl.childrenOwner
      rcases dataOk_of env (raws := raws) (buffers := buffersOf nl t c (a (box + (env.data true nl t).owner)))
        (owner := owner) (h := h) (h1 := h1) (h2 := h2) (hx := hx) hl' hal hb0 hbm hfree h01 hkb hko.grew.ext
        (fun q hq => s2 q fun hin => hq ⟨by omega, by omega⟩) fx bB b2 bO
        (by rw [k2, hko.grew.old _ (fun hn => hkb _ hn hbb), k1, k, if_pos rfl])
        (fun q hq => by rw [k2])
        (fun q hq hne => by rw [k2, hko.grew.old _ hq, k1, k, if_neg hne]) ht
        (by rw [d2, hko.grew.dropped, d1, d]) with e' | ⟨table, h3, e', hd⟩
      · left; rw [e']; rfl
      rw [e', Ex.bind_ok]
      simp only
      cases hlen : ((arrayR nl t).len c).bind toI64 with
      | panic =>
        right
        refine ⟨box + (env.data true nl t).owner, ?_⟩
        rw [if_neg ho, htree]
        rfl
      | ok length =>
        cases hnc : nullCountOf nl t c with
        | panic =>
          right
          refine ⟨box + (env.data true nl t).owner, ?_⟩
          rw [if_neg ho, htree]
          rfl
        | ok nullCount =>
          simp only [Ex.ofRes, Ex.bind_ok]
          rcases schema_ok (fun s hs => ⟨(hP.literal s hs).1, (hP.literal s hs).2.1⟩) hP.releaseSchema hP.schema t nl
            h3 next' hd.grew.tidy with e'' | ⟨rs, h', e'', hsch⟩
          · left; rw [e'']; rfl
          right
          refine ⟨box + (env.data true nl t).owner, ?_⟩
          rw [if_neg ho, htree]
          refine ⟨_, rs, h3, h', by rw [e'', Ex.bind_ok], hq0, hqA, hqM, hd.ownerAt,
            (fun i hi => hnone i ⟨by unfold InBlock at hi; omega, by unfold InBlock at hi; omega⟩), hd.grew,
            hd.structure_ hko hl' (buffersOf_ne nl t c _) (buffers_small nl t hs) (hP.releaseArray true nl t).1,
            hd.aligned hko hl', hd.small hl' (hP.releaseArray true nl t).2,
            ⟨(hP.releaseArray true nl t).1, rfl⟩, ?_, hsch,
            hd.chain hko hl' ht (buffersOf_ne nl t c _) (buffers_small nl t hs) (hP.releaseArray true nl t)⟩
          intro H p hc hst hp
          obtain ⟨H', w, f, z, dr⟩ := releaseData_ok hd hl' (children := dropChildren env t)
            (fun H hc hb => hko.free _ H hc hb fun q hq hin => hd.kidsBox q hq
              ⟨by unfold InBlock at hin; omega, by have := hl'.inside.2.1; unfold InBlock at hin; omega⟩)
            hc hst rfl hp true
          exact ⟨H', by rw [releaseArray_eq]; exact w, f, z, by simpa using dr⟩

/-! ## Releasing both -/

theorem new_split {h h3 h' : Heap} (g : Grew h h3) (g' : Grew h3 h') (q : Nat) :
    New h h' q ↔ New h h3 q ∨ New h3 h' q := by
  constructor
  · rintro ⟨h1, h2⟩
    by_cases hn : h3.mem.byte q = none
    · exact .inr ⟨hn, h2⟩
    · exact .inl ⟨h1, hn⟩
  · rintro (⟨h1, h2⟩ | ⟨h1, h2⟩)
    · refine ⟨h1, ?_⟩
      obtain ⟨b, hb⟩ := Option.ne_none_iff_exists'.1 h2
      rw [g'.ext q b hb]; nofun
    · refine ⟨?_, h2⟩
      cases hc : h.mem.byte q with
      | none => rfl
      | some b => rw [g.ext q b hc] at h1; cases h1

theorem carries_left {h h3 h' H : Heap} (g : Grew h h3) (g' : Grew h3 h') (hc : Carries h h' H) : Carries h h3 H := by
  intro q hq
  obtain ⟨h1, h2⟩ := hc q ((new_split g g' q).2 (.inl hq))
  obtain ⟨b, hb⟩ := Option.ne_none_iff_exists'.1 hq.2
  rw [h1, h2, g'.ext q b hb, hb, g'.old q fun h => hq.2 h.1]
  exact ⟨rfl, rfl⟩

theorem carries_right {h h3 h' H : Heap} (g : Grew h h3) (g' : Grew h3 h') (hc : Carries h h' H) : Carries h3 h' H :=
  fun q hq => hc q ((new_split g g' q).2 (.inr hq))

theorem new_apart {h h3 h' : Heap} {q : Nat} (h1 : New h h3 q) (h2 : New h3 h' q) : False := h1.2 h2.1

theorem stored_same {m m' : Mem} {p : Nat} {r : RawArray} (h : ArrayStored m p r)
    (hs : ∀ q, InBlock p 80 q → m'.byte q = m.byte q) : ArrayStored m' p r := by
  obtain ⟨h0, h1, h2, h3, h4, h5, h6, h7, h8, h9⟩ := h
  have key : ∀ {k v}, k + 8 ≤ 80 → Holds m (p + k) v → Holds m' (p + k) v := fun hk hv =>
    Holds.same hv fun i hi => hs _ ⟨by omega, by omega⟩
  exact ⟨key (k := 0) (by omega) h0, key (by omega) h1, key (by omega) h2, key (by omega) h3, key (by omega) h4,
    key (by omega) h5, key (by omega) h6, key (by omega) h7, key (by omega) h8, key (by omega) h9⟩

theorem schema_same {m m' : Mem} {p : Nat} {r : RawSchema} (h : SchemaStored m p r)
    (hs : ∀ q, InBlock p 72 q → m'.byte q = m.byte q) : SchemaStored m' p r := by
  obtain ⟨h0, h1, h2, h3, h4, h5, h6, h7, h8⟩ := h
  have key : ∀ {k v}, k + 8 ≤ 72 → Holds m (p + k) v → Holds m' (p + k) v := fun hk hv =>
    Holds.same hv fun i hi => hs _ ⟨by omega, by omega⟩
  exact ⟨key (k := 0) (by omega) h0, key (by omega) h1, key (by omega) h2, key (by omega) h3, key (by omega) h4,
    key (by omega) h5, key (by omega) h6, key (by omega) h7, key (by omega) h8⟩

theorem RootOk.array_first {env : Env} {nl : Bool} {t : Ty} {owner : List Byte} {align : Nat} {h : Heap} {q : Nat}
    {array : CArray} {schema : CSchema} {ra : RawArray} {rs : RawSchema} {h3 h' H : Heap} {p s : Nat}
    (hr : RootOk env nl t owner align h q array schema ra rs h3 h') (hh : Handed h h' H p s ra rs) :
    ∃ H1 H2, releaseArray env t true nl p H = .ok H1 ∧ releaseSchema env t s H1 = .ok H2 ∧
      Released h h' p s H H2 ∧ H2.dropped = H.dropped ++ [(q, owner)] ∧ Freed h h3 p 80 H H1 ∧
      Carries h3 h' H1 ∧ SchemaStored H1.mem s rs := by
  have g := hr.grew
  have g' := hr.schema.grew
  have sp := new_split g g'
  obtain ⟨H1, w1, f1, z1, d1⟩ := hr.free H p (carries_left g g' hh.carries) hh.array
    fun q hq => hh.arrayApart q ((sp q).2 (.inl hq))
  have c1 : Carries h3 h' H1 := by
    intro q hq
    rw [f1.mem q (fun h => new_apart h hq) (hh.arrayApart q ((sp q).2 (.inr hq))), f1.blocks q fun h => new_apart h hq]
    exact carries_right g g' hh.carries q hq
  have s1 : SchemaStored H1.mem s rs := schema_same hh.schema fun q hq =>
    f1.mem q (fun hn => hh.schemaApart q ((sp q).2 (.inl hn)) hq) fun hp => hh.apart q hp hq
  obtain ⟨H2, w2, f2, z2, d2⟩ := hr.schema.free H1 s c1 s1 fun q hq => hh.schemaApart q ((sp q).2 (.inr hq))
  refine ⟨H1, H2, w1, w2, ⟨?_, ?_, ?_, ?_, z2⟩, by rw [d2, d1], f1, c1, s1⟩
  · intro q hq
    rcases (sp q).1 hq with hq' | hq'
    · rw [f2.mem q (fun h => new_apart hq' h) (hh.schemaApart q hq), f2.blocks q fun h => new_apart hq' h]
      exact f1.gone q hq'
    · exact f2.gone q hq'
  · intro q hq hp hs
    rw [f2.mem q (fun h => hq ((sp q).2 (.inr h))) hs, f1.mem q (fun h => hq ((sp q).2 (.inl h))) hp]
  · intro q hq
    rw [f2.blocks q fun h => hq ((sp q).2 (.inr h)), f1.blocks q fun h => hq ((sp q).2 (.inl h))]
  · refine Holds.same z1 fun i hi => f2.mem _ (fun h => hh.arrayApart _ ((sp _).2 (.inr h)) ⟨by omega, by omega⟩)
      (hh.apart _ ⟨by omega, by omega⟩)

theorem RootOk.schema_first {env : Env} {nl : Bool} {t : Ty} {owner : List Byte} {align : Nat} {h : Heap} {q : Nat}
    {array : CArray} {schema : CSchema} {ra : RawArray} {rs : RawSchema} {h3 h' H : Heap} {p s : Nat}
    (hr : RootOk env nl t owner align h q array schema ra rs h3 h') (hh : Handed h h' H p s ra rs) :
    ∃ H1 H2, releaseSchema env t s H = .ok H1 ∧ releaseArray env t true nl p H1 = .ok H2 ∧
      Released h h' p s H H2 ∧ H2.dropped = H.dropped ++ [(q, owner)] ∧ Freed h3 h' s 72 H H1 ∧
      Carries h h3 H1 ∧ ArrayStored H1.mem p ra := by
  have g := hr.grew
  have g' := hr.schema.grew
  have sp := new_split g g'
  obtain ⟨H1, w1, f1, z1, d1⟩ := hr.schema.free H s (carries_right g g' hh.carries) hh.schema
    fun q hq => hh.schemaApart q ((sp q).2 (.inr hq))
  have c1 : Carries h h3 H1 := by
    intro q hq
    rw [f1.mem q (fun h => new_apart hq h) (hh.schemaApart q ((sp q).2 (.inl hq))), f1.blocks q fun h => new_apart hq h]
    exact carries_left g g' hh.carries q hq
  have s1 : ArrayStored H1.mem p ra := stored_same hh.array fun q hq =>
    f1.mem q (fun hn => hh.arrayApart q ((sp q).2 (.inr hn)) hq) (hh.apart q hq)
  obtain ⟨H2, w2, f2, z2, d2⟩ := hr.free H1 p c1 s1 fun q hq => hh.arrayApart q ((sp q).2 (.inl hq))
  refine ⟨H1, H2, w1, w2, ⟨?_, ?_, ?_, z2, ?_⟩, by rw [d2, d1], f1, c1, s1⟩
  · intro q hq
    rcases (sp q).1 hq with hq' | hq'
    · exact f2.gone q hq'
    · rw [f2.mem q (fun h => new_apart h hq') (hh.arrayApart q hq), f2.blocks q fun h => new_apart h hq']
      exact f1.gone q hq'
  · intro q hq hp hs
    rw [f2.mem q (fun h => hq ((sp q).2 (.inl h))) hp, f1.mem q (fun h => hq ((sp q).2 (.inr h))) hs]
  · intro q hq
    rw [f2.blocks q fun h => hq ((sp q).2 (.inl h)), f1.blocks q fun h => hq ((sp q).2 (.inr h))]
  · refine Holds.same z1 fun i hi => f2.mem _ (fun h => hh.schemaApart _ ((sp _).2 (.inl h)) ⟨by omega, by omega⟩)
      (fun h => hh.apart _ h ⟨by omega, by omega⟩)

/-! ## Arrays in more memory -/

theorem read_mono {m m' : Mem} (h : Extends m m') : ∀ {n p : Nat} {l : List Byte}, m.read p n = some l →
    m'.read p n = some l
  | 0, _, _, e => e
  | n + 1, p, l, e => by
    obtain ⟨b, hb, e⟩ := Option.bind_eq_some_iff.1 e
    obtain ⟨l', hl, e⟩ := Option.map_eq_some_iff.1 e
    show (m'.byte p).bind _ = _
    rw [h p b hb, Option.bind_some, read_mono h hl]
    exact congrArg some e

theorem slice_mono {m m' : Mem} (h : Extends m m') {k : Nat} : ∀ {n p : Nat} {l : List (BitVec (8 * k))},
    m.slice k p n = some l → m'.slice k p n = some l
  | 0, _, _, e => e
  | n + 1, p, l, e => by
    obtain ⟨b, hb, e⟩ := Option.bind_eq_some_iff.1 e
    obtain ⟨l', hl, e⟩ := Option.map_eq_some_iff.1 e
    show (m'.read p k).bind _ = _
    rw [read_mono h hb, Option.bind_some, slice_mono h hl]
    exact congrArg some e

theorem nullable_mono {m m' : Mem} (h : Extends m m') {O : Type} (R : Realloc O) {P : Type}
    {base base' : R.C → P → Prop} (hb : ∀ c a, base c a → base' c a) :
    ∀ (nl : Bool) (c : (nullR nl R).C) (a : NPlace nl P), NullableAt m R base nl c a → NullableAt m' R base' nl c a
  | false, c, a, ha => hb c a ha
  | true, (v : Validity R.C), (a : P × Option Nat), ha => by
    refine ⟨hb _ _ ha.1, ?_⟩
    have h2 : ValidityAt m v.bitmap a.2 := ha.2
    show ValidityAt m' v.bitmap a.2
    revert h2
    cases v.bitmap with
    | none => exact fun _ => trivial
    | some b =>
      cases a.2 with
      | none => exact id
      | some a => exact fun h2 => ⟨h2.1, read_mono h h2.2⟩

theorem base_mono {m m' : Mem} (h : Extends m m') : ∀ (t : Ty) (c : (baseR t).C) (a : Place t),
    BaseAt m t c a → BaseAt m' t c a
  | .bool, _, _, ha => ⟨ha.1, read_mono h ha.2⟩
  | .prim _, _, _, ha => ⟨ha.1, ha.2.1, slice_mono h ha.2.2⟩
  | .fsl _ nl t, c, a, ha => nullable_mono h (baseR t) (base_mono h t) nl _ _ ha
  | .vsl ow nl t, c, a, ha => by
    obtain ⟨⟨h1, h2, h3⟩, h4⟩ := ha
    refine ⟨⟨h1, h2, ?_⟩, nullable_mono h (baseR t) (base_mono h t) nl _ _ h4⟩
    obtain ⟨l, hl, e⟩ := Option.map_eq_some_iff.1 h3
    rw [slice_mono h hl]
    exact congrArg some e

theorem inMemory_mono {m m' : Mem} (h : Extends m m') {nl : Bool} {t : Ty} {c : (arrayR nl t).C} {a : APlace nl t}
    (hm : InMemory m nl t c a) : InMemory m' nl t c a := nullable_mono h (baseR t) (base_mono h t) nl c a hm

/-! ## Failures do not depend on where the buffers are -/

/-- The outcome without what was made. -/
def kind {α : Type} : Res (Except ExportError α) → Res (Except ExportError Unit)
  | .panic => .panic
  | .ok (.error e) => .ok (.error e)
  | .ok (.ok _) => .ok (.ok ())

theorem kind_one {r r' : Built CArray} (h : kind r = kind r') :
    kind (r.map fun x => match x with
      | .error e => (.error e : Except ExportError (List CArray × Nat))
      | .ok (kid, next') => .ok ([kid], next')) =
    kind (r'.map fun x => match x with
      | .error e => (.error e : Except ExportError (List CArray × Nat))
      | .ok (kid, next') => .ok ([kid], next')) := by
  match r, r', h with
  | .panic, .panic, _ => rfl
  | .ok (.error e), .ok (.error e'), h => exact h
  | .ok (.ok _), .ok (.ok _), _ => rfl

theorem kind_childArray {nl : Bool} {t : Ty} {c : (arrayR nl t).C} {a a' : APlace nl t} {r r' : Built (List CArray)}
    (h : kind r = kind r') : kind (childArray nl t c a r) = kind (childArray nl t c a' r') := by
  unfold childArray
  split
  · rfl
  · cases ((arrayR nl t).len c).bind toI64 with
    | panic => rfl
    | ok length =>
      cases nullCountOf nl t c with
      | panic => rfl
      | ok nullCount =>
        match r, r', h with
        | .panic, .panic, _ => rfl
        | .ok (.error e), .ok (.error e'), h => exact h
        | .ok (.ok _), .ok (.ok _), _ => rfl

theorem kind_children : ∀ (t : Ty) (nl : Bool) (c : (arrayR nl t).C) (a a' : APlace nl t) (n n' : Nat),
    kind (childrenOf t nl c a n) = kind (childrenOf t nl c a' n')
  | .bool, _, _, _, _, _, _ => rfl
  | .prim _, _, _, _, _, _, _ => rfl
  | .fsl _ nl' t, nl, c, a, a', n, n' =>
    kind_one
      (kind_childArray (kind_children t nl' (fslChild nl c) (fslPlace nl a) (fslPlace nl a') n n'))
  | .vsl _ nl' t, nl, c, a, a', n, n' =>
    kind_one
      (kind_childArray (kind_children t nl' (vslChild nl c) (vslPlace nl a) (vslPlace nl a') n n'))

theorem kind_export (nl : Bool) (t : Ty) (c : (arrayR nl t).C) (a a' : APlace nl t) (n n' : Nat) :
    kind (exportArray nl t c a n).result = kind (exportArray nl t c a' n').result := by
  unfold exportArray
  split
  · rfl
  · have h := kind_children t nl c a a' (n + 1) (n' + 1)
    match hr : childrenOf t nl c a (n + 1), hr' : childrenOf t nl c a' (n' + 1) with
    | .panic, .panic => rfl
    | .ok (.error e), .ok (.error e') => rw [hr, hr'] at h; exact h
    | .ok (.ok (k, x)), .ok (.ok (k', x')) =>
      simp only
      cases ((arrayR nl t).len c).bind toI64 <;> cases nullCountOf nl t c <;> rfl
    | .panic, .ok (.error e') => rw [hr, hr'] at h; cases h
    | .panic, .ok (.ok (k', x')) => rw [hr, hr'] at h; cases h
    | .ok (.error e), .panic => rw [hr, hr'] at h; cases h
    | .ok (.error e), .ok (.ok (k', x')) => rw [hr, hr'] at h; cases h
    | .ok (.ok (k, x)), .panic => rw [hr, hr'] at h; cases h
    | .ok (.ok (k, x)), .ok (.error e') => rw [hr, hr'] at h; cases h

/-! ## Outcomes -/

theorem exported_root {env : Env} {h : Heap} {nl : Bool} {t : Ty} {c : (arrayR nl t).C} {owner : List Byte} {align origin : Nat}
    {a : Nat → APlace nl t} {h' : Heap} {array : RawArray} {schema : RawSchema}
    (hP : Provided env h.mem nl t owner.length align) (hO : Owned h.mem nl t c owner align a)
    (ht : Tidy h) (next : Nat) (he : exportAt env nl t c owner origin a h = .ok ((array, schema), h')) :
    ∃ q arrayTree schemaTree h3, (exportArray nl t c (a q) next).result = .ok (.ok (arrayTree, schemaTree)) ∧
      RootOk env nl t owner align h q arrayTree schemaTree array schema h3 h' := by
  rcases root_ok hP hO ht origin next with e | ⟨q, e⟩
  · rw [he] at e; cases e
  · unfold Exported at e
    split at e
    · rw [he] at e; cases e
    · obtain ⟨_, e, _⟩ := e
      rw [he] at e; cases e
    · next x y hx =>
      obtain ⟨ra, rs, h3, h'', e, hr⟩ := e
      rw [he] at e
      cases e
      exact ⟨q, x, y, h3, hx, hr⟩

theorem exported_failed {env : Env} {h : Heap} {nl : Bool} {t : Ty} {c : (arrayR nl t).C} {owner : List Byte} {align origin : Nat}
    {a : Nat → APlace nl t} {h' : Heap} {e : ExportError}
    (hP : Provided env h.mem nl t owner.length align) (hO : Owned h.mem nl t c owner align a) (ht : Tidy h)
    (he : exportAt env nl t c owner origin a h = .err e h') :
    (∀ q, h'.mem.byte q = h.mem.byte q ∧ h'.blocks q = h.blocks q) ∧
      ∃ q, (q = origin ∨ q % align = 0) ∧ h'.dropped = h.dropped ++ [(q, owner)] := by
  rcases root_ok hP hO ht origin 0 with e | ⟨q, e⟩
  · rw [he] at e; cases e
  · unfold Exported at e
    split at e
    · rw [he] at e; cases e
    · obtain ⟨_, e, u⟩ := e
      rw [he] at e; cases e
      refine ⟨fun q => ⟨u.mem q, u.blocks q⟩, ?_⟩
      rcases u.dropped with e | ⟨hq, e⟩
      · exact ⟨_, .inl rfl, e⟩
      · exact ⟨_, .inr hq, e⟩
    · obtain ⟨_, _, _, _, e, _⟩ := e
      rw [he] at e; cases e

end Narrow.Ffi.Raw
