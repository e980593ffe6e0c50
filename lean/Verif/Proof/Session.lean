import Verif.Spec.Session
import Verif.Proof.RawExport

/-! # Proofs about many exports at once -/

namespace Narrow.Ffi.Raw

open Narrow.Ffi.Spec

/-- Memory holds the structures of a piece, and its array. -/
def ArrayReads (m : Mem) (x : Piece) : Prop :=
  ∃ q arrayTree schemaTree,
    (exportArray x.item.nl x.item.t x.item.c (x.item.a q) 0).result = .ok (.ok (arrayTree, schemaTree)) ∧
    (x.depth = 0 → BytesAt m q x.item.owner ∧ q % x.item.align = 0 ∧
      InMemory m x.item.nl x.item.t x.item.c (x.item.a q)) ∧
    ArrayFields m x.addr (arrayBelow x.depth arrayTree) ∧
    (x.whole = true → ∀ d, ArrayAt m d x.addr (arrayBelow x.depth arrayTree))

/-- Memory holds the schema of a piece. -/
def SchemaReads (m : Mem) (x : Piece) : Prop :=
  ∀ q next arrayTree schemaTree,
    (exportArray x.item.nl x.item.t x.item.c (x.item.a q) next).result = .ok (.ok (arrayTree, schemaTree)) →
    SchemaFields m x.addr (schemaBelow x.depth schemaTree) ∧
    (x.whole = true → ∀ d, SchemaAt m d x.addr (schemaBelow x.depth schemaTree))

/-- Either of them. -/
def Reads (m : Mem) (x : Piece) : Prop := if x.array then ArrayReads m x else SchemaReads m x

/-- The arrays that are dropped with a piece. -/
def Piece.owners (x : Piece) : List (List Byte) := if x.live && x.array && x.depth == 0 then [x.item.owner] else []

/-- What a piece with memory `new` of its own is good for in `H`. -/
structure Usable (env : Env) (base : Mem) (x : Piece) (new : Nat → Prop) (H : Heap) : Prop where
  drop : ∃ H', x.drop env H = .ok H' ∧ Emptied new x.addr x.size H H' ∧ Holds H'.mem (x.addr + x.callback) 0 ∧
    (∃ D, H'.dropped = H.dropped ++ D ∧ D.map (·.2) = Piece.owners x) ∧ (x.live = false → H' = H)
  reads : x.live = true → Extends base H.mem → Reads H.mem x

/-- The kinds of structures that a piece may be. -/
def Serves (env : Env) (base : Mem) : List Kind → Piece → Prop
  | [], _ => False
  | k :: ks, x => k.size = x.size ∧ k.callback = x.callback ∧ k.children = x.children ∧
      (∀ p, k.drop p = Piece.drop env { x with addr := p }) ∧ k.owner = Piece.owners x ∧
      (∀ m p, Extends base m → k.reads m p → Reads m { x with addr := p }) ∧
      (x.whole = true → ∀ nl t, childOf x.t = some (nl, t) →
        (∀ m p, Extends base m → k.cut m p → Reads m { x with addr := p, whole := false }) ∧
        Serves env base ks (x.kid nl t 0))

theorem Serves.mono {env : Env} {base base' : Mem} (he : Extends base base') : ∀ {ks : List Kind} {x : Piece},
    Serves env base ks x → Serves env base' ks x
  | [], _, h => h
  | _ :: _, _, ⟨h1, h2, h3, h4, h5, h6, h7⟩ =>
    ⟨h1, h2, h3, h4, h5, fun m p e => h6 m p (he.trans e), fun w nl t c =>
      ⟨fun m p e => (h7 w nl t c).1 m p (he.trans e), (h7 w nl t c).2.mono he⟩⟩

/-- Where a piece is does not matter. -/
theorem Serves.anywhere {env : Env} {base : Mem} {ks : List Kind} {x : Piece} (h : Serves env base ks x) (p : Nat) :
    Serves env base ks { x with addr := p } := by
  cases ks with
  | nil => exact h
  | cons k ks => exact h

/-- `H'` has at `p` what `H` has at the address of the piece, and the memory of its own. -/
structure Like (new : Nat → Prop) (x : Piece) (H : Heap) (p : Nat) (H' : Heap) : Prop where
  same : ∀ q, new q → H'.mem.byte q = H.mem.byte q ∧ H'.blocks q = H.blocks q
  slot : ∀ i, i < x.size → H'.mem.byte (p + i) = H.mem.byte (x.addr + i)

/-- The piece is in memory, with its descendants, or released. -/
def Loaded (env : Env) (base : Mem) (x : Piece) (new : Nat → Prop) (H : Heap) : Prop :=
  (x.live = true ∧ ∃ ks bytes, Serves env base ks x ∧ BytesAt H.mem x.addr bytes ∧ bytes.length = x.size ∧
    Chain ks bytes new H) ∨
  (x.live = false ∧ (∀ q, ¬ new q) ∧ Full H.mem x.addr x.size ∧ Holds H.mem (x.addr + x.callback) 0)

theorem callback_size (x : Piece) : x.callback + 8 ≤ x.size := by
  unfold Piece.callback Piece.size; split <;> omega

theorem Loaded.keep {env : Env} {base : Mem} {x : Piece} {new : Nat → Prop} {H H' : Heap} {p : Nat}
    (h : Loaded env base x new H) (l : Like new x H p H') : Loaded env base { x with addr := p } new H' := by
  rcases h with ⟨hl, ks, bytes, h1, h2, h3, h4⟩ | ⟨hl, h1, h2, h3⟩
  · exact .inl ⟨hl, ks, bytes, h1.anywhere p, fun i hi => (l.slot i (by omega)).trans (h2 i hi), h3, h4.keep l.same⟩
  · refine .inr ⟨hl, h1, fun i hi => by rw [show H'.mem.byte (p + i) = _ from l.slot i hi]; exact h2 i hi, h3.1, fun i hi => ?_⟩
    have hs := callback_size x
    have := l.slot (x.callback + i) (by omega)
    rw [← Nat.add_assoc, ← Nat.add_assoc] at this
    exact this.trans (h3.2 i hi)

theorem Loaded.mono {env : Env} {base base' : Mem} {x : Piece} {new : Nat → Prop} {H : Heap}
    (h : Loaded env base x new H) (he : Extends base base') : Loaded env base' x new H := by
  rcases h with ⟨hl, ks, bytes, h1, h2⟩ | h
  · exact .inl ⟨hl, ks, bytes, h1.mono he, h2⟩
  · exact .inr h

theorem Loaded.usable {env : Env} {base : Mem} {x : Piece} {new : Nat → Prop} {H : Heap}
    (h : Loaded env base x new H) (hi : ∀ q, new q → ¬ InBlock x.addr x.size q) : Usable env base x new H := by
  rcases h with ⟨hl, ks, bytes, h1, h2, h3, h4⟩ | ⟨hl, h1, h2, h3⟩
  · cases ks with
    | nil => exact h1.elim
    | cons k ks =>
      obtain ⟨s1, s2, s3, s4, s5, s6, _⟩ := h1
      obtain ⟨r, H1, w, e, z, D, d1, d2⟩ := h4.bare H x.addr (fun _ _ => ⟨rfl, rfl⟩) h2 (by rw [s1]; exact hi)
      rw [s4] at w
      rw [s1] at e
      rw [s2] at z
      exact ⟨⟨H1, w, e, z, ⟨D, d1, d2.trans s5⟩, fun h => by rw [hl] at h; cases h⟩, fun _ he => s6 _ _ he r⟩
  · refine ⟨⟨H, ?_, ⟨fun q hq => absurd hq (h1 q), fun _ _ _ => rfl, fun _ _ => rfl, h2⟩, h3,
      ⟨[], by rw [List.append_nil], by simp [Piece.owners, hl]⟩, fun _ => rfl⟩, fun h => by rw [hl] at h; cases h⟩
    unfold Piece.drop
    unfold Piece.callback at h3
    cases hx : x.array with
    | true =>
      rw [hx] at h3
      rw [if_pos rfl, dropArray, readWord_ok (show Holds H.mem (x.addr + 64) 0 from h3)]; rfl
    | false =>
      rw [hx] at h3
      rw [if_neg nofun, dropSchema, readWord_ok (show Holds H.mem (x.addr + 56) 0 from h3)]; rfl

/-! ## The two pieces of an export -/

/-- The kinds of the children of an array are right. -/
theorem serves_kid {env : Env} {base : Mem} {x : Item} {q : Nat} {array : CArray} {schema : CSchema}
    (hx : (exportArray x.nl x.t x.c (x.a q) 0).result = .ok (.ok (array, schema))) (t : Ty) :
    ∀ (nl : Bool) (depth : Nat), Serves env base (arrayKinds env t false nl (arrayBelow (depth + 1) array) 0 [])
      ⟨x, true, 0, true, depth + 1, nl, t, true⟩ := by
  have reads : ∀ (m : Mem) (p depth : Nat) (nl : Bool) (t : Ty), (∀ d, ArrayAt m d p (arrayBelow (depth + 1) array)) →
      Reads m ⟨x, true, p, true, depth + 1, nl, t, true⟩ := fun m p depth nl t h =>
    ⟨q, array, schema, hx, nofun, h 0, fun _ => h⟩
  have cut : ∀ (m : Mem) (p depth : Nat) (nl : Bool) (t : Ty), ArrayFields m p (arrayBelow (depth + 1) array) →
      Reads m ⟨x, true, p, true, depth + 1, nl, t, false⟩ := fun m p depth nl t h =>
    ⟨q, array, schema, hx, nofun, h, nofun⟩
  induction t with
  | bool => exact fun nl depth => ⟨rfl, rfl, rfl, fun _ => rfl, rfl, fun m p _ h => reads m p _ _ _ h.2, nofun⟩
  | prim _ => exact fun nl depth => ⟨rfl, rfl, rfl, fun _ => rfl, rfl, fun m p _ h => reads m p _ _ _ h.2, nofun⟩
  | fsl n nl' t ih =>
    refine fun nl depth => ⟨rfl, rfl, rfl, fun _ => rfl, rfl, fun m p _ h => reads m p _ _ _ h.2, fun _ nl'' t' hc => ?_⟩
    cases hc
    exact ⟨fun m p _ h => cut m p _ _ _ h.2, ih nl' (depth + 1)⟩
  | vsl ow nl' t ih =>
    refine fun nl depth => ⟨rfl, rfl, rfl, fun _ => rfl, rfl, fun m p _ h => reads m p _ _ _ h.2, fun _ nl'' t' hc => ?_⟩
    cases hc
    exact ⟨fun m p _ h => cut m p _ _ _ h.2, ih nl' (depth + 1)⟩

theorem serves_array {env : Env} {base : Mem} {x : Item} {h h3 h' : Heap} {q : Nat} {array : CArray}
    {schema : CSchema} {ra : RawArray} {rs : RawSchema}
    (hr : RootOk env x.nl x.t x.owner x.align h q array schema ra rs h3 h')
    (hx : (exportArray x.nl x.t x.c (x.a q) 0).result = .ok (.ok (array, schema)))
    (hO : Owned base x.nl x.t x.c x.owner x.align x.a) :
    Serves env base (arrayKinds env x.t true x.nl array q x.owner) (x.piece true 0 true) := by
  have own : ∀ m, Extends base m → BytesAt m q x.owner → BytesAt m q x.owner ∧ q % x.align = 0 ∧
      InMemory m x.nl x.t x.c (x.a q) := fun m he hb => ⟨hb, hr.qA, (hO _ q he hr.q0 hr.qA hr.qM hb).1⟩
  have reads : ∀ (m : Mem) (p : Nat), Extends base m → (BytesAt m q x.owner ∧ ∀ d, ArrayAt m d p array) →
      Reads m (x.piece true p true) := fun m p he h =>
    ⟨q, array, schema, hx, fun _ => own m he h.1, h.2 0, fun _ => h.2⟩
  have cut : ∀ (m : Mem) (p : Nat), Extends base m → (BytesAt m q x.owner ∧ ArrayFields m p array) →
      Reads m { x.piece true p true with whole := false } := fun m p he h =>
    ⟨q, array, schema, hx, fun _ => own m he h.1, h.2, nofun⟩
  have kid := serves_kid (env := env) (base := base) hx
  obtain ⟨nl, t, c, owner, align, a⟩ := x
  cases t with
  | bool => exact ⟨rfl, rfl, rfl, fun _ => rfl, rfl, reads, nofun⟩
  | prim _ => exact ⟨rfl, rfl, rfl, fun _ => rfl, rfl, reads, nofun⟩
  | fsl n nl' t =>
    refine ⟨rfl, rfl, rfl, fun _ => rfl, rfl, reads, fun _ nl'' t' hc => ?_⟩
    cases hc
    exact ⟨cut, kid t nl' 0⟩
  | vsl ow nl' t =>
    refine ⟨rfl, rfl, rfl, fun _ => rfl, rfl, reads, fun _ nl'' t' hc => ?_⟩
    cases hc
    exact ⟨cut, kid t nl' 0⟩

theorem loaded_array {env : Env} {base : Mem} {x : Item} {h h3 h' H : Heap} {q p : Nat} {array : CArray}
    {schema : CSchema} {ra : RawArray} {rs : RawSchema}
    (hr : RootOk env x.nl x.t x.owner x.align h q array schema ra rs h3 h')
    (hx : (exportArray x.nl x.t x.c (x.a q) 0).result = .ok (.ok (array, schema)))
    (hO : Owned base x.nl x.t x.c x.owner x.align x.a) (hc : Carries h h3 H)
    (hb : BytesAt H.mem p (arrayBytes ra)) : Loaded env base (x.piece true p true) (New h h3) H :=
  .inl ⟨rfl, _, _, (serves_array hr hx hO).anywhere p, hb, arrayBytes_length ra, hr.chain.keep hc⟩

theorem export_schema {nl : Bool} {t : Ty} {c : (arrayR nl t).C} {a : APlace nl t} {next : Nat} {array : CArray}
    {schema : CSchema} (h : (exportArray nl t c a next).result = .ok (.ok (array, schema))) :
    ∃ n, schema = (schemaOf t nl n).1 := by
  unfold exportArray at h
  split at h
  · cases h
  · split at h
    · cases h
    · cases h
    · split at h
      · cases h; exact ⟨_, rfl⟩
      · cases h

theorem schemaOf_at {m : Mem} : ∀ (t : Ty) (nl : Bool) (n n' d p : Nat), SchemaAt m d p (schemaOf t nl n).1 →
    SchemaAt m d p (schemaOf t nl n').1
  | .bool, _, _, _, _, _, h => h
  | .prim _, _, _, _, _, _, h => h
  | .fsl w nl' t, nl, n, n', 0, p, h => by
    simpa [SchemaAt, SchemaFields, schemaOf] using h
  | .vsl ow nl' t, nl, n, n', 0, p, h => by
    simpa [SchemaAt, SchemaFields, schemaOf] using h
  | .fsl w nl' t, nl, n, n', d + 1, p, h => by
    refine ⟨by simpa [SchemaFields, schemaOf] using h.1, ?_⟩
    obtain ⟨q, h0, h1, h2⟩ := h.2
    refine ⟨q, h0, h1, fun i hi => ?_⟩
    obtain rfl : i = 0 := Nat.lt_one_iff.1 hi
    obtain ⟨r, r0, r1, r2⟩ := h2 0 Nat.one_pos
    exact ⟨r, r0, r1, schemaOf_at t nl' n n' d r r2⟩
  | .vsl ow nl' t, nl, n, n', d + 1, p, h => by
    refine ⟨by simpa [SchemaFields, schemaOf] using h.1, ?_⟩
    obtain ⟨q, h0, h1, h2⟩ := h.2
    refine ⟨q, h0, h1, fun i hi => ?_⟩
    obtain rfl : i = 0 := Nat.lt_one_iff.1 hi
    obtain ⟨r, r0, r1, r2⟩ := h2 0 Nat.one_pos
    exact ⟨r, r0, r1, schemaOf_at t nl' n n' d r r2⟩

theorem schemaOf_fields {m : Mem} {t : Ty} {nl : Bool} {n : Nat} (n' : Nat) {p : Nat}
    (h : SchemaFields m p (schemaOf t nl n).1) : SchemaFields m p (schemaOf t nl n').1 :=
  schemaOf_at t nl n n' 0 p h

theorem serves_schema {env : Env} {base : Mem} {x : Item} (hl : ∀ s ∈ literals, StringAt base (env.literal s) s)
    (n : Nat) (t : Ty) : ∀ (nl : Bool) (depth : Nat),
      (∀ n, schemaBelow depth (schemaOf x.t x.nl n).1 = (schemaOf t nl n).1) →
      Serves env base (schemaKinds env t (schemaOf t nl n).1) ⟨x, false, 0, true, depth, nl, t, true⟩ := by
  have reads : ∀ (m : Mem) (p depth : Nat) (nl : Bool) (t : Ty), Extends base m →
      (∀ n, schemaBelow depth (schemaOf x.t x.nl n).1 = (schemaOf t nl n).1) →
      ((∀ s ∈ literals, StringAt m (env.literal s) s) → ∀ d, SchemaAt m d p (schemaOf t nl n).1) →
      Reads m ⟨x, false, p, true, depth, nl, t, true⟩ := by
    intro m p depth nl t he hb h q next a s hx
    obtain ⟨n', rfl⟩ := export_schema hx
    have h := h fun s hs => (hl s hs).mono he
    show SchemaFields m p (schemaBelow depth _) ∧ (_ → ∀ d, SchemaAt m d p (schemaBelow depth _))
    rw [hb]
    exact ⟨schemaOf_fields n' (h 0), fun _ d => schemaOf_at _ _ _ _ _ _ (h d)⟩
  have cut : ∀ (m : Mem) (p depth : Nat) (nl : Bool) (t : Ty), Extends base m →
      (∀ n, schemaBelow depth (schemaOf x.t x.nl n).1 = (schemaOf t nl n).1) →
      ((∀ s ∈ literals, StringAt m (env.literal s) s) → SchemaFields m p (schemaOf t nl n).1) →
      Reads m ⟨x, false, p, true, depth, nl, t, false⟩ := by
    intro m p depth nl t he hb h q next a s hx
    obtain ⟨n', rfl⟩ := export_schema hx
    have h := h fun s hs => (hl s hs).mono he
    show SchemaFields m p (schemaBelow depth _) ∧ (_ → ∀ d, SchemaAt m d p (schemaBelow depth _))
    rw [hb]
    exact ⟨schemaOf_fields n' h, nofun⟩
  induction t with
  | bool => exact fun nl depth hb => ⟨rfl, rfl, rfl, fun _ => rfl, rfl, fun m p he h => reads m p _ _ _ he hb h, nofun⟩
  | prim _ => exact fun nl depth hb => ⟨rfl, rfl, rfl, fun _ => rfl, rfl, fun m p he h => reads m p _ _ _ he hb h, nofun⟩
  | fsl w nl' t ih =>
    refine fun nl depth hb => ⟨rfl, rfl, rfl, fun _ => rfl, rfl, fun m p he h => reads m p _ _ _ he hb h, fun _ nl'' t' hc => ?_⟩
    cases hc
    refine ⟨fun m p he h => cut m p _ _ _ he hb h, ih nl' (depth + 1) fun n => ?_⟩
    show onlyKidSchema (schemaBelow depth _) = _
    rw [hb]; rfl
  | vsl ow nl' t ih =>
    refine fun nl depth hb => ⟨rfl, rfl, rfl, fun _ => rfl, rfl, fun m p he h => reads m p _ _ _ he hb h, fun _ nl'' t' hc => ?_⟩
    cases hc
    refine ⟨fun m p he h => cut m p _ _ _ he hb h, ih nl' (depth + 1) fun n => ?_⟩
    show onlyKidSchema (schemaBelow depth _) = _
    rw [hb]; rfl

theorem loaded_schema {env : Env} {base : Mem} {x : Item} {h h3 h' H : Heap} {q p : Nat} {array : CArray}
    {schema : CSchema} {ra : RawArray} {rs : RawSchema}
    (hr : RootOk env x.nl x.t x.owner x.align h q array schema ra rs h3 h')
    (hx : (exportArray x.nl x.t x.c (x.a q) 0).result = .ok (.ok (array, schema)))
    (hl : ∀ s ∈ literals, StringAt base (env.literal s) s) (hc : Carries h3 h' H)
    (hb : BytesAt H.mem p (schemaBytes rs)) : Loaded env base (x.piece false p true) (New h3 h') H := by
  have chain := hr.schema.chain.keep hc
  obtain ⟨n, rfl⟩ := export_schema hx
  exact .inl ⟨rfl, _, _, (serves_schema hl n x.t x.nl 0 fun _ => rfl).anywhere p, hb, schemaBytes_length rs, chain⟩

/-! ## The invariant -/

/-- The memory of a piece: its own and that of the structure. -/
def Region (r : Piece × (Nat → Prop)) (q : Nat) : Prop := r.2 q ∨ InBlock r.1.addr r.1.size q

/-- How memory is divided. -/
structure Divided (env : Env) (base h : Heap) (pieces : List Piece) (out : List (List Byte))
    (parts : List (Piece × (Nat → Prop))) : Prop where
  perm : (parts.map (·.1)).Perm pieces
  tidyBase : Tidy base
  tidy : Tidy h
  good : ∀ r ∈ parts, Loaded env base.mem r.1 r.2 h
  dead : ∀ r ∈ parts, r.1.live = false → ∀ q, ¬ r.2 q
  inner : ∀ r ∈ parts, ∀ q, r.2 q → ¬ InBlock r.1.addr r.1.size q
  apart : parts.Pairwise fun r r' => ∀ q, Region r q → ¬ Region r' q
  own : ∀ r ∈ parts, ∀ q, Region r q → base.mem.byte q = none ∧ h.mem.byte q ≠ none
  slot : ∀ r ∈ parts, ∀ q, InBlock r.1.addr r.1.size q → h.blocks q = none
  rest : ∀ q, (∀ r ∈ parts, ¬ Region r q) → h.mem.byte q = base.mem.byte q ∧ h.blocks q = base.blocks q
  count : ∃ D, h.dropped = base.dropped ++ D ∧
    (D.map (·.2) ++ (pieces.filter fun x => x.live && x.array && x.depth == 0).map (·.item.owner)).Perm out

section

variable {env : Env} {base h : Heap} {pieces : List Piece} {out : List (List Byte)}
  {parts : List (Piece × (Nat → Prop))}

theorem Divided.ext (i : Divided env base h pieces out parts) : Extends base.mem h.mem := by
  intro q b hb
  rw [(i.rest q fun r hr hq => ?_).1, hb]
  rw [(i.own r hr q hq).1] at hb
  cases hb

/-- The part of a given piece first. -/
theorem Divided.first (i : Divided env base h pieces out parts) {x : Piece} {rest : List Piece} (hp : pieces.Perm (x :: rest)) :
    ∃ new parts', Divided env base h (x :: rest) out ((x, new) :: parts') := by
  have hx : x ∈ parts.map (·.1) := (i.perm.trans hp).symm.subset List.mem_cons_self
  obtain ⟨r, hr, rfl⟩ := List.mem_map.1 hx
  obtain ⟨l1, l2, rfl⟩ := List.append_of_mem hr
  have hperm : (l1 ++ r :: l2).Perm (r :: (l1 ++ l2)) := List.perm_middle
  have hm : ∀ r', r' ∈ r :: (l1 ++ l2) → r' ∈ l1 ++ r :: l2 := fun r' h => hperm.symm.subset h
  refine ⟨r.2, l1 ++ l2, (hperm.symm.map _).trans (i.perm.trans hp), i.tidyBase, i.tidy, fun r' h => i.good r' (hm r' h),
    fun r' h => i.dead r' (hm r' h), fun r' h => i.inner r' (hm r' h), ?_, fun r' h => i.own r' (hm r' h),
    fun r' h => i.slot r' (hm r' h), fun q hq => i.rest q fun r' h => hq r' (hperm.subset h), ?_⟩
  · exact hperm.pairwise i.apart fun h q h1 h2 => h q h2 h1
  · obtain ⟨D, h1, h2⟩ := i.count
    exact ⟨D, h1, ((List.Perm.append_left _ ((hp.filter _).map _)).symm).trans h2⟩

/-- Where nothing of the parts changed. -/
theorem Divided.keeps {r : Piece × (Nat → Prop)} {h' : Heap} (hl : Loaded env base.mem r.1 r.2 h)
    (hm : ∀ q, Region r q → h'.mem.byte q = h.mem.byte q) (hb : ∀ q, r.2 q → h'.blocks q = h.blocks q) :
    Loaded env base.mem r.1 r.2 h' :=
  hl.keep (p := r.1.addr) ⟨fun q hq => ⟨hm q (.inl hq), hb q hq⟩, fun i hi => hm _ (.inr ⟨by omega, by omega⟩)⟩

theorem Divided.other {base' h' : Heap} (i : Divided env base h pieces out parts) (g : Grown base h base' h') :
    Divided env base' h' pieces out parts := by
  have hext : Extends base.mem base'.mem := by
    intro q b hb
    rcases g.each q with ⟨e, _⟩ | ⟨e, _⟩
    · rw [e, hb]
    · rw [i.ext q b hb] at e; cases e
  have key : ∀ r ∈ parts, ∀ q, Region r q → base'.mem.byte q = base.mem.byte q ∧
      h'.mem.byte q = h.mem.byte q ∧ h'.blocks q = h.blocks q := by
    intro r hr q hq
    rcases g.each q with ⟨e1, _, e3, e4⟩ | ⟨e, _⟩
    · exact ⟨e1, e3, e4⟩
    · exact absurd e (i.own r hr q hq).2
  refine ⟨i.perm, g.tidy, ?_, fun r hr => ?_, i.dead, i.inner, i.apart, fun r hr q hq => ?_, fun r hr q hq => ?_,
    fun q hq => ?_, ?_⟩
  · intro q hq
    rcases g.each q with ⟨_, _, e3, e4⟩ | ⟨_, e1, e2⟩
    · rw [e4]; exact i.tidy q (e3 ▸ hq)
    · rw [e2]; exact g.tidy q (e1 ▸ hq)
  · exact (Divided.keeps (i.good r hr) (fun q hq => (key r hr q hq).2.1)
      fun q hq => (key r hr q (.inl hq)).2.2).mono hext
  · obtain ⟨e1, e2, _⟩ := key r hr q hq
    rw [e1, e2]
    exact i.own r hr q hq
  · rw [(key r hr q (.inr hq)).2.2]
    exact i.slot r hr q hq
  · rcases g.each q with ⟨e1, e2, e3, e4⟩ | ⟨_, e1, e2⟩
    · rw [e1, e2, e3, e4]; exact i.rest q hq
    · exact ⟨e1, e2⟩
  · rw [g.base, g.dropped]; exact i.count

theorem Divided.failed {h' : Heap} {owner : List Byte} (i : Divided env base h pieces out parts)
    (hm : ∀ q, h'.mem.byte q = h.mem.byte q ∧ h'.blocks q = h.blocks q) {p : Nat}
    (hd : h'.dropped = h.dropped ++ [(p, owner)]) : Divided env base h' pieces (owner :: out) parts := by
  refine ⟨i.perm, i.tidyBase, fun q hq => ?_, fun r hr => ?_, i.dead, i.inner, i.apart, fun r hr q hq => ?_,
    fun r hr q hq => ?_, fun q hq => ?_, ?_⟩
  · rw [(hm q).2]; exact i.tidy q ((hm q).1 ▸ hq)
  · exact Divided.keeps (i.good r hr) (fun q _ => (hm q).1) fun q _ => (hm q).2
  · rw [(hm q).1]; exact i.own r hr q hq
  · rw [(hm q).2]; exact i.slot r hr q hq
  · rw [(hm q).1, (hm q).2]; exact i.rest q hq
  · obtain ⟨D, e1, e2⟩ := i.count
    refine ⟨D ++ [(p, owner)], by rw [hd, e1, List.append_assoc], ?_⟩
    rw [List.map_append, List.append_assoc]
    exact List.perm_middle.trans (e2.cons _)

theorem Divided.exported {x : Item} {q p s : Nat} {array : CArray} {schema : CSchema} {ra : RawArray} {rs : RawSchema}
    {hm h1 h2 h3 : Heap} (i : Divided env base h pieces out parts)
    (hr : RootOk env x.nl x.t x.owner x.align h q array schema ra rs hm h1)
    (hx : (exportArray x.nl x.t x.c (x.a q) 0).result = .ok (.ok (array, schema)))
    (hO : Owned base.mem x.nl x.t x.c x.owner x.align x.a)
    (hl : ∀ s ∈ literals, StringAt base.mem (env.literal s) s)
    (first : Placed h1 p (arrayBytes ra) h2) (second : Placed h2 s (schemaBytes rs) h3) :
    Divided env base h3 (x.piece true p true :: x.piece false s true :: pieces) (x.owner :: out)
      ((x.piece true p true, New h hm) :: (x.piece false s true, New hm h1) :: parts) := by
  obtain ⟨f1, f2, f3, f4, f5⟩ := first
  obtain ⟨s1, s2, s3, s4, s5⟩ := second
  rw [arrayBytes_length] at f1 f3
  rw [schemaBytes_length] at s1 s3
  have g := hr.grew
  have g' := hr.schema.grew
  have sp := new_split g g'
  have gone : ∀ {m m' : Mem} {q}, Extends m m' → m'.byte q = none → m.byte q = none := by
    intro m m' q he hq
    cases hc : m.byte q with
    | none => rfl
    | some b => rw [he q b hc] at hq; cases hq
  -- what is in memory stays
  have ep : ∀ q, h1.mem.byte q ≠ none → h2.mem.byte q = h1.mem.byte q := fun q hq => f3 q fun hin => hq (f1 q hin)
  have es : ∀ q, h2.mem.byte q ≠ none → h3.mem.byte q = h2.mem.byte q := fun q hq => s3 q fun hin => hq (s1 q hin)
  have e13 : ∀ q, h1.mem.byte q ≠ none → h3.mem.byte q = h1.mem.byte q := fun q hq => by
    rw [es q (by rw [ep q hq]; exact hq), ep q hq]
  have ext13 : Extends h1.mem h3.mem := fun q b hb => by rw [e13 q (by rw [hb]; nofun), hb]
  have blk : ∀ q, h3.blocks q = h1.blocks q := fun q => by rw [s4, f4]
  have ext : Extends h.mem h1.mem := g.ext.trans g'.ext
  have keep : ∀ q, h.mem.byte q ≠ none → h3.mem.byte q = h.mem.byte q ∧ h3.blocks q = h.blocks q := by
    intro q hq
    obtain ⟨b, hb⟩ := Option.ne_none_iff_exists'.1 hq
    refine ⟨by rw [hb, ext13 q b (ext q b hb)], ?_⟩
    rw [blk, g'.old q fun hn => ?_, g.old q fun hn => hq hn.1]
    have := hn.1
    rw [g.ext q b hb] at this
    cases this
  have bnone : ∀ q, h.mem.byte q = none → base.mem.byte q = none := fun q hq => gone i.ext hq
  have slotP : ∀ q, InBlock p 80 q → h.mem.byte q = none ∧ h1.mem.byte q = none ∧ h3.mem.byte q ≠ none := by
    intro q hq
    have h1n := f1 q hq
    refine ⟨gone ext h1n, h1n, ?_⟩
    have h2 : h2.mem.byte q ≠ none := by
      have := f2 (q - p) (by rw [arrayBytes_length]; have := hq.2; have := hq.1; omega)
      rw [Nat.add_sub_cancel' hq.1] at this
      rw [this]; nofun
    rw [es q h2]; exact h2
  have slotS : ∀ q, InBlock s 72 q → h.mem.byte q = none ∧ h1.mem.byte q = none ∧ h3.mem.byte q ≠ none := by
    intro q hq
    have h2n := s1 q hq
    have h1n : h1.mem.byte q = none := by
      cases hc : h1.mem.byte q with
      | none => rfl
      | some b => rw [ep q (by rw [hc]; nofun), hc] at h2n; cases h2n
    refine ⟨gone ext h1n, h1n, ?_⟩
    have := s2 (q - s) (by rw [schemaBytes_length]; have := hq.2; have := hq.1; omega)
    rw [Nat.add_sub_cancel' hq.1] at this
    rw [this]; nofun
  have slots : ∀ q, InBlock p 80 q → ¬ InBlock s 72 q := by
    intro q hp hs
    have := s1 q hs
    have h2 := f2 (q - p) (by rw [arrayBytes_length]; have := hp.2; have := hp.1; omega)
    rw [Nat.add_sub_cancel' hp.1, this] at h2
    cases h2
  have newA : ∀ q, New h hm q → h1.mem.byte q ≠ none := fun q hq => ((sp q).2 (.inl hq)).2
  have carA : Carries h hm h3 := by
    intro q hq
    obtain ⟨b, hb⟩ := Option.ne_none_iff_exists'.1 hq.2
    rw [e13 q (newA q hq), blk, g'.ext q b hb, hb, g'.old q fun hn => hq.2 hn.1]
    exact ⟨rfl, rfl⟩
  have carS : Carries hm h1 h3 := fun q hq => ⟨e13 q hq.2, blk q⟩
  have hA := loaded_array (p := p) hr hx hO carA (fun i hi => by
    rw [es (p + i) (by rw [f2 i hi]; nofun)]; exact f2 i hi)
  have hS := loaded_schema (p := s) hr hx hl carS s2
  have regA : ∀ q, Region (x.piece true p true, New h hm) q → h.mem.byte q = none ∧ h3.mem.byte q ≠ none := by
    rintro q (hq | hq)
    · exact ⟨hq.1, by rw [e13 q (newA q hq)]; exact newA q hq⟩
    · exact ⟨(slotP q hq).1, (slotP q hq).2.2⟩
  have regS : ∀ q, Region (x.piece false s true, New hm h1) q → h.mem.byte q = none ∧ h3.mem.byte q ≠ none := by
    rintro q (hq | hq)
    · exact ⟨gone g.ext hq.1, by rw [e13 q hq.2]; exact hq.2⟩
    · exact ⟨(slotS q hq).1, (slotS q hq).2.2⟩
  refine ⟨(i.perm.cons _).cons _, i.tidyBase, ?_, ?_, ?_, ?_, ?_, ?_, ?_, ?_, ?_⟩
  · intro q hq
    rw [blk]
    exact g'.tidy q (gone ext13 hq)
  · intro r hr
    rcases List.mem_cons.1 hr with rfl | hr
    · exact hA
    rcases List.mem_cons.1 hr with rfl | hr
    · exact hS
    · exact Divided.keeps (i.good r hr) (fun q hq => (keep q (i.own r hr q hq).2).1)
        fun q hq => (keep q (i.own r hr q (.inl hq)).2).2
  · intro r hr
    rcases List.mem_cons.1 hr with rfl | hr
    · nofun
    rcases List.mem_cons.1 hr with rfl | hr
    · nofun
    · exact i.dead r hr
  · intro r hr
    rcases List.mem_cons.1 hr with rfl | hr
    · exact fun q hq hin => newA q hq (slotP q hin).2.1
    rcases List.mem_cons.1 hr with rfl | hr
    · exact fun q hq hin => hq.2 (slotS q hin).2.1
    · exact i.inner r hr
  · refine List.pairwise_cons.2 ⟨fun r hr q hq hq' => ?_, List.pairwise_cons.2 ⟨fun r hr q hq hq' => ?_, i.apart⟩⟩
    · rcases List.mem_cons.1 hr with rfl | hr
      · rcases hq with hq | hq <;> rcases hq' with hq' | hq'
        · exact new_apart hq hq'
        · exact newA q hq (slotS q hq').2.1
        · exact hq'.2 (slotP q hq).2.1
        · exact slots q hq hq'
      · exact (i.own r hr q hq').2 (regA q hq).1
    · exact (i.own r hr q hq').2 (regS q hq).1
  · intro r hr q hq
    rcases List.mem_cons.1 hr with rfl | hr
    · exact ⟨bnone q (regA q hq).1, (regA q hq).2⟩
    rcases List.mem_cons.1 hr with rfl | hr
    · exact ⟨bnone q (regS q hq).1, (regS q hq).2⟩
    · rw [(keep q (i.own r hr q hq).2).1]
      exact i.own r hr q hq
  · intro r hr q hq
    rcases List.mem_cons.1 hr with rfl | hr
    · rw [blk]; exact g'.tidy q (slotP q hq).2.1
    rcases List.mem_cons.1 hr with rfl | hr
    · rw [blk]; exact g'.tidy q (slotS q hq).2.1
    · rw [(keep q (i.own r hr q (.inr hq)).2).2]
      exact i.slot r hr q hq
  · intro q hq
    have hA := hq _ List.mem_cons_self
    have hS := hq _ (List.mem_cons_of_mem _ List.mem_cons_self)
    obtain ⟨e1, e2⟩ := i.rest q fun r hr => hq r (List.mem_cons_of_mem _ (List.mem_cons_of_mem _ hr))
    rw [← e1, ← e2, blk, g'.old q fun hn => hS (.inl hn), g.old q fun hn => hA (.inl hn),
      s3 q fun hn => hS (.inr hn), f3 q fun hn => hA (.inr hn)]
    refine ⟨?_, rfl⟩
    by_cases hn : h.mem.byte q = none
    · rw [hn]
      cases hc : h1.mem.byte q with
      | none => rfl
      | some b =>
        rcases (sp q).1 ⟨hn, by rw [hc]; nofun⟩ with h | h
        · exact absurd (.inl h) hA
        · exact absurd (.inl h) hS
    · obtain ⟨b, hb⟩ := Option.ne_none_iff_exists'.1 hn
      rw [hb, ext q b hb]
  · obtain ⟨D, e1, e2⟩ := i.count
    refine ⟨D, by rw [s5, f5, g'.dropped, g.dropped, e1], ?_⟩
    exact List.perm_middle.trans (e2.cons _)

/-- A change to the memory of one piece leaves the others. -/
theorem Divided.others {x : Piece} {new : Nat → Prop} {rest : List Piece}
    (i : Divided env base h (x :: rest) out ((x, new) :: parts)) {h' : Heap}
    (hm : ∀ q, (base.mem.byte q ≠ none ∨ h.mem.byte q ≠ none) → ¬ Region (x, new) q →
      h'.mem.byte q = h.mem.byte q ∧ h'.blocks q = h.blocks q) :
    ∀ r ∈ parts, Loaded env base.mem r.1 r.2 h' ∧ (∀ q, Region r q → base.mem.byte q = none ∧ h'.mem.byte q ≠ none) ∧
      ∀ q, InBlock r.1.addr r.1.size q → h'.blocks q = none := by
  intro r hr
  have hr' : r ∈ (x, new) :: parts := List.mem_cons_of_mem _ hr
  have hn : ∀ q, Region r q → h'.mem.byte q = h.mem.byte q ∧ h'.blocks q = h.blocks q := fun q hq =>
    hm q (.inr (i.own r hr' q hq).2) fun hx => (List.pairwise_cons.1 i.apart).1 r hr q hx hq
  refine ⟨Divided.keeps (i.good r hr') (fun q hq => (hn q hq).1) fun q hq => (hn q (.inl hq)).2,
    fun q hq => ?_, fun q hq => ?_⟩
  · rw [(hn q hq).1]; exact i.own r hr' q hq
  · rw [(hn q (.inr hq)).2]; exact i.slot r hr' q hq

theorem Divided.usable {x : Piece} {new : Nat → Prop} {rest : List Piece}
    (i : Divided env base h (x :: rest) out ((x, new) :: parts)) : Usable env base.mem x new h :=
  (i.good _ List.mem_cons_self).usable (i.inner _ List.mem_cons_self)

theorem Divided.dropped {x : Piece} {new : Nat → Prop} {rest : List Piece} {h' : Heap}
    (i : Divided env base h (x :: rest) out ((x, new) :: parts)) (call : x.drop env h = .ok h') :
    Divided env base h' ({ x with live := false } :: rest) out (({ x with live := false }, fun _ => False) :: parts) := by
  obtain ⟨H', w, ⟨gone, mem, blocks, full⟩, mark, ⟨D', d1, d2⟩, _⟩ := i.usable.drop
  rw [call] at w
  cases w
  have hself : (x, new) ∈ (x, new) :: parts := List.mem_cons_self
  have hoth := i.others (h' := h') fun q _ hq => ⟨mem q (fun h => hq (.inl h)) (fun h => hq (.inr h)),
    blocks q fun h => hq (.inl h)⟩
  refine ⟨?_, i.tidyBase, ?_, ?_, ?_, ?_, ?_, ?_, ?_, ?_, ?_⟩
  · exact ((List.perm_cons _).1 i.perm).cons _
  · intro q hq
    by_cases hn : new q
    · exact (gone q hn).2
    · rw [blocks q hn]
      by_cases hs : InBlock x.addr x.size q
      · exact i.slot _ hself q hs
      · exact i.tidy q (mem q hn hs ▸ hq)
  · intro r hr
    rcases List.mem_cons.1 hr with rfl | hr
    · exact .inr ⟨rfl, fun _ h => h, full, mark⟩
    · exact (hoth r hr).1
  · intro r hr
    rcases List.mem_cons.1 hr with rfl | hr
    · exact fun _ _ h => h
    · exact i.dead r (List.mem_cons_of_mem _ hr)
  · intro r hr
    rcases List.mem_cons.1 hr with rfl | hr
    · exact fun _ h => h.elim
    · exact i.inner r (List.mem_cons_of_mem _ hr)
  · obtain ⟨h1, h2⟩ := List.pairwise_cons.1 i.apart
    refine List.pairwise_cons.2 ⟨fun r hr q hq => ?_, h2⟩
    rcases hq with hq | hq
    · exact hq.elim
    · exact h1 r hr q (.inr hq)
  · intro r hr q hq
    rcases List.mem_cons.1 hr with rfl | hr
    · rcases hq with hq | hq
      · exact hq.elim
      · refine ⟨(i.own _ hself q (.inr hq)).1, ?_⟩
        have h1 : x.addr ≤ q := hq.1
        have h2 : q < x.addr + x.size := hq.2
        have := full (q - x.addr) (by omega)
        rw [Nat.add_sub_cancel' h1] at this
        exact Option.isSome_iff_ne_none.1 this
    · exact (hoth r hr).2.1 q hq
  · intro r hr q hq
    rcases List.mem_cons.1 hr with rfl | hr
    · rw [blocks q fun hn => i.inner _ hself q hn hq]
      exact i.slot _ hself q hq
    · exact (hoth r hr).2.2 q hq
  · intro q hq
    have hs : ¬ InBlock x.addr x.size q := fun h => hq _ List.mem_cons_self (.inr h)
    by_cases hn : new q
    · have hb := (i.own _ hself q (.inl hn)).1
      rw [(gone q hn).1, (gone q hn).2, hb, i.tidyBase q hb]
      exact ⟨rfl, rfl⟩
    · rw [mem q hn hs, blocks q hn]
      refine i.rest q fun r hr => ?_
      rcases List.mem_cons.1 hr with rfl | hr
      · exact fun h => h.elim hn hs
      · exact hq r (List.mem_cons_of_mem _ hr)
  · obtain ⟨D, e1, e2⟩ := i.count
    refine ⟨D ++ D', by rw [d1, e1, List.append_assoc], ?_⟩
    rw [List.map_append, d2, Piece.owners, List.filter_cons_of_neg (by simp), List.append_assoc]
    cases hx : (x.live && x.array && x.depth == 0) with
    | true =>
      rw [List.filter_cons_of_pos (by exact hx)] at e2
      exact e2
    | false =>
      rw [List.filter_cons_of_neg (by rw [hx]; nofun)] at e2
      exact e2

theorem Divided.moved {x : Piece} {new : Nat → Prop} {rest : List Piece} {h1 h2 : Heap} {p : Nat} {l : List Byte}
    (i : Divided env base h (x :: rest) out ((x, new) :: parts)) (size : l.length = x.size)
    (bytes : BytesAt h.mem x.addr l) (to : Placed h p l h1) (source : Vacated h1 x.addr x.size h2) :
    Divided env base h2 ({ x with addr := p } :: rest) out (({ x with addr := p }, new) :: parts) := by
  obtain ⟨f1, f2, f3, f4, f5⟩ := to
  obtain ⟨s1, s2, s3, s4⟩ := source
  rw [size] at f1 f3
  have hself : (x, new) ∈ (x, new) :: parts := List.mem_cons_self
  have blk : ∀ q, h2.blocks q = h.blocks q := fun q => by rw [s3, f4]
  have keep : ∀ q, h.mem.byte q ≠ none → ¬ InBlock x.addr x.size q → h2.mem.byte q = h.mem.byte q := by
    intro q hq hs
    rw [s2 q hs, f3 q fun hin => hq (f1 q hin)]
  have slot : ∀ q, InBlock p x.size q → ¬ InBlock x.addr x.size q := fun q hq hs =>
    (i.own _ hself q (.inr hs)).2 (f1 q hq)
  have at_ : ∀ j, j < x.size → h2.mem.byte (p + j) = h.mem.byte (x.addr + j) := by
    intro j hj
    rw [s2 _ (slot _ ⟨by omega, by omega⟩), f2 j (by omega), bytes j (by omega)]
  have hoth := i.others (h' := h2) fun q hq hr => ⟨keep q (by
    rcases hq with hq | hq
    · obtain ⟨b, hb⟩ := Option.ne_none_iff_exists'.1 hq
      rw [i.ext q b hb]; nofun
    · exact hq) fun hs => hr (.inr hs), blk q⟩
  have bnone : ∀ q, h.mem.byte q = none → base.mem.byte q = none := by
    intro q hq
    cases hc : base.mem.byte q with
    | none => rfl
    | some b => rw [i.ext q b hc] at hq; cases hq
  have full : ∀ q, InBlock p x.size q → h2.mem.byte q ≠ none := by
    intro q hq
    have := hq.1
    have := hq.2
    have e := at_ (q - p) (by omega)
    rw [Nat.add_sub_cancel' hq.1] at e
    rw [e]
    exact (i.own _ hself _ (.inr ⟨by show x.addr ≤ _; omega, by show _ < x.addr + x.size; omega⟩)).2
  have inner : ∀ q, new q → ¬ InBlock p x.size q := fun q hq hin => (i.own _ hself q (.inl hq)).2 (f1 q hin)
  refine ⟨?_, i.tidyBase, ?_, ?_, ?_, ?_, ?_, ?_, ?_, ?_, ?_⟩
  · exact ((List.perm_cons _).1 i.perm).cons _
  · intro q hq
    rw [blk]
    by_cases hs : InBlock x.addr x.size q
    · exact i.slot _ hself q hs
    · by_cases hp : InBlock p x.size q
      · exact absurd hq (full q hp)
      · exact i.tidy q (by rw [← hq, s2 q hs, f3 q hp])
  · intro r hr
    rcases List.mem_cons.1 hr with rfl | hr
    · exact (i.good _ hself).keep ⟨fun q hq => ⟨keep q (i.own _ hself q (.inl hq)).2 (i.inner _ hself q hq), blk q⟩,
        at_⟩
    · exact (hoth r hr).1
  · intro r hr
    rcases List.mem_cons.1 hr with rfl | hr
    · exact i.dead (x, new) hself
    · exact i.dead r (List.mem_cons_of_mem _ hr)
  · intro r hr
    rcases List.mem_cons.1 hr with rfl | hr
    · exact inner
    · exact i.inner r (List.mem_cons_of_mem _ hr)
  · obtain ⟨a1, a2⟩ := List.pairwise_cons.1 i.apart
    refine List.pairwise_cons.2 ⟨fun r hr q hq hq' => ?_, a2⟩
    rcases hq with hq | hq
    · exact a1 r hr q (.inl hq) hq'
    · exact (i.own r (List.mem_cons_of_mem _ hr) q hq').2 (f1 q hq)
  · intro r hr q hq
    rcases List.mem_cons.1 hr with rfl | hr
    · rcases hq with hq | hq
      · rw [keep q (i.own _ hself q (.inl hq)).2 (i.inner _ hself q hq)]
        exact i.own _ hself q (.inl hq)
      · exact ⟨bnone q (f1 q hq), full q hq⟩
    · exact (hoth r hr).2.1 q hq
  · intro r hr q hq
    rcases List.mem_cons.1 hr with rfl | hr
    · rw [blk]; exact i.tidy q (f1 q hq)
    · exact (hoth r hr).2.2 q hq
  · intro q hq
    have hp : ¬ InBlock p x.size q := fun h => hq _ List.mem_cons_self (.inr h)
    have hn : ¬ new q := fun h => hq _ List.mem_cons_self (.inl h)
    rw [blk]
    by_cases hs : InBlock x.addr x.size q
    · have hb := (i.own _ hself q (.inr hs)).1
      rw [s1 q hs, hb, i.slot _ hself q hs, i.tidyBase q hb]
      exact ⟨rfl, rfl⟩
    · rw [s2 q hs, f3 q hp]
      refine i.rest q fun r hr => ?_
      rcases List.mem_cons.1 hr with rfl | hr
      · exact fun h => h.elim hn hs
      · exact hq r (List.mem_cons_of_mem _ hr)
  · obtain ⟨D, e1, e2⟩ := i.count
    refine ⟨D, by rw [s4, f5, e1], ?_⟩
    cases hx : (x.live && x.array && x.depth == 0) with
    | true =>
      rw [List.filter_cons_of_pos (by exact hx)] at e2 ⊢
      exact e2
    | false =>
      rw [List.filter_cons_of_neg (by rw [hx]; nofun)] at e2
      rw [List.filter_cons_of_neg (by show ¬ (x.live && x.array && x.depth == 0) = true; rw [hx]; nofun)]
      exact e2

theorem BytesAt.unique {m : Mem} {p : Nat} {l l' : List Byte} (h : BytesAt m p l) (h' : BytesAt m p l')
    (hl : l.length = l'.length) : l = l' := by
  refine List.ext_getElem hl fun i h1 h2 => ?_
  have := h i h1
  rw [h' i h2] at this
  exact (Option.some.inj this).symm

/-- The child of a piece. -/
theorem Divided.child {x : Piece} {new : Nat → Prop} {rest : List Piece} {nl : Bool} {t : Ty}
    (i : Divided env base h (x :: rest) out ((x, new) :: parts)) (live : x.live = true) (whole : x.whole = true)
    (child : childOf x.t = some (nl, t)) :
    ∃ table slot l newc ks k, Holds h.mem (x.addr + x.children) table ∧ Holds h.mem table slot ∧ l.length = x.size ∧
      BytesAt h.mem slot l ∧ (∀ q, InBlock slot x.size q → new q ∧ ¬ newc q) ∧ (∀ q, newc q → new q) ∧
      Serves env base.mem ks (x.kid nl t 0) ∧ Chain ks l newc h ∧
      Serves env base.mem [k] { x with whole := false } ∧
      ∃ bytes, BytesAt h.mem x.addr bytes ∧ bytes.length = x.size ∧
        ∀ H, Left new newc slot x.size x.callback h H → Bare k bytes (fun q => new q ∧ ¬ newc q) H := by
  rcases i.good _ List.mem_cons_self with ⟨_, ks, bytes, h1, h2, h3, h4⟩ | ⟨hl, _⟩
  · cases h4 with
    | last bare => exact ((h1.2.2.2.2.2.2 whole nl t child).2).elim
    | @link k k' ks _ l _ newc _ slot bare stored size inside part leads kid left =>
      obtain ⟨s1, s2, s3, s4, s5, s6, s7⟩ := h1
      obtain ⟨c1, c2⟩ := s7 whole nl t child
      obtain ⟨table, t1, t2⟩ := leads h x.addr (fun _ _ => ⟨rfl, rfl⟩) h2
      rw [s3] at t1
      have e1 : k'.size = x.size := c2.1
      have e2 : k'.callback = x.callback := c2.2.1
      refine ⟨table, slot, l, newc, k' :: ks, k.bare, t1, t2, size.trans e1, stored, ?_, part, c2, kid, ?_, bytes, h2, h3, ?_⟩
      · rw [← e1]; exact inside
      · exact ⟨s1, s2, s3, s4, s5, c1, nofun⟩
      · rw [← e1, ← e2]; exact left
  · rw [live] at hl; cases hl

theorem Divided.taken {x : Piece} {new : Nat → Prop} {rest : List Piece} {nl : Bool} {t : Ty} {table slot p : Nat}
    {l : List Byte} {h1 h2 : Heap}
    (i : Divided env base h (x :: rest) out ((x, new) :: parts)) (live : x.live = true) (whole : x.whole = true)
    (child : childOf x.t = some (nl, t)) (children : Holds h.mem (x.addr + x.children) table)
    (entry : Holds h.mem table slot) (size : l.length = x.size) (bytes : BytesAt h.mem slot l)
    (to : Placed h p l h1) (mark : Nulled h1 (slot + x.callback) h2) :
    ∃ parts', Divided env base h2 ({ x with whole := false } :: x.kid nl t p :: rest) out parts' := by
  obtain ⟨table', slot', l', newc, ks, k, c1, c2, c3, c4, inside, part, sk, chain, sx, bx, b1, b2, left⟩ :=
    i.child live whole child
  obtain rfl := holds_unique children c1
  obtain rfl := holds_unique entry c2
  obtain rfl := BytesAt.unique bytes c4 (size.trans c3.symm)
  obtain ⟨f1, f2, f3, f4, f5⟩ := to
  obtain ⟨m1, m2, m3, m4⟩ := mark
  rw [size] at f1 f3
  have hself : (x, new) ∈ (x, new) :: parts := List.mem_cons_self
  have hcs := callback_size x
  have inM : ∀ q, InBlock (slot + x.callback) 8 q → new q ∧ ¬ newc q := fun q hq =>
    inside q ⟨by have := hq.1; omega, by have := hq.2; omega⟩
  have blk : ∀ q, h2.blocks q = h.blocks q := fun q => by rw [m3, f4]
  have keep : ∀ q, h.mem.byte q ≠ none → ¬ InBlock (slot + x.callback) 8 q → h2.mem.byte q = h.mem.byte q := by
    intro q hq hs
    rw [m2 q hs, f3 q fun hin => hq (f1 q hin)]
  have inN : ∀ q, new q → h.mem.byte q ≠ none := fun q hq => (i.own _ hself q (.inl hq)).2
  have slotP : ∀ q, InBlock p x.size q → ¬ InBlock (slot + x.callback) 8 q := fun q hq hs =>
    inN q (inM q hs).1 (f1 q hq)
  have at_ : BytesAt h2.mem p l := by
    intro j hj
    rw [m2 _ (slotP _ ⟨by omega, by omega⟩)]
    exact f2 j hj
  have fullM : ∀ q, InBlock (slot + x.callback) 8 q → h2.mem.byte q ≠ none := by
    intro q hq
    have := m1.2 (q - (slot + x.callback)) (by have := hq.1; have := hq.2; omega)
    rw [Nat.add_sub_cancel' hq.1] at this
    rw [this]; nofun
  have fullP : ∀ q, InBlock p x.size q → h2.mem.byte q ≠ none := by
    intro q hq
    have := at_ (q - p) (by have := hq.1; have := hq.2; omega)
    rw [Nat.add_sub_cancel' hq.1] at this
    rw [this]; nofun
  have stay : ∀ q, h.mem.byte q ≠ none → h2.mem.byte q ≠ none := by
    intro q hq
    by_cases hs : InBlock (slot + x.callback) 8 q
    · exact fullM q hs
    · rw [keep q hq hs]; exact hq
  have bnone : ∀ q, h.mem.byte q = none → base.mem.byte q = none := by
    intro q hq
    cases hc : base.mem.byte q with
    | none => rfl
    | some b => rw [i.ext q b hc] at hq; cases hq
  have hoth := i.others (h' := h2) fun q hq hr => ⟨keep q (by
    rcases hq with hq | hq
    · obtain ⟨b, hb⟩ := Option.ne_none_iff_exists'.1 hq
      rw [i.ext q b hb]; nofun
    · exact hq) fun hs => hr (.inl (inM q hs).1), blk q⟩
  have gx : Loaded env base.mem { x with whole := false } (fun q => new q ∧ ¬ newc q) h2 := by
    refine .inl ⟨live, [k], bx, sx, fun j hj => ?_, b2, .last (left h2 ⟨fun q hq _ => ⟨fun hs => keep q (inN q hq) fun hm =>
      hs ⟨by have := hm.1; omega, by have := hm.2; omega⟩, blk q⟩, fun j hj => Option.isSome_iff_ne_none.2 (stay _ (inN _ (inside _
      ⟨by omega, by omega⟩).1)), m1⟩)⟩
    have hin : InBlock x.addr x.size (x.addr + j) := ⟨by omega, by omega⟩
    rw [show h2.mem.byte (x.addr + j) = h.mem.byte (x.addr + j) from keep _ (i.own _ hself _ (.inr hin)).2 fun hs =>
      i.inner _ hself _ (inM _ hs).1 hin]
    exact b1 j hj
  have gk : Loaded env base.mem (x.kid nl t p) newc h2 :=
    .inl ⟨rfl, ks, l, sk.anywhere p, at_, size, chain.keep fun q hq =>
      ⟨keep q (inN q (part q hq)) fun hs => (inM q hs).2 hq, blk q⟩⟩
  have regX : ∀ q, Region ({ x with whole := false }, fun q => new q ∧ ¬ newc q) q → Region (x, new) q :=
    fun q hq => hq.imp And.left id
  have regK : ∀ q, Region (x.kid nl t p, newc) q → Region (x, new) q ∧ newc q ∨ InBlock p x.size q := by
    rintro q (hq | hq)
    · exact .inl ⟨.inl (part q hq), hq⟩
    · exact .inr hq
  refine ⟨({ x with whole := false }, fun q => new q ∧ ¬ newc q) :: (x.kid nl t p, newc) :: parts,
    ?_, i.tidyBase, ?_, ?_, ?_, ?_, ?_, ?_, ?_, ?_, ?_⟩
  · exact (((List.perm_cons _).1 i.perm).cons _).cons _
  · intro q hq
    rw [blk]
    refine i.tidy q ?_
    cases hc : h.mem.byte q with
    | none => rfl
    | some b => exact absurd hq (stay q (by rw [hc]; nofun))
  · intro r hr
    rcases List.mem_cons.1 hr with rfl | hr
    · exact gx
    rcases List.mem_cons.1 hr with rfl | hr
    · exact gk
    · exact (hoth r hr).1
  · intro r hr
    rcases List.mem_cons.1 hr with rfl | hr
    · intro hd; rw [show x.live = false from hd] at live; cases live
    rcases List.mem_cons.1 hr with rfl | hr
    · nofun
    · exact i.dead r (List.mem_cons_of_mem _ hr)
  · intro r hr
    rcases List.mem_cons.1 hr with rfl | hr
    · exact fun q hq => i.inner _ hself q hq.1
    rcases List.mem_cons.1 hr with rfl | hr
    · exact fun q hq hin => inN q (part q hq) (f1 q hin)
    · exact i.inner r (List.mem_cons_of_mem _ hr)
  · obtain ⟨a1, a2⟩ := List.pairwise_cons.1 i.apart
    refine List.pairwise_cons.2 ⟨fun r hr q hq hq' => ?_, List.pairwise_cons.2 ⟨fun r hr q hq hq' => ?_, a2⟩⟩
    · rcases List.mem_cons.1 hr with rfl | hr
      · rcases hq' with hq' | hq'
        · exact hq.elim (fun h => h.2 hq') fun h => i.inner _ hself q (part q hq') h
        · exact (i.own _ hself q (regX q hq)).2 (f1 q hq')
      · exact a1 r hr q (regX q hq) hq'
    · rcases regK q hq with hq | hq
      · exact a1 r hr q hq.1 hq'
      · exact (i.own r (List.mem_cons_of_mem _ hr) q hq').2 (f1 q hq)
  · intro r hr q hq
    rcases List.mem_cons.1 hr with rfl | hr
    · have := i.own _ hself q (regX q hq)
      exact ⟨this.1, stay q this.2⟩
    rcases List.mem_cons.1 hr with rfl | hr
    · rcases regK q hq with hq | hq
      · have := i.own _ hself q hq.1
        exact ⟨this.1, stay q this.2⟩
      · exact ⟨bnone q (f1 q hq), fullP q hq⟩
    · exact (hoth r hr).2.1 q hq
  · intro r hr q hq
    rcases List.mem_cons.1 hr with rfl | hr
    · rw [blk]; exact i.slot _ hself q hq
    rcases List.mem_cons.1 hr with rfl | hr
    · rw [blk]; exact i.tidy q (f1 q hq)
    · exact (hoth r hr).2.2 q hq
  · intro q hq
    have hX := hq _ List.mem_cons_self
    have hK := hq _ (List.mem_cons_of_mem _ List.mem_cons_self)
    have hn : ¬ new q := fun hn => by
      by_cases hc : newc q
      · exact hK (.inl hc)
      · exact hX (.inl ⟨hn, hc⟩)
    rw [blk, m2 q fun hs => hn (inM q hs).1, f3 q fun h => hK (.inr h)]
    refine i.rest q fun r hr => ?_
    rcases List.mem_cons.1 hr with rfl | hr
    · exact fun h => h.elim hn fun h => hX (.inr h)
    · exact hq r (List.mem_cons_of_mem _ (List.mem_cons_of_mem _ hr))
  · obtain ⟨D, e1, e2⟩ := i.count
    refine ⟨D, by rw [m4, f5, e1], ?_⟩
    cases hx : (x.live && x.array && x.depth == 0) with
    | true =>
      rw [List.filter_cons_of_pos (by exact hx)] at e2 ⊢
      rw [List.filter_cons_of_neg (by simp)]
      exact e2
    | false =>
      rw [List.filter_cons_of_neg (by rw [hx]; nofun)] at e2
      rw [List.filter_cons_of_neg (by show ¬ (x.live && x.array && x.depth == 0) = true; rw [hx]; nofun),
        List.filter_cons_of_neg (by simp)]
      exact e2

theorem Divided.child_drop {x : Piece} {new : Nat → Prop} {rest : List Piece} {nl : Bool} {t : Ty}
    (i : Divided env base h (x :: rest) out ((x, new) :: parts)) (live : x.live = true) (whole : x.whole = true)
    (child : childOf x.t = some (nl, t)) :
    ∃ table slot, Holds h.mem (x.addr + x.children) table ∧ Holds h.mem table slot ∧
      ∃ h', (x.kid nl t slot).drop env h = .ok h' := by
  obtain ⟨table, slot, l, newc, ks, k, c1, c2, c3, c4, inside, part, sk, chain, _⟩ := i.child live whole child
  have lk : Loaded env base.mem (x.kid nl t slot) newc h := .inl ⟨rfl, ks, l, sk.anywhere slot, c4, c3, chain⟩
  obtain ⟨h', w, _⟩ := (lk.usable fun q hq hin => (inside q hin).2 hq).drop
  exact ⟨table, slot, c1, c2, h', w⟩

theorem Divided.disowned {x : Piece} {new : Nat → Prop} {rest : List Piece} {nl : Bool} {t : Ty} {table slot : Nat}
    {h' : Heap} (i : Divided env base h (x :: rest) out ((x, new) :: parts)) (live : x.live = true)
    (whole : x.whole = true) (child : childOf x.t = some (nl, t)) (children : Holds h.mem (x.addr + x.children) table)
    (entry : Holds h.mem table slot) (call : (x.kid nl t slot).drop env h = .ok h') :
    ∃ parts', Divided env base h' ({ x with whole := false } :: rest) out parts' := by
  obtain ⟨table', slot', l, newc, ks, k, c1, c2, c3, c4, inside, part, sk, chain, sx, bx, b1, b2, left⟩ :=
    i.child live whole child
  obtain rfl := holds_unique children c1
  obtain rfl := holds_unique entry c2
  have hself : (x, new) ∈ (x, new) :: parts := List.mem_cons_self
  have lk : Loaded env base.mem (x.kid nl t slot) newc h := .inl ⟨rfl, ks, l, sk.anywhere slot, c4, c3, chain⟩
  obtain ⟨H', w, ⟨gone, mem, blocks, full⟩, mark, ⟨D', d1, d2⟩, _⟩ := (lk.usable fun q hq hin => (inside q hin).2 hq).drop
  rw [call] at w
  cases w
  have d2 : D' = [] := by
    have e : Piece.owners (x.kid nl t slot) = [] := by simp [Piece.owners]
    rw [e] at d2
    exact List.map_eq_nil_iff.1 d2
  rw [d2, List.append_nil] at d1
  have inN : ∀ q, new q → h.mem.byte q ≠ none := fun q hq => (i.own _ hself q (.inl hq)).2
  have fullS : ∀ q, InBlock slot x.size q → h'.mem.byte q ≠ none := by
    intro q hq
    have := full (q - slot) (by show _ < x.size; have := hq.1; have := hq.2; omega)
    rw [show slot + (q - slot) = q by have := hq.1; omega] at this
    exact Option.isSome_iff_ne_none.1 this
  have keep : ∀ q, ¬ newc q → ¬ InBlock slot x.size q → h'.mem.byte q = h.mem.byte q := mem
  have hoth := i.others (h' := h') fun q _ hr => ⟨keep q (fun hc => hr (.inl (part q hc))) fun hs => hr (.inl (inside q hs).1),
    blocks q fun hc => hr (.inl (part q hc))⟩
  have stay : ∀ q, ¬ newc q → h.mem.byte q ≠ none → h'.mem.byte q ≠ none := by
    intro q hn hq
    by_cases hs : InBlock slot x.size q
    · exact fullS q hs
    · rw [keep q hn hs]; exact hq
  have notc : ∀ q, InBlock x.addr x.size q → ¬ newc q ∧ ¬ InBlock slot x.size q := fun q hq =>
    ⟨fun hc => i.inner _ hself q (part q hc) hq, fun hs => i.inner _ hself q (inside q hs).1 hq⟩
  have gx : Loaded env base.mem { x with whole := false } (fun q => new q ∧ ¬ newc q) h' := by
    refine .inl ⟨live, [k], bx, sx, fun j hj => ?_, b2, .last (left h' ⟨fun q hq hn => ⟨fun hs => keep q hn hs, blocks q hn⟩,
      full, mark⟩)⟩
    have hin := notc (x.addr + j) ⟨by omega, by omega⟩
    rw [show h'.mem.byte (x.addr + j) = h.mem.byte (x.addr + j) from keep _ hin.1 hin.2]
    exact b1 j hj
  have regX : ∀ q, Region ({ x with whole := false }, fun q => new q ∧ ¬ newc q) q → Region (x, new) q ∧ ¬ newc q := by
    rintro q (hq | hq)
    · exact ⟨.inl hq.1, hq.2⟩
    · exact ⟨.inr hq, (notc q hq).1⟩
  refine ⟨({ x with whole := false }, fun q => new q ∧ ¬ newc q) :: parts, ?_, i.tidyBase, ?_, ?_, ?_, ?_, ?_, ?_, ?_, ?_, ?_⟩
  · exact ((List.perm_cons _).1 i.perm).cons _
  · intro q hq
    by_cases hc : newc q
    · exact (gone q hc).2
    · rw [blocks q hc]
      refine i.tidy q ?_
      cases hb : h.mem.byte q with
      | none => rfl
      | some b => exact absurd hq (stay q hc (by rw [hb]; nofun))
  · intro r hr
    rcases List.mem_cons.1 hr with rfl | hr
    · exact gx
    · exact (hoth r hr).1
  · intro r hr
    rcases List.mem_cons.1 hr with rfl | hr
    · intro hd; rw [show x.live = false from hd] at live; cases live
    · exact i.dead r (List.mem_cons_of_mem _ hr)
  · intro r hr
    rcases List.mem_cons.1 hr with rfl | hr
    · exact fun q hq => i.inner _ hself q hq.1
    · exact i.inner r (List.mem_cons_of_mem _ hr)
  · obtain ⟨a1, a2⟩ := List.pairwise_cons.1 i.apart
    exact List.pairwise_cons.2 ⟨fun r hr q hq => a1 r hr q (regX q hq).1, a2⟩
  · intro r hr q hq
    rcases List.mem_cons.1 hr with rfl | hr
    · have := i.own _ hself q (regX q hq).1
      exact ⟨this.1, stay q (regX q hq).2 this.2⟩
    · exact (hoth r hr).2.1 q hq
  · intro r hr q hq
    rcases List.mem_cons.1 hr with rfl | hr
    · rw [blocks q (notc q hq).1]; exact i.slot _ hself q hq
    · exact (hoth r hr).2.2 q hq
  · intro q hq
    have hX := hq _ List.mem_cons_self
    by_cases hc : newc q
    · have hb := (i.own _ hself q (.inl (part q hc))).1
      rw [(gone q hc).1, (gone q hc).2, hb, i.tidyBase q hb]
      exact ⟨rfl, rfl⟩
    · have hn : ¬ new q := fun hn => hX (.inl ⟨hn, hc⟩)
      rw [keep q hc fun hs => hn (inside q hs).1, blocks q hc]
      refine i.rest q fun r hr => ?_
      rcases List.mem_cons.1 hr with rfl | hr
      · exact fun h => h.elim hn fun h => hX (.inr h)
      · exact hq r (List.mem_cons_of_mem _ hr)
  · obtain ⟨D, e1, e2⟩ := i.count
    refine ⟨D, by rw [d1, e1], ?_⟩
    cases hx : (x.live && x.array && x.depth == 0) with
    | true =>
      rw [List.filter_cons_of_pos (by exact hx)] at e2 ⊢
      exact e2
    | false =>
      rw [List.filter_cons_of_neg (by rw [hx]; nofun)] at e2
      rw [List.filter_cons_of_neg (by show ¬ (x.live && x.array && x.depth == 0) = true; rw [hx]; nofun)]
      exact e2

theorem Divided.vacated {x : Piece} {new : Nat → Prop} {rest : List Piece} {h' : Heap}
    (i : Divided env base h (x :: rest) out ((x, new) :: parts)) (released : x.live = false)
    (call : Vacated h x.addr x.size h') : Divided env base h' rest out parts := by
  obtain ⟨s1, s2, s3, s4⟩ := call
  have hself : (x, new) ∈ (x, new) :: parts := List.mem_cons_self
  have hn := i.dead _ hself released
  have hoth := i.others (h' := h') fun q _ hr => ⟨s2 q fun hs => hr (.inr hs), s3 q⟩
  refine ⟨?_, i.tidyBase, ?_, fun r hr => (hoth r hr).1, fun r hr => i.dead r (List.mem_cons_of_mem _ hr),
    fun r hr => i.inner r (List.mem_cons_of_mem _ hr), (List.pairwise_cons.1 i.apart).2, fun r hr => (hoth r hr).2.1,
    fun r hr => (hoth r hr).2.2, ?_, ?_⟩
  · exact (List.perm_cons _).1 i.perm
  · intro q hq
    rw [s3]
    by_cases hs : InBlock x.addr x.size q
    · exact i.slot _ hself q hs
    · exact i.tidy q (by rw [← hq, s2 q hs])
  · intro q hq
    rw [s3]
    by_cases hs : InBlock x.addr x.size q
    · have hb := (i.own _ hself q (.inr hs)).1
      rw [s1 q hs, hb, i.slot _ hself q hs, i.tidyBase q hb]
      exact ⟨rfl, rfl⟩
    · rw [s2 q hs]
      refine i.rest q fun r hr => ?_
      rcases List.mem_cons.1 hr with rfl | hr
      · exact fun h => h.elim (hn q) hs
      · exact hq r hr
  · obtain ⟨D, e1, e2⟩ := i.count
    refine ⟨D, by rw [s4, e1], ?_⟩
    rw [List.filter_cons_of_neg (by simp [released])] at e2
    exact e2

theorem _root_.Narrow.Ffi.Spec.Provided.mono {m m' : Mem} {nl : Bool} {t : Ty} {owner align : Nat}
    (h : Provided env m nl t owner align) (he : Extends m m') : Provided env m' nl t owner align :=
  { h with literal := fun s hs => ⟨(h.literal s hs).1, (h.literal s hs).2.1, (h.literal s hs).2.2.mono he⟩ }

theorem _root_.Narrow.Ffi.Spec.Owned.mono {m m' : Mem} {nl : Bool} {t : Ty} {c : (arrayR nl t).C} {owner : List Byte}
    {align : Nat} {a : Nat → APlace nl t} (h : Owned m nl t c owner align a) (he : Extends m m') :
    Owned m' nl t c owner align a := fun _ _ he' => h _ _ (he.trans he')

theorem session_divided (hs : Session env base h pieces out) : ∃ parts, Divided env base h pieces out parts := by
  induction hs with
  | start tidy =>
    exact ⟨[], .refl _, tidy, tidy, nofun, nofun, nofun, .nil, nofun, nofun, fun _ _ => ⟨rfl, rfl⟩, [],
      (List.append_nil _).symm, .refl _⟩
  | other _ grown ih =>
    obtain ⟨parts, i⟩ := ih
    exact ⟨parts, i.other grown⟩
  | exported _ provided owned call first second ih =>
    obtain ⟨parts, i⟩ := ih
    obtain ⟨q, a, s, hm, hx, hr⟩ := exported_root (provided.mono i.ext) (owned.mono i.ext) i.tidy 0 call
    exact ⟨_, i.exported hr hx owned (fun s hs => (provided.literal s hs).2.2) first second⟩
  | failed _ provided owned call ih =>
    obtain ⟨parts, i⟩ := ih
    obtain ⟨hm, q, _, hd⟩ := exported_failed (provided.mono i.ext) (owned.mono i.ext) i.tidy call
    exact ⟨parts, i.failed hm hd⟩
  | dropped _ one call ih =>
    obtain ⟨parts, i⟩ := ih
    obtain ⟨new, parts, i⟩ := i.first one
    exact ⟨_, i.dropped call⟩
  | moved _ one size bytes to source ih =>
    obtain ⟨parts, i⟩ := ih
    obtain ⟨new, parts, i⟩ := i.first one
    exact ⟨_, i.moved size bytes to source⟩
  | taken _ one live whole child children entry size bytes to mark ih =>
    obtain ⟨parts, i⟩ := ih
    obtain ⟨new, parts, i⟩ := i.first one
    exact i.taken live whole child children entry size bytes to mark
  | disowned _ one live whole child children entry call ih =>
    obtain ⟨parts, i⟩ := ih
    obtain ⟨new, parts, i⟩ := i.first one
    exact i.disowned live whole child children entry call
  | vacated _ one released call ih =>
    obtain ⟨parts, i⟩ := ih
    obtain ⟨new, parts, i⟩ := i.first one
    exact ⟨_, i.vacated released call⟩

theorem session_usable (hs : Session env base h pieces out) {x : Piece} (hx : x ∈ pieces) :
    Extends base.mem h.mem ∧ ∃ new, Usable env base.mem x new h := by
  obtain ⟨parts, i⟩ := session_divided hs
  obtain ⟨l1, l2, rfl⟩ := List.append_of_mem hx
  obtain ⟨new, _, i'⟩ := i.first List.perm_middle
  exact ⟨i.ext, new, i'.usable⟩

end

end Narrow.Ffi.Raw
