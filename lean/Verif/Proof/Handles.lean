import Verif.Spec.Handles
import Verif.Proof.Release

/-! # Structures released and moved by a consumer -/

namespace Narrow.Ffi

open Narrow.Ffi.Spec

theorem join_some {α : Type} {l : List (Option α)} {i : Nat} {x : α} (h : (l[i]?).join = some x) :
    l[i]? = some (some x) := by
  cases hx : l[i]? with
  | none => rw [hx] at h; cases h
  | some y =>
    rw [hx] at h
    simp only [Option.join_some] at h
    rw [h]

/-! ## Arrays -/

theorem list_count_set {e : Event} {kid new : CArray} : ∀ {l : List (Option CArray)} {i : Nat},
    l[i]? = some (some kid) →
    (listEvents (l.set i (some new))).count e + kid.dropEvents.count e =
      (listEvents l).count e + new.dropEvents.count e
  | [], i, h => by simp at h
  | x :: l, 0, h => by
    simp only [List.getElem?_cons_zero, Option.some.injEq] at h
    subst h
    simp only [List.set_cons_zero, listEvents, optEvents, List.count_append]; omega
  | x :: l, i + 1, h => by
    simp only [List.getElem?_cons_succ] at h
    have := list_count_set (e := e) (new := new) h
    simp only [List.set_cons_succ, listEvents, List.count_append]; omega

theorem drop_live {a : CArray} {p : Private} (h : a.release = some p) :
    a.dropEvents = tableEvents a.children ++
      ((match p.owner with | none => [] | some b => [.dropOwner b]) ++ [.free p.box]) := by
  obtain ⟨_, _, _, _, _, _, _, _, _⟩ := a
  simp only at h; subst h
  rw [CArray.dropEvents]; rfl

/-- Overwriting a structure changes what dropping the root does by what it does for
the structure itself. -/
theorem array_count_set {e : Event} {new : CArray} : ∀ {path : List Nat} {a node : CArray},
    arrayAt a path = some node →
    (arraySet a path new).dropEvents.count e + node.dropEvents.count e =
      a.dropEvents.count e + new.dropEvents.count e
  | [], a, node, h => by
    simp only [arrayAt] at h
    split at h
    · cases h
    · cases h; simp only [arraySet]; omega
  | i :: path, a, node, h => by
    simp only [arrayAt] at h
    split at h
    · cases h
    · next hr =>
      cases hrel : a.release with
      | none => simp [CArray.isReleased, hrel] at hr
      | some p =>
        cases hc : a.children with
        | none => rw [hc] at h; cases h
        | some l =>
          rw [hc] at h
          simp only [Option.bind_some] at h
          cases hk : (l[i]?).join with
          | none => rw [hk] at h; cases h
          | some kid =>
            rw [hk] at h
            simp only [Option.bind_some] at h
            have h1 := array_count_set (e := e) (new := new) h
            have h2 := list_count_set (e := e) (new := arraySet kid path new) (join_some hk)
            rw [drop_live (a := arraySet a (i :: path) new) (p := p) (by simp only [arraySet]; exact hrel),
              drop_live hrel]
            have h3 : (arraySet a (i :: path) new).children =
                some (l.set i (some (arraySet kid path new))) := by
              simp only [arraySet, hc, Option.map_some, hk]
            rw [h3, hc]
            simp only [tableEvents, List.count_append]
            omega

/-- What dropping all of these does. -/
def heldEvents (l : List CArray) : List Event := l.flatMap CArray.dropEvents

theorem held_count_set {e : Event} {root new : CArray} : ∀ {l : List CArray} {h : Nat},
    l[h]? = some root →
    (heldEvents (l.set h new)).count e + root.dropEvents.count e =
      (heldEvents l).count e + new.dropEvents.count e
  | [], h, hx => by simp at hx
  | x :: l, 0, hx => by
    simp only [List.getElem?_cons_zero, Option.some.injEq] at hx
    subst hx
    simp only [heldEvents, List.set_cons_zero, List.flatMap_cons, List.count_append]; omega
  | x :: l, h + 1, hx => by
    simp only [List.getElem?_cons_succ] at hx
    have := held_count_set (e := e) (new := new) hx
    simp only [heldEvents] at this
    simp only [heldEvents, List.set_cons_succ, List.flatMap_cons, List.count_append]; omega

theorem act_count (s : Arrays) (x : Act) (e : Event) :
    (s.act x).events.count e + (heldEvents (s.act x).held).count e =
      s.events.count e + (heldEvents s.held).count e := by
  cases x with
  | release h path =>
    simp only [Arrays.act]
    split
    · rfl
    · next root hr =>
      split
      · rfl
      · next node hn =>
        have h1 := array_count_set (e := e) (new := node.afterRelease) hn
        have h2 := held_count_set (e := e) (new := arraySet root path node.afterRelease) hr
        rw [released_events (after_release node)] at h1
        simp only [List.count_append, List.count_nil] at h1 ⊢
        omega
  | moveOut h path =>
    simp only [Arrays.act]
    split
    · rfl
    · next root hr =>
      split
      · rfl
      · next node hn =>
        have h1 := array_count_set (e := e) (new := { node with release := none }) hn
        have h2 := held_count_set (e := e) (new := arraySet root path { node with release := none }) hr
        rw [released_events (a := { node with release := none }) rfl] at h1
        simp only [heldEvents, List.flatMap_append, List.flatMap_cons, List.flatMap_nil,
          List.append_nil, List.count_append, List.count_nil] at h1 h2 ⊢
        omega

theorem run_counts (acts : List Act) : ∀ (s : Arrays) (e : Event),
    (s.run acts).events.count e + (heldEvents (s.run acts).held).count e =
      s.events.count e + (heldEvents s.held).count e := by
  induction acts with
  | nil => intro s e; rfl
  | cons x acts ih =>
    intro s e
    show ((s.act x).run acts).events.count e + (heldEvents ((s.act x).run acts).held).count e = _
    rw [ih, act_count]

mutual

theorem keeps_of_free (a : CArray) {b : Nat} (h : Event.free b ∈ a.dropEvents) :
    ∃ p, Keeps a p ∧ p.box = b := by
  match a with
  | ⟨_, _, _, _, _, _, children, _, none⟩ => simp [CArray.dropEvents] at h
  | ⟨_, _, _, _, _, _, none, _, some p⟩ =>
    simp only [CArray.dropEvents, tableEvents, List.nil_append, List.mem_append, List.mem_singleton] at h
    rcases h with h | h
    · split at h <;> simp at h
    · cases h; exact ⟨p, .own rfl, rfl⟩
  | ⟨_, _, _, _, _, _, some l, _, some p⟩ =>
    simp only [CArray.dropEvents, tableEvents, List.mem_append, List.mem_singleton] at h
    rcases h with h | h | h
    · obtain ⟨kid, hk, q, h1, h2⟩ := list_of_free l h
      exact ⟨q, .child rfl rfl hk h1, h2⟩
    · split at h <;> simp at h
    · cases h; exact ⟨p, .own rfl, rfl⟩

theorem list_of_free (l : List (Option CArray)) {b : Nat} (h : Event.free b ∈ listEvents l) :
    ∃ kid, some kid ∈ l ∧ ∃ p, Keeps kid p ∧ p.box = b := by
  match l with
  | [] => simp [listEvents] at h
  | none :: l =>
    simp only [listEvents, optEvents, List.nil_append] at h
    obtain ⟨kid, h1, h2⟩ := list_of_free l h
    exact ⟨kid, List.mem_cons_of_mem _ h1, h2⟩
  | some a :: l =>
    simp only [listEvents, optEvents, List.mem_append] at h
    rcases h with h | h
    · exact ⟨a, List.mem_cons_self, keeps_of_free a h⟩
    · obtain ⟨kid, h1, h2⟩ := list_of_free l h
      exact ⟨kid, List.mem_cons_of_mem _ h1, h2⟩

end

theorem list_mem {e : Event} {kid : CArray} (he : e ∈ kid.dropEvents) : ∀ {l : List (Option CArray)},
    some kid ∈ l → e ∈ listEvents l
  | x :: l, h => by
    rcases List.mem_cons.1 h with h | h
    · subst h
      simp only [listEvents, optEvents]
      exact List.mem_append_left _ he
    · simp only [listEvents]
      exact List.mem_append_right _ (list_mem he h)

theorem free_of_keeps {a : CArray} {p : Private} (h : Keeps a p) :
    Event.free p.box ∈ a.dropEvents := by
  induction h with
  | own h => rw [drop_live h]; simp
  | child h1 h2 h3 _ ih =>
    rw [drop_live h1, h2]
    exact List.mem_append_left _ (list_mem ih h3)

theorem held_free {l : List CArray} {b : Nat} :
    Event.free b ∈ heldEvents l ↔ ∃ a ∈ l, ∃ p, Keeps a p ∧ p.box = b := by
  constructor
  · intro h
    obtain ⟨a, ha, h⟩ := List.mem_flatMap.1 h
    exact ⟨a, ha, keeps_of_free a h⟩
  · rintro ⟨a, ha, p, hp, rfl⟩
    exact List.mem_flatMap.2 ⟨a, ha, free_of_keeps hp⟩

/-! The storage belongs to the root -/

/-- Dropping the children drops no storage. -/
def RootOnly (a : CArray) : Prop := ∀ b, (tableEvents a.children).count (.dropOwner b) = 0

theorem arrayAt_cons {a node : CArray} {i : Nat} {path : List Nat}
    (h : arrayAt a (i :: path) = some node) :
    ∃ l kid, a.release ≠ none ∧ a.children = some l ∧ l[i]? = some (some kid) ∧
      arrayAt kid path = some node := by
  simp only [arrayAt] at h
  split at h
  · cases h
  · next hr =>
    cases hc : a.children with
    | none => rw [hc] at h; cases h
    | some l =>
      rw [hc] at h
      simp only [Option.bind_some] at h
      cases hk : (l[i]?).join with
      | none => rw [hk] at h; cases h
      | some kid =>
        rw [hk] at h
        refine ⟨l, kid, ?_, rfl, join_some hk, h⟩
        intro h0; rw [CArray.isReleased, h0] at hr; exact hr rfl

theorem arraySet_cons {a new : CArray} {i : Nat} {path : List Nat} {l : List (Option CArray)}
    {kid : CArray} (hl : a.children = some l) (hk : l[i]? = some (some kid)) :
    arraySet a (i :: path) new =
      { a with children := some (l.set i (some (arraySet kid path new))) } := by
  simp only [arraySet, hl, Option.map_some, hk, Option.join_some]

theorem list_count_le {e : Event} {kid : CArray} : ∀ {l : List (Option CArray)} {i : Nat},
    l[i]? = some (some kid) → kid.dropEvents.count e ≤ (listEvents l).count e
  | x :: l, 0, h => by
    simp only [List.getElem?_cons_zero, Option.some.injEq] at h
    subst h
    simp only [listEvents, optEvents, List.count_append]; omega
  | x :: l, i + 1, h => by
    simp only [List.getElem?_cons_succ] at h
    have := list_count_le (e := e) h
    simp only [listEvents, List.count_append]; omega

theorem rootOnly_at : ∀ {path : List Nat} {a node : CArray}, RootOnly a →
    arrayAt a path = some node → RootOnly node
  | [], a, node, hr, h => by
    simp only [arrayAt] at h
    split at h
    · cases h
    · cases h; exact hr
  | i :: path, a, node, hr, h => by
    obtain ⟨l, kid, h0, hl, hk, h⟩ := arrayAt_cons h
    refine rootOnly_at (a := kid) (fun b => ?_) h
    have h1 := hr b
    rw [hl] at h1
    have h2 := list_count_le (e := .dropOwner b) hk
    simp only [tableEvents] at h1
    match hrel : kid.release with
    | none =>
      cases path with
      | nil => simp [arrayAt, CArray.isReleased, hrel] at h
      | cons j path => simp [arrayAt, CArray.isReleased, hrel] at h
    | some p =>
      rw [drop_live hrel, List.count_append] at h2
      omega

theorem rootOnly_set {new : CArray} (hn : RootOnly new) (h0 : new.dropEvents = []) :
    ∀ {path : List Nat} {a node : CArray}, RootOnly a →
    arrayAt a path = some node → RootOnly (arraySet a path new)
  | [], _, _, _, _ => hn
  | i :: path, a, node, hr, h => by
    obtain ⟨l, kid, -, hl, hk, h⟩ := arrayAt_cons h
    rw [arraySet_cons hl hk]
    intro b
    have h1 := hr b
    rw [hl] at h1
    have h2 := list_count_set (e := .dropOwner b) (new := arraySet kid path new) hk
    have h3 := array_count_set (e := .dropOwner b) (new := new) h
    have h4 := list_count_le (e := .dropOwner b) hk
    simp only [tableEvents] at h1 ⊢
    rw [h0] at h3
    simp only [List.count_nil] at h3
    omega

theorem act_rootOnly {s : Arrays} (x : Act) (hs : ∀ a ∈ s.held, RootOnly a) :
    ∀ a ∈ (s.act x).held, RootOnly a := by
  cases x with
  | release h path =>
    simp only [Arrays.act]
    split
    · exact hs
    · next root hr =>
      split
      · exact hs
      · next node hn =>
        intro a ha
        rcases List.mem_or_eq_of_mem_set ha with h1 | h1
        · exact hs a h1
        · rw [h1]
          exact rootOnly_set (fun _ => rfl) (released_events rfl) (hs root (List.mem_of_getElem? hr)) hn
  | moveOut h path =>
    simp only [Arrays.act]
    split
    · exact hs
    · next root hr =>
      split
      · exact hs
      · next node hn =>
        have h0 := hs root (List.mem_of_getElem? hr)
        have hn' := rootOnly_at h0 hn
        intro a ha
        rcases List.mem_append.1 ha with ha | ha
        · rcases List.mem_or_eq_of_mem_set ha with h1 | h1
          · exact hs a h1
          · rw [h1]
            exact rootOnly_set (new := { node with release := none }) hn' (released_events rfl) h0 hn
        · rw [List.mem_singleton.1 ha]; exact hn'

theorem run_rootOnly (acts : List Act) : ∀ (s : Arrays), (∀ a ∈ s.held, RootOnly a) →
    ∀ a ∈ (s.run acts).held, RootOnly a := by
  induction acts with
  | nil => intro s h; exact h
  | cons x acts ih => intro s h; exact ih _ (act_rootOnly x h)

theorem owner_at_root {a : CArray} {b : List Nat} (hr : RootOnly a) :
    Event.dropOwner b ∈ a.dropEvents ↔ ∃ p, a.release = some p ∧ p.owner = some b := by
  cases hrel : a.release with
  | none => rw [released_events hrel]; simp
  | some p =>
    rw [drop_live hrel]
    have := hr b
    rw [List.count_eq_zero] at this
    simp only [List.mem_append, this, false_or, Option.some.injEq, List.mem_singleton]
    constructor
    · rintro (h | h)
      · split at h
        · cases h
        · next ho => simp at h; exact ⟨p, rfl, by rw [ho, h]⟩
      · cases h
    · rintro ⟨q, rfl, ho⟩
      rw [ho]; simp

theorem held_root {l : List CArray} {b : List Nat} (hl : ∀ a ∈ l, RootOnly a) :
    Event.dropOwner b ∈ heldEvents l ↔ ∃ a ∈ l, ∃ p, a.release = some p ∧ p.owner = some b := by
  constructor
  · intro h
    obtain ⟨a, ha, h⟩ := List.mem_flatMap.1 h
    exact ⟨a, ha, (owner_at_root (hl a ha)).1 h⟩
  · rintro ⟨a, ha, h⟩
    exact List.mem_flatMap.2 ⟨a, ha, (owner_at_root (hl a ha)).2 h⟩

/-! Buffers -/

theorem points_at {p : Nat} : ∀ {path : List Nat} {a node : CArray}, arrayAt a path = some node →
    Points node p → Points a p
  | [], a, node, h, hp => by
    simp only [arrayAt] at h
    split at h
    · cases h
    · cases h; exact hp
  | i :: path, a, node, h, hp => by
    obtain ⟨l, kid, -, hl, hk, h⟩ := arrayAt_cons h
    exact .child hl (List.mem_of_getElem? hk) (points_at h hp)

theorem points_set {p : Nat} {new : CArray} : ∀ {path : List Nat} {a node : CArray},
    arrayAt a path = some node → Points (arraySet a path new) p → Points a p ∨ Points new p
  | [], a, node, h, hp => .inr hp
  | i :: path, a, node, h, hp => by
    obtain ⟨l, kid, -, hl, hk, h⟩ := arrayAt_cons h
    rw [arraySet_cons hl hk] at hp
    cases hp with
    | own h1 h2 h3 => exact .inl (.own h1 h2 h3)
    | child h1 h2 h3 =>
      simp only [Option.some.injEq] at h1
      subst h1
      rcases List.mem_or_eq_of_mem_set h2 with h4 | h4
      · exact .inl (.child hl h4 h3)
      · cases h4
        rcases points_set h h3 with h5 | h5
        · exact .inl (.child hl (List.mem_of_getElem? hk) h5)
        · exact .inr h5

theorem points_after {a : CArray} {p : Nat} (h : Points a.afterRelease p) : False := by
  cases h with
  | own h => cases h
  | child h => cases h

theorem points_released {a : CArray} {p : Nat} (h : Points { a with release := none } p) :
    Points a p := by
  cases h with
  | own h1 h2 h3 => exact .own h1 h2 h3
  | child h1 h2 h3 => exact .child h1 h2 h3

theorem act_points {s : Arrays} {P : Nat → Prop} (x : Act) (hs : ∀ a ∈ s.held, ∀ p, Points a p → P p) :
    ∀ a ∈ (s.act x).held, ∀ p, Points a p → P p := by
  cases x with
  | release h path =>
    simp only [Arrays.act]
    split
    · exact hs
    · next root hr =>
      split
      · exact hs
      · next node hn =>
        intro a ha p hp
        rcases List.mem_or_eq_of_mem_set ha with h1 | h1
        · exact hs a h1 p hp
        · rw [h1] at hp
          rcases points_set hn hp with h2 | h2
          · exact hs root (List.mem_of_getElem? hr) p h2
          · exact (points_after h2).elim
  | moveOut h path =>
    simp only [Arrays.act]
    split
    · exact hs
    · next root hr =>
      split
      · exact hs
      · next node hn =>
        have h0 := hs root (List.mem_of_getElem? hr)
        intro a ha p hp
        rcases List.mem_append.1 ha with ha | ha
        · rcases List.mem_or_eq_of_mem_set ha with h1 | h1
          · exact hs a h1 p hp
          · rw [h1] at hp
            rcases points_set hn hp with h2 | h2
            · exact h0 p h2
            · exact h0 p (points_at hn (points_released h2))
        · rw [List.mem_singleton.1 ha] at hp
          exact h0 p (points_at hn hp)

theorem run_points {P : Nat → Prop} (acts : List Act) : ∀ (s : Arrays),
    (∀ a ∈ s.held, ∀ p, Points a p → P p) → ∀ a ∈ (s.run acts).held, ∀ p, Points a p → P p := by
  induction acts with
  | nil => intro s h; exact h
  | cons x acts ih => intro s h; exact ih _ (act_points x h)

theorem points_into {box owner buffers kids length nullCount p} {P : Nat → Prop}
    (h : Points (intoArray box owner buffers kids length nullCount) p)
    (h1 : ∀ q ∈ buffers, q ≠ 0 → P q) (h2 : ∀ kid ∈ kids, Points kid p → P p) : P p := by
  cases h with
  | own h hp h0 =>
    refine h1 _ ?_ h0
    unfold intoArray at h
    simp only at h
    split at h
    · cases h
    · cases h; exact hp
  | child h hk h' =>
    refine h2 _ ?_ h'
    unfold intoArray at h
    simp only at h
    split at h
    · cases h
    · cases h
      obtain ⟨k, h3, h4⟩ := List.mem_map.1 hk
      cases h4; exact h3

theorem node_points : (t : Ty) → (nl : Bool) → (c : (arrayR nl t).C) → (a : APlace nl t) →
    (kids : List CArray) → (lo hi : Nat) →
    Kids t (valuesOf (baseR t) nl c) (valuesPlace nl a) kids lo hi →
    ∀ {box owner length nullCount p},
      Points (intoArray box owner (buffersOf nl t c a) kids length nullCount) p → p ∈ allBuffers t nl a
  | .bool, nl, c, a, kids, lo, hi, hk, _, _, _, _, p, h =>
    points_into (P := (· ∈ allBuffers .bool nl a)) h (fun q => buffers_mem)
      (fun kid h1 => by rw [hk.1] at h1; cases h1)
  | .prim pr, nl, c, a, kids, lo, hi, hk, _, _, _, _, p, h =>
    points_into (P := (· ∈ allBuffers (.prim pr) nl a)) h (fun q => buffers_mem)
      (fun kid h1 => by rw [hk.1] at h1; cases h1)
  | .fsl w nl' t, nl, c, a, kids, lo, hi, hk, _, _, _, _, p, h => by
    obtain ⟨kids', mid, l, h1, h2, h3, h4, h5⟩ := hk
    refine points_into (P := (· ∈ allBuffers (.fsl w nl' t) nl a)) h (fun q => buffers_mem) ?_
    intro kid h6 h7
    rw [h4] at h6
    rw [List.mem_singleton.1 h6] at h7
    have := node_points t nl' _ _ kids' lo mid h1 h7
    refine fslPlace_mem ?_
    rw [fslPlace_eq]; exact this
  | .vsl ow nl' t, nl, c, a, kids, lo, hi, hk, _, _, _, _, p, h => by
    obtain ⟨kids', mid, l, h1, h2, h3, h4, h5⟩ := hk
    refine points_into (P := (· ∈ allBuffers (.vsl ow nl' t) nl a)) h (fun q => buffers_mem) ?_
    intro kid h6 h7
    rw [h4] at h6
    rw [List.mem_singleton.1 h6] at h7
    have := node_points t nl' _ _ kids' lo mid h1 h7
    refine vslPlace_mem ?_
    rw [vslPlace_eq]; exact this

/-! Dictionaries -/

theorem encoded_at : ∀ {path : List Nat} {a node : CArray}, arrayAt a path = some node →
    Encoded node → Encoded a
  | [], a, node, h, hp => by
    simp only [arrayAt] at h
    split at h
    · cases h
    · cases h; exact hp
  | i :: path, a, node, h, hp => by
    obtain ⟨l, kid, -, hl, hk, h⟩ := arrayAt_cons h
    exact .child hl (List.mem_of_getElem? hk) (encoded_at h hp)

theorem encoded_set {new : CArray} : ∀ {path : List Nat} {a node : CArray},
    arrayAt a path = some node → Encoded (arraySet a path new) → Encoded a ∨ Encoded new
  | [], a, node, h, hp => .inr hp
  | i :: path, a, node, h, hp => by
    obtain ⟨l, kid, -, hl, hk, h⟩ := arrayAt_cons h
    rw [arraySet_cons hl hk] at hp
    cases hp with
    | own h1 => exact .inl (.own h1)
    | child h1 h2 h3 =>
      simp only [Option.some.injEq] at h1
      subst h1
      rcases List.mem_or_eq_of_mem_set h2 with h4 | h4
      · exact .inl (.child hl h4 h3)
      · cases h4
        rcases encoded_set h h3 with h5 | h5
        · exact .inl (.child hl (List.mem_of_getElem? hk) h5)
        · exact .inr h5

theorem encoded_released {a : CArray} (h : Encoded { a with release := none }) : Encoded a := by
  cases h with
  | own h1 => exact .own h1
  | child h1 h2 h3 => exact .child h1 h2 h3

theorem encoded_after {a : CArray} (h : Encoded a.afterRelease) : Encoded a := by
  cases h with
  | own h => cases h
  | child h => cases h

theorem act_encoded {s : Arrays} (x : Act) (hs : ∀ a ∈ s.held, ¬Encoded a) : ∀ a ∈ (s.act x).held, ¬Encoded a := by
  cases x with
  | release h path =>
    simp only [Arrays.act]
    split
    · exact hs
    · next root hr =>
      split
      · exact hs
      · next node hn =>
        have h0 := hs root (List.mem_of_getElem? hr)
        intro a ha hp
        rcases List.mem_or_eq_of_mem_set ha with h1 | h1
        · exact hs a h1 hp
        · rw [h1] at hp
          rcases encoded_set hn hp with h2 | h2
          · exact h0 h2
          · exact h0 (encoded_at hn (encoded_after h2))
  | moveOut h path =>
    simp only [Arrays.act]
    split
    · exact hs
    · next root hr =>
      split
      · exact hs
      · next node hn =>
        have h0 := hs root (List.mem_of_getElem? hr)
        intro a ha hp
        rcases List.mem_append.1 ha with ha | ha
        · rcases List.mem_or_eq_of_mem_set ha with h1 | h1
          · exact hs a h1 hp
          · rw [h1] at hp
            rcases encoded_set hn hp with h2 | h2
            · exact h0 h2
            · exact h0 (encoded_at hn (encoded_released h2))
        · rw [List.mem_singleton.1 ha] at hp
          exact h0 (encoded_at hn hp)

theorem run_encoded (acts : List Act) : ∀ (s : Arrays), (∀ a ∈ s.held, ¬Encoded a) →
    ∀ a ∈ (s.run acts).held, ¬Encoded a := by
  induction acts with
  | nil => intro s h; exact h
  | cons x acts ih => intro s h; exact ih _ (act_encoded x h)

theorem encoded_into {box owner buffers kids length nullCount}
    (h : Encoded (intoArray box owner buffers kids length nullCount)) : ∃ kid ∈ kids, Encoded kid := by
  cases h with
  | own h => cases h
  | child h1 h2 h3 =>
    unfold intoArray at h1
    simp only at h1
    split at h1
    · cases h1
    · cases h1
      simp only [List.mem_map, Option.some.injEq] at h2
      obtain ⟨kid, h4, rfl⟩ := h2
      exact ⟨_, h4, h3⟩

theorem kids_plain : (t : Ty) → (c : (baseR t).C) → (a : Place t) → (kids : List CArray) → (lo hi : Nat) →
    Kids t c a kids lo hi → ∀ kid ∈ kids, ¬Encoded kid
  | .bool, _, _, _, _, _, hk, _, h => by rw [hk.1] at h; cases h
  | .prim _, _, _, _, _, _, hk, _, h => by rw [hk.1] at h; cases h
  | .fsl _ nl t, c, a, kids, lo, hi, hk, kid, h => by
    obtain ⟨kids', mid, l, h1, -, -, h4, -⟩ := hk
    rw [h4] at h
    rw [List.mem_singleton.1 h]
    intro h5
    obtain ⟨kid', h6, h7⟩ := encoded_into h5
    exact kids_plain t _ _ _ _ _ h1 kid' h6 h7
  | .vsl _ nl t, c, a, kids, lo, hi, hk, kid, h => by
    obtain ⟨kids', mid, l, h1, -, -, h4, -⟩ := hk
    rw [h4] at h
    rw [List.mem_singleton.1 h]
    intro h5
    obtain ⟨kid', h6, h7⟩ := encoded_into h5
    exact kids_plain t _ _ _ _ _ h1 kid' h6 h7

/-! ## Schemas -/

/-- Structures without private data have no children. -/
inductive Tidy : CSchema → Prop
  | mk {a} : (a.release = some none → a.children = none) →
      (∀ l kid, a.children = some l → some kid ∈ l → Tidy kid) → Tidy a

theorem Tidy.flat {a : CSchema} (h : Tidy a) : a.release = some none → a.children = none := by
  cases h; assumption

theorem Tidy.kid {a kid : CSchema} {l : List (Option CSchema)} (h : Tidy a) (hl : a.children = some l)
    (hk : some kid ∈ l) : Tidy kid := by
  cases h with | mk _ h => exact h l kid hl hk

theorem schema_list_count_set {e : Event} {kid new : CSchema} : ∀ {l : List (Option CSchema)} {i : Nat},
    l[i]? = some (some kid) →
    (schemaListEvents (l.set i (some new))).count e + kid.dropEvents.count e =
      (schemaListEvents l).count e + new.dropEvents.count e
  | [], i, h => by simp at h
  | x :: l, 0, h => by
    simp only [List.getElem?_cons_zero, Option.some.injEq] at h
    subst h
    simp only [List.set_cons_zero, schemaListEvents, schemaOptEvents, List.count_append]; omega
  | x :: l, i + 1, h => by
    simp only [List.getElem?_cons_succ] at h
    have := schema_list_count_set (e := e) (new := new) h
    simp only [List.set_cons_succ, schemaListEvents, List.count_append]; omega

theorem schema_drop_live {a : CSchema} {box : Nat} (h : a.release = some (some box)) :
    a.dropEvents = schemaTableEvents a.children ++ [.free box] := by
  obtain ⟨_, _, _, _, _, _, _, _⟩ := a
  simp only at h; subst h
  rw [CSchema.dropEvents]

/-- What the path leads through. -/
theorem schemaAt_cons {a node : CSchema} {i : Nat} {path : List Nat}
    (h : schemaAt a (i :: path) = some node) :
    ∃ l kid, a.release ≠ none ∧ a.children = some l ∧ l[i]? = some (some kid) ∧
      schemaAt kid path = some node := by
  simp only [schemaAt] at h
  split at h
  · cases h
  · next hr =>
    cases hc : a.children with
    | none => rw [hc] at h; cases h
    | some l =>
      rw [hc] at h
      simp only [Option.bind_some] at h
      cases hk : (l[i]?).join with
      | none => rw [hk] at h; cases h
      | some kid =>
        rw [hk] at h
        refine ⟨l, kid, ?_, rfl, join_some hk, h⟩
        intro h0; rw [CSchema.isReleased, h0] at hr; exact hr rfl

theorem schemaSet_cons {a new : CSchema} {i : Nat} {path : List Nat} {l : List (Option CSchema)}
    {kid : CSchema} (hl : a.children = some l) (hk : l[i]? = some (some kid)) :
    schemaSet a (i :: path) new =
      { a with children := some (l.set i (some (schemaSet kid path new))) } := by
  simp only [schemaSet, hl, Option.map_some, hk, Option.join_some]

theorem schema_count_set {e : Event} {new : CSchema} : ∀ {path : List Nat} {a node : CSchema},
    Tidy a → schemaAt a path = some node →
    (schemaSet a path new).dropEvents.count e + node.dropEvents.count e =
      a.dropEvents.count e + new.dropEvents.count e
  | [], a, node, _, h => by
    simp only [schemaAt] at h
    split at h
    · cases h
    · cases h; simp only [schemaSet]; omega
  | i :: path, a, node, ht, h => by
    obtain ⟨l, kid, hr, hl, hk, h⟩ := schemaAt_cons h
    have h1 := schema_count_set (e := e) (new := new) (ht.kid hl (List.mem_of_getElem? hk)) h
    have h2 := schema_list_count_set (e := e) (new := schemaSet kid path new) hk
    match hrel : a.release with
    | none => exact absurd hrel hr
    | some none => rw [ht.flat hrel] at hl; cases hl
    | some (some box) =>
      rw [schemaSet_cons hl hk, schema_drop_live (a := { a with children := _ }) hrel,
        schema_drop_live hrel, hl]
      simp only [schemaTableEvents, List.count_append]
      omega

theorem tidy_released {a : CSchema} (h : Tidy a) : Tidy { a with release := none } :=
  ⟨(nomatch ·), fun _ _ => h.kid⟩

theorem tidy_after {a : CSchema} (h : Tidy a) : Tidy a.afterRelease := by
  unfold CSchema.afterRelease
  split
  · exact ⟨(nomatch ·), fun _ _ h => nomatch h⟩
  · exact tidy_released h

theorem tidy_at : ∀ {path : List Nat} {a node : CSchema}, Tidy a → schemaAt a path = some node → Tidy node
  | [], a, node, ht, h => by
    simp only [schemaAt] at h
    split at h
    · cases h
    · cases h; exact ht
  | i :: path, a, node, ht, h => by
    obtain ⟨l, kid, hr, hl, hk, h⟩ := schemaAt_cons h
    exact tidy_at (ht.kid hl (List.mem_of_getElem? hk)) h

theorem tidy_set {new : CSchema} (hn : Tidy new) : ∀ {path : List Nat} {a node : CSchema}, Tidy a →
    schemaAt a path = some node → Tidy (schemaSet a path new)
  | [], a, node, ht, h => hn
  | i :: path, a, node, ht, h => by
    obtain ⟨l, kid, hr, hl, hk, h⟩ := schemaAt_cons h
    have ih := tidy_set hn (ht.kid hl (List.mem_of_getElem? hk)) h
    rw [schemaSet_cons hl hk]
    refine ⟨fun h0 => ?_, fun l' kid' hl' hk' => ?_⟩
    · have := ht.flat h0
      rw [hl] at this; cases this
    · cases hl'
      rcases List.mem_or_eq_of_mem_set hk' with h1 | h1
      · exact ht.kid hl h1
      · cases h1; exact ih

/-- What dropping all of these does. -/
def heldSchemaEvents (l : List CSchema) : List Event := l.flatMap CSchema.dropEvents

theorem held_schema_count_set {e : Event} {root new : CSchema} : ∀ {l : List CSchema} {h : Nat},
    l[h]? = some root →
    (heldSchemaEvents (l.set h new)).count e + root.dropEvents.count e =
      (heldSchemaEvents l).count e + new.dropEvents.count e
  | [], h, hx => by simp at hx
  | x :: l, 0, hx => by
    simp only [List.getElem?_cons_zero, Option.some.injEq] at hx
    subst hx
    simp only [heldSchemaEvents, List.set_cons_zero, List.flatMap_cons, List.count_append]; omega
  | x :: l, h + 1, hx => by
    simp only [List.getElem?_cons_succ] at hx
    have := held_schema_count_set (e := e) (new := new) hx
    simp only [heldSchemaEvents] at this
    simp only [heldSchemaEvents, List.set_cons_succ, List.flatMap_cons, List.count_append]; omega

theorem schema_act {s : Schemas} (x : Act) (ht : ∀ a ∈ s.held, Tidy a) :
    (∀ a ∈ (s.act x).held, Tidy a) ∧ ∀ e : Event,
      (s.act x).events.count e + (heldSchemaEvents (s.act x).held).count e =
        s.events.count e + (heldSchemaEvents s.held).count e := by
  cases x with
  | release h path =>
    simp only [Schemas.act]
    split
    · exact ⟨ht, fun _ => rfl⟩
    · next root hr =>
      split
      · exact ⟨ht, fun _ => rfl⟩
      · next node hn =>
        have h0 := ht root (List.mem_of_getElem? hr)
        refine ⟨fun a ha => ?_, fun e => ?_⟩
        · rcases List.mem_or_eq_of_mem_set ha with h1 | h1
          · exact ht a h1
          · rw [h1]; exact tidy_set (tidy_after (tidy_at h0 hn)) h0 hn
        · have h1 := schema_count_set (e := e) (new := node.afterRelease) h0 hn
          have h2 := held_schema_count_set (e := e) (new := schemaSet root path node.afterRelease) hr
          rw [released_schema_events (after_schema_release node)] at h1
          simp only [List.count_append, List.count_nil] at h1 ⊢
          omega
  | moveOut h path =>
    simp only [Schemas.act]
    split
    · exact ⟨ht, fun _ => rfl⟩
    · next root hr =>
      split
      · exact ⟨ht, fun _ => rfl⟩
      · next node hn =>
        have h0 := ht root (List.mem_of_getElem? hr)
        have hn' := tidy_at h0 hn
        refine ⟨fun a ha => ?_, fun e => ?_⟩
        · rcases List.mem_append.1 ha with ha | ha
          · rcases List.mem_or_eq_of_mem_set ha with h1 | h1
            · exact ht a h1
            · rw [h1]; exact tidy_set (tidy_released hn') h0 hn
          · rw [List.mem_singleton.1 ha]; exact hn'
        · have h1 := schema_count_set (e := e) (new := { node with release := none }) h0 hn
          have h2 := held_schema_count_set (e := e)
            (new := schemaSet root path { node with release := none }) hr
          rw [released_schema_events (a := { node with release := none }) rfl] at h1
          simp only [heldSchemaEvents, List.flatMap_append, List.flatMap_cons, List.flatMap_nil,
            List.append_nil, List.count_append, List.count_nil] at h1 h2 ⊢
          omega

theorem schema_run_counts (acts : List Act) : ∀ (s : Schemas), (∀ a ∈ s.held, Tidy a) → ∀ (e : Event),
    (s.run acts).events.count e + (heldSchemaEvents (s.run acts).held).count e =
      s.events.count e + (heldSchemaEvents s.held).count e := by
  induction acts with
  | nil => intro s _ e; rfl
  | cons x acts ih =>
    intro s ht e
    show ((s.act x).run acts).events.count e + (heldSchemaEvents ((s.act x).run acts).held).count e = _
    rw [ih _ (schema_act x ht).1, (schema_act x ht).2]

mutual

theorem keepsBox_of_free (a : CSchema) {b : Nat} (h : Event.free b ∈ a.dropEvents) : KeepsBox a b := by
  match a with
  | ⟨_, _, _, _, _, children, _, none⟩ => simp [CSchema.dropEvents] at h
  | ⟨_, _, _, _, _, children, _, some none⟩ => simp [CSchema.dropEvents] at h
  | ⟨_, _, _, _, _, none, _, some (some p)⟩ =>
    simp only [CSchema.dropEvents, schemaTableEvents, List.nil_append, List.mem_singleton] at h
    cases h; exact .own rfl
  | ⟨_, _, _, _, _, some l, _, some (some p)⟩ =>
    simp only [CSchema.dropEvents, schemaTableEvents, List.mem_append, List.mem_singleton] at h
    rcases h with h | h
    · obtain ⟨kid, hk, h1⟩ := schema_list_of_free l h
      exact .child rfl rfl hk h1
    · cases h; exact .own rfl

theorem schema_list_of_free (l : List (Option CSchema)) {b : Nat}
    (h : Event.free b ∈ schemaListEvents l) : ∃ kid, some kid ∈ l ∧ KeepsBox kid b := by
  match l with
  | [] => simp [schemaListEvents] at h
  | none :: l =>
    simp only [schemaListEvents, schemaOptEvents, List.nil_append] at h
    obtain ⟨kid, h1, h2⟩ := schema_list_of_free l h
    exact ⟨kid, List.mem_cons_of_mem _ h1, h2⟩
  | some a :: l =>
    simp only [schemaListEvents, schemaOptEvents, List.mem_append] at h
    rcases h with h | h
    · exact ⟨a, List.mem_cons_self, keepsBox_of_free a h⟩
    · obtain ⟨kid, h1, h2⟩ := schema_list_of_free l h
      exact ⟨kid, List.mem_cons_of_mem _ h1, h2⟩

end

theorem schema_list_mem {e : Event} {kid : CSchema} (he : e ∈ kid.dropEvents) :
    ∀ {l : List (Option CSchema)}, some kid ∈ l → e ∈ schemaListEvents l
  | x :: l, h => by
    rcases List.mem_cons.1 h with h | h
    · subst h
      simp only [schemaListEvents, schemaOptEvents]
      exact List.mem_append_left _ he
    · simp only [schemaListEvents]
      exact List.mem_append_right _ (schema_list_mem he h)

theorem free_of_keepsBox {a : CSchema} {b : Nat} (h : KeepsBox a b) : Event.free b ∈ a.dropEvents := by
  induction h with
  | own h => rw [schema_drop_live h]; simp
  | child h1 h2 h3 _ ih =>
    rw [schema_drop_live h1, h2]
    exact List.mem_append_left _ (schema_list_mem ih h3)

theorem held_schema_free {l : List CSchema} {b : Nat} :
    Event.free b ∈ heldSchemaEvents l ↔ ∃ a ∈ l, KeepsBox a b := by
  constructor
  · intro h
    obtain ⟨a, ha, h⟩ := List.mem_flatMap.1 h
    exact ⟨a, ha, keepsBox_of_free a h⟩
  · rintro ⟨a, ha, h⟩
    exact List.mem_flatMap.2 ⟨a, ha, free_of_keepsBox h⟩

theorem schema_tidy : (t : Ty) → (nl : Bool) → (s : Nat) → Tidy (schemaOf t nl s).1
  | .bool, _, _ => ⟨fun _ => rfl, fun _ _ h => nomatch h⟩
  | .prim _, _, _ => ⟨fun _ => rfl, fun _ _ h => nomatch h⟩
  | .fsl _ nl' t, _, s => ⟨(nomatch ·), fun l kid h hk => by
      cases h
      simp only [List.mem_singleton, Option.some.injEq] at hk
      rw [hk]; exact schema_tidy t nl' s⟩
  | .vsl _ nl' t, _, s => ⟨(nomatch ·), fun l kid h hk => by
      cases h
      simp only [List.mem_singleton, Option.some.injEq] at hk
      rw [hk]; exact schema_tidy t nl' s⟩

/-! Dictionaries -/

theorem encodedSchema_at : ∀ {path : List Nat} {a node : CSchema}, schemaAt a path = some node →
    EncodedSchema node → EncodedSchema a
  | [], a, node, h, hp => by
    simp only [schemaAt] at h
    split at h
    · cases h
    · cases h; exact hp
  | i :: path, a, node, h, hp => by
    obtain ⟨l, kid, -, hl, hk, h⟩ := schemaAt_cons h
    exact .child hl (List.mem_of_getElem? hk) (encodedSchema_at h hp)

theorem encodedSchema_set {new : CSchema} : ∀ {path : List Nat} {a node : CSchema},
    schemaAt a path = some node → EncodedSchema (schemaSet a path new) → EncodedSchema a ∨ EncodedSchema new
  | [], a, node, h, hp => .inr hp
  | i :: path, a, node, h, hp => by
    obtain ⟨l, kid, -, hl, hk, h⟩ := schemaAt_cons h
    rw [schemaSet_cons hl hk] at hp
    cases hp with
    | own h1 => exact .inl (.own h1)
    | child h1 h2 h3 =>
      simp only [Option.some.injEq] at h1
      subst h1
      rcases List.mem_or_eq_of_mem_set h2 with h4 | h4
      · exact .inl (.child hl h4 h3)
      · cases h4
        rcases encodedSchema_set h h3 with h5 | h5
        · exact .inl (.child hl (List.mem_of_getElem? hk) h5)
        · exact .inr h5

theorem encodedSchema_released {a : CSchema} (h : EncodedSchema { a with release := none }) : EncodedSchema a := by
  cases h with
  | own h1 => exact .own h1
  | child h1 h2 h3 => exact .child h1 h2 h3

theorem encodedSchema_after {a : CSchema} (h : EncodedSchema a.afterRelease) : EncodedSchema a := by
  unfold CSchema.afterRelease at h
  split at h
  · cases h with
    | own h => cases h
    | child h => cases h
  · exact encodedSchema_released h

theorem act_encodedSchema {s : Schemas} (x : Act) (hs : ∀ a ∈ s.held, ¬EncodedSchema a) : ∀ a ∈ (s.act x).held, ¬EncodedSchema a := by
  cases x with
  | release h path =>
    simp only [Schemas.act]
    split
    · exact hs
    · next root hr =>
      split
      · exact hs
      · next node hn =>
        have h0 := hs root (List.mem_of_getElem? hr)
        intro a ha hp
        rcases List.mem_or_eq_of_mem_set ha with h1 | h1
        · exact hs a h1 hp
        · rw [h1] at hp
          rcases encodedSchema_set hn hp with h2 | h2
          · exact h0 h2
          · exact h0 (encodedSchema_at hn (encodedSchema_after h2))
  | moveOut h path =>
    simp only [Schemas.act]
    split
    · exact hs
    · next root hr =>
      split
      · exact hs
      · next node hn =>
        have h0 := hs root (List.mem_of_getElem? hr)
        intro a ha hp
        rcases List.mem_append.1 ha with ha | ha
        · rcases List.mem_or_eq_of_mem_set ha with h1 | h1
          · exact hs a h1 hp
          · rw [h1] at hp
            rcases encodedSchema_set hn hp with h2 | h2
            · exact h0 h2
            · exact h0 (encodedSchema_at hn (encodedSchema_released h2))
        · rw [List.mem_singleton.1 ha] at hp
          exact h0 (encodedSchema_at hn hp)

theorem run_encodedSchema (acts : List Act) : ∀ (s : Schemas), (∀ a ∈ s.held, ¬EncodedSchema a) →
    ∀ a ∈ (s.run acts).held, ¬EncodedSchema a := by
  induction acts with
  | nil => intro s h; exact h
  | cons x acts ih => intro s h; exact ih _ (act_encodedSchema x h)

theorem schema_plain : (t : Ty) → (nl : Bool) → (s : Nat) → ¬EncodedSchema (schemaOf t nl s).1
  | .bool, _, _, h => by
    cases h with
    | own h => cases h
    | child h => cases h
  | .prim _, _, _, h => by
    cases h with
    | own h => cases h
    | child h => cases h
  | .fsl _ nl' t, _, s, h => by
    cases h with
    | own h => cases h
    | child h hk h3 =>
      cases h
      simp only [List.mem_singleton, Option.some.injEq] at hk
      rw [hk] at h3; exact schema_plain t nl' s h3
  | .vsl _ nl' t, _, s, h => by
    cases h with
    | own h => cases h
    | child h hk h3 =>
      cases h
      simp only [List.mem_singleton, Option.some.injEq] at hk
      rw [hk] at h3; exact schema_plain t nl' s h3

end Narrow.Ffi
