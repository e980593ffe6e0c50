import Verif.Model.Items
import Verif.Props.Storages
import Verif.Props.ReadOnly
import Verif.Props.Backends
import Verif.Props.Room
import Verif.Props.ListItems

/-!
# Memory holding items of any type (C61)

`Store.collOf st A`: the collection of items `A` in storage `st`; its state is the list of
items held. `vecOf A lim d`: `Vec` with its growing calls.
-/

namespace Narrow.Props

open Spec

variable {T : Type} {A : Item T}

/-- The owned value of the view of `x` is `f x`. -/
def Converts (A : Item T) (f : T → T) : Prop :=
  ∀ x, ∃ v, A.asView x = .ok v ∧ A.intoOwned v = .ok (f x)

/-- Views convert back into their items. -/
def Faithful (A : Item T) : Prop := Converts A fun x => x

/-- What `into_iter_owned` hands out: the items themselves if the storage owns them alone,
the owned values of their views if it is borrowed or shared. -/
def handedOut (f : T → T) : Store → List T → List T
  | .vec, l | .box, l | .array, l => l
  | .slice, l | .rc, l | .arc, l => l.map f

/-! ## Proofs -/

theorem viewOf_some (l : List T) {i : Nat} (h : i < l.length) :
    Store.viewOf A l i = (A.asView l[i]).map some := by
  simp [Store.viewOf, List.getElem?_eq_getElem h]

theorem viewOf_none (l : List T) {i : Nat} (h : l.length ≤ i) : Store.viewOf A l i = .ok none := by
  simp [Store.viewOf, List.getElem?_eq_none h]

theorem views_iterate {f : T → T} (ha : Converts A f) (l : List T) :
    Iterates (Store.nextOf A) (fun l => .ok l.length) A.intoOwned l (l.map f) := by
  intro n
  refine iterates_of (Rep := fun (it : List T) m => m = it.map f) ?_ ?_ ?_ n rfl
  · rintro it h
    cases it with
    | nil => exact ⟨[], rfl, rfl⟩
    | cons x l => cases h
  · rintro it o m h
    cases it with
    | nil => cases h
    | cons x l =>
      cases h
      obtain ⟨v, h1, h2⟩ := ha x
      exact ⟨v, l, by simp [Store.nextOf, h1, Res.map], h2, rfl⟩
  · rintro it m rfl; simp

theorem converted_iterates {f : T → T} (ha : Converts A f) (l : List T) (hl : l.length ≤ usizeMax) :
    Iterates (OwnIt.converted A).next (OwnIt.converted A).len Res.ok (SliceIntoIter.new l) (l.map f) := by
  intro n
  refine iterates_of (Rep := fun (it : SliceIntoIter T) m =>
    it.index ≤ it.slice.length ∧ it.slice.length ≤ usizeMax ∧ (it.slice.drop it.index).map f = m)
    ?_ ?_ ?_ n ⟨Nat.zero_le _, hl, rfl⟩
  · rintro it ⟨h1, h2, h3⟩
    have : it.slice.length ≤ it.index := by
      have := congrArg List.length h3; simp at this; omega
    exact ⟨it, by simp [List.getElem?_eq_none this], h1, h2, h3⟩
  · rintro ⟨s, k⟩ a r ⟨h1, h2, h3⟩
    simp only at h1 h2 h3
    have h5 : k < s.length := by
      have := congrArg List.length h3; simp at this; omega
    rw [List.drop_eq_getElem_cons h5] at h3
    simp only [List.map_cons, List.cons.injEq] at h3
    obtain ⟨rfl, rfl⟩ := h3
    obtain ⟨v, h6, h7⟩ := ha s[k]
    have h8 : k + 1 ≤ usizeMax := by omega
    exact ⟨_, ⟨s, k + 1⟩, by
      simp [List.getElem?_eq_getElem h5, strictAdd, h8, Res.bind, Res.map, h6, h7], rfl, h5, h2, rfl⟩
  · rintro it r ⟨h1, h2, h3⟩
    show it.len = _
    rw [indexed_len it h1, ← h3, List.length_map]

/-! ## C61 -/

/-- C61. Whatever the item type does, reading by reference shows the owned values of the
views, at every index and in order; what is handed out by value depends on who owns the
items. -/
theorem C61_shows {f : T → T} (ha : Converts A f) (st : Store) (l : List T)
    (hl : l.length ≤ usizeMax) :
    (st.collOf A).len l = .ok l.length ∧
    (∀ i (h : i < l.length), (st.collOf A).owned l i = .ok (some (f l[i]))) ∧
    (∀ i, l.length ≤ i → (st.collOf A).view l i = .ok none) ∧
    (∃ it, (st.collOf A).iter l = .ok it ∧
      Iterates (st.collOf A).inext (st.collOf A).ilen (st.collOf A).toOwned it (l.map f)) ∧
    (∃ it, (st.collOf A).into l = .ok it ∧
      Iterates (st.collOf A).jnext (st.collOf A).jlen Res.ok it (handedOut f st l)) := by
  refine ⟨by cases st <;> rfl, ?_, fun i h => viewOf_none l h, ⟨l, rfl, views_iterate ha l⟩, ?_⟩
  · intro i h
    obtain ⟨v, h1, h2⟩ := ha l[i]
    unfold Coll.owned
    rw [show (st.collOf A).view l i = _ from viewOf_some l h, h1]
    simp [Res.map, h2]
  · cases st
    · exact ⟨l, rfl, list_iterates l⟩
    · exact ⟨l, rfl, list_iterates l⟩
    · exact ⟨.new l, rfl, converted_iterates ha l hl⟩
    · exact ⟨.new l, rfl, converted_iterates ha l hl⟩
    · exact ⟨.new l, rfl, converted_iterates ha l hl⟩
    · exact ⟨l, rfl, list_iterates l⟩

/-- C61. If views convert back into their items, every way of reading shows the items, in
every storage. -/
theorem C61_reads (ha : Faithful A) (st : Store) (l : List T) (hl : l.length ≤ usizeMax) :
    Reads (st.collOf A) l l := by
  obtain ⟨h1, h2, -, h3, h4⟩ := C61_shows ha st l hl
  have e : handedOut (fun x => x) st l = l := by cases st <;> simp [handedOut]
  rw [e] at h4
  simp only [List.map_id'] at h3
  exact ⟨h1, h2, h3, h4⟩

theorem cloneAll_eq {clone : T → Res T} (hc : ∀ x, clone x = .ok x) (l : List T) :
    cloneAll clone l = .ok l := by
  induction l with
  | nil => rfl
  | cons x l ih => simp [cloneAll, hc x, ih, Res.bind, Res.map]

/-- C61. The views of the library's item types convert back: booleans and fixed-size values,
arrays and vectors whose elements are cloned faithfully, and optional items. -/
theorem C61_items :
    Faithful Item.bool ∧ (∀ T : Type, Faithful (Item.fixed T)) ∧
    (∀ {T : Type} {clone : T → Res T}, (∀ x, clone x = .ok x) →
      (∀ n, Faithful (Item.array clone n)) ∧ Faithful (Item.vec clone)) ∧
    (∀ {T : Type} {A : Item T}, Faithful A → Faithful (Item.option A)) := by
  refine ⟨fun x => ⟨x, rfl, rfl⟩, fun T x => ⟨x, rfl, rfl⟩, ?_, ?_⟩
  · intro T clone hc
    refine ⟨fun n x => ⟨x, rfl, ?_⟩, fun x => ⟨x, rfl, cloneAll_eq hc x⟩⟩
    simp only
    split
    · next h => rw [cloneAll_eq hc] at h; cases h
    · next m h =>
      rw [cloneAll_eq hc] at h
      cases h; rfl
  · intro T A ha x
    cases x with
    | none => exact ⟨none, rfl, rfl⟩
    | some x =>
      obtain ⟨v, h1, h2⟩ := ha x
      exact ⟨some v, by simp [h1, Res.map], by simp [h2, Res.map]⟩

/-- C61. The owned value of a view of a vector holds a clone of each element in its place;
making it panics exactly if one of the clones does. -/
theorem C61_clones (clone : T → Res T) (l : List T) :
    (∀ m, (Item.vec clone).intoOwned l = .ok m ↔
      m.length = l.length ∧ ∀ i (h : i < l.length) (h' : i < m.length), clone l[i] = .ok m[i]) ∧
    ((Item.vec clone).intoOwned l = .panic ↔ ∃ x ∈ l, clone x = .panic) := by
  induction l with
  | nil =>
    refine ⟨fun m => ⟨fun h => ?_, fun h => ?_⟩, ⟨fun h => ?_, fun ⟨x, h, _⟩ => ?_⟩⟩
    · cases h; exact ⟨rfl, fun i h => by simp at h⟩
    · have := List.length_eq_zero_iff.mp h.1; subst this; rfl
    · cases h
    · cases h
  | cons x l ih =>
    simp only [cloneAll]
    cases hx : clone x with
    | panic =>
      refine ⟨fun m => ⟨fun h => (nomatch h), fun h => ?_⟩, ⟨fun _ => ⟨x, by simp, hx⟩, fun _ => rfl⟩⟩
      have h1 := h.2 0 (by simp) (by rw [h.1]; simp)
      simp only [List.getElem_cons_zero, hx] at h1
      cases h1
    | ok y =>
      simp only [Res.bind]
      constructor
      · intro m
        cases hl : cloneAll clone l with
        | panic =>
          refine ⟨fun h => (nomatch h), fun h => ?_⟩
          exfalso
          obtain ⟨z, hz, hp⟩ := ih.2.mp hl
          obtain ⟨i, hi, rfl⟩ := List.getElem_of_mem hz
          have h1 := h.2 (i + 1) (by simpa using hi) (by rw [h.1]; simpa using hi)
          simp only [List.getElem_cons_succ, hp] at h1
          cases h1
        | ok n =>
          have hn := (ih.1 n).mp hl
          constructor
          · intro h
            cases h
            refine ⟨by simp [hn.1], fun i h h' => ?_⟩
            cases i with
            | zero => simpa using hx
            | succ i => simpa using hn.2 i (by simpa using h) (by simpa using h')
          · rintro ⟨h1, h2⟩
            cases m with
            | nil => simp at h1
            | cons z m =>
              have h3 := h2 0 (by simp) (by simp)
              simp only [List.getElem_cons_zero, hx] at h3
              cases h3
              have h4 := (ih.1 m).mpr ⟨by simpa using h1, fun i h h' =>
                h2 (i + 1) (Nat.succ_lt_succ h) (Nat.succ_lt_succ h')⟩
              change cloneAll clone l = .ok m at h4
              rw [hl] at h4
              cases h4; rfl
      · cases hl : cloneAll clone l with
        | panic =>
          obtain ⟨z, hz, hp⟩ := ih.2.mp hl
          exact ⟨fun _ => ⟨z, by simp [hz], hp⟩, fun _ => rfl⟩
        | ok n =>
          refine ⟨fun h => (nomatch h), fun ⟨z, hz, hp⟩ => ?_⟩
          simp only [List.mem_cons] at hz
          rcases hz with rfl | hz
          · rw [hx] at hp; cases hp
          · have h1 := ih.2.mpr ⟨z, hz, hp⟩
            change cloneAll clone l = .panic at h1
            rw [hl] at h1; cases h1

/-- C61. So every storage of such items is a collection that may be read in any composition, -/
theorem C61_read_only (ha : Faithful A) (st : Store) :
    HonoursReads (st.collOf A) (fun l => l.length ≤ usizeMax) (fun l => l) where
  reads h := C61_reads ha st _ h
  size h := h

/-- and vectors of such items keep the contract of growing collections. `lim` is the most
elements an allocation can hold. -/
theorem C61_vec (ha : Faithful A) (lim : Nat) (h : lim ≤ byteMax) (d : T) :
    Honours (vecOf A lim d) (RVec.WF lim) RVec.items :=
  have H := (C56_vec lim h d).toHonours
  { reads := fun {c} hc => by
      have := C61_reads ha .vec c.items (H.size hc)
      exact ⟨this.len, fun i h => by
        obtain ⟨v, h1, h2⟩ := ha c.items[i]
        unfold Coll.owned
        rw [show (vecOf A lim d).view c i = _ from viewOf_some c.items h, h1]
        simp [Res.map, h2], this.iter, this.into⟩
    size := H.size
    empty := H.empty
    withCap := H.withCap
    withCapOnly := H.withCapOnly
    tryWithCap := H.tryWithCap
    tryWithCapCalm := H.tryWithCapCalm
    pulled := H.pulled
    fromIter := H.fromIter
    fromIterOnly := H.fromIterOnly
    fromIterIn := H.fromIterIn
    fromIterInOnly := H.fromIterInOnly
    tryFromIter := H.tryFromIter
    tryFromIterCalm := H.tryFromIterCalm
    extend := H.extend
    extendOnly := H.extendOnly
    extendStops := H.extendStops
    reserve := H.reserve
    tryReserve := H.tryReserve
    tryExtend := H.tryExtend
    tryExtendErr := H.tryExtendErr
    tryExtendCalm := H.tryExtendCalm
    tryExtendStops := H.tryExtendStops
    truncate := H.truncate }

theorem vecOf_runs (lim : Nat) (d : T) (uses : List (Use T)) :
    ∀ (w : World) (c : RVec T), runUses (vecOf A lim d) w c uses = runUses (vecR lim d) w c uses := by
  induction uses with
  | nil => intro w c; rfl
  | cons u uses ih =>
    intro w c
    cases u with
    | tryExtend s =>
      simp only [runUses]
      generalize RVec.tryExtend lim w c s = r
      obtain ⟨c', o, w'⟩ := r
      cases o with
      | ok => exact ih w' c'
      | err => rfl
      | panic => rfl
    | truncate m =>
      simp only [runUses]
      exact ih w _

/-- C61. Every reserving call of such a vector makes room: up to `n` items are added
afterwards whatever the allocator answers. -/
theorem C61_vec_room (lim : Nat) (h : lim ≤ usizeMax) (d : T) {n : Nat} {c : RVec T} {l : List T}
    {uses : List (Use T)}
    (hr : Reserved (vecOf A lim d) (fun c l => RVec.WF lim c ∧ c.items = l) n c l) (hp : Calm uses)
    (hn : (appended uses).length ≤ n) (hf : (l ++ appended uses).length ≤ lim) :
    ∃ c' : RVec T, c'.items = listUses l uses ∧
      ∀ w, HonestLower w.oracle → ∃ w', runUses (vecOf A lim d) w c uses = (c', .ok, w') := by
  have hr' : Reserved (vecR lim d) (fun c l => RVec.WF lim c ∧ c.items = l) n c l := by
    rcases reserved_cases hr with ⟨rfl, e⟩ | ⟨rfl, w, w', e⟩ | ⟨c0, h1, e⟩ | ⟨c0, w, w', h1, e⟩
    · exact .withCap e
    · exact .tryWithCap e
    · exact .reserve h1 e
    · exact .tryReserve h1 e
  obtain ⟨h1, h2, h3⟩ := (vecHolds lim h d).reserved (L := vecL lim h d)
    (fun hg => ⟨hg.1, trivial, hg.2⟩) hr' hf hn
  obtain ⟨c', j1, j2, j3⟩ := (vecHolds lim h d).uses uses h1 h3 hp
  refine ⟨c', by rw [← h2]; exact j2, fun w hw => ?_⟩
  obtain ⟨w', e⟩ := j3 w hw
  exact ⟨w', (vecOf_runs lim d uses w c).trans e⟩

/-! ## Cases -/

namespace Items

/-- `Vec<u8>` with its own `clone`. -/
abbrev bytes : Item (List Byte) := .vec .ok

theorem bytes_faithful : Faithful bytes := (C61_items.2.2.1 fun _ => rfl).2

/-- A shared slice of optional vectors. -/
example : Reads (Store.arc.collOf (Item.option bytes)) [some [1#8, 2#8], none, some []]
    [some [1#8, 2#8], none, some []] :=
  C61_reads (C61_items.2.2.2 bytes_faithful) .arc _ (by decide)

/-- Lists of byte vectors, grown by calls: `Offsets<Vec<Vec<u8>>>`. -/
abbrev kind : SComp (List (List Byte)) :=
  .offsets .i32 (vecB (byteMax / 4) 0) (RVec.WF (byteMax / 4))
    (.leaf (vecOf bytes (byteMax / 24) []) (RVec.WF (byteMax / 24)) RVec.items)

theorem kind_sound : Sound kind :=
  ⟨C56_vec _ (by decide) 0, by rfl, C61_vec bytes_faithful _ (by decide) []⟩

example : ∃ c, (scompR kind).extend (scompR kind).empty
      [.item [[1#8], []], .item [], .item [[2#8, 3#8]]] = (c, .ok) ∧
    Reads (scompR kind).toColl c [[[1#8], []], [], [[2#8, 3#8]]] := by
  refine ⟨_, rfl, C56_built_reads kind_sound ?_⟩
  exact SBuilt.extend (k := kind) (s := [.item [[1#8], []], .item [], .item [[2#8, 3#8]]])
    SBuilt.empty rfl

/-- `reserve(2)` of a `Vec<Vec<u8>>` holding one vector: two more are added although the
allocator refuses everything. -/
example : ∃ c c' w', Reserved (vecOf bytes (byteMax / 24) [])
      (fun c l => RVec.WF (byteMax / 24) c ∧ c.items = l) 2 c [[1#8]] ∧
    runUses (vecOf bytes (byteMax / 24) []) Room.refusing c
      [.tryExtend [.item [2#8, 3#8]], .tryExtend [.item []]] = (c', .ok, w') ∧
    c'.items = [[1#8], [2#8, 3#8], []] := by
  have hr : Reserved (vecOf bytes (byteMax / 24) [])
      (fun c l => RVec.WF (byteMax / 24) c ∧ c.items = l) 2 ⟨[[1#8]], 3⟩ [[1#8]] :=
    .reserve (c := (⟨[[1#8]], 1⟩ : RVec (List Byte))) ⟨⟨by decide, by decide⟩, rfl⟩ rfl
  obtain ⟨c', h1, h2⟩ := C61_vec_room (byteMax / 24) (by decide) [] hr
    (uses := [.tryExtend [.item [2#8, 3#8]], .tryExtend [.item []]])
    ⟨rfl, rfl, trivial⟩ (by decide) (by decide)
  obtain ⟨w', h3⟩ := h2 Room.refusing Room.refusing_honest
  exact ⟨_, c', w', hr, h3, h1⟩

/-- A number whose `clone` forgets it, as a user may write. -/
abbrev forgets : Item (List Nat) := .vec fun _ => .ok 0

theorem forgets_converts : Converts forgets (fun l => l.map fun _ => 0) := by
  intro x
  refine ⟨x, rfl, ?_⟩
  show cloneAll _ x = _
  induction x with
  | nil => rfl
  | cons y l ih => simp [cloneAll, ih, Res.bind, Res.map]

/-- A `Vec` of them hands out the items, a slice hands out clones. -/
example : (∃ it, (Store.vec.collOf forgets).into [[1, 2]] = .ok it ∧
      Iterates (Store.vec.collOf forgets).jnext (Store.vec.collOf forgets).jlen Res.ok it [[1, 2]]) ∧
    (∃ it, (Store.slice.collOf forgets).into [[1, 2]] = .ok it ∧
      Iterates (Store.slice.collOf forgets).jnext (Store.slice.collOf forgets).jlen Res.ok it [[0, 0]]) :=
  ⟨(C61_shows forgets_converts .vec [[1, 2]] (by decide)).2.2.2.2,
    (C61_shows forgets_converts .slice [[1, 2]] (by decide)).2.2.2.2⟩

end Items

end Narrow.Props
