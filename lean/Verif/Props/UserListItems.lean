import Verif.Proof.UserListItems
import Verif.Props.ListItems
import Verif.Props.Backends
import Verif.Props.ReadOnly
import Verif.Props.BackendPanics

/-!
# Lists with items of any collection type, in any storages (C72)

`Offsets<T, OffsetItem, Storage, U>` with nothing fixed: the elements in any
collection, the offsets in any storage, the items given and returned as any
collection type `U`, each written by the library or by its users.
-/

namespace Narrow.Props

open Spec

variable {O : Type} {k u : SComp O} {ow : OffW} {D : Backing Int} {Good : D.C → Prop}

/-- C72. Growing and constructing from items of any collection type does exactly
what it does with `Vec` items showing the same lists: same resulting storage, same
outcome, same use of the allocator. -/
theorem C72_same_as_vec {R U : Realloc O} {s : Src U.C} {ls : Src (List O)}
    (h : SameRows U.toColl s ls) (w v : World) (c : OffsetsIn.Of D R) :
    (offsetsInOfR ow D R U v).extend c s = (offsetsBR ow D R).extend c ls ∧
    (offsetsInOfR ow D R U v).tryExtend w c s = (offsetsBR ow D R).tryExtend w c ls ∧
    (offsetsInOfR ow D R U v).fromIter w s = (offsetsBR ow D R).fromIter w ls ∧
    (offsetsInOfR ow D R U v).fromIterIn w s = (offsetsBR ow D R).fromIterIn w ls ∧
    (offsetsInOfR ow D R U v).tryFromIter w s = (offsetsBR ow D R).tryFromIter w ls :=
  ⟨UserItems.extend_same h c, UserItems.tryExtend_same h w c,
    congrArg (·, w) (UserItems.fromIter_same h), UserItems.fromIterIn_same h w,
    UserItems.tryFromIter_same h w⟩

/-- C72. Extending appends the lists the items show. -/
theorem C72_extend_appends {U : Realloc O} {s : Src U.C} {ls : Src (List O)} {v : World}
    {c c' : OffsetsIn.Of D (scompR k)} {l : List (List O)} (h : SameRows U.toColl s ls)
    (hb : SBuilt (.offsets ow D Good k) c l)
    (e : (offsetsInOfR ow D (scompR k) U v).extend c s = (c', .ok)) :
    SBuilt (.offsets ow D Good k) c' (l ++ ls.items) :=
  .extend hb ((C72_same_as_vec (ow := ow) (R := scompR k) h v v c).1.symm.trans e)

/-- C72. `try_extend` appends them, or returns an error and changes nothing. -/
theorem C72_try_extend_appends {U : Realloc O} {s : Src U.C} {ls : Src (List O)} {v w w' : World}
    {c c' : OffsetsIn.Of D (scompR k)} {l : List (List O)} {o : Out} (h : SameRows U.toColl s ls)
    (hb : SBuilt (.offsets ow D Good k) c l)
    (e : (offsetsInOfR ow D (scompR k) U v).tryExtend w c s = (c', o, w')) :
    (o = .ok → SBuilt (.offsets ow D Good k) c' (l ++ ls.items)) ∧
    (o = .err → SBuilt (.offsets ow D Good k) c' l) := by
  have e' := (C72_same_as_vec (ow := ow) (R := scompR k) h w v c).2.1.symm.trans e
  constructor <;> rintro rfl
  · exact .tryExtend hb e'
  · exact .tryExtendErr hb e'

/-- C72. Collecting stores the lists the items show. -/
theorem C72_collect {U : Realloc O} {s : Src U.C} {ls : Src (List O)} {v w w' : World}
    {c : OffsetsIn.Of D (scompR k)} (h : SameRows U.toColl s ls) (hf : ls.Fused)
    (e : (offsetsInOfR ow D (scompR k) U v).fromIter w s = (.ok c, w')) :
    SBuilt (.offsets ow D Good k) c ls.items :=
  .fromIter hf
    ((C72_same_as_vec (ow := ow) (R := scompR k) h w v (OffsetsIn.empty D _)).2.2.1.symm.trans e)

/-! ## Items that cannot be read -/

/-- C72. `extend` panics at an item that cannot be read. If the collections and
storages survive panics, whatever was stored shows the previous lists and a prefix of
those before the unreadable item, and truncating it to drop a suitable list leaves
exactly the lists before, for every reader. -/
theorem C72_unreadable_item (hsound : Sound (.offsets ow D Good k)) {U : Realloc O}
    {us : List U.C} {ls : List (List O)} {bad : U.C}
    {rest : Src U.C} {v : World} {c c' : OffsetsIn.Of D (scompR k)} {l : List (List O)} {o : Out}
    (hs : ShowRows U.toColl us ls) (hl : ∀ x ∈ ls, x.length ≤ usizeMax)
    (hbad : Unreadable U.toColl bad) (hb : SBuilt (.offsets ow D Good k) c l)
    (e : (offsetsInOfR ow D (scompR k) U v).extend c (Src.ofList us ++ .item bad :: rest) =
      (c', o)) :
    o = .panic ∧ (Surviving (.offsets ow D Good k) →
      ∃ n, Sees (scompR (.offsets ow D Good k)).toColl c' (l ++ ls.take n) ∧
        ∀ m, (∃ x ∈ (l ++ ls.take n).drop m, ∃ y ∈ x, SClears k y) →
          ∃ c'', (scompR (.offsets ow D Good k)).truncate c' m = (c'', .ok) ∧
            Reads (scompR (.offsets ow D Good k)).toColl c'' ((l ++ ls.take n).take m)) := by
  obtain ⟨h1, h2⟩ := sbuilt_inv hb hsound
  refine ⟨OffsetsIn.extend_panics (LD := honoursB hsound.1) (L := scompL k hsound.2.2)
    (U := U.toColl) (ow := ow) hbad (sameRows_of hs hl) h1 e, fun hv => ?_⟩
  obtain ⟨-, n, hn⟩ := OffsetsIn.extend_unreadable (U := U.toColl) (ow := ow) (hz := hsound.2.1)
    (scomp_holdE k hsound.2.2 hv.2) (buf_keepE hsound.1 hv.1) hbad (sameRows_of hs hl) h1 e
  have hn' : Half (InRow (SClears k)) (scompL (.offsets ow D Good k) hsound) c'
      (l ++ ls.take n) := by
    have e : OffsetsIn.rows (honoursB hsound.1) (scompL k hsound.2.2) c = l := h2
    rw [e] at hn
    exact hn
  refine ⟨n, hn'.vis.sees, fun m hm => ?_⟩
  obtain ⟨c'', h3, h4, h5⟩ := hn'.trunc m hm
  exact ⟨c'', h3, h5 ▸ reads_abs _ h4⟩

/-- C72. `try_extend` panics at it, or returns an error (a length that does not fit,
refused memory) and changes nothing. If the collections and storages survive panics,
exactly the lists before the unreadable item are then stored. -/
theorem C72_unreadable_item_try (hsound : Sound (.offsets ow D Good k)) {U : Realloc O}
    {us : List U.C} {ls : List (List O)} {bad : U.C} {rest : Src U.C} {v w w' : World}
    {c c' : OffsetsIn.Of D (scompR k)} {l : List (List O)} {o : Out}
    (hs : ShowRows U.toColl us ls) (hl : ∀ x ∈ ls, x.length ≤ usizeMax)
    (hbad : Unreadable U.toColl bad) (hb : SBuilt (.offsets ow D Good k) c l)
    (e : (offsetsInOfR ow D (scompR k) U v).tryExtend w c (Src.ofList us ++ .item bad :: rest) =
      (c', o, w')) :
    (o = .panic ∧ (Surviving (.offsets ow D Good k) →
      Sees (scompR (.offsets ow D Good k)).toColl c' (l ++ ls))) ∨
    (o = .err ∧ Reads (scompR (.offsets ow D Good k)).toColl c' l) := by
  obtain ⟨h1, h2⟩ := sbuilt_inv hb hsound
  have e2 : OffsetsIn.rows (honoursB hsound.1) (scompL k hsound.2.2) c = l := h2
  rcases OffsetsIn.tryExtend_fails (LD := honoursB hsound.1) (L := scompL k hsound.2.2)
    (U := U.toColl) (ow := ow) hbad (sameRows_of hs hl) h1 e with rfl | ⟨rfl, hm⟩
  · refine .inl ⟨rfl, fun hv => ?_⟩
    rcases OffsetsIn.tryExtend_unreadable (U := U.toColl) (ow := ow) (hz := hsound.2.1)
      (scomp_holdT k hsound.2.2 hv.2) hbad (sameRows_of hs hl) h1 e with ⟨-, hn⟩ | ⟨h3, -⟩
    · rw [e2] at hn
      exact hn.vis.sees
    · cases h3
  · rw [e2] at hm
    have h3 : (scompL (.offsets ow D Good k) hsound).abs c' = l := hm.toInv.2
    exact .inr ⟨rfl, h3 ▸ reads_abs _ hm.toInv.1⟩

/-- C72. Nothing is constructed from items of which one cannot be read: collecting
panics, and `try_from_iter_in` panics or returns an error. -/
theorem C72_unreadable_collect (hsound : Sound (.offsets ow D Good k)) {U : Realloc O}
    {us : List U.C} {ls : List (List O)} {bad : U.C} {rest : Src U.C}
    (hs : ShowRows U.toColl us ls) (hl : ∀ x ∈ ls, x.length ≤ usizeMax)
    (hbad : Unreadable U.toColl bad) (v w : World) :
    ((offsetsInOfR ow D (scompR k) U v).fromIter w (Src.ofList us ++ .item bad :: rest)).1 =
      .panic ∧
    ((offsetsInOfR ow D (scompR k) U v).fromIterIn w (Src.ofList us ++ .item bad :: rest)).1 =
      .panic ∧
    ∀ c, ((offsetsInOfR ow D (scompR k) U v).tryFromIter w
      (Src.ofList us ++ .item bad :: rest)).1 ≠ .ok c := by
  have hx : ∀ c, SBuilt (.offsets ow D Good k) c [] →
      (OffsetsInOf.extend ow D (scompR k) U.toColl c (Src.ofList us ++ .item bad :: rest)).2 =
        .panic :=
    fun c hb => (C72_unreadable_item (v := v) hsound hs hl hbad hb rfl).1
  refine ⟨?_, ?_, fun c => ?_⟩
  · have := hx (OffsetsIn.empty D (scompR k)) (.empty (k := .offsets ow D Good k))
    simp only [OffsetsInOf.fromIter, hsound.2.1]
    generalize OffsetsInOf.extend ow D (scompR k) U.toColl _ _ = r at this
    obtain ⟨c, o⟩ := r
    cases this
    rfl
  · simp only [OffsetsInOf.fromIterIn]
    have hn := (scompL (.offsets ow D Good k) hsound).withCap_ne (w.capHint
      (Src.items (Src.ofList us ++ .item bad :: rest)).length)
    change OffsetsIn.withCap D (scompR k) _ ≠ .err at hn
    cases hc : OffsetsIn.withCap D (scompR k) (w.capHint
      (Src.items (Src.ofList us ++ .item bad :: rest)).length) with
    | err => exact absurd hc hn
    | panic => rfl
    | ok c0 =>
      have := hx c0 (.withCap (k := .offsets ow D Good k) hc)
      simp only
      generalize OffsetsInOf.extend ow D (scompR k) U.toColl _ _ = r at this
      obtain ⟨c, o⟩ := r
      cases this
      rfl
  · simp only [OffsetsInOf.tryFromIter]
    cases hc : OffsetsIn.tryWithCap D (scompR k) w.next (w.capHint
      (Src.items (Src.ofList us ++ .item bad :: rest)).length) with
    | mk t w1 =>
      cases t with
      | err => exact nofun
      | panic => exact nofun
      | ok c0 =>
        simp only
        cases ht : OffsetsInOf.tryExtend ow D (scompR k) U.toColl w1 c0
            (Src.ofList us ++ .item bad :: rest) with
        | mk c1 r =>
          obtain ⟨o, w2⟩ := r
          have hb : SBuilt (.offsets ow D Good k) c0 [] :=
            .tryWithCap (k := .offsets ow D Good k) hc
          rcases C72_unreadable_item_try (v := v) hsound hs hl hbad hb ht with
            ⟨rfl, -⟩ | ⟨rfl, -⟩ <;> exact nofun

/-! ## Reading -/

theorem scollect_row (hu : Sound u) {l : List O} {w : World} {x : (scompR u).C}
    (h : OffsetsOf.collect (scompR u) w (Src.ofList l) = .ok x) : Reads (scompR u).toColl x l := by
  unfold OffsetsOf.collect at h
  split at h
  · rename_i e
    injection h with h
    subst h
    have := C56_built_reads hu (.fromIter (Src.fused_ofList l) e)
    simpa using this
  · cases h

theorem reads_as (hu : Sound u) {D : Buf Int} {K : Coll O} {c : OffsetsIn K.C D.C}
    {l : List (List O)} {w : World} (h : Reads (offsetsBC D K) c l)
    (hf : ∀ x ∈ l, ∃ y w', (scompR u).fromIter w (Src.ofList x) = (.ok y, w')) :
    ∃ us, Reads (offsetsInOfC D K (scompR u) w) c us ∧ ShowRows (scompR u).toColl us l := by
  classical
  let g : List O → (scompR u).C := fun x =>
    if h : ∃ y, OffsetsOf.collect (scompR u) w (Src.ofList x) = .ok y then h.choose
    else (scompR u).empty
  have hg : ∀ x ∈ l, OffsetsOf.collect (scompR u) w (Src.ofList x) = .ok (g x) := by
    intro x hx
    have h : ∃ y, OffsetsOf.collect (scompR u) w (Src.ofList x) = .ok y := by
      obtain ⟨y, w', h⟩ := hf x hx
      exact ⟨y, by simp only [OffsetsOf.collect, h]⟩
    simp only [g, dif_pos h]
    exact h.choose_spec
  refine ⟨l.map g, UserItems.reads_rows h hg, by simp, fun i h h' => ?_⟩
  rw [List.getElem_map]
  exact scollect_row hu (hg _ (List.getElem_mem h'))

theorem item_as (hu : Sound u) {D : Buf Int} {K : Coll O} {c : OffsetsIn K.C D.C}
    {l : List (List O)} {w : World} {i : Nat} (h : Reads (offsetsBC D K) c l) (hi : i < l.length) :
    (((offsetsInOfC D K (scompR u) w).owned c i = .panic ∧
      ∀ x, ((scompR u).fromIter w (Src.ofList l[i])).1 ≠ .ok x) ∨
    ∃ x, (offsetsInOfC D K (scompR u) w).owned c i = .ok (some x) ∧
      Reads (scompR u).toColl x l[i]) := by
  rw [UserItems.owned_of h hi]
  cases hx : OffsetsOf.collect (scompR u) w (Src.ofList l[i]) with
  | ok x => exact .inr ⟨x, rfl, scollect_row hu hx⟩
  | panic =>
    refine .inl ⟨rfl, fun x e => ?_⟩
    unfold OffsetsOf.collect at hx
    split at hx
    · cases hx
    · rename_i h
      exact h _ _ (Prod.ext e rfl)

/-- C72. Reading an item returns a collection that shows the list, unless the item
type cannot be collected from it. -/
theorem C72_item_read (hs : Sound (.offsets ow D Good k)) (hu : Sound u)
    {c : OffsetsIn.Of D (scompR k)} {l : List (List O)} {w : World} {i : Nat}
    (hb : SBuilt (.offsets ow D Good k) c l) (hi : i < l.length) :
    (((offsetsInOfC D.toBuf (scompR k).toColl (scompR u) w).owned c i = .panic ∧
      ∀ x, ((scompR u).fromIter w (Src.ofList l[i])).1 ≠ .ok x) ∨
    ∃ x, (offsetsInOfC D.toBuf (scompR k).toColl (scompR u) w).owned c i = .ok (some x) ∧
      Reads (scompR u).toColl x l[i]) :=
  item_as hu (C56_built_reads hs hb) hi

/-- C72. Every way of reading returns collections that show the lists, if the item
type can be collected from each of them. -/
theorem C72_reads (hs : Sound (.offsets ow D Good k)) (hu : Sound u)
    {c : OffsetsIn.Of D (scompR k)} {l : List (List O)} {w : World}
    (hb : SBuilt (.offsets ow D Good k) c l)
    (hf : ∀ x ∈ l, ∃ y w', (scompR u).fromIter w (Src.ofList x) = (.ok y, w')) :
    ∃ us, Reads (offsetsInOfC D.toBuf (scompR k).toColl (scompR u) w) c us ∧
      ShowRows (scompR u).toColl us l :=
  reads_as hu (C56_built_reads hs hb) hf

/-- C72. The same holds of lists put together from parts that cannot grow. -/
theorem C72_parts_read {k : RComp O} {D : Buf Int} {Good : D.C → Prop}
    (hs : RSound (.offsets D Good k)) (hu : Sound u)
    {c : OffsetsIn (rcompC k).C D.C} {l : List (List O)} {w : World}
    (hb : RBuilt (.offsets D Good k) c l) :
    (∀ i (hi : i < l.length),
      (((offsetsInOfC D (rcompC k) (scompR u) w).owned c i = .panic ∧
        ∀ x, ((scompR u).fromIter w (Src.ofList l[i])).1 ≠ .ok x) ∨
      ∃ x, (offsetsInOfC D (rcompC k) (scompR u) w).owned c i = .ok (some x) ∧
        Reads (scompR u).toColl x l[i])) ∧
    ((∀ x ∈ l, ∃ y w', (scompR u).fromIter w (Src.ofList x) = (.ok y, w')) →
      ∃ us, Reads (offsetsInOfC D (rcompC k) (scompR u) w) c us ∧
        ShowRows (scompR u).toColl us l) :=
  ⟨fun _ hi => item_as hu (C58_reads hs hb) hi, reads_as hu (C58_reads hs hb)⟩

/-! ## A case

`Offsets<Bitmap<Slots<2>>, i32, Slots<4>, Bitmap<Slots<1>>>`: lists of bits, given and
returned as bitmaps, in the storages of Props/Backends.lean. -/

namespace BitSlots

open Backends

/-- The items: `Bitmap<Slots<1>>`. -/
abbrev item : SComp Bool := .bitmap (slots 1 0#8) (fun c => c.length ≤ 1)
/-- The elements: `Bitmap<Slots<2>>`. -/
abbrev bits : SComp Bool := .bitmap (slots 2 0#8) (fun c => c.length ≤ 2)
abbrev kind : SComp (List Bool) := .offsets .i32 (slots 4 0) (fun c => c.length ≤ 4) bits

theorem item_sound : Sound item := slots_honours (by decide) _

theorem sound : Sound kind := ⟨slots_honours (by decide) _, rfl, slots_honours (by decide) _⟩

theorem surviving : Surviving kind :=
  ⟨slots_survive _, slots_survive _⟩

/-- The bits 1, 0, 1 at bit offset 2 of a byte with other bits set. -/
def odd : (scompR item).C := ⟨[0b11010111#8], 3, 2⟩

theorem odd_reads : Reads (scompR item).toColl odd [true, false, true] :=
  C56_built_reads item_sound (.bitmapParts (B := slots 1 0#8)
    (Good := fun c : List Byte => c.length ≤ 1) (buffer := [0b11010111#8]) (bits := 3) (offset := 2)
    (by decide) rfl)

theorem returns {α : Type} {r : Try α × World}
    (h : (match r.1 with | .ok _ => true | _ => false) = true) : ∃ y w', r = (.ok y, w') := by
  obtain ⟨t, w⟩ := r
  cases t with
  | ok y => exact ⟨y, w, rfl⟩
  | err => cases h
  | panic => cases h

/-- Two bitmaps and a panic that is never reached. -/
def rows : Src (scompR item).C := [.item odd, .item (scompR item).empty, .item odd, .none, .panic]

/-- The lists they show. -/
def lists : Src (List Bool) :=
  [.item [true, false, true], .item [], .item [true, false, true], .none, .panic]

theorem same : SameRows (scompR item).toColl rows lists :=
  .item odd_reads (by decide) (.item (C56_built_reads item_sound .empty) (by decide)
    (.item odd_reads (by decide) (.none (.panic .nil))))

/-- Bitmaps whose owned iterator panics once it has given `n` items. -/
def faulty (n : Nat) : Realloc Bool :=
  { scompR item with
    J := (scompR item).J × Nat
    into := fun c => ((scompR item).into c).map (·, n)
    jnext := fun it => if it.2 = 0 then .panic
      else ((scompR item).jnext it.1).map fun r => (r.1, (r.2, it.2 - 1))
    jlen := fun it => (scompR item).jlen it.1 }

theorem bad : Unreadable (faulty 1).toColl odd :=
  .next (m := 1) (n := 3) (it := _) (it' := _) (xs := [some true]) rfl rfl (by decide) rfl
    (by simp) rfl

theorem no_rows : ShowRows (faulty 1).toColl [] [] := ⟨rfl, fun i h => by cases h⟩

end BitSlots

/-- Appending bitmaps with a bit offset to existing lists and reading the lists
back as bitmaps. -/
example : ∃ c us, (offsetsInOfR .i32 (Backends.slots 4 0) (scompR BitSlots.bits)
      (scompR BitSlots.item) Sample.world).extend (scompR BitSlots.kind).empty BitSlots.rows =
        (c, .ok) ∧
    Reads (offsetsInOfC (Backends.slots 4 0).toBuf (scompR BitSlots.bits).toColl
      (scompR BitSlots.item) Sample.world) c us ∧
    ShowRows (scompR BitSlots.item).toColl us [[true, false, true], [], [true, false, true]] := by
  cases he : (offsetsInOfR .i32 (Backends.slots 4 0) (scompR BitSlots.bits)
      (scompR BitSlots.item) Sample.world).extend (scompR BitSlots.kind).empty BitSlots.rows with
  | mk c o =>
    have ho : o = .ok := by
      have : ((offsetsInOfR .i32 (Backends.slots 4 0) (scompR BitSlots.bits)
        (scompR BitSlots.item) Sample.world).extend (scompR BitSlots.kind).empty
          BitSlots.rows).2 = .ok := by decide +kernel
      rw [he] at this
      exact this
    subst ho
    have hb := C72_extend_appends (k := BitSlots.bits) (Good := fun c : List Int => c.length ≤ 4)
      BitSlots.same .empty he
    obtain ⟨us, h1, h2⟩ := C72_reads (w := Sample.world) BitSlots.sound BitSlots.item_sound hb (by
      intro x hx
      simp [BitSlots.lists, Src.items] at hx
      rcases hx with rfl | rfl | rfl <;> exact BitSlots.returns (by decide +kernel))
    exact ⟨c, us, rfl, h1, h2⟩

/-- A list of bits whose iterator panics after its first bit is not stored. -/
example : ∃ c, (offsetsInOfR .i32 (Backends.slots 4 0) (scompR BitSlots.bits) (BitSlots.faulty 1)
      Sample.world).extend (scompR BitSlots.kind).empty (Src.ofList [] ++ [.item BitSlots.odd]) =
        (c, .panic) ∧ Sees (scompR BitSlots.kind).toColl c [] := by
  cases he : (offsetsInOfR .i32 (Backends.slots 4 0) (scompR BitSlots.bits) (BitSlots.faulty 1)
      Sample.world).extend (scompR BitSlots.kind).empty (Src.ofList [] ++ [.item BitSlots.odd]) with
  | mk c o =>
    obtain ⟨rfl, h⟩ := C72_unreadable_item (k := BitSlots.bits) BitSlots.sound BitSlots.no_rows
      (by simp) BitSlots.bad .empty he
    obtain ⟨n, h1, -⟩ := h BitSlots.surviving
    exact ⟨c, rfl, by simpa using h1⟩

/-- The lists of `Mixed` (Props/ReadOnly.lean), none of whose storages can grow, read
as values of a storage written by a user. -/
example : ∃ us, Reads (offsetsInOfC (storeBuf .slice Int) (rcompC Mixed.nullable)
      (Backends.slots 2 (none : Option Nat)).toRealloc Sample.world)
      ⟨⟨[10, 20, 30], some ⟨[0b1010#8], 3, 1⟩⟩, [0, 2, 2, 3]⟩ us ∧
    ShowRows (Backends.slots 2 (none : Option Nat)).toColl us
      [[some 10, none], [], [some 30]] :=
  (C72_parts_read (w := Sample.world) (u := .leaf (Backends.slots 2 none).toRealloc
      (fun c => c.length ≤ 2) id) Mixed.sound (Backends.slots_honours (by decide) _).toHonours
    Mixed.built).2 (by
      intro x hx
      simp at hx
      rcases hx with rfl | rfl | rfl <;> exact ⟨_, _, rfl⟩)

/-- A list of two does not fit into a storage with one slot: reading it panics. -/
example : (offsetsInOfC (storeBuf .slice Int) (rcompC Mixed.nullable)
      (Backends.slots 1 (none : Option Nat)).toRealloc Sample.world).owned
      ⟨⟨[10, 20, 30], some ⟨[0b1010#8], 3, 1⟩⟩, [0, 2, 2, 3]⟩ 0 = .panic :=
  ((C72_parts_read (w := Sample.world) (u := .leaf (Backends.slots 1 none).toRealloc
      (fun c => c.length ≤ 1) id) Mixed.sound (Backends.slots_honours (by decide) _).toHonours
    Mixed.built).1 0 (by decide)).elim (·.1) fun ⟨_, h, _⟩ => by cases h

end Narrow.Props
