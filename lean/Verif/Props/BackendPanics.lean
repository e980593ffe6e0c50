import Verif.Props.Backends
import Verif.Proof.BackendDrain

/-!
# C63: caught panics of collections over storages written by users

`Surviving k`: a panic of a storage's or collection's own `extend` or `try_extend`
leaves it with its items and the first few of the new ones. `Vec` does so, and the
user's types have to. The theorems say that every composition then does so as well,
whether its source panics, a storage panics, or an offset overflows.
-/

namespace Narrow.Props

open Spec

variable {O : Type} {k : SComp O}

/-- C63. After a caught panic of `extend`, every way of reading the collection by
reference shows the previous items and the first few of the new ones, and consuming it
yields them. -/
theorem C63_seen_after_panic (hs : Sound k) (hv : Surviving k) {c c' : (scompR k).C} {l : List O}
    {s : Src O} (h : SBuilt k c l) (e : (scompR k).extend c s = (c', .panic)) :
    ∃ n, Sees (scompR k).toColl c' (l ++ s.items.take n) ∧
      Drains (scompR k).toColl c' (l ++ s.items.take n) := by
  obtain ⟨n, h1⟩ := scomp_readyE k hs hv (sbuilt_inv h hs).1 e
  rw [(sbuilt_inv h hs).2] at h1
  exact ⟨n, h1.vis.sees, h1.drains⟩

/-- C63. The same after a caught panic of `try_extend`. -/
theorem C63_seen_after_try_panic (hs : Sound k) (hv : Surviving k) {w w' : World}
    {c c' : (scompR k).C} {l : List O} {s : Src O} (h : SBuilt k c l)
    (e : (scompR k).tryExtend w c s = (c', .panic, w')) :
    ∃ n, Sees (scompR k).toColl c' (l ++ s.items.take n) ∧
      Drains (scompR k).toColl c' (l ++ s.items.take n) := by
  obtain ⟨n, h1⟩ := scomp_readyT k hs hv (sbuilt_inv h hs).1 e
  rw [(sbuilt_inv h hs).2] at h1
  exact ⟨n, h1.vis.sees, h1.drains⟩

/-- C63. Unless the items are fixed-size lists that cannot be null, consuming the
collection also ends after the last item, whatever lies inside of the items. -/
theorem C63_shown_after_panic (hs : Sound k) (hv : Surviving k) (hg : ¬SGrouped k)
    {c c' : (scompR k).C} {l : List O} {s : Src O} (h : SBuilt k c l)
    (e : (scompR k).extend c s = (c', .panic)) :
    ∃ n, Reads (scompR k).toColl c' (l ++ s.items.take n) := by
  obtain ⟨n, h1⟩ := scomp_fullE k hs hv hg (sbuilt_inv h hs).1 e
  rw [(sbuilt_inv h hs).2] at h1
  exact ⟨n, h1.reads⟩

/-- C63. The same after a caught panic of `try_extend`. -/
theorem C63_shown_after_try_panic (hs : Sound k) (hv : Surviving k) (hg : ¬SGrouped k)
    {w w' : World} {c c' : (scompR k).C} {l : List O} {s : Src O} (h : SBuilt k c l)
    (e : (scompR k).tryExtend w c s = (c', .panic, w')) :
    ∃ n, Reads (scompR k).toColl c' (l ++ s.items.take n) := by
  obtain ⟨n, h1⟩ := scomp_fullT k hs hv hg (sbuilt_inv h hs).1 e
  rw [(sbuilt_inv h hs).2] at h1
  exact ⟨n, h1.reads⟩

/-- C63. Without fixed-size lists, the collection is as good as one built by calls that
returned: all of C56 applies to it, and consuming it yields the same items. -/
theorem C63_usable_after_panic (hs : Sound k) (hv : Surviving k) (hn : NoFlatten k)
    {c c' : (scompR k).C} {l : List O} {s : Src O} (h : SBuilt k c l)
    (e : (scompR k).extend c s = (c', .panic)) :
    ∃ n, SBuilt k c' (l ++ s.items.take n) ∧ Reads (scompR k).toColl c' (l ++ s.items.take n) := by
  obtain ⟨n, h1, -⟩ := C63_seen_after_panic hs hv h e
  have h2 := SBuilt.extendPanic hn hv h e h1
  exact ⟨n, h2, C56_built_reads hs h2⟩

/-- C63. The same for `try_extend`, also if there are fixed-size lists inside of
variable-size lists. -/
theorem C63_usable_after_try_panic (hs : Sound k) (hv : Surviving k) (hn : FlattenInLists k)
    {w w' : World} {c c' : (scompR k).C} {l : List O} {s : Src O} (h : SBuilt k c l)
    (e : (scompR k).tryExtend w c s = (c', .panic, w')) :
    ∃ n, SBuilt k c' (l ++ s.items.take n) ∧ Reads (scompR k).toColl c' (l ++ s.items.take n) := by
  obtain ⟨n, h1, -⟩ := C63_seen_after_try_panic hs hv h e
  have h2 := SBuilt.tryExtendPanic hn hv h e h1
  exact ⟨n, h2, C56_built_reads hs h2⟩

/-- C63. In every composition, `truncate` makes the collection usable again if it drops an
item that contains fixed-size lists wherever the composition has them within variable-size
lists. -/
theorem C63_dropping_mends (hs : Sound k) (hv : Surviving k) {c c' : (scompR k).C} {l : List O}
    {s : Src O} (h : SBuilt k c l) (e : (scompR k).extend c s = (c', .panic)) :
    ∃ n, Sees (scompR k).toColl c' (l ++ s.items.take n) ∧
      ∀ m, (∃ x ∈ (l ++ s.items.take n).drop m, SClears k x) →
        ∃ c'', (scompR k).truncate c' m = (c'', .ok) ∧
          SBuilt k c'' ((l ++ s.items.take n).take m) ∧
          Reads (scompR k).toColl c'' ((l ++ s.items.take n).take m) := by
  obtain ⟨n, h1⟩ := scomp_holdE k hs hv (sbuilt_inv h hs).1 e
  rw [(sbuilt_inv h hs).2] at h1
  refine ⟨n, h1.vis.sees, fun m hm => ?_⟩
  obtain ⟨c'', t1, -⟩ := h1.trunc m hm
  have h2 := SBuilt.extendMend hv h e h1.vis.sees hm t1
  exact ⟨c'', t1, h2, C56_built_reads hs h2⟩

/-- C63. With fixed-size lists that are not inside of variable-size lists, `truncate`
to less than the length makes the collection usable again. -/
theorem C63_truncate_mends (hs : Sound k) (hv : Surviving k) (hn : NoFlattenInLists k)
    {c c' : (scompR k).C} {l : List O} {s : Src O} (h : SBuilt k c l)
    (e : (scompR k).extend c s = (c', .panic)) :
    ∃ n, Sees (scompR k).toColl c' (l ++ s.items.take n) ∧
      ∀ m, m < (l ++ s.items.take n).length → ∃ c'', (scompR k).truncate c' m = (c'', .ok) ∧
        SBuilt k c'' ((l ++ s.items.take n).take m) ∧
        Reads (scompR k).toColl c'' ((l ++ s.items.take n).take m) := by
  obtain ⟨n, h1, h2⟩ := C63_dropping_mends hs hv h e
  refine ⟨n, h1, fun m hm => h2 m ?_⟩
  obtain ⟨x, hx, -⟩ := exists_drop hm
  exact ⟨x, hx, sclears_all k hn x⟩

/-- C63. After a panic of `try_extend` it does so in every composition. -/
theorem C63_truncate_mends_try (hs : Sound k) (hv : Surviving k) {w w' : World}
    {c c' : (scompR k).C} {l : List O} {s : Src O} (h : SBuilt k c l)
    (e : (scompR k).tryExtend w c s = (c', .panic, w')) :
    ∃ n, Sees (scompR k).toColl c' (l ++ s.items.take n) ∧
      ∀ m, m < (l ++ s.items.take n).length → ∃ c'', (scompR k).truncate c' m = (c'', .ok) ∧
        SBuilt k c'' ((l ++ s.items.take n).take m) ∧
        Reads (scompR k).toColl c'' ((l ++ s.items.take n).take m) := by
  obtain ⟨n, h1⟩ := scomp_holdT k hs hv (sbuilt_inv h hs).1 e
  rw [(sbuilt_inv h hs).2] at h1
  refine ⟨n, h1.vis.sees, fun m hm => ?_⟩
  obtain ⟨c'', t1, -⟩ := h1.trunc m (exists_drop hm)
  have h2 := SBuilt.tryExtendMend hv h e h1.vis.sees hm t1
  exact ⟨c'', t1, h2, C56_built_reads hs h2⟩

/-- C63. `Vec<T>` survives panics. -/
theorem C63_vec {α : Type} (lim : Nat) (h : lim ≤ byteMax) (d : α) :
    Survives (vecB lim d).toRealloc (RVec.WF lim) (vecB lim d).borrow where
  extend hc e := vec_keepE (Nat.le_trans h byteMax_le) d hc e
  tryExtend hc e := ExactT.keep (vec_exactT (Nat.le_trans h byteMax_le) d) hc e

/-! ## Examples -/

namespace Backends

theorem slots_survive {α : Type} {N : Nat} (d : α) :
    Survives (slots N d).toRealloc (fun c => c.length ≤ N) (slots N d).borrow where
  extend {c c' s} h e := by
    simp only [slots, Prod.mk.injEq] at e
    obtain ⟨rfl, -⟩ := e
    refine ⟨by simp; omega, N - c.length, ?_⟩
    show (c ++ s.items).take N = c ++ s.items.take (N - c.length)
    rw [List.take_append, List.take_of_length_le h]
  tryExtend {w w' c c' s} h e := by
    simp only [slots] at e
    split at e
    · cases e; exact ⟨h, 0, by simp⟩
    · split at e <;> simp at e

theorem kind_surviving : Surviving kind :=
  ⟨slots_survive _, slots_survive _, slots_survive _⟩

/-- What `extend` leaves of three nullable lists, the last one dropped, if the second new
list does not fit in the storage of the offsets: data of four elements, three lists and
two bits. -/
def torn : (scompR kind).C := ⟨⟨[7#8, 8#8, 1#8, 2#8], [0, 2, 2, 3]⟩, some ⟨[0x50#8], 2, 4⟩⟩

theorem two_built : SBuilt kind ⟨⟨[7#8, 8#8], [0, 2, 2]⟩, some ⟨[0x50#8], 2, 4⟩⟩
    [some [7#8, 8#8], none] :=
  .truncate (n := 2) (o := .ok) start_built rfl

theorem two_torn : (scompR kind).extend ⟨⟨[7#8, 8#8], [0, 2, 2]⟩, some ⟨[0x50#8], 2, 4⟩⟩
    [.item (some [1#8]), .item (some [2#8])] = (torn, .panic) := by with_unfolding_all rfl

/-- `Offsets<Slots<4, u8>, i32, Slots<4>>` -/
def rows : SComp (List Byte) :=
  .offsets .i32 (slots 4 0) (fun c => c.length ≤ 4)
    (.leaf (slots 4 0#8).toRealloc (fun c => c.length ≤ 4) id)

/-- The source panics after the first of its lists. -/
theorem rows_try : ∃ w, (scompR rows).tryExtend Sample.world ⟨[7#8, 8#8], [0, 2, 2]⟩
    [.item [9#8], .panic] = (⟨[7#8, 8#8, 9#8], [0, 2, 2, 3]⟩, .panic, w) :=
  ⟨_, by with_unfolding_all rfl⟩

theorem rows_two : SBuilt rows ⟨[7#8, 8#8], [0, 2, 2]⟩ [[7#8, 8#8], []] :=
  .truncate (n := 2) (o := .ok) rows_built rfl

/-- `Flatten<Slots<5, u8>, 2>` -/
def pairs : SComp (FixArr Byte 2) :=
  .flatten 2 (by decide) (.leaf (slots 5 0#8).toRealloc (fun c => c.length ≤ 5) id)

/-- A pair. -/
def pr (a b : Byte) : FixArr Byte 2 := ⟨[a, b], rfl⟩

/-- The third pair does not fit in five slots: half of it stays. -/
theorem pairs_torn : (scompR pairs).extend ⟨[]⟩ [.item (pr 1 2), .item (pr 3 4), .item (pr 5 6)] =
    (⟨[1#8, 2#8, 3#8, 4#8, 5#8]⟩, .panic) := by with_unfolding_all rfl

theorem pairs_sound : Sound pairs := (slots_honours (by decide) _).toHonours

theorem pairs_empty : SBuilt pairs ⟨[]⟩ [] := .empty (k := pairs)

/-- `Offsets<Flatten<Slots<5, u8>, 2>, i32, Slots<4>>` -/
def pairRows : SComp (List (FixArr Byte 2)) :=
  .offsets .i32 (slots 4 0) (fun c => c.length ≤ 4) pairs

theorem pairRows_sound : Sound pairRows :=
  ⟨slots_honours (by decide) _, by with_unfolding_all rfl, pairs_sound⟩

/-- The second list does not fit. -/
theorem pairRows_torn : (scompR pairRows).extend ⟨⟨[]⟩, [0]⟩
    [.item [pr 1 2], .item [pr 3 4, pr 5 6]] = (⟨⟨[1#8, 2#8]⟩, [0, 1]⟩, .panic) := by
  with_unfolding_all rfl

/-- `Flatten<Vec<u8>, 2>` -/
def vecs : SComp (FixArr Byte 2) :=
  .flatten 2 (by decide) (.leaf (vecB byteMax 0#8).toRealloc (RVec.WF byteMax) RVec.items)

theorem vecs_sound : Sound vecs := (C56_vec byteMax (Nat.le_refl _) _).toHonours

/-- The source of pairs panics after the first one. -/
theorem vecs_try : ∃ c w, (scompR vecs).tryExtend Sample.world (scompR vecs).empty
    [.item (pr 1 2), .panic] = (c, .panic, w) ∧ (scompR vecs).len c = .ok 1 :=
  ⟨_, _, Prod.ext rfl (Prod.ext (by decide +kernel) rfl), by decide +kernel⟩

/-- The number of new items follows from the length. -/
theorem count {O : Type} {k : SComp O} {c : (scompR k).C} {l m : List O} {n N : Nat}
    (h : Sees (scompR k).toColl c (l ++ m.take n)) (hl : (scompR k).len c = .ok N) :
    l ++ m.take n = l ++ m.take (N - l.length) := by
  have h3 := h.len.symm.trans hl
  injection h3 with h3
  rw [List.length_append, List.length_take] at h3
  rw [List.take_eq_take_min, show min n m.length = min (N - l.length) m.length by omega,
    ← List.take_eq_take_min]

end Backends

open Backends in
/-- The torn collection shows the two old items, although three lists are stored. -/
example : Sees (scompR kind).toColl torn [some [7#8, 8#8], none] := by
  obtain ⟨n, h, -⟩ := C63_seen_after_panic kind_sound kind_surviving two_built two_torn
  rw [count h (N := 2) rfl] at h
  exact h

open Backends in
/-- It is usable. -/
example : SBuilt kind torn [some [7#8, 8#8], none] := by
  obtain ⟨n, h, h1⟩ := C63_usable_after_panic kind_sound kind_surviving trivial two_built two_torn
  rw [count (k := kind) ⟨h1.len, h1.owned, h1.iter⟩ (N := 2) rfl] at h
  exact h

open Backends in
/-- A source that panics after the first list. -/
example : Sees (scompR rows).toColl ⟨[7#8, 8#8, 9#8], [0, 2, 2, 3]⟩ [[7#8, 8#8], [], [9#8]] := by
  obtain ⟨w, e⟩ := rows_try
  obtain ⟨n, h, -⟩ := C63_seen_after_try_panic kind_sound.2 kind_surviving.2 rows_two e
  rw [count (k := rows) h (N := 3) rfl] at h
  exact h

open Backends in
example : SBuilt rows ⟨[7#8, 8#8, 9#8], [0, 2, 2, 3]⟩ [[7#8, 8#8], [], [9#8]] := by
  obtain ⟨w, e⟩ := rows_try
  obtain ⟨n, h, h1⟩ := C63_usable_after_try_panic kind_sound.2 kind_surviving.2 trivial rows_two e
  rw [count (k := rows) ⟨h1.len, h1.owned, h1.iter⟩ (N := 3) rfl] at h
  exact h

open Backends in
/-- Two pairs and a half: dropping one pair drops the half, too. -/
example : SBuilt pairs ⟨[1#8, 2#8]⟩ [pr 1 2] := by
  obtain ⟨n, h, h1⟩ := C63_truncate_mends pairs_sound (slots_survive _) trivial pairs_empty pairs_torn
  rw [count (k := pairs) h (N := 2) rfl] at h1
  obtain ⟨c, t1, t2, -⟩ := h1 1 (by decide)
  simp only [pairs] at t1
  obtain ⟨rfl, -⟩ := t1
  exact t2

open Backends in
/-- Lists of pairs: dropping the list that contains a pair. -/
example : SBuilt pairRows ⟨⟨[]⟩, [0]⟩ [] := by
  obtain ⟨n, h, h1⟩ := C63_dropping_mends pairRows_sound ⟨slots_survive _, slots_survive _⟩
    (.empty (k := pairRows)) pairRows_torn
  rw [count (k := pairRows) h (N := 1) rfl] at h1
  obtain ⟨c, t1, t2, -⟩ := h1 0
    ⟨[pr 1 2], List.mem_cons_self, .inr ⟨pr 1 2, List.mem_cons_self, 1#8, List.mem_cons_self, trivial⟩⟩
  have t3 : (scompR pairRows).truncate ⟨⟨[1#8, 2#8]⟩, [0, 1]⟩ 0 =
    (⟨⟨[]⟩, [0]⟩, .ok) := by with_unfolding_all rfl
  rw [t3] at t1
  injection t1 with t1
  subst t1
  exact t2

open Backends in
/-- Two pairs and a half: consuming yields the two pairs. -/
example : Drains (scompR pairs).toColl ⟨[1#8, 2#8, 3#8, 4#8, 5#8]⟩ [pr 1 2, pr 3 4] := by
  obtain ⟨n, h, h1⟩ := C63_seen_after_panic pairs_sound (slots_survive _) pairs_empty pairs_torn
  rw [count (k := pairs) h (N := 2) rfl] at h1
  exact h1

open Backends in
/-- C63. If the items are fixed-size lists that cannot be null, asking for more than
that may panic. -/
theorem C63_consuming_panics :
    ∃ (k : SComp (FixArr Byte 2)) (c c' : (scompR k).C) (l : List (FixArr Byte 2))
      (s : Src (FixArr Byte 2)) (n : Nat) (it : (scompR k).J),
      Sound k ∧ Surviving k ∧ SBuilt k c l ∧ (scompR k).extend c s = (c', .panic) ∧
      (scompR k).len c' = .ok n ∧ (scompR k).into c' = .ok it ∧
      (∃ r, polls (scompR k).jnext n it = .ok r) ∧
      polls (scompR k).jnext (n + 1) it = .panic :=
  ⟨pairs, ⟨[]⟩, ⟨[1#8, 2#8, 3#8, 4#8, 5#8]⟩, [], [.item (pr 1 2), .item (pr 3 4), .item (pr 5 6)],
    2, _, pairs_sound, slots_survive _, pairs_empty, pairs_torn, rfl, rfl, ⟨_, rfl⟩, rfl⟩

open Backends in
/-- Lists of pairs can be consumed to the end. -/
example : Reads (scompR pairRows).toColl ⟨⟨[1#8, 2#8]⟩, [0, 1]⟩ [[pr 1 2]] := by
  obtain ⟨n, h⟩ := C63_shown_after_panic pairRows_sound ⟨slots_survive _, slots_survive _⟩ id
    (.empty (k := pairRows)) pairRows_torn
  rw [count (k := pairRows) ⟨h.len, h.owned, h.iter⟩ (N := 1) rfl] at h
  exact h

open Backends in
example : Reads (scompR rows).toColl ⟨[7#8, 8#8, 9#8], [0, 2, 2, 3]⟩ [[7#8, 8#8], [], [9#8]] := by
  obtain ⟨w, e⟩ := rows_try
  obtain ⟨n, h⟩ := C63_shown_after_try_panic kind_sound.2 kind_surviving.2 id rows_two e
  rw [count (k := rows) ⟨h.len, h.owned, h.iter⟩ (N := 3) rfl] at h
  exact h

open Backends in
/-- Pairs in a `Vec`, emptied after the source panicked. -/
example : ∃ c c', (scompR vecs).truncate c 0 = (c', .ok) ∧
    Sees (scompR vecs).toColl c [pr 1 2] ∧ SBuilt vecs c' [] := by
  obtain ⟨c, w, e, hl⟩ := vecs_try
  obtain ⟨n, h, h1⟩ := C63_truncate_mends_try vecs_sound (C63_vec byteMax (Nat.le_refl _) _)
    (.empty (k := vecs)) e
  rw [count (k := vecs) h hl] at h1
  rw [count (k := vecs) h hl] at h
  obtain ⟨c', t1, t2, -⟩ := h1 0 (by decide)
  exact ⟨c, c', t1, h, t2⟩

example : Survives (vecB byteMax 0#8).toRealloc (RVec.WF byteMax) (vecB byteMax 0#8).borrow :=
  C63_vec _ (Nat.le_refl _) _

end Narrow.Props
