import Verif.Proof.Room
import Verif.Props.Reserved

/-!
# C55: every reserving call makes room, for lists too

`with_capacity(n)`, `try_with_capacity_in(n)`, `reserve(n)` and `try_reserve(n)`
make room for the items that `n` covers (`Spec.Covers`): until these are appended,
the allocator has no influence.
-/

namespace Narrow.Props

open Spec

variable {nl : Bool} {t : Ty}

/-- The array `c` was grown within memory and shows `l`. -/
def GrownTo (nl : Bool) (t : Ty) (c : (arrayR nl t).C) (l : List (ItemVal nl (Val t))) : Prop :=
  Grown nl t c ∧ Shows nl t c l

/-- C55. After any reserving call for `n` items, appending items covered by `n`, in
any number of `try_extend` calls and with any truncation in between, always
returns `Ok`, with the result a plain list gives, and gives one and the same array
whatever the allocator answers. -/
theorem C55_reserving_makes_room (ht : t.WF) {n : Nat} {c : (arrayR nl t).C}
    {l : List (ItemVal nl (Val t))} {uses : List (Use (ItemVal nl (Val t)))}
    (h : Reserved (arrayR nl t) (GrownTo nl t) n c l) (hp : Calm uses)
    (hc : Covers nl t n (appended uses)) (hf : Fits nl t 0 (l ++ appended uses)) :
    ∃ c', Shows nl t c' (listUses l uses) ∧
      ∀ w, HonestLower w.oracle → ∃ w', runUses (arrayR nl t) w c uses = (c', .ok, w') := by
  obtain ⟨h1, rfl, h3⟩ := (arrayHolds nl t ht).reserved (L := arrayL nl t ht)
    (fun hg => by
      obtain ⟨i1, i2⟩ := grown_canon hg.1 ht
      exact ⟨i1, i2, hg.2.abs_eq i1⟩)
    h ((fits_iff ht _ _).mp hf) ((covers_iff ht _ _).mp hc)
  obtain ⟨c', j1, j2, j3⟩ := (arrayHolds nl t ht).uses uses h1 h3 hp
  exact ⟨c', shows_of_inv ht j1 j2, j3⟩

/-- C55 for collections composed by hand. -/
theorem C55_composed {O : Type} {k : Comp O} {n : Nat} {c : (compR k).C} {l : List O}
    {uses : List (Use O)} (h : Reserved (compR k) (Within k) n c l) (hp : Calm uses)
    (hc : CCovers k n (appended uses)) (hf : CFits k 0 (l ++ appended uses)) :
    ∃ c', Reads (compR k).toColl c' (listUses l uses) ∧
      ∀ w, HonestLower w.oracle → ∃ w', runUses (compR k) w c uses = (c', .ok, w') := by
  obtain ⟨h1, rfl, h3⟩ := (compHolds k).reserved (L := compL k)
    (fun hg => ⟨(built_inv hg.built).1, within_canon hg, (built_inv hg.built).2⟩)
    h ((cfits_iff k _ _).mp hf) ((ccovers_iff k _ _).mp hc)
  obtain ⟨c', j1, j2, j3⟩ := (compHolds k).uses uses h1 h3 hp
  exact ⟨c', j2 ▸ reads_abs _ j1, j3⟩

theorem flat_le {O : Type} {k n : Nat} (hk : 0 < k) (l : List (FixArr O k)) :
    (l.flatMap Subtype.val).length ≤ n * k ↔ l.length ≤ n := by
  rw [show (l.flatMap Subtype.val).length = l.length * k from Flatten.flat_length l]
  exact ⟨fun h => Nat.le_of_mul_le_mul_right h hk, fun h => Nat.mul_le_mul_right k h⟩

theorem map_le {α β : Type} (f : α → β) (l : List α) (n : Nat) : (l.map f).length ≤ n ↔ l.length ≤ n := by
  rw [List.length_map]

theorem covers_base_noVec : (t : Ty) → t.WF → NoVec t → (n : Nat) → (l : List (Val t)) →
    (Covers.base t n l ↔ l.length ≤ n)
  | .bool, _, _, _, _ => Iff.rfl
  | .prim _, _, _, _, _ => Iff.rfl
  | .fsl k false t, h, hv, n, l =>
    (covers_base_noVec t h.2 hv (n * k) (l.flatMap Subtype.val)).trans (flat_le h.1 l)
  | .fsl k true t, h, hv, n, l =>
    ⟨fun h' => (flat_le h.1 l).mp h'.1, fun h' => ⟨(flat_le h.1 l).mpr h',
      (covers_base_noVec t h.2 hv (n * k) _).mpr ((map_le _ _ _).mpr ((flat_le h.1 l).mpr h'))⟩⟩

/-- Without variable-size lists in the item type, `n` covers any `n` items. -/
theorem C55_covers_any (ht : t.WF) (hv : NoVec t) (n : Nat) (l : List (ItemVal nl (Val t))) :
    Covers nl t n l ↔ l.length ≤ n := by
  cases nl
  · exact covers_base_noVec t ht hv n l
  · exact ⟨fun h => h.1, fun h =>
      ⟨h, (covers_base_noVec t ht hv n _).mpr ((map_le _ _ _).mpr h)⟩⟩

namespace Room

/-- `Option<Vec<Option<u8>>>` -/
abbrev lists : Ty := .vsl .i32 true (.prim .u8)

theorem lists_wf : lists.WF := trivial

/-- `Some(vec![..])` -/
def row (l : List (Option (BitVec 8))) : ItemVal true (Val lists) := some l

/-- Four lists with four elements together. -/
def rows : List (ItemVal true (Val lists)) := [row [some 1#8, none], none, row [], row [some 2#8, some 3#8]]

/-- Appending two of them, truncating to 3 items, and appending the other two. -/
def uses : List (Use (ItemVal true (Val lists))) :=
  [.tryExtend (Src.ofList (rows.take 2)), .truncate 3, .tryExtend (Src.ofList (rows.drop 2))]

/-- `Validity<Offsets<Validity<Flatten<Bitmap, 2>>, i64>>` -/
abbrev pairs : Comp (Option (List (Option (FixArr Bool 2)))) :=
  .validity (.offsets .i64 (.validity (.flatten 2 (Nat.le_of_ble_eq_true rfl) .bitmap)))

/-- Appending three items, with three pairs together. -/
def pairUses : List (Use (Option (List (Option (FixArr Bool 2))))) :=
  [.tryExtend [.item (some [some ⟨[true, false], rfl⟩, none]), .item none],
    .tryExtend [.item (some [some ⟨[true, true], rfl⟩])]]

end Room

/-- The hypotheses of C55 hold: after reserving for 4 nullable lists in an array of
4, the calls succeed although the allocator refuses everything. -/
example : ∃ c c' w', Reserved (arrayR true Room.lists) (GrownTo true Room.lists) 4 c Room.rows ∧
    runUses (arrayR true Room.lists) Room.refusing c Room.uses = (c', .ok, w') ∧
    Shows true Room.lists c' [Room.row [some 1#8, none], none, Room.row [], Room.row [],
      Room.row [some 2#8, some 3#8]] := by
  obtain ⟨c, w', -, hg, hs⟩ := C08_collect_list (nl := true) (t := Room.lists) (w := Sample.world)
    Room.lists_wf Room.rows Sample.tight
    ⟨Nat.le_of_ble_eq_true rfl, Nat.le_of_ble_eq_true rfl, Nat.le_of_ble_eq_true rfl,
      Nat.le_of_ble_eq_true rfl, Nat.le_of_ble_eq_true rfl⟩
  have h := C13_try_reserve_succeeds (n := 4) (w := Sample.world) Room.lists_wf hg hs
    Sample.generous Sample.tight
    ⟨Nat.le_of_ble_eq_true rfl, Nat.le_of_ble_eq_true rfl, Nat.le_of_ble_eq_true rfl,
      Nat.le_of_ble_eq_true rfl, Nat.le_of_ble_eq_true rfl⟩
  obtain ⟨c1, w1, h1⟩ : ∃ c1 w1, (arrayR true Room.lists).tryReserve Sample.world c 4 = (c1, .ok, w1) :=
    ⟨_, _, Prod.ext rfl (Prod.ext h rfl)⟩
  have hres : Reserved (arrayR true Room.lists) (GrownTo true Room.lists) 4 c1 Room.rows :=
    .tryReserve ⟨hg, hs⟩ h1
  obtain ⟨c2, h2, h3⟩ := C55_reserving_makes_room (uses := Room.uses) Room.lists_wf hres
    ⟨rfl, rfl, trivial⟩
    ⟨Nat.le_of_ble_eq_true rfl, Nat.le_of_ble_eq_true rfl, Nat.le_of_ble_eq_true rfl,
      Nat.le_of_ble_eq_true rfl⟩
    ⟨Nat.le_of_ble_eq_true rfl, Nat.le_of_ble_eq_true rfl, Nat.le_of_ble_eq_true rfl,
      Nat.le_of_ble_eq_true rfl, Nat.le_of_ble_eq_true rfl⟩
  obtain ⟨w3, h3⟩ := h3 Room.refusing Room.refusing_honest
  exact ⟨c1, c2, w3, hres, h3, h2⟩

/-- The hypotheses of `C55_composed` hold: `with_capacity(3)` of
`Validity<Offsets<Validity<Flatten<Bitmap, 2>>>>`, and three items with three
pairs together. -/
example : ∃ c c' w',
    Reserved (compR Room.pairs) (Within Room.pairs) 3 c [] ∧
    runUses (compR Room.pairs) Room.refusing c Room.pairUses = (c', .ok, w') := by
  have h : Reserved (compR Room.pairs) (Within Room.pairs) 3 _ [] := .withCap (c := _) rfl
  obtain ⟨c', -, h'⟩ := C55_composed (uses := Room.pairUses) h ⟨rfl, rfl, trivial⟩
    ⟨Nat.le_of_ble_eq_true rfl, Nat.le_of_ble_eq_true rfl, Nat.le_of_ble_eq_true rfl,
      Nat.le_of_ble_eq_true rfl⟩
    ⟨Nat.le_of_ble_eq_true rfl, Nat.le_of_ble_eq_true rfl, Nat.le_of_ble_eq_true rfl,
      Nat.le_of_ble_eq_true rfl, Nat.le_of_ble_eq_true rfl⟩
  obtain ⟨w', h'⟩ := h' Room.refusing Room.refusing_honest
  exact ⟨_, c', w', h, h'⟩

/-- `with_capacity(2)` of an `Array<Vec<u8>>` makes room for two lists with two
elements together. -/
example : ∃ c c' w', (arrayR false (.vsl .i32 false (.prim .u8))).withCap 2 = .ok c ∧
    (arrayR false (.vsl .i32 false (.prim .u8))).tryExtend Room.refusing c
      [.item ([7#8, 8#8] : List (BitVec 8)), .item ([] : List (BitVec 8))] = (c', .ok, w') :=
  ⟨_, _, _, rfl, rfl⟩

/-- No more room is promised than `Covers` says: with a capacity of exactly the
requested one, after `with_capacity(2)` a list of three bytes needs the allocator,
and so does a third list. -/
theorem C55_no_more_room :
    ∃ c c1 c2 w1 w2, (arrayR false (.vsl .i32 false (.prim .u8))).withCap 2 = .ok c ∧
      (arrayR false (.vsl .i32 false (.prim .u8))).tryExtend Room.refusing c
        [.item ([7#8, 8#8, 9#8] : List (BitVec 8))] = (c1, .err, w1) ∧
      (arrayR false (.vsl .i32 false (.prim .u8))).tryExtend Room.refusing c
        [.item ([] : List (BitVec 8)), .item ([] : List (BitVec 8)), .item ([] : List (BitVec 8))] =
          (c2, .err, w2) :=
  ⟨_, _, _, _, _, rfl, rfl, rfl⟩

end Narrow.Props
