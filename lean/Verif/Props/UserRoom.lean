import Verif.Proof.UserRoom
import Verif.Props.Refill
import Verif.Props.Room
import Verif.Props.UserArrays
import Verif.Props.UserListItems

/-!
# Reserving makes room in collections over storages written by users (C76)

If reserving calls of every collection and storage make room (`Spec.MakesRoom`), then
`with_capacity(n)`, `try_with_capacity_in(n)`, `reserve(n)` and `try_reserve(n)` of a
composition make room for the items that `n` covers (`Spec.SCovers`).
-/

namespace Narrow.Props

open Spec

section
variable {O : Type} {k : SComp O}

theorem uses_reused : ∀ (us : List (Use O)) {w w' : World} {c c' : (scompR k).C} {l : List O},
    SReused k c l → runUses (scompR k) w c us = (c', .ok, w') → SReused k c' (listUses l us)
  | [], w, w', c, c', l, h, e => by
    simp only [runUses, Prod.mk.injEq] at e
    obtain ⟨rfl, -⟩ := e
    exact h
  | .tryExtend s :: us, w, w', c, c', l, h, e => by
    simp only [runUses] at e
    generalize hq : (scompR k).tryExtend w c s = q at e
    obtain ⟨c1, o, w1⟩ := q
    cases o with
    | ok => exact uses_reused us (.tryExtend h hq) e
    | err => simp at e
    | panic => simp at e
  | .truncate m :: us, w, w', c, c', l, h, e => by
    simp only [runUses] at e
    generalize hq : (scompR k).truncate c m = q at e
    obtain ⟨c1, o⟩ := q
    cases o with
    | ok => exact uses_reused us (.truncate h hq) e
    | err => simp at e
    | panic => simp at e

theorem reserved_reused {n : Nat} {c : (scompR k).C} {l : List O}
    (h : Reserved (scompR k) (SReused k) n c l) : SReused k c l := by
  rcases reserved_cases h with ⟨rfl, e⟩ | ⟨rfl, w, w', e⟩ | ⟨c0, h1, e⟩ | ⟨c0, w, w', h1, e⟩
  · exact .withCap e
  · exact .tryWithCap e
  · exact .reserve h1 e
  · exact .tryReserve h1 e

/-- C76. After any reserving call for `n` items, appending items covered by `n`, in any
number of `try_extend` calls and with any truncation in between, returns `Ok` with the
result a plain list gives, whatever the allocator answers. -/
theorem C76_reserving_makes_room (hs : Sound k) (hp : Providing k) {n : Nat} {c : (scompR k).C}
    {l : List O} {uses : List (Use O)} (h : Reserved (scompR k) (SReused k) n c l)
    (hu : Calm uses) (hc : SCovers k n (appended uses)) (hf : TotalsFit k (l ++ appended uses))
    {w : World} (hw : HonestLower w.oracle) :
    ∃ c' w', runUses (scompR k) w c uses = (c', .ok, w') ∧ SReused k c' (listUses l uses) ∧
      Reads (scompR k).toColl c' (listUses l uses) := by
  obtain ⟨H, K⟩ := scomp_holds k hs hp
  obtain ⟨h1, -, h3⟩ := K.reserved (Made := SReused k)
    (fun hg => by
      obtain ⟨i1, i2⟩ := sbuilt_inv hg.built hs
      exact ⟨i1, sreused_loose hg hs, i2⟩) h hf hc
  obtain ⟨c', w', e, -, -⟩ := K.uses uses h1 h3 hu hw
  have hr := uses_reused uses (reserved_reused h) e
  exact ⟨c', w', e, hr, C56_built_reads hs hr.built⟩

theorem covers_flat : {O : Type} → (k : SComp O) → NoLists k → (n : Nat) → (l : List O) →
    (SCovers k n l ↔ l.length ≤ n) ∧ TotalsFit k l
  | _, .leaf _ _ _, _, _, _ => ⟨Iff.rfl, trivial⟩
  | _, .bitmap _ _, _, _, _ => ⟨Iff.rfl, trivial⟩
  | _, .flatten m hm k, h, n, l =>
    ⟨(covers_flat k h (n * m) (l.flatMap Subtype.val)).1.trans (flat_le hm l),
      (covers_flat k h (n * m) (l.flatMap Subtype.val)).2⟩
  | _, .validity _ _ _ k, h, n, l =>
    ⟨⟨fun h' => h'.1, fun h' => ⟨h', (covers_flat k h n _).1.mpr (by simpa using h')⟩⟩,
      (covers_flat k h n _).2⟩
  | _, .offsets _ _ _ _, h, _, _ => h.elim

/-- C76. Without variable-size lists, room for `n` items is room for any `n` items. -/
theorem C76_room_for_any (hs : Sound k) (hp : Providing k) (hn : NoLists k) {n : Nat}
    {c : (scompR k).C} {l : List O} {uses : List (Use O)}
    (h : Reserved (scompR k) (SReused k) n c l) (hu : Calm uses)
    (hc : (appended uses).length ≤ n) {w : World} (hw : HonestLower w.oracle) :
    ∃ c' w', runUses (scompR k) w c uses = (c', .ok, w') ∧
      Reads (scompR k).toColl c' (listUses l uses) := by
  obtain ⟨c', w', e, -, hr⟩ := C76_reserving_makes_room hs hp h hu
    ((covers_flat k hn n _).1.mpr hc) (covers_flat k hn n _).2 hw
  exact ⟨c', w', e, hr⟩

/-- C76. `Vec<T>` keeps the contract: there is room for what its capacity leaves. -/
theorem C76_vec {α : Type} (lim : Nat) (hlim : lim ≤ byteMax) (d : α) :
    MakesRoomBuf (vecB lim d) (RVec.WF lim) (fun c n => c.items.length + n ≤ c.cap) where
  nothing h := h.1
  less hm h := by omega
  withCap {n c} e := by
    obtain ⟨h1, h2⟩ := RVec.withCap_room e
    simp only [h1, h2, List.length_nil]; omega
  tryWithCap {w w' n c} e := by
    obtain ⟨h1, h2⟩ := RVec.tryWithCap_room e
    simp only [h1, List.length_nil]; omega
  reserve h e := RVec.reserve_room e h
  tryReserve h e := (RVec.tryReserve_cap e h).1
  truncate {c c' m n} _ h e := by
    simp only [Prod.mk.injEq, and_true] at e
    subst e
    simp only [RVec.truncate, List.length_take]; omega
  extend {c c' n s} _ h e := by
    have e : RVec.extend lim c s = (c', .ok) := e
    have h1 := RVec.extend_cap lim s c
    rw [e] at h1
    simp only at h1
    rw [(RVec.extend_ok e).1, List.length_append]
    omega
  tryExtend {w w' c c' n s} hg h e := by
    have e : RVec.tryExtend lim w c s = (c', .ok, w') := e
    have h1 := RVec.tryExtend_cap w s hg
    rw [e] at h1
    simp only at h1
    have h2 : c'.items = c.items ++ s.items :=
      ((vecL lim (Nat.le_trans hlim byteMax_le) d).tryExt_ok hg e).2.1
    rw [h2, List.length_append]
    omega
  granted {w c s} hg h hp hw := ⟨_, _, RVec.tryExtend_noalloc hw hp h, hw⟩
  write {c l n} _ h hl := by
    show l.length + n ≤ c.cap
    have hl : l.length = c.items.length := hl
    omega

end

/-! ## Arrays -/

/-- Reserving calls of every storage make room. -/
structure Provided (S : Stores) (G : Goods S) : Prop where
  bytes : ∃ Space, MakesRoomBuf S.bytes G.bytes Space
  offsets : ∀ ow, ∃ Space, MakesRoomBuf (S.offsets ow) (G.offsets ow) Space
  values : ∀ p, ∃ Space, MakesRoom (S.values p).toRealloc (G.values p) Space

section
variable {S : Stores} {G : Goods S} {env : World}

theorem opt_providing {O : Type} (hp : Provided S G) (nl : Bool) {k : SComp O} (h : Providing k) :
    Providing (arrayComp.opt env S G nl k) := by
  cases nl
  · exact h
  · exact ⟨hp.bytes, h⟩

theorem base_providing (hp : Provided S G) : (t : Ty) → (ht : t.WF) →
    Providing (arrayComp.base env S G t ht)
  | .bool, _ => hp.bytes
  | .prim p, _ => hp.values p
  | .fsl _ nl t, ht => opt_providing hp nl (base_providing hp t ht.2)
  | .vsl ow nl t, ht => ⟨hp.offsets ow, opt_providing hp nl (base_providing hp t ht)⟩

theorem builtBy_reused {O : Type} {k : SComp O} {c : (scompR k).C} {l : List O}
    (h : BuiltBy (scompR k) c l) : SReused k c l := by
  induction h with
  | empty => exact .empty
  | withCap e => exact .withCap e
  | tryWithCap e => exact .tryWithCap e
  | fromIter h e => exact .fromIter h e
  | fromIterIn h e => exact .fromIterIn h e
  | tryFromIter h e => exact .tryFromIter h e
  | extend _ e ih => exact .extend ih e
  | tryExtend _ e ih => exact .tryExtend ih e
  | tryExtendErr _ e ih => exact .tryExtendErr ih e
  | reserve _ e ih => exact .reserve ih e
  | tryReserve _ e ih => exact .tryReserve ih e
  | truncate _ e ih => exact .truncate ih e

/-- C76 for arrays of every item type. -/
theorem C76_array (hk : Kept S G) (hp : Provided S G) {nl : Bool} {t : Ty} (ht : t.WF) {n : Nat}
    {c : (arrayInR env S nl t).C} {l : List (ItemVal nl (Val t))}
    {uses : List (Use (ItemVal nl (Val t)))}
    (h : Reserved (arrayInR env S nl t) (BuiltBy (arrayInR env S nl t)) n c l) (hu : Calm uses)
    (hc : SCovers (arrayComp env S G nl t ht) n (appended uses))
    (hf : TotalsFit (arrayComp env S G nl t ht) (l ++ appended uses))
    {w : World} (hw : HonestLower w.oracle) :
    ∃ c' w', runUses (arrayInR env S nl t) w c uses = (c', .ok, w') ∧
      Reads (arrayInR env S nl t).toColl c' (listUses l uses) := by
  obtain ⟨e, hs⟩ := C70_array_composition (env := env) (nl := nl) hk ht
  have hp' : Providing (arrayComp env S G nl t ht) := opt_providing hp nl (base_providing hp t ht)
  generalize arrayInR env S nl t = R at *
  subst e
  have h' : Reserved (scompR (arrayComp env S G nl t ht)) (SReused _) n c l := by
    rcases reserved_cases h with ⟨rfl, e⟩ | ⟨rfl, w, w', e⟩ | ⟨c0, h1, e⟩ | ⟨c0, w, w', h1, e⟩
    · exact .withCap e
    · exact .tryWithCap e
    · exact .reserve (builtBy_reused h1) e
    · exact .tryReserve (builtBy_reused h1) e
  obtain ⟨c', w', e, -, hr⟩ := C76_reserving_makes_room hs hp' h' hu hc hf hw
  exact ⟨c', w', e, hr⟩

end

/-! ## Lists with items of any collection type -/

section
variable {O : Type} {k : SComp O} {ow : OffW} {D : Backing Int} {Good : D.C → Prop}

/-- C72. Calls with items of any collection type do what they do with `Vec` items. -/
theorem C72_runs_same {R U : Realloc O} {v : World} {us : List (Use U.C)} {vs : List (Use (List O))}
    (h : SameUses U.toColl us vs) (w : World) (c : OffsetsIn.Of D R) :
    runUses (offsetsInOfR ow D R U v) w c us = runUses (offsetsBR ow D R) w c vs := by
  induction h generalizing w c with
  | nil => rfl
  | tryExtend hs _ ih =>
    have := (C72_same_as_vec (ow := ow) (D := D) (R := R) hs w v c).2.1
    simp only [runUses] at this ⊢
    rw [this]
    simp only [ih]
    generalize OffsetsIn.tryExtend ow D R w c _ = r
    obtain ⟨c', o, w'⟩ := r
    cases o <;> rfl
  | truncate _ ih =>
    simp only [runUses, ih]
    generalize OffsetsIn.truncate D R c _ = r
    obtain ⟨c', o⟩ := r
    cases o <;> rfl

/-- C72. Every reserving call makes room: after it, items covered by `n` are appended
whatever the allocator answers. -/
theorem C72_reserving_makes_room (hs : Sound (.offsets ow D Good k))
    (hp : Providing (.offsets ow D Good k)) {U : Realloc O} {v : World} {n : Nat}
    {c : OffsetsIn.Of D (scompR k)} {rows : List U.C} {l : List (List O)}
    {us : List (Use U.C)} {vs : List (Use (List O))}
    (h : Reserved (offsetsInOfR ow D (scompR k) U v)
      (fun c rows => ∃ l, ShowRows U.toColl rows l ∧ SReused (.offsets ow D Good k) c l) n c rows)
    (hl : ShowRows U.toColl rows l) (hu : SameUses U.toColl us vs) (hq : Calm vs)
    (hc : SCovers (.offsets ow D Good k) n (appended vs))
    (hf : TotalsFit (.offsets ow D Good k) (l ++ appended vs)) {w : World}
    (hw : HonestLower w.oracle) :
    ∃ c' w', runUses (offsetsInOfR ow D (scompR k) U v) w c us = (c', .ok, w') ∧
      Reads (scompR (.offsets ow D Good k)).toColl c' (listUses l vs) := by
  have h' : Reserved (scompR (.offsets ow D Good k)) (SReused (.offsets ow D Good k)) n c l := by
    rcases reserved_cases h with ⟨rfl, e⟩ | ⟨rfl, w, w', e⟩ | ⟨c0, ⟨l', h1, h2⟩, e⟩ |
      ⟨c0, w, w', ⟨l', h1, h2⟩, e⟩
    · exact (List.eq_nil_of_length_eq_zero hl.1.symm : l = []) ▸ .withCap e
    · exact (List.eq_nil_of_length_eq_zero hl.1.symm : l = []) ▸ .tryWithCap e
    · exact showRows_unique hl h1 ▸ .reserve h2 e
    · exact showRows_unique hl h1 ▸ .tryReserve h2 e
  obtain ⟨c', w', e, -, hr⟩ := C76_reserving_makes_room hs hp h' hq hc hf hw
  exact ⟨c', w', (C72_runs_same (ow := ow) (R := scompR k) hu w c).trans e, hr⟩

/-- C72. Reserving and truncating leave the lists as they are. -/
theorem C72_reserve_truncate (hs : Sound (.offsets ow D Good k)) {U : Realloc O} {v w w' : World}
    {n : Nat} {o : Out} {c c' : OffsetsIn.Of D (scompR k)} {l : List (List O)}
    (h : SBuilt (.offsets ow D Good k) c l) :
    ((offsetsInOfR ow D (scompR k) U v).reserve c n = (c', o) →
      Reads (scompR (.offsets ow D Good k)).toColl c' l) ∧
    ((offsetsInOfR ow D (scompR k) U v).tryReserve w c n = (c', o, w') →
      Reads (scompR (.offsets ow D Good k)).toColl c' l) ∧
    ((offsetsInOfR ow D (scompR k) U v).truncate c n = (c', o) →
      o = .ok ∧ Reads (scompR (.offsets ow D Good k)).toColl c' (l.take n)) := by
  refine ⟨fun e => C56_built_reads hs (.reserve h e), fun e => C56_built_reads hs (.tryReserve h e),
    fun e => ⟨?_, C56_built_reads hs (.truncate h e)⟩⟩
  have := C56_truncate_returns hs h n
  have e : (scompR (.offsets ow D Good k)).truncate c n = (c', o) := e
  rw [e] at this
  exact this

end

/-! ## Concrete cases -/

namespace Backends

/-- A storage of `N` slots has room for the free slots. -/
theorem slots_room {α : Type} (N : Nat) (d : α) :
    MakesRoomBuf (slots N d) (fun c => c.length ≤ N) (fun c n => c.length + n ≤ N) where
  nothing h := h
  less hm h := by omega
  withCap e := by
    simp only [slots] at e
    split at e
    · cases e; simpa
    · cases e
  tryWithCap e := by
    simp only [slots, Prod.mk.injEq] at e
    obtain ⟨e, -⟩ := e
    split at e
    · cases e; simpa
    · cases e
  reserve _ e := by
    simp only [slots, Prod.mk.injEq] at e
    obtain ⟨rfl, e⟩ := e
    split at e
    · assumption
    · cases e
  tryReserve _ e := by
    simp only [slots, Prod.mk.injEq] at e
    obtain ⟨rfl, e, -⟩ := e
    split at e
    · assumption
    · cases e
  truncate _ h e := by
    simp only [Prod.mk.injEq] at e
    obtain ⟨rfl, -⟩ := e
    simp only [List.length_take]; omega
  extend {c c' n s} _ h e := by
    simp only [slots, Prod.mk.injEq] at e
    obtain ⟨rfl, -⟩ := e
    simp only [List.length_take, List.length_append]; omega
  tryExtend {w w' c c' n s} _ h e := by
    simp only [slots] at e
    split at e
    · cases e
    · split at e
      · cases e
        simp only [List.length_append]; omega
      · cases e
  granted {w c s} _ h hp hw := by
    refine ⟨(c ++ s.items : List α), w, ?_, hw⟩
    simp only [slots, hp]
    rw [if_neg (by simp), if_pos (by simpa using h)]
  write {c l n} _ h hl := by
    have hl : l.length = c.length := hl
    show l.length + n ≤ N
    omega

theorem kind_providing : Providing kind :=
  ⟨⟨_, slots_room _ _⟩, ⟨_, slots_room _ _⟩, ⟨_, (slots_room _ _).toMakesRoom⟩⟩

theorem eight_provided : Provided eight eightGood where
  bytes := ⟨_, slots_room _ _⟩
  offsets _ := ⟨_, slots_room _ _⟩
  values _ := ⟨_, (slots_room _ _).toMakesRoom⟩

/-- `Validity<Offsets<Vec<u8>, i32, Slots<4>>, Slots<1>>`: the bytes are in a `Vec`. -/
def texts : SComp (Option (List Byte)) :=
  .validity Sample.world (slots 1 0#8) (fun c => c.length ≤ 1)
    (.offsets .i32 (slots 4 0) (fun c => c.length ≤ 4)
      (.leaf (vecB byteMax 0#8).toRealloc (RVec.WF byteMax) (·.items)))

theorem texts_sound : Sound texts :=
  ⟨slots_honours (by decide) _, slots_honours (by decide) _, rfl,
    (C56_vec byteMax (Nat.le_refl _) _).toHonours⟩

theorem texts_providing : Providing texts :=
  ⟨⟨_, slots_room _ _⟩, ⟨_, slots_room _ _⟩, ⟨_, (C76_vec _ (Nat.le_refl _) _).toMakesRoom⟩⟩

/-- A list with two bytes and a null, cut to one item, and a list of one byte. -/
def textUses : List (Use (Option (List Byte))) :=
  [.tryExtend [.item (some [7#8, 8#8]), .item none], .truncate 1, .tryExtend [.item (some [9#8])]]

end Backends

/-- The hypotheses of C76 hold: `with_capacity(3)`, three items with three bytes
together, and an allocator that refuses everything. -/
example : ∃ c c' w', Reserved (scompR Backends.texts) (SReused Backends.texts) 3 c [] ∧
    runUses (scompR Backends.texts) Room.refusing c Backends.textUses = (c', .ok, w') ∧
    Reads (scompR Backends.texts).toColl c' [some [7#8, 8#8], some [9#8]] := by
  have h : Reserved (scompR Backends.texts) (SReused Backends.texts) 3 _ [] := .withCap (c := _) rfl
  obtain ⟨c', w', e, -, hr⟩ := C76_reserving_makes_room (uses := Backends.textUses)
    Backends.texts_sound Backends.texts_providing h ⟨rfl, rfl, trivial⟩
    ⟨Nat.le_of_ble_eq_true rfl, Nat.le_of_ble_eq_true rfl, Nat.le_of_ble_eq_true rfl⟩
    ⟨Nat.le_of_ble_eq_true rfl, trivial⟩ Room.refusing_honest
  exact ⟨_, c', w', h, e, hr⟩

/-- Without reserving, the same allocator refuses the same calls. -/
example : (runUses (scompR Backends.texts) Room.refusing (scompR Backends.texts).empty
    Backends.textUses).2.1 = .err := by decide +kernel

/-- Four slots have no room for four lists: reserving for four fails. -/
example : ((scompR Backends.texts).tryReserve Sample.world (scompR Backends.texts).empty 4).2.1 =
    .err := by decide +kernel

/-- Bitmaps have no lists: any eight bits, in one slot. -/
example : ∃ c c' w', (scompR BitSlots.item).withCap 8 = .ok c ∧
    runUses (scompR BitSlots.item) Room.refusing c
      [.tryExtend (Src.ofList [true, false, true]), .tryExtend (Src.ofList (List.replicate 5 true))] =
        (c', .ok, w') ∧
    Reads (scompR BitSlots.item).toColl c' [true, false, true, true, true, true, true, true] := by
  have h : (scompR BitSlots.item).withCap 8 = .ok _ := rfl
  obtain ⟨c', w', e, hr⟩ := C76_room_for_any (n := 8) (uses := [.tryExtend (Src.ofList [true, false, true]),
      .tryExtend (Src.ofList (List.replicate 5 true))]) BitSlots.item_sound ⟨_, Backends.slots_room _ _⟩
    trivial (.withCap h) ⟨rfl, rfl, trivial⟩ (by decide) Room.refusing_honest
  exact ⟨_, c', w', h, e, hr⟩

/-- The hypotheses of `C76_array` hold: `try_reserve(2)` of an array with four items, and
two more. -/
example : ∃ c c' w', Reserved Backends.lists (BuiltBy Backends.lists) 2 c Sample.items ∧
    runUses Backends.lists Room.refusing c [.tryExtend (Src.ofList Sample.more)] = (c', .ok, w') ∧
    Reads Backends.lists.toColl c' (Sample.items ++ Sample.more) := by
  have h1 : Backends.lists.extend Backends.lists.empty (Src.ofList Sample.items) =
    ((Backends.lists.extend Backends.lists.empty (Src.ofList Sample.items)).1, .ok) :=
    Prod.ext rfl (by decide +kernel)
  obtain ⟨c, e1⟩ : ∃ c, Backends.lists.reserve (Backends.lists.extend Backends.lists.empty
      (Src.ofList Sample.items)).1 2 = (c, .ok) :=
    ⟨_, Prod.ext rfl (by decide +kernel)⟩
  have h : Reserved Backends.lists (BuiltBy Backends.lists) 2 c Sample.items := by
    have := BuiltBy.extend .empty h1
    simp only [Src.items_ofList, List.nil_append] at this
    exact .reserve this e1
  obtain ⟨c', w', e, hr⟩ := C76_array (uses := [.tryExtend (Src.ofList Sample.more)])
    Backends.eight_kept Backends.eight_provided Sample.ty_wf h ⟨rfl, trivial⟩
    ⟨Nat.le_of_ble_eq_true rfl, Nat.le_of_ble_eq_true rfl, Nat.le_of_ble_eq_true rfl,
      Nat.le_of_ble_eq_true rfl⟩ ⟨Nat.le_of_ble_eq_true rfl, trivial⟩ Room.refusing_honest
  exact ⟨c, c', w', h, e, hr⟩

/-- The hypotheses of `C72_reserving_makes_room` hold: `with_capacity(6)` needs seven
offsets. -/
example : ∃ c c' w', Reserved (offsetsInOfR .i32 (Backends.slots 7 0) (scompR BitSlots.bits)
      (scompR BitSlots.item) Sample.world) (fun c rows => ∃ l,
        ShowRows (scompR BitSlots.item).toColl rows l ∧
        SReused (.offsets .i32 (Backends.slots 7 0) (fun c => c.length ≤ 7) BitSlots.bits) c l) 6 c [] ∧
    runUses (offsetsInOfR .i32 (Backends.slots 7 0) (scompR BitSlots.bits) (scompR BitSlots.item)
      Sample.world) Room.refusing c [.tryExtend BitSlots.rows, .truncate 1] = (c', .ok, w') ∧
    Reads (scompR BitSlots.kind).toColl c' [[true, false, true]] := by
  have h : Reserved (offsetsInOfR .i32 (Backends.slots 7 0) (scompR BitSlots.bits)
      (scompR BitSlots.item) Sample.world) (fun c rows => ∃ l,
        ShowRows (scompR BitSlots.item).toColl rows l ∧
        SReused (.offsets .i32 (Backends.slots 7 0) (fun c => c.length ≤ 7) BitSlots.bits) c l) 6 _ [] :=
    .withCap (c := _) rfl
  obtain ⟨c', w', e, hr⟩ := C72_reserving_makes_room (k := BitSlots.bits) (l := [])
    (ow := .i32) (D := Backends.slots 7 0) (Good := fun c : List Int => c.length ≤ 7)
    (vs := [.tryExtend BitSlots.lists, .truncate 1])
    ⟨Backends.slots_honours (by decide) _, rfl, Backends.slots_honours (by decide) _⟩
    ⟨⟨_, Backends.slots_room _ _⟩, ⟨_, Backends.slots_room _ _⟩⟩ h ⟨rfl, fun i hi => by cases hi⟩
    (.tryExtend BitSlots.same (.truncate .nil)) ⟨rfl, trivial⟩
    ⟨Nat.le_of_ble_eq_true rfl, Nat.le_of_ble_eq_true rfl⟩
    ⟨Nat.le_of_ble_eq_true rfl, trivial⟩ Room.refusing_honest
  exact ⟨_, c', w', h, e, hr⟩

/-- Truncating the lists `[1]` and `[0, 1]` of bits to one list. -/
example : ∃ c', (offsetsInOfR .i32 (Backends.slots 4 0) (scompR BitSlots.bits) (scompR BitSlots.item)
      Sample.world).truncate ⟨⟨[0b11010111#8], 3, 2⟩, [0, 1, 3]⟩ 1 = (c', .ok) ∧
    Reads (scompR BitSlots.kind).toColl c' [[true]] := by
  have hb : SBuilt BitSlots.kind ⟨⟨[0b11010111#8], 3, 2⟩, [0, 1, 3]⟩ [[true], [false, true]] :=
    .offsetsParts (D := Backends.slots 4 0) (Good := fun c : List Int => c.length ≤ 4)
      (.bitmapParts (B := Backends.slots 2 0#8) (Good := fun c : List Byte => c.length ≤ 2)
        (buffer := [0b11010111#8]) (bits := 3) (offset := 2) (by decide) rfl)
      (offsets := [0, 1, 3]) (by decide) rfl
  have e : (offsetsInOfR .i32 (Backends.slots 4 0) (scompR BitSlots.bits) (scompR BitSlots.item)
      Sample.world).truncate ⟨⟨[0b11010111#8], 3, 2⟩, [0, 1, 3]⟩ 1 = (_, _) := rfl
  obtain ⟨h1, h2⟩ := (C72_reserve_truncate (w := Sample.world) (w' := Sample.world)
    BitSlots.sound hb).2.2 e
  exact ⟨_, Prod.ext rfl h1, h2⟩

end Narrow.Props
