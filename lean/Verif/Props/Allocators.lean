import Verif.Proof.Alloc
import Verif.Props.Backends

/-!
# Allocators (C64)

`with_capacity_in`, `from_iter_in` and their fallible versions take an allocator.
Every storage of the collection they build is in that allocator and stays there, also
the storages that are only created later.
-/

namespace Narrow.Props

open Spec

variable {A O : Type} {d : A} {k : AComp A O}

/-- C64. If every call was given allocators, and storages with allocators, satisfying
`P`, then every storage inside of the collection has an allocator satisfying `P`,
whatever the calls were and however they ended. -/
theorem C64_storages_in_given_allocators (hs : ASound d k) {P : A → Prop} {c : (acompR d k).C}
    (h : AMade d P k c) : ∀ a ∈ places d k c, P a :=
  amade_places h hs

/-- C64. A constructor puts every storage into the allocator it is given. The others
put every storage into the default allocator. -/
theorem C64_constructors (hs : ASound d k) {c : (acompR d k).C} :
    (∀ a n, (acompR d k).withCapIn a n = .ok c → ∀ b ∈ places d k c, b = a) ∧
    (∀ a w s, ((acompR d k).fromIterIn a w s).1 = .ok c → ∀ b ∈ places d k c, b = a) ∧
    (∀ a w n, ((acompR d k).tryWithCapIn a w n).1 = .ok c → ∀ b ∈ places d k c, b = a) ∧
    (∀ a w s, ((acompR d k).tryFromIterIn a w s).1 = .ok c → ∀ b ∈ places d k c, b = a) ∧
    (c = (acompR d k).empty → ∀ b ∈ places d k c, b = d) ∧
    (∀ w s, ((acompR d k).fromIter w s).1 = .ok c → ∀ b ∈ places d k c, b = d) ∧
    (∀ n, (acompR d k).withCapacity d n = .ok c → ∀ b ∈ places d k c, b = d) := by
  refine ⟨fun a n e => amade_places (P := (· = a)) (.withCapIn rfl e) hs,
    fun a w s e => amade_places (P := (· = a)) (.fromIterIn rfl (Prod.ext e rfl)) hs,
    fun a w n e => amade_places (P := (· = a)) (.tryWithCapIn rfl (Prod.ext e rfl)) hs,
    fun a w s e => amade_places (P := (· = a)) (.tryFromIterIn rfl (Prod.ext e rfl)) hs,
    fun e => ?_, fun w s e => amade_places (P := (· = d)) (.fromIter rfl (Prod.ext e rfl)) hs,
    fun n e => amade_places (P := (· = d)) (.withCapacity rfl e) hs⟩
  subst e
  exact amade_places (P := (· = d)) (.empty rfl) hs

/-- C64. No later call moves a storage, whatever its outcome. A bitmap created by the
call is in the allocator of the collection. -/
theorem C64_calls_move_nothing (hs : ASound d k) (c : (acompR d k).C) :
    (∀ s, places d k ((acompR d k).extend c s).1 = places d k c) ∧
    (∀ n, places d k ((acompR d k).reserve c n).1 = places d k c) ∧
    (∀ w n, places d k ((acompR d k).tryReserve w c n).1 = places d k c) ∧
    (∀ w s, places d k ((acompR d k).tryExtend w c s).1 = places d k c) ∧
    (∀ n, places d k ((acompR d k).truncate c n).1 = places d k c) :=
  ⟨fun _ => (acomp_stays hs c).extend rfl (Prod.ext rfl rfl),
    fun _ => (acomp_stays hs c).reserve rfl (Prod.ext rfl rfl),
    fun _ _ => (acomp_stays hs c).tryReserve rfl (Prod.ext rfl (Prod.ext rfl rfl)),
    fun _ _ => (acomp_stays hs c).tryExtend rfl (Prod.ext rfl (Prod.ext rfl rfl)),
    fun _ => (acomp_stays hs c).truncate rfl (Prod.ext rfl rfl)⟩

/-- C64. `allocator()` is the allocator of the innermost storage. -/
theorem C64_allocator (c : (acompR d k).C) : (places d k c).head? = some ((acompR d k).allocator c) := by
  obtain ⟨l, h⟩ := places_head k c
  rw [h]; rfl

/-- C64. `allocator()` returns the allocator everything was built with. -/
theorem C64_allocator_is_given (hs : ASound d k) {a : A} {c : (acompR d k).C}
    (h : AMade d (· = a) k c) : (acompR d k).allocator c = a :=
  amade_places h hs _ (List.mem_of_mem_head? (C64_allocator c))

/-- C64. Allocators do not change what a collection holds: reading it shows the list
that the same calls build on plain lists. -/
theorem C64_built_reads (hs : ASound d k) {c : (acompR d k).C} {l : List O} (h : ABuilt d k c l) :
    Reads (acompR d k).toColl c l :=
  (abuilt_inv h hs).2 ▸ reads_abs _ (abuilt_inv h hs).1

/-- C64. `truncate` returns, and the fallible calls do not panic unless the source
does, in any allocator. -/
theorem C64_calls_return (hs : ASound d k) {c : (acompR d k).C} {l : List O} (h : ABuilt d k c l)
    (a : A) (w : World) (n : Nat) {s : Src O} (hp : s.panics = false) :
    ((acompR d k).truncate c n).2 = .ok ∧ ((acompR d k).tryReserve w c n).2.1 ≠ .panic ∧
      ((acompR d k).tryExtend w c s).2.1 ≠ .panic ∧ ((acompR d k).tryWithCapIn a w n).1 ≠ .panic ∧
      (s.Fused → ((acompR d k).tryFromIterIn a w s).1 ≠ .panic) := by
  have G := acompG d k hs a
  have hi := (abuilt_inv h hs).1
  refine ⟨?_, (G.tryReserve_ok hi rfl).2.2, G.tryExt_np hi hp, G.tryWithCap_np w n,
    fun hf => G.tryFromIter_np hf hp⟩
  obtain ⟨c', h1, -⟩ := G.trunc_ok n hi
  rw [show (acompR d k).truncate c n = _ from h1]

/-- C64. With one allocator only, as `Vec` has, the collections are those of C56. -/
theorem C64_one_allocator : {O : Type} → (k : AComp Unit O) → (acompR () k).given () = scompR k.erase
  | _, .leaf _ _ _ => rfl
  | _, .bitmap _ _ => rfl
  | _, .flatten n _ k => by
    show flattenR n ((acompR () k).given ()) = flattenR n (scompR k.erase)
    rw [C64_one_allocator k]
  | _, .validity env B _ k => by
    show validityBR env (B.given ()) ((acompR () k).given ()) = validityBR env (B.given ()) (scompR k.erase)
    rw [C64_one_allocator k]
  | _, .offsets ow D _ k => by
    show offsetsBR ow (D.given ()) ((acompR () k).given ()) = offsetsBR ow (D.given ()) (scompR k.erase)
    rw [C64_one_allocator k]
  | _, .newtype k => by
    show (newtypeA (acompR () k)).given () = scompR k.erase
    rw [newtypeA_eq]
    exact C64_one_allocator k

/-- C64. `with_capacity(n)` asks for room for `n` items in the default allocator: it is
`with_capacity_in` given that allocator and `n`, so it makes the same room. -/
theorem C64_with_capacity (n : Nat) :
    (acompR d k).withCapacity d n = ((acompR d k).given d).withCap n := rfl

/-! ## The contract can be kept -/

/-- C64. `Vec<T>` keeps the contract. -/
theorem C64_vec {α : Type} (lim : Nat) (h : lim ≤ byteMax) (x : α) :
    (∀ a, HonoursBuf ((vecA lim x).given a) (RVec.WF lim)) ∧ KeepsBuf () (vecA lim x) :=
  ⟨fun _ => C56_vec lim h x,
    ⟨⟨rfl, fun _ => rfl, fun _ => rfl, fun _ => rfl, fun _ => rfl, fun _ => rfl, fun _ _ => rfl,
      fun _ _ => rfl, fun _ _ _ => rfl, fun _ _ _ => rfl, fun _ _ => rfl⟩, fun _ _ => rfl⟩⟩

namespace Allocators

/-- The value of a constructor next to the allocator it was given. -/
def tag {C : Type} (a : A) : Try C → Try (A × C)
  | .ok c => .ok (a, c)
  | .err => .err
  | .panic => .panic

/-- A storage a user could write: another one, next to a handle to its arena. -/
@[reducible] def arena {α : Type} (d : A) (B : Backing α) : AllocB A α where
  C := A × B.C
  V := B.V
  I := B.I
  J := B.J
  len c := B.len c.2
  view c i := B.view c.2 i
  toOwned v := B.toOwned v
  iter c := B.iter c.2
  inext it := B.inext it
  ilen it := B.ilen it
  into c := B.into c.2
  jnext it := B.jnext it
  jlen it := B.jlen it
  dflt := B.dflt
  empty := (d, B.empty)
  pulled s := B.pulled s
  fromIter w s := (tag d (B.fromIter w s).1, (B.fromIter w s).2)
  extend c s := ((c.1, (B.extend c.2 s).1), (B.extend c.2 s).2)
  reserve c n := ((c.1, (B.reserve c.2 n).1), (B.reserve c.2 n).2)
  tryReserve w c n := ((c.1, (B.tryReserve w c.2 n).1), (B.tryReserve w c.2 n).2)
  tryExtend w c s := ((c.1, (B.tryExtend w c.2 s).1), (B.tryExtend w c.2 s).2)
  truncate c n := ((c.1, (B.truncate c.2 n).1), (B.truncate c.2 n).2)
  allocator c := c.1
  withCapIn a n := tag a (B.withCap n)
  fromIterIn a w s := (tag a (B.fromIterIn w s).1, (B.fromIterIn w s).2)
  tryWithCapIn a w n := (tag a (B.tryWithCap w n).1, (B.tryWithCap w n).2)
  tryFromIterIn a w s := (tag a (B.tryFromIter w s).1, (B.tryFromIter w s).2)
  borrow c := B.borrow c.2
  write c l := (c.1, B.write c.2 l)

theorem tag_ok {C : Type} {a : A} {t : Try C} {c : A × C} (h : tag a t = .ok c) :
    c.1 = a ∧ t = .ok c.2 := by
  cases t <;> cases h
  exact ⟨rfl, rfl⟩

theorem tag_err {C : Type} {a : A} {t : Try C} (h : t ≠ .err) : tag a t ≠ .err := by
  cases t <;> simp_all [tag]

theorem tag_panic {C : Type} {a : A} {t : Try C} (h : t ≠ .panic) : tag a t ≠ .panic := by
  cases t <;> simp_all [tag]

theorem arena_keeps {α : Type} (d : A) (B : Backing α) : KeepsBuf d (arena d B) where
  empty := rfl
  fromIter e := (tag_ok (Prod.mk.inj e).1).1
  withCapIn e := (tag_ok e).1
  fromIterIn e := (tag_ok (Prod.mk.inj e).1).1
  tryWithCapIn e := (tag_ok (Prod.mk.inj e).1).1
  tryFromIterIn e := (tag_ok (Prod.mk.inj e).1).1
  extend _ _ := rfl
  reserve _ _ := rfl
  tryReserve _ _ _ := rfl
  tryExtend _ _ _ := rfl
  truncate _ _ := rfl
  write _ _ := rfl

theorem arena_owned {α : Type} (d : A) (B : Backing α) (a : A) (c : A × B.C) (i : Nat) :
    ((arena d B).given a).toColl.owned c i = B.toColl.owned c.2 i := by
  have hv : ((arena d B).given a).toColl.view c i = B.view c.2 i := rfl
  unfold Coll.owned
  rw [hv]
  cases B.view c.2 i with
  | panic => rfl
  | ok o => cases o <;> rfl

theorem arena_honours {α : Type} (d : A) {B : Backing α} {Good : B.C → Prop} (h : HonoursBuf B Good) (a : A) :
    HonoursBuf ((arena d B).given a) (fun c => Good c.2) where
  reads hc :=
    ⟨(h.reads hc).len, fun i hi => (arena_owned d B a _ i).trans ((h.reads hc).owned i hi),
      (h.reads hc).iter, (h.reads hc).into⟩
  size hc := h.size hc
  empty := h.empty
  withCap e := h.withCap (tag_ok e).2
  withCapOnly n := tag_err (h.withCapOnly n)
  tryWithCap e := h.tryWithCap (Prod.ext (tag_ok (Prod.mk.inj e).1).2 rfl)
  tryWithCapCalm w n := tag_panic (h.tryWithCapCalm w n)
  pulled s := h.pulled s
  fromIter e := h.fromIter (Prod.ext (tag_ok (Prod.mk.inj e).1).2 rfl)
  fromIterOnly w s := tag_err (h.fromIterOnly w s)
  fromIterIn e := h.fromIterIn (Prod.ext (tag_ok (Prod.mk.inj e).1).2 rfl)
  fromIterInOnly w s := tag_err (h.fromIterInOnly w s)
  tryFromIter e := h.tryFromIter (Prod.ext (tag_ok (Prod.mk.inj e).1).2 rfl)
  tryFromIterCalm hp := tag_panic (h.tryFromIterCalm hp)
  extend hc e := by
    obtain ⟨e1, e2⟩ := Prod.mk.inj e
    subst e1
    exact h.extend hc (Prod.ext rfl e2)
  extendOnly s hc := h.extendOnly s hc
  extendStops c s := by
    have := h.extendStops c.2 s
    show ((c.1, (B.extend c.2 s).1), (B.extend c.2 s).2) = ((c.1, (B.extend c.2 s.fuse).1), (B.extend c.2 s.fuse).2)
    rw [this]
  reserve hc e := by
    obtain ⟨e1, e2⟩ := Prod.mk.inj e
    subst e1
    exact h.reserve hc (Prod.ext rfl e2)
  tryReserve hc e := by
    obtain ⟨e1, e2⟩ := Prod.mk.inj e
    subst e1
    exact h.tryReserve hc (Prod.ext rfl e2)
  tryExtend hc e := by
    obtain ⟨e1, e2⟩ := Prod.mk.inj e
    subst e1
    exact h.tryExtend hc (Prod.ext rfl e2)
  tryExtendErr hc e := by
    obtain ⟨e1, e2⟩ := Prod.mk.inj e
    subst e1
    exact h.tryExtendErr hc (Prod.ext rfl e2)
  tryExtendCalm hc hp := h.tryExtendCalm hc hp
  tryExtendStops w c s := by
    have := h.tryExtendStops w c.2 s
    show ((c.1, (B.tryExtend w c.2 s).1), (B.tryExtend w c.2 s).2) =
      ((c.1, (B.tryExtend w c.2 s.fuse).1), (B.tryExtend w c.2 s.fuse).2)
    rw [this]
  truncate {c} n hc := by
    obtain ⟨c', h1, h2, h3⟩ := h.truncate n hc
    refine ⟨(c.1, c'), ?_, h2, h3⟩
    show ((c.1, (B.truncate c.2 n).1), (B.truncate c.2 n).2) = _
    rw [h1]
  memory hc := h.memory hc
  write hc hl := h.write hc hl

/-- Lists of nullable bytes in arenas named by numbers, where `0` is the default one.
Every storage has four slots. -/
def kind : AComp Nat (List (Option Byte)) :=
  .newtype (.offsets .i32 (arena 0 (Backends.slots 4 (0 : Int))) (fun c => c.2.length ≤ 4)
    (.validity Sample.world (arena 0 (Backends.slots 4 0#8)) (fun c => c.2.length ≤ 4)
      (.leaf (arena 0 (Backends.slots 4 0#8)).toAllocR (fun c => c.2.length ≤ 4) (fun c => c.2))))

theorem kind_sound : ASound 0 kind :=
  ⟨arena_honours 0 (Backends.slots_honours (by decide) _), arena_keeps 0 _, rfl,
    arena_honours 0 (Backends.slots_honours (by decide) _), arena_keeps 0 _,
    fun a => (arena_honours 0 (Backends.slots_honours (by decide) _) a).toHonours,
    (arena_keeps 0 _).toKeeps⟩

/-- Bytes in arena 7 and offsets in arena 3. No bitmap. -/
def start : OffsetsIn (ValidityOf (Nat × List Byte) (BitmapOf (Nat × List Byte))) (Nat × List Int) :=
  ⟨⟨(7, [1#8, 2#8]), none⟩, (3, [0, 2])⟩

theorem start_made : AMade 0 (fun a => a = 3 ∨ a = 7) kind start :=
  .fromBuffer (.offsetsParts (offsets := (3, [0, 2])) (.fromCollection (.leaf (c := (7, [1#8, 2#8])) (.inr rfl)))
    (.inl rfl) rfl)

/-- The bytes of `start`. -/
def bytes : AComp Nat Byte :=
  .leaf (arena 0 (Backends.slots 4 0#8)).toAllocR (fun c => c.2.length ≤ 4) (fun c => c.2)

theorem leaf_built {α : Type} {d : A} {R : AllocR A α} {Good : R.C → Prop} {held : R.C → List α} (c : R.C)
    (h : Good c) : ABuilt d (.leaf R Good held) c (held c) := .leaf h

theorem bytes_built : ABuilt 0 bytes ((7, [1#8, 2#8]) : Nat × List Byte) [1#8, 2#8] :=
  leaf_built (R := (arena 0 (Backends.slots 4 0#8)).toAllocR) (held := fun c => c.2)
    ((7, [1#8, 2#8]) : Nat × List Byte) (show [1#8, 2#8].length ≤ 4 by decide)

theorem start_built : ABuilt 0 kind start [[some 1#8, some 2#8]] :=
  .fromBuffer (.offsetsParts (D := arena 0 (Backends.slots 4 (0 : Int))) (Good := fun c => c.2.length ≤ 4)
    (l := [some 1#8, some 2#8]) (offsets := (3, [0, 2])) (.fromCollection bytes_built)
    (show [(0 : Int), 2].length ≤ 4 by decide) rfl)

/-- One more list, with a null. -/
theorem grown : (acompR 0 kind).extend start [.item [none, some 9#8]] =
    ((⟨⟨(7, [1#8, 2#8, 0#8, 9#8]), some ⟨(7, [0x0b#8]), 4, 0⟩⟩, (3, [0, 2, 4])⟩ :
      OffsetsIn (ValidityOf (Nat × List Byte) (BitmapOf (Nat × List Byte))) (Nat × List Int)), .ok) := by
  with_unfolding_all rfl

end Allocators

/-- The bitmap that `extend` had to create is in arena 7, next to the bytes, although
the default arena is 0 and the offsets are in arena 3. -/
example : places 0 Allocators.kind ((acompR 0 Allocators.kind).extend Allocators.start
    [.item [none, some 9#8]]).1 = [7, 7, 3] :=
  (C64_calls_move_nothing Allocators.kind_sound Allocators.start).1 _

example : ((acompR 0 Allocators.kind).extend Allocators.start [.item [none, some 9#8]]).1.data.bitmap =
    some ⟨(7, [0x0b#8]), 4, 0⟩ := by
  rw [Allocators.grown]

example (s : Src (List (Option Byte))) (w : World) (n : Nat) :
    ∀ a ∈ places 0 Allocators.kind ((acompR 0 Allocators.kind).tryExtend w
      ((acompR 0 Allocators.kind).truncate Allocators.start n).1 s).1, a = 3 ∨ a = 7 :=
  C64_storages_in_given_allocators Allocators.kind_sound
    (.tryExtend (.truncate Allocators.start_made rfl) rfl)

example : Reads (acompR 0 Allocators.kind).toColl
    ((acompR 0 Allocators.kind).extend Allocators.start [.item [none, some 9#8]]).1
    [[some 1#8, some 2#8], [none, some 9#8]] :=
  C64_built_reads Allocators.kind_sound (.extend Allocators.start_built
    (Prod.ext rfl (by rw [Allocators.grown])))

example : (acompR 0 Allocators.kind).allocator Allocators.start = 7 :=
  Option.some.inj (C64_allocator (d := 0) (k := Allocators.kind) Allocators.start).symm

/-- `from_iter_in` with arena 5. -/
theorem Allocators.collected : ((acompR 0 Allocators.kind).fromIterIn 5 Sample.world
    [.item [some 1#8, none], .item []]).1 =
    .ok (⟨⟨(5, [1#8, 0#8]), some ⟨(5, [0x01#8]), 2, 0⟩⟩, (5, [0, 2, 2])⟩ :
      OffsetsIn (ValidityOf (Nat × List Byte) (BitmapOf (Nat × List Byte))) (Nat × List Int)) := by
  with_unfolding_all rfl

example : ∀ b ∈ places 0 Allocators.kind (⟨⟨(5, [1#8, 0#8]), some ⟨(5, [0x01#8]), 2, 0⟩⟩, (5, [0, 2, 2])⟩ :
    OffsetsIn (ValidityOf (Nat × List Byte) (BitmapOf (Nat × List Byte))) (Nat × List Int)), b = 5 :=
  (C64_constructors Allocators.kind_sound).2.1 5 Sample.world _ Allocators.collected

example : (acompR 0 Allocators.kind).allocator (⟨⟨(5, [1#8, 0#8]), some ⟨(5, [0x01#8]), 2, 0⟩⟩, (5, [0, 2, 2])⟩ :
    OffsetsIn (ValidityOf (Nat × List Byte) (BitmapOf (Nat × List Byte))) (Nat × List Int)) = 5 :=
  C64_allocator_is_given Allocators.kind_sound
    (.fromIterIn (a := 5) (w := Sample.world) rfl (Prod.ext Allocators.collected rfl))

/-- An allocator error is not a panic. -/
example : ((acompR 0 Allocators.kind).tryFromIterIn 5 Sample.world
    [.item [none, none, none, none, none]]).1 ≠ .panic :=
  (C64_calls_return Allocators.kind_sound Allocators.start_built 5 _ 0 rfl).2.2.2.2
    (by simp [Src.Fused, Src.fuse])

example : (acompR () (.offsets .i64 (vecA byteMax (0 : Int)) (RVec.WF byteMax) (.newtype (.leaf
    (vecA byteMax 0#8).toAllocR (RVec.WF byteMax) RVec.items)))).given () =
    offsetsBR .i64 (vecB byteMax 0) (vecR byteMax 0#8) :=
  C64_one_allocator _

example : KeepsBuf () (vecA byteMax 0#8) := (C64_vec _ (Nat.le_refl _) _).2

end Narrow.Props
