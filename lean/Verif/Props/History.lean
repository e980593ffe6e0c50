import Verif.Props.Arrays
import Verif.Props.OutOfRange
import Verif.Spec.History

/-!
# C15 and C16: histories of calls, and sources that panic
-/

namespace Narrow.Props

open Spec

variable {nl : Bool} {t : Ty}

/-- C16, `extend`, item types without fixed-size lists: after a caught panic, of
any cause, the array holds its previous items and a prefix of the yielded ones,
and stays reachable, so that everything proved about reachable arrays applies.
Missing: item types with fixed-size lists, of which it is false in general (see
`C16_fixed_size_list_breaks`). -/
theorem C16_extend_panic_partial (ht : t.WF) {c c' : (arrayR nl t).C} {l : List (ItemVal nl (Val t))}
    {s : Src (ItemVal nl (Val t))} (hs : NoFixed t) (hr : Reach nl t c) (hl : Shows nl t c l)
    (h : (arrayR nl t).extend c s = (c', .panic)) :
    Reach nl t c' ∧ ∃ k, Shows nl t c' (l ++ s.items.take k) := by
  have hi := reach_inv hr ht
  obtain ⟨h1, k, h2⟩ := keepE_array ht hs hi h
  rw [hl.abs_eq hi] at h2
  exact ⟨.extendPanic hs hr h, k, shows_of_inv ht h1 h2⟩

/-- C16, `extend` of an array within memory limits, item types whose fixed-size lists hold
booleans in numbers that fit a byte, and nullable items in numbers that fit the chunks of
1024, such as `[u8; 4]`, `[bool; 4]`, `Option<[Vec<bool>; 2]>` and `[Option<u8>; 4]`.
Of the yielded items, `keptGrown` stay. If no items are nullable, the array is within
memory limits again. Missing: the others, of which it is false (see
`C16_fixed_size_lists_split` and `C16_grown_flags_split`). -/
theorem C16_extend_source_panic_partial (ht : t.WF) {c c' : (arrayR nl t).C}
    {l : List (ItemVal nl (Val t))} {s : Src (ItemVal nl (Val t))} (hs : GrowSafe t)
    (hg : Grown nl t c) (hl : Shows nl t c l) (hf : Fits nl t 0 (l ++ s.items))
    (h : (arrayR nl t).extend c s = (c', .panic)) :
    Reach nl t c' ∧ (Plain nl t → Grown nl t c') ∧
      Shows nl t c' (l ++ s.items.take (keptGrown t nl l.length s.items.length)) := by
  obtain ⟨hi, hk⟩ := grown_canon hg ht
  have hf' := hf
  rw [fits_iff ht, ← hl.abs_eq hi] at hf'
  obtain ⟨h1, -, h2, -⟩ :=
    countF_array ht hs hi hk hf' (Nat.one_dvd _) (Nat.one_dvd _) (.inl h)
  rw [hl.abs_eq hi] at h2
  exact ⟨.extendSourcePanic hs hg hl hf h, fun hp => .extendPanic hs hp hg hl hf h,
    shows_of_inv ht h1 h2⟩

/-- The same for `try_extend`. -/
theorem C16_try_extend_source_panic_partial (ht : t.WF) {w w' : World} {c c' : (arrayR nl t).C}
    {l : List (ItemVal nl (Val t))} {s : Src (ItemVal nl (Val t))} (hs : GrowSafe t)
    (hg : Grown nl t c) (hl : Shows nl t c l) (hf : Fits nl t 0 (l ++ s.items))
    (h : (arrayR nl t).tryExtend w c s = (c', .panic, w')) :
    Reach nl t c' ∧ (Plain nl t → Grown nl t c') ∧
      Shows nl t c' (l ++ s.items.take (keptGrown t nl l.length s.items.length)) := by
  obtain ⟨hi, hk⟩ := grown_canon hg ht
  have hf' := hf
  rw [fits_iff ht, ← hl.abs_eq hi] at hf'
  obtain ⟨h1, -, h2, -⟩ :=
    countF_array ht hs hi hk hf' (Nat.one_dvd _) (Nat.one_dvd _) (.inr ⟨w, w', h⟩)
  rw [hl.abs_eq hi] at h2
  exact ⟨.tryExtendSourcePanic hs hg hl hf h, fun hp => .tryExtendPanic hs hp hg hl hf h,
    shows_of_inv ht h1 h2⟩

/-- C16, `try_extend`, of any array, and fewer item types. -/
theorem C16_try_extend_panic_partial (ht : t.WF) {w w' : World} {c c' : (arrayR nl t).C}
    {l : List (ItemVal nl (Val t))} {s : Src (ItemVal nl (Val t))} (hs : TrySafe t)
    (hr : Reach nl t c) (hl : Shows nl t c l)
    (h : (arrayR nl t).tryExtend w c s = (c', .panic, w')) :
    Reach nl t c' ∧ ∃ k, Shows nl t c' (l ++ s.items.take k) := by
  have hi := reach_inv hr ht
  obtain ⟨h1, k, h2⟩ := keepT_array ht hs hi h
  rw [hl.abs_eq hi] at h2
  exact ⟨.tryExtendPanic hs hr h, k, shows_of_inv ht h1 h2⟩

theorem drive_eq {σ τ α : Type} {next : σ → Res (Option τ × σ)} {len : σ → Res Nat}
    {conv : τ → Res α} {start : Res σ} {l : List α}
    (h : ∃ it, start = .ok it ∧ Iterates next len conv it l) (k : Nat) :
    drive next len conv k start = .iterated ((List.range k).map fun i => l[i]?) (l.length - k) := by
  obtain ⟨it, rfl, h⟩ := h
  obtain ⟨as, it', h1, h2, h3⟩ := h k
  simp only [drive, h1, h2, h3]

/-- One call: the list takes a step with the same answer, or the array breaks. -/
theorem call_step (ht : t.WF) {c : (arrayR nl t).C} {l : List (ItemVal nl (Val t))} {g : Prop}
    (hr : Reach nl t c) (hl : Shows nl t c l) (hg : g → Grown nl t c)
    (op : Call (ItemVal nl (Val t))) :
    (∃ g' l', Step nl t g l op (call (arrayR nl t) c op).2 g' l' ∧
      Reach nl t (call (arrayR nl t) c op).1 ∧ Shows nl t (call (arrayR nl t) c op).1 l' ∧
      (g' → Grown nl t (call (arrayR nl t) c op).1)) ∨
    Breaks nl t g l op (call (arrayR nl t) c op).2 := by
  classical
  cases op with
  | extend s =>
    simp only [call]
    generalize hE : (arrayR nl t).extend c s = E
    obtain ⟨c', o⟩ := E
    cases o with
    | ok =>
      obtain ⟨h1, h2, h3⟩ := C10_extend_appends ht hr hl hE
      exact .inl ⟨_, _, .extend h3, h1, h2, fun hh => .extend (hg hh.1) hl hh.2 hE⟩
    | err => exact absurd (congrArg Prod.snd hE) ((arrayL nl t ht).ext_ne s (reach_inv hr ht))
    | panic =>
      have hreason : s.panics = true ∨ ¬(g ∧ Fits nl t 0 (l ++ s.items)) := by
        cases hp : s.panics with
        | true => exact .inl rfl
        | false =>
          refine .inr fun ⟨h1, h2⟩ => ?_
          obtain ⟨c1, h3, -⟩ := C10_extend_returns ht (hg h1) hl h2 hp
          rw [hE] at h3
          simp at h3
      by_cases hs : Spared nl t g l s
      · obtain ⟨h1, h2, h3⟩ := C16_extend_source_panic_partial ht hs.1 (hg hs.2.1) hl hs.2.2 hE
        exact .inl ⟨_, _, .extendPanic _ hreason (.inr hs) (fun _ => rfl), h1, h3, fun hp => h2 hp.1⟩
      · by_cases hn : NoFixed t
        · obtain ⟨h1, k, h2⟩ := C16_extend_panic_partial ht hn hr hl hE
          exact .inl ⟨_, _, .extendPanic k hreason (.inl hn) (fun h => absurd h hs), h1, h2,
            fun hp => absurd hp.2 hs⟩
        · exact .inr (.extend hreason hn hs)
  | tryExtend w s =>
    simp only [call]
    generalize hE : (arrayR nl t).tryExtend w c s = E
    obtain ⟨c', o, w'⟩ := E
    rcases C12_try_extend_all_or_nothing ht hr hl hE with ⟨rfl, h1, h2, h3⟩ | ⟨rfl, h1, h2⟩ | ⟨rfl, hp⟩
    · exact .inl ⟨_, _, .tryExtend h3, h1, h2, fun hh => .tryExtend (hg hh.1) hl hh.2 hE (by simp)⟩
    · refine .inl ⟨_, _, .tryExtendErr ?_, h1, h2, fun hh => .tryExtend (hg hh.1) hl hh.2 hE (by simp)⟩
      rintro ⟨g1, g2, g3, g4⟩
      obtain ⟨i1, i2⟩ := grown_canon (hg g1) ht
      rw [fits_iff ht, ← hl.abs_eq i1] at g2
      have := (array_live nl t ht).tryExt g3 g4 i1 i2 g2
      rw [hE] at this
      exact this rfl
    · by_cases hs : Spared nl t g l s
      · obtain ⟨h1, h2, h3⟩ := C16_try_extend_source_panic_partial ht hs.1 (hg hs.2.1) hl hs.2.2 hE
        exact .inl ⟨_, _, .tryExtendPanic _ hp (.inr hs) (fun _ => rfl), h1, h3, fun hp => h2 hp.1⟩
      · by_cases hn : TrySafe t
        · obtain ⟨h1, k, h2⟩ := C16_try_extend_panic_partial ht hn hr hl hE
          exact .inl ⟨_, _, .tryExtendPanic k hp (.inl hn) (fun h => absurd h hs), h1, h2,
            fun hp => absurd hp.2 hs⟩
        · exact .inr (.tryExtend hp hn hs)
  | truncate n =>
    obtain ⟨c', h1, h2, h3⟩ := C11_truncate ht n hr hl
    simp only [call, h1]
    exact .inl ⟨_, _, .truncate, h2, h3, fun hh => .truncate (hg hh) h1⟩
  | reserve n =>
    simp only [call]
    generalize hE : (arrayR nl t).reserve c n = E
    obtain ⟨c', o⟩ := E
    obtain ⟨h1, h2, h3⟩ := C13_reserve ht hr hl hE
    cases o with
    | ok => exact .inl ⟨_, _, .reserve, h1, h2, fun hh => .reserve (hg hh) hE⟩
    | err => exact absurd rfl h3
    | panic =>
      refine .inl ⟨_, _, .reservePanic ?_, h1, h2, fun hh => .reserve (hg hh) hE⟩
      rintro ⟨g1, g2⟩
      have := C13_reserve_returns ht (hg g1) hl g2
      rw [hE] at this
      cases this
  | tryReserve w n =>
    simp only [call]
    generalize hE : (arrayR nl t).tryReserve w c n = E
    obtain ⟨c', o, w'⟩ := E
    obtain ⟨h1, h2, h3⟩ := C13_try_reserve ht hr hl hE
    cases o with
    | ok => exact .inl ⟨_, _, .tryReserve, h1, h2, fun hh => .tryReserve (hg hh) hE⟩
    | panic => exact absurd rfl h3
    | err =>
      refine .inl ⟨_, _, .tryReserveErr ?_, h1, h2, fun hh => .tryReserve (hg hh) hE⟩
      rintro ⟨g1, g2, g3, g4⟩
      have := C13_try_reserve_succeeds ht (hg g1) hl g3 g4 g2
      rw [hE] at this
      cases this
  | len =>
    simp only [call, hl.len]
    exact .inl ⟨_, _, .len, hr, hl, hg⟩
  | owned i =>
    by_cases hi : i < l.length
    · simp only [call, hl.owned i hi]
      exact .inl ⟨_, _, .owned hi, hr, hl, hg⟩
    · by_cases hn : ReturnsNone nl t i
      · simp only [call, (C09_out_of_range_none_partial ht hr hl (by omega) hn).2]
        exact .inl ⟨_, _, .ownedNone (by omega) hn, hr, hl, hg⟩
      · have hp : (arrayR nl t).owned c i = .panic := by
          cases nl with
          | true => exact absurd trivial hn
          | false =>
            cases t with
            | bool => exact absurd trivial hn
            | prim p => exact absurd trivial hn
            | fsl n nl' t =>
              have := C09_fixed_size_list_panics ht hr hl (i := i) (by omega)
              simp only [Coll.owned, this]
            | vsl ow nl' t =>
              have : (arrayR false (.vsl ow nl' t)).view c i = .panic := by
                show Offsets.view c i = .panic
                have : usizeMax ≤ i := by simpa [ReturnsNone] using hn
                simp only [Offsets.view, strictAdd]
                rw [if_neg (by omega)]; rfl
              simp only [Coll.owned, this]
        simp only [call, hp]
        exact .inl ⟨_, _, .ownedPanic (by omega) hn, hr, hl, hg⟩
  | views k =>
    simp only [call, drive_eq hl.iter k]
    exact .inl ⟨_, _, .views, hr, hl, hg⟩
  | items k =>
    simp only [call, drive_eq hl.into k]
    exact .inl ⟨_, _, .items, hr, hl, hg⟩

/-- C15. Whatever calls a program makes on any reachable array, in any order, with
any sources, and whatever allocator and size hints do: a plain list holding the
same items explains all answers. -/
theorem C15_histories (ht : t.WF) {c : (arrayR nl t).C} {l : List (ItemVal nl (Val t))}
    (hr : Reach nl t c) (hl : Shows nl t c l) (ops : List (Call (ItemVal nl (Val t)))) :
    Explained nl t (Grown nl t c) l (record (arrayR nl t) c ops) := by
  suffices H : ∀ g : Prop, (g → Grown nl t c) → Explained nl t g l (record (arrayR nl t) c ops) from
    H _ id
  induction ops generalizing c l with
  | nil => intro g _; exact .nil
  | cons op ops ih =>
    intro g hg
    rcases call_step ht hr hl hg op with ⟨g', l', h1, h2, h3, h4⟩ | h
    · exact .step h1 (ih h2 h3 g' h4)
    · exact .breaks h

/-- C15 for an array created by `default` or collected from a list. -/
theorem C15_histories_empty (ht : t.WF) (ops : List (Call (ItemVal nl (Val t)))) :
    Explained nl t True [] (record (arrayR nl t) (arrayR nl t).empty ops) := by
  have hs : Shows nl t (arrayR nl t).empty [] :=
    shows_of_inv ht (arrayL nl t ht).empty_ok.1 (arrayL nl t ht).empty_ok.2.1
  have := C15_histories ht .empty hs ops
  rwa [eq_true (Grown.empty (nl := nl) (t := t))] at this

/-- When nothing goes wrong, a step of the list is the one `plain` computes. -/
theorem step_plain {g g' : Prop} {l l' : List (ItemVal nl (Val t))} {op : Call (ItemVal nl (Val t))}
    {a : Ans (ItemVal nl (Val t))} (h : Step nl t g l op a g' l') (hg : g) (hf : Fine nl t l op) :
    g' ∧ (l', a) = plain l op := by
  cases h with
  | extend _ => exact ⟨⟨hg, hf.2⟩, rfl⟩
  | extendPanic k h1 _ _ =>
    rcases h1 with h1 | h1
    · rw [hf.1] at h1; cases h1
    · exact absurd ⟨hg, hf.2⟩ h1
  | tryExtend _ => exact ⟨⟨hg, hf.2.1⟩, rfl⟩
  | tryExtendErr h => exact absurd ⟨hg, hf.2⟩ h
  | tryExtendPanic k h1 _ => rw [hf.1] at h1; cases h1
  | truncate => exact ⟨hg, rfl⟩
  | reserve => exact ⟨hg, rfl⟩
  | reservePanic h => exact absurd ⟨hg, hf⟩ h
  | tryReserve => exact ⟨hg, rfl⟩
  | tryReserveErr h => exact absurd ⟨hg, hf⟩ h
  | len => exact ⟨hg, rfl⟩
  | owned h => exact ⟨hg, by simp [plain, h]⟩
  | ownedNone h _ => exact ⟨hg, by simp [plain, h]⟩
  | ownedPanic h hn =>
    rcases hf with hf | hf
    · omega
    · exact absurd hf hn
  | views => exact ⟨hg, rfl⟩
  | items => exact ⟨hg, rfl⟩

/-- C15. When nothing goes wrong, the answers are exactly those of a list. -/
theorem C15_histories_exact (ht : t.WF) {c : (arrayR nl t).C} {l : List (ItemVal nl (Val t))}
    (hg : Grown nl t c) (hl : Shows nl t c l) {ops : List (Call (ItemVal nl (Val t)))}
    (hf : AllFine nl t l ops) : record (arrayR nl t) c ops = plainRecord l ops := by
  have h := C15_histories ht hg.reach hl ops
  generalize hA : Grown nl t c = g at h
  have hgg : g := hA ▸ hg
  clear hl hg hA
  induction ops generalizing c l g with
  | nil => rfl
  | cons op ops ih =>
    obtain ⟨hf1, hf2⟩ := hf
    simp only [record] at h
    cases h with
    | step h1 h2 =>
      obtain ⟨h3, h4⟩ := step_plain h1 hgg hf1
      simp only [record, plainRecord]
      have h6 : (call (arrayR nl t) c op).2 = (plain l op).2 := congrArg Prod.snd h4
      have h7 := congrArg Prod.fst h4
      simp only at h7
      rw [h7] at h2
      rw [h6, ih hf2 _ h2 h3]
    | breaks h =>
      generalize hE : (call (arrayR nl t) c op).2 = a at h
      cases h with
      | extend h1 _ _ =>
        rcases h1 with h1 | h1
        · rw [hf1.1] at h1; cases h1
        · exact absurd ⟨hgg, hf1.2⟩ h1
      | tryExtend h1 _ => rw [hf1.1] at h1; cases h1

/-- A program on the nested, nullable sample type, and all its answers. -/
example : record (arrayR true Sample.ty) (arrayR true Sample.ty).empty
      [.extend (Src.ofList Sample.items), .truncate 2, .len, .tryReserve Sample.world 3,
       .tryExtend Sample.world (Src.ofList Sample.more), .owned 0, .owned 9, .views 5] =
    [(.extend (Src.ofList Sample.items), .done), (.truncate 2, .done), (.len, .len 2),
     (.tryReserve Sample.world 3, .done),
     (.tryExtend Sample.world (Src.ofList Sample.more), .done),
     (.owned 0, .item (some (some [some (Sample.pair true false), none]))),
     (.owned 9, .item none),
     (.views 5, .iterated [some (some [some (Sample.pair true false), none]), some none, some none,
       some (some [none, some (Sample.pair false true)]), none] 0)] := by
  have hb : ∀ {a b : Nat}, Nat.ble a b = true → a ≤ b := Nat.le_of_ble_eq_true
  have hs : Shows true Sample.ty (arrayR true Sample.ty).empty [] :=
    shows_of_inv Sample.ty_wf (arrayL _ _ Sample.ty_wf).empty_ok.1 (arrayL _ _ Sample.ty_wf).empty_ok.2.1
  exact C15_histories_exact Sample.ty_wf .empty hs
    ⟨⟨rfl, hb rfl, hb rfl, hb rfl, hb rfl, hb rfl⟩, trivial, trivial,
      ⟨⟨hb rfl, hb rfl, hb rfl, hb rfl, hb rfl⟩, Sample.generous, Sample.tight⟩,
      ⟨rfl, ⟨hb rfl, hb rfl, hb rfl, hb rfl, hb rfl⟩, Sample.generous, Sample.tight⟩,
      .inr trivial, .inr trivial, trivial, trivial⟩

end Narrow.Props
