import Verif.Model.Coll
import Verif.Proof.Base

/-!
# What a correct collection satisfies

`LawfulColl` and `LawfulR` collect the laws the property theorems are derived
from: a collection `c` satisfying its invariant represents the list `abs c`, and
every operation acts on that list as expected. The laws are proved for `Vec` and
`Bitmap` and shown to be preserved by `Flatten`, `Validity` and `Offsets`.
-/

namespace Narrow

structure LawfulColl {O : Type} (K : Coll O) where
  Inv : K.C → Prop
  abs : K.C → List O
  VRep : K.V → O → Prop
  IRep : K.I → List O → Prop
  JRep : K.J → List O → Prop
  len_ok : ∀ {c}, Inv c → K.len c = .ok (abs c).length
  len_le : ∀ {c}, Inv c → (abs c).length ≤ usizeMax
  view_some : ∀ {c i}, Inv c → (h : i < (abs c).length) →
    ∃ v, K.view c i = .ok (some v) ∧ VRep v (abs c)[i]
  owned_ok : ∀ {v o}, VRep v o → K.toOwned v = .ok o
  iter_ok : ∀ {c}, Inv c → ∃ it, K.iter c = .ok it ∧ IRep it (abs c)
  inext_nil : ∀ {it}, IRep it [] → ∃ it', K.inext it = .ok (none, it') ∧ IRep it' []
  inext_cons : ∀ {it o l}, IRep it (o :: l) →
    ∃ v it', K.inext it = .ok (some v, it') ∧ VRep v o ∧ IRep it' l
  ilen_ok : ∀ {it l}, IRep it l → K.ilen it = .ok l.length
  into_ok : ∀ {c}, Inv c → ∃ it, K.into c = .ok it ∧ JRep it (abs c)
  jnext_nil : ∀ {it}, JRep it [] → ∃ it', K.jnext it = .ok (none, it') ∧ JRep it' []
  jnext_cons : ∀ {it o l}, JRep it (o :: l) →
    ∃ it', K.jnext it = .ok (some o, it') ∧ JRep it' l
  jlen_ok : ∀ {it l}, JRep it l → K.jlen it = .ok l.length

/-- Laws of growing collections.

`Canon c`: `c` has the canonical hidden storage produced by this library's own
operations (bounded stale storage, defaults in null slots).
`Room e l`: a canonical collection can hold `l`, and reserve for `e` more items,
within memory limits and offset types. -/
structure LawfulR {O : Type} (R : Realloc O) extends LawfulColl R.toColl where
  Canon : R.C → Prop
  Room : Nat → List O → Prop
  room_prefix : ∀ {e l m}, Room e (l ++ m) → Room (e + m.length) l
  room_mono : ∀ {e e' l}, e' ≤ e → Room e l → Room e' l
  room_len : ∀ {e l}, Room e l → l.length + e ≤ usizeMax
  empty_ok : Inv R.empty ∧ abs R.empty = [] ∧ Canon R.empty
  pulled_fused : ∀ {α : Type} {s : Src α}, s.Fused → R.pulled s = s.items
  pulled_map : ∀ {α β : Type} (f : α → β) (s : Src α),
    (R.pulled (s.map f)).length = (R.pulled s).length
  fromIter_any : ∀ {w w' s c}, R.fromIter w s = (.ok c, w') →
    Inv c ∧ (abs c).length = (R.pulled s).length
  fromIterIn_any : ∀ {w w' s c}, R.fromIterIn w s = (.ok c, w') →
    Inv c ∧ (abs c).length = (R.pulled s).length
  tryFromIter_any : ∀ {w w' s c}, R.tryFromIter w s = (.ok c, w') → Inv c
  withCap_ok : ∀ {n c}, R.withCap n = .ok c → Inv c ∧ abs c = [] ∧ Canon c
  withCap_ne : ∀ n, R.withCap n ≠ .err
  fromIter_ok : ∀ {w w' s c}, s.Fused → R.fromIter w s = (.ok c, w') →
    Inv c ∧ abs c = s.items ∧ s.panics = false ∧ (Room 0 s.items → Canon c)
  fromIter_ne : ∀ w s, (R.fromIter w s).1 ≠ .err
  fromIterIn_ok : ∀ {w w' s c}, s.Fused → R.fromIterIn w s = (.ok c, w') →
    Inv c ∧ abs c = s.items ∧ s.panics = false ∧ (Room 0 s.items → Canon c)
  fromIterIn_ne : ∀ w s, (R.fromIterIn w s).1 ≠ .err
  tryWithCap_ok : ∀ {w w' n c}, R.tryWithCap w n = (.ok c, w') →
    Inv c ∧ abs c = [] ∧ Canon c
  tryWithCap_np : ∀ w n, (R.tryWithCap w n).1 ≠ .panic
  tryFromIter_ok : ∀ {w w' s c}, s.Fused → R.tryFromIter w s = (.ok c, w') →
    Inv c ∧ abs c = s.items ∧ s.panics = false ∧ (Room 0 s.items → Canon c)
  tryFromIter_np : ∀ {w s}, s.Fused → s.panics = false → (R.tryFromIter w s).1 ≠ .panic
  ext_ok : ∀ {c c' s}, Inv c → R.extend c s = (c', .ok) →
    Inv c' ∧ abs c' = abs c ++ s.items ∧ s.panics = false
  ext_ne : ∀ {c} s, Inv c → (R.extend c s).2 ≠ .err
  ext_canon : ∀ {c c' s}, Inv c → Canon c → Room 0 (abs c ++ s.items) →
    R.extend c s = (c', .ok) → Canon c'
  ext_live : ∀ {c s}, Inv c → Canon c → s.panics = false → Room 0 (abs c ++ s.items) →
    (R.extend c s).2 = .ok
  ext_fuse : ∀ c s, R.extend c s = R.extend c s.fuse
  reserve_ok : ∀ {c c' n o}, Inv c → R.reserve c n = (c', o) →
    Inv c' ∧ abs c' = abs c ∧ o ≠ .err ∧ (Canon c → Canon c')
  reserve_live : ∀ {c n}, Inv c → Canon c → Room n (abs c) → (R.reserve c n).2 = .ok
  tryReserve_ok : ∀ {w w' c c' n o}, Inv c → R.tryReserve w c n = (c', o, w') →
    Inv c' ∧ abs c' = abs c ∧ o ≠ .panic ∧ (Canon c → Canon c')
  tryExt_ok : ∀ {w w' c c' s}, Inv c → R.tryExtend w c s = (c', .ok, w') →
    Inv c' ∧ abs c' = abs c ++ s.items ∧ s.panics = false
  tryExt_canon : ∀ {w w' c c' s o}, Inv c → Canon c → Room 0 (abs c ++ s.items) →
    R.tryExtend w c s = (c', o, w') → o ≠ .panic → Canon c'
  tryExt_err : ∀ {w w' c c' s}, Inv c → R.tryExtend w c s = (c', .err, w') →
    Inv c' ∧ abs c' = abs c
  tryExt_np : ∀ {w c s}, Inv c → s.panics = false → (R.tryExtend w c s).2.1 ≠ .panic
  tryExt_fuse : ∀ w c s, R.tryExtend w c s = R.tryExtend w c s.fuse
  trunc_ok : ∀ {c} n, Inv c →
    ∃ c', R.truncate c n = (c', .ok) ∧ Inv c' ∧ abs c' = (abs c).take n ∧ (Canon c → Canon c')

end Narrow
