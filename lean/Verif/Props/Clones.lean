import Verif.Props.Compose

/-!
# Clones (C62)

`Vec`, `Bitmap` and `Flatten` of these implement `Clone`; `Validity` and `Offsets` do
not. `Built` counts cloning among the calls, so that what C52 states about every
collection built by calls includes clones, clones of clones and collections taken
apart into clones.
-/

namespace Narrow.Props

open Spec

variable {O : Type} {k : Comp O}

/-- C62. A clone shows the items of the original, which shows them still. -/
theorem C62_clone_reads (hk : CanClone k) {c : (compR k).C} {l : List O} (h : Built k c l) :
    Reads (compR k).toColl (cloneC k c) l ∧ Reads (compR k).toColl c l :=
  ⟨C52_built_reads (.clone hk h), C52_built_reads h⟩

/-- C62. Whatever is then appended to or cut from one of the two, both show their own
items. -/
theorem C62_clone_diverges (hk : CanClone k) {c c₁ c₂ : (compR k).C} {l : List O} {s₁ s₂ : Src O}
    (h : Built k c l) (e₁ : (compR k).extend c s₁ = (c₁, .ok))
    (e₂ : (compR k).extend (cloneC k c) s₂ = (c₂, .ok)) :
    Reads (compR k).toColl c₁ (l ++ s₁.items) ∧ Reads (compR k).toColl c₂ (l ++ s₂.items) ∧
    ∀ n c₃, (compR k).truncate c₂ n = (c₃, .ok) →
      Reads (compR k).toColl c₃ ((l ++ s₂.items).take n) :=
  ⟨C52_built_reads (.extend h e₁), C52_built_reads (.extend (.clone hk h) e₂), fun _ _ e =>
    C52_built_reads (.truncate (.extend (.clone hk h) e₂) e)⟩

/-- C62. Extending a clone returns whenever the items fit, as it does for the original. -/
theorem C62_clone_extends (hk : CanClone k) {c : (compR k).C} {l : List O} {s : Src O}
    (h : Within k c l) (hp : s.panics = false) (hf : CFits k 0 (l ++ s.items)) :
    ((compR k).extend c s).2 = .ok ∧ ((compR k).extend (cloneC k c) s).2 = .ok := by
  obtain ⟨c₁, h₁, -⟩ := C52_extend_returns h hp hf
  obtain ⟨c₂, h₂, -⟩ := C52_extend_returns (.clone hk h) hp hf
  rw [h₁, h₂]
  exact ⟨rfl, rfl⟩

/-- C62. The clone of a bitmap has the same bytes, the same number of bits and starts at
the same bit, so that it is exported, or refused, like the original. -/
theorem C62_bitmap_parts (b : Bitmap) :
    b.clone.intoParts.1.items = b.intoParts.1.items ∧ b.clone.intoParts.2 = b.intoParts.2 ∧
    b.clone.intoParts.1.cap = b.intoParts.1.items.length :=
  ⟨rfl, rfl, rfl⟩

/-- A `Flatten<Bitmap, 3>` that starts in the middle of a byte is cloned, and one of the two
extended. -/
example : ∃ c c₂, Built Composed.triples c [Broken.tri true false true] ∧
    (compR Composed.triples).extend (cloneC Composed.triples c)
      (Src.ofList [Broken.tri false true true]) = (c₂, .ok) ∧
    Reads (compR Composed.triples).toColl c₂ [Broken.tri true false true, Broken.tri false true true] ∧
    Reads (compR Composed.triples).toColl c [Broken.tri true false true] := by
  have h0 : Built Composed.triples ⟨⟨⟨[0b10100#8], 9⟩, 3, 2⟩⟩ [Broken.tri true false true] := by
    refine .flattenParts (k := .bitmap) (c := Bitmap.mk ⟨[0b10100#8], 9⟩ 3 2)
      (.bitmapParts ⟨by decide, by decide⟩ (Bitmap.tryFromParts_ok ⟨by decide, by decide⟩ (by decide))) rfl ⟨rfl, ?_⟩
    intro i h
    obtain rfl : i = 0 := by simpa using h
    rfl
  refine ⟨_, _, h0, Prod.ext rfl ?_, ?_, C52_built_reads h0⟩
  · rfl
  · exact C52_built_reads (.extend (s := Src.ofList [Broken.tri false true true]) (.clone (k := Composed.triples) trivial h0) (Prod.ext rfl rfl))

end Narrow.Props
