import Verif.Model.Base

/-! # Arrow's least-significant-bit-first bit numbering -/

namespace Narrow.Spec

/-- Bit `i` of a byte sequence: bit `i mod 8`, counted from the least significant
one, of byte `i div 8`. -/
def bit (bytes : List Byte) (i : Nat) : Bool :=
  match bytes[i / 8]? with
  | some byte => byte.getLsbD (i % 8)
  | none => false

/-- All bits of a byte sequence, in order. -/
def bitsOf (bytes : List Byte) : List Bool := (List.range (8 * bytes.length)).map (bit bytes)

/-- `bytes` is the packing of `l`: as few bytes as possible, boolean `i` in bit
`i`, unused bits zero. -/
def Packs (bytes : List Byte) (l : List Bool) : Prop :=
  bytes.length = (l.length + 7) / 8 ∧
  ∀ i, i < 8 * bytes.length → bit bytes i = if h : i < l.length then l[i] else false

end Narrow.Spec
