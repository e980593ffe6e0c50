import Verif.Model.Access
import Verif.Spec.Backend

/-!
# What the parts of a collection are

Arrow's layouts, as a user sees them through `buffer_ref`, `child_ref` and `bitmap_ref`:
bits packed from the least significant one, groups and lists stored one after the other,
offsets that are running totals, and one validity bit per item.
-/

namespace Narrow.Spec

/-- The bits `l` lie in the buffer of the bitmap `b`, from its offset on. -/
def BitsAt (B : Backing Byte) (b : BitmapOf B.C) (l : List Bool) : Prop :=
  Reads (bitmapBC B.toBuf) b l ∧ l.length = b.intoParts.2.1 ∧
    ∀ i (h : i < l.length), b.intoParts.2.2 + i < 8 * (B.borrow b.bufferRef).length ∧
      l[i] = bit (B.borrow b.bufferRef) (b.intoParts.2.2 + i)

/-- The collection `c` shows `l`, and its parts, at every level, show `l` in Arrow's
layout. Null items may have any value in the child; an interrupted `extend` may leave
further items there, which belong to no item of the collection. -/
def Encoded : {O : Type} → (k : SComp O) → (scompR k).C → List O → Prop
  | _, .leaf R _ held, c, l => Reads R.toColl c l ∧ held c = l
  | _, .bitmap B _, c, l => BitsAt B c l
  | _, .flatten n h k, c, l => Reads (scompR (.flatten n h k)).toColl c l ∧
      Encoded k (Flatten.childRef c) (l.flatMap Subtype.val)
  | _, .validity env B Good k, c, l => Reads (scompR (.validity env B Good k)).toColl c l ∧
      ∃ m, Encoded k (ValidityOf.childRef c) m ∧
        match ValidityOf.bitmapRef c with
        | none => l = m.map some
        | some b => BitsAt B b (l.map Option.isSome) ∧ l.length ≤ m.length ∧
            ∀ (i : Nat) x, l[i]? = some (some x) → m[i]? = some x
  | _, .offsets ow D Good k, c, l => Reads (scompR (.offsets ow D Good k)).toColl c l ∧
      D.borrow (OffsetsIn.bufferRef c) = offsetsOf l ∧
      ∃ m, Encoded k (OffsetsIn.childRef c) m ∧ l.flatten <+: m

/-- The collection `c` shows `l`, and its parts hold `l` and nothing else: bits begin at
the first bit of their buffer, null items have the default value in the child, and the
child of lists holds the items of the lists. -/
def EncodedExactly : {O : Type} → (k : SComp O) → (scompR k).C → List O → Prop
  | _, .leaf R _ held, c, l => Reads R.toColl c l ∧ held c = l
  | _, .bitmap B _, c, l => BitsAt B c l ∧ (BitmapOf.intoParts c).2.2 = 0
  | _, .flatten n h k, c, l => Reads (scompR (.flatten n h k)).toColl c l ∧
      EncodedExactly k (Flatten.childRef c) (l.flatMap Subtype.val)
  | _, .validity env B Good k, c, l => Reads (scompR (.validity env B Good k)).toColl c l ∧
      EncodedExactly k (ValidityOf.childRef c) (l.map (·.getD (scompR k).dflt)) ∧
        match ValidityOf.bitmapRef c with
        | none => ∀ x ∈ l, x.isSome
        | some b => BitsAt B b (l.map Option.isSome) ∧ b.intoParts.2.2 = 0
  | _, .offsets ow D Good k, c, l => Reads (scompR (.offsets ow D Good k)).toColl c l ∧
      D.borrow (OffsetsIn.bufferRef c) = offsetsOf l ∧
      EncodedExactly k (OffsetsIn.childRef c) l.flatten

/-- The two bitmaps have the same parts: the bytes of the buffer, the number of bits and
the offset. -/
def SameBits (B : Backing Byte) (b d : BitmapOf B.C) : Prop :=
  B.borrow b.bufferRef = B.borrow d.bufferRef ∧ b.intoParts.2 = d.intoParts.2

/-- The two collections have the same parts. -/
def SameParts : {O : Type} → (k : SComp O) → (c d : (scompR k).C) → Prop
  | _, .leaf _ _ held, c, d => held c = held d
  | _, .bitmap B _, c, d => SameBits B c d
  | _, .flatten _ _ k, c, d => SameParts k (Flatten.childRef c) (Flatten.childRef d)
  | _, .validity _ B _ k, c, d => SameParts k (ValidityOf.childRef c) (ValidityOf.childRef d) ∧
      match ValidityOf.bitmapRef c, ValidityOf.bitmapRef d with
      | none, none => True
      | some b, some b' => SameBits B b b'
      | _, _ => False
  | _, .offsets _ D _ k, c, d => SameParts k (OffsetsIn.childRef c) (OffsetsIn.childRef d) ∧
      D.borrow (OffsetsIn.bufferRef c) = D.borrow (OffsetsIn.bufferRef d)

end Narrow.Spec
