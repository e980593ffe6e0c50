import Verif.Model.Coll

/-!
# Bitmaps

src/bitmap/mod.rs, src/bitmap/packed.rs, src/bitmap/unpacked.rs.
-/

namespace Narrow

/-- `bytes_for_bits` (src/bitmap/mod.rs:27-29). -/
def bytesForBits (bits : Nat) : Nat := (bits + 7) / 8

/-- `u8::from(bool)` (src/bitmap/mod.rs:359). -/
def boolByte (b : Bool) : Byte := if b then 1#8 else 0#8

/-! ## Packing (src/bitmap/packed.rs) -/

/-- The loop of `BitPacked::next` (src/bitmap/packed.rs:35-43) for the remaining
`k` bit positions starting at `pos`. Each position polls the inner iterator once,
whatever it returned before. Returns the byte, the iterator left and the number
of items read, or `none` if the inner iterator panics. -/
def packRest : Nat → Nat → Byte → Src Bool → Nat → Option (Byte × Src Bool × Nat)
  | 0, _, byte, s, n => some (byte, s, n)
  | k + 1, pos, byte, s, n =>
    match s with
    | [] => packRest k (pos + 1) byte [] n
    | .none :: s' => packRest k (pos + 1) byte s' n
    | .panic :: _ => none
    | .item x :: s' =>
      packRest k (pos + 1) (if x then byte ||| (1#8 <<< pos) else byte) s' (n + 1)

theorem packRest_length : ∀ {k pos byte s n b s' n'},
    packRest k pos byte s n = some (b, s', n') → s'.length ≤ s.length
  | 0, _, _, _, _, _, _, _, h => by
    simp only [packRest, Option.some.injEq, Prod.mk.injEq] at h; simp [h.2.1]
  | k + 1, pos, byte, [], n, b, s', n', h => by
    simp only [packRest] at h; exact packRest_length h
  | k + 1, pos, byte, .none :: s, n, b, s', n', h => by
    simp only [packRest] at h
    have := packRest_length h; simp only [List.length_cons]; omega
  | k + 1, pos, byte, .panic :: s, n, b, s', n', h => by simp [packRest] at h
  | k + 1, pos, byte, .item x :: s, n, b, s', n', h => by
    simp only [packRest] at h
    have := packRest_length h; simp only [List.length_cons]; omega

/-- `iter.bit_packed()` (src/bitmap/packed.rs:29-46) read until its first `None`
or panic: the packed events, and the number of items read from the inner
iterator in total (the `inspect` counters of src/bitmap/mod.rs:372, 399, 460,
487, 573). The counters' `strict_add(1)` cannot overflow before the byte buffer
is full and is omitted. -/
def pack : Src Bool → Src Byte × Nat
  | [] => ([], 0)
  | .none :: _ => ([], 0)
  | .panic :: _ => ([.panic], 0)
  | .item x :: s =>
    match h : packRest 7 1 (boolByte x) s 0 with
    | none => ([.panic], 0)
    | some (byte, s', n) =>
      (.item byte :: (pack s').1, (pack s').2 + n + 1)
termination_by s => s.length
decreasing_by
  all_goals
    have := packRest_length h
    simp only [List.length_cons]; omega

/-- `BitPacked::next` (src/bitmap/packed.rs:29-46): one byte, and the inner
iterator afterwards. `pack` reads these bytes up to the first `None`. -/
def packNext : Src Bool → Res (Option Byte × Src Bool)
  | [] => .ok (none, [])
  | .none :: s => .ok (none, s)
  | .panic :: _ => .panic
  | .item x :: s =>
    match packRest 7 1 (boolByte x) s 0 with
    | none => .panic
    | some (byte, s', _) => .ok (some byte, s')

/-- `BitPacked::size_hint` (src/bitmap/packed.rs:48-54), from the size hint of the
inner iterator. -/
def packHint (h : Nat × Option Nat) : Nat × Option Nat := (bytesForBits h.1, h.2.map bytesForBits)

/-! ## Unpacking (src/bitmap/unpacked.rs) -/

/-- `BitUnpacked` (src/bitmap/unpacked.rs:13-24) over the remaining bytes of a
buffer (`slice::Iter` or the owned byte iterator). -/
structure Unpacked where
  rest : List Byte
  byte : Option Byte
  mask : Byte
  deriving DecidableEq, Repr

namespace Unpacked

/-- `iter.bit_unpacked()`: no byte buffered, mask `0x01`
(src/bitmap/unpacked.rs:94-103). -/
def new (bytes : List Byte) : Unpacked := ⟨bytes, none, 1#8⟩

/-- The fetch at src/bitmap/unpacked.rs:36-38. -/
def fetch (u : Unpacked) : Unpacked :=
  if u.mask = 1#8 then
    match u.rest with
    | [] => { u with byte := none }
    | b :: r => { u with rest := r, byte := some b }
  else u

/-- `BitUnpacked::next` (src/bitmap/unpacked.rs:34-46). -/
def next (u : Unpacked) : Option Bool × Unpacked :=
  let v := u.fetch
  match v.byte with
  | none => (none, v)
  | some b => (some (b &&& v.mask != 0#8), { v with mask := v.mask.rotateLeft 1 })

/-- `u8::trailing_zeros` of a mask (src/bitmap/unpacked.rs:59-62). -/
def trailingZeros (m : Byte) : Nat :=
  ((List.range 8).find? fun i => m.getLsbD i).getD 8

/-- `BitUnpacked::size_hint` (src/bitmap/unpacked.rs:49-74), for an inner
iterator with exact size. -/
def sizeHint (u : Unpacked) : Nat × Option Nat :=
  let buffered := if u.mask = 1#8 then 0 else 8 - trailingZeros u.mask
  ( satAdd (satMul u.rest.length 8) buffered,
    (checkedMul u.rest.length 8).bind fun b => checkedAdd b buffered )

/-- `ExactSizeIterator::len` of the size hint: std asserts both bounds agree (on the
iterators of src/bitmap/unpacked.rs:81-86). -/
def exactLen (h : Nat × Option Nat) : Res Nat :=
  if h.2 = some h.1 then .ok h.1 else .panic

/-- Calling `next` `n` times, stopping at the first `None` (the advance of
`Iterator::nth`): whether all `n` calls returned an item, and the state left (on the
iterator of src/bitmap/unpacked.rs:26-46). -/
def advance : Nat → Unpacked → Bool × Unpacked
  | 0, u => (true, u)
  | n + 1, u =>
    match u.next with
    | (none, u') => (false, u')
    | (some _, u') => advance n u'

end Unpacked

/-- `Take<Skip<BitUnpacked<..>>>`, the iterator of a bitmap
(src/bitmap/mod.rs:311-337). -/
structure BitIter where
  un : Unpacked
  skip : Nat
  take : Nat
  deriving DecidableEq, Repr

namespace BitIter

/-- `Skip::next`: the first call advances over the skipped items
(`self.iter.nth(mem::take(&mut self.n))`) (of the iterators src/bitmap/mod.rs:314-321
and 327-335). -/
def skipNext (un : Unpacked) (n : Nat) : Option Bool × Unpacked :=
  if n = 0 then un.next
  else
    match un.advance n with
    | (true, u) => u.next
    | (false, u) => (none, u)

/-- `Take::next` over `Skip::next` (of the iterators src/bitmap/mod.rs:314-321 and
327-335). -/
def next (it : BitIter) : Option Bool × BitIter :=
  if it.take = 0 then (none, it)
  else
    let r := skipNext it.un it.skip
    (r.1, ⟨r.2, 0, it.take - 1⟩)

/-- `Take::size_hint` over `Skip::size_hint` (of the iterators src/bitmap/mod.rs:314-321
and 327-335). -/
def sizeHint (it : BitIter) : Nat × Option Nat :=
  if it.take = 0 then (0, some 0)
  else
    let h := it.un.sizeHint
    let lo := h.1 - it.skip
    let hi := h.2.map (· - it.skip)
    ( min lo it.take,
      match hi with
      | some x => if x < it.take then some x else some it.take
      | none => some it.take )

/-- `ExactSizeIterator::len` (of the iterators src/bitmap/mod.rs:314-321 and 327-335).
-/
def len (it : BitIter) : Res Nat := Unpacked.exactLen it.sizeHint

end BitIter

/-! ## The bitmap -/

/-- `Bitmap` (src/bitmap/mod.rs:100-114). -/
structure Bitmap where
  buffer : RVec Byte
  bits : Nat
  offset : Nat
  deriving DecidableEq, Repr

/-- `BitmapError::OutOfBounds` (src/bitmap/mod.rs:31-50). -/
structure BitmapError where
  offset : Nat
  bits : Nat
  bytes : Nat
  deriving DecidableEq, Repr

namespace Bitmap

/-- `Bitmap::try_from_parts` (src/bitmap/mod.rs:153-172). -/
def tryFromParts (buffer : RVec Byte) (bits offset : Nat) : Except BitmapError Bitmap :=
  let bytes := buffer.items.length
  let capacity := satMul bytes 8
  match checkedAdd offset bits with
  | some required =>
    if required ≤ capacity then .ok ⟨buffer, bits, offset⟩ else .error ⟨offset, bits, bytes⟩
  | none => .error ⟨offset, bits, bytes⟩

/-- `Bitmap::into_parts` (src/bitmap/mod.rs:241-243). -/
def intoParts (b : Bitmap) : RVec Byte × Nat × Nat := (b.buffer, b.bits, b.offset)

/-- `Clone for Bitmap` (src/bitmap/mod.rs:285-293). -/
def clone (b : Bitmap) : Bitmap := ⟨b.buffer.clone, b.bits, b.offset⟩

/-- `Bitmap::bit_offset` (src/bitmap/mod.rs:185-187). -/
def bitOffset (b : Bitmap) : Nat := b.offset

/-- `Bitmap::bit_index` (src/bitmap/mod.rs:248-250). -/
def bitIndex (b : Bitmap) (i : Nat) : Res Nat := (strictAdd b.offset i).map (· % 8)

/-- `Bitmap::byte_index` (src/bitmap/mod.rs:259-261), with
`leading_bits` (src/bitmap/mod.rs:267-269), which is the offset. -/
def byteIndex (b : Bitmap) (i : Nat) : Res Nat := (strictAdd b.offset i).map (· / 8)

/-- `Bitmap::trailing_bits` (src/bitmap/mod.rs:275-282). -/
def trailingBits (b : Bitmap) : Res Nat :=
  (b.bitIndex b.bits).map fun t => if t = 0 then 0 else 8 - t

/-- `u8::count_ones` (src/bitmap/mod.rs:220). -/
def popcount (b : Byte) : Nat := (List.range 8).countP fun i => b.getLsbD i

/-- The fold of `count_ones` (src/bitmap/mod.rs:207-222): `index` is the
position of the head of the list, `last` the position of the last byte.
The running count's `strict_add` cannot overflow (8 bits per byte in memory). -/
def countFold (leading trailing : Byte) (last : Nat) : Nat → Nat → List Byte → Nat
  | _, count, [] => count
  | index, count, byte :: rest =>
    let masked := byte &&& (if index = 0 then leading else 255#8)
      &&& (if index = last then trailing else 255#8)
    countFold leading trailing last (index + 1) (count + popcount masked) rest

/-- `Bitmap::count_ones` (src/bitmap/mod.rs:191-223). The range index
`buffer[start_byte..end.div_ceil(8)]` panics when it is out of range. -/
def countOnes (b : Bitmap) : Res Nat :=
  if b.bits = 0 then .ok 0
  else
    match strictAdd b.offset b.bits with
    | .panic => .panic
    | .ok e =>
      let startByte := b.offset / 8
      let endBit := e % 8
      let endByte := (e + 7) / 8
      if startByte ≤ endByte ∧ endByte ≤ b.buffer.items.length then
        let bytes := (b.buffer.items.take endByte).drop startByte
        match strictSub bytes.length 1 with
        | .panic => .panic
        | .ok last =>
          let leading : Byte := 255#8 <<< (b.offset % 8)
          let trailing : Byte := if endBit = 0 then 255#8 else (1#8 <<< endBit) - 1#8
          .ok (countFold leading trailing last 0 0 bytes)
      else .panic

/-- `Bitmap::default` (src/bitmap/mod.rs:295-303). -/
def empty : Bitmap := ⟨RVec.empty, 0, 0⟩

/-- `Length::len` (src/bitmap/mod.rs:305-309). -/
def len (b : Bitmap) : Nat := b.bits

/-- `Collection::view` (src/bitmap/mod.rs:422-427). -/
def view (b : Bitmap) (i : Nat) : Res (Option Bool) :=
  if i < b.bits then
    match b.byteIndex i with
    | .panic => .panic
    | .ok bi =>
      match b.buffer.items[bi]? with
      | none => .ok none
      | some byte =>
        (b.bitIndex i).map fun k => some (byte &&& (1#8 <<< k) != 0#8)
  else .ok none

/-- `IntoIterator for Bitmap` and `for &Bitmap` (src/bitmap/mod.rs:311-337). -/
def iter (b : Bitmap) : BitIter := ⟨Unpacked.new b.buffer.items, b.offset, b.bits⟩

/-- The bit assignment at src/bitmap/mod.rs:361 and 564. -/
def setBit (byte : Byte) (i : Nat) (x : Bool) : Byte :=
  (byte &&& ~~~(1#8 <<< i)) ||| (boolByte x <<< i)

/-- Result of the loop filling the byte at the logical end (src/bitmap/mod.rs:352-364).
-/
structure Filled where
  byte : Byte
  bits : Nat
  src : Src Bool
  panicked : Bool

/-- The loop `for index in bit_index..8` (src/bitmap/mod.rs:356-364, 560-567):
each position polls the source once; every bit is committed by itself. -/
def fill : List Nat → Src Bool → Byte → Nat → Filled
  | [], s, byte, bits => ⟨byte, bits, s, false⟩
  | i :: is, s, byte, bits =>
    match s with
    | [] => fill is [] byte bits
    | .none :: s' => fill is s' byte bits
    | .panic :: s' => ⟨byte, bits, s', true⟩
    | .item x :: s' =>
      if bits + 1 ≤ usizeMax then fill is s' (setBit byte i x) (bits + 1)
      else ⟨setBit byte i x, bits, s', true⟩

/-- Phase one of `extend`/`try_extend` (src/bitmap/mod.rs:352-367, 556-570):
the bitmap after filling the byte at its logical end, the source left, and
whether the source panicked. -/
def phase1 (b : Bitmap) (s : Src Bool) : Bitmap × Src Bool × Bool :=
  match b.bitIndex b.bits, b.byteIndex b.bits with
  | .ok bi, .ok byi =>
    if bi = 0 then (b, s, false)
    else
      match b.buffer.items[byi]? with
      | none => (b, s, false)
      | some byte =>
        let f := fill (List.range' bi (8 - bi)) s byte b.bits
        (⟨⟨b.buffer.items.set byi f.byte, b.buffer.cap⟩, f.bits, b.offset⟩, f.src, f.panicked)
  | _, _ => (b, s, true)

/-- The loop overwriting bytes beyond the logical end
(src/bitmap/mod.rs:376-385, 577-586): the buffer after it, the packed bytes
left, and whether the source panicked. -/
def overwrite (buf : List Byte) (i : Nat) : Src Byte → List Byte × Src Byte × Bool
  | [] => (buf, [], false)
  | .none :: s => if i < buf.length then (buf, s, false) else (buf, .none :: s, false)
  | .panic :: s => if i < buf.length then (buf, s, true) else (buf, .panic :: s, false)
  | .item x :: s =>
    if i < buf.length then overwrite (buf.set i x) (i + 1) s
    else (buf, .item x :: s, false)

/-- Phase two before the buffer is grown (src/bitmap/mod.rs:369-385, 571-586):
the buffer with stale bytes overwritten, the packed bytes still to append, the
number of items consumed, and whether the source panicked. `none` when the
source has no item left. -/
def phase2 (b : Bitmap) (s : Src Bool) : Option (List Byte × Src Byte × Nat × Bool) :=
  match s with
  | .item _ :: _ =>
    match b.byteIndex b.bits with
    | .panic => some (b.buffer.items, [], 0, true)
    | .ok byi =>
      let r := overwrite b.buffer.items byi (pack s).1
      some (r.1, r.2.1, (pack s).2, r.2.2)
  | .panic :: _ => some (b.buffer.items, [], 0, true)
  | _ => none

/-- `Extend::extend` (src/bitmap/mod.rs:339-392). -/
def extend (b : Bitmap) (src : Src Bool) : Bitmap × Out :=
  match phase1 b src.fuse with
  | (b1, _, true) => (b1, .panic)
  | (b1, s1, false) =>
    match phase2 b1 s1 with
    | none => (b1, .ok)
    | some (buf, _, _, true) => (⟨⟨buf, b1.buffer.cap⟩, b1.bits, b1.offset⟩, .panic)
    | some (buf, packed, consumed, false) =>
      match RVec.extend byteMax ⟨buf, b1.buffer.cap⟩ packed with
      | (buf', .ok) =>
        match strictAdd b1.bits consumed with
        | .ok bits => (⟨buf', bits, b1.offset⟩, .ok)
        | .panic => (⟨buf', b1.bits, b1.offset⟩, .panic)
      | (buf', _) => (⟨buf', b1.bits, b1.offset⟩, .panic)

/-- `CollectionRealloc::try_extend` (src/bitmap/mod.rs:549-594). -/
def tryExtend (w : World) (b : Bitmap) (src : Src Bool) : Bitmap × Out × World :=
  match phase1 b src.fuse with
  | (b1, _, true) => (b1, .panic, w)
  | (b1, s1, false) =>
    match phase2 b1 s1 with
    | none => (b1, .ok, w)
    | some (buf, _, _, true) => (⟨⟨buf, b1.buffer.cap⟩, b1.bits, b1.offset⟩, .panic, w)
    | some (buf, packed, consumed, false) =>
      match RVec.tryExtend byteMax w ⟨buf, b1.buffer.cap⟩ packed with
      | (buf', .err, w') => (⟨buf', b.bits, b1.offset⟩, .err, w')
      | (buf', .panic, w') => (⟨buf', b1.bits, b1.offset⟩, .panic, w')
      | (buf', .ok, w') =>
        match strictAdd b1.bits consumed with
        | .ok bits => (⟨buf', bits, b1.offset⟩, .ok, w')
        | .panic => (⟨buf', b1.bits, b1.offset⟩, .panic, w')

/-- The items pulled by one run of the loop in `BitPacked::next`
(src/bitmap/packed.rs:35-43) over `k` positions, and the iterator left. -/
def pullRest {α : Type} : Nat → Src α → List α × Src α
  | 0, s => ([], s)
  | _ + 1, [] => ([], [])
  | k + 1, .none :: s => pullRest k s
  | _ + 1, .panic :: _ => ([], [])
  | k + 1, .item a :: s => (a :: (pullRest k s).1, (pullRest k s).2)

theorem pullRest_length {α : Type} : ∀ (k : Nat) (s : Src α), (pullRest k s).2.length ≤ s.length
  | 0, s => by simp [pullRest]
  | _ + 1, [] => by simp [pullRest]
  | k + 1, .none :: s => by have := pullRest_length k s; simp only [pullRest, List.length_cons]; omega
  | _ + 1, .panic :: s => by simp [pullRest]
  | k + 1, .item a :: s => by have := pullRest_length k s; simp only [pullRest, List.length_cons]; omega

/-- The items pulled through `bit_packed()` until it returns `None`
(src/bitmap/packed.rs:29-46, src/bitmap/mod.rs:394-412): reading stops only when
the first position of a byte finds no item. -/
def pulled {α : Type} : Src α → List α
  | .item a :: s => a :: ((pullRest 7 s).1 ++ pulled (pullRest 7 s).2)
  | _ => []
termination_by s => s.length
decreasing_by
  have := pullRest_length 7 s
  simp only [List.length_cons]; omega

/-- `FromIterator::from_iter` (src/bitmap/mod.rs:394-412). The source is not
fused. -/
def fromIter (s : Src Bool) : Try Bitmap :=
  match RVec.fromIter byteMax (pack s).1 with
  | .ok buf => .ok ⟨buf, (pack s).2, 0⟩
  | .err => .err
  | .panic => .panic

/-- `from_iter_in` (src/bitmap/mod.rs:456-469): as `from_iter`. -/
def fromIterIn (s : Src Bool) : Try Bitmap := fromIter s

/-- `with_capacity_in` (src/bitmap/mod.rs:448-454). -/
def withCap (n : Nat) : Try Bitmap :=
  match RVec.withCap byteMax (bytesForBits n) with
  | .ok buf => .ok ⟨buf, 0, 0⟩
  | .err => .err
  | .panic => .panic

/-- `try_with_capacity_in` (src/bitmap/mod.rs:471-479). -/
def tryWithCap (w : World) (n : Nat) : Try Bitmap × World :=
  match RVec.tryWithCap byteMax w (bytesForBits n) with
  | (.ok buf, w') => (.ok ⟨buf, 0, 0⟩, w')
  | (.err, w') => (.err, w')
  | (.panic, w') => (.panic, w')

/-- `try_from_iter_in` (src/bitmap/mod.rs:481-497). The source is not fused. -/
def tryFromIter (w : World) (s : Src Bool) : Try Bitmap × World :=
  match RVec.tryFromIter byteMax w (pack s).1 with
  | (.ok buf, w') => (.ok ⟨buf, (pack s).2, 0⟩, w')
  | (.err, w') => (.err, w')
  | (.panic, w') => (.panic, w')

/-- `all_set_bytes` (src/bitmap/mod.rs:527-532). -/
def allSetBytes (bits : Nat) : List Byte :=
  List.replicate (bits / 8) 255#8 ++
    (if bits % 8 ≠ 0 then [(1#8 <<< (bits % 8)) - 1#8] else [])

/-- `all_set_in` (src/bitmap/mod.rs:502-511). -/
def allSet (bits : Nat) : Try Bitmap :=
  match RVec.fromIter byteMax (Src.ofList (allSetBytes bits)) with
  | .ok buf => .ok ⟨buf, bits, 0⟩
  | .err => .err
  | .panic => .panic

/-- `try_all_set_in` (src/bitmap/mod.rs:514-524). -/
def tryAllSet (w : World) (bits : Nat) : Try Bitmap × World :=
  match RVec.tryFromIter byteMax w (Src.ofList (allSetBytes bits)) with
  | (.ok buf, w') => (.ok ⟨buf, bits, 0⟩, w')
  | (.err, w') => (.err, w')
  | (.panic, w') => (.panic, w')

/-- `try_reserve` (src/bitmap/mod.rs:542-547). -/
def tryReserve (w : World) (b : Bitmap) (n : Nat) : Bitmap × Out × World :=
  match b.trailingBits with
  | .panic => (b, .panic, w)
  | .ok t =>
    if t ≤ n then
      match RVec.tryReserve byteMax w b.buffer (bytesForBits (n - t)) with
      | (buf, out, w') => ({ b with buffer := buf }, out, w')
    else (b, .ok, w)

/-- `reserve` (src/bitmap/mod.rs:596-600). -/
def reserve (b : Bitmap) (n : Nat) : Bitmap × Out :=
  match b.trailingBits with
  | .panic => (b, .panic)
  | .ok t =>
    if t ≤ n then
      match RVec.reserve byteMax b.buffer (bytesForBits (n - t)) with
      | (buf, out) => ({ b with buffer := buf }, out)
    else (b, .ok)

/-- `truncate` (src/bitmap/mod.rs:602-608). -/
def truncate (b : Bitmap) (n : Nat) : Bitmap :=
  if n < b.bits then { b with bits := n } else b

end Bitmap

/-- `impl Collection, CollectionAllocIn, CollectionRealloc for Bitmap`
(src/bitmap/mod.rs:414-609). Views and owned items are `bool`. -/
@[reducible] def bitmapR : Realloc Bool where
  C := Bitmap
  V := Bool
  I := BitIter
  J := BitIter
  len b := .ok b.len
  view b i := b.view i
  toOwned v := .ok v
  iter b := .ok b.iter
  inext it := .ok it.next
  ilen it := it.len
  into b := .ok b.iter
  jnext it := .ok it.next
  jlen it := it.len
  dflt := false
  empty := Bitmap.empty
  pulled s := Bitmap.pulled s
  withCap n := Bitmap.withCap n
  fromIter w s := (Bitmap.fromIter s, w)
  fromIterIn w s := (Bitmap.fromIterIn s, w)
  tryWithCap w n := Bitmap.tryWithCap w n
  tryFromIter w s := Bitmap.tryFromIter w s
  extend b s := b.extend s
  reserve b n := b.reserve n
  tryReserve w b n := b.tryReserve w n
  tryExtend w b s := b.tryExtend w s
  truncate b n := (b.truncate n, .ok)

end Narrow
