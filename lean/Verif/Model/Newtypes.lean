import Verif.Model.Layout
import Verif.Model.Boxed

/-!
# The newtypes: `Array` and the layout structs

Each is a tuple struct around one collection, with hand-written implementations of
the collection traits. A newtype has the representation of what it wraps, so each
type below is a synonym, with its constructor and `into_buffer` as functions; every
forwarding function is written out. `allocator` is in
`Model/Alloc`; iterators and views are those of the wrapped collection.
-/

namespace Narrow

/-! ## `Array` -/

/-- `struct Array` (src/array.rs:38). -/
def Array (C : Type) : Type := C

/-- `Array::from_buffer`, the constructor (src/array.rs:50-52). -/
def Array.fromBuffer {C : Type} (memory : C) : Array C := memory

/-- `Array::into_buffer`, `self.0` (src/array.rs:67-69). -/
def Array.intoBuffer {C : Type} (self : Array C) : C := self

/-- `Array::buffer_ref`, `&self.0` (src/array.rs:75-77). -/
def Array.bufferRef {C : Type} (self : Array C) : C := self.intoBuffer

/-- The trait implementations of `Array` around a collection with operations `R`
(src/array.rs:98-211). -/
def arrayNewtypeR {O : Type} (R : Realloc O) : Realloc O where
  C := Array R.C
  V := R.V
  I := R.I
  J := R.J
  -- src/array.rs:117-119
  len self := R.len self.intoBuffer
  -- src/array.rs:139-141
  view self index := R.view self.intoBuffer index
  toOwned := R.toOwned
  -- src/array.rs:148-150
  iter self := R.iter self.intoBuffer
  inext := R.inext
  ilen := R.ilen
  -- src/array.rs:154-156
  into self := R.into self.intoBuffer
  jnext := R.jnext
  jlen := R.jlen
  dflt := R.dflt
  -- src/array.rs:102-104
  empty := Array.fromBuffer R.empty
  pulled := R.pulled
  -- src/array.rs:165-167
  withCap capacity := (R.withCap capacity).mapOk Array.fromBuffer
  -- src/array.rs:126-128
  fromIter w iter := ((R.fromIter w iter).1.mapOk Array.fromBuffer, (R.fromIter w iter).2)
  -- src/array.rs:169-171
  fromIterIn w iter := ((R.fromIterIn w iter).1.mapOk Array.fromBuffer, (R.fromIterIn w iter).2)
  -- src/array.rs:173-175
  tryWithCap w capacity :=
    ((R.tryWithCap w capacity).1.mapOk Array.fromBuffer, (R.tryWithCap w capacity).2)
  -- src/array.rs:177-182
  tryFromIter w iter := ((R.tryFromIter w iter).1.mapOk Array.fromBuffer, (R.tryFromIter w iter).2)
  -- src/array.rs:111-113
  extend self iter :=
    let r := R.extend self.intoBuffer iter
    (Array.fromBuffer r.1, r.2)
  -- src/array.rs:204-206
  reserve self additional :=
    let r := R.reserve self.intoBuffer additional
    (Array.fromBuffer r.1, r.2)
  -- src/array.rs:193-195
  tryReserve w self additional :=
    let r := R.tryReserve w self.intoBuffer additional
    (Array.fromBuffer r.1, r.2)
  -- src/array.rs:197-202
  tryExtend w self iter :=
    let r := R.tryExtend w self.intoBuffer iter
    (Array.fromBuffer r.1, r.2)
  -- src/array.rs:208-210
  truncate self len :=
    let r := R.truncate self.intoBuffer len
    (Array.fromBuffer r.1, r.2)

/-! ## `Boolean` -/

/-- `struct Boolean` (src/layout/boolean.rs:35-37). -/
def Boolean (C : Type) : Type := C

/-- `Boolean::from_buffer`, the constructor (src/layout/boolean.rs:54-56). -/
def Boolean.fromBuffer {C : Type} (memory : C) : Boolean C := memory

/-- `Boolean::into_buffer`, `self.0` (src/layout/boolean.rs:71-73). -/
def Boolean.intoBuffer {C : Type} (self : Boolean C) : C := self

/-- `Boolean::buffer_ref`, `&self.0` (src/layout/boolean.rs:79-81). -/
def Boolean.bufferRef {C : Type} (self : Boolean C) : C := self.intoBuffer

/-- The trait implementations of `Boolean` around a collection with operations `R`
(src/layout/boolean.rs:93-207). -/
def booleanR {O : Type} (R : Realloc O) : Realloc O where
  C := Boolean R.C
  V := R.V
  I := R.I
  J := R.J
  -- src/layout/boolean.rs:103-105
  len self := R.len self.intoBuffer
  -- src/layout/boolean.rs:135-137
  view self index := R.view self.intoBuffer index
  toOwned := R.toOwned
  -- src/layout/boolean.rs:144-146
  iter self := R.iter self.intoBuffer
  inext := R.inext
  ilen := R.ilen
  -- src/layout/boolean.rs:150-152
  into self := R.into self.intoBuffer
  jnext := R.jnext
  jlen := R.jlen
  dflt := R.dflt
  -- src/layout/boolean.rs:97-99
  empty := Boolean.fromBuffer R.empty
  pulled := R.pulled
  -- src/layout/boolean.rs:161-163
  withCap capacity := (R.withCap capacity).mapOk Boolean.fromBuffer
  -- src/layout/boolean.rs:113-115
  fromIter w iter := ((R.fromIter w iter).1.mapOk Boolean.fromBuffer, (R.fromIter w iter).2)
  -- src/layout/boolean.rs:165-167
  fromIterIn w iter := ((R.fromIterIn w iter).1.mapOk Boolean.fromBuffer, (R.fromIterIn w iter).2)
  -- src/layout/boolean.rs:169-171
  tryWithCap w capacity :=
    ((R.tryWithCap w capacity).1.mapOk Boolean.fromBuffer, (R.tryWithCap w capacity).2)
  -- src/layout/boolean.rs:173-178
  tryFromIter w iter := ((R.tryFromIter w iter).1.mapOk Boolean.fromBuffer, (R.tryFromIter w iter).2)
  -- src/layout/boolean.rs:122-124
  extend self iter :=
    let r := R.extend self.intoBuffer iter
    (Boolean.fromBuffer r.1, r.2)
  -- src/layout/boolean.rs:200-202
  reserve self additional :=
    let r := R.reserve self.intoBuffer additional
    (Boolean.fromBuffer r.1, r.2)
  -- src/layout/boolean.rs:189-191
  tryReserve w self additional :=
    let r := R.tryReserve w self.intoBuffer additional
    (Boolean.fromBuffer r.1, r.2)
  -- src/layout/boolean.rs:193-198
  tryExtend w self iter :=
    let r := R.tryExtend w self.intoBuffer iter
    (Boolean.fromBuffer r.1, r.2)
  -- src/layout/boolean.rs:204-206
  truncate self len :=
    let r := R.truncate self.intoBuffer len
    (Boolean.fromBuffer r.1, r.2)

/-! ## `FixedSizePrimitive` -/

/-- `struct FixedSizePrimitive` (src/layout/fixed_size_primitive.rs:30-34). -/
def FixedSizePrimitive (C : Type) : Type := C

/-- `FixedSizePrimitive::from_buffer`, the constructor (src/layout/fixed_size_primitive.rs:53-55). -/
def FixedSizePrimitive.fromBuffer {C : Type} (memory : C) : FixedSizePrimitive C := memory

/-- `FixedSizePrimitive::into_buffer`, `self.0` (src/layout/fixed_size_primitive.rs:70-72). -/
def FixedSizePrimitive.intoBuffer {C : Type} (self : FixedSizePrimitive C) : C := self

/-- `FixedSizePrimitive::buffer_ref`, `&self.0` (src/layout/fixed_size_primitive.rs:80-82). -/
def FixedSizePrimitive.bufferRef {C : Type} (self : FixedSizePrimitive C) : C := self.intoBuffer

/-- The trait implementations of `FixedSizePrimitive` around a collection with
operations `R` (src/layout/fixed_size_primitive.rs:95-217). -/
def fixedSizePrimitiveR {O : Type} (R : Realloc O) : Realloc O where
  C := FixedSizePrimitive R.C
  V := R.V
  I := R.I
  J := R.J
  -- src/layout/fixed_size_primitive.rs:108-110
  len self := R.len self.intoBuffer
  -- src/layout/fixed_size_primitive.rs:143-145
  view self index := R.view self.intoBuffer index
  toOwned := R.toOwned
  -- src/layout/fixed_size_primitive.rs:152-154
  iter self := R.iter self.intoBuffer
  inext := R.inext
  ilen := R.ilen
  -- src/layout/fixed_size_primitive.rs:158-160
  into self := R.into self.intoBuffer
  jnext := R.jnext
  jlen := R.jlen
  dflt := R.dflt
  -- src/layout/fixed_size_primitive.rs:100-102
  empty := FixedSizePrimitive.fromBuffer R.empty
  pulled := R.pulled
  -- src/layout/fixed_size_primitive.rs:170-172
  withCap capacity := (R.withCap capacity).mapOk FixedSizePrimitive.fromBuffer
  -- src/layout/fixed_size_primitive.rs:118-120
  fromIter w iter := ((R.fromIter w iter).1.mapOk FixedSizePrimitive.fromBuffer, (R.fromIter w iter).2)
  -- src/layout/fixed_size_primitive.rs:174-176
  fromIterIn w iter := ((R.fromIterIn w iter).1.mapOk FixedSizePrimitive.fromBuffer, (R.fromIterIn w iter).2)
  -- src/layout/fixed_size_primitive.rs:178-180
  tryWithCap w capacity :=
    ((R.tryWithCap w capacity).1.mapOk FixedSizePrimitive.fromBuffer, (R.tryWithCap w capacity).2)
  -- src/layout/fixed_size_primitive.rs:182-187
  tryFromIter w iter := ((R.tryFromIter w iter).1.mapOk FixedSizePrimitive.fromBuffer, (R.tryFromIter w iter).2)
  -- src/layout/fixed_size_primitive.rs:128-130
  extend self iter :=
    let r := R.extend self.intoBuffer iter
    (FixedSizePrimitive.fromBuffer r.1, r.2)
  -- src/layout/fixed_size_primitive.rs:210-212
  reserve self additional :=
    let r := R.reserve self.intoBuffer additional
    (FixedSizePrimitive.fromBuffer r.1, r.2)
  -- src/layout/fixed_size_primitive.rs:199-201
  tryReserve w self additional :=
    let r := R.tryReserve w self.intoBuffer additional
    (FixedSizePrimitive.fromBuffer r.1, r.2)
  -- src/layout/fixed_size_primitive.rs:203-208
  tryExtend w self iter :=
    let r := R.tryExtend w self.intoBuffer iter
    (FixedSizePrimitive.fromBuffer r.1, r.2)
  -- src/layout/fixed_size_primitive.rs:214-216
  truncate self len :=
    let r := R.truncate self.intoBuffer len
    (FixedSizePrimitive.fromBuffer r.1, r.2)

/-! ## `FixedSizeList` -/

/-- `struct FixedSizeList` (src/layout/fixed_size_list.rs:33-38). -/
def FixedSizeList (C : Type) : Type := C

/-- `FixedSizeList::from_buffer`, the constructor (src/layout/fixed_size_list.rs:60-62). -/
def FixedSizeList.fromBuffer {C : Type} (memory : C) : FixedSizeList C := memory

/-- `FixedSizeList::into_buffer`, `self.0` (src/layout/fixed_size_list.rs:77-79). -/
def FixedSizeList.intoBuffer {C : Type} (self : FixedSizeList C) : C := self

/-- `FixedSizeList::buffer_ref`, `&self.0` (src/layout/fixed_size_list.rs:87-89). -/
def FixedSizeList.bufferRef {C : Type} (self : FixedSizeList C) : C := self.intoBuffer

/-- The trait implementations of `FixedSizeList` around a collection with operations `R`
(src/layout/fixed_size_list.rs:112-250). -/
def fixedSizeListR {O : Type} (R : Realloc O) : Realloc O where
  C := FixedSizeList R.C
  V := R.V
  I := R.I
  J := R.J
  -- src/layout/fixed_size_list.rs:145-147
  len self := R.len self.intoBuffer
  -- src/layout/fixed_size_list.rs:162-164
  view self index := R.view self.intoBuffer index
  toOwned := R.toOwned
  -- src/layout/fixed_size_list.rs:173-175
  iter self := R.iter self.intoBuffer
  inext := R.inext
  ilen := R.ilen
  -- src/layout/fixed_size_list.rs:180-182
  into self := R.into self.intoBuffer
  jnext := R.jnext
  jlen := R.jlen
  dflt := R.dflt
  -- src/layout/fixed_size_list.rs:117-119
  empty := FixedSizeList.fromBuffer R.empty
  pulled := R.pulled
  -- src/layout/fixed_size_list.rs:193-199
  withCap capacity := (R.withCap capacity).mapOk FixedSizeList.fromBuffer
  -- src/layout/fixed_size_list.rs:137-139
  fromIter w iter := ((R.fromIter w iter).1.mapOk FixedSizeList.fromBuffer, (R.fromIter w iter).2)
  -- src/layout/fixed_size_list.rs:201-205
  fromIterIn w iter := ((R.fromIterIn w iter).1.mapOk FixedSizeList.fromBuffer, (R.fromIterIn w iter).2)
  -- src/layout/fixed_size_list.rs:207-212
  tryWithCap w capacity :=
    ((R.tryWithCap w capacity).1.mapOk FixedSizeList.fromBuffer, (R.tryWithCap w capacity).2)
  -- src/layout/fixed_size_list.rs:214-220
  tryFromIter w iter := ((R.tryFromIter w iter).1.mapOk FixedSizeList.fromBuffer, (R.tryFromIter w iter).2)
  -- src/layout/fixed_size_list.rs:127-129
  extend self iter :=
    let r := R.extend self.intoBuffer iter
    (FixedSizeList.fromBuffer r.1, r.2)
  -- src/layout/fixed_size_list.rs:243-245
  reserve self additional :=
    let r := R.reserve self.intoBuffer additional
    (FixedSizeList.fromBuffer r.1, r.2)
  -- src/layout/fixed_size_list.rs:232-234
  tryReserve w self additional :=
    let r := R.tryReserve w self.intoBuffer additional
    (FixedSizeList.fromBuffer r.1, r.2)
  -- src/layout/fixed_size_list.rs:236-241
  tryExtend w self iter :=
    let r := R.tryExtend w self.intoBuffer iter
    (FixedSizeList.fromBuffer r.1, r.2)
  -- src/layout/fixed_size_list.rs:247-249
  truncate self len :=
    let r := R.truncate self.intoBuffer len
    (FixedSizeList.fromBuffer r.1, r.2)

/-! ## `VariableSizeList` -/

/-- `struct VariableSizeList` (src/layout/variable_size_list.rs:32-37). -/
def VariableSizeList (C : Type) : Type := C

/-- `VariableSizeList::from_buffer`, the constructor (src/layout/variable_size_list.rs:59-63). -/
def VariableSizeList.fromBuffer {C : Type} (memory : C) : VariableSizeList C := memory

/-- `VariableSizeList::into_buffer`, `self.0` (src/layout/variable_size_list.rs:78-82). -/
def VariableSizeList.intoBuffer {C : Type} (self : VariableSizeList C) : C := self

/-- `VariableSizeList::buffer_ref`, `&self.0` (src/layout/variable_size_list.rs:90-92). -/
def VariableSizeList.bufferRef {C : Type} (self : VariableSizeList C) : C := self.intoBuffer

/-- The trait implementations of `VariableSizeList` around a collection with operations
`R` (src/layout/variable_size_list.rs:105-241). -/
def variableSizeListR {O : Type} (R : Realloc O) : Realloc O where
  C := VariableSizeList R.C
  V := R.V
  I := R.I
  J := R.J
  -- src/layout/variable_size_list.rs:140-142
  len self := R.len self.intoBuffer
  -- src/layout/variable_size_list.rs:154-156
  view self index := R.view self.intoBuffer index
  toOwned := R.toOwned
  -- src/layout/variable_size_list.rs:162-164
  iter self := R.iter self.intoBuffer
  inext := R.inext
  ilen := R.ilen
  -- src/layout/variable_size_list.rs:168-170
  into self := R.into self.intoBuffer
  jnext := R.jnext
  jlen := R.jlen
  dflt := R.dflt
  -- src/layout/variable_size_list.rs:110-112
  empty := VariableSizeList.fromBuffer R.empty
  pulled := R.pulled
  -- src/layout/variable_size_list.rs:180-185
  withCap capacity := (R.withCap capacity).mapOk VariableSizeList.fromBuffer
  -- src/layout/variable_size_list.rs:132-134
  fromIter w iter := ((R.fromIter w iter).1.mapOk VariableSizeList.fromBuffer, (R.fromIter w iter).2)
  -- src/layout/variable_size_list.rs:187-192
  fromIterIn w iter := ((R.fromIterIn w iter).1.mapOk VariableSizeList.fromBuffer, (R.fromIterIn w iter).2)
  -- src/layout/variable_size_list.rs:194-200
  tryWithCap w capacity :=
    ((R.tryWithCap w capacity).1.mapOk VariableSizeList.fromBuffer, (R.tryWithCap w capacity).2)
  -- src/layout/variable_size_list.rs:202-211
  tryFromIter w iter := ((R.tryFromIter w iter).1.mapOk VariableSizeList.fromBuffer, (R.tryFromIter w iter).2)
  -- src/layout/variable_size_list.rs:121-123
  extend self iter :=
    let r := R.extend self.intoBuffer iter
    (VariableSizeList.fromBuffer r.1, r.2)
  -- src/layout/variable_size_list.rs:234-236
  reserve self additional :=
    let r := R.reserve self.intoBuffer additional
    (VariableSizeList.fromBuffer r.1, r.2)
  -- src/layout/variable_size_list.rs:223-225
  tryReserve w self additional :=
    let r := R.tryReserve w self.intoBuffer additional
    (VariableSizeList.fromBuffer r.1, r.2)
  -- src/layout/variable_size_list.rs:227-232
  tryExtend w self iter :=
    let r := R.tryExtend w self.intoBuffer iter
    (VariableSizeList.fromBuffer r.1, r.2)
  -- src/layout/variable_size_list.rs:238-240
  truncate self len :=
    let r := R.truncate self.intoBuffer len
    (VariableSizeList.fromBuffer r.1, r.2)

/-! ## The memory of an item type -/

/-- `Layout::Memory<Nulls, Storage>` and `ArrayItem::Memory<Storage>` with all the
newtypes in place (src/layout/mod.rs:101-136): each layout wraps the nullability
wrapper of its collection, and the child of a list is the memory of its items. -/
def memoryR : (nullable : Bool) → (t : Ty) → Realloc (ItemVal nullable (Val t))
  | nl, .bool => booleanR (nullR nl bitmapR)
  | nl, .prim p => fixedSizePrimitiveR (nullR nl (vecR p.lim 0#(8 * p.size)))
  | nl, .fsl n nl' t => fixedSizeListR (nullR nl (flattenR n (memoryR nl' t)))
  | nl, .vsl ow nl' t => variableSizeListR (nullR nl (offsetsR ow (memoryR nl' t)))

/-- `Array<T>` and `Array<Option<T>>` around that memory (src/array.rs:38). -/
def arrayTypeR (nullable : Bool) (t : Ty) : Realloc (ItemVal nullable (Val t)) :=
  arrayNewtypeR (memoryR nullable t)

end Narrow
