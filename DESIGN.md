# Formal model of narrow (Lean 4)

## Approach

`/repo` (crates `narrow` and `narrow-ffi`) is modelled function by function as
total, computable Lean functions. Properties are the lines of
`properties.jsonl`; each is one or more theorems, listed in `MANIFEST.json`.

* `lean/Verif/Model/`: the model. Every definition cites the file and lines it
  models and says where it simplifies.
* `lean/Verif/Spec/`: what the property statements are written in. `Reads.lean`
  (an array shows a list of items: `len`, `view`/`owned` at every index, both
  iterators), `Reach.lean` (the arrays safe code can build), `Uninterrupted.lean`,
  `History.lean` (call sequences and the plain-list reference), `Env.lean`
  (allocator and size-hint assumptions), `Bits.lean`, `Rows.lean`, `Parts.lean`,
  `Equal.lean`, `Compose.lean` and `Backend.lean` (all compositions of collections,
  over vectors and over storages of the user), `Handles.lean` (what a consumer does
  with exported structures), `Ffi.lean` (buffers in memory, the contract of `import`,
  malformed structures), `Arrow.lean` (a reader of the Arrow columnar format).
* `lean/Verif/Props/`: the property theorems, with examples meeting their
  hypotheses.
* `lean/Verif/Proof/`: supporting lemmas.
* `seeded/LOG.jsonl`: edits of the model that a realistic bug would make, and
  which theorems they break.

### Modelling conventions

* A panic is an explicit value (`Res.panic`, `Out.panic`). A function taking
  `&mut self` returns the new value together with its outcome, so the state
  left behind by a caught panic or a returned error is visible.
* `usize` values are `Nat`; every `strict_*`, `checked_*` and `saturating_*`
  operation of the code is written out against `usizeMax = 2^64 - 1`
  (64-bit target).
* `i32`/`i64` offsets are `Int` bounded by the type's maximum.
* Bytes are `BitVec 8`; fixed-size primitives are their bit patterns, little
  endian in memory. Rust's `==` on floats differs from equality of bit patterns;
  the equality theorems (C28) are about types whose `==` is equality.
* A source iterator is a list of events (`item a`, `none`, `panic`), so
  iterators that resume after `None` and panicking iterators are ordinary inputs.
  A source is a finite list: an infinite source never lets a call return.
* An allocator is an oracle answering each fallible request (refuse, or grant
  with an arbitrary amount of extra capacity); `Vec` keeps its capacity, so which
  calls reach the allocator is part of the model. Size hints are oracle answers
  too, and may lie.
* Infallible allocation (`Vec::push`, `extend`, `with_capacity`, ...) panics on
  capacity overflow and is otherwise assumed not to run out of memory (Rust
  aborts the process in that case). A single allocation holds at most
  `byteMax = 2^60` bytes (Rust's own limit is `2^63 - 1`; any smaller limit is
  what a real allocator has).
* Infallible `extend` does not consult the size hint in the model: the
  reservation it makes changes no contents, and overflowing it aborts or panics
  like any other capacity overflow.
* Collections form a dictionary of operations (`Coll`, `Realloc`) matching the
  traits `Collection`, `CollectionAllocIn`, `CollectionRealloc`. `Bitmap` and
  `Vec` are base instances; `Flatten`, `Validity`, `Offsets` are functions from
  instances to instances. A deep embedding `Ty` of item types selects the
  layout by recursion, so "for every item type" is a Lean quantifier.
* For the C Data Interface, memory is a partial function from addresses to
  bytes; reading outside it is the explicit outcome `Imp.ub` (undefined
  behaviour), and C35 proves that it does not occur under the documented
  contract. Structures are trees of values, and `Model/Raw.lean` reads them from
  bytes of memory, where they may be shared or cyclic (C73). What private data is
  still allocated is a separate state machine (`Model/Release.lean`).
* `Model/RawExport.lean` exports into bytes of memory and releases from them (C74).
  Blocks are put where an arbitrary allocator chooses, on free and aligned memory, or
  the process aborts. The compiler's layout of private data, the addresses of string
  literals and those of callbacks are arbitrary, as long as fields do not overlap
  and are aligned (`Provided`). Writing where there is no memory and freeing what is
  not an allocated block of that size are undefined behaviour. The exported array is
  opaque bytes; where its buffers are may depend on where it is. Children are
  dropped through the address of the callback that memory holds.

### How the proofs are organised

`Proof/Lawful.lean` states the laws of a collection (`LawfulColl`) and of a
growable collection (`LawfulR`) with respect to an invariant `Inv` and a list of
items `abs`. `Vec` and `Bitmap` satisfy them (`vecL`, `bitmapL`), and `Flatten`,
`Validity`, `Offsets` preserve them (`flattenL`, `validityL`, `offsetsL`), so they
hold for every item type by recursion on `Ty` (`arrayL`). Liveness (`LiveR`),
panic states (`Panic.lean`, `PanicFit.lean`), fusing (`Fuse.lean`), capacity
(`Capacity.lean`, `Room.lean`), overflow (`OffsetsOverflow.lean`) and leftovers (`Tight.lean`)
follow the same pattern. `Reach.lean` proves that every reachable array satisfies
the invariant. Import and export are proved by structural induction on `Ty`.

## Trusted base

* Lean 4.33.0's kernel.
* No axioms beyond those of Lean; no `sorry`, `admit`, `native_decide`,
  `bv_decide`, `implemented_by` or `unsafe`. Mathlib is not imported. The axioms
  of every theorem of the manifest, as printed by `#print axioms`, are listed at
  the end.
* That the Lean definitions transcribe the cited Rust lines, under the
  conventions above.
* That Rust's standard library behaves as documented where it is called (`Vec`,
  slices, iterator adapters, `str::parse`); the adapters whose intermediate state
  is visible (`Take`, `Skip`, `Zip`, `flatten`, `fuse`) are modelled.

## What is modelled and what is not

Modelled, by source file:

| Source | Model |
|--------|-------|
| `src/bitmap/mod.rs`, `packed.rs`, `unpacked.rs`, `validity.rs` | `Model/Bitmap.lean`, `Model/ValidityBitmap.lean` |
| `src/collection/mod.rs`, `vec.rs` | `Model/Base.lean`, `Model/Coll.lean` |
| `src/collection/{array,arc,rc,box,slice}.rs`, `src/buffer.rs`, `src/length.rs` | `Model/Storage.lean`, `Model/Boxed.lean` |
| `src/collection/{view,owned}.rs` | `Model/Items.lean`, `Model/Coll.lean` |
| `src/collection/flatten.rs` | `Model/Flatten.lean` |
| `src/validity.rs` | `Model/Validity.lean` |
| `src/offset.rs` | `Model/Offsets.lean`, `Model/Equality.lean`, `Model/RowEquality.lean`, `Model/ListItems.lean` |
| `src/layout/*.rs`, `src/array.rs`, `src/fixed_size.rs` | `Model/Layout.lean`, `Model/Newtypes.lean`, `Model/FixedArrays.lean` |
| `src/nullability.rs` | `Model/Layout.lean`, `Model/Nullability.lean` |
| `Bitmap`, `Validity`, `Offsets` and arrays over any storage | `Model/Backend.lean`, `Model/UserListItems.lean`, `Model/UserArrays.lean` |
| accessors of parts and conversions into parts, over any storage | `Model/Access.lean` |
| which allocator each storage is in | `Model/Alloc.lean` |
| `narrow-ffi/src/lib.rs` (structures, release, drop) | `Model/Ffi.lean`, `Model/Release.lean` |
| `narrow-ffi/src/export/*.rs` | `Model/Export.lean`, `Model/RawExport.lean` |
| `narrow-ffi/src/import/*.rs` | `Model/Import.lean`, `Model/Raw.lean` |
| `Debug` of collections, views and arrays | `Model/Debug.lean` |
| `Display` of all error types, `Error::source` | `Model/Messages.lean` |

Simplified:

* The layout structs and `Array` are newtypes forwarding each call to the wrapped
  collection. `Model/Layout.lean` identifies a newtype with what it wraps;
  `Model/Newtypes.lean` writes the forwarding out and C53 proves the two equal.
* The models of `Bitmap`, `Validity` and `Offsets` hold vectors, the only growable
  storage of the library. `Model/Backend.lean` models the same functions over any
  storage and any collection implementing the public traits; C56 is about these,
  and proves that with vectors the two models are the same. Constructing boxed
  storage is in `Model/Boxed.lean`, and reading is modelled for every storage of the
  library (C41). Which allocator each storage is in is
  modelled in `Model/Alloc.lean` (C64); what an allocator answers is the oracle's
  choice.
* Lists own `Vec<T>`, the default; `Model/ListItems.lean` models the calls that
  depend on this choice for every other item collection (C54).
* Infallible `extend` reserves by the source's size hint. In the model it grows item
  by item: a hint so large that reserving panics is the same as a source that
  panics there.
* Item types: `bool`, the sealed `FixedSize` types, `[T; N]`, `Vec<T>` and
  `Option` of these. `VariableSizeBinary` is an alias of the `u8` list layout.
* Panics inside `Clone` or `Default` of items do not occur for the sealed item
  types and are not modelled.

Not modelled:

* `Debug` output of errors and iterators, `{:#?}` and formatter flags; `Clone` of
  iterators (copies); `Hash`.
* Memory exhaustion in infallible allocation, which aborts the process.
* `narrow-derive` (empty crate).
* Concurrency: no type has interior mutability or threads, so there are no
  schedules beyond call sequences.

## Properties

| Id | Property | Modelled | Proved by | Status | Theorems |
|----|----|----|----|----|----|
| C01 | Collected bitmap reads back exactly the collected bits | `Bitmap` with byte buffer, bit count, offset; `BitPacked`; `BitUnpacked` | bits of the buffer as a list; prefix invariant through the two extension phases | proved | `C01_collect`, `C01_collect_returns` |
| C02 | Bitmap physical encoding is Arrow's least-significant-bit-first packing | `Bitmap` with byte buffer, bit count, offset; `BitPacked`; `BitUnpacked` | bits of the buffer as a list; prefix invariant through the two extension phases | proved | `C02_encoding` |
| C03 | Bitmap::try_from_parts accepts exactly the in-bounds parts and reads the addressed bits | `try_from_parts`, `into_parts`, `view` | arithmetic, iff | proved | `C03_accepts`, `C03_reads`, `C03_rejects` |
| C04 | Extending a bitmap appends, whatever the unused bits contain | `Bitmap` with byte buffer, bit count, offset; `BitPacked`; `BitUnpacked` | bits of the buffer as a list; prefix invariant through the two extension phases | proved | `C04_extend`, `C04_try_extend`, `C04_extend_returns` |
| C05 | Null-count queries ignore padding and agree with the bits | `count_ones` with its masks, `ValidityBitmap` | byte lemmas for every byte and mask, lifted to lists by induction | proved | `C05_null_queries` |
| C06 | Bit packing and unpacking adapters are inverse and report exact sizes | packed/unpacked state machines | induction over the source | proved | `C06_pack`, `C06_unpack`, `C06_unpack_pack`, `C06_pack_unpack` |
| C07 | Input is read up to the first end-of-iteration only | event streams | extension depends only on the events before the first `none`; what packing reads of a source that resumes, by recursion over its bytes (`Spec/FirstNone.lean`) | partial | `C07_extend`, `C07_try_extend`, `C07_collect_partial`, `C07_bool_reads_past_none`, `C07_option_bool_reads_past_none`, `C07_bool_collect_exact`, `C07_option_bool_collect_exact`, `C07_bool_collect_partial` |
| C08 | Collect round-trip for every array item type | every layout via `Ty` | laws proved for each combinator, recursion on `Ty` | proved | `C08_collect_round_trip`, `C08_collect_returns`, `C08_collect_list` |
| C09 | Out-of-range reads return None | all `view` functions | law for types whose outermost layout is not a fixed-size list; witnesses | partial | `C09_out_of_range_none_partial`, `C09_fixed_size_list_panics`, `C09_list_panics_at_max`, `C09_any_storage`, `C09_storages` |
| C10 | extend appends and preserves existing items | every layout via `Ty` | laws proved for each combinator, recursion on `Ty` | proved | `C10_extend_appends`, `C10_extend_returns` |
| C11 | truncate keeps exactly the first items | every layout via `Ty` | laws proved for each combinator, recursion on `Ty` | proved | `C11_truncate` |
| C12 | try_extend is all-or-nothing under allocation failure | `try_extend` of every combinator with the allocator oracle | rollback law | proved | `C12_try_extend_all_or_nothing`, `C12_try_extend_succeeds` |
| C13 | Reserving never changes contents | every layout via `Ty` | laws proved for each combinator, recursion on `Ty` | proved | `C13_reserve`, `C13_try_reserve`, `C13_reserve_returns`, `C13_try_reserve_succeeds` |
| C14 | Successful try_reserve(n) makes room for n items | capacities | capacity law for types without lists | proved | `C14_try_reserve_makes_room`, `C14_in_several_calls`, `C14_lists_excluded` |
| C15 | Any operation history behaves like a plain vector of items | every layout via `Ty` | laws proved for each combinator, recursion on `Ty` | proved | `C15_histories`, `C15_histories_empty`, `C15_histories_exact` |
| C16 | A panicking source iterator never corrupts a collection | event streams with panics | panic law per combinator; for the types where it fails, a weaker law: readable by reference and repaired by truncation; which types fail, and how many items stay otherwise, by induction on the type; witnesses | partial | `C16_extend_panic_partial`, `C16_extend_source_panic_partial`, `C16_try_extend_source_panic_partial`, `C16_try_extend_panic_partial`, `C16_seen_after_panic_partial`, `C16_seen_after_try_panic_partial`, `C16_shown_after_panic_partial`, `C16_shown_after_try_panic_partial`, `C16_nullable_breaks`, `C16_dropping_mends_partial`, `C16_truncate_mends_partial`, `C16_truncate_mends_try_partial`, `C16_fixed_size_list_breaks`, `C16_fixed_size_list_try_extend_breaks`, `C16_consuming_panics`, `C16_truncate_to_length_does_not_mend`, `C16_truncate_may_not_mend`, `C16_try_extend_keeps_partial`, `C16_fixed_size_lists_split`, `C16_grown_flags_split` |
| C17 | Iterators report their exact remaining length at every step | every layout via `Ty` | laws proved for each combinator, recursion on `Ty` | proved | `C17_iterators_exact` |
| C18 | All constructors agree | every layout via `Ty` | laws proved for each combinator, recursion on `Ty` | proved | `C18_constructors_agree`, `C18_empty`, `C18_constructors_succeed` |
| C19 | Validity::try_from_parts accepts exactly equal lengths | `Validity` | laws specific to `Validity` | proved | `C19_accepts`, `C19_reads`, `C19_rejects`, `C19_from_collection` |
| C20 | Null slots hold defaults and keep positions aligned | `Validity` | laws specific to `Validity` | proved | `C20_default_values`, `C20_null_slots_default` |
| C21 | Materialising an omitted bitmap preserves validity | `Validity` | laws specific to `Validity` | proved | `C21_reserve_materializes`, `C21_try_reserve_materializes`, `C21_extend`, `C21_try_extend` |
| C22 | Uncommitted values are never visible | `Validity` | laws specific to `Validity` | proved | `C22_uncommitted_invisible`, `C22_extend_discards`, `C22_try_extend_discards` |
| C23 | Offsets::try_from_parts accepts exactly valid offset buffers | `Offsets`, `OffsetView` | running totals invariant | proved | `C23_accepts`, `C23_rejects`, `C23_violation_unique` |
| C24 | Accepted offsets address contiguous in-bounds slices | `Offsets`, `OffsetView` | running totals invariant | proved | `C24_slices` |
| C25 | Collected lists are encoded as running totals over contiguous data | `Offsets`, `OffsetView` | running totals invariant | proved | `C25_collect`, `C25_histories` |
| C26 | Offset overflow is detected, never wrapped | `Offsets`, `OffsetView` | running totals invariant | proved | `C26_extend_never_wraps`, `C26_extend_keeps`, `C26_try_extend_err`, `C26_succeeds` |
| C27 | Unreferenced trailing child data is dropped before appending | `Offsets`, `OffsetView` | running totals invariant | proved | `C27_extend`, `C27_try_extend` |
| C28 | List views behave as the list they denote | `Offsets`, `OffsetView` | running totals invariant | partial | `C28_view_reads`, `C28_view_past_end`, `C28_equals_array`, `C28_equals_view`, `C28_same_iff` |
| C29 | Flatten::try_from_parts accepts exactly whole groups | `Flatten` | arithmetic; witness | proved | `C29_accepts`, `C29_groups`, `C29_rejects` |
| C30 | Zero-width fixed-size lists cannot be constructed | `Flatten` | arithmetic; witness | partial | `C30_try_from_parts_partial`, `C30_zero_width_constructible`, `C30_zero_width_unusable` |
| C31 | Export then import gives back the same array | export over placed buffers | structural induction on `Ty` | proved | `C31_round_trip`, `C31_meets_contract`, `C31_uncommitted_fails` |
| C32 | Export rejects every non-zero bit offset and nothing else | export over placed buffers | structural induction on `Ty` | proved | `C32_iff`, `C32_succeeds`, `C32_fails` |
| C33 | Exported metadata describes the array | export over placed buffers | structural induction on `Ty` | proved | `C33_describes`, `C33_widths` |
| C34 | Export and import copy no buffers | export over placed buffers | structural induction on `Ty` | proved | `C34_export_points`, `C34_import_borrows` |
| C35 | Successfully imported arrays satisfy all invariants | import over arbitrary structures and memory | structural induction on `Ty`; a declarative list of defects | proved | `C35_import_returns`, `C35_imported_is_valid` |
| C36 | Import rejects malformed metadata with the documented error | import over arbitrary structures and memory | structural induction on `Ty`; a declarative list of defects | proved | `C36_accepts_iff`, `C36_error_is_defect`, `C36_reports`, `C36_header`, `C36_released`, `C36_default` |
| C37 | Import is type-safe with respect to export | import over arbitrary structures and memory | structural induction on `Ty`; a declarative list of defects | proved | `C37_same_type`, `C37_schema_decides` |
| C38 | Fixed-size-list width is printed and parsed faithfully | import over arbitrary structures and memory | structural induction on `Ty`; a declarative list of defects | proved | `C38_accepts_iff`, `C38_round_trip`, `C38_no_wrap`, `C38_canonical` |
| C39 | Declared null counts are verified | import over arbitrary structures and memory | structural induction on `Ty`; a declarative list of defects | partial | `C39_known_count`, `C39_unknown_count`, `C39_non_nullable_partial`, `C39_null_becomes_value`, `C39_bitmap_ignored` |
| C40 | Exported memory is released exactly once and not earlier | heap of allocations, release callbacks | invariant over release histories | proved | `C40_owned`, `C40_failed`, `C40_moved_child_dangles` |
| C41 | Reading does not depend on the storage backend | slice storage, `SliceIntoIter` | state machine equivalence | proved | `C41_slice_into_iter`, `C41_storage`, `C41_arrays` |
| C42 | An Arrow consumer reads an exported array as its items | export, import | an independent reader of the Arrow format (`Spec/Arrow.lean`); induction on `Ty` | proved | `C42_export_denotes`, `C42_denotes_unique` |
| C43 | An imported array shows what the structures denote | export, import | an independent reader of the Arrow format (`Spec/Arrow.lean`); induction on `Ty` | proved | `C43_import_denotes`, `C42_denotes_unique` |
| C44 | Arrays built by calls that return always survive the C Data Interface | construction histories without caught panics | `TightR` laws per combinator | proved | `C44_round_trip`, `C44_exported_imports`, `C44_committed`, `C44_zero_offsets`, `C44_interrupted_fails` |
| C45 | Taking a collection apart and putting it together gives the same collection | construction histories without caught panics | `TightR` laws per combinator | proved | `C45_bitmap`, `C45_fixed_size_list`, `C45_list`, `C45_nullable`, `C45_interrupted_fails` |
| C46 | Fallible calls return instead of panicking | every fallible constructor and mutator, allocator oracle | no-panic law per combinator, recursion on `Ty` | proved | `C46_try_with_capacity`, `C46_try_from_iter`, `C46_try_extend`, `C46_try_reserve` |
| C47 | Imported arrays can be exported again | import followed by export | imported arrays are built by safe constructors over borrowed buffers; C33, C34, C42, C44 | proved | `C47_imported`, `C47_reexport` |
| C48 | Collecting into boxed storage gives the same array | constructors of `Box<[T]>`, bitmaps and grouping over it, allocator oracle | boxed constructors are the growable ones followed by a shrink, recursion on `Ty` | proved | `C48_collect`, `C48_collect_returns`, `C48_same_as_vec`, `C48_with_capacity` |
| C49 | Fallible construction in boxed storage reports refused memory as an error | constructors of `Box<[T]>`, bitmaps and grouping over it, allocator oracle | boxed constructors are the growable ones followed by a shrink, recursion on `Ty` | partial | `C49_try_with_capacity`, `C49_refused_is_error`, `C49_try_from_iter_partial`, `C49_shrink_refused` |
| C50 | Item combinators propagate nulls | `Nullability` combinators | case analysis, functions that may panic | proved | `C50_map`, `C50_zip`, `C50_zip_with` |
| C51 | is_empty agrees with the items | `is_empty` | from C41 | proved | `C51_is_empty`, `C51_storage_is_empty` |
| C52 | Collections compose in any order | Every nesting of the five collection records (`Comp`), the histories of calls that build one and the list they build (`Built`), sizes that fit (`CFits`). | Induction over the composition for the laws, then over the history. | proved | `C52_built_reads`, `C52_truncate_returns`, `C52_fallible_calls_return`, `C52_seen_after_panic`, `C52_mends_after_panic`, `C52_any_item_clears`, `C52_mends_after_try_panic`, `C52_collect_returns`, `C52_extend_returns`, `C52_reserve_returns`, `C52_try_calls_succeed` |
| C53 | Arrays and layouts behave as the collections they wrap | The five newtypes with each forwarded call written out (`Model/Newtypes.lean`), composed as the code composes them (`arrayTypeR`). | Record equality per newtype, recursion on `Ty`. | proved | `C53_newtypes_forward`, `C53_arrays_forward`, `C53_collect_extend_truncate`, `C53_buffers` |
| C54 | Lists take and return items of any collection type | The calls of `Offsets` that mention its owned item type, for an arbitrary item collection (`Model/ListItems.lean`). | The calls are shown equal to those with `Vec` items showing the same lists (`SameRows`); reading back from the laws of the item collection; items of which a call panics (`Unreadable`) by splitting the loops at the item. | proved | `C54_same_as_vec`, `C54_extend_appends`, `C54_try_extend_appends`, `C54_collect`, `C54_item_read`, `C54_reads`, `C54_unreadable_item`, `C54_unreadable_item_try`, `C54_unreadable_collect`, `C54_runs_same`, `C54_reserving_makes_room` |
| C55 | Every reserving call makes room, for lists too | The four reserving calls, with the items a number covers (`Spec/Room.lean`). | Room as a list of items that can still be appended (`HoldsR`), kept by every wrapper; induction over the calls that use it. | proved | `C55_reserving_makes_room`, `C55_composed`, `C55_covers_any`, `C55_no_more_room` |
| C56 | Storages and collections written by users | The functions of `Bitmap`, `Validity` and `Offsets` again, with every buffer access through the operations of an arbitrary storage (`Model/Backend.lean`); the contract of the traits is `Spec/Backend.lean`. | Types keeping the contract are lawful; each wrapper keeps lawfulness; induction over histories (`sbuilt_inv`). | proved | `C56_built_reads`, `C56_truncate_returns`, `C56_fallible_calls_return`, `C56_panics_propagate`, `C56_stops_at_none`, `C56_storages_stay_good`, `C56_bitmap_parts`, `C56_validity_parts`, `C56_offsets_parts`, `C56_list_views`, `C56_vec_same`, `C56_vec` |
| C57 | Exported structures and their children may be released and moved in any order | consumers holding structures, with release and move at any path; the release callbacks | conservation: freed plus still held memory never changes; induction on paths and actions | proved | `C57_memory` |
| C58 | Collections that cannot grow | The reading side of all layouts over arbitrary collections and storages; compositions are `RComp` (`Spec/ReadOnly.lean`). | Types keeping the contract are lawful, each layout keeps lawfulness; induction over the way the parts were put together (`rbuilt_inv`). | proved | `C58_reads`, `C58_keeps_contract`, `C58_bitmap_parts`, `C58_flatten_parts`, `C58_validity_parts`, `C58_offsets_parts`, `C58_storages` |
| C59 | Validity queries of every implementation | The provided methods of the trait over what an implementation answers (`Model/ValidityBitmap.lean`). | Bit counting is correct for every offset (C05); `Validity` is consistent by its invariant. | proved | `C59_queries`, `C59_short_bitmap`, `C59_parts`, `C59_built`, `C59_same` |
| C60 | A list view equals a collection exactly if it holds the same items | `RowView.eq` over two arbitrary collections, with the comparison of item views as a parameter | a view that converts into a list shows that list; the two iterators are walked together by induction on the items | proved | `C60_view_reads`, `C60_compares`, `C60_equals`, `C60_nested`, `C60_nullable` |
| C61 | Plain memory shows its items, whatever the item type | `Item`, an item type with `as_view` and `into_owned` that may panic; `Store.collOf` and `vecOf`, the storages over it | both iterators are followed step by step; vectors inherit the growing calls of C56 and the room of C55 | proved | `C61_shows`, `C61_reads`, `C61_items`, `C61_clones`, `C61_read_only`, `C61_vec`, `C61_vec_room` |
| C62 | A clone is an equal, independent collection | `clone` of `Vec`, `Bitmap`, `Flatten`, as a call of C52 | the invariant of C52 is kept | proved | `C62_clone_reads`, `C62_clone_diverges`, `C62_clone_extends`, `C62_bitmap_parts` |
| C63 | A caught panic leaves a composition over user storages readable | The same functions as C56; `Survives` in `Spec/Backend.lean` is what a storage promises about its own panics, and histories (`SBuilt`) include caught panics. | The loops of each wrapper leave its invariant, or a state that reads like it, at every panic point (`Proof/BackendPanic.lean`); recursion over the composition. | proved | `C63_seen_after_panic`, `C63_seen_after_try_panic`, `C63_shown_after_panic`, `C63_shown_after_try_panic`, `C63_consuming_panics`, `C63_usable_after_panic`, `C63_usable_after_try_panic`, `C63_dropping_mends`, `C63_truncate_mends`, `C63_truncate_mends_try`, `C63_vec` |
| C64 | Nested collections stay in the allocator they were given | `Model/Alloc.lean`: the functions of C56 with the allocator as an argument; `places` in `Spec/Alloc.lean` lists the allocators of all storages inside of a collection | each layout keeps a predicate on the allocators of its parts; recursion over the composition and over histories | proved | `C64_storages_in_given_allocators`, `C64_constructors`, `C64_calls_move_nothing`, `C64_allocator`, `C64_allocator_is_given`, `C64_built_reads`, `C64_calls_return`, `C64_one_allocator`, `C64_with_capacity`, `C64_vec` |
| C65 | Storages of fixed capacity can be filled to the last slot | The same functions as C56; `Holds` in `Spec/Spare.lean` is what a storage promises, `Room` and `Spare` count items, bytes and offsets per nesting | each layout keeps an exact form (no unused bytes or items) when growing, and forwards only calls that fit (`Proof/Spare*.lean`); recursion over the composition and over histories | proved | `C65_extend_returns`, `C65_reserve_returns`, `C65_collect_returns`, `C65_collect_in_returns`, `C65_with_capacity_returns`, `C65_try_extend_succeeds`, `C65_try_reserve_succeeds`, `C65_try_constructors_succeed`, `C65_room_is_spare`, `C65_list_room`, `C65_vec`, `C65_dropped_bits_occupy`, `C65_dropped_lists_occupy` |
| C66 | Messages identify errors | `Model/Messages.lean`: each `write!` as a list of literal pieces and numbers | without digits, the messages of different kinds differ; numbers are set apart by a character that is no digit, so equal messages have equal numbers | proved | `C66_bitmap_errors`, `C66_validity_errors`, `C66_flatten_errors`, `C66_offsets_errors`, `C66_export_errors`, `C66_import_errors`, `C66_numbers`, `C66_ffi_numbers`, `C66_source`, `C66_printable` |
| C67 | Collections in fixed-capacity storages can be emptied and refilled | The same functions as C56; `Fitting` and `Limits` in `Spec/Refill.lean` count items, bytes and offsets per nesting | each layout keeps a form in which bitmaps begin at the first bit, and the values and offsets are those of the items (`sloose`), and extending brings it into a form whose items fit (`sfirm`), by recursion over the composition and over histories (`Proof/Refill.lean`) | proved | `C67_try_extend_exact`, `C67_extend_fits`, `C67_extend_exact`, `C67_clear_refill`, `C67_replace`, `C67_collect_fits`, `C67_room_fits`, `C67_vec`, `C67_skipped_bits_occupy` |
| C68 | The accessors of a collection show Arrow's layout at every level | the accessors, `Encoded` and `EncodedExactly` over the compositions of C56 | the invariants of C56 and C67 are unfolded level by level; the encoding determines the items by induction on the composition | proved | `C68_encoded`, `C68_encoded_exactly`, `C68_same_parts`, `C68_bitmap_parts`, `C68_flatten_parts`, `C68_offsets_parts`, `C68_validity_parts`, `C68_validity_returned` |
| C69 | Debug output identifies collections and arrays | `Model/Debug.lean`: the builders of `core::fmt` without flags, and each `fmt` with them; `Tells` in `Spec/Debug.lean` says that a text tells the value whatever follows | a value's text ends before the first character that may follow it, so texts are read from left to right; recursion over the composition and over item types (`Proof/Debug.lean`) | proved | `C69_bitmap_text`, `C69_flatten_text`, `C69_validity_text`, `C69_offsets_text`, `C69_view_text`, `C69_view_tells`, `C69_same_text`, `C69_text_tells`, `C69_text_tells_inside`, `C69_vec`, `C69_items`, `C69_array_tells`, `C69_array_text` |
| C70 | Arrays behave the same in every storage, also those written by users | `Model/UserArrays.lean`: `Array<T, Storage>` and its memory for a family of storages, through the newtypes of C53 | by recursion over item types, an array is a composition of C56 whose storages are sound; histories are translated; for `VecBuffer` the simulation of C56 is applied at each layout | proved | `C70_array_composition`, `C70_reads`, `C70_collect_extend_truncate`, `C70_try_extend`, `C70_storage_invisible`, `C70_vec_same` |
| C71 | Fixed-size values and views of groups give access to their elements | `Model/FixedArrays.lean`: `FixedSizeArray` as the bit pattern that arrays of C08 hold, with its conversions, equality and order; views of groups | arithmetic on bit patterns (`Proof/FixedArrays.lean`); collecting is C08; views through the invariant of C56 | proved | `C71_round_trip`, `C71_bytes`, `C71_default`, `C71_eq`, `C71_order`, `C71_collect`, `C71_group_view`, `C71_list_view_clone` |
| C72 | Lists of any item type in storages written by users | `Model/UserListItems.lean`: the calls of `Offsets` that mention its item type, with any offsets storage as in `Model/Backend.lean` and any item type as in `Model/ListItems.lean`. | equal to the calls with `Vec` items of C56; reading from the laws of C56 and C58 (`Proof/UserListItems.lean`); items that cannot be read by splitting the loops; reserving from C76 | proved | `C72_same_as_vec`, `C72_extend_appends`, `C72_try_extend_appends`, `C72_collect`, `C72_unreadable_item`, `C72_unreadable_item_try`, `C72_unreadable_collect`, `C72_item_read`, `C72_reads`, `C72_parts_read`, `C72_runs_same`, `C72_reserving_makes_room`, `C72_reserve_truncate` |
| C73 | Import reads structures from memory as C lays them out, and survives cycles | `Model/Raw.lean`: `import` reading every field, table and string from bytes of memory; `ArrayAt` and `SchemaAt` in `Spec/Raw.lean` say which structures memory holds, from the C declarations | each reader returns the field that memory holds; induction on the item type shows that the import from memory is the import of the structures (`Proof/Raw.lean`). Cycles: every structure on the way to the innermost child of an accepted one declares one child and the innermost declares none, which a path through a cycle cannot | proved | `C73_imports_structures`, `C73_outcome`, `C73_round_trip`, `C73_no_cycles` |
| C74 | Export writes structures into memory as C lays them out, and release frees exactly them | `Model/RawExport.lean`: `export` and the release callbacks writing to and reading from bytes of memory, with an arbitrary allocator, layout of private data and place of the array; `Provided`, `Owned`, `Handed`, `Released` in `Spec/RawExport.lean` | induction on the item type over a record of what each call adds to memory (`Proof/RawExport.lean`): the structures that memory holds then, that a release frees exactly that, and that the outcome is the one of `Model/Export.lean` | proved | `C74_structures`, `C74_aligned`, `C74_outcome`, `C74_failed`, `C74_round_trip`, `C74_release`, `C74_release_once`, `C74_default`, `C74_drop_releases`, `C74_array_outlives_schema`, `C74_schema_outlives_array` |
| C75 | Any interleaving of exports, moves, child moves and releases is safe, keeps what is not released, and leaks nothing | `Spec/Session.lean`: histories of exports (`Raw.exportAt`), drops (`Raw.dropArray`, `Raw.dropSchema`), moves, children taken out or released in place, and other allocations over one memory | an invariant over histories (`Proof/Session.lean`): memory is that of the rest of the program and, disjoint from it and from each other, one region for each structure the consumer has, which is all its release depends on (from the records of C74); a structure comes with a chain (`Chain`) of its descendants, and taking one out divides its region; what describes an array describes its children (`Proof/Part.lean`) | proved | `C75_drop`, `C75_export`, `C75_array_stays`, `C75_schema_stays`, `C75_array_part_stays`, `C75_schema_part_stays`, `C75_take`, `C75_release_child`, `C75_import`, `C75_import_part`, `C75_import_child`, `C75_child_dangles`, `C75_once`, `C75_others`, `C75_no_leak` |
| C76 | Reserving makes room in collections over storages written by users | `Spec/UserRoom.lean`: `MakesRoom`, the contract of reserving calls, and `SCovers`, what a number covers | a record of the room in each combinator, built from the rooms of its parts (`Proof/UserRoom.lean`), by induction on the composition | proved | `C76_reserving_makes_room`, `C76_room_for_any`, `C76_vec`, `C76_array` |
| C77 | Structures of any producer that follow the Arrow format are imported with their items unless they use a named unsupported feature | `Spec/Conforms.lean`: `Conforms`, the Arrow format written from its specification, and `Unsupported`, what it allows and the importer does not take; the importer is that of C35 | structures that follow the format are safe to read, and a defect of C36 in them is one of the unsupported features, by induction on the defect (`Proof/Conforms.lean`); that exports follow the format is from C33, C34 and the array in memory, by induction on the item type (`Proof/Exported.lean`) | proved | `C77_accepts_iff`, `C77_returns`, `C77_items`, `C77_exported` |

## Where the code falls short of the property

Each is proved with a concrete witness; the property's theorems that do hold are
kept beside it.

* C07: collecting `Array<bool>` and `Array<Option<bool>>` reads past the first
  `None` of a source that resumes (`Bitmap::from_iter` and its siblings do not
  fuse): `C07_bool_reads_past_none`, `C07_option_bool_reads_past_none`. Only every
  eighth call is checked for `None`, and a `None` in between shifts no later item:
  `C07_bool_collect_exact`, `C07_option_bool_collect_exact`.
* C09: `Flatten::view` panics for every index past the end instead of returning
  `None`; `Offsets::view(usize::MAX)` panics: `C09_fixed_size_list_panics`,
  `C09_list_panics_at_max`. A list view panics when start plus index overflows:
  `C28_view_past_end`.
* C14: `try_reserve(n)` on lists reserves `n` child items, not the space the
  lists will need: `C14_lists_excluded`.
* C16: after a caught panic of the source, a fixed-size list array of booleans or
  of nullable items can hold a broken number of child items:
  `C16_fixed_size_list_breaks`, `C16_fixed_size_list_try_extend_breaks`. Reading by
  reference does not show the damage (`C16_seen_after_panic_partial`); truncating
  to less than the reported length repairs it (`C16_truncate_mends_partial`),
  truncating to the reported length does not
  (`C16_truncate_to_length_does_not_mend`).
  Consuming the array before the repair yields every item it shows and panics when asked
  for more (`C16_seen_after_panic_partial`, `C16_consuming_panics`); it does so only if the
  items are fixed-size lists that cannot be null (`C16_shown_after_panic_partial`). An array
  of optional fixed-size lists reads and is consumed as before, and still gives a wrong item
  when it grows again (`C16_nullable_breaks`). Where fixed-size
  lists lie within variable-size lists, the truncation repairs when an item that it
  drops contains a fixed-size list (`C16_dropping_mends_partial`); dropping only empty
  lists need not (`C16_truncate_may_not_mend`).
  The item types concerned: fixed-size lists of more than one boolean, and of nullable
  items in numbers that neither divide 1024 nor are multiples of it, nesting multiplied
  out (`C16_fixed_size_lists_split`). The others are safe, and of `n` yielded items
  `⌊n·w/1024⌋·1024/w` stay if nullable (`C16_try_extend_keeps_partial`). An array that was
  built through its own growing calls survives as well if the number of booleans per item
  divides 8 or is a multiple of it (`C16_extend_source_panic_partial`); for every other
  number, one item and two yielded ones are enough to damage it (`C16_grown_flags_split`).
* C30: every constructor but `try_from_parts` produces fixed-size lists of width
  zero, on which `len` and iteration panic: `C30_zero_width_constructible`,
  `C30_zero_width_unusable`.
* C31: after a caught panic a nullable fixed-size list can hold values beyond its
  last validity bit; it is exported with a child that is too long, which the
  importer rejects (an Arrow consumer still reads it correctly, C42):
  `C31_uncommitted_fails`. C44 proves that this is the only way.
* C39: importing as a non-nullable type ignores the validity bitmap when the null
  count is 0 or unknown, so a null becomes a value: `C39_null_becomes_value`.
* C40: a child moved out of a structure, as the C Data Interface allows, is freed
  with its parent: `C40_moved_child_dangles`; in memory, importing such a child is undefined behaviour: `C75_child_dangles`.
* C45: parts of a nullable collection after a caught panic are rejected by
  `try_from_parts`: `C45_interrupted_fails`.
* C49: `try_from_iter_in` for boxed storage shrinks the finished `Vec` with
  `into_boxed_slice`, which does not return if the allocator refuses the smaller
  block: `C49_shrink_refused`.
* C65: `reserve` of a bitmap counts from the bytes of its storage, which include those
  of dropped bits. In a storage of fixed capacity `reserve` and `try_reserve` can
  therefore fail although the bits fit, and `extend` of lists of flags or nullable
  items, which reserves for each list, panics where `try_extend` succeeds:
  `C65_dropped_bits_occupy`, `C65_dropped_lists_occupy`.

The Arrow format allows more than the importer takes; C77 lists all of it
(`Unsupported` in `Spec/Conforms.lean`). Examples are a zero-length list array whose
offsets buffer is null, and a missing validity buffer with unknown null count and
positive length.

Observed while modelling, without a property of their own: the importer accepts
`+w:002`. Collecting with an
exaggerated size hint can panic (capacity overflow), so liveness theorems assume
hints that do not exaggerate (`TightHints`).

## Axioms of the theorems

Axioms: Classical.choice, Quot.sound, propext.

`C01_collect`, `C01_collect_returns`, `C02_encoding`, `C03_reads`, `C04_extend`, `C04_extend_returns`, `C04_try_extend`, `C05_null_queries`, `C06_pack`, `C06_unpack`, `C07_bool_collect_exact`, `C07_bool_collect_partial`, `C07_bool_reads_past_none`, `C07_collect_partial`, `C07_extend`, `C07_option_bool_collect_exact`, `C07_option_bool_reads_past_none`, `C07_try_extend`, `C08_collect_list`, `C08_collect_returns`, `C08_collect_round_trip`, `C09_any_storage`, `C09_fixed_size_list_panics`, `C09_out_of_range_none_partial`, `C10_extend_appends`, `C10_extend_returns`, `C11_truncate`, `C12_try_extend_all_or_nothing`, `C12_try_extend_succeeds`, `C13_reserve`, `C13_reserve_returns`, `C13_try_reserve`, `C13_try_reserve_succeeds`, `C14_in_several_calls`, `C14_try_reserve_makes_room`, `C15_histories`, `C15_histories_empty`, `C15_histories_exact`, `C16_consuming_panics`, `C16_dropping_mends_partial`, `C16_extend_panic_partial`, `C16_extend_source_panic_partial`, `C16_fixed_size_list_breaks`, `C16_fixed_size_list_try_extend_breaks`, `C16_fixed_size_lists_split`, `C16_grown_flags_split`, `C16_nullable_breaks`, `C16_seen_after_panic_partial`, `C16_seen_after_try_panic_partial`, `C16_shown_after_panic_partial`, `C16_shown_after_try_panic_partial`, `C16_truncate_may_not_mend`, `C16_truncate_mends_partial`, `C16_truncate_mends_try_partial`, `C16_truncate_to_length_does_not_mend`, `C16_try_extend_keeps_partial`, `C16_try_extend_panic_partial`, `C16_try_extend_source_panic_partial`, `C17_iterators_exact`, `C18_constructors_agree`, `C18_constructors_succeed`, `C18_empty`, `C19_accepts`, `C19_from_collection`, `C19_reads`, `C19_rejects`, `C20_null_slots_default`, `C21_extend`, `C21_reserve_materializes`, `C21_try_extend`, `C21_try_reserve_materializes`, `C22_extend_discards`, `C22_try_extend_discards`, `C22_uncommitted_invisible`, `C23_accepts`, `C23_rejects`, `C24_slices`, `C25_collect`, `C25_histories`, `C26_extend_keeps`, `C26_extend_never_wraps`, `C26_succeeds`, `C26_try_extend_err`, `C27_extend`, `C27_try_extend`, `C28_equals_array`, `C28_equals_view`, `C28_same_iff`, `C28_view_past_end`, `C28_view_reads`, `C29_accepts`, `C29_groups`, `C29_rejects`, `C30_try_from_parts_partial`, `C30_zero_width_constructible`, `C31_meets_contract`, `C31_round_trip`, `C31_uncommitted_fails`, `C32_fails`, `C32_iff`, `C32_succeeds`, `C33_describes`, `C33_widths`, `C34_export_points`, `C34_import_borrows`, `C35_import_returns`, `C35_imported_is_valid`, `C36_accepts_iff`, `C36_default`, `C36_error_is_defect`, `C36_header`, `C36_released`, `C36_reports`, `C37_same_type`, `C37_schema_decides`, `C38_accepts_iff`, `C38_canonical`, `C38_no_wrap`, `C38_round_trip`, `C39_bitmap_ignored`, `C39_known_count`, `C39_non_nullable_partial`, `C39_null_becomes_value`, `C39_unknown_count`, `C40_failed`, `C40_moved_child_dangles`, `C40_owned`, `C41_arrays`, `C42_export_denotes`, `C43_import_denotes`, `C44_committed`, `C44_exported_imports`, `C44_interrupted_fails`, `C44_round_trip`, `C44_zero_offsets`, `C45_bitmap`, `C45_fixed_size_list`, `C45_interrupted_fails`, `C45_list`, `C45_nullable`, `C46_try_extend`, `C46_try_from_iter`, `C46_try_reserve`, `C46_try_with_capacity`, `C47_imported`, `C47_reexport`, `C48_collect`, `C48_collect_returns`, `C48_same_as_vec`, `C48_with_capacity`, `C49_refused_is_error`, `C49_try_from_iter_partial`, `C49_try_with_capacity`, `C51_is_empty`, `C52_any_item_clears`, `C52_built_reads`, `C52_collect_returns`, `C52_extend_returns`, `C52_fallible_calls_return`, `C52_mends_after_panic`, `C52_mends_after_try_panic`, `C52_reserve_returns`, `C52_seen_after_panic`, `C52_truncate_returns`, `C52_try_calls_succeed`, `C53_collect_extend_truncate`, `C54_item_read`, `C54_reads`, `C54_reserving_makes_room`, `C54_unreadable_collect`, `C54_unreadable_item`, `C54_unreadable_item_try`, `C55_composed`, `C55_reserving_makes_room`, `C56_built_reads`, `C56_fallible_calls_return`, `C56_list_views`, `C56_offsets_parts`, `C56_panics_propagate`, `C56_stops_at_none`, `C56_storages_stay_good`, `C56_truncate_returns`, `C56_validity_parts`, `C56_vec`, `C57_memory`, `C58_flatten_parts`, `C58_keeps_contract`, `C58_offsets_parts`, `C58_reads`, `C58_validity_parts`, `C59_built`, `C59_parts`, `C59_queries`, `C60_equals`, `C60_nested`, `C61_clones`, `C61_vec`, `C61_vec_room`, `C62_clone_diverges`, `C62_clone_extends`, `C62_clone_reads`, `C63_dropping_mends`, `C63_seen_after_panic`, `C63_seen_after_try_panic`, `C63_shown_after_panic`, `C63_shown_after_try_panic`, `C63_truncate_mends`, `C63_truncate_mends_try`, `C63_usable_after_panic`, `C63_usable_after_try_panic`, `C63_vec`, `C64_allocator_is_given`, `C64_built_reads`, `C64_calls_move_nothing`, `C64_calls_return`, `C64_constructors`, `C64_storages_in_given_allocators`, `C64_vec`, `C65_collect_in_returns`, `C65_collect_returns`, `C65_dropped_lists_occupy`, `C65_extend_returns`, `C65_list_room`, `C65_reserve_returns`, `C65_try_constructors_succeed`, `C65_try_extend_succeeds`, `C65_try_reserve_succeeds`, `C65_vec`, `C65_with_capacity_returns`, `C66_bitmap_errors`, `C66_export_errors`, `C66_ffi_numbers`, `C66_flatten_errors`, `C66_import_errors`, `C66_numbers`, `C66_offsets_errors`, `C66_printable`, `C66_source`, `C66_validity_errors`, `C67_clear_refill`, `C67_collect_fits`, `C67_extend_exact`, `C67_extend_fits`, `C67_replace`, `C67_try_extend_exact`, `C68_bitmap_parts`, `C68_encoded`, `C68_encoded_exactly`, `C68_flatten_parts`, `C68_offsets_parts`, `C68_same_parts`, `C68_validity_parts`, `C68_validity_returned`, `C69_array_tells`, `C69_array_text`, `C69_bitmap_text`, `C69_flatten_text`, `C69_items`, `C69_offsets_text`, `C69_same_text`, `C69_text_tells`, `C69_text_tells_inside`, `C69_validity_text`, `C69_vec`, `C69_view_tells`, `C69_view_text`, `C70_collect_extend_truncate`, `C70_reads`, `C70_storage_invisible`, `C70_try_extend`, `C71_collect`, `C71_group_view`, `C71_list_view_clone`, `C71_order`, `C72_item_read`, `C72_parts_read`, `C72_reads`, `C72_reserve_truncate`, `C72_reserving_makes_room`, `C72_unreadable_collect`, `C72_unreadable_item`, `C72_unreadable_item_try`, `C73_imports_structures`, `C73_no_cycles`, `C73_outcome`, `C73_round_trip`, `C74_aligned`, `C74_array_outlives_schema`, `C74_drop_releases`, `C74_failed`, `C74_outcome`, `C74_release`, `C74_round_trip`, `C74_schema_outlives_array`, `C74_structures`, `C75_array_part_stays`, `C75_array_stays`, `C75_child_dangles`, `C75_drop`, `C75_export`, `C75_import`, `C75_import_child`, `C75_import_part`, `C75_no_leak`, `C75_once`, `C75_others`, `C75_release_child`, `C75_schema_part_stays`, `C75_schema_stays`, `C75_take`, `C76_array`, `C76_reserving_makes_room`, `C76_room_for_any`, `C76_vec`, `C77_accepts_iff`, `C77_exported`, `C77_items`, `C77_returns`

Axioms: Quot.sound.

`C53_newtypes_forward`

Axioms: Quot.sound, propext.

`C03_accepts`, `C03_rejects`, `C06_pack_unpack`, `C06_unpack_pack`, `C09_list_panics_at_max`, `C14_lists_excluded`, `C20_default_values`, `C23_violation_unique`, `C30_zero_width_unusable`, `C41_slice_into_iter`, `C41_storage`, `C42_denotes_unique`, `C49_shrink_refused`, `C51_storage_is_empty`, `C53_arrays_forward`, `C54_collect`, `C54_extend_appends`, `C54_runs_same`, `C54_same_as_vec`, `C54_try_extend_appends`, `C55_covers_any`, `C55_no_more_room`, `C56_bitmap_parts`, `C56_vec_same`, `C58_bitmap_parts`, `C58_storages`, `C59_same`, `C59_short_bitmap`, `C60_compares`, `C60_view_reads`, `C61_read_only`, `C61_reads`, `C61_shows`, `C63_consuming_panics`, `C64_allocator`, `C64_one_allocator`, `C64_with_capacity`, `C65_dropped_bits_occupy`, `C65_room_is_spare`, `C67_room_fits`, `C67_skipped_bits_occupy`, `C70_array_composition`, `C70_vec_same`, `C71_bytes`, `C71_default`, `C71_eq`, `C71_round_trip`, `C72_collect`, `C72_extend_appends`, `C72_runs_same`, `C72_same_as_vec`, `C72_try_extend_appends`, `C74_default`, `C74_release_once`

Axioms: none.

`C50_map`, `C53_buffers`, `C62_bitmap_parts`

Axioms: propext.

`C09_storages`, `C50_zip`, `C50_zip_with`, `C60_nullable`, `C61_items`, `C67_vec`
