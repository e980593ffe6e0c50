{"id": "C01", "title": "Collected bitmap reads back exactly the collected bits", "statement": "Collecting a sequence of booleans into a Bitmap gives a bitmap whose len() is the number of booleans, whose view(i) is the i-th boolean for every i below len() and None for every other index, and whose borrowing and consuming iterators both yield exactly that sequence.", "quantifier": "every finite sequence of booleans and every index", "why_tests_cant": "Lengths and bit patterns are unbounded; byte-boundary behaviour changes with length modulo 8 and a test only samples a few lengths.", "anchors": ["src/bitmap/mod.rs: Bitmap::from_iter, Bitmap::view, IntoIterator for Bitmap, IntoIterator for &Bitmap", "src/bitmap/packed.rs: BitPacked", "src/bitmap/unpacked.rs: BitUnpacked"]}
{"id": "C02", "title": "Bitmap physical encoding is Arrow's least-significant-bit-first packing", "statement": "The byte buffer of a collected bitmap has exactly ceil(n/8) bytes; boolean i is stored in bit (i mod 8) of byte (i div 8), all padding bits of the last byte are zero, and the bit offset is zero.", "quantifier": "every finite sequence of booleans", "why_tests_cant": "The layout is exchanged with other Arrow implementations; every length and position must be right, not the sampled ones.", "anchors": ["src/bitmap/mod.rs: Bitmap::from_iter, BufferRef for Bitmap", "src/bitmap/packed.rs: BitPacked::next"]}
{"id": "C03", "title": "Bitmap::try_from_parts accepts exactly the in-bounds parts and reads the addressed bits", "statement": "Bitmap::try_from_parts(buffer, bits, offset) succeeds exactly when offset + bits (as integers, even if the machine sum would overflow) is at most 8 * buffer.len(); on success len() = bits, bit_offset() = offset, view(i) is bit offset+i of the buffer and into_parts returns the three arguments; otherwise it returns OutOfBounds with the three sizes.", "quantifier": "every byte buffer, every bits and offset in usize range including values whose sum overflows", "why_tests_cant": "The overflow boundary and all offset/length combinations cannot be enumerated.", "anchors": ["src/bitmap/mod.rs: Bitmap::try_from_parts, Bitmap::into_parts, Bitmap::bit_offset, Bitmap::view"]}
{"id": "C04", "title": "Extending a bitmap appends, whatever the unused bits contain", "statement": "Extending any valid bitmap (any bit offset, any garbage in padding bits, any extra trailing bytes) with a sequence of booleans leaves the existing bits unchanged and appends exactly that sequence.", "quantifier": "every valid bitmap state including stale padding bits/bytes left by truncation, failed or panicking extensions, and every finite boolean sequence", "why_tests_cant": "Stale bits depend on the whole history of the bitmap; tests only reach a handful of such states.", "anchors": ["src/bitmap/mod.rs: Extend for Bitmap::extend, CollectionRealloc for Bitmap::try_extend"]}
{"id": "C05", "title": "Null-count queries ignore padding and agree with the bits", "statement": "null_count() is the number of false validity bits among the logical items (0 without a bitmap), whatever bits precede the offset or follow the end; is_valid/is_null/valid_count/any_null/all_null/any_valid/all_valid answer the corresponding question about the logical items, and is_valid/is_null return None past the end.", "quantifier": "every nullable collection with or without a bitmap, every bit offset, length and padding content, every index", "why_tests_cant": "count_ones uses byte masks whose correctness depends on the residues of offset and end modulo 8 and on single- versus multi-byte ranges.", "anchors": ["src/bitmap/mod.rs: Bitmap::count_ones", "src/bitmap/validity.rs: ValidityBitmap"]}
{"id": "C06", "title": "Bit packing and unpacking adapters are inverse and report exact sizes", "statement": "Unpacking the bytes produced by packing a boolean sequence yields the sequence followed by fewer than eight false padding bits, packing the unpacked bits of any byte sequence yields the bytes; at every point of an iteration the adapters' exact length equals the number of items still to come.", "quantifier": "every boolean sequence, every byte sequence, every iteration point", "why_tests_cant": "Size hints are observed at every intermediate state; tests check only a few.", "anchors": ["src/bitmap/packed.rs: BitPacked::next, size_hint", "src/bitmap/unpacked.rs: BitUnpacked::next, size_hint"]}
{"id": "C07", "title": "Input is read up to the first end-of-iteration only", "statement": "Extending or collecting reads items up to the first None returned by the source iterator: an iterator that resumes yielding after None contributes only the items before it.", "quantifier": "every source iterator behaviour, including iterators that yield again after None, and every array type", "why_tests_cant": "Non-fused iterators have arbitrary continuation behaviour.", "anchors": ["src/bitmap/mod.rs: Bitmap::extend (fuse), Bitmap::try_extend, Bitmap::from_iter, Bitmap::from_iter_in", "src/collection/vec.rs", "src/collection/flatten.rs", "src/validity.rs", "src/offset.rs"]}
{"id": "C08", "title": "Collect round-trip for every array item type", "statement": "For every supported item type (booleans, primitives, fixed-size arrays and vectors of supported item types, and Option of those, nested to any depth, with positive array widths), collecting a sequence of items into an Array and reading it back gives the same sequence: len() is its length, owned(i) its i-th item, and the borrowing and consuming iterators yield it in order.", "quantifier": "every item type (arbitrary nesting depth) and every finite sequence of items whose sizes fit the offset type", "why_tests_cant": "Types nest to unbounded depth and each nesting composes validity, offsets and flattening differently; tests fix a few types and literals.", "anchors": ["src/array.rs: Array", "src/layout/mod.rs: Layout, ArrayItem", "src/validity.rs", "src/offset.rs", "src/collection/flatten.rs", "src/bitmap/mod.rs"]}
{"id": "C09", "title": "Out-of-range reads return None", "statement": "view(i) and owned(i) return None for every index i >= len(), for every array type.", "quantifier": "every array type, every valid array and every usize index including usize::MAX", "why_tests_cant": "The index domain and array states are unbounded.", "anchors": ["src/collection/mod.rs: Collection::view, Collection::owned", "src/collection/flatten.rs: Flatten::view", "src/offset.rs: Offsets::view, OffsetView::view", "src/validity.rs: Validity::view", "src/bitmap/mod.rs: Bitmap::view"]}
{"id": "C10", "title": "extend appends and preserves existing items", "statement": "extend on any valid array of any item type leaves the existing items unchanged and appends exactly the yielded items in order.", "quantifier": "every item type, every valid array state (however built), every finite sequence that fits the offset types", "why_tests_cant": "Existing state includes hidden storage (stale bits, unreferenced child data, uncommitted suffixes, omitted bitmaps) that depends on the history.", "anchors": ["src/array.rs: Extend for Array", "src/validity.rs: Extend for Validity", "src/offset.rs: Extend for Offsets", "src/collection/flatten.rs: Extend for Flatten", "src/bitmap/mod.rs: Extend for Bitmap"]}
{"id": "C11", "title": "truncate keeps exactly the first items", "statement": "truncate(n) leaves exactly the first min(n, len()) items; with n >= len() the contents are unchanged.", "quantifier": "every item type, every valid array and every n", "why_tests_cant": "The effect must hold for arbitrary states and n, and for later operations on the truncated array.", "anchors": ["src/collection/mod.rs: CollectionRealloc::truncate", "src/bitmap/mod.rs: Bitmap::truncate", "src/validity.rs: Validity::truncate", "src/offset.rs: Offsets::truncate", "src/collection/flatten.rs: Flatten::truncate", "src/collection/vec.rs: Vec::truncate"]}
{"id": "C12", "title": "try_extend is all-or-nothing under allocation failure", "statement": "try_extend either returns Ok with all items appended or returns Err(AllocError) with the logical contents exactly as before, wherever in the nested storage and at whichever request the allocator fails, and whatever size hints the source reports; the array stays fully usable afterwards.", "quantifier": "every item type, every valid array, every item sequence, every allocator behaviour (any subset of requests failing, any growth policy) and every size-hint behaviour", "why_tests_cant": "The number of possible failure points grows with nesting and input size; tests cannot inject a failure at each of them.", "anchors": ["src/collection/mod.rs: CollectionRealloc::try_extend", "src/collection/vec.rs: Vec::try_extend", "src/bitmap/mod.rs: Bitmap::try_extend", "src/validity.rs: Validity::try_extend", "src/offset.rs: Offsets::try_extend", "src/collection/flatten.rs: Flatten::try_extend"]}
{"id": "C13", "title": "Reserving never changes contents", "statement": "reserve and try_reserve, whether they succeed, fail or panic, leave the logical contents unchanged.", "quantifier": "every item type, every valid array, every amount, every allocator behaviour", "why_tests_cant": "Reserving may materialise a bitmap or fail half-way through nested storage.", "anchors": ["src/collection/mod.rs: CollectionRealloc::try_reserve, reserve", "src/validity.rs: Validity::try_reserve, Validity::reserve", "src/bitmap/mod.rs: Bitmap::try_reserve", "src/offset.rs: Offsets::try_reserve", "src/collection/flatten.rs: Flatten::try_reserve"]}
{"id": "C14", "title": "Successful try_reserve(n) makes room for n items", "statement": "For item types without variable-size lists, after try_reserve(n) returns Ok, try_extend with at most n items (from a source with honest size hints) makes no allocation request and therefore succeeds even if the allocator refuses everything.", "quantifier": "every item type without vectors, every valid array, every n, every item sequence of at most n items, every allocator behaviour afterwards", "why_tests_cant": "Capacity arithmetic over bits, bytes and array widths depends on offset/length residues and nesting.", "anchors": ["src/collection/mod.rs: CollectionRealloc::try_reserve", "src/bitmap/mod.rs: Bitmap::try_reserve, trailing_bits", "src/validity.rs: Validity::try_reserve", "src/collection/flatten.rs: Flatten::try_reserve", "src/collection/vec.rs: Vec::try_reserve"]}
{"id": "C15", "title": "Any operation history behaves like a plain vector of items", "statement": "For any sequence of extend, try_extend, truncate, reserve, try_reserve, len, owned and iteration calls on an array, including failing allocations, every answer equals that of the same history on a plain list of items.", "quantifier": "every item type and every finite history of operations with every input", "why_tests_cant": "Histories are unbounded and interact through hidden storage.", "anchors": ["src/array.rs: Array", "src/collection/mod.rs: Collection, CollectionRealloc"]}
{"id": "C16", "title": "A panicking source iterator never corrupts a collection", "statement": "If the source iterator panics during extend or try_extend and the panic is caught, the collection then contains its previous items followed by some prefix of the yielded items, and all later operations behave accordingly.", "quantifier": "every item type, every valid array, every source that panics at any position, every later history", "why_tests_cant": "Panic positions relative to byte, chunk and width boundaries are unbounded.", "anchors": ["src/bitmap/mod.rs: Bitmap::extend", "src/validity.rs: Validity::extend, VALIDITY_CHUNK", "src/offset.rs: Offsets::extend", "src/collection/flatten.rs: Flatten::extend", "src/collection/vec.rs"]}
{"id": "C17", "title": "Iterators report their exact remaining length at every step", "statement": "For the borrowing and consuming iterators of every array type, len() and size_hint() equal the number of items that remain, before and after every next(), including after exhaustion.", "quantifier": "every item type, every valid array and every iteration point", "why_tests_cant": "ExactSizeIterator must be right at each intermediate state of nested adapters.", "anchors": ["src/bitmap/unpacked.rs: BitUnpacked::size_hint", "src/validity.rs: ValidityIter", "src/offset.rs: OffsetIntoIter, Offsets::iter_views", "src/collection/flatten.rs: ArrayChunks, Flatten::iter_views", "src/collection/slice.rs: SliceIntoIter"]}
{"id": "C18", "title": "All constructors agree", "statement": "collect, from_iter_in, try_from_iter_in (when it succeeds) and with_capacity followed by extend build arrays with the same logical contents; with_capacity, try_with_capacity_in and default build empty arrays; capacity arguments and size hints never influence contents.", "quantifier": "every item type, every item sequence, every capacity, size hint and allocator behaviour", "why_tests_cant": "Each constructor takes a different path through nested storage.", "anchors": ["src/collection/mod.rs: CollectionAllocIn, CollectionAlloc", "src/validity.rs: from_iter_in, try_from_iter_in", "src/offset.rs: from_iter_in, try_from_iter_in", "src/bitmap/mod.rs: from_iter_in, try_from_iter_in", "src/collection/flatten.rs", "src/collection/vec.rs"]}
{"id": "C19", "title": "Validity::try_from_parts accepts exactly equal lengths", "statement": "Validity::try_from_parts(collection, bitmap) succeeds exactly when both lengths are equal; then item i is Some(collection item i) when bit i is set and None otherwise, and into_parts returns the parts; otherwise LengthMismatch reports both lengths. from_collection gives an all-valid nullable collection.", "quantifier": "every collection, bitmap (any offset) and index", "why_tests_cant": "Lengths, offsets and contents are unbounded.", "anchors": ["src/validity.rs: Validity::try_from_parts, into_parts, from_collection, Validity::view"]}
{"id": "C20", "title": "Null slots hold defaults and keep positions aligned", "statement": "In a nullable array built by collecting or extending, item i is null exactly when the i-th input was None, and the value storage holds the input value at valid positions and the type's default value at null positions, so value storage and validity bitmap stay index-aligned.", "quantifier": "every nullable item type and every sequence of optional items", "why_tests_cant": "Alignment must hold for every null pattern and length, across the 1024-item chunks.", "anchors": ["src/validity.rs: FromIterator for Validity, Extend for Validity", "src/validity.rs: VALIDITY_CHUNK"]}
{"id": "C21", "title": "Materialising an omitted bitmap preserves validity", "statement": "Extending, try-extending or reserving on a nullable collection without a bitmap (all items implicitly valid) keeps every existing item valid with its value; the materialised bitmap has exactly one set bit per existing item and zero padding.", "quantifier": "every collection length and contents, every extension", "why_tests_cant": "The all-set bitmap's last byte depends on the length modulo 8.", "anchors": ["src/validity.rs: materialize_bitmap, try_materialize_bitmap", "src/bitmap/mod.rs: all_set_in, try_all_set_in, all_set_bytes"]}
{"id": "C22", "title": "Uncommitted values are never visible", "statement": "Values that reached the value storage of a nullable collection without their validity being committed (because the source panicked) are never returned by len, view, the iterators or null counts, and are discarded by the next extension.", "quantifier": "every nullable collection whose value storage is longer than its bitmap, every later operation", "why_tests_cant": "Such states arise only from panics at arbitrary positions.", "anchors": ["src/validity.rs: Length for Validity, Validity::view, ValidityIter, Extend for Validity, Validity::try_extend"]}
{"id": "C23", "title": "Offsets::try_from_parts accepts exactly valid offset buffers", "statement": "Offsets::try_from_parts succeeds exactly when the offsets buffer is non-empty, starts with zero, has no negative entry, never decreases and its last entry is at most the data length; otherwise the returned error names the first violation in reading order (Empty, Negative, NonZeroFirst, NonMonotonic with its index, OutOfBounds with both sizes). into_parts returns the parts.", "quantifier": "every data collection and every offsets buffer of i32 or i64 values", "why_tests_cant": "Offset buffers come from outside and are unbounded.", "anchors": ["src/offset.rs: Offsets::try_from_parts, OffsetsError, Offsets::into_parts"]}
{"id": "C24", "title": "Accepted offsets address contiguous in-bounds slices", "statement": "For an accepted offsets collection, item i consists of the data items from offset i up to offset i+1; reading any item never panics; the concatenation of all items is the data prefix up to the last offset.", "quantifier": "every accepted offsets collection and every index", "why_tests_cant": "Must hold for arbitrary externally supplied offsets.", "anchors": ["src/offset.rs: Offsets::view, OffsetView, OffsetIntoIter"]}
{"id": "C25", "title": "Collected lists are encoded as running totals over contiguous data", "statement": "Collecting lists yields an offsets buffer of n+1 entries whose k-th entry is the total length of the first k lists, and data that is the concatenation of all lists.", "quantifier": "every sequence of lists", "why_tests_cant": "This is the Arrow wire layout; it must hold for all lengths.", "anchors": ["src/offset.rs: FromIterator for Offsets, Extend for Offsets, Default for Offsets"]}
{"id": "C26", "title": "Offset overflow is detected, never wrapped", "statement": "When the running total would exceed the offset type's maximum, extend panics and keeps the rows before the offending one, and try_extend returns Err with contents unchanged; otherwise (with memory available) both succeed.", "quantifier": "every list array with i32 or i64 offsets and every sequence of lists (including zero-sized elements, where totals beyond the maximum are reachable)", "why_tests_cant": "Tests cannot allocate beyond the 2^31 boundary.", "anchors": ["src/offset.rs: Offset::strict_add, Offsets::extend, Offsets::try_extend"]}
{"id": "C27", "title": "Unreferenced trailing child data is dropped before appending", "statement": "If the data collection holds items beyond the last offset, extend and try_extend still append lists that read back exactly as given.", "quantifier": "every offsets collection accepted by try_from_parts, every extension", "why_tests_cant": "Depends on arbitrary external state.", "anchors": ["src/offset.rs: Offsets::extend, Offsets::try_extend"]}
{"id": "C28", "title": "List views behave as the list they denote", "statement": "A borrowed list view has the list's length, returns its j-th element for j below that length and None otherwise, iterates over exactly those elements, compares equal to another collection exactly when lengths and elements agree, and converts into the owned list.", "quantifier": "every offsets collection, every row, every element index, every collection compared with", "why_tests_cant": "Rows, positions and compared collections are unbounded.", "anchors": ["src/offset.rs: OffsetView (Length, Collection, PartialEq, IntoOwned)"]}
{"id": "C29", "title": "Flatten::try_from_parts accepts exactly whole groups", "statement": "Flatten::try_from_parts succeeds exactly when the width N is positive and divides the child length; then len() * N is the child length and item i is the child items i*N to i*N+N-1; ZeroChunkSize and NotMultiple report the respective failures; into_parts returns the child.", "quantifier": "every width and every child collection", "why_tests_cant": "Widths and lengths are unbounded.", "anchors": ["src/collection/flatten.rs: Flatten::try_from_parts, into_parts, Flatten::view, Length for Flatten"]}
{"id": "C30", "title": "Zero-width fixed-size lists cannot be constructed", "statement": "No safe constructor produces a fixed-size list array of width zero, so len() and iteration never fail.", "quantifier": "every constructor", "why_tests_cant": "Requires considering every construction path.", "anchors": ["src/collection/flatten.rs: Flatten::try_from_parts, Default for Flatten, FromIterator for Flatten, CollectionAllocIn for Flatten"]}
{"id": "C31", "title": "Export then import gives back the same array", "statement": "For every exportable item type and every array with zero bit offsets and fully committed storage, export succeeds, and importing the exported pair as the same item type succeeds and yields an array with the same items.", "quantifier": "every exportable item type (arbitrary nesting) and every such array", "why_tests_cant": "The exported structure is a tree as deep as the type with pointers into every buffer; tests cover fixed types.", "anchors": ["narrow-ffi/src/export/mod.rs: Export::export, child_array", "narrow-ffi/src/import/mod.rs: Import::import, import_layout", "narrow-ffi/src/export/*.rs", "narrow-ffi/src/import/*.rs"]}
{"id": "C32", "title": "Export rejects every non-zero bit offset and nothing else", "statement": "export returns NonZeroOffset exactly when some bitmap in the array tree (value bits or validity bits, at any depth) has a non-zero bit offset, and reports such an offset; otherwise it succeeds.", "quantifier": "every exportable item type and every array", "why_tests_cant": "Offsets can hide at any depth.", "anchors": ["narrow-ffi/src/export/mod.rs: ArrowArrayLayout::export, child_array", "narrow-ffi/src/export/boolean.rs: offset"]}
{"id": "C33", "title": "Exported metadata describes the array", "statement": "An exported ArrowArray/ArrowSchema pair has length equal to the number of items, the exact null count, offset 0, the Arrow buffer and child counts of the layout, the Arrow format string of the type, the nullable flag exactly for Option types, and recursively so for children (list children have the child storage's length).", "quantifier": "every exportable item type and every exported array", "why_tests_cant": "Recursive structure with unbounded depth.", "anchors": ["narrow-ffi/src/export/mod.rs: ArrayData::into_array, ArrowSchema::flat", "narrow-ffi/src/export/variable_size_list.rs", "narrow-ffi/src/export/fixed_size_list.rs", "narrow-ffi/src/export/boolean.rs", "narrow-ffi/src/export/fixed_size_primitive.rs"]}
{"id": "C34", "title": "Export and import copy no buffers", "statement": "Every buffer pointer of an exported array is the address of the corresponding buffer of the original array (null for an absent validity bitmap), and every buffer of an imported array is the producer's buffer at the exported address with exactly the declared number of elements.", "quantifier": "every exportable item type and every array", "why_tests_cant": "Every buffer in a tree of unbounded depth.", "anchors": ["narrow-ffi/src/export/*.rs: buffers", "narrow-ffi/src/import/*.rs: import_validated"]}
{"id": "C35", "title": "Successfully imported arrays satisfy all invariants", "statement": "If import returns Ok for any C structures whose buffers are as large as declared, then the resulting array satisfies every layout invariant (bit counts, offset validity, list widths, equal validity lengths), so no read of it can panic or go out of bounds; and import itself never panics.", "quantifier": "every ArrowArray/ArrowSchema tree, however malformed in its scalar metadata and offsets", "why_tests_cant": "Foreign metadata is adversarial and unbounded.", "anchors": ["narrow-ffi/src/import/mod.rs: import_layout, ImportNullability::wrap, import_child", "narrow-ffi/src/import/fixed_size_list.rs", "narrow-ffi/src/import/variable_size_list.rs", "narrow-ffi/src/import/boolean.rs", "narrow-ffi/src/import/fixed_size_primitive.rs"]}
{"id": "C36", "title": "Import rejects malformed metadata with the documented error", "statement": "import fails with the documented error for released structures, missing or wrong formats, mismatched nullable flag, negative length, non-zero offset, impossible null counts, wrong buffer or child counts, dictionaries, missing buffers or children, misaligned buffers, invalid offsets and list-length mismatches; it never accepts such structures.", "quantifier": "every ArrowArray/ArrowSchema pair and every importable item type", "why_tests_cant": "Combinations of malformed fields are unbounded.", "anchors": ["narrow-ffi/src/import/mod.rs: import_layout, ImportError"]}
{"id": "C37", "title": "Import is type-safe with respect to export", "statement": "An array exported with item type S can be imported with item type T only if S and T are the same item type.", "quantifier": "every pair of exportable item types of any nesting depth and every array", "why_tests_cant": "Pairs of nested types are unbounded.", "anchors": ["narrow-ffi/src/import/mod.rs: import_layout", "narrow-ffi/src/export/mod.rs: ArrowType", "narrow-ffi/src/lib.rs: ArrowListOffset"]}
{"id": "C38", "title": "Fixed-size-list width is printed and parsed faithfully", "statement": "The format string exported for a fixed-size list of width N is accepted by the importer of width M exactly when N = M; a format is accepted for width N exactly when it is \"+w:\" followed by a non-empty decimal numeral with value N; numerals beyond usize are rejected rather than wrapped.", "quantifier": "every width and every byte string", "why_tests_cant": "All byte strings and all widths.", "anchors": ["narrow-ffi/src/import/fixed_size_list.rs: matches_format", "narrow-ffi/src/export/fixed_size_list.rs: ArrowSchema::fixed_size_list"]}
{"id": "C39", "title": "Declared null counts are verified", "statement": "Importing a nullable array with a known null count succeeds only if it equals the number of null items; an unknown count (-1) is accepted; importing as a non-nullable type never turns a null item into a value.", "quantifier": "every imported array", "why_tests_cant": "Null counts and bitmaps are adversarial.", "anchors": ["narrow-ffi/src/import/mod.rs: ImportNullability::wrap, import_layout"]}
{"id": "C40", "title": "Exported memory is released exactly once and not earlier", "statement": "After export the array storage stays alive until the ArrowArray is released; releasing (explicitly or by drop) frees the storage and every child structure exactly once, marks the structure released, and dropping it again does nothing; schema and array may be released in either order; a failed export frees everything.", "quantifier": "every exportable item type, every order of release/drop of the structures", "why_tests_cant": "Trees of callbacks with unbounded depth and any release order.", "anchors": ["narrow-ffi/src/export/mod.rs: release_array, release_schema, release_flat_schema, ArrayData", "narrow-ffi/src/lib.rs: Drop for ArrowArray, Drop for ArrowSchema"]}
{"id": "C41", "title": "Reading does not depend on the storage backend", "statement": "Vec, boxed slice, Rc, Arc, borrowed slice and array storage holding the same elements give the same len, view and iteration results, and the index-based owning iterator used for shared storage yields each element once, in order, with exact length.", "quantifier": "every element sequence, every index, every iteration point", "why_tests_cant": "Lengths and iteration points are unbounded.", "anchors": ["src/collection/slice.rs: SliceIntoIter", "src/collection/vec.rs", "src/collection/box.rs", "src/collection/rc.rs", "src/collection/arc.rs", "src/collection/array.rs"]}
{"id": "C42", "title": "An Arrow consumer reads an exported array as its items", "statement": "Decoding the exported ArrowArray by the Arrow columnar format (validity bitmap and boolean bits least significant first, little-endian elements, offset and length, fixed-size children, list offsets, item i at position offset + i) gives exactly the items the array shows, in order and with exactly its nulls, even when the array holds storage beyond its last item.", "quantifier": "every exportable item type of any nesting depth, every array obtained through the API that exports successfully, every item", "why_tests_cant": "A consumer in another language decodes the buffers itself; item types nest without bound and lengths and bit positions are unbounded.", "anchors": ["narrow-ffi/src/export/mod.rs: IntoArrowArray, export", "narrow-ffi/src/export/variable_size_list.rs", "narrow-ffi/src/export/fixed_size_list.rs", "narrow-ffi/src/export/boolean.rs", "narrow-ffi/src/export/fixed_size_primitive.rs"]}
{"id": "C43", "title": "An imported array shows what the structures denote", "statement": "Whenever import accepts a producer's structures, the imported array has the declared length and shows exactly the items that the structures denote by the Arrow columnar format.", "quantifier": "every exportable item type of any nesting depth, every pair of structures meeting the safety contract of import, every memory content, every item", "why_tests_cant": "Structures and memory come from foreign producers and are unbounded.", "anchors": ["narrow-ffi/src/import/mod.rs: import", "narrow-ffi/src/import/variable_size_list.rs", "narrow-ffi/src/import/fixed_size_list.rs", "narrow-ffi/src/import/boolean.rs", "narrow-ffi/src/import/fixed_size_primitive.rs"]}
{"id": "C44", "title": "Arrays built by calls that return always survive the C Data Interface", "statement": "An array built by any sequence of calls none of which was interrupted by a panic, and without bitmaps made from parts with a bit offset, is exported successfully, and importing it as the same item type gives an array with the same items. With bitmaps made of any parts, whatever is exported successfully can be imported. A caught panic inside extend can leave an array for which this fails.", "quantifier": "every item type, nesting depth, construction history without a caught panic, and memory holding the buffers", "why_tests_cant": "Histories are unbounded, and the leftover storage that breaks the round trip is invisible through reads, so no test observing items would notice it.", "anchors": ["src/validity.rs: extend, try_extend, try_from_parts, reserve, truncate", "src/offset.rs: extend, try_extend, truncate", "narrow-ffi/src/export/fixed_size_list.rs", "narrow-ffi/src/import/fixed_size_list.rs"]}
{"id": "C45", "title": "Taking a collection apart and putting it together gives the same collection", "statement": "into_parts followed by try_from_parts returns the original Bitmap, Flatten or Offsets for every reachable value; for Validity it returns the original for every value built without a caught panic (after one, try_from_parts may reject the parts).", "quantifier": "every item type, nesting depth and construction history", "why_tests_cant": "All histories; the failing case for Validity needs a panic in the middle of an extend.", "anchors": ["src/bitmap/mod.rs: into_parts, try_from_parts", "src/flatten.rs: into_parts, try_from_parts", "src/offset.rs: into_parts, try_from_parts", "src/validity.rs: into_parts, try_from_parts, from_collection"]}
{"id": "C46", "title": "Fallible calls return instead of panicking", "statement": "try_with_capacity_in, try_from_iter_in, try_extend and try_reserve return Ok or Err for every argument, size hint, number of items and allocator behaviour, including capacity overflow; they panic only if the source itself panics.", "quantifier": "every item type, nesting depth, array, source (also one that resumes after None) and allocator", "why_tests_cant": "Overflowing sizes, refused allocations and lying size hints cannot be enumerated, and a panic in one nested buffer at one allocation breaks the claim.", "anchors": ["src/bitmap/mod.rs: try_from_iter_in, try_extend, try_reserve", "src/flatten.rs", "src/offset.rs", "src/validity.rs", "src/collection/vec.rs"]}
{"id": "C47", "title": "Imported arrays can be exported again", "statement": "Exporting an array that was imported from a foreign producer succeeds whatever null count or optional buffers the producer used. The new structures declare the same length and the exact null count, point at the same buffers (no copy), denote the same items by the Arrow format, and can be imported again with the same items.", "quantifier": "every exportable item type, every memory content and every pair of structures a foreign producer may pass that import accepts", "why_tests_cant": "It relates two crossings of the interface for every producer: non-zero offsets, unknown null counts and nested children cannot be enumerated.", "anchors": ["narrow-ffi/src/import/mod.rs: ImportLayout", "narrow-ffi/src/export/mod.rs: ExportArray::export"]}
{"id": "C48", "title": "Collecting into boxed storage gives the same array", "statement": "For the item types that can be constructed in boxed storage, collect, from_iter_in and try_from_iter_in give an array whose length, items and iterators are those of the source; collect panics exactly when collecting into Vec storage does, also for sources that resume after None; with_capacity gives an empty array.", "quantifier": "every item type with boxed constructors (bool, primitives, nested fixed-size lists without nulls), every source, size hint and allocator", "why_tests_cant": "It relates two implementations of every constructor for every source and nesting depth.", "anchors": ["src/collection/box.rs: CollectionAllocIn for Box<[T]>", "src/bitmap/mod.rs: FromIterator, CollectionAllocIn", "src/collection/flatten.rs: CollectionAllocIn"]}
{"id": "C49", "title": "Fallible construction in boxed storage reports refused memory as an error", "statement": "try_with_capacity_in and try_from_iter_in for boxed storage return Ok or Err for every argument and allocator behaviour; they panic or abort only if the source panics.", "quantifier": "every item type with boxed constructors, every source, size hint and allocator", "why_tests_cant": "The allocator may refuse any single request, among them the one made when the finished Vec is shrunk into a box.", "anchors": ["src/collection/box.rs: try_from_iter_in, try_with_capacity_in"]}
{"id": "C50", "title": "Item combinators propagate nulls", "statement": "Nullability::map applies the function exactly to the value of a non-null item; zip is null exactly when an item is null and otherwise pairs the values; zip_with applies the function to the pair, and never calls it when an item is null.", "quantifier": "both nullabilities, every pair of items and every function, also one that panics", "why_tests_cant": "Generic over item types and functions.", "anchors": ["src/nullability.rs: Nullability::map, zip, zip_with"]}
{"id": "C51", "title": "is_empty agrees with the items", "statement": "is_empty returns true exactly when the array or buffer holds no items.", "quantifier": "every item type, storage and reachable array", "why_tests_cant": "len is computed from nested buffers, so the claim must hold for every history of the array.", "anchors": ["src/length.rs: Length::is_empty"]}
{"id": "C52", "title": "Collections compose in any order", "statement": "Vec, Bitmap, Flatten, Validity and Offsets can be nested in any order and depth, with any element type that has views, including nestings that no array item type uses (Validity of Validity, Offsets of a Vec of Vecs). Whatever sequence of constructors, conversions from parts, extend, try_extend, reserve, try_reserve and truncate built such a collection, every way of reading it shows the list the same steps produce on plain lists; truncate always returns; the fallible calls do not panic unless the source does; extend, collect and reserve return when the items fit; and after a caught panic reading by reference shows the previous items and a prefix of the new ones.", "quantifier": "Every composition of the five collection types of any depth, every element type, every history of calls, every source, allocator behaviour and size hint.", "why_tests_cant": "The compositions are unboundedly many; tests exercise a few fixed nestings with a few items.", "anchors": ["src/collection/vec.rs: impl Collection for Vec", "src/bitmap/mod.rs: impl Collection for Bitmap", "src/collection/flatten.rs: impl Collection for Flatten", "src/validity.rs: impl Collection for Validity", "src/offset.rs: impl Collection for Offsets"]}
{"id": "C53", "title": "Arrays and layouts behave as the collections they wrap", "statement": "Array and the layout types Boolean, FixedSizePrimitive, FixedSizeList and VariableSizeList add nothing to, and lose nothing of, the collection they wrap: length, views, iteration by reference and by value, construction, extension, reservation, truncation and their fallible forms all have the results and the effects of the wrapped collection, at every level of a nested item type. Converting to the buffer and back is the identity.", "quantifier": "Every item type of any nesting, nullable or not, every collection value, source, allocator behaviour and argument.", "why_tests_cant": "Each of the five wrappers forwards more than a dozen operations; a dropped or swapped forward shows only for some operation, type and argument.", "anchors": ["src/array.rs: Array", "src/layout/boolean.rs: Boolean", "src/layout/fixed_size_primitive.rs: FixedSizePrimitive", "src/layout/fixed_size_list.rs: FixedSizeList", "src/layout/variable_size_list.rs: VariableSizeList"]}
{"id": "C54", "title": "Lists take and return items of any collection type", "statement": "Offsets<T, OffsetItem, Storage, U> behaves the same for every owned item type U: an item of type U given to collect, extend or try_extend contributes exactly the values that reading it shows, and reading a list back (owned, iter_views, into_iter_owned) gives a U that shows exactly those values. Reserving, truncating and with_capacity also do what they do for Vec items, so the reserving calls make the same room (C55). An item that cannot be read, because one of the calls of U panics, makes extend and collect panic and makes try_extend panic or return an error: nothing of that item shows up, the lists before it are kept as for any panic of the source.", "quantifier": "every composition of collections as child storage, every collection type U, every item whatever its hidden storage (bit offsets, spare bits, stale data), every source, history and allocator behaviour", "why_tests_cant": "U is a free type parameter with hidden state of its own; tests use Vec items only.", "anchors": ["src/offset.rs: Offsets<T, OffsetItem, Storage, U>, Extend::extend, try_extend, OffsetIntoIter::next, OffsetView::into_owned"]}
{"id": "C55", "title": "Every reserving call makes room, for lists too", "statement": "After with_capacity(n), try_with_capacity_in(n), reserve(n) or try_reserve(n) returned successfully, appending with any number of try_extend calls, with truncations in between, always returns Ok and gives the same array whatever the allocator answers, as long as the appended items are covered by n: n booleans, numbers or fixed-size lists of them; for variable-size lists at most n lists with at most n elements together (and so on for nested lists); nullable items count like items with defaults in place of nulls. Size hints of the sources must be honest and list lengths must fit the offset type.", "quantifier": "every item type and every hand-made composition of collections, every reserving call, every n, every sequence of try_extend and truncate calls whose appended items are covered by n, every allocator behaviour afterwards", "why_tests_cant": "Whether a later append allocates depends on capacities at every nesting level, on bit and byte residues and on how items are split over calls; a test with a working allocator never sees a missing reservation.", "anchors": ["src/collection/mod.rs: CollectionAlloc::with_capacity, CollectionAllocIn::try_with_capacity_in, CollectionRealloc::reserve, try_reserve", "src/offset.rs: Offsets::with_capacity_in, try_with_capacity_in, reserve, try_reserve, try_extend", "src/validity.rs: Validity::with_capacity_in, try_with_capacity_in, reserve, try_reserve", "src/bitmap/mod.rs: Bitmap::with_capacity_in, try_with_capacity_in, reserve, try_reserve", "src/collection/flatten.rs: Flatten", "src/collection/vec.rs: Vec"]}
{"id": "C56", "title": "Storages and collections written by users", "statement": "Bitmap, Validity and Offsets take any storage, and all layouts any collection, that implements the public traits. If every such type keeps the contract of its traits, then every composition behaves like a list: after any history of calls reading shows the list those calls build, truncate returns, failed fallible calls leave the items, fallible calls only panic if the source does, panics of sources are not swallowed, sources are read up to the first None, try_from_parts accepts exactly valid parts, and the user's storages are only left in states their own functions produce. Vec keeps the contract, and with Vec every call does exactly what it does for the built-in storage.", "quantifier": "every storage and collection type keeping the contract (including ones with bounded room, own panics and errors), every nesting of the layouts over them, every history of calls and parts, every source and allocator behaviour", "why_tests_cant": "Storage is an open type parameter: tests use Vec, arrays and slices only, never a storage that refuses growth in the middle of a call.", "anchors": ["src/buffer.rs: Buffer", "src/collection/mod.rs: Collection, CollectionAllocIn, CollectionRealloc", "src/bitmap/mod.rs: Bitmap<Storage>", "src/validity.rs: Validity<T, Storage>", "src/offset.rs: Offsets<T, OffsetItem, Storage>", "src/collection/flatten.rs: Flatten<T, N>"]}
{"id": "C57", "title": "Exported structures and their children may be released and moved in any order", "statement": "After a successful export, whatever sequence of release calls and moves (copy the structure, mark the original released) a consumer applies to the two structures and to any of their descendants, every allocation made by the export is freed exactly once: when the last structure still holding it is released, never earlier and never twice. The array's storage is dropped exactly when the exported array structure is released, wherever it was moved to; every buffer pointer in any structure points into that storage, and no structure ever has a dictionary. Schema children moved out of their parent stay valid after the parent is released.", "quantifier": "every exportable array, every sequence of releases and moves at every depth", "why_tests_cant": "The number of orders in which nested structures can be released and moved is unbounded; a test fixes a few.", "anchors": ["narrow-ffi/src/lib.rs: Drop for ArrowArray, Drop for ArrowSchema", "narrow-ffi/src/export/mod.rs: release_array, release_schema, release_flat_schema, ArrayData"]}
{"id": "C58", "title": "Collections that cannot grow", "statement": "Layouts put together with try_from_parts, from_collection and into_parts read as the list their parts describe, whatever collections and storages hold the parts: vectors, boxed, shared and borrowed slices, arrays, list views, or types of the user that keep the contract of Collection and Borrow. Each layer can use another storage. try_from_parts accepts exactly valid parts in every storage, and the result keeps the contract, so that it can be a part again.", "quantifier": "every storage and collection type keeping the contract of its reading traits, every nesting of the layouts with any storage in each layer, every choice of parts, every index and iteration point", "why_tests_cant": "Tests combine a few storages and one or two layers; the storages are open type parameters and the nesting is unbounded.", "anchors": ["src/collection/mod.rs: Collection", "src/buffer.rs: Buffer", "src/bitmap/mod.rs: Bitmap::try_from_parts", "src/validity.rs: Validity::try_from_parts, Validity::from_collection", "src/offset.rs: Offsets::try_from_parts, OffsetView", "src/collection/flatten.rs: Flatten::try_from_parts, Flatten::into_parts"]}
{"id": "C59", "title": "Validity queries of every implementation", "statement": "Every type that implements ValidityBitmap with a consistent length and bitmap gets null_count, valid_count, is_null, is_valid, any_null, all_null, any_valid and all_valid that agree with its validity flags and never panic. Validity is consistent in this sense over every storage, whatever calls or parts built it. If the bitmap is too short, is_valid panics past its end instead of giving an answer.", "quantifier": "every implementation of the trait, every length, bit offset and bit pattern, every index; for Validity every storage, history and choice of parts", "why_tests_cant": "The trait is public and its queries are provided methods: their answers must be right for implementations that do not exist yet.", "anchors": ["src/bitmap/validity.rs: ValidityBitmap", "src/validity.rs: impl ValidityBitmap for Validity", "src/bitmap/mod.rs: Bitmap::count_ones"]}
{"id": "C60", "title": "A list view equals a collection exactly if it holds the same items", "statement": "Comparing a list view with any collection, over any storage, answers false if the lengths differ and otherwise compares the items in order up to the first difference; with an item comparison that returns it answers true exactly if the lists of items are equal item by item. This extends to nested lists and nullable items.", "quantifier": "every list view, every collection compared with it, every comparison of items, including comparisons that panic", "why_tests_cant": "The two sides may be any two collections of different types, storages and depths.", "anchors": ["src/offset.rs: PartialEq for OffsetView, OffsetView::iter_views, OffsetView::into_owned"]}
{"id": "C61", "title": "Plain memory shows its items, whatever the item type", "statement": "Vectors, borrowed slices, arrays, boxed and shared slices are collections of any item type that has views: the length, every view, the view iterator and the owned iterator show the items if views convert back into their items, which booleans, fixed-size values, arrays, vectors and options do. Otherwise reading by reference shows the owned values of the views, and so does the owned iterator of borrowed and shared memory, while memory that owns its items hands out the items themselves. Vectors of such items can be grown inside any composition, and reserving makes room for as many items as asked.", "quantifier": "every item type, including those whose clone panics or changes the value, every storage, every list of items", "why_tests_cant": "Item types are open: users implement AsView, IntoOwned and Clone.", "anchors": ["src/collection/view.rs: AsView", "src/collection/owned.rs: IntoOwned", "src/collection/vec.rs: Collection for Vec", "src/collection/slice.rs: Collection for &[T], SliceIntoIter", "src/collection/array.rs: Collection for [T; N]", "src/collection/box.rs", "src/collection/rc.rs", "src/collection/arc.rs"]}
{"id": "C62", "title": "A clone is an equal, independent collection", "statement": "Cloning a `Bitmap`, a `Vec` or a `Flatten` of these gives a collection that shows the same items through every reader, starts at the same bit offset with the same bytes, and accepts every later call the original accepts; the original and the clone then show their own items only.", "quantifier": "every cloneable composition, every collection built by calls (clones of clones included), every later sequence of calls", "why_tests_cant": "A clone that drops the bit offset or relies on the original's spare capacity is right for the collections tests build, which start at bit 0.", "anchors": ["src/bitmap/mod.rs:Bitmap::clone", "src/collection/flatten.rs:Flatten"]}
{"id": "C63", "title": "A caught panic leaves a composition over user storages readable", "statement": "Suppose that a panic inside a user's own storage or collection leaves it with its items and the first few new ones, as Vec does. Then after a caught panic of extend or try_extend of any composition over such types, whether the source, a storage or an offset overflow caused it, len, owned and iter_views show the previous items and the first few new ones, and into_iter_owned yields them, too; it ends after them unless the items are fixed-size lists that cannot be null, where asking for more may panic. Without fixed-size lists the collection is fully usable again: every later call behaves as on the list it shows, and consuming it yields that list; for try_extend this includes fixed-size lists inside of variable-size lists. Otherwise truncate to less than the length makes it usable, after try_extend in every composition, and after extend when no fixed-size lists lie inside of variable-size lists or an item it drops contains a fixed-size list there.", "quantifier": "every storage and collection type keeping the contract, every nesting of the layouts over them, every history (including earlier caught panics), every source, every position and cause of the panic", "why_tests_cant": "Panic positions are unbounded, and storages that run out of room in the middle of a call do not occur in the tests.", "anchors": ["src/bitmap/mod.rs: Bitmap::extend, try_extend", "src/validity.rs: Validity::extend, try_extend, VALIDITY_CHUNK", "src/offset.rs: Offsets::extend, try_extend", "src/collection/flatten.rs: Flatten::extend, try_extend, truncate"]}
{"id": "C64", "title": "Nested collections stay in the allocator they were given", "statement": "with_capacity_in, from_iter_in and their fallible versions put every storage inside of the collection they build (values, bitmaps, offsets, at every depth) into the allocator they are given; default, collect and with_capacity put them into the default allocator. extend, try_extend, reserve, try_reserve and truncate move no storage to another allocator, however they end, and a validity bitmap that they have to create is put into the allocator of the values next to it. So a collection whose calls and parts all used allocators with some property has only storages with that property, and allocator() is the allocator of the innermost storage. Allocators do not influence what a collection holds.", "quantifier": "every storage and collection type whose own constructors and calls keep their allocator, every nesting of bitmaps, fixed-size lists, nullable collections, variable-size lists and newtypes over them, every history of calls with any allocators, every outcome (return, error, panic)", "why_tests_cant": "Tests use Vec, whose allocator is (). The nesting depth, the mix of allocators and the call that first needs a bitmap are unbounded.", "anchors": ["src/collection/mod.rs: CollectionAllocIn, CollectionAlloc, CollectionRealloc::allocator", "src/bitmap/mod.rs: allocator, with_capacity_in, from_iter_in", "src/validity.rs: materialize_bitmap, with_capacity_in, from_iter_in, try_from_iter_in", "src/offset.rs: allocator, with_capacity_in, from_iter_in", "src/collection/flatten.rs: allocator, with_capacity_in", "src/array.rs: allocator, with_capacity_in", "src/collection/vec.rs: CollectionAllocIn for Vec"]}
{"id": "C65", "title": "Storages of fixed capacity can be filled to the last slot", "statement": "Suppose that every storage and collection type of a composition takes up to a certain number of items: its own infallible calls return, and its fallible calls succeed if the allocator does not refuse. Then with_capacity, collect, from_iter_in, extend and reserve of the composition return, and their fallible versions succeed, as long as the items fit into these numbers: eight flags or validity bits per byte, one offset per list and one more, the lengths of all lists within the offset type, a default item for every null item. For lists, space has to be left for a reservation of each list's items when it is added; if the items are not lists themselves, this follows from the items fitting. All this is claimed of collections that only grew (or shrank without a bitmap inside): a bitmap keeps the bytes of dropped bits, and reserve asks for bytes beside them.", "quantifier": "every storage and collection type keeping the contract, every capacity of each of them, every nesting of the layouts over them, every history of growing calls, every source", "why_tests_cant": "Capacities, nestings and histories are unbounded; tests use Vec, which does not run out of space.", "anchors": ["src/bitmap/mod.rs: Bitmap::extend, try_extend, reserve, try_reserve, with_capacity_in, from_iter_in", "src/validity.rs: Validity::extend, try_extend, reserve, materialize_bitmap", "src/offset.rs: Offsets::extend, try_extend, reserve, try_reserve, with_capacity_in", "src/collection/flatten.rs: Flatten::extend, reserve"]}
{"id": "C66", "title": "Messages identify errors", "statement": "Two errors of the same type that print the same message are the same error: the same kind with the same numbers. The message shows every number the error carries as a signed decimal numeral next to what it is, so a log line names the offending index, length or count. source() of an import error is Some exactly for errors about offsets, gives that error, and the message ends with its message. Messages are one line of printable ASCII.", "quantifier": "every error value of BitmapError, ValidityError, FlattenError, OffsetsError, ExportError, ImportError, all values of their usize and i64 fields", "why_tests_cant": "Injectivity is about all pairs of errors; fields range over 64-bit numbers, including negative ones.", "anchors": ["src/bitmap/mod.rs: Display for BitmapError", "src/validity.rs: Display for ValidityError", "src/collection/flatten.rs: Display for FlattenError", "src/offset.rs: Display for OffsetsError", "src/collection/mod.rs: Display for AllocError", "narrow-ffi/src/export/mod.rs: Display for ExportError", "narrow-ffi/src/import/mod.rs: Display for ImportError, Error::source"]}
{"id": "C67", "title": "Collections in fixed-capacity storages can be emptied and refilled", "statement": "Suppose that every storage and collection type of a composition takes up to a certain number of items and never more. Then which items can be added depends only on the items held: not on items that were dropped by truncate, on try_extend calls that failed, or on reservations. try_extend succeeds exactly if the old and new items together fit into the numbers: eight flags or validity bits per byte, one offset per list and one more, the lengths of all lists within the offset type, a default item for every null item. Otherwise it returns Err and the items are as before. extend returns only if they fit; without lists it returns exactly then and otherwise panics. (extend of lists also reserves for each list, see C65.) Collecting returns only if the items fit. So a collection can be truncated to nothing and filled with any items that would fit into a new one. Bitmaps have to begin at the first bit of their storage: bits before the first are never used.", "quantifier": "every storage and collection type keeping the contract, every capacity of each of them, every nesting of the layouts over them, every history of calls that add, drop or reserve and returned or failed, every source", "why_tests_cant": "Capacities, nestings and histories are unbounded; tests use Vec, which does not run out of space.", "anchors": ["src/bitmap/mod.rs: Bitmap::extend, try_extend, truncate, from_iter_in", "src/validity.rs: Validity::extend, try_extend, truncate, reserve", "src/offset.rs: Offsets::extend, try_extend, truncate", "src/collection/flatten.rs: Flatten::extend, try_extend, truncate"]}
{"id": "C68", "title": "The accessors of a collection show Arrow's layout at every level", "statement": "buffer_ref, child_ref, bitmap_ref and into_parts show the items of a collection in Arrow's layout, at every level of nesting: bits lie in the buffer from the bitmap's offset on, groups and lists lie one after the other in the child, offsets are the running totals of the list lengths, and there is one validity bit per item. If the collection was built by calls that returned, the parts hold nothing else: bits begin at the first bit, null items have the default value, and the child of lists holds exactly their items. Collections with the same parts show the same items. Parts taken out are put together again by try_from_parts; for nullable collections exactly if the child has as many items as there are validity bits, as is always the case if every call returned.", "quantifier": "every composition of bitmaps, lists, groups and nullable collections over storages and collections written by users, every history of calls, including assembled parts and caught panics", "why_tests_cant": "Compositions and storages are open: tests cover a few nestings over Vec, and short histories.", "anchors": ["src/buffer.rs: BufferRef", "src/collection/mod.rs: ChildRef", "src/bitmap/validity.rs: ValidityBitmap", "src/bitmap/mod.rs: buffer_ref, into_parts", "src/collection/flatten.rs: child_ref, into_parts", "src/validity.rs: child_ref, bitmap_ref, into_parts", "src/offset.rs: buffer_ref, child_ref, into_parts"]}
{"id": "C69", "title": "Debug output identifies collections and arrays", "statement": "Printing a collection with {:?} shows its parts in a fixed form: Bitmap { buffer, bits, offset }, Flatten(child), Validity { collection, bitmap }, Offset { data, offsets }, OffsetView { offset: start..end, .. }, and Array(..) around the name of the layout. If the text of the user's storages tells what they hold, two collections with the same text show the same items, also if the text is part of a longer one; two collections have the same text exactly if they have the same parts. Arrays of item types without floating-point numbers that print the same show the same items, and views of lists that print the same have the same range.", "quantifier": "every composition over storages and collections written by users, every history of calls, every array item type without floating-point numbers, every text that may follow", "why_tests_cant": "That no two of infinitely many collections share a text cannot be sampled: nested lists, options and structs could run into each other for particular items.", "anchors": ["src/bitmap/mod.rs: Debug for Bitmap", "src/collection/flatten.rs: Flatten", "src/validity.rs: Debug for Validity", "src/offset.rs: Debug for Offsets, Debug for OffsetView", "src/array.rs: Debug for Array", "src/layout/boolean.rs: Debug for Boolean", "src/layout/fixed_size_primitive.rs: Debug for FixedSizePrimitive", "src/layout/fixed_size_list.rs: Debug for FixedSizeList", "src/layout/variable_size_list.rs: Debug for VariableSizeList", "src/fixed_size.rs: FixedSizeArray"]}
{"id": "C70", "title": "Arrays behave the same in every storage, also those written by users", "statement": "An Array<T, Storage> over a user's implementation of Buffer, whose storages do what the collection traits promise, behaves as a plain list of items: whatever calls built it, len, owned, iter_views and into_iter_owned show the items the list would hold; truncate returns; try_extend appends all items or reports an error and leaves the items as they were, and does not panic unless the source does. Arrays built in two storages by calls that build the same list show the same items. With VecBuffer, every call does what it does to Array<T>.", "quantifier": "every array item type, nullable or not at every level, every storage family keeping the contract, every history of constructing, growing, reserving and truncating calls, every allocator behaviour", "why_tests_cant": "Item types nest without bound and storages are an open set; tests instantiate a few item types with the storages of the crate.", "anchors": ["src/buffer.rs: Buffer, VecBuffer", "src/array.rs: Array", "src/layout/mod.rs: Layout, ArrayItem", "src/nullability.rs: Nullability", "src/layout/boolean.rs: Boolean", "src/layout/fixed_size_primitive.rs: FixedSizePrimitive", "src/layout/fixed_size_list.rs: FixedSizeList", "src/layout/variable_size_list.rs: VariableSizeList"]}
{"id": "C71", "title": "Fixed-size values and views of groups give access to their elements", "statement": "A FixedSizeArray made from an array dereferences to that array, and every FixedSizeArray is made from exactly one; its elements lie one after the other in memory. Its default dereferences to default elements and is the value null items have. Two are equal exactly if all elements are, and the first element that differs decides their order. Arrays of FixedSizeArrays give back the arrays they were collected from, nulls included. The view of a group in a fixed-size list collection dereferences to the views of its elements in the child collection, in order, and so does a clone of it. A clone of the view of a list reads as the list.", "quantifier": "all element types (nested ones included), lengths, element values, equalities and orders of elements, all lists of optional arrays, all compositions over sound storages and all histories, all indices", "why_tests_cant": "Lengths, element types, element values and histories are unbounded; tests use a handful of small arrays.", "anchors": ["src/fixed_size.rs: FixedSizeArray, From, Deref, Default, PartialEq, Ord", "src/collection/flatten.rs: FlattenView, Deref, Clone", "src/offset.rs: OffsetView Clone"]}
{"id": "C72", "title": "Lists of any item type in storages written by users", "statement": "Offsets<T, OffsetItem, Storage, U> keeps its behaviour when every type parameter is chosen by the user: elements in any collection, offsets in any storage, items given and returned as any collection type. Items contribute exactly the values reading them shows: every growing and constructing call has the storage, the outcome and the use of the allocator that it has with Vec items. Reading an item returns a U that shows the list, or panics exactly if U cannot be collected from it; this holds for lists put together from storages that cannot grow too. An item that cannot be read makes extend and collect panic and makes try_extend panic or return an error with nothing changed; if the storages survive panics, the lists before it are kept and nothing of it shows up. Reserving calls make room as in C76 and leave the lists as they are, and truncating keeps the first lists.", "quantifier": "every element collection, offsets storage and item type keeping the contract of its traits (with bounded room, own panics and errors), every history of calls and parts, every item, source and allocator behaviour", "why_tests_cant": "Three open type parameters at once, each with state and failures of its own; tests fix all of them.", "anchors": ["src/offset.rs: Offsets<T, OffsetItem, Storage, U>, Extend::extend, try_extend, from_iter_in, try_from_iter_in, OffsetIntoIter::next, OffsetView::into_owned"]}
{"id": "C73", "title": "Import reads structures from memory as C lays them out, and survives cycles", "statement": "Importing an ArrowArray and an ArrowSchema that a producer left in memory at any addresses, laid out as the C declarations of the Arrow C Data Interface say, gives what the structures written there describe: within the contract of import it returns; an accepted array is valid, has the declared length and borrows the producer's buffers; a rejection names something that is wrong. Only as many levels of children are read as the item type has lists, so structures may share children and what lies deeper does not matter. Structures exported by the library import with the same items. Import terminates on every memory, and a structure that is its own descendant is never accepted.", "quantifier": "every memory, addresses, item type and nesting, structures and strings in memory (shared or cyclic ones included)", "why_tests_cant": "Memory contents, addresses and structures are unbounded and come from foreign code; tests build well-formed structures with the library's own types.", "anchors": ["narrow-ffi/src/lib.rs: ArrowArray, ArrowSchema", "narrow-ffi/src/import/mod.rs: import, ImportedArray, ImportedSchema", "narrow-ffi/src/import/{boolean,fixed_size_primitive,fixed_size_list,variable_size_list}.rs"]}
{"id": "C74", "title": "Export writes structures into memory as C lays them out, and release frees exactly them", "statement": "Exporting an array leaves in memory structures laid out as the C declarations of the Arrow C Data Interface say, whose pointers lead to its children, buffers and strings, aligned, without changing anything else in memory, wherever the allocator puts blocks and wherever the consumer moves the two top-level structures. Buffers held inline in the array are pointed to where the array ends up, not where it was before. Unless the allocator refuses, export returns the structures or NonZeroOffset, and in the latter case memory is as before and the array was dropped once. Importing from the structures gives the items back. Calling the two release callbacks, in either order, frees every block that export allocated, frees and writes nothing else but the two structures, marks them as released and drops the array once with its bytes intact; each structure remains readable until its own release, and dropping a released structure does nothing.", "quantifier": "every item type and nesting, reachable array, memory, allocator, layout of private data, addresses of structures, order of release", "why_tests_cant": "Addresses, allocators, array contents and nestings are unbounded, and use after free, double free and leaks depend on where blocks are; tests see one allocator and one layout.", "anchors": ["narrow-ffi/src/export/mod.rs: Export::export, ArrayData, release_array, release_schema", "narrow-ffi/src/export/{boolean,fixed_size_primitive,fixed_size_list,variable_size_list}.rs", "narrow-ffi/src/lib.rs: ArrowArray, ArrowSchema, Drop"]}
{"id": "C75", "title": "Any interleaving of exports, moves, child moves and releases is safe, keeps what is not released, and leaks nothing", "statement": "Arrays may be exported one after the other while a consumer stores the structures it gets, moves them, takes children out of them (copying the child and marking it released in place) or releases children in place, at any depth, drops structures in any order and any number of times, and gives their memory back, and while the rest of the program allocates. At any point of any such history every structure can be dropped without undefined behaviour (again without effect if it was released), its child can be found, taken out or released, further arrays can be exported with the outcome they would have alone, a structure that is not released is in memory as the export made it, whatever became of the structures above it, an array whose ArrowArray is not released is in memory with its buffers and can be imported with its items, the two structures of a child that were taken out of it can be imported with the items of that child as long as its buffers are in memory, and the memory of the rest of the program is untouched. The arrays dropped so far together with those whose exported ArrowArray is not released are exactly the arrays exported, each once. When all structures are released, memory and allocated blocks are as they would be without the exports.", "quantifier": "all numbers of exports of all exportable arrays, all interleavings with stores, moves, drops, children taken out or released at every depth, failed exports and other allocations, all allocators (which may reuse freed addresses) and layouts of private data", "why_tests_cant": "a test runs a few interleavings with one allocator; one export's release touching another's memory shows only for particular orders and addresses", "anchors": ["narrow-ffi/src/export/mod.rs: Export::export, release_array, release_flat_schema, release_schema", "narrow-ffi/src/lib.rs: Drop for ArrowArray, Drop for ArrowSchema"]}
{"id": "C76", "title": "Reserving makes room in collections over storages written by users", "statement": "If the collections and storages inside a collection make room when asked to reserve (what they have room for is appended whatever the allocator answers), then so does the collection: after with_capacity(n), try_with_capacity_in(n), reserve(n) or try_reserve(n) returned successfully, appending items that n covers, in any number of try_extend calls and with any truncation in between, returns Ok with the result a plain list gives, whatever the allocator answers. n covers n items and, for lists, n elements together; without variable-size lists it covers any n items. The offsets may still overflow if the lengths of the lists do not fit the offset type. Vec makes room in this sense.", "quantifier": "all compositions of user collections, bitmaps, fixed-size lists, validity and offsets over any storages that make room, all histories before the reserving call, all n and all calls after it, all allocators; arrays of every item type over such storages", "why_tests_cant": "a test uses one storage and one shape of data; a combinator that forgets to pass the reservation on, or passes the wrong number, shows only when the allocator refuses afterwards", "anchors": ["src/collection/mod.rs: CollectionAlloc::with_capacity, CollectionAllocIn::try_with_capacity_in, CollectionRealloc::reserve, try_reserve", "src/offset.rs: Offsets::with_capacity_in, try_with_capacity_in, reserve, try_reserve, try_extend", "src/validity.rs: Validity::with_capacity_in, try_with_capacity_in, reserve, try_reserve", "src/bitmap/mod.rs: Bitmap::with_capacity_in, try_with_capacity_in, reserve, try_reserve", "src/collection/flatten.rs: Flatten", "src/buffer.rs: Buffer"]}
{"id": "C77", "title": "Structures of any producer that follow the Arrow format are imported with their items unless they use a named unsupported feature", "statement": "Let a producer hand over an ArrowArray and an ArrowSchema that follow the Arrow format for the item type: live structures, the format and nullable flag of the type, no dictionaries, the tables of buffers and children that belong to it, buffers as long as the format demands for offset plus length items, offsets that do not decrease and stay within the child, and a null count that is right or unknown. Then import returns, without panicking or reading outside the buffers; it succeeds exactly if neither the structures nor a child use a non-zero offset, an omitted bitmap with an unknown null count, misaligned values or offsets, fixed-size lists of no items, a child longer than the fixed-size lists need, an omitted offsets buffer or a first list offset above zero; and an array imported so has exactly the items the structures denote by the Arrow format. What the crate itself exports follows the Arrow format in the same sense, including all child structures.", "quantifier": "every exportable item type, every memory, every pair of structures that follows the Arrow format, and every array that is exported", "why_tests_cant": "Tests import a handful of hand-written structures and mostly what the crate itself exported; what other producers may hand over ranges over all memories, lengths, offsets and nestings the format allows, so a check that is too strict or too lax for one of them goes unnoticed.", "anchors": ["narrow-ffi/src/import/mod.rs: import_layout, ImportError", "narrow-ffi/src/export/mod.rs: Export::export"]}
