{
 "claims": [
  {
   "property": "C01",
   "status": "proved",
   "theorems": [
    "Narrow.Props.C01_collect",
    "Narrow.Props.C01_collect_returns"
   ],
   "note": "every fused source (others: C52); return guaranteed when the bits fit and hints are not exaggerated"
  },
  {
   "property": "C02",
   "status": "proved",
   "theorems": [
    "Narrow.Props.C02_encoding"
   ],
   "note": "bit i of the buffer is item i for every bitmap grown from empty; padding bits zero"
  },
  {
   "property": "C03",
   "status": "proved",
   "theorems": [
    "Narrow.Props.C03_accepts",
    "Narrow.Props.C03_reads",
    "Narrow.Props.C03_rejects"
   ],
   "note": ""
  },
  {
   "property": "C04",
   "status": "proved",
   "theorems": [
    "Narrow.Props.C04_extend",
    "Narrow.Props.C04_try_extend",
    "Narrow.Props.C04_extend_returns"
   ],
   "note": "any start offset, any prior contents"
  },
  {
   "property": "C05",
   "status": "proved",
   "theorems": [
    "Narrow.Props.C05_null_queries"
   ],
   "note": ""
  },
  {
   "property": "C06",
   "status": "proved",
   "theorems": [
    "Narrow.Props.C06_pack",
    "Narrow.Props.C06_unpack",
    "Narrow.Props.C06_unpack_pack",
    "Narrow.Props.C06_pack_unpack"
   ],
   "note": ""
  },
  {
   "property": "C08",
   "status": "proved",
   "theorems": [
    "Narrow.Props.C08_collect_round_trip",
    "Narrow.Props.C08_collect_returns",
    "Narrow.Props.C08_collect_list"
   ],
   "note": "sources that keep returning None after their end; see C07 for the others"
  },
  {
   "property": "C09",
   "status": "partial",
   "theorems": [
    "Narrow.Props.C09_out_of_range_none_partial",
    "Narrow.Props.C09_fixed_size_list_panics",
    "Narrow.Props.C09_list_panics_at_max",
    "Narrow.Props.C09_any_storage",
    "Narrow.Props.C09_storages"
   ],
   "note": "false of the code for Array<[T;N]> (every read past the end panics) and Array<Vec<T>> at usize::MAX: both proved; holds elsewhere. C09_any_storage says the same of every composition over any storage"
  },
  {
   "property": "C10",
   "status": "proved",
   "theorems": [
    "Narrow.Props.C10_extend_appends",
    "Narrow.Props.C10_extend_returns"
   ],
   "note": ""
  },
  {
   "property": "C11",
   "status": "proved",
   "theorems": [
    "Narrow.Props.C11_truncate"
   ],
   "note": ""
  },
  {
   "property": "C12",
   "status": "proved",
   "theorems": [
    "Narrow.Props.C12_try_extend_all_or_nothing",
    "Narrow.Props.C12_try_extend_succeeds"
   ],
   "note": ""
  },
  {
   "property": "C13",
   "status": "proved",
   "theorems": [
    "Narrow.Props.C13_reserve",
    "Narrow.Props.C13_try_reserve",
    "Narrow.Props.C13_reserve_returns",
    "Narrow.Props.C13_try_reserve_succeeds"
   ],
   "note": ""
  },
  {
   "property": "C15",
   "status": "proved",
   "theorems": [
    "Narrow.Props.C15_histories",
    "Narrow.Props.C15_histories_empty",
    "Narrow.Props.C15_histories_exact"
   ],
   "note": ""
  },
  {
   "property": "C16",
   "status": "partial",
   "theorems": [
    "Narrow.Props.C16_extend_panic_partial",
    "Narrow.Props.C16_extend_source_panic_partial",
    "Narrow.Props.C16_try_extend_source_panic_partial",
    "Narrow.Props.C16_try_extend_panic_partial",
    "Narrow.Props.C16_seen_after_panic_partial",
    "Narrow.Props.C16_seen_after_try_panic_partial",
    "Narrow.Props.C16_shown_after_panic_partial",
    "Narrow.Props.C16_shown_after_try_panic_partial",
    "Narrow.Props.C16_nullable_breaks",
    "Narrow.Props.C16_dropping_mends_partial",
    "Narrow.Props.C16_truncate_mends_partial",
    "Narrow.Props.C16_truncate_mends_try_partial",
    "Narrow.Props.C16_fixed_size_list_breaks",
    "Narrow.Props.C16_fixed_size_list_try_extend_breaks",
    "Narrow.Props.C16_consuming_panics",
    "Narrow.Props.C16_truncate_to_length_does_not_mend",
    "Narrow.Props.C16_truncate_may_not_mend",
    "Narrow.Props.C16_try_extend_keeps_partial",
    "Narrow.Props.C16_fixed_size_lists_split",
    "Narrow.Props.C16_grown_flags_split"
   ],
   "note": "false of the code for later growth and for consuming fixed-size lists of bool, or of nullable items whose number does not fit the chunks of 1024: proved for all such item types not within variable-size or nullable fixed-size lists; holds in full for the others, with the exact number of items that stay; arrays built by growing within memory limits are sound also for fixed-size lists of booleans whose number divides 8 or is a multiple of it, and not for the others; for every item type reading by reference shows the right items after the panic and consuming yields them, and unless the items are fixed-size lists that cannot be null consuming also ends properly; truncating so that a suitable item is dropped makes the array sound again; any item is suitable unless there are fixed-size lists within variable-size lists, where an empty list is not: proved by witness"
  },
  {
   "property": "C17",
   "status": "proved",
   "theorems": [
    "Narrow.Props.C17_iterators_exact"
   ],
   "note": ""
  },
  {
   "property": "C18",
   "status": "proved",
   "theorems": [
    "Narrow.Props.C18_constructors_agree",
    "Narrow.Props.C18_empty",
    "Narrow.Props.C18_constructors_succeed"
   ],
   "note": ""
  },
  {
   "property": "C19",
   "status": "proved",
   "theorems": [
    "Narrow.Props.C19_accepts",
    "Narrow.Props.C19_reads",
    "Narrow.Props.C19_rejects",
    "Narrow.Props.C19_from_collection"
   ],
   "note": ""
  },
  {
   "property": "C20",
   "status": "proved",
   "theorems": [
    "Narrow.Props.C20_default_values",
    "Narrow.Props.C20_null_slots_default"
   ],
   "note": ""
  },
  {
   "property": "C21",
   "status": "proved",
   "theorems": [
    "Narrow.Props.C21_reserve_materializes",
    "Narrow.Props.C21_try_reserve_materializes",
    "Narrow.Props.C21_extend",
    "Narrow.Props.C21_try_extend"
   ],
   "note": ""
  },
  {
   "property": "C22",
   "status": "proved",
   "theorems": [
    "Narrow.Props.C22_uncommitted_invisible",
    "Narrow.Props.C22_extend_discards",
    "Narrow.Props.C22_try_extend_discards"
   ],
   "note": ""
  },
  {
   "property": "C23",
   "status": "proved",
   "theorems": [
    "Narrow.Props.C23_accepts",
    "Narrow.Props.C23_rejects",
    "Narrow.Props.C23_violation_unique"
   ],
   "note": ""
  },
  {
   "property": "C24",
   "status": "proved",
   "theorems": [
    "Narrow.Props.C24_slices"
   ],
   "note": ""
  },
  {
   "property": "C25",
   "status": "proved",
   "theorems": [
    "Narrow.Props.C25_collect",
    "Narrow.Props.C25_histories"
   ],
   "note": ""
  },
  {
   "property": "C26",
   "status": "proved",
   "theorems": [
    "Narrow.Props.C26_extend_never_wraps",
    "Narrow.Props.C26_extend_keeps",
    "Narrow.Props.C26_try_extend_err",
    "Narrow.Props.C26_succeeds"
   ],
   "note": ""
  },
  {
   "property": "C27",
   "status": "proved",
   "theorems": [
    "Narrow.Props.C27_extend",
    "Narrow.Props.C27_try_extend"
   ],
   "note": ""
  },
  {
   "property": "C28",
   "status": "partial",
   "theorems": [
    "Narrow.Props.C28_view_reads",
    "Narrow.Props.C28_view_past_end",
    "Narrow.Props.C28_equals_array",
    "Narrow.Props.C28_equals_view",
    "Narrow.Props.C28_same_iff"
   ],
   "note": "everything but one corner: reading past the end panics instead of returning None when the position in the data exceeds usize::MAX (C28_view_past_end says exactly when)"
  },
  {
   "property": "C29",
   "status": "proved",
   "theorems": [
    "Narrow.Props.C29_accepts",
    "Narrow.Props.C29_groups",
    "Narrow.Props.C29_rejects"
   ],
   "note": ""
  },
  {
   "property": "C30",
   "status": "partial",
   "theorems": [
    "Narrow.Props.C30_try_from_parts_partial",
    "Narrow.Props.C30_zero_width_constructible",
    "Narrow.Props.C30_zero_width_unusable"
   ],
   "note": "false of the code: every constructor but try_from_parts produces width zero, and then len() panics; both proved"
  },
  {
   "property": "C07",
   "status": "partial",
   "theorems": [
    "Narrow.Props.C07_extend",
    "Narrow.Props.C07_try_extend",
    "Narrow.Props.C07_collect_partial",
    "Narrow.Props.C07_bool_reads_past_none",
    "Narrow.Props.C07_option_bool_reads_past_none",
    "Narrow.Props.C07_bool_collect_exact",
    "Narrow.Props.C07_option_bool_collect_exact",
    "Narrow.Props.C07_bool_collect_partial"
   ],
   "note": "holds for every extend and try_extend and for collecting every type but bool; collecting Array<bool> and Array<Option<bool>> from a source that resumes after None is false of the code, proved with a witness; the exact theorems say what is collected instead, for every source"
  },
  {
   "property": "C14",
   "status": "proved",
   "theorems": [
    "Narrow.Props.C14_try_reserve_makes_room",
    "Narrow.Props.C14_in_several_calls",
    "Narrow.Props.C14_lists_excluded"
   ],
   "note": ""
  },
  {
   "property": "C41",
   "status": "proved",
   "theorems": [
    "Narrow.Props.C41_slice_into_iter",
    "Narrow.Props.C41_storage",
    "Narrow.Props.C41_arrays"
   ],
   "note": ""
  },
  {
   "property": "C31",
   "status": "proved",
   "theorems": [
    "Narrow.Props.C31_round_trip",
    "Narrow.Props.C31_meets_contract",
    "Narrow.Props.C31_uncommitted_fails"
   ],
   "note": "C31_uncommitted_fails shows by a witness that the hypothesis of committed storage is needed"
  },
  {
   "property": "C32",
   "status": "proved",
   "theorems": [
    "Narrow.Props.C32_iff",
    "Narrow.Props.C32_succeeds",
    "Narrow.Props.C32_fails"
   ],
   "note": ""
  },
  {
   "property": "C33",
   "status": "proved",
   "theorems": [
    "Narrow.Props.C33_describes",
    "Narrow.Props.C33_widths"
   ],
   "note": ""
  },
  {
   "property": "C34",
   "status": "proved",
   "theorems": [
    "Narrow.Props.C34_export_points",
    "Narrow.Props.C34_import_borrows"
   ],
   "note": ""
  },
  {
   "property": "C35",
   "status": "proved",
   "theorems": [
    "Narrow.Props.C35_import_returns",
    "Narrow.Props.C35_imported_is_valid"
   ],
   "note": ""
  },
  {
   "property": "C36",
   "status": "proved",
   "theorems": [
    "Narrow.Props.C36_accepts_iff",
    "Narrow.Props.C36_error_is_defect",
    "Narrow.Props.C36_reports",
    "Narrow.Props.C36_header",
    "Narrow.Props.C36_released",
    "Narrow.Props.C36_default"
   ],
   "note": ""
  },
  {
   "property": "C37",
   "status": "proved",
   "theorems": [
    "Narrow.Props.C37_same_type",
    "Narrow.Props.C37_schema_decides"
   ],
   "note": ""
  },
  {
   "property": "C38",
   "status": "proved",
   "theorems": [
    "Narrow.Props.C38_accepts_iff",
    "Narrow.Props.C38_round_trip",
    "Narrow.Props.C38_no_wrap",
    "Narrow.Props.C38_canonical"
   ],
   "note": ""
  },
  {
   "property": "C39",
   "status": "partial",
   "theorems": [
    "Narrow.Props.C39_known_count",
    "Narrow.Props.C39_unknown_count",
    "Narrow.Props.C39_non_nullable_partial",
    "Narrow.Props.C39_null_becomes_value",
    "Narrow.Props.C39_bitmap_ignored"
   ],
   "note": "the part about non-nullable item types is false of the code: with null count -1 or 0 the validity bitmap is ignored; proved with a witness"
  },
  {
   "property": "C40",
   "status": "proved",
   "theorems": [
    "Narrow.Props.C40_owned",
    "Narrow.Props.C40_failed",
    "Narrow.Props.C40_moved_child_dangles"
   ],
   "note": "C40_moved_child_dangles shows that children moved out of a structure are not covered, as the Arrow specification would require"
  },
  {
   "property": "C42",
   "status": "proved",
   "theorems": [
    "Narrow.Props.C42_export_denotes",
    "Narrow.Props.C42_denotes_unique"
   ],
   "note": "the reader is Verif/Spec/Arrow.lean"
  },
  {
   "property": "C43",
   "status": "proved",
   "theorems": [
    "Narrow.Props.C43_import_denotes",
    "Narrow.Props.C42_denotes_unique"
   ],
   "note": "for a non-nullable item type the reader does not consult the bitmap, see C39"
  },
  {
   "property": "C44",
   "status": "proved",
   "theorems": [
    "Narrow.Props.C44_round_trip",
    "Narrow.Props.C44_exported_imports",
    "Narrow.Props.C44_committed",
    "Narrow.Props.C44_zero_offsets",
    "Narrow.Props.C44_interrupted_fails"
   ],
   "note": "C44_interrupted_fails and C31_uncommitted_fails show that the restriction is needed"
  },
  {
   "property": "C45",
   "status": "proved",
   "theorems": [
    "Narrow.Props.C45_bitmap",
    "Narrow.Props.C45_fixed_size_list",
    "Narrow.Props.C45_list",
    "Narrow.Props.C45_nullable",
    "Narrow.Props.C45_interrupted_fails"
   ],
   "note": "C45_interrupted_fails shows that the restriction for Validity is needed"
  },
  {
   "property": "C46",
   "status": "proved",
   "theorems": [
    "Narrow.Props.C46_try_with_capacity",
    "Narrow.Props.C46_try_from_iter",
    "Narrow.Props.C46_try_extend",
    "Narrow.Props.C46_try_reserve"
   ],
   "note": ""
  },
  {
   "property": "C47",
   "status": "proved",
   "theorems": [
    "Narrow.Props.C47_imported",
    "Narrow.Props.C47_reexport"
   ],
   "note": ""
  },
  {
   "property": "C48",
   "status": "proved",
   "theorems": [
    "Narrow.Props.C48_collect",
    "Narrow.Props.C48_collect_returns",
    "Narrow.Props.C48_same_as_vec",
    "Narrow.Props.C48_with_capacity"
   ],
   "note": ""
  },
  {
   "property": "C49",
   "status": "partial",
   "theorems": [
    "Narrow.Props.C49_try_with_capacity",
    "Narrow.Props.C49_refused_is_error",
    "Narrow.Props.C49_try_from_iter_partial",
    "Narrow.Props.C49_shrink_refused"
   ],
   "note": "false of the code when the allocator refuses the smaller block for the finished Vec (into_boxed_slice does not return): C49_shrink_refused; proved for every other allocator behaviour"
  },
  {
   "property": "C50",
   "status": "proved",
   "theorems": [
    "Narrow.Props.C50_map",
    "Narrow.Props.C50_zip",
    "Narrow.Props.C50_zip_with"
   ],
   "note": ""
  },
  {
   "property": "C51",
   "status": "proved",
   "theorems": [
    "Narrow.Props.C51_is_empty",
    "Narrow.Props.C51_storage_is_empty"
   ],
   "note": ""
  },
  {
   "property": "C52",
   "status": "proved",
   "theorems": [
    "Narrow.Props.C52_built_reads",
    "Narrow.Props.C52_truncate_returns",
    "Narrow.Props.C52_fallible_calls_return",
    "Narrow.Props.C52_seen_after_panic",
    "Narrow.Props.C52_mends_after_panic",
    "Narrow.Props.C52_any_item_clears",
    "Narrow.Props.C52_mends_after_try_panic",
    "Narrow.Props.C52_collect_returns",
    "Narrow.Props.C52_extend_returns",
    "Narrow.Props.C52_reserve_returns",
    "Narrow.Props.C52_try_calls_succeed"
   ],
   "note": "Elements of Vec are taken to clone without panicking; zero-width Flatten is covered by C30, not here"
  },
  {
   "property": "C53",
   "status": "proved",
   "theorems": [
    "Narrow.Props.C53_newtypes_forward",
    "Narrow.Props.C53_arrays_forward",
    "Narrow.Props.C53_collect_extend_truncate",
    "Narrow.Props.C53_buffers"
   ],
   "note": ""
  },
  {
   "property": "C54",
   "status": "proved",
   "theorems": [
    "Narrow.Props.C54_same_as_vec",
    "Narrow.Props.C54_extend_appends",
    "Narrow.Props.C54_try_extend_appends",
    "Narrow.Props.C54_collect",
    "Narrow.Props.C54_item_read",
    "Narrow.Props.C54_reads",
    "Narrow.Props.C54_unreadable_item",
    "Narrow.Props.C54_unreadable_item_try",
    "Narrow.Props.C54_unreadable_collect",
    "Narrow.Props.C54_runs_same",
    "Narrow.Props.C54_reserving_makes_room"
   ],
   "note": ""
  },
  {
   "property": "C55",
   "status": "proved",
   "theorems": [
    "Narrow.Props.C55_reserving_makes_room",
    "Narrow.Props.C55_composed",
    "Narrow.Props.C55_covers_any",
    "Narrow.Props.C55_no_more_room"
   ],
   "note": "For arrays grown within memory; sources with honest size hints. Lists: n covers at most n lists with at most n elements together"
  },
  {
   "property": "C56",
   "status": "proved",
   "theorems": [
    "Narrow.Props.C56_built_reads",
    "Narrow.Props.C56_truncate_returns",
    "Narrow.Props.C56_fallible_calls_return",
    "Narrow.Props.C56_panics_propagate",
    "Narrow.Props.C56_stops_at_none",
    "Narrow.Props.C56_storages_stay_good",
    "Narrow.Props.C56_bitmap_parts",
    "Narrow.Props.C56_validity_parts",
    "Narrow.Props.C56_offsets_parts",
    "Narrow.Props.C56_list_views",
    "Narrow.Props.C56_vec_same",
    "Narrow.Props.C56_vec"
   ],
   "note": "List items are Vec (other item types: C54, C72); constructors with sources fused, as in C52; a new offsets storage must accept one offset"
  },
  {
   "property": "C57",
   "status": "proved",
   "theorems": [
    "Narrow.Props.C57_memory"
   ],
   "note": "Buffers of moved array children belong to the exported structure: C40_moved_child_dangles shows that they do not outlive it, contrary to the Arrow specification"
  },
  {
   "property": "C58",
   "status": "proved",
   "theorems": [
    "Narrow.Props.C58_reads",
    "Narrow.Props.C58_keeps_contract",
    "Narrow.Props.C58_bitmap_parts",
    "Narrow.Props.C58_flatten_parts",
    "Narrow.Props.C58_validity_parts",
    "Narrow.Props.C58_offsets_parts",
    "Narrow.Props.C58_storages"
   ],
   "note": "List items are Vec (other item types: C72); groups of positive size"
  },
  {
   "property": "C59",
   "status": "proved",
   "theorems": [
    "Narrow.Props.C59_queries",
    "Narrow.Props.C59_short_bitmap",
    "Narrow.Props.C59_parts",
    "Narrow.Props.C59_built",
    "Narrow.Props.C59_same"
   ],
   "note": ""
  },
  {
   "property": "C60",
   "status": "proved",
   "theorems": [
    "Narrow.Props.C60_view_reads",
    "Narrow.Props.C60_compares",
    "Narrow.Props.C60_equals",
    "Narrow.Props.C60_nested",
    "Narrow.Props.C60_nullable"
   ],
   "note": "for collections that show a list (C58 gives these for every read-only composition); the item comparison is a parameter"
  },
  {
   "property": "C61",
   "status": "proved",
   "theorems": [
    "Narrow.Props.C61_shows",
    "Narrow.Props.C61_reads",
    "Narrow.Props.C61_items",
    "Narrow.Props.C61_clones",
    "Narrow.Props.C61_read_only",
    "Narrow.Props.C61_vec",
    "Narrow.Props.C61_vec_room"
   ],
   "note": "what was cloned before a panicking clone is not modelled"
  },
  {
   "property": "C62",
   "status": "proved",
   "theorems": [
    "Narrow.Props.C62_clone_reads",
    "Narrow.Props.C62_clone_diverges",
    "Narrow.Props.C62_clone_extends",
    "Narrow.Props.C62_bitmap_parts"
   ],
   "note": ""
  },
  {
   "property": "C63",
   "status": "proved",
   "theorems": [
    "Narrow.Props.C63_seen_after_panic",
    "Narrow.Props.C63_seen_after_try_panic",
    "Narrow.Props.C63_shown_after_panic",
    "Narrow.Props.C63_shown_after_try_panic",
    "Narrow.Props.C63_consuming_panics",
    "Narrow.Props.C63_usable_after_panic",
    "Narrow.Props.C63_usable_after_try_panic",
    "Narrow.Props.C63_dropping_mends",
    "Narrow.Props.C63_truncate_mends",
    "Narrow.Props.C63_truncate_mends_try",
    "Narrow.Props.C63_vec"
   ],
   "note": "compositions with fixed-size lists are readable but damaged until truncated, see C16_fixed_size_list_breaks"
  },
  {
   "property": "C64",
   "status": "proved",
   "theorems": [
    "Narrow.Props.C64_storages_in_given_allocators",
    "Narrow.Props.C64_constructors",
    "Narrow.Props.C64_calls_move_nothing",
    "Narrow.Props.C64_allocator",
    "Narrow.Props.C64_allocator_is_given",
    "Narrow.Props.C64_built_reads",
    "Narrow.Props.C64_calls_return",
    "Narrow.Props.C64_one_allocator",
    "Narrow.Props.C64_with_capacity",
    "Narrow.Props.C64_vec"
   ],
   "note": "an allocator is a value and its clone is the same value"
  },
  {
   "property": "C65",
   "status": "proved",
   "theorems": [
    "Narrow.Props.C65_extend_returns",
    "Narrow.Props.C65_reserve_returns",
    "Narrow.Props.C65_collect_returns",
    "Narrow.Props.C65_collect_in_returns",
    "Narrow.Props.C65_with_capacity_returns",
    "Narrow.Props.C65_try_extend_succeeds",
    "Narrow.Props.C65_try_reserve_succeeds",
    "Narrow.Props.C65_try_constructors_succeed",
    "Narrow.Props.C65_room_is_spare",
    "Narrow.Props.C65_list_room",
    "Narrow.Props.C65_vec",
    "Narrow.Props.C65_dropped_bits_occupy",
    "Narrow.Props.C65_dropped_lists_occupy"
   ],
   "note": "not claimed after bits were dropped: C65_dropped_bits_occupy, C65_dropped_lists_occupy"
  },
  {
   "property": "C66",
   "status": "proved",
   "theorems": [
    "Narrow.Props.C66_bitmap_errors",
    "Narrow.Props.C66_validity_errors",
    "Narrow.Props.C66_flatten_errors",
    "Narrow.Props.C66_offsets_errors",
    "Narrow.Props.C66_export_errors",
    "Narrow.Props.C66_import_errors",
    "Narrow.Props.C66_numbers",
    "Narrow.Props.C66_ffi_numbers",
    "Narrow.Props.C66_source",
    "Narrow.Props.C66_printable"
   ],
   "note": "Debug output of errors is not modelled"
  },
  {
   "property": "C67",
   "status": "proved",
   "theorems": [
    "Narrow.Props.C67_try_extend_exact",
    "Narrow.Props.C67_extend_fits",
    "Narrow.Props.C67_extend_exact",
    "Narrow.Props.C67_clear_refill",
    "Narrow.Props.C67_replace",
    "Narrow.Props.C67_collect_fits",
    "Narrow.Props.C67_room_fits",
    "Narrow.Props.C67_vec",
    "Narrow.Props.C67_skipped_bits_occupy"
   ],
   "note": "bitmaps with an offset are excluded: C67_skipped_bits_occupy"
  },
  {
   "property": "C68",
   "status": "proved",
   "theorems": [
    "Narrow.Props.C68_encoded",
    "Narrow.Props.C68_encoded_exactly",
    "Narrow.Props.C68_same_parts",
    "Narrow.Props.C68_bitmap_parts",
    "Narrow.Props.C68_flatten_parts",
    "Narrow.Props.C68_offsets_parts",
    "Narrow.Props.C68_validity_parts",
    "Narrow.Props.C68_validity_returned"
   ],
   "note": ""
  },
  {
   "property": "C69",
   "status": "proved",
   "theorems": [
    "Narrow.Props.C69_bitmap_text",
    "Narrow.Props.C69_flatten_text",
    "Narrow.Props.C69_validity_text",
    "Narrow.Props.C69_offsets_text",
    "Narrow.Props.C69_view_text",
    "Narrow.Props.C69_view_tells",
    "Narrow.Props.C69_same_text",
    "Narrow.Props.C69_text_tells",
    "Narrow.Props.C69_text_tells_inside",
    "Narrow.Props.C69_vec",
    "Narrow.Props.C69_items",
    "Narrow.Props.C69_array_tells",
    "Narrow.Props.C69_array_text"
   ],
   "note": "the {:#?} form and formatter flags are not modelled; the text of floating-point numbers is a parameter"
  },
  {
   "property": "C70",
   "status": "proved",
   "theorems": [
    "Narrow.Props.C70_array_composition",
    "Narrow.Props.C70_reads",
    "Narrow.Props.C70_collect_extend_truncate",
    "Narrow.Props.C70_try_extend",
    "Narrow.Props.C70_storage_invisible",
    "Narrow.Props.C70_vec_same"
   ],
   "note": "extend interrupted by a panic is C63, through C70_array_composition"
  },
  {
   "property": "C71",
   "status": "proved",
   "theorems": [
    "Narrow.Props.C71_round_trip",
    "Narrow.Props.C71_bytes",
    "Narrow.Props.C71_default",
    "Narrow.Props.C71_eq",
    "Narrow.Props.C71_order",
    "Narrow.Props.C71_collect",
    "Narrow.Props.C71_group_view",
    "Narrow.Props.C71_list_view_clone"
   ],
   "note": "Hash, and PartialOrd of elements that cannot be compared, are not modelled"
  },
  {
   "property": "C72",
   "status": "proved",
   "theorems": [
    "Narrow.Props.C72_same_as_vec",
    "Narrow.Props.C72_extend_appends",
    "Narrow.Props.C72_try_extend_appends",
    "Narrow.Props.C72_collect",
    "Narrow.Props.C72_unreadable_item",
    "Narrow.Props.C72_unreadable_item_try",
    "Narrow.Props.C72_unreadable_collect",
    "Narrow.Props.C72_item_read",
    "Narrow.Props.C72_reads",
    "Narrow.Props.C72_parts_read",
    "Narrow.Props.C72_runs_same",
    "Narrow.Props.C72_reserving_makes_room",
    "Narrow.Props.C72_reserve_truncate"
   ],
   "note": ""
  },
  {
   "property": "C73",
   "status": "proved",
   "theorems": [
    "Narrow.Props.C73_imports_structures",
    "Narrow.Props.C73_outcome",
    "Narrow.Props.C73_round_trip",
    "Narrow.Props.C73_no_cycles"
   ],
   "note": "the address of a child is read when the child is; import itself does not move the structures"
  },
  {
   "property": "C74",
   "status": "proved",
   "theorems": [
    "Narrow.Props.C74_structures",
    "Narrow.Props.C74_aligned",
    "Narrow.Props.C74_outcome",
    "Narrow.Props.C74_failed",
    "Narrow.Props.C74_round_trip",
    "Narrow.Props.C74_release",
    "Narrow.Props.C74_release_once",
    "Narrow.Props.C74_default",
    "Narrow.Props.C74_drop_releases",
    "Narrow.Props.C74_array_outlives_schema",
    "Narrow.Props.C74_schema_outlives_array"
   ],
   "note": ""
  },
  {
   "property": "C75",
   "status": "proved",
   "theorems": [
    "Narrow.Props.C75_drop",
    "Narrow.Props.C75_export",
    "Narrow.Props.C75_array_stays",
    "Narrow.Props.C75_schema_stays",
    "Narrow.Props.C75_array_part_stays",
    "Narrow.Props.C75_schema_part_stays",
    "Narrow.Props.C75_take",
    "Narrow.Props.C75_release_child",
    "Narrow.Props.C75_import",
    "Narrow.Props.C75_import_part",
    "Narrow.Props.C75_import_child",
    "Narrow.Props.C75_child_dangles",
    "Narrow.Props.C75_once",
    "Narrow.Props.C75_others",
    "Narrow.Props.C75_no_leak"
   ],
   "note": "calls do not overlap in time: one call of export or of a release callback ends before the next begins; the child of a child is taken out after the child itself was; that the buffers of a child taken out end with the exported ArrowArray is C40_moved_child_dangles and, in memory, C75_child_dangles"
  },
  {
   "property": "C76",
   "status": "proved",
   "theorems": [
    "Narrow.Props.C76_reserving_makes_room",
    "Narrow.Props.C76_room_for_any",
    "Narrow.Props.C76_vec",
    "Narrow.Props.C76_array"
   ],
   "note": "what a storage has room for is a predicate the storage comes with; the contract is Spec.MakesRoom"
  },
  {
   "property": "C77",
   "status": "proved",
   "theorems": [
    "Narrow.Props.C77_accepts_iff",
    "Narrow.Props.C77_returns",
    "Narrow.Props.C77_items",
    "Narrow.Props.C77_exported"
   ],
   "note": "which of several unsupported features is reported is not claimed; that the reported error names a defect is C36_error_is_defect"
  }
 ]
}
