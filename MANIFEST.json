{
 "claims": [
  {
   "property": "C01",
   "status": "proved",
   "theorems": [
    "Utki.C01_serialize_le_roundtrip",
    "Utki.C01_serialize_be_roundtrip",
    "Utki.C01_wrappers_roundtrip"
   ],
   "note": "generic widths and the 16/32/64-bit wrappers"
  },
  {
   "property": "C02",
   "status": "proved",
   "theorems": [
    "Utki.C02_deserialize_le_roundtrip",
    "Utki.C02_deserialize_be_roundtrip",
    "Utki.C02_deserialize_injective"
   ],
   "note": "plus injectivity"
  },
  {
   "property": "C03",
   "status": "proved",
   "theorems": [
    "Utki.C03_serialize_le_layout",
    "Utki.C03_serialize_be_layout",
    "Utki.C03_deserialize_value",
    "Utki.C03_no_room_is_ub",
    "Utki.C03_wrappers_layout"
   ],
   "note": "layout, frame and the out-of-room case"
  },
  {
   "property": "C04",
   "status": "proved",
   "theorems": [
    "Utki.C04_float_roundtrip",
    "Utki.C04_float_layout"
   ],
   "note": "a float is its 32-bit representation; reinterpret_cast is taken as a bit copy"
  },
  {
   "property": "C05",
   "status": "proved",
   "theorems": [
    "Utki.C05_deserializer_is_cursor",
    "Utki.C05_call_all_or_nothing",
    "Utki.C05_reads_only_the_span"
   ],
   "note": "refinement of every call history to a cursor over the remaining bytes; objects smaller than SIZE_MAX bytes"
  },
  {
   "property": "C06",
   "status": "proved",
   "theorems": [
    "Utki.C06_read_back_what_was_written"
   ],
   "note": ""
  },
  {
   "property": "C07",
   "status": "proved",
   "theorems": [
    "Utki.C07_decode_encode"
   ],
   "note": ""
  },
  {
   "property": "C08",
   "status": "proved",
   "theorems": [
    "Utki.C08_throws_iff",
    "Utki.C08_safe",
    "Utki.C08_unsafe_length",
    "Utki.C08_unsafe_char"
   ],
   "note": ""
  },
  {
   "property": "C09",
   "status": "proved",
   "theorems": [
    "Utki.C09_value",
    "Utki.C09_length",
    "Utki.C09_length_bound",
    "Utki.C09_invalid_as_A"
   ],
   "note": ""
  },
  {
   "property": "C10",
   "status": "proved",
   "theorems": [
    "Utki.C10_round_trip",
    "Utki.C10_round_trip_exact"
   ],
   "note": ""
  },
  {
   "property": "C11",
   "status": "proved",
   "theorems": [
    "Utki.C11_to_utf8_char",
    "Utki.C11_shortest",
    "Utki.C11_agrees_with_standard_library"
   ],
   "note": ""
  },
  {
   "property": "C12",
   "status": "proved",
   "theorems": [
    "Utki.C12_iterate",
    "Utki.C12_to_utf32",
    "Utki.C12_reads_only_the_span"
   ],
   "note": ""
  },
  {
   "property": "C13",
   "status": "proved",
   "theorems": [
    "Utki.C13_nul_terminated",
    "Utki.C13_truncated_reads_past_terminator"
   ],
   "note": ""
  },
  {
   "property": "C14",
   "status": "proved",
   "theorems": [
    "Utki.C14_decode_forms",
    "Utki.C14_decode_text",
    "Utki.C14_stops_at_nul"
   ],
   "note": ""
  },
  {
   "property": "C15",
   "status": "proved",
   "theorems": [
    "Utki.C15_join_split"
   ],
   "note": ""
  },
  {
   "property": "C16",
   "status": "proved",
   "theorems": [
    "Utki.C16_fields"
   ],
   "note": ""
  },
  {
   "property": "C17",
   "status": "proved",
   "theorems": [
    "Utki.C17_split_join",
    "Utki.C17_join_shape"
   ],
   "note": ""
  },
  {
   "property": "C18",
   "status": "proved",
   "theorems": [
    "Utki.C18_words",
    "Utki.C18_words_unique"
   ],
   "note": "bytes 0x80-0xfe with signed char are outside std::isspace's domain (shown as undefined behaviour); \"C\" locale"
  },
  {
   "property": "C19",
   "status": "proved",
   "theorems": [
    "Utki.C19_trim_front",
    "Utki.C19_trim_back",
    "Utki.C19_trim",
    "Utki.C19_trim_classic"
   ],
   "note": ""
  },
  {
   "property": "C20",
   "status": "proved",
   "theorems": [
    "Utki.C20_starts_with"
   ],
   "note": ""
  },
  {
   "property": "C21",
   "status": "partial",
   "theorems": [
    "Utki.C21_ends_with_cpp20",
    "Utki.C21_ends_with_cpp17_partial",
    "Utki.C21_ends_with_cpp17_wrong"
   ],
   "note": "proved for the C++20 build; the C++17 build is refuted (C21_ends_with_cpp17_wrong) and characterised exactly"
  },
  {
   "property": "C22",
   "status": "partial",
   "theorems": [
    "Utki.C22_tabs",
    "Utki.C22_spaces_partial",
    "Utki.C22_wraps",
    "Utki.C22_wrong"
   ],
   "note": "holds while depth*step fits in 32 bits; refuted beyond (C22_wrong), exact modular statement proved"
  },
  {
   "property": "C23",
   "status": "proved",
   "theorems": [
    "Utki.C23_text",
    "Utki.C23_error_first",
    "Utki.C23_error_second",
    "Utki.C23_throws_iff",
    "Utki.C23_safe",
    "Utki.C23_grows"
   ],
   "note": "vsnprintf is an oracle that fails or formats the same text each time"
  },
  {
   "property": "C24",
   "status": "proved",
   "theorems": [
    "Utki.C24_width"
   ],
   "note": ""
  },
  {
   "property": "C25",
   "status": "proved",
   "theorems": [
    "Utki.C25_pieces",
    "Utki.C25_content"
   ],
   "note": ""
  },
  {
   "property": "C26",
   "status": "proved",
   "theorems": [
    "Utki.C26_total",
    "Utki.C26_same_in_all_builds"
   ],
   "note": ""
  },
  {
   "property": "C27",
   "status": "proved",
   "theorems": [
    "Utki.C27_fits",
    "Utki.C27_width_zero"
   ],
   "note": "newline-separated paragraphs; width 0 separately"
  },
  {
   "property": "C28",
   "status": "partial",
   "theorems": [
    "Utki.C28_words_whole_partial",
    "Utki.C28_wrong",
    "Utki.C28_divided_after_indent_partial",
    "Utki.C28_long_words"
   ],
   "note": "refuted in general (C28_wrong). For every text: a word that fits is divided only if the line it begins on has nothing but spaces before it; for single-spaced text with words shorter than the width no word is divided"
  },
  {
   "property": "C29",
   "status": "proved",
   "theorems": [
    "Utki.C29_suffix",
    "Utki.C29_size"
   ],
   "note": "any history of calls in debug and release builds, floating-point numbers included, in any rounding mode"
  },
  {
   "property": "C30",
   "status": "proved",
   "theorems": [
    "Utki.C30_read_word",
    "Utki.C30_read_word_until",
    "Utki.C30_read_chars_until",
    "Utki.C30_read_chars"
   ],
   "note": ""
  },
  {
   "property": "C31",
   "status": "proved",
   "theorems": [
    "Utki.C31_skip_whitespaces",
    "Utki.C31_skip_whitespaces_and_comma",
    "Utki.C31_skip_inclusive_until",
    "Utki.C31_skip_inclusive_until_one_of"
   ],
   "note": ""
  },
  {
   "property": "C32",
   "status": "proved",
   "theorems": [
    "Utki.C32_read_char",
    "Utki.C32_peek"
   ],
   "note": ""
  },
  {
   "property": "C33",
   "status": "proved",
   "theorems": [
    "Utki.C33_value",
    "Utki.C33_throws_iff",
    "Utki.C33_unique"
   ],
   "note": "the 0x / 0b prefix counts only if a digit of that base follows; a leading 0 followed by a non octal digit is read as decimal"
  },
  {
   "property": "C34",
   "status": "proved",
   "theorems": [
    "Utki.C34_value",
    "Utki.C34_throws_iff"
   ],
   "note": ""
  },
  {
   "property": "C35",
   "status": "proved",
   "theorems": [
    "Utki.C35_unsigned",
    "Utki.C35_signed"
   ],
   "note": "for decimal zero the following text must not turn it into a hexadecimal or binary literal"
  },
  {
   "property": "C36",
   "status": "proved",
   "theorems": [
    "Utki.C36_unsigned",
    "Utki.C36_signed"
   ],
   "note": "std::to_chars is modelled by its specification"
  },
  {
   "property": "C37",
   "status": "proved",
   "theorems": [
    "Utki.C37_at_index",
    "Utki.C37_begin_end",
    "Utki.C37_next",
    "Utki.C37_star",
    "Utki.C37_loop",
    "Utki.C37_nodes"
   ],
   "note": "Iterators obtained from the API are shown to be at a position of the pre-order (At); the loop theorem runs begin/!=/index/*/++ in debug and release builds."
  },
  {
   "property": "C38",
   "status": "proved",
   "theorems": [
    "Utki.C38_prev",
    "Utki.C38_inverse",
    "Utki.C38_loop"
   ],
   "note": "-- at begin() is not covered (it empties the stack); the reverse loop models std::reverse_iterator over the base iterator."
  },
  {
   "property": "C39",
   "status": "proved",
   "theorems": [
    "Utki.C39_make_iterator",
    "Utki.C39_round_trip",
    "Utki.C39_is_valid",
    "Utki.C39_throws_iff",
    "Utki.C39_at_index"
   ],
   "note": "make_iterator({}) returns an iterator with empty stack although is_valid({}) is false; operator[] with an invalid path: out_of_range in release, abort in debug, undefined for the empty path in release."
  },
  {
   "property": "C40",
   "status": "proved",
   "theorems": [
    "Utki.C40_compare"
   ],
   "note": ""
  },
  {
   "property": "C41",
   "status": "proved",
   "theorems": [
    "Utki.C41_insert",
    "Utki.C41_insert_after",
    "Utki.C41_outline_determines"
   ],
   "note": "The forest afterwards is given by its outline (depth, value in pre-order), proved to determine the forest."
  },
  {
   "property": "C42",
   "status": "proved",
   "theorems": [
    "Utki.C42_erase"
   ],
   "note": "The node at the returned position is the one that followed the subtree, by the outline equation; at the end the iterator equals end()."
  },
  {
   "property": "C43",
   "status": "proved",
   "theorems": [
    "Utki.C43_is_last_child",
    "Utki.C43_at_level"
   ],
   "note": "at_level beyond the depth terminates the program (noexcept), although documented to throw."
  },
  {
   "property": "C44",
   "status": "proved",
   "theorems": [
    "Utki.C44_eq",
    "Utki.C44_lawful",
    "Utki.C44_equivalence"
   ],
   "note": "Also: for lawful value equality == is equality of trees."
  },
  {
   "property": "C45",
   "status": "proved",
   "theorems": [
    "Utki.C45_sort"
   ],
   "note": "Comparator is a pure strict weak order."
  },
  {
   "property": "C46",
   "status": "proved",
   "theorems": [
    "Utki.C46_only_range",
    "Utki.C46_terminates",
    "Utki.C46_may_not_terminate"
   ],
   "note": "For comparators with state, exceptions or undefined behaviour of their own: the outcome is normal, divergence or the comparator's own abnormal outcome; elements outside the range unchanged, range permuted. Termination proved for irreflexive comparators; divergence proved for two equal elements and a reflexive comparator."
  },
  {
   "property": "C47",
   "status": "proved",
   "theorems": [
    "Utki.C47_select",
    "Utki.C47_select_index",
    "Utki.C47_where",
    "Utki.C47_where_map",
    "Utki.C47_where_by_value"
   ],
   "note": "select yields the mapped elements in order; where yields the accepted elements in order for predicates that take the element by const reference, and for every predicate on an lvalue. C47_where_by_value shows the limit: a by-value predicate applied to an rvalue collection moves the elements out before they are collected."
  },
  {
   "property": "C48",
   "status": "proved",
   "theorems": [
    "Utki.C48_group_by",
    "Utki.C48_partition"
   ],
   "note": "Grouping: keys, order inside the groups and the partition of the elements."
  },
  {
   "property": "C49",
   "status": "proved",
   "theorems": [
    "Utki.C49_order_by"
   ],
   "note": "order_by yields a sorted permutation of the source for every strict weak order."
  },
  {
   "property": "C50",
   "status": "proved",
   "theorems": [
    "Utki.C50_source_unchanged",
    "Utki.C50_result",
    "Utki.C50_rvalue_no_copies",
    "Utki.C50_lvalue_copies",
    "Utki.C50_lvalue_exact",
    "Utki.C50_copies"
   ],
   "note": "Chains of operations: lvalue source unchanged, result is the composition, no copies on the rvalue path."
  },
  {
   "property": "C51",
   "status": "proved",
   "theorems": [
    "Utki.C51_zip"
   ],
   "note": "zip view: pairs by position up to the shortest container, assignment through the pair writes the containers."
  },
  {
   "property": "C52",
   "status": "proved",
   "theorems": [
    "Utki.C52_skip_front",
    "Utki.C52_reverse",
    "Utki.C52_reverse_twice"
   ],
   "note": "reverse and skip_front visit the stated elements in the stated order."
  },
  {
   "property": "C53",
   "status": "proved",
   "theorems": [
    "Utki.C53_read",
    "Utki.C53_flagwise",
    "Utki.C53_eq",
    "Utki.C53_all_none",
    "Utki.C53_construct",
    "Utki.C53_construct_throws",
    "Utki.C53_laws",
    "Utki.C53_print"
   ],
   "note": "set/get/all/none/operators modelled on bit lists of the underlying word"
  },
  {
   "property": "C54",
   "status": "proved",
   "theorems": [
    "Utki.C54_step",
    "Utki.C54_history",
    "Utki.C54_last_write",
    "Utki.C54_bad_enumerator",
    "Utki.C54_bad_get",
    "Utki.C54_or_enum"
   ],
   "note": "histories of set/clear/toggle; bad enumerators: abort in debug, ignored in release"
  },
  {
   "property": "C55",
   "status": "proved",
   "theorems": [
    "Utki.C55_size",
    "Utki.C55_emit",
    "Utki.C55_ids",
    "Utki.C55_disconnect",
    "Utki.C55_emit_quiet"
   ],
   "note": "connect/disconnect/size/empty over arbitrary histories with callbacks that use the signal"
  },
  {
   "property": "C56",
   "status": "proved",
   "theorems": [
    "Utki.C56_calls",
    "Utki.C56_complete",
    "Utki.C56_defined",
    "Utki.C56_self_disconnect"
   ],
   "note": "calls of one emission, with callbacks that connect and disconnect; self-disconnect is shown undefined (C56_self_disconnect)"
  },
  {
   "property": "C57",
   "status": "partial",
   "theorems": [
    "Utki.C57_nth",
    "Utki.C57_partial",
    "Utki.C57_refuted"
   ],
   "note": "proved for arguments that are unchanged by being moved from (C57_partial) and for the first callback; false for by-value movable arguments, C57_refuted gives the witness"
  },
  {
   "property": "C58",
   "status": "proved",
   "theorems": [
    "Utki.C58_mutual_exclusion",
    "Utki.C58_one",
    "Utki.C58_visibility"
   ],
   "note": "interleavings of any number of threads with release/acquire views; modification-order simplification stated in Model/SpinLock"
  },
  {
   "property": "C59",
   "status": "proved",
   "theorems": [
    "Utki.C59_free",
    "Utki.C59_no_deadlock",
    "Utki.C59_failed",
    "Utki.C59_live",
    "Utki.C59_starvation_possible"
   ],
   "note": "Some waiting thread always gets the lock (C59_live); that a given one does is refuted by a fair execution (C59_starvation_possible)."
  },
  {
   "property": "C60",
   "status": "proved",
   "theorems": [
    "Utki.C60_scopes",
    "Utki.C60_once",
    "Utki.C60_order",
    "Utki.C60_no_escape"
   ],
   "note": "programs with nested scopes, exceptions, loops, releases; functions are programs of the same kind; the object is not available to its own function while that runs"
  },
  {
   "property": "C61",
   "status": "proved",
   "theorems": [
    "Utki.C61_at_most_one",
    "Utki.C61_construct",
    "Utki.C61_is_created",
    "Utki.C61_inst",
    "Utki.C61_destroy"
   ],
   "note": "histories of constructions and destructions of one singleton class"
  },
  {
   "property": "C62",
   "status": "proved",
   "theorems": [
    "Utki.C62_not_null",
    "Utki.C62_alive_iff",
    "Utki.C62_destroyed_once",
    "Utki.C62_members",
    "Utki.C62_valid_use",
    "Utki.C62_make_shared",
    "Utki.C62_copy",
    "Utki.C62_ptr",
    "Utki.C62_copy_assign",
    "Utki.C62_move",
    "Utki.C62_move_assign",
    "Utki.C62_destroy",
    "Utki.C62_cast",
    "Utki.C62_weak",
    "Utki.C62_make_shared_from",
    "Utki.C62_make_weak_from"
   ],
   "note": "Reference-count invariant over all histories of make_shared, make_shared_from, copy, move, assignment, conversion, pointer round trips, weak pointers, casts and destruction, with objects holding references to each other. References counted exactly; cycles are allowed and are not destroyed. One thread."
  },
  {
   "property": "C63",
   "status": "proved",
   "theorems": [
    "Utki.C63_not_null",
    "Utki.C63_one_owner",
    "Utki.C63_destroyed_once",
    "Utki.C63_members",
    "Utki.C63_valid_use",
    "Utki.C63_make_unique",
    "Utki.C63_move",
    "Utki.C63_from_ptr",
    "Utki.C63_move_assign",
    "Utki.C63_destroy"
   ],
   "note": "Single-owner invariant over all histories of make_unique, moves, assignment, conversion, to_unique_ptr, construction from unique_ptr and destruction, with objects owning each other."
  },
  {
   "property": "C64",
   "status": "proved",
   "theorems": [
    "Utki.C64_to_string",
    "Utki.C64_what",
    "Utki.C64_current",
    "Utki.C64_to_string_format",
    "Utki.C64_current_format",
    "Utki.C64_what_format",
    "Utki.C64_throw_with_nested",
    "Utki.C64_no_current",
    "Utki.C64_terminates_iff",
    "Utki.C64_current_terminates_iff",
    "Utki.C64_current_stacked",
    "Utki.C64_utki_not_indented"
   ],
   "note": "Restated exactly; C64_current_stacked and C64_utki_not_indented state the two places where the report is less than one would expect."
  },
  {
   "property": "C65",
   "status": "proved",
   "theorems": [
    "Utki.C65_next",
    "Utki.C65_prev",
    "Utki.C65_outside"
   ],
   "note": "next/prev give the position n steps away; outside the range it is reported as undefined behaviour."
  },
  {
   "property": "C66",
   "status": "proved",
   "theorems": [
    "Utki.C66_flip",
    "Utki.C66_twice"
   ],
   "note": "total orders on keys and values; std::map modelled by its element sequence"
  },
  {
   "property": "C67",
   "status": "proved",
   "theorems": [
    "Utki.C67_contains",
    "Utki.C67_map_equivalent",
    "Utki.C67_map",
    "Utki.C67_unordered_map"
   ],
   "note": "sequences, std::map, std::unordered_map"
  },
  {
   "property": "C68",
   "status": "proved",
   "theorems": [
    "Utki.C68_at",
    "Utki.C68_index",
    "Utki.C68_front_back",
    "Utki.C68_front_back_empty",
    "Utki.C68_subspan",
    "Utki.C68_subspan_rest",
    "Utki.C68_subspan_compose",
    "Utki.C68_subspan_bad_aborts",
    "Utki.C68_iteration",
    "Utki.C68_make_span",
    "Utki.C68_overlaps"
   ],
   "note": "includes the debug-assert behaviour of bad subspans and overlaps()"
  },
  {
   "property": "C69",
   "status": "proved",
   "theorems": [
    "Utki.C69_deep_equals",
    "Utki.C69_deep_compare",
    "Utki.C69_total_order"
   ],
   "note": ""
  },
  {
   "property": "C70",
   "status": "proved",
   "theorems": [
    "Utki.C70_iterate",
    "Utki.C70_history",
    "Utki.C70_outside",
    "Utki.C70_zip_with_enum"
   ],
   "note": "enum_iterable visits each enumerator once in order; enum_array is an array indexed by enumerators over any history of writes."
  },
  {
   "property": "C71",
   "status": "proved",
   "theorems": [
    "Utki.C71_order",
    "Utki.C71_lexicographic",
    "Utki.C71_unpack",
    "Utki.C71_injective",
    "Utki.C71_total_order",
    "Utki.C71_text",
    "Utki.C71_read_back",
    "Utki.C71_text_injective"
   ],
   "note": ""
  },
  {
   "property": "C72",
   "status": "proved",
   "theorems": [
    "Utki.C72_sign",
    "Utki.C72_unsigned",
    "Utki.C72_narrow",
    "Utki.C72_signed",
    "Utki.C72_uint16",
    "Utki.C72_when_defined"
   ],
   "note": "All integer types; uint16_t overflow through promotion to int is stated exactly."
  },
  {
   "property": "C73",
   "status": "proved",
   "theorems": [
    "Utki.C73_ticks",
    "Utki.C73_tight"
   ],
   "note": "C73_tight shows the bound cannot be relaxed to 2^32 ms."
  },
  {
   "property": "C74",
   "status": "proved",
   "theorems": [
    "Utki.C74_offset_sequence",
    "Utki.C74_index_of",
    "Utki.C74_int_size"
   ],
   "note": "Types are numbers; uniqueness of the alternative is part of the statement."
  },
  {
   "property": "C75",
   "status": "proved",
   "theorems": [
    "Utki.C75_views_faithful",
    "Utki.C75_c_string"
   ],
   "note": ""
  },
  {
   "property": "C76",
   "status": "proved",
   "theorems": [
    "Utki.C76_true",
    "Utki.C76_false",
    "Utki.C76_false_no_text",
    "Utki.C76_printer_throws",
    "Utki.C76_returns_iff",
    "Utki.C76_debug",
    "Utki.C76_checker_throws",
    "Utki.C76_release",
    "Utki.C76_android_returns",
    "Utki.C76_android_false",
    "Utki.C76_android_no_text",
    "Utki.C76_android_zero",
    "Utki.C76_android_throws"
   ],
   "note": "The user's print function throwing is covered by C76_printer_throws."
  },
  {
   "property": "C77",
   "status": "proved",
   "theorems": [
    "Utki.C77_log",
    "Utki.C77_logcat",
    "Utki.C77_debug",
    "Utki.C77_android"
   ],
   "note": ""
  },
  {
   "property": "C78",
   "status": "proved",
   "theorems": [
    "Utki.C78_double",
    "Utki.C78_float",
    "Utki.C78_long_double",
    "Utki.C78_unambiguous"
   ],
   "note": "The floating-point unit is any one that obeys IEEE-754 in some rounding mode (Spec/FloatEnv.lean); memory safety is the absence of the undefined-behaviour outcome."
  },
  {
   "property": "C79",
   "status": "proved",
   "theorems": [
    "Utki.C79_double",
    "Utki.C79_float",
    "Utki.C79_long_double",
    "Utki.C79_unique",
    "Utki.C79_limit_needed"
   ],
   "note": "The limit on the number of digits is part of the property; C79_limit_needed shows that it cannot be dropped."
  },
  {
   "property": "C80",
   "status": "proved",
   "theorems": [
    "Utki.C80_double",
    "Utki.C80_float",
    "Utki.C80_long_double"
   ],
   "note": ""
  },
  {
   "property": "C81",
   "status": "proved",
   "theorems": [
    "Utki.C81_double",
    "Utki.C81_float",
    "Utki.C81_long_double"
   ],
   "note": ""
  },
  {
   "property": "C82",
   "status": "proved",
   "theorems": [
    "Utki.C82_literal",
    "Utki.C82_special",
    "Utki.C82_throws_iff"
   ],
   "note": ""
  },
  {
   "property": "C83",
   "status": "partial",
   "theorems": [
    "Utki.C83_break_needed_partial",
    "Utki.C83_wrong"
   ],
   "note": "refuted in general (C83_wrong): a word that would exactly fill the line is moved to the next line unless it ends the text or the line of the text. Proved for every text: the word would at least have reached the end of the line"
  },
  {
   "property": "C84",
   "status": "proved",
   "theorems": [
    "Utki.C84_double",
    "Utki.C84_float",
    "Utki.C84_long_double",
    "Utki.C84_read_number"
   ],
   "note": "A platform is any combination of answers to the questions the preprocessor is asked (Model/Platform.lean), also combinations no real target has; the floating-point unit is any one that obeys the laws of Spec/FloatEnv.lean."
  },
  {
   "property": "C85",
   "status": "proved",
   "theorems": [
    "Utki.C85_constants",
    "Utki.C85_deg_to_rad",
    "Utki.C85_deg_to_rad_overflow",
    "Utki.C85_rad_to_deg",
    "Utki.C85_rad_to_deg_overflow",
    "Utki.C85_round_trip",
    "Utki.C85_monotone",
    "Utki.C85_special",
    "Utki.C85_half_turn",
    "Utki.C85_arithmetic_exists",
    "Utki.C85_integers",
    "Utki.C85_deg_to_rad_long",
    "Utki.C85_deg_to_rad_long_overflow",
    "Utki.C85_rad_to_deg_long",
    "Utki.C85_round_trip_long"
   ],
   "note": "Intermediate results are assumed to have the type of the operands (FLT_EVAL_METHOD 0). Overflow of the intermediate product is described exactly, not hidden."
  },
  {
   "property": "C86",
   "status": "proved",
   "theorems": [
    "Utki.C86_powers",
    "Utki.C86_always",
    "Utki.C86_overflow",
    "Utki.C86_monotone",
    "Utki.C86_opposite",
    "Utki.C86_special",
    "Utki.C86_sign"
   ],
   "note": "Intermediate results are assumed to have the type of the operands (FLT_EVAL_METHOD 0)."
  },
  {
   "property": "C87",
   "status": "proved",
   "theorems": [
    "Utki.C87_at_most",
    "Utki.C87_attained",
    "Utki.C87_sorted_range",
    "Utki.C87_equivalent"
   ],
   "note": "The C++17 implementation; with C++20 utki::sort is std::sort. Moves of elements are not counted."
  },
  {
   "property": "C88",
   "status": "proved",
   "theorems": [
    "Utki.C88_demangle",
    "Utki.C88_msvc"
   ],
   "note": "The demangler is any function that obeys the ABI contract."
  },
  {
   "property": "C89",
   "status": "proved",
   "theorems": [
    "Utki.C89_remove_const_reference",
    "Utki.C89_keeps_volatile",
    "Utki.C89_remove_const_pointer",
    "Utki.C89_is_specialization_of",
    "Utki.C89_is_scoped_enum",
    "Utki.C89_type_or_void",
    "Utki.C89_masks"
   ],
   "note": "Templates with non-type parameters, member pointers and function signatures are not in the type language."
  },
  {
   "property": "C90",
   "status": "proved",
   "theorems": [
    "Utki.C90_select",
    "Utki.C90_select_index",
    "Utki.C90_select_source",
    "Utki.C90_where",
    "Utki.C90_where_source",
    "Utki.C90_group_by",
    "Utki.C90_group_by_source"
   ],
   "note": "The key function of order_by is called from within std::sort and is not included. Copying and moving elements is taken not to throw; a parameter by value is initialised before the function runs."
  },
  {
   "property": "C91",
   "status": "proved",
   "theorems": [
    "Utki.C91_serialize",
    "Utki.C91_span",
    "Utki.C91_deserializer",
    "Utki.C91_base64",
    "Utki.C91_string",
    "Utki.C91_read_number",
    "Utki.C91_tree",
    "Utki.C91_flags",
    "Utki.C91_arrays",
    "Utki.C91_singleton",
    "Utki.C91_shared_ref",
    "Utki.C91_unique_ref",
    "Utki.C91_others",
    "Utki.C91_compose"
   ],
   "note": "Of functions that contain assertions all modelled ones are covered. log_debug, logcat_debug, run_debug and assertions given a checker or printer with effects differ between the builds by design (C76); they are not included."
  },
  {
   "property": "C92",
   "status": "proved",
   "theorems": [
    "Utki.C92_copy",
    "Utki.C92_assign",
    "Utki.C92_connect",
    "Utki.C92_destroy",
    "Utki.C92_emit",
    "Utki.C92_independent",
    "Utki.C92_connections",
    "Utki.C92_copied_stay"
   ],
   "note": "Callbacks that use signals while they are called are in C55-C57 for one signal, and in C118 for several."
  },
  {
   "property": "C93",
   "status": "partial",
   "theorems": [
    "Utki.C93_text_stays_partial",
    "Utki.C93_wrong",
    "Utki.C93_no_memory",
    "Utki.C93_defined",
    "Utki.C93_no_leak",
    "Utki.C93_long_text",
    "Utki.C93_threads_partial",
    "Utki.C93_threads_wrong"
   ],
   "note": "refuted in general (C93_wrong, C93_threads_wrong): a second call of what() frees the text of the first one, and concurrent calls on the same object race. Proved for every history in which that object is not asked again, and for threads with exception objects of their own."
  },
  {
   "property": "C94",
   "status": "partial",
   "theorems": [
    "Utki.C94_end_partial",
    "Utki.C94_end_wrong",
    "Utki.C94_documented_use"
   ],
   "note": "refuted in general (C94_end_wrong, C94_documented_use). Which cases are harmless is stated by Spec.SafeEnd, and proved for every history; all other cases are proved to be undefined or to abort."
  },
  {
   "property": "C95",
   "status": "partial",
   "theorems": [
    "Utki.C95_enough_memory",
    "Utki.C95_end",
    "Utki.C95_next_partial",
    "Utki.C95_next_wrong",
    "Utki.C95_prev_partial",
    "Utki.C95_prev_wrong",
    "Utki.C95_broken",
    "Utki.C95_release_wrong"
   ],
   "note": "refuted in general (C95_next_wrong, C95_prev_wrong, C95_release_wrong): a failure of the second of the two requests for a level leaves the iterator broken (C95_broken). All other cases are proved."
  },
  {
   "property": "C96",
   "status": "partial",
   "theorems": [
    "Utki.C96_each_thread",
    "Utki.C96_single_argument_partial",
    "Utki.C96_with_lock",
    "Utki.C96_wrong"
   ],
   "note": "refuted in general (C96_wrong): the arguments of logcat of different threads mix. Proved: order and completeness for each thread, whole messages for single arguments and under a common lock."
  },
  {
   "property": "C97",
   "status": "proved",
   "theorems": [
    "Utki.C97_same",
    "Utki.C97_one_step",
    "Utki.C97_forward",
    "Utki.C97_backward",
    "Utki.C97_traversal"
   ],
   "note": "C97_same ties the counting functions to those of C37 and C38 in every state."
  },
  {
   "property": "C98",
   "status": "proved",
   "theorems": [
    "Utki.C98_begin_end",
    "Utki.C98_iterator",
    "Utki.C98_limits",
    "Utki.C98_compare",
    "Utki.C98_insert",
    "Utki.C98_insert_after",
    "Utki.C98_erase",
    "Utki.C98_insert_others",
    "Utki.C98_insert_after_others",
    "Utki.C98_erase_others",
    "Utki.C98_insert_deep",
    "Utki.C98_insert_copied",
    "Utki.C98_erase_deep",
    "Utki.C98_history"
   ],
   "note": "pointers and iterators are identities of places in vectors, which follow the validity rules of std::vector; stale ones are undefined to use."
  },
  {
   "property": "C99",
   "status": "proved",
   "theorems": [
    "Utki.C99_erase_if",
    "Utki.C99_remaining"
   ],
   "note": "on the model of C98, so that the use of an invalid iterator in the loop would be undefined."
  },
  {
   "property": "C100",
   "status": "proved",
   "theorems": [
    "Utki.C100_unsigned",
    "Utki.C100_signed",
    "Utki.C100_float",
    "Utki.C100_split"
   ],
   "note": "the reading loop is the client's; floating-point literals of fewer than 2^28 - 1000 digits, out of range ones are read as 0 (C82)."
  },
  {
   "property": "C101",
   "status": "proved",
   "theorems": [
    "Utki.C101_alive",
    "Utki.C101_once",
    "Utki.C101_last",
    "Utki.C101_gone",
    "Utki.C101_final",
    "Utki.C101_lock",
    "Utki.C101_ordered"
   ],
   "note": "each operation on the counter is one atomic step, as in std::shared_ptr, whose implementation is trusted; references travel between threads by means that synchronise."
  },
  {
   "property": "C102",
   "status": "proved",
   "theorems": [
    "Utki.C102_again",
    "Utki.C102_idempotent",
    "Utki.C102_spaces_at_end",
    "Utki.C102_line"
   ],
   "note": "lines put together with one newline between neighbours; C102_spaces_at_end shows that the exception occurs."
  },
  {
   "property": "C103",
   "status": "proved",
   "theorems": [
    "Utki.C103_insert_erase",
    "Utki.C103_insert_after_erase",
    "Utki.C103_erase_insert"
   ],
   "note": "iterators are compared completely, with all their levels."
  },
  {
   "property": "C104",
   "status": "proved",
   "theorems": [
    "Utki.C104_from_chars",
    "Utki.C104_read_number",
    "Utki.C104_writable",
    "Utki.C104_digits",
    "Utki.C104_distinct",
    "Utki.C104_fewer_digits",
    "Utki.C104_more_digits"
   ],
   "note": "The text is any literal whose value is a nearest number of the given number of digits; how a program produces it (printf) is not modelled. Assumes IEEE arithmetic of the processor for the fast path, as C79."
  },
  {
   "property": "C105",
   "status": "proved",
   "theorems": [
    "Utki.C105_order",
    "Utki.C105_read_number",
    "Utki.C105_exact"
   ],
   "note": "signedVal takes infinity for the number after the largest one."
  },
  {
   "property": "C106",
   "status": "proved",
   "theorems": [
    "Utki.C106_big_endian",
    "Utki.C106_utf8",
    "Utki.C106_little_endian_not"
   ],
   "note": ""
  },
  {
   "property": "C107",
   "status": "proved",
   "theorems": [
    "Utki.C107_to_utf32",
    "Utki.C107_to_utf8",
    "Utki.C107_base64",
    "Utki.C107_base64_encoded",
    "Utki.C107_base64_not"
   ],
   "note": ""
  },
  {
   "property": "C108",
   "status": "proved",
   "theorems": [
    "Utki.C108_same",
    "Utki.C108_at_most",
    "Utki.C108_attained",
    "Utki.C108_sorted_range"
   ],
   "note": "Depth counts nested calls of quick_sort; what a call costs on the stack, and the limit of nested constexpr evaluations of a compiler, are not modelled."
  },
  {
   "property": "C109",
   "status": "proved",
   "theorems": [
    "Utki.C109_at_most_one",
    "Utki.C109_construct",
    "Utki.C109_use",
    "Utki.C109_locked",
    "Utki.C109_wrong",
    "Utki.C109_wrong_inst"
   ],
   "note": "The last sentence is C109_wrong and C109_wrong_inst. Accesses to the pointer are interleaved; in a program with a data race C++ defines nothing, so the two refutations show one of the possible outcomes. Locks appear as the events released and acquired; that a lock is held by one thread at a time is the hypothesis Locked of C109_locked. C61 is the same class with one thread."
  },
  {
   "property": "C110",
   "status": "proved",
   "theorems": [
    "Utki.C110_join",
    "Utki.C110_split",
    "Utki.C110_words",
    "Utki.C110_wrap",
    "Utki.C110_paragraphs",
    "Utki.C110_spaces"
   ],
   "note": ""
  },
  {
   "property": "C111",
   "status": "proved",
   "theorems": [
    "Utki.C111_drop_in",
    "Utki.C111_any_order",
    "Utki.C111_classes",
    "Utki.C111_not_stable"
   ],
   "note": "Of other sorting functions only the contract is used: a sorted permutation."
  },
  {
   "property": "C112",
   "status": "proved",
   "theorems": [
    "Utki.C112_wider",
    "Utki.C112_double_spaces"
   ],
   "note": "Refuted for texts with spaces one after the other (C112_double_spaces)."
  },
  {
   "property": "C113",
   "status": "proved",
   "theorems": [
    "Utki.C113_fewest",
    "Utki.C113_full_lines"
   ],
   "note": ""
  },
  {
   "property": "C114",
   "status": "proved",
   "theorems": [
    "Utki.C114_exclusion",
    "Utki.C114_visibility",
    "Utki.C114_in_order",
    "Utki.C114_cycle",
    "Utki.C114_twice",
    "Utki.C114_deadlock",
    "Utki.C114_live",
    "Utki.C114_all_return",
    "Utki.C114_greater_needed"
   ],
   "note": "memory model as in C58; C114_greater_needed shows that more progress than C114_live cannot be promised"
  },
  {
   "property": "C115",
   "status": "proved",
   "theorems": [
    "Utki.C115_ways",
    "Utki.C115_write",
    "Utki.C115_refused",
    "Utki.C115_history",
    "Utki.C115_subspan",
    "Utki.C115_subspan_rest",
    "Utki.C115_make_span",
    "Utki.C115_disjoint",
    "Utki.C115_split",
    "Utki.C115_make_vector",
    "Utki.C115_reads"
   ],
   "note": "elements are assigned as a whole; containers keep their size (a span into a vector that grew is invalid by the rules of std::vector)"
  },
  {
   "property": "C116",
   "status": "proved",
   "theorems": [
    "Utki.C116_visit",
    "Utki.C116_order",
    "Utki.C116_exact",
    "Utki.C116_exact_compiles",
    "Utki.C116_generic",
    "Utki.C116_conversion",
    "Utki.C116_unrelated",
    "Utki.C116_reference_takes_over"
   ],
   "note": "overload resolution is a model of the language rules for one argument; simplifications in Model/Overloaded.lean"
  },
  {
   "property": "C117",
   "status": "proved",
   "theorems": [
    "Utki.C117_any_bytes",
    "Utki.C117_any_bytes_cstr",
    "Utki.C117_characters",
    "Utki.C117_after_sequences",
    "Utki.C117_bytes_return"
   ],
   "note": ""
  },
  {
   "property": "C118",
   "status": "proved",
   "theorems": [
    "Utki.C118_allowed",
    "Utki.C118_calls",
    "Utki.C118_complete",
    "Utki.C118_emit",
    "Utki.C118_connection_of_one",
    "Utki.C118_defined",
    "Utki.C118_misuse",
    "Utki.C118_pulled_away",
    "Utki.C118_abort",
    "Utki.C118_operations",
    "Utki.C118_emission",
    "Utki.C118_in_turn"
   ],
   "note": "Signals are not moved or copied while one of their callbacks runs."
  },
  {
   "property": "C119",
   "status": "partial",
   "theorems": [
    "Utki.C119_wellformed",
    "Utki.C119_system",
    "Utki.C119_compiler",
    "Utki.C119_tools_partial",
    "Utki.C119_tools_refuted",
    "Utki.C119_standard_partial",
    "Utki.C119_standard_refuted",
    "Utki.C119_standard_monotone",
    "Utki.C119_cpu_partial",
    "Utki.C119_cpu_refuted",
    "Utki.C119_endianness_partial",
    "Utki.C119_endianness_refuted",
    "Utki.C119_dllexport",
    "Utki.C119_compiler_version",
    "Utki.C119_deployment",
    "Utki.C119_cpu_version_partial",
    "Utki.C119_cpu_version_refuted"
   ],
   "note": "The system, the name of the system, the compiler, its version with GCC, the deployment targets and DLLEXPORT are right. Refuted, with the part that holds proved: the version of Microsoft's tools is one too small for _MSC_VER 1910 to 1915 and 1920 to 1928; CFG_CPP is never more than 20; with Clang, and with Microsoft's compiler for ARM, the processor is unknown; CFG_CPU_VERSION is 0 for ARM versions told by other macros and not defined with Emscripten; the byte order is told to be big if only the words of floating-point numbers are in that order. Not stated: CFG_CPU_ARM_THUMB_VERSION. Macros with parameters, and numbers reached through more than one other macro, do not occur among the predefined macros that are used."
  },
  {
   "property": "C120",
   "status": "proved",
   "theorems": [
    "Utki.C120_windows",
    "Utki.C120_min_max",
    "Utki.C120_elsewhere",
    "Utki.C120_told"
   ],
   "note": "The two macros are taken to be undefined, empty or a number other than 1234567890 before; a program that defines one of them as that number finds it undefined. Macros min, max and DELETE the program itself has defined before are removed, too."
  },
  {
   "property": "C121",
   "status": "proved",
   "theorems": [
    "Utki.C121_arguments",
    "Utki.C121_get_macro",
    "Utki.C121_assert",
    "Utki.C121_more",
    "Utki.C121_eleven"
   ],
   "note": "The tokens of the arguments are not names of macros. With more than ten arguments it is the eleventh argument applied to all of them."
  },
  {
   "property": "C122",
   "status": "partial",
   "theorems": [
    "Utki.C122_condition_partial",
    "Utki.C122_traps",
    "Utki.C122_condition_refuted",
    "Utki.C122_traps_exact",
    "Utki.C122_number",
    "Utki.C122_no_place"
   ],
   "note": "False for functions and pointers to functions, and for std::function with another signature than bool(), which are not called; for an empty std::function<bool()> and nullptr, which throw std::bad_function_call; lambda expressions without captures and std::unique_ptr with its own deleter do not compile (C122_traps, C122_condition_refuted). Proved for all other conditions. Generic lambda expressions and the literal 0 as the place are not modelled."
  },
  {
   "property": "C123",
   "status": "proved",
   "theorems": [
    "Utki.C123_safe",
    "Utki.C123_made",
    "Utki.C123_convertible",
    "Utki.C123_make_string_view",
    "Utki.C123_make_string",
    "Utki.C123_to_utf32",
    "Utki.C123_utf8_iterator",
    "Utki.C123_to_bytes"
   ],
   "note": "The class span of the library, which is used whenever CFG_CPP is below 26, that is always (finding 50). Arrays of const elements and strings of types that are not characters are excepted (C123_made)."
  },
  {
   "property": "C124",
   "status": "proved",
   "theorems": [
    "Utki.C124_lvalue",
    "Utki.C124_dangling",
    "Utki.C124_owned",
    "Utki.C124_owned_reading",
    "Utki.C124_owned_again"
   ],
   "note": "Functions that do not change the variable during the chain; copies of aggregators are not modelled."
  },
  {
   "property": "C125",
   "status": "proved",
   "theorems": [
    "Utki.C125_visit",
    "Utki.C125_order",
    "Utki.C125_resolve",
    "Utki.C125_specific",
    "Utki.C125_exact",
    "Utki.C125_conversion",
    "Utki.C125_cross",
    "Utki.C125_one"
   ],
   "note": "Parameters by value or const reference (others with one variant: C116)."
  },
  {
   "property": "C126",
   "status": "proved",
   "theorems": [
    "Utki.C126_kept",
    "Utki.C126_leak",
    "Utki.C126_acyclic",
    "Utki.C126_end",
    "Utki.C126_order"
   ],
   "note": "One thread; on threads see C101."
  },
  {
   "property": "C127",
   "status": "proved",
   "theorems": [
    "Utki.C127_shared",
    "Utki.C127_unique",
    "Utki.C127_moved",
    "Utki.C127_moved_unique",
    "Utki.C127_set_shared",
    "Utki.C127_set_unique"
   ],
   "note": "The search in the set is modelled in order, not down the tree."
  },
  {
   "property": "C128",
   "status": "proved",
   "theorems": [
    "Utki.C128_one",
    "Utki.C128_elf",
    "Utki.C128_intrusive",
    "Utki.C128_separate",
    "Utki.C128_windows",
    "Utki.C128_hidden",
    "Utki.C128_local"
   ],
   "note": "The rules of the dynamic linkers are part of the trusted base."
  },
  {
   "property": "C129",
   "status": "proved",
   "theorems": [
    "Utki.C129_all",
    "Utki.C129_delete",
    "Utki.C129_undefined",
    "Utki.C129_own"
   ],
   "note": "No virtual bases; destructors do not throw."
  },
  {
   "property": "C130",
   "status": "proved",
   "theorems": [
    "Utki.C130_deg_to_rad",
    "Utki.C130_rad_to_deg",
    "Utki.C130_special",
    "Utki.C130_difference",
    "Utki.C130_powers",
    "Utki.C130_float_powers"
   ],
   "note": "Compilers that do not round in casts and returns are not modelled."
  },
  {
   "property": "C131",
   "status": "proved",
   "theorems": [
    "Utki.C131_lists",
    "Utki.C131_scalars",
    "Utki.C131_value_and_list",
    "Utki.C131_one_value",
    "Utki.C131_value_or_child",
    "Utki.C131_one_tree",
    "Utki.C131_parentheses",
    "Utki.C131_literals",
    "Utki.C131_compare",
    "Utki.C131_containers",
    "Utki.C131_copy"
   ],
   "note": "The choice among constructors is modelled by the rules of the language for the kinds of expressions named; other conversions (like narrowing, or iterator pairs) are not."
  },
  {
   "property": "C132",
   "status": "proved",
   "theorems": [
    "Utki.C132_copy",
    "Utki.C132_destroy",
    "Utki.C132_insert",
    "Utki.C132_insert_copy",
    "Utki.C132_insert_after",
    "Utki.C132_insert_after_copy",
    "Utki.C132_erase"
   ],
   "note": "For values that are moved without requesting memory, as those of the standard library are."
  },
  {
   "property": "C133",
   "status": "proved",
   "theorems": [
    "Utki.C133_connect",
    "Utki.C133_disconnect",
    "Utki.C133_copy",
    "Utki.C133_destroy",
    "Utki.C133_assign",
    "Utki.C133_assign_mixed"
   ],
   "note": "For function objects that std::function moves without requesting memory; std::list assigns element by element, as the implementations do."
  },
  {
   "property": "C134",
   "status": "proved",
   "theorems": [
    "Utki.C134_exceptions",
    "Utki.C134_can_lose",
    "Utki.C134_sorted",
    "Utki.C134_copies"
   ],
   "note": "C++17 implementation. A move that throws is assumed to leave its source as it was. That an element can be lost is shown by C134_can_lose."
  },
  {
   "property": "C135",
   "status": "proved",
   "theorems": [
    "Utki.C135_where",
    "Utki.C135_group_by",
    "Utki.C135_order_by_lvalue",
    "Utki.C135_order_by_rvalue",
    "Utki.C135_select",
    "Utki.C135_select_first",
    "Utki.C135_select_once"
   ],
   "note": "The collection is a vector, the functions take constant references, and moving an element or a vector requests no memory."
  },
  {
   "property": "C136",
   "status": "partial",
   "theorems": [
    "Utki.C136_assign_partial",
    "Utki.C136_assign_self",
    "Utki.C136_assign_own_grow",
    "Utki.C136_move",
    "Utki.C136_move_own",
    "Utki.C136_move_self",
    "Utki.C136_via_copy",
    "Utki.C136_own_undefined"
   ],
   "note": "False in general: `t = t.children[0]` reads destroyed nodes (C136_own_undefined). Proved for trees apart from each other (C136_assign_partial, C136_move), for the cases in which own parts can be assigned (C136_assign_own_grow, C136_move_own), and by way of a copy without condition (C136_via_copy). Requests for memory succeed and values do not throw."
  },
  {
   "property": "C137",
   "status": "proved",
   "theorems": [
    "Utki.C137_copy",
    "Utki.C137_destroy",
    "Utki.C137_move",
    "Utki.C137_assign",
    "Utki.C137_compare",
    "Utki.C137_compare_equal",
    "Utki.C137_shapes"
   ],
   "note": "The calls the vector makes between two calls of tree are counted with them. Traversal iterators move in loops, without nested calls (Model/Tree)."
  },
  {
   "property": "C138",
   "status": "proved",
   "theorems": [
    "Utki.C138_all",
    "Utki.C138_delete",
    "Utki.C138_undefined",
    "Utki.C138_one"
   ],
   "note": "Classes with the same name in an object are the same (WellNamed). Exceptions of destructors are not represented."
  },
  {
   "property": "C139",
   "status": "proved",
   "theorems": [
    "Utki.C139_zip_made",
    "Utki.C139_zip",
    "Utki.C139_zip_shrunk",
    "Utki.C139_skip_front",
    "Utki.C139_reverse"
   ],
   "note": "Of the state of the program only the sizes of the collections matter to views; bodies that insert or erase elements are not covered."
  },
  {
   "property": "C140",
   "status": "proved",
   "theorems": [
    "Utki.C140_tree",
    "Utki.C140_tree_pure",
    "Utki.C140_deep_equals",
    "Utki.C140_deep_less_than",
    "Utki.C140_contains",
    "Utki.C140_pure"
   ],
   "note": "Operators that change the elements being compared are not covered; std::equal, std::find and std::lexicographical_compare ask as the standard and the usual implementations do."
  },
  {
   "property": "C141",
   "status": "proved",
   "theorems": [
    "Utki.C141_begin_end",
    "Utki.C141_make_iterator",
    "Utki.C141_braces",
    "Utki.C141_index",
    "Utki.C141_at"
   ],
   "note": "The container of children is std::vector."
  },
  {
   "property": "C142",
   "status": "partial",
   "theorems": [
    "Utki.C142_va_list",
    "Utki.C142_make_string_partial",
    "Utki.C142_text",
    "Utki.C142_not_ended",
    "Utki.C142_error",
    "Utki.C142_short"
   ],
   "note": "False in general: when make_string throws, its va_list is never ended, which the C standard leaves undefined (C142_not_ended, C142_error). Proved in full for make_string_va_list (C142_va_list) and for calls of make_string that return; the rest holds for make_string too. The closure in scope_exit is kept without memory."
  },
  {
   "property": "C143",
   "status": "proved",
   "theorems": [
    "Utki.C143_visit",
    "Utki.C143_order",
    "Utki.C143_unchanged",
    "Utki.C143_one",
    "Utki.C143_plain",
    "Utki.C143_const_overload",
    "Utki.C143_ambiguous"
   ],
   "note": "No alternative is a base class of a parameter type; the variants are different objects; conversions do not change what they convert."
  },
  {
   "property": "C144",
   "status": "proved",
   "theorems": [
    "Utki.C144_made",
    "Utki.C144_compare",
    "Utki.C144_before_begin",
    "Utki.C144_use"
   ],
   "note": "at_level of such an iterator terminates, as the function is noexcept."
  },
  {
   "property": "C145",
   "status": "proved",
   "theorems": [
    "Utki.C145_skip_front",
    "Utki.C145_reverse",
    "Utki.C145_zip",
    "Utki.C145_skip_front_erased",
    "Utki.C145_reverse_erased"
   ],
   "note": "The elements next to each other matter to reverse loops because reverse iterators refer to the element after the one they stand for."
  },
  {
   "property": "C146",
   "status": "proved",
   "theorems": [
    "Utki.C146_log_order",
    "Utki.C146_log_complete",
    "Utki.C146_log_quiet",
    "Utki.C146_log_told",
    "Utki.C146_log_lost",
    "Utki.C146_logcat",
    "Utki.C146_assert",
    "Utki.C146_assert_throws",
    "Utki.C146_returns_iff"
   ],
   "note": "C76 and C77 are about streams that do not fail."
  },
  {
   "property": "C147",
   "status": "proved",
   "theorems": [
    "Utki.C147_plain",
    "Utki.C147_width",
    "Utki.C147_kept",
    "Utki.C147_android",
    "Utki.C147_differs",
    "Utki.C147_assert"
   ],
   "note": "Modelled formats: base, width, fill character and its side; integers are unsigned."
  },
  {
   "property": "C148",
   "status": "proved",
   "theorems": [
    "Utki.C148_version",
    "Utki.C148_version_width",
    "Utki.C148_version_columns",
    "Utki.C148_version_base",
    "Utki.C148_flags",
    "Utki.C148_span",
    "Utki.C148_span_width",
    "Utki.C148_cat",
    "Utki.C148_cat_split",
    "Utki.C148_cat_log",
    "Utki.C148_cat_base"
   ],
   "note": "Elements of spans and arguments of cat are texts or unsigned integers; streams do not fail."
  }
 ]
}