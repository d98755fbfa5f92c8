# Axioms of the property theorems

Generated by `tools/gen_axioms.py` from `#print axioms`. Only the three standard axioms of Lean
(`propext`, `Quot.sound`, `Classical.choice`) occur.

## C01

- `Utki.C01_serialize_le_roundtrip`: Classical.choice, Quot.sound, propext
- `Utki.C01_serialize_be_roundtrip`: Classical.choice, Quot.sound, propext
- `Utki.C01_wrappers_roundtrip`: Classical.choice, Quot.sound, propext

## C02

- `Utki.C02_deserialize_le_roundtrip`: Classical.choice, Quot.sound, propext
- `Utki.C02_deserialize_be_roundtrip`: Classical.choice, Quot.sound, propext
- `Utki.C02_deserialize_injective`: Classical.choice, Quot.sound, propext

## C03

- `Utki.C03_serialize_le_layout`: Classical.choice, Quot.sound, propext
- `Utki.C03_serialize_be_layout`: Classical.choice, Quot.sound, propext
- `Utki.C03_deserialize_value`: Classical.choice, Quot.sound, propext
- `Utki.C03_no_room_is_ub`: Quot.sound, propext
- `Utki.C03_wrappers_layout`: Classical.choice, Quot.sound, propext

## C04

- `Utki.C04_float_roundtrip`: Classical.choice, Quot.sound, propext
- `Utki.C04_float_layout`: Classical.choice, Quot.sound, propext

## C05

- `Utki.C05_deserializer_is_cursor`: Classical.choice, Quot.sound, propext
- `Utki.C05_call_all_or_nothing`: Classical.choice, Quot.sound, propext
- `Utki.C05_reads_only_the_span`: Classical.choice, Quot.sound, propext

## C06

- `Utki.C06_read_back_what_was_written`: Classical.choice, Quot.sound, propext

## C07

- `Utki.C07_decode_encode`: Classical.choice, Quot.sound, propext

## C08

- `Utki.C08_throws_iff`: Classical.choice, Quot.sound, propext
- `Utki.C08_safe`: Classical.choice, Quot.sound, propext
- `Utki.C08_unsafe_length`: Classical.choice, Quot.sound, propext
- `Utki.C08_unsafe_char`: Classical.choice, Quot.sound, propext

## C09

- `Utki.C09_value`: Classical.choice, Quot.sound, propext
- `Utki.C09_length`: Classical.choice, Quot.sound, propext
- `Utki.C09_length_bound`: Classical.choice, Quot.sound, propext
- `Utki.C09_invalid_as_A`: Classical.choice, Quot.sound, propext

## C10

- `Utki.C10_round_trip`: Classical.choice, Quot.sound, propext
- `Utki.C10_round_trip_exact`: Classical.choice, Quot.sound, propext

## C11

- `Utki.C11_to_utf8_char`: Classical.choice, Quot.sound, propext
- `Utki.C11_shortest`: Classical.choice, Quot.sound, propext
- `Utki.C11_agrees_with_standard_library`: Quot.sound, propext

## C12

- `Utki.C12_iterate`: Classical.choice, Quot.sound, propext
- `Utki.C12_to_utf32`: Classical.choice, Quot.sound, propext
- `Utki.C12_reads_only_the_span`: Classical.choice, Quot.sound, propext

## C13

- `Utki.C13_nul_terminated`: Classical.choice, Quot.sound, propext
- `Utki.C13_truncated_reads_past_terminator`: Quot.sound, propext

## C14

- `Utki.C14_decode_forms`: Classical.choice, Quot.sound, propext
- `Utki.C14_decode_text`: Classical.choice, Quot.sound, propext
- `Utki.C14_stops_at_nul`: Classical.choice, Quot.sound, propext

## C15

- `Utki.C15_join_split`: Classical.choice, Quot.sound, propext

## C16

- `Utki.C16_fields`: Classical.choice, Quot.sound, propext

## C17

- `Utki.C17_split_join`: Classical.choice, Quot.sound, propext
- `Utki.C17_join_shape`: propext

## C18

- `Utki.C18_words`: Quot.sound, propext
- `Utki.C18_words_unique`: Quot.sound, propext

## C19

- `Utki.C19_trim_front`: Classical.choice, Quot.sound, propext
- `Utki.C19_trim_back`: Classical.choice, Quot.sound, propext
- `Utki.C19_trim`: Classical.choice, Quot.sound, propext
- `Utki.C19_trim_classic`: Classical.choice, Quot.sound, propext

## C20

- `Utki.C20_starts_with`: Quot.sound, propext

## C21

- `Utki.C21_ends_with_cpp20`: propext
- `Utki.C21_ends_with_cpp17_partial`: Classical.choice, Quot.sound, propext
- `Utki.C21_ends_with_cpp17_wrong`: Classical.choice, Quot.sound, propext

## C22

- `Utki.C22_tabs`: propext
- `Utki.C22_spaces_partial`: propext
- `Utki.C22_wraps`: propext
- `Utki.C22_wrong`: none

## C23

- `Utki.C23_text`: Quot.sound, propext
- `Utki.C23_error_first`: propext
- `Utki.C23_error_second`: propext
- `Utki.C23_throws_iff`: Quot.sound, propext
- `Utki.C23_safe`: Quot.sound, propext
- `Utki.C23_grows`: Quot.sound, propext

## C24

- `Utki.C24_width`: Classical.choice, Quot.sound, propext

## C25

- `Utki.C25_pieces`: Classical.choice, Quot.sound, propext
- `Utki.C25_content`: Classical.choice, Quot.sound, propext

## C26

- `Utki.C26_total`: Classical.choice, Quot.sound, propext
- `Utki.C26_same_in_all_builds`: Classical.choice, Quot.sound, propext

## C27

- `Utki.C27_fits`: Classical.choice, Quot.sound, propext
- `Utki.C27_width_zero`: propext

## C28

- `Utki.C28_words_whole_partial`: Classical.choice, Quot.sound, propext
- `Utki.C28_wrong`: Classical.choice, Quot.sound, propext
- `Utki.C28_divided_after_indent_partial`: Classical.choice, Quot.sound, propext
- `Utki.C28_long_words`: Classical.choice, Quot.sound, propext

## C29

- `Utki.C29_suffix`: Classical.choice, Quot.sound, propext
- `Utki.C29_size`: propext

## C30

- `Utki.C30_read_word`: Quot.sound, propext
- `Utki.C30_read_word_until`: Quot.sound, propext
- `Utki.C30_read_chars_until`: Quot.sound, propext
- `Utki.C30_read_chars`: Quot.sound, propext

## C31

- `Utki.C31_skip_whitespaces`: Quot.sound, propext
- `Utki.C31_skip_whitespaces_and_comma`: Classical.choice, Quot.sound, propext
- `Utki.C31_skip_inclusive_until`: Quot.sound, propext
- `Utki.C31_skip_inclusive_until_one_of`: Classical.choice, Quot.sound, propext

## C32

- `Utki.C32_read_char`: Quot.sound, propext
- `Utki.C32_peek`: Quot.sound, propext

## C33

- `Utki.C33_value`: Classical.choice, Quot.sound, propext
- `Utki.C33_throws_iff`: Classical.choice, Quot.sound, propext
- `Utki.C33_unique`: Classical.choice, Quot.sound, propext

## C34

- `Utki.C34_value`: Classical.choice, Quot.sound, propext
- `Utki.C34_throws_iff`: Classical.choice, Quot.sound, propext

## C35

- `Utki.C35_unsigned`: Classical.choice, Quot.sound, propext
- `Utki.C35_signed`: Classical.choice, Quot.sound, propext

## C36

- `Utki.C36_unsigned`: Classical.choice, Quot.sound, propext
- `Utki.C36_signed`: Classical.choice, Quot.sound, propext

## C37

- `Utki.C37_at_index`: Classical.choice, Quot.sound, propext
- `Utki.C37_begin_end`: propext
- `Utki.C37_next`: Classical.choice, Quot.sound, propext
- `Utki.C37_star`: Classical.choice, Quot.sound, propext
- `Utki.C37_loop`: Classical.choice, Quot.sound, propext
- `Utki.C37_nodes`: Classical.choice, Quot.sound, propext

## C38

- `Utki.C38_prev`: Classical.choice, Quot.sound, propext
- `Utki.C38_inverse`: Classical.choice, Quot.sound, propext
- `Utki.C38_loop`: Classical.choice, Quot.sound, propext

## C39

- `Utki.C39_make_iterator`: Classical.choice, Quot.sound, propext
- `Utki.C39_round_trip`: Classical.choice, Quot.sound, propext
- `Utki.C39_is_valid`: Classical.choice, Quot.sound, propext
- `Utki.C39_throws_iff`: Quot.sound, propext
- `Utki.C39_at_index`: Quot.sound, propext

## C40

- `Utki.C40_compare`: Classical.choice, Quot.sound, propext

## C41

- `Utki.C41_insert`: Classical.choice, Quot.sound, propext
- `Utki.C41_insert_after`: Classical.choice, Quot.sound, propext
- `Utki.C41_outline_determines`: Classical.choice, Quot.sound, propext

## C42

- `Utki.C42_erase`: Classical.choice, Quot.sound, propext

## C43

- `Utki.C43_is_last_child`: Classical.choice, Quot.sound, propext
- `Utki.C43_at_level`: Classical.choice, Quot.sound, propext

## C44

- `Utki.C44_eq`: Classical.choice, Quot.sound, propext
- `Utki.C44_lawful`: Classical.choice, Quot.sound, propext
- `Utki.C44_equivalence`: Classical.choice, Quot.sound, propext

## C45

- `Utki.C45_sort`: Classical.choice, Quot.sound, propext

## C46

- `Utki.C46_only_range`: Classical.choice, Quot.sound, propext
- `Utki.C46_terminates`: Classical.choice, Quot.sound, propext
- `Utki.C46_may_not_terminate`: Quot.sound, propext

## C47

- `Utki.C47_select`: Quot.sound, propext
- `Utki.C47_select_index`: Classical.choice, Quot.sound, propext
- `Utki.C47_where`: propext
- `Utki.C47_where_map`: Quot.sound, propext
- `Utki.C47_where_by_value`: propext

## C48

- `Utki.C48_group_by`: Classical.choice, Quot.sound, propext
- `Utki.C48_partition`: propext

## C49

- `Utki.C49_order_by`: propext

## C50

- `Utki.C50_source_unchanged`: Classical.choice, Quot.sound, propext
- `Utki.C50_result`: Classical.choice, Quot.sound, propext
- `Utki.C50_rvalue_no_copies`: Classical.choice, Quot.sound, propext
- `Utki.C50_lvalue_copies`: Classical.choice, Quot.sound, propext
- `Utki.C50_lvalue_exact`: Quot.sound, propext
- `Utki.C50_copies`: Classical.choice, Quot.sound, propext

## C51

- `Utki.C51_zip`: Classical.choice, Quot.sound, propext

## C52

- `Utki.C52_skip_front`: Classical.choice, Quot.sound, propext
- `Utki.C52_reverse`: Classical.choice, Quot.sound, propext
- `Utki.C52_reverse_twice`: Classical.choice, Quot.sound, propext

## C53

- `Utki.C53_read`: Quot.sound, propext
- `Utki.C53_flagwise`: Classical.choice, Quot.sound, propext
- `Utki.C53_eq`: Quot.sound, propext
- `Utki.C53_all_none`: Classical.choice, Quot.sound, propext
- `Utki.C53_construct`: Classical.choice, Quot.sound, propext
- `Utki.C53_construct_throws`: Classical.choice, Quot.sound, propext
- `Utki.C53_laws`: Classical.choice, Quot.sound, propext
- `Utki.C53_print`: Quot.sound, propext

## C54

- `Utki.C54_step`: Classical.choice, Quot.sound, propext
- `Utki.C54_history`: Classical.choice, Quot.sound, propext
- `Utki.C54_last_write`: Classical.choice, Quot.sound, propext
- `Utki.C54_bad_enumerator`: Classical.choice, Quot.sound, propext
- `Utki.C54_bad_get`: Classical.choice, Quot.sound, propext
- `Utki.C54_or_enum`: Classical.choice, Quot.sound, propext

## C55

- `Utki.C55_size`: Classical.choice, Quot.sound, propext
- `Utki.C55_emit`: Classical.choice, Quot.sound, propext
- `Utki.C55_ids`: Classical.choice, Quot.sound, propext
- `Utki.C55_disconnect`: Classical.choice, Quot.sound, propext
- `Utki.C55_emit_quiet`: Classical.choice, Quot.sound, propext

## C56

- `Utki.C56_calls`: Classical.choice, Quot.sound, propext
- `Utki.C56_complete`: Classical.choice, Quot.sound, propext
- `Utki.C56_defined`: Classical.choice, Quot.sound, propext
- `Utki.C56_self_disconnect`: Classical.choice, Quot.sound, propext

## C57

- `Utki.C57_nth`: Classical.choice, Quot.sound, propext
- `Utki.C57_partial`: Classical.choice, Quot.sound, propext
- `Utki.C57_refuted`: Classical.choice, Quot.sound, propext

## C58

- `Utki.C58_mutual_exclusion`: Quot.sound, propext
- `Utki.C58_one`: Quot.sound, propext
- `Utki.C58_visibility`: Quot.sound, propext

## C59

- `Utki.C59_free`: Quot.sound, propext
- `Utki.C59_no_deadlock`: Quot.sound, propext
- `Utki.C59_failed`: Quot.sound, propext
- `Utki.C59_live`: Classical.choice, Quot.sound, propext
- `Utki.C59_starvation_possible`: Quot.sound, propext

## C60

- `Utki.C60_scopes`: Quot.sound, propext
- `Utki.C60_once`: Quot.sound, propext
- `Utki.C60_order`: Quot.sound, propext
- `Utki.C60_no_escape`: propext

## C61

- `Utki.C61_at_most_one`: Classical.choice, Quot.sound, propext
- `Utki.C61_construct`: Classical.choice, Quot.sound, propext
- `Utki.C61_is_created`: Classical.choice, Quot.sound, propext
- `Utki.C61_inst`: Classical.choice, Quot.sound, propext
- `Utki.C61_destroy`: Classical.choice, Quot.sound, propext

## C62

- `Utki.C62_not_null`: Classical.choice, Quot.sound, propext
- `Utki.C62_alive_iff`: Classical.choice, Quot.sound, propext
- `Utki.C62_destroyed_once`: Classical.choice, Quot.sound, propext
- `Utki.C62_members`: Classical.choice, Quot.sound, propext
- `Utki.C62_valid_use`: Classical.choice, Quot.sound, propext
- `Utki.C62_make_shared`: propext
- `Utki.C62_copy`: Classical.choice, Quot.sound, propext
- `Utki.C62_ptr`: Classical.choice, Quot.sound, propext
- `Utki.C62_copy_assign`: Classical.choice, Quot.sound, propext
- `Utki.C62_move`: Classical.choice, Quot.sound, propext
- `Utki.C62_move_assign`: Classical.choice, Quot.sound, propext
- `Utki.C62_destroy`: Classical.choice, Quot.sound, propext
- `Utki.C62_cast`: Classical.choice, Quot.sound, propext
- `Utki.C62_weak`: Classical.choice, Quot.sound, propext
- `Utki.C62_make_shared_from`: Classical.choice, Quot.sound, propext
- `Utki.C62_make_weak_from`: Classical.choice, Quot.sound, propext

## C63

- `Utki.C63_not_null`: Classical.choice, Quot.sound, propext
- `Utki.C63_one_owner`: Classical.choice, Quot.sound, propext
- `Utki.C63_destroyed_once`: Classical.choice, Quot.sound, propext
- `Utki.C63_members`: Classical.choice, Quot.sound, propext
- `Utki.C63_valid_use`: Classical.choice, Quot.sound, propext
- `Utki.C63_make_unique`: propext
- `Utki.C63_move`: Classical.choice, Quot.sound, propext
- `Utki.C63_from_ptr`: Classical.choice, Quot.sound, propext
- `Utki.C63_move_assign`: Classical.choice, Quot.sound, propext
- `Utki.C63_destroy`: Classical.choice, Quot.sound, propext

## C64

- `Utki.C64_to_string`: Classical.choice, Quot.sound, propext
- `Utki.C64_what`: Classical.choice, Quot.sound, propext
- `Utki.C64_current`: Classical.choice, Quot.sound, propext
- `Utki.C64_to_string_format`: Classical.choice, Quot.sound, propext
- `Utki.C64_current_format`: Classical.choice, Quot.sound, propext
- `Utki.C64_what_format`: Classical.choice, Quot.sound, propext
- `Utki.C64_throw_with_nested`: Classical.choice, Quot.sound, propext
- `Utki.C64_no_current`: Classical.choice, Quot.sound, propext
- `Utki.C64_terminates_iff`: Classical.choice, Quot.sound, propext
- `Utki.C64_current_terminates_iff`: Classical.choice, Quot.sound, propext
- `Utki.C64_current_stacked`: Classical.choice, Quot.sound, propext
- `Utki.C64_utki_not_indented`: Classical.choice, Quot.sound, propext

## C65

- `Utki.C65_next`: Classical.choice, Quot.sound, propext
- `Utki.C65_prev`: Classical.choice, Quot.sound, propext
- `Utki.C65_outside`: Classical.choice, Quot.sound, propext

## C66

- `Utki.C66_flip`: Classical.choice, Quot.sound, propext
- `Utki.C66_twice`: Classical.choice, Quot.sound, propext

## C67

- `Utki.C67_contains`: Classical.choice, Quot.sound, propext
- `Utki.C67_map_equivalent`: Classical.choice, Quot.sound, propext
- `Utki.C67_map`: Classical.choice, Quot.sound, propext
- `Utki.C67_unordered_map`: Classical.choice, Quot.sound, propext

## C68

- `Utki.C68_at`: Quot.sound, propext
- `Utki.C68_index`: Quot.sound, propext
- `Utki.C68_front_back`: Quot.sound, propext
- `Utki.C68_front_back_empty`: Classical.choice, Quot.sound, propext
- `Utki.C68_subspan`: Classical.choice, Quot.sound, propext
- `Utki.C68_subspan_rest`: Classical.choice, Quot.sound, propext
- `Utki.C68_subspan_compose`: Quot.sound, propext
- `Utki.C68_subspan_bad_aborts`: Quot.sound, propext
- `Utki.C68_iteration`: Classical.choice, Quot.sound, propext
- `Utki.C68_make_span`: Quot.sound, propext
- `Utki.C68_overlaps`: Classical.choice, Quot.sound, propext

## C69

- `Utki.C69_deep_equals`: Classical.choice, Quot.sound, propext
- `Utki.C69_deep_compare`: Classical.choice, Quot.sound, propext
- `Utki.C69_total_order`: Quot.sound, propext

## C70

- `Utki.C70_iterate`: Quot.sound, propext
- `Utki.C70_history`: Quot.sound, propext
- `Utki.C70_outside`: Quot.sound, propext
- `Utki.C70_zip_with_enum`: Classical.choice, Quot.sound, propext

## C71

- `Utki.C71_order`: Quot.sound, propext
- `Utki.C71_lexicographic`: Classical.choice, Quot.sound, propext
- `Utki.C71_unpack`: Classical.choice, Quot.sound, propext
- `Utki.C71_injective`: Classical.choice, Quot.sound, propext
- `Utki.C71_total_order`: Classical.choice, Quot.sound, propext
- `Utki.C71_text`: Classical.choice, Quot.sound, propext
- `Utki.C71_read_back`: Classical.choice, Quot.sound, propext
- `Utki.C71_text_injective`: Classical.choice, Quot.sound, propext

## C72

- `Utki.C72_sign`: Classical.choice, Quot.sound, propext
- `Utki.C72_unsigned`: Classical.choice, Quot.sound, propext
- `Utki.C72_narrow`: Classical.choice, Quot.sound, propext
- `Utki.C72_signed`: Classical.choice, Quot.sound, propext
- `Utki.C72_uint16`: Classical.choice, Quot.sound, propext
- `Utki.C72_when_defined`: Classical.choice, Quot.sound, propext

## C73

- `Utki.C73_ticks`: Quot.sound, propext
- `Utki.C73_tight`: Quot.sound, propext

## C74

- `Utki.C74_offset_sequence`: propext
- `Utki.C74_index_of`: Classical.choice, Quot.sound, propext
- `Utki.C74_int_size`: Quot.sound, propext

## C75

- `Utki.C75_views_faithful`: Quot.sound, propext
- `Utki.C75_c_string`: Quot.sound, propext

## C76

- `Utki.C76_true`: Classical.choice, Quot.sound, propext
- `Utki.C76_false`: Classical.choice, Quot.sound, propext
- `Utki.C76_false_no_text`: Classical.choice, Quot.sound, propext
- `Utki.C76_printer_throws`: Classical.choice, Quot.sound, propext
- `Utki.C76_returns_iff`: Classical.choice, Quot.sound, propext
- `Utki.C76_debug`: Classical.choice, Quot.sound, propext
- `Utki.C76_checker_throws`: Classical.choice, Quot.sound, propext
- `Utki.C76_release`: Classical.choice, Quot.sound, propext
- `Utki.C76_android_returns`: Classical.choice, Quot.sound, propext
- `Utki.C76_android_false`: Classical.choice, Quot.sound, propext
- `Utki.C76_android_no_text`: Classical.choice, Quot.sound, propext
- `Utki.C76_android_zero`: Classical.choice, Quot.sound, propext
- `Utki.C76_android_throws`: Classical.choice, Quot.sound, propext

## C77

- `Utki.C77_log`: propext
- `Utki.C77_logcat`: propext
- `Utki.C77_debug`: none
- `Utki.C77_android`: Quot.sound, propext

## C78

- `Utki.C78_double`: Classical.choice, Quot.sound, propext
- `Utki.C78_float`: Classical.choice, Quot.sound, propext
- `Utki.C78_long_double`: Classical.choice, Quot.sound, propext
- `Utki.C78_unambiguous`: Classical.choice, Quot.sound, propext

## C79

- `Utki.C79_double`: Classical.choice, Quot.sound, propext
- `Utki.C79_float`: Classical.choice, Quot.sound, propext
- `Utki.C79_long_double`: Classical.choice, Quot.sound, propext
- `Utki.C79_unique`: Classical.choice, Quot.sound, propext
- `Utki.C79_limit_needed`: Classical.choice, Quot.sound, propext

## C80

- `Utki.C80_double`: Classical.choice, Quot.sound, propext
- `Utki.C80_float`: Classical.choice, Quot.sound, propext
- `Utki.C80_long_double`: Classical.choice, Quot.sound, propext

## C81

- `Utki.C81_double`: Classical.choice, Quot.sound, propext
- `Utki.C81_float`: Classical.choice, Quot.sound, propext
- `Utki.C81_long_double`: Classical.choice, Quot.sound, propext

## C82

- `Utki.C82_literal`: Classical.choice, Quot.sound, propext
- `Utki.C82_special`: Classical.choice, Quot.sound, propext
- `Utki.C82_throws_iff`: Classical.choice, Quot.sound, propext

## C83

- `Utki.C83_break_needed_partial`: Classical.choice, Quot.sound, propext
- `Utki.C83_wrong`: Classical.choice, Quot.sound, propext

## C84

- `Utki.C84_double`: Classical.choice, Quot.sound, propext
- `Utki.C84_float`: Classical.choice, Quot.sound, propext
- `Utki.C84_long_double`: Classical.choice, Quot.sound, propext
- `Utki.C84_read_number`: Classical.choice, Quot.sound, propext

## C85

- `Utki.C85_constants`: Classical.choice, Quot.sound, propext
- `Utki.C85_deg_to_rad`: Classical.choice, Quot.sound, propext
- `Utki.C85_deg_to_rad_overflow`: Classical.choice, Quot.sound, propext
- `Utki.C85_rad_to_deg`: Classical.choice, Quot.sound, propext
- `Utki.C85_rad_to_deg_overflow`: Classical.choice, Quot.sound, propext
- `Utki.C85_round_trip`: Classical.choice, Quot.sound, propext
- `Utki.C85_monotone`: Classical.choice, Quot.sound, propext
- `Utki.C85_special`: Classical.choice, Quot.sound, propext
- `Utki.C85_half_turn`: Classical.choice, Quot.sound, propext
- `Utki.C85_arithmetic_exists`: Classical.choice, Quot.sound, propext
- `Utki.C85_integers`: Classical.choice, Quot.sound, propext
- `Utki.C85_deg_to_rad_long`: Classical.choice, Quot.sound, propext
- `Utki.C85_deg_to_rad_long_overflow`: Classical.choice, Quot.sound, propext
- `Utki.C85_rad_to_deg_long`: Classical.choice, Quot.sound, propext
- `Utki.C85_round_trip_long`: Classical.choice, Quot.sound, propext

## C86

- `Utki.C86_powers`: Classical.choice, Quot.sound, propext
- `Utki.C86_always`: Classical.choice, Quot.sound, propext
- `Utki.C86_overflow`: Classical.choice, Quot.sound, propext
- `Utki.C86_monotone`: Classical.choice, Quot.sound, propext
- `Utki.C86_opposite`: Classical.choice, Quot.sound, propext
- `Utki.C86_special`: Classical.choice, Quot.sound, propext
- `Utki.C86_sign`: Classical.choice, Quot.sound, propext

## C87

- `Utki.C87_at_most`: Classical.choice, Quot.sound, propext
- `Utki.C87_attained`: Classical.choice, Quot.sound, propext
- `Utki.C87_sorted_range`: Classical.choice, Quot.sound, propext
- `Utki.C87_equivalent`: Quot.sound, propext

## C88

- `Utki.C88_demangle`: Classical.choice, Quot.sound, propext
- `Utki.C88_msvc`: Classical.choice, Quot.sound, propext

## C89

- `Utki.C89_remove_const_reference`: propext
- `Utki.C89_keeps_volatile`: Quot.sound, propext
- `Utki.C89_remove_const_pointer`: Quot.sound, propext
- `Utki.C89_is_specialization_of`: Quot.sound, propext
- `Utki.C89_is_scoped_enum`: Quot.sound, propext
- `Utki.C89_type_or_void`: propext
- `Utki.C89_masks`: Classical.choice, Quot.sound, propext

## C90

- `Utki.C90_select`: Quot.sound, propext
- `Utki.C90_select_index`: Quot.sound, propext
- `Utki.C90_select_source`: Quot.sound, propext
- `Utki.C90_where`: Quot.sound, propext
- `Utki.C90_where_source`: Quot.sound, propext
- `Utki.C90_group_by`: Classical.choice, Quot.sound, propext
- `Utki.C90_group_by_source`: Quot.sound, propext

## C91

- `Utki.C91_serialize`: Quot.sound, propext
- `Utki.C91_span`: Quot.sound, propext
- `Utki.C91_deserializer`: Quot.sound, propext
- `Utki.C91_base64`: Quot.sound, propext
- `Utki.C91_string`: Quot.sound, propext
- `Utki.C91_read_number`: Quot.sound, propext
- `Utki.C91_tree`: Quot.sound, propext
- `Utki.C91_flags`: Quot.sound, propext
- `Utki.C91_arrays`: Quot.sound, propext
- `Utki.C91_singleton`: Quot.sound, propext
- `Utki.C91_shared_ref`: Quot.sound, propext
- `Utki.C91_unique_ref`: Quot.sound, propext
- `Utki.C91_others`: Quot.sound, propext
- `Utki.C91_compose`: Quot.sound, propext

## C92

- `Utki.C92_copy`: Quot.sound, propext
- `Utki.C92_assign`: propext
- `Utki.C92_connect`: propext
- `Utki.C92_destroy`: propext
- `Utki.C92_emit`: propext
- `Utki.C92_independent`: Classical.choice, Quot.sound, propext
- `Utki.C92_connections`: Classical.choice, Quot.sound, propext
- `Utki.C92_copied_stay`: Classical.choice, Quot.sound, propext

## C93

- `Utki.C93_text_stays_partial`: Classical.choice, Quot.sound, propext
- `Utki.C93_wrong`: Classical.choice, Quot.sound, propext
- `Utki.C93_no_memory`: Classical.choice, Quot.sound, propext
- `Utki.C93_defined`: Classical.choice, Quot.sound, propext
- `Utki.C93_no_leak`: Classical.choice, Quot.sound, propext
- `Utki.C93_long_text`: Classical.choice, Quot.sound, propext
- `Utki.C93_threads_partial`: Quot.sound, propext
- `Utki.C93_threads_wrong`: propext

## C94

- `Utki.C94_end_partial`: Classical.choice, Quot.sound, propext
- `Utki.C94_end_wrong`: Classical.choice, Quot.sound, propext
- `Utki.C94_documented_use`: Classical.choice, Quot.sound, propext

## C95

- `Utki.C95_enough_memory`: Classical.choice, Quot.sound, propext
- `Utki.C95_end`: Classical.choice, Quot.sound, propext
- `Utki.C95_next_partial`: Classical.choice, Quot.sound, propext
- `Utki.C95_next_wrong`: Classical.choice, Quot.sound, propext
- `Utki.C95_prev_partial`: Classical.choice, Quot.sound, propext
- `Utki.C95_prev_wrong`: Classical.choice, Quot.sound, propext
- `Utki.C95_broken`: Classical.choice, Quot.sound, propext
- `Utki.C95_release_wrong`: propext

## C96

- `Utki.C96_each_thread`: Classical.choice, Quot.sound, propext
- `Utki.C96_single_argument_partial`: Quot.sound, propext
- `Utki.C96_with_lock`: Quot.sound, propext
- `Utki.C96_wrong`: Classical.choice, Quot.sound, propext

## C97

- `Utki.C97_same`: Quot.sound, propext
- `Utki.C97_one_step`: Classical.choice, Quot.sound, propext
- `Utki.C97_forward`: Classical.choice, Quot.sound, propext
- `Utki.C97_backward`: Classical.choice, Quot.sound, propext
- `Utki.C97_traversal`: Classical.choice, Quot.sound, propext

## C98

- `Utki.C98_begin_end`: propext
- `Utki.C98_iterator`: Classical.choice, Quot.sound, propext
- `Utki.C98_limits`: Classical.choice, Quot.sound, propext
- `Utki.C98_compare`: Classical.choice, Quot.sound, propext
- `Utki.C98_insert`: Classical.choice, Quot.sound, propext
- `Utki.C98_insert_after`: Classical.choice, Quot.sound, propext
- `Utki.C98_erase`: Classical.choice, Quot.sound, propext
- `Utki.C98_insert_others`: Classical.choice, Quot.sound, propext
- `Utki.C98_insert_after_others`: Classical.choice, Quot.sound, propext
- `Utki.C98_erase_others`: Classical.choice, Quot.sound, propext
- `Utki.C98_insert_deep`: Classical.choice, Quot.sound, propext
- `Utki.C98_insert_copied`: Classical.choice, Quot.sound, propext
- `Utki.C98_erase_deep`: Classical.choice, Quot.sound, propext
- `Utki.C98_history`: Classical.choice, Quot.sound, propext

## C99

- `Utki.C99_erase_if`: Classical.choice, Quot.sound, propext
- `Utki.C99_remaining`: Classical.choice, Quot.sound, propext

## C100

- `Utki.C100_unsigned`: Classical.choice, Quot.sound, propext
- `Utki.C100_signed`: Classical.choice, Quot.sound, propext
- `Utki.C100_float`: Classical.choice, Quot.sound, propext
- `Utki.C100_split`: Classical.choice, Quot.sound, propext

## C101

- `Utki.C101_alive`: Classical.choice, Quot.sound, propext
- `Utki.C101_once`: Classical.choice, Quot.sound, propext
- `Utki.C101_last`: Classical.choice, Quot.sound, propext
- `Utki.C101_gone`: Classical.choice, Quot.sound, propext
- `Utki.C101_final`: Classical.choice, Quot.sound, propext
- `Utki.C101_lock`: Classical.choice, Quot.sound, propext
- `Utki.C101_ordered`: Classical.choice, Quot.sound, propext

## C102

- `Utki.C102_again`: Classical.choice, Quot.sound, propext
- `Utki.C102_idempotent`: Classical.choice, Quot.sound, propext
- `Utki.C102_spaces_at_end`: Classical.choice, Quot.sound, propext
- `Utki.C102_line`: Classical.choice, Quot.sound, propext

## C103

- `Utki.C103_insert_erase`: Classical.choice, Quot.sound, propext
- `Utki.C103_insert_after_erase`: Classical.choice, Quot.sound, propext
- `Utki.C103_erase_insert`: Classical.choice, Quot.sound, propext

## C104

- `Utki.C104_from_chars`: Classical.choice, Quot.sound, propext
- `Utki.C104_read_number`: Classical.choice, Quot.sound, propext
- `Utki.C104_writable`: Classical.choice, Quot.sound, propext
- `Utki.C104_digits`: Classical.choice, Quot.sound, propext
- `Utki.C104_distinct`: Classical.choice, Quot.sound, propext
- `Utki.C104_fewer_digits`: Classical.choice, Quot.sound, propext
- `Utki.C104_more_digits`: Classical.choice, Quot.sound, propext

## C105

- `Utki.C105_order`: Classical.choice, Quot.sound, propext
- `Utki.C105_read_number`: Classical.choice, Quot.sound, propext
- `Utki.C105_exact`: Classical.choice, Quot.sound, propext

## C106

- `Utki.C106_big_endian`: Classical.choice, Quot.sound, propext
- `Utki.C106_utf8`: Classical.choice, Quot.sound, propext
- `Utki.C106_little_endian_not`: Classical.choice, Quot.sound, propext

## C107

- `Utki.C107_to_utf32`: Classical.choice, Quot.sound, propext
- `Utki.C107_to_utf8`: Classical.choice, Quot.sound, propext
- `Utki.C107_base64`: Classical.choice, Quot.sound, propext
- `Utki.C107_base64_encoded`: Classical.choice, Quot.sound, propext
- `Utki.C107_base64_not`: Classical.choice, Quot.sound, propext

## C108

- `Utki.C108_same`: propext
- `Utki.C108_at_most`: Classical.choice, Quot.sound, propext
- `Utki.C108_attained`: Classical.choice, Quot.sound, propext
- `Utki.C108_sorted_range`: Classical.choice, Quot.sound, propext

## C109

- `Utki.C109_at_most_one`: Classical.choice, Quot.sound, propext
- `Utki.C109_construct`: Classical.choice, Quot.sound, propext
- `Utki.C109_use`: Classical.choice, Quot.sound, propext
- `Utki.C109_locked`: Quot.sound, propext
- `Utki.C109_wrong`: Quot.sound, propext
- `Utki.C109_wrong_inst`: Quot.sound, propext

## C110

- `Utki.C110_join`: propext
- `Utki.C110_split`: Classical.choice, Quot.sound, propext
- `Utki.C110_words`: Quot.sound, propext
- `Utki.C110_wrap`: Classical.choice, Quot.sound, propext
- `Utki.C110_paragraphs`: Classical.choice, Quot.sound, propext
- `Utki.C110_spaces`: Classical.choice, Quot.sound, propext

## C111

- `Utki.C111_drop_in`: Classical.choice, Quot.sound, propext
- `Utki.C111_any_order`: Classical.choice, Quot.sound, propext
- `Utki.C111_classes`: Classical.choice, Quot.sound, propext
- `Utki.C111_not_stable`: propext

## C112

- `Utki.C112_wider`: Classical.choice, Quot.sound, propext
- `Utki.C112_double_spaces`: Classical.choice, Quot.sound, propext

## C113

- `Utki.C113_fewest`: Classical.choice, Quot.sound, propext
- `Utki.C113_full_lines`: Classical.choice, Quot.sound, propext

## C114

- `Utki.C114_exclusion`: Classical.choice, Quot.sound, propext
- `Utki.C114_visibility`: Classical.choice, Quot.sound, propext
- `Utki.C114_in_order`: Classical.choice, Quot.sound, propext
- `Utki.C114_cycle`: Classical.choice, Quot.sound, propext
- `Utki.C114_twice`: Classical.choice, Quot.sound, propext
- `Utki.C114_deadlock`: Classical.choice, Quot.sound, propext
- `Utki.C114_live`: Classical.choice, Quot.sound, propext
- `Utki.C114_all_return`: Classical.choice, Quot.sound, propext
- `Utki.C114_greater_needed`: Classical.choice, Quot.sound, propext

## C115

- `Utki.C115_ways`: Classical.choice, Quot.sound, propext
- `Utki.C115_write`: Quot.sound, propext
- `Utki.C115_refused`: propext
- `Utki.C115_history`: Classical.choice, Quot.sound, propext
- `Utki.C115_subspan`: Quot.sound, propext
- `Utki.C115_subspan_rest`: Quot.sound, propext
- `Utki.C115_make_span`: Quot.sound, propext
- `Utki.C115_disjoint`: Classical.choice, Quot.sound, propext
- `Utki.C115_split`: Quot.sound, propext
- `Utki.C115_make_vector`: Quot.sound, propext
- `Utki.C115_reads`: Classical.choice, Quot.sound, propext

## C116

- `Utki.C116_visit`: Quot.sound, propext
- `Utki.C116_order`: Quot.sound, propext
- `Utki.C116_exact`: Classical.choice, Quot.sound, propext
- `Utki.C116_exact_compiles`: Quot.sound, propext
- `Utki.C116_generic`: Classical.choice, Quot.sound, propext
- `Utki.C116_conversion`: Quot.sound, propext
- `Utki.C116_unrelated`: Quot.sound, propext
- `Utki.C116_reference_takes_over`: Quot.sound, propext

## C117

- `Utki.C117_any_bytes`: Classical.choice, Quot.sound, propext
- `Utki.C117_any_bytes_cstr`: Classical.choice, Quot.sound, propext
- `Utki.C117_characters`: Classical.choice, Quot.sound, propext
- `Utki.C117_after_sequences`: Classical.choice, Quot.sound, propext
- `Utki.C117_bytes_return`: Classical.choice, Quot.sound, propext

## C118

- `Utki.C118_allowed`: Classical.choice, Quot.sound, propext
- `Utki.C118_calls`: Classical.choice, Quot.sound, propext
- `Utki.C118_complete`: Classical.choice, Quot.sound, propext
- `Utki.C118_emit`: Classical.choice, Quot.sound, propext
- `Utki.C118_connection_of_one`: Classical.choice, Quot.sound, propext
- `Utki.C118_defined`: Classical.choice, Quot.sound, propext
- `Utki.C118_misuse`: Classical.choice, Quot.sound, propext
- `Utki.C118_pulled_away`: Classical.choice, Quot.sound, propext
- `Utki.C118_abort`: Classical.choice, Quot.sound, propext
- `Utki.C118_operations`: Classical.choice, Quot.sound, propext
- `Utki.C118_emission`: Classical.choice, Quot.sound, propext
- `Utki.C118_in_turn`: Classical.choice, Quot.sound, propext

## C119

- `Utki.C119_wellformed`: Classical.choice, Quot.sound, propext
- `Utki.C119_system`: Classical.choice, Quot.sound, propext
- `Utki.C119_compiler`: Classical.choice, Quot.sound, propext
- `Utki.C119_tools_partial`: Classical.choice, Quot.sound, propext
- `Utki.C119_tools_refuted`: Classical.choice, Quot.sound, propext
- `Utki.C119_standard_partial`: Classical.choice, Quot.sound, propext
- `Utki.C119_standard_refuted`: Classical.choice, Quot.sound, propext
- `Utki.C119_standard_monotone`: Classical.choice, Quot.sound, propext
- `Utki.C119_cpu_partial`: Classical.choice, Quot.sound, propext
- `Utki.C119_cpu_refuted`: Classical.choice, Quot.sound, propext
- `Utki.C119_endianness_partial`: Classical.choice, Quot.sound, propext
- `Utki.C119_endianness_refuted`: Classical.choice, Quot.sound, propext
- `Utki.C119_dllexport`: Classical.choice, Quot.sound, propext
- `Utki.C119_compiler_version`: Classical.choice, Quot.sound, propext
- `Utki.C119_deployment`: Classical.choice, Quot.sound, propext
- `Utki.C119_cpu_version_partial`: Classical.choice, Quot.sound, propext
- `Utki.C119_cpu_version_refuted`: Classical.choice, Quot.sound, propext

## C120

- `Utki.C120_windows`: Classical.choice, Quot.sound, propext
- `Utki.C120_min_max`: Classical.choice, Quot.sound, propext
- `Utki.C120_elsewhere`: Quot.sound, propext
- `Utki.C120_told`: Classical.choice, Quot.sound, propext

## C121

- `Utki.C121_arguments`: Quot.sound, propext
- `Utki.C121_get_macro`: Quot.sound, propext
- `Utki.C121_assert`: Quot.sound, propext
- `Utki.C121_more`: Classical.choice, Quot.sound, propext
- `Utki.C121_eleven`: Quot.sound, propext

## C122

- `Utki.C122_condition_partial`: Classical.choice, Quot.sound, propext
- `Utki.C122_traps`: Classical.choice, Quot.sound, propext
- `Utki.C122_condition_refuted`: Classical.choice, Quot.sound, propext
- `Utki.C122_traps_exact`: Classical.choice, Quot.sound, propext
- `Utki.C122_number`: Classical.choice, Quot.sound, propext
- `Utki.C122_no_place`: Classical.choice, Quot.sound, propext

## C123

- `Utki.C123_safe`: Quot.sound, propext
- `Utki.C123_made`: Classical.choice, Quot.sound, propext
- `Utki.C123_convertible`: Classical.choice, Quot.sound, propext
- `Utki.C123_make_string_view`: propext
- `Utki.C123_make_string`: propext
- `Utki.C123_to_utf32`: propext
- `Utki.C123_utf8_iterator`: propext
- `Utki.C123_to_bytes`: propext

## C124

- `Utki.C124_lvalue`: Classical.choice, Quot.sound, propext
- `Utki.C124_dangling`: Classical.choice, Quot.sound, propext
- `Utki.C124_owned`: Classical.choice, Quot.sound, propext
- `Utki.C124_owned_reading`: Classical.choice, Quot.sound, propext
- `Utki.C124_owned_again`: Classical.choice, Quot.sound, propext

## C125

- `Utki.C125_visit`: Classical.choice, Quot.sound, propext
- `Utki.C125_order`: Quot.sound, propext
- `Utki.C125_resolve`: Classical.choice, Quot.sound, propext
- `Utki.C125_specific`: Classical.choice, Quot.sound, propext
- `Utki.C125_exact`: Classical.choice, Quot.sound, propext
- `Utki.C125_conversion`: Classical.choice, Quot.sound, propext
- `Utki.C125_cross`: Classical.choice, Quot.sound, propext
- `Utki.C125_one`: Quot.sound, propext

## C126

- `Utki.C126_kept`: Classical.choice, Quot.sound, propext
- `Utki.C126_leak`: Classical.choice, Quot.sound, propext
- `Utki.C126_acyclic`: Classical.choice, Quot.sound, propext
- `Utki.C126_end`: Classical.choice, Quot.sound, propext
- `Utki.C126_order`: propext

## C127

- `Utki.C127_shared`: Classical.choice, Quot.sound, propext
- `Utki.C127_unique`: Classical.choice, Quot.sound, propext
- `Utki.C127_moved`: Quot.sound, propext
- `Utki.C127_moved_unique`: Quot.sound, propext
- `Utki.C127_set_shared`: Classical.choice, Quot.sound, propext
- `Utki.C127_set_unique`: Classical.choice, Quot.sound, propext

## C128

- `Utki.C128_one`: Classical.choice, Quot.sound, propext
- `Utki.C128_elf`: Classical.choice, Quot.sound, propext
- `Utki.C128_intrusive`: propext
- `Utki.C128_separate`: Quot.sound, propext
- `Utki.C128_windows`: propext
- `Utki.C128_hidden`: propext
- `Utki.C128_local`: Quot.sound, propext

## C129

- `Utki.C129_all`: Classical.choice, Quot.sound, propext
- `Utki.C129_delete`: Quot.sound, propext
- `Utki.C129_undefined`: propext
- `Utki.C129_own`: propext

## C130

- `Utki.C130_deg_to_rad`: Classical.choice, Quot.sound, propext
- `Utki.C130_rad_to_deg`: Classical.choice, Quot.sound, propext
- `Utki.C130_special`: Classical.choice, Quot.sound, propext
- `Utki.C130_difference`: Classical.choice, Quot.sound, propext
- `Utki.C130_powers`: Classical.choice, Quot.sound, propext
- `Utki.C130_float_powers`: Classical.choice, Quot.sound, propext

## C131

- `Utki.C131_lists`: Quot.sound, propext
- `Utki.C131_scalars`: Quot.sound, propext
- `Utki.C131_value_and_list`: Quot.sound, propext
- `Utki.C131_one_value`: propext
- `Utki.C131_value_or_child`: Quot.sound, propext
- `Utki.C131_one_tree`: propext
- `Utki.C131_parentheses`: propext
- `Utki.C131_literals`: propext
- `Utki.C131_compare`: Classical.choice, Quot.sound, propext
- `Utki.C131_containers`: propext
- `Utki.C131_copy`: propext

## C132

- `Utki.C132_copy`: Classical.choice, Quot.sound, propext
- `Utki.C132_destroy`: Classical.choice, Quot.sound, propext
- `Utki.C132_insert`: Classical.choice, Quot.sound, propext
- `Utki.C132_insert_copy`: Classical.choice, Quot.sound, propext
- `Utki.C132_insert_after`: Classical.choice, Quot.sound, propext
- `Utki.C132_insert_after_copy`: Classical.choice, Quot.sound, propext
- `Utki.C132_erase`: Classical.choice, Quot.sound, propext

## C133

- `Utki.C133_connect`: Classical.choice, Quot.sound, propext
- `Utki.C133_disconnect`: Classical.choice, Quot.sound, propext
- `Utki.C133_copy`: Classical.choice, Quot.sound, propext
- `Utki.C133_destroy`: Classical.choice, Quot.sound, propext
- `Utki.C133_assign`: Classical.choice, Quot.sound, propext
- `Utki.C133_assign_mixed`: Classical.choice, Quot.sound, propext

## C134

- `Utki.C134_exceptions`: Classical.choice, Quot.sound, propext
- `Utki.C134_can_lose`: propext
- `Utki.C134_sorted`: Classical.choice, Quot.sound, propext
- `Utki.C134_copies`: Classical.choice, Quot.sound, propext

## C135

- `Utki.C135_where`: Classical.choice, Quot.sound, propext
- `Utki.C135_group_by`: Classical.choice, Quot.sound, propext
- `Utki.C135_order_by_lvalue`: Classical.choice, Quot.sound, propext
- `Utki.C135_order_by_rvalue`: Quot.sound, propext
- `Utki.C135_select`: Classical.choice, Quot.sound, propext
- `Utki.C135_select_first`: Quot.sound, propext
- `Utki.C135_select_once`: Quot.sound, propext

## C136

- `Utki.C136_assign_partial`: Classical.choice, Quot.sound, propext
- `Utki.C136_assign_self`: Quot.sound, propext
- `Utki.C136_assign_own_grow`: Classical.choice, Quot.sound, propext
- `Utki.C136_move`: Classical.choice, Quot.sound, propext
- `Utki.C136_move_own`: Classical.choice, Quot.sound, propext
- `Utki.C136_move_self`: Classical.choice, Quot.sound, propext
- `Utki.C136_via_copy`: Classical.choice, Quot.sound, propext
- `Utki.C136_own_undefined`: Quot.sound, propext

## C137

- `Utki.C137_copy`: Classical.choice, Quot.sound, propext
- `Utki.C137_destroy`: Classical.choice, Quot.sound, propext
- `Utki.C137_move`: Classical.choice, Quot.sound, propext
- `Utki.C137_assign`: Classical.choice, Quot.sound, propext
- `Utki.C137_compare`: Classical.choice, Quot.sound, propext
- `Utki.C137_compare_equal`: Classical.choice, Quot.sound, propext
- `Utki.C137_shapes`: Quot.sound, propext

## C138

- `Utki.C138_all`: Classical.choice, Quot.sound, propext
- `Utki.C138_delete`: Classical.choice, Quot.sound, propext
- `Utki.C138_undefined`: Classical.choice, Quot.sound, propext
- `Utki.C138_one`: none

## C139

- `Utki.C139_zip_made`: Classical.choice, Quot.sound, propext
- `Utki.C139_zip`: Classical.choice, Quot.sound, propext
- `Utki.C139_zip_shrunk`: Classical.choice, Quot.sound, propext
- `Utki.C139_skip_front`: Classical.choice, Quot.sound, propext
- `Utki.C139_reverse`: Classical.choice, Quot.sound, propext

## C140

- `Utki.C140_tree`: Classical.choice, Quot.sound, propext
- `Utki.C140_tree_pure`: Classical.choice, Quot.sound, propext
- `Utki.C140_deep_equals`: Quot.sound, propext
- `Utki.C140_deep_less_than`: Quot.sound, propext
- `Utki.C140_contains`: Quot.sound, propext
- `Utki.C140_pure`: Quot.sound, propext

## C141

- `Utki.C141_begin_end`: Classical.choice, Quot.sound, propext
- `Utki.C141_make_iterator`: Classical.choice, Quot.sound, propext
- `Utki.C141_braces`: Classical.choice, Quot.sound, propext
- `Utki.C141_index`: Classical.choice, Quot.sound, propext
- `Utki.C141_at`: Classical.choice, Quot.sound, propext

## C142

- `Utki.C142_va_list`: Classical.choice, Quot.sound, propext
- `Utki.C142_make_string_partial`: Classical.choice, Quot.sound, propext
- `Utki.C142_text`: Classical.choice, Quot.sound, propext
- `Utki.C142_not_ended`: Classical.choice, Quot.sound, propext
- `Utki.C142_error`: Quot.sound, propext
- `Utki.C142_short`: Quot.sound, propext

## C143

- `Utki.C143_visit`: Classical.choice, Quot.sound, propext
- `Utki.C143_order`: Quot.sound, propext
- `Utki.C143_unchanged`: propext
- `Utki.C143_one`: Quot.sound, propext
- `Utki.C143_plain`: Quot.sound, propext
- `Utki.C143_const_overload`: Quot.sound, propext
- `Utki.C143_ambiguous`: Quot.sound, propext

## C144

- `Utki.C144_made`: Classical.choice, Quot.sound, propext
- `Utki.C144_compare`: Classical.choice, Quot.sound, propext
- `Utki.C144_before_begin`: Classical.choice, Quot.sound, propext
- `Utki.C144_use`: Classical.choice, Quot.sound, propext

## C145

- `Utki.C145_skip_front`: Quot.sound, propext
- `Utki.C145_reverse`: Quot.sound, propext
- `Utki.C145_zip`: Quot.sound, propext
- `Utki.C145_skip_front_erased`: Quot.sound, propext
- `Utki.C145_reverse_erased`: Quot.sound, propext

## C146

- `Utki.C146_log_order`: Quot.sound, propext
- `Utki.C146_log_complete`: Quot.sound, propext
- `Utki.C146_log_quiet`: Quot.sound, propext
- `Utki.C146_log_told`: Quot.sound, propext
- `Utki.C146_log_lost`: Quot.sound, propext
- `Utki.C146_logcat`: Quot.sound, propext
- `Utki.C146_assert`: Classical.choice, Quot.sound, propext
- `Utki.C146_assert_throws`: Classical.choice, Quot.sound, propext
- `Utki.C146_returns_iff`: Classical.choice, Quot.sound, propext

## C147

- `Utki.C147_plain`: Classical.choice, Quot.sound, propext
- `Utki.C147_width`: Classical.choice, Quot.sound, propext
- `Utki.C147_kept`: Classical.choice, Quot.sound, propext
- `Utki.C147_android`: Classical.choice, Quot.sound, propext
- `Utki.C147_differs`: Classical.choice, Quot.sound, propext
- `Utki.C147_assert`: Classical.choice, Quot.sound, propext

## C148

- `Utki.C148_version`: Classical.choice, Quot.sound, propext
- `Utki.C148_version_width`: Classical.choice, Quot.sound, propext
- `Utki.C148_version_columns`: Classical.choice, Quot.sound, propext
- `Utki.C148_version_base`: Classical.choice, Quot.sound, propext
- `Utki.C148_flags`: Classical.choice, Quot.sound, propext
- `Utki.C148_span`: Classical.choice, Quot.sound, propext
- `Utki.C148_span_width`: Classical.choice, Quot.sound, propext
- `Utki.C148_cat`: Classical.choice, Quot.sound, propext
- `Utki.C148_cat_split`: Classical.choice, Quot.sound, propext
- `Utki.C148_cat_log`: Classical.choice, Quot.sound, propext
- `Utki.C148_cat_base`: Classical.choice, Quot.sound, propext
