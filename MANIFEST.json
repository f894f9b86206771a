{
 "claims": [
  {
   "property": "C01",
   "status": "proved",
   "theorems": [
    "Verif.Props.C01_get_set",
    "Verif.Props.C01_set_outside",
    "Verif.Props.C01_set_inside",
    "Verif.Props.C01_set_set",
    "Verif.Props.C01_get_value",
    "Verif.Props.C01_set_comm"
   ],
   "note": ""
  },
  {
   "property": "C02",
   "status": "proved",
   "theorems": [
    "Verif.Props.C02_coord_round_trip",
    "Verif.Props.C02_accessors_truncate",
    "Verif.Props.C02_coordOf_inRange",
    "Verif.Props.C02_address_round_trip",
    "Verif.Props.C02_injective",
    "Verif.Props.C02_invalid_block_spills"
   ],
   "note": "C02_invalid_block_spills records the out-of-range case."
  },
  {
   "property": "C03",
   "status": "proved",
   "theorems": [
    "Verif.Props.C03_order",
    "Verif.Props.C03_order_words"
   ],
   "note": ""
  },
  {
   "property": "C04",
   "status": "proved",
   "theorems": [
    "Verif.Props.C04_next_sound",
    "Verif.Props.C04_valid_iff"
   ],
   "note": ""
  },
  {
   "property": "C05",
   "status": "proved",
   "theorems": [
    "Verif.Props.C05_next_is_least",
    "Verif.Props.C05_none_iff_last"
   ],
   "note": ""
  },
  {
   "property": "C06",
   "status": "partial",
   "theorems": [
    "Verif.Props.C06_valid_iff_described_partial",
    "Verif.Props.C06_fromPart_total",
    "Verif.Props.C06_cfgclb_misfiled",
    "Verif.Props.C06_hash_order_dependent",
    "Verif.Props.C06_dense_description",
    "Verif.Props.C06_exact",
    "Verif.Props.C06_no_cfgclb"
   ],
   "note": "Proved for descriptions without a CFG_CLB bus; the full statement is false of the code: BlockTypeFrom files CFG_CLB under CLB_IO_CLK (C06_cfgclb_misfiled, C06_hash_order_dependent). C06_exact characterises the valid addresses for every description."
  },
  {
   "property": "C07",
   "status": "proved",
   "theorems": [
    "Verif.Props.C07_fill_exact",
    "Verif.Props.C07_fill_preserves",
    "Verif.Props.C07_fill_complete"
   ],
   "note": ""
  },
  {
   "property": "C08",
   "status": "proved",
   "theorems": [
    "Verif.Props.C08_fill_terminates",
    "Verif.Props.C08_tall_part_diverges",
    "Verif.Props.C08_exact",
    "Verif.Props.C08_wide_column"
   ],
   "note": "Termination for parts whose coordinates fit the address fields; C08_tall_part_diverges shows the unrestricted statement is false; C08_exact gives the exact condition for descriptions of any size (at most 128 frames per column; C08_wide_column shows what happens beyond that)."
  },
  {
   "property": "C09",
   "status": "proved",
   "theorems": [
    "Verif.Props.C09_header_layout",
    "Verif.Props.C09_round_trip",
    "Verif.Props.C09_stream_round_trip",
    "Verif.Props.C09_long_type1_truncated"
   ],
   "note": "For packets whose fields fit the header; C09_long_type1_truncated shows a type-1 packet with 2048 words does not survive."
  },
  {
   "property": "C10",
   "status": "proved",
   "theorems": [
    "Verif.Props.C10_writer_words",
    "Verif.Props.C10_writer_wire_format",
    "Verif.Props.C10_sync_header"
   ],
   "note": "All three architectures; unique_ptr packets are assumed non-null (the code dereferences them)."
  },
  {
   "property": "C11",
   "status": "proved",
   "theorems": [
    "Verif.Props.C11_reader_terminates_slices",
    "Verif.Props.C11_slices_bounded"
   ],
   "note": ""
  },
  {
   "property": "C12",
   "status": "proved",
   "theorems": [
    "Verif.Props.C12_type2_inherits",
    "Verif.Props.C12_type2_no_predecessor",
    "Verif.Props.C12_short_payload",
    "Verif.Props.C12_stream_inherits"
   ],
   "note": ""
  },
  {
   "property": "C13",
   "status": "proved",
   "theorems": [
    "Verif.Props.C13_word_value",
    "Verif.Props.C13_serialise",
    "Verif.Props.C13_read_serialised",
    "Verif.Props.C13_serialise_read",
    "Verif.Props.C13_random_access",
    "Verif.Props.C13_ragged_reads_outside"
   ],
   "note": ""
  },
  {
   "property": "C14",
   "status": "proved",
   "theorems": [
    "Verif.Props.C14_words_after_first_sync",
    "Verif.Props.C14_no_sync",
    "Verif.Props.C14_prefix_ignored"
   ],
   "note": ""
  },
  {
   "property": "C15",
   "status": "proved",
   "theorems": [
    "Verif.Props.C15_payload_round_trip",
    "Verif.Props.C15_payload_round_trip_dense",
    "Verif.Props.C15_foreign_address_shifts"
   ],
   "note": "Also for parts with gaps and any words-per-frame; C15_foreign_address_shifts records what happens outside the part."
  },
  {
   "property": "C16",
   "status": "proved",
   "theorems": [
    "Verif.Props.C16_length",
    "Verif.Props.C16_slot",
    "Verif.Props.C16_frame_sizes",
    "Verif.Props.C16_slots_spaced",
    "Verif.Props.C16_padding_zero"
   ],
   "note": ""
  },
  {
   "property": "C17",
   "status": "proved",
   "theorems": [
    "Verif.Props.C17_idcode_mismatch_iff",
    "Verif.Props.C17_part_kept",
    "Verif.Props.C17_other_part_rejected"
   ],
   "note": ""
  },
  {
   "property": "C18",
   "status": "proved",
   "theorems": [
    "Verif.Props.C18_any_names",
    "Verif.Props.C18_bitstream_round_trip",
    "Verif.Props.C18_bitstream_round_trip_dense",
    "Verif.Props.C18_sync_bytes_in_name"
   ],
   "note": "Also for parts with gaps; C18_sync_bytes_in_name records the excluded case."
  },
  {
   "property": "C19",
   "status": "proved",
   "theorems": [
    "Verif.Props.C19_seekable_file",
    "Verif.Props.C19_pipe_length_zero",
    "Verif.Props.C19_long_name_wraps"
   ],
   "note": "C19_pipe_length_zero and C19_long_name_wraps record the excluded cases."
  },
  {
   "property": "C20",
   "status": "proved",
   "theorems": [
    "Verif.Props.C20_update_local",
    "Verif.Props.C20_update_consistent",
    "Verif.Props.C20_update_idempotent",
    "Verif.Props.C20_guard_off_by_one"
   ],
   "note": ""
  },
  {
   "property": "C21",
   "status": "proved",
   "theorems": [
    "Verif.Props.C21_odd_errors_detected",
    "Verif.Props.C21_single_error_detected",
    "Verif.Props.C21_double_error_detected",
    "Verif.Props.C21_single_error_located"
   ],
   "note": ""
  },
  {
   "property": "C22",
   "status": "proved",
   "theorems": [
    "Verif.Props.C22_injective_in_prev",
    "Verif.Props.C22_data_change_detected",
    "Verif.Props.C22_address_change_detected",
    "Verif.Props.C22_difference_persists",
    "Verif.Props.C22_single_write_corruption_detected",
    "Verif.Props.C22_linear"
   ],
   "note": ""
  },
  {
   "property": "C23",
   "status": "partial",
   "theorems": [
    "Verif.Props.C23_consistent_in_consistent_out_partial",
    "Verif.Props.C23_ecc_not_updated",
    "Verif.Props.C23_exact"
   ],
   "note": "The statement is false of the code: Encode never updates the ECC (C23_ecc_not_updated). Proved: consistent input frames stay consistent and added frames are consistent. C23_exact: per frame, consistent in the file iff given consistent or not given."
  },
  {
   "property": "C24",
   "status": "partial",
   "theorems": [
    "Verif.Props.C24_inside_partial",
    "Verif.Props.C24_defect",
    "Verif.Props.C24_swallows_line",
    "Verif.Props.C24_no_newline",
    "Verif.Props.C24_exact"
   ],
   "note": "Memory safety for every text that does not end in an uncommented tick; C24_defect proves FOO=' followed by newline reads past the buffer, C24_swallows_line that it can lose the next line. C24_exact characterises the out-of-range reads for every text."
  },
  {
   "property": "C25",
   "status": "proved",
   "theorems": [
    "Verif.Props.C25_line",
    "Verif.Props.C25_integer_too_wide"
   ],
   "note": "Ranges up to 64 bits, any white space, comment or CR; bit indices below 2^16 and declared widths below 2^64 (they wrap otherwise). C25_integer_too_wide covers integers on wider ranges."
  },
  {
   "property": "C26",
   "status": "partial",
   "theorems": [
    "Verif.Props.C26_wideEvents",
    "Verif.Props.C26_delivered",
    "Verif.Props.C26_delivered_partial",
    "Verif.Props.C26_defect"
   ],
   "note": "C26_delivered gives the exact calls for every length; they carry the written value when the digit bits are a multiple of 64 (C26_delivered_partial); C26_defect: a 17-digit hex value is delivered wrongly."
  },
  {
   "property": "C27",
   "status": "partial",
   "theorems": [
    "Verif.Props.C27_calls",
    "Verif.Props.C27_shift_partial",
    "Verif.Props.C27_defect_no_value",
    "Verif.Props.C27_defect",
    "Verif.Props.C27_shift_iff"
   ],
   "note": "Width/value consistency is proved for every input; absence of undefined shifts is false (C27_defect, C27_defect_no_value), C27_shift_partial characterises it for well-formed hex/binary lines. C27_shift_iff characterises it for every line shorter than 2^28 characters."
  },
  {
   "property": "C28",
   "status": "proved",
   "theorems": [
    "Verif.Props.C28_result",
    "Verif.Props.C28_success",
    "Verif.Props.C28_monotone",
    "Verif.Props.C28_later"
   ],
   "note": ""
  },
  {
   "property": "C29",
   "status": "proved",
   "theorems": [
    "Verif.Props.C29_last_line",
    "Verif.Props.C29_line_by_line"
   ],
   "note": "Line bodies without a dangling tick (C24)."
  },
  {
   "property": "C30",
   "status": "proved",
   "theorems": [
    "Verif.Props.C30_line_numbers"
   ],
   "note": ""
  },
  {
   "property": "C31",
   "status": "partial",
   "theorems": [
    "Verif.Props.C31_same_line_partial",
    "Verif.Props.C31_result_partial",
    "Verif.Props.C31_defect"
   ],
   "note": "False of the code across lines (C31_defect: parsing continues). Proved: no further feature call on the same line, and the result is at least user-abort. C71_feature gives the exact calls for every callback."
  },
  {
   "property": "C32",
   "status": "proved",
   "theorems": [
    "Verif.Props.C32_blank_line",
    "Verif.Props.C32_insert"
   ],
   "note": ""
  },
  {
   "property": "C33",
   "status": "proved",
   "theorems": [
    "Verif.Props.C33_annotations"
   ],
   "note": "Non-empty lists; the empty list {} is an error in the code."
  },
  {
   "property": "C34",
   "status": "proved",
   "theorems": [
    "Verif.Props.C34_features_unaffected"
   ],
   "note": "Every input, including malformed ones."
  },
  {
   "property": "C35",
   "status": "partial",
   "theorems": [
    "Verif.Props.C35_lines_exist",
    "Verif.Props.C35_lines_partial",
    "Verif.Props.C35_terminated",
    "Verif.Props.C35_recorded",
    "Verif.Props.C35_lines_unique",
    "Verif.Props.C35_defect",
    "Verif.Props.C35_exact"
   ],
   "note": "Exact for texts ending in newline (C35_terminated) and, when the byte behind the text is readable, for all texts; C35_defect: a last line without newline reads one byte past the mapped text. C35_exact characterises it for every text and callback."
  },
  {
   "property": "C36",
   "status": "proved",
   "theorems": [
    "Verif.Props.C36_file",
    "Verif.Props.C36_line",
    "Verif.Props.C36_odd_address"
   ],
   "note": "Given a readable byte behind the text. C36_odd_address: a bracketed suffix that is not a number gets an unspecified address."
  },
  {
   "property": "C37",
   "status": "proved",
   "theorems": [
    "Verif.Props.C37_iff"
   ],
   "note": "Exact: the file is accepted iff no line is malformed."
  },
  {
   "property": "C38",
   "status": "proved",
   "theorems": [
    "Verif.Props.C38_file",
    "Verif.Props.C38_rejected",
    "Verif.Props.C38_blank_line"
   ],
   "note": "C38_blank_line: a line of blanks rejects the file."
  },
  {
   "property": "C39",
   "status": "proved",
   "theorems": [
    "Verif.Props.C39_file",
    "Verif.Props.C39_rejected",
    "Verif.Props.C39_empty_file",
    "Verif.Props.C39_empty_column"
   ],
   "note": "C39_empty_file and C39_empty_column record that an empty file passes without header and that empty cells are dropped, not positional."
  },
  {
   "property": "C40",
   "status": "proved",
   "theorems": [
    "Verif.Props.C40_table",
    "Verif.Props.C40_rejected",
    "Verif.Props.C40_lines_total",
    "Verif.Props.C40_bad_device_line",
    "Verif.Props.C40_bad_part_line",
    "Verif.Props.C40_empty_key_dropped"
   ],
   "note": "Entries with an empty key are dropped (C40_empty_key_dropped)."
  },
  {
   "property": "C41",
   "status": "proved",
   "theorems": [
    "Verif.Props.C41_iff",
    "Verif.Props.C41_round_trip",
    "Verif.Props.C41_unique",
    "Verif.Props.C41_missing_key",
    "Verif.Props.C41_out_of_sequence",
    "Verif.Props.C41_values"
   ],
   "note": "From the JSON value on; C82 proves the step from the text of the file to the value and composes them. C41_values: the parts that can be loaded are exactly the valid ones."
  },
  {
   "property": "C42",
   "status": "proved",
   "theorems": [
    "Verif.Props.C42_sound",
    "Verif.Props.C42_complete",
    "Verif.Props.C42_round_trip",
    "Verif.Props.C42_garbage_address",
    "Verif.Props.C42_negative_address",
    "Verif.Props.C42_trailing_garbage",
    "Verif.Props.C42_values"
   ],
   "note": "From the JSON value on (C82: from the text). C42_garbage_address, C42_negative_address, C42_trailing_garbage record what happens to addresses not written as 0x...."
  },
  {
   "property": "C43",
   "status": "proved",
   "theorems": [
    "Verif.Props.C43_unknown_bank",
    "Verif.Props.C43_bank_tiles",
    "Verif.Props.C43_tile_banks_list",
    "Verif.Props.C43_tile_banks",
    "Verif.Props.C43_two_way"
   ],
   "note": "C43_tile_banks_list gives the exact order (the clock entry first, then one entry per pin)."
  },
  {
   "property": "C44",
   "status": "proved",
   "theorems": [
    "Verif.Props.C44_index",
    "Verif.Props.C44_error",
    "Verif.Props.C44_listing_order",
    "Verif.Props.C44_loaded",
    "Verif.Props.C44_broken_file_is_silent"
   ],
   "note": "The first listed regular file of a type counts; C44_broken_file_is_silent records that unreadable or malformed files look like a missing type."
  },
  {
   "property": "C45",
   "status": "proved",
   "theorems": [
    "Verif.Props.C45_feature_bits",
    "Verif.Props.C45_unknown_feature",
    "Verif.Props.C45_unknown_stops",
    "Verif.Props.C45_arithmetic",
    "Verif.Props.C45_loaded"
   ],
   "note": "32-bit wrap-around included (Spec bitFrame/bitPos); C45_arithmetic gives the plain formula when nothing wraps. Holds for every loaded database (C45_loaded)."
  },
  {
   "property": "C46",
   "status": "proved",
   "theorems": [
    "Verif.Props.C46_cache_transparent"
   ],
   "note": ""
  },
  {
   "property": "C47",
   "status": "partial",
   "theorems": [
    "Verif.Props.C47_hash_order_partial",
    "Verif.Props.C47_exact",
    "Verif.Props.C47_same_state_partial",
    "Verif.Props.C47_defect"
   ],
   "note": "C47_exact: for every tile the result depends on the order only through the last aliased block iterated (all other theorems about features name that block and hold for every tile); C47_hash_order_partial: no dependence where aliased blocks agree; C47_defect: with two different alias types the result depends on hash order."
  },
  {
   "property": "C48",
   "status": "partial",
   "theorems": [
    "Verif.Props.C48_translated_partial",
    "Verif.Props.C48_untranslated_partial",
    "Verif.Props.C48_one_name",
    "Verif.Props.C48_defect"
   ],
   "note": "False of the code: the site table is applied to everything behind the first dot, not to the site component (C48_defect); exact behaviour proved. C48_one_name: one name for every tile and feature."
  },
  {
   "property": "C49",
   "status": "proved",
   "theorems": [
    "Verif.Props.C49_pseudo_pip"
   ],
   "note": "Provided the segment bits of the tile type load."
  },
  {
   "property": "C50",
   "status": "proved",
   "theorems": [
    "Verif.Props.C50_frames",
    "Verif.Props.C50_succeeds",
    "Verif.Props.C50_features"
   ],
   "note": "Where the aliases of a tile disagree (C47) the last aliased block in iteration order decides, as KnownAs says; statements whose addresses stay below 2^31 (FeatureOk)."
  },
  {
   "property": "C51",
   "status": "proved",
   "theorems": [
    "Verif.Props.C51_same_statements",
    "Verif.Props.C51_same_lines",
    "Verif.Props.C51_permuted_lines",
    "Verif.Props.C51_program"
   ],
   "note": ""
  },
  {
   "property": "C52",
   "status": "proved",
   "theorems": [
    "Verif.Props.C52_block_frames",
    "Verif.Props.C52_no_other_frames"
   ],
   "note": ""
  },
  {
   "property": "C53",
   "status": "partial",
   "theorems": [
    "Verif.Props.C53_unknown_partial",
    "Verif.Props.C53_no_dot",
    "Verif.Props.C53_defect",
    "Verif.Props.C53_exact",
    "Verif.Props.C53_unknown_zero"
   ],
   "note": "False of the code for zero-valued statements: they are accepted unchecked (C53_defect). Proved for every statement with a bit written as 1. C53_exact, C53_unknown_zero: zero-valued statements are the only ones."
  },
  {
   "property": "C54",
   "status": "proved",
   "theorems": [
    "Verif.Props.C54_added",
    "Verif.Props.C54_nothing",
    "Verif.Props.C54_unknown_bank"
   ],
   "note": "Sites the design configures at all are skipped, also when they lack STEPDOWN. C54_unknown_bank: a tile outside every bank terminates the program."
  },
  {
   "property": "C55",
   "status": "proved",
   "theorems": [
    "Verif.Props.C55_three",
    "Verif.Props.C55_high_pin",
    "Verif.Props.C55_low_pin",
    "Verif.Props.C55_unnamed_pin",
    "Verif.Props.C55_none",
    "Verif.Props.C55_in_design"
   ],
   "note": "The statements are added even if the design configures the site itself."
  },
  {
   "property": "C56",
   "status": "proved",
   "theorems": [
    "Verif.Props.C56_bad_line",
    "Verif.Props.C56_error",
    "Verif.Props.C56_no_newline",
    "Verif.Props.C56_program"
   ],
   "note": ""
  },
  {
   "property": "C57",
   "status": "proved",
   "theorems": [
    "Verif.Props.C57_zero_feature",
    "Verif.Props.C57_zero_statement",
    "Verif.Props.C57_bits"
   ],
   "note": ""
  },
  {
   "property": "C58",
   "status": "partial",
   "theorems": [
    "Verif.Props.C58_stages_partial",
    "Verif.Props.C58_success",
    "Verif.Props.C58_defect",
    "Verif.Props.C58_exact"
   ],
   "note": "False of the code: failures of standard output are ignored, so status 0 does not mean the bytes were written (C58_defect). Proved: status 1 prints nothing, status 0 means every stage succeeded. C58_exact: status 0 with output o iff every stage succeeded with o."
  },
  {
   "property": "C59",
   "status": "proved",
   "theorems": [
    "Verif.Props.C59_sites",
    "Verif.Props.C59_digit",
    "Verif.Props.C59_unknown_tile"
   ],
   "note": "Parity of the code of the last character; C59_digit: of the digit when it is one. Names ending in a non-ASCII byte terminate the program."
  },
  {
   "property": "C60",
   "status": "proved",
   "theorems": [
    "Verif.Props.C60_gaps",
    "Verif.Props.C60_end_to_end"
   ],
   "note": "C60_gaps: for every part whose coordinates fit, with or without holes (frames = those the walk from 0 reaches); C60_end_to_end: without holes. Designs touching only such frames, frame data below 2^27 words (what one packet can announce), clock strings as the program makes them (C79: short ASCII); to a file or a pipe."
  },
  {
   "property": "C61",
   "status": "proved",
   "theorems": [
    "Verif.Props.C61_setting",
    "Verif.Props.C61_missing",
    "Verif.Props.C61_program",
    "Verif.Props.C61_option_wins"
   ],
   "note": ""
  },
  {
   "property": "C62",
   "status": "proved",
   "theorems": [
    "Verif.Props.C62_columns",
    "Verif.Props.C62_fits",
    "Verif.Props.C62_valid",
    "Verif.Props.C62_order",
    "Verif.Props.C62_rebuild",
    "Verif.Props.C62_mixed"
   ],
   "note": ""
  },
  {
   "property": "C63",
   "status": "proved",
   "theorems": [
    "Verif.Props.C63_sequence",
    "Verif.Props.C63_words",
    "Verif.Props.C63_bus_width",
    "Verif.Props.C63_file",
    "Verif.Props.C63_mask",
    "Verif.Props.C63_mask_fits"
   ],
   "note": ""
  },
  {
   "property": "C64",
   "status": "proved",
   "theorems": [
    "Verif.Props.C64_block",
    "Verif.Props.C64_continue",
    "Verif.Props.C64_far",
    "Verif.Props.C64_far_needs_wcfg",
    "Verif.Props.C64_start",
    "Verif.Props.C64_noise"
   ],
   "note": ""
  },
  {
   "property": "C65",
   "status": "proved",
   "theorems": [
    "Verif.Props.C65_missing",
    "Verif.Props.C65_regular",
    "Verif.Props.C65_directory",
    "Verif.Props.C65_files",
    "Verif.Props.C65_files_apply",
    "Verif.Props.C65_terminated_safe",
    "Verif.Props.C65_page_example",
    "Verif.Props.C65_page_example_short"
   ],
   "note": ""
  },
  {
   "property": "C66",
   "status": "proved",
   "theorems": [
    "Verif.Props.C66_reproducible",
    "Verif.Props.C66_defect_pudc",
    "Verif.Props.C66_defect_banks",
    "Verif.Props.C66_ends"
   ],
   "note": ""
  },
  {
   "property": "C67",
   "status": "proved",
   "theorems": [
    "Verif.Props.C67_gaps",
    "Verif.Props.C67_device"
   ],
   "note": ""
  },
  {
   "property": "C68",
   "status": "proved",
   "theorems": [
    "Verif.Props.C68_grid",
    "Verif.Props.C68_part",
    "Verif.Props.C68_defect_banks",
    "Verif.Props.C68_defect_bits",
    "Verif.Props.C68_defect_rows",
    "Verif.Props.C68_row_number",
    "Verif.Props.C68_defect_number"
   ],
   "note": ""
  },
  {
   "property": "C69",
   "status": "proved",
   "theorems": [
    "Verif.Props.C69_written",
    "Verif.Props.C69_frames",
    "Verif.Props.C69_device",
    "Verif.Props.C69_gaps"
   ],
   "note": ""
  },
  {
   "property": "C70",
   "status": "proved",
   "theorems": [
    "Verif.Props.C70_loads",
    "Verif.Props.C70_tile_type",
    "Verif.Props.C70_no_tile_type",
    "Verif.Props.C70_unknown_part",
    "Verif.Props.C70_no_table",
    "Verif.Props.C70_no_grid",
    "Verif.Props.C70_no_part",
    "Verif.Props.C70_program",
    "Verif.Props.C70_part_values"
   ],
   "note": ""
  },
  {
   "property": "C71",
   "status": "proved",
   "theorems": [
    "Verif.Props.C71_shapes",
    "Verif.Props.C71_text",
    "Verif.Props.C71_text_unique",
    "Verif.Props.C71_last_line",
    "Verif.Props.C71_one_line",
    "Verif.Props.C71_bare",
    "Verif.Props.C71_feature",
    "Verif.Props.C71_too_wide",
    "Verif.Props.C71_misfit",
    "Verif.Props.C71_open_range",
    "Verif.Props.C71_inverted",
    "Verif.Props.C71_bad_format",
    "Verif.Props.C71_dangling",
    "Verif.Props.C71_accepted_iff",
    "Verif.Props.C71_accepted_text_iff"
   ],
   "note": "Complete: C71_shapes and C71_text cover every input together with C24_no_newline; C71_accepted_iff and C71_accepted_text_iff are exact for lines shorter than 2^28 characters."
  },
  {
   "property": "C72",
   "status": "proved",
   "theorems": [
    "Verif.Props.C72_defined",
    "Verif.Props.C72_line",
    "Verif.Props.C72_statements",
    "Verif.Props.C72_outcome",
    "Verif.Props.C72_bad_line",
    "Verif.Props.C72_no_undefined",
    "Verif.Props.C72_error_iff",
    "Verif.Props.C72_abort_iff",
    "Verif.Props.C72_undefined",
    "Verif.Props.C72_undefined_never_ok",
    "Verif.Props.C72_status",
    "Verif.Props.C72_program",
    "Verif.Props.C72_encode_ends",
    "Verif.Props.C72_total",
    "Verif.Props.C72_files_load",
    "Verif.Props.C72_error_example",
    "Verif.Props.C72_abort_example",
    "Verif.Props.C72_undefined_example",
    "Verif.Props.C72_undefined_example",
    "Verif.Props.C72_program_example"
   ],
   "note": ""
  },
  {
   "property": "C73",
   "status": "proved",
   "theorems": [
    "Verif.Props.C73_number",
    "Verif.Props.C73_address",
    "Verif.Props.C73_address_iff",
    "Verif.Props.C73_grid",
    "Verif.Props.C73_unique",
    "Verif.Props.C73_hex"
   ],
   "note": ""
  },
  {
   "property": "C74",
   "status": "proved",
   "theorems": [
    "Verif.Xc7.C74_writer",
    "Verif.Xc7.C74_encode",
    "Verif.Xc7.C74_device",
    "Verif.Xc7.C74_file_device"
   ],
   "note": ""
  },
  {
   "property": "C75",
   "status": "proved",
   "theorems": [
    "Verif.Props.C75_same_file",
    "Verif.Props.C75_other_part",
    "Verif.Props.C75_template",
    "Verif.Props.C75_reencode"
   ],
   "note": ""
  },
  {
   "property": "C76",
   "status": "proved",
   "theorems": [
    "Verif.Props.C76_consistent_iff",
    "Verif.Props.C76_update",
    "Verif.Props.C76_positions",
    "Verif.Props.C76_locate"
   ],
   "note": ""
  },
  {
   "property": "C77",
   "status": "proved",
   "theorems": [
    "Verif.Props.C77_remainder",
    "Verif.Props.C77_crc32c"
   ],
   "note": ""
  },
  {
   "property": "C78",
   "status": "proved",
   "theorems": [
    "Verif.Props.C78_address_text",
    "Verif.Props.C78_address_state",
    "Verif.Props.C78_read_address",
    "Verif.Props.C78_sequence",
    "Verif.Props.C78_address_injective",
    "Verif.Props.C78_fill_ambiguous",
    "Verif.Props.C78_register_text",
    "Verif.Props.C78_register_names",
    "Verif.Props.C78_register_injective"
   ],
   "note": ""
  },
  {
   "property": "C79",
   "status": "proved",
   "theorems": [
    "Verif.Props.C79_calendar",
    "Verif.Props.C79_dates_ordered",
    "Verif.Props.C79_stamp",
    "Verif.Props.C79_shape",
    "Verif.Props.C79_order",
    "Verif.Props.C79_unique",
    "Verif.Props.C79_only_stamp",
    "Verif.Props.C79_end_to_end"
   ],
   "note": ""
  },
  {
   "property": "C80",
   "status": "proved",
   "theorems": [
    "Verif.Props.C80_header",
    "Verif.Props.C80_no_header",
    "Verif.Props.C80_header_complete",
    "Verif.Props.C80_logic",
    "Verif.Props.C80_logic_readback",
    "Verif.Props.C80_own_file",
    "Verif.Props.C80_own_file_data",
    "Verif.Props.C80_file"
   ],
   "note": ""
  },
  {
   "property": "C81",
   "status": "proved",
   "theorems": [
    "Verif.Props.C81_kinds",
    "Verif.Props.C81_outcome",
    "Verif.Props.C81_overrun",
    "Verif.Props.C81_program",
    "Verif.Props.C81_example"
   ],
   "note": ""
  },
  {
   "property": "C82",
   "status": "proved",
   "theorems": [
    "Verif.Props.C82_reads",
    "Verif.Props.C82_unique",
    "Verif.Props.C82_nul",
    "Verif.Props.C82_written",
    "Verif.Props.C82_grid",
    "Verif.Props.C82_part",
    "Verif.Props.C82_rejects",
    "Verif.Props.C82_grid_round_trip",
    "Verif.Props.C82_part_round_trip",
    "Verif.Props.C82_loads",
    "Verif.Props.C82_bad_grid"
   ],
   "note": "rapidjson's parser is modelled from its documented behaviour (its source is not in /repo); numbers that are no 64-bit integers are never looked at by the program and only their range (parameter big) matters."
  },
  {
   "property": "C83",
   "status": "proved",
   "theorems": [
    "Verif.Props.C83_accounts",
    "Verif.Props.C83_terminates",
    "Verif.Props.C83_progress",
    "Verif.Props.C83_finishes",
    "Verif.Props.C83_result",
    "Verif.Props.C83_deterministic",
    "Verif.Props.C83_no_jobs"
   ],
   "note": "Within one work list no two items may share a place in the store (file name and hash), see C84. The termination theorem assumes that the tool itself terminates."
  },
  {
   "property": "C84",
   "status": "partial",
   "theorems": [
    "Verif.Props.C84_whole_partial",
    "Verif.Props.C84_kept_partial",
    "Verif.Props.C84_untouched",
    "Verif.Props.C84_names",
    "Verif.Props.C84_defect_lost",
    "Verif.Props.C84_defect_abort",
    "Verif.Props.C84_defect_mixed"
   ],
   "note": "False of the code when two files with the same name have the same key: the temporary name has only the process number to make it unique, so two workers share it (C84_defect_lost: findings lost, C84_defect_abort: the process is terminated, C84_defect_mixed: an entry with bytes no run printed). Proved for work lists without such pairs; C84_names says exactly when items share a name."
  },
  {
   "property": "C85",
   "status": "partial",
   "theorems": [
    "Verif.Props.C85_key",
    "Verif.Props.C85_examined",
    "Verif.Props.C85_order",
    "Verif.Props.C85_unaffected",
    "Verif.Props.C85_header_partial",
    "Verif.Props.C85_content",
    "Verif.Props.C85_defect_twice",
    "Verif.Props.C85_defect_same",
    "Verif.Props.C85_defect_dots",
    "Verif.Props.C85_settled"
   ],
   "note": "A change of an included header is noticed exactly when the header is included an odd number of times (C85_header_partial, C85_unaffected): included twice it cancels out (C85_defect_twice), so do two headers with the same name and contents (C85_defect_same), names with two dots are not seen (C85_defect_dots), and headers included by headers do not count. C85_key gives the key exactly; the rest of the property is proved as stated."
  },
  {
   "property": "C86",
   "status": "partial",
   "theorems": [
    "Verif.Props.C86_tally",
    "Verif.Props.C86_summary",
    "Verif.Props.C86_status",
    "Verif.Props.C86_counted_partial",
    "Verif.Props.C86_defect_adjacent",
    "Verif.Props.C86_defect_names",
    "Verif.Props.C86_summary_text",
    "Verif.Props.C86_main",
    "Verif.Props.C86_defect_interrupted"
   ],
   "note": "False of the code in three ways: the second of two finding lines in a row is not counted (C86_defect_adjacent), check names with digits or commas are not seen (C86_defect_names), and files left without an entry by an interrupted command count as clean (C86_defect_interrupted). C86_tally, C86_status and C86_main say exactly what is counted; C86_counted_partial proves the property where finding lines do not touch."
  },
  {
   "property": "C87",
   "status": "partial",
   "theorems": [
    "Verif.Props.C87_filter",
    "Verif.Props.C87_about",
    "Verif.Props.C87_line",
    "Verif.Props.C87_note",
    "Verif.Props.C87_wellformed_partial",
    "Verif.Props.C87_block",
    "Verif.Props.C87_defect_message"
   ],
   "note": "A line whose message mentions a place in another file is taken to be about that file (C87_defect_message). C87_filter and C87_about characterise what is kept for every text; C87_wellformed_partial proves the property for messages without a slash and without a digit directly followed by a colon."
  },
  {
   "property": "C88",
   "status": "proved",
   "theorems": [
    "Verif.Props.C88_pattern",
    "Verif.Props.C88_relative",
    "Verif.Props.C88_inside",
    "Verif.Props.C88_stored_pattern",
    "Verif.Props.C88_stored",
    "Verif.Props.C88_about_pattern",
    "Verif.Props.C88_about",
    "Verif.Props.C88_defect_dot",
    "Verif.Props.C88_defect_plus"
   ],
   "note": "The condition on the directories is part of the property and of the theorems (PlainPath). C88_pattern covers dots; C88_defect_dot and C88_defect_plus show what happens with a dot and a plus sign; other special characters are not modelled."
  },
  {
   "property": "C89",
   "status": "proved",
   "theorems": [
    "Verif.Props.C89_stored",
    "Verif.Props.C89_own",
    "Verif.Props.C89_silent",
    "Verif.Props.C89_main"
   ],
   "note": ""
  },
  {
   "property": "C90",
   "status": "proved",
   "theorems": [
    "Verif.Props.C90_version",
    "Verif.Props.C90_same",
    "Verif.Props.C90_config",
    "Verif.Props.C90_tool"
   ],
   "note": ""
  },
  {
   "property": "C91",
   "status": "proved",
   "theorems": [
    "Verif.Props.C91_words",
    "Verif.Props.C91_defect_quote"
   ],
   "note": ""
  },
  {
   "property": "C92",
   "status": "proved",
   "theorems": [
    "Verif.Props.C92_same_parser",
    "Verif.Props.C92_text",
    "Verif.Props.C92_no_newline",
    "Verif.Props.C92_callback_independent",
    "Verif.Props.C92_tagged",
    "Verif.Props.C92_explained",
    "Verif.Props.C92_broken_message",
    "Verif.Props.C92_line_number_defect"
   ],
   "note": ""
  },
  {
   "property": "C93",
   "status": "proved",
   "theorems": [
    "Verif.Props.C93_pieces",
    "Verif.Props.C93_line",
    "Verif.Props.C93_line_no_tick",
    "Verif.Props.C93_feature",
    "Verif.Props.C93_annotation",
    "Verif.Props.C93_defect_number"
   ],
   "note": ""
  },
  {
   "property": "C94",
   "status": "proved",
   "theorems": [
    "Verif.Props.C94_refuses",
    "Verif.Props.C94_place",
    "Verif.Props.C94_one_base",
    "Verif.Props.C94_own_directory",
    "Verif.Props.C94_reports",
    "Verif.Props.C94_jobs",
    "Verif.Props.C94_defect_no_cores",
    "Verif.Props.C94_defect_config"
   ],
   "note": ""
  },
  {
   "property": "C95",
   "status": "partial",
   "theorems": [
    "Verif.Props.C95_sequence",
    "Verif.Props.C95_file",
    "Verif.Props.C95_program",
    "Verif.Props.C95_harmless_partial",
    "Verif.Props.C95_example"
   ],
   "note": "false of the code: Encode checks nothing, and the frame behind the first foreign address receives the foreign frame (C95_sequence, C95_file, C95_program; C95_example is a run with status 0); proved: no foreign frame is ever read back, the frames before the first foreign one are right, and C95_harmless_partial when every foreign frame lies behind the last frame of the part."
  },
  {
   "property": "C96",
   "status": "proved",
   "theorems": [
    "Verif.Props.C96_same_program",
    "Verif.Props.C96_run",
    "Verif.Props.C96_success_comments",
    "Verif.Props.C96_ends",
    "Verif.Props.C96_failure",
    "Verif.Props.C96_before",
    "Verif.Props.C96_bad_line",
    "Verif.Props.C96_dotless",
    "Verif.Props.C96_line_example"
   ],
   "note": ""
  },
  {
   "property": "C97",
   "status": "partial",
   "theorems": [
    "Verif.Props.C97_always_one",
    "Verif.Props.C97_numbers_partial",
    "Verif.Props.C97_failed_partial",
    "Verif.Props.C97_defect"
   ],
   "note": "false of the code: AssembleFrames calls fasm::Parse once for each line, so every message says line 1 (C97_always_one; C97_defect is a run where the second line is wrong); proved: the exact case in which the numbers are right (C97_numbers_partial, C97_failed_partial)."
  },
  {
   "property": "C98",
   "status": "proved",
   "theorems": [
    "Verif.Props.C98_same_program",
    "Verif.Props.C98_silent",
    "Verif.Props.C98_error",
    "Verif.Props.C98_complete",
    "Verif.Props.C98_sound",
    "Verif.Props.C98_single",
    "Verif.Props.C98_failures_only_lose",
    "Verif.Props.C98_until_failure"
   ],
   "note": ""
  },
  {
   "property": "C99",
   "status": "proved",
   "theorems": [
    "Verif.Props.C99_frames",
    "Verif.Props.C99_database",
    "Verif.Props.C99_output",
    "Verif.Props.C99_unreadable",
    "Verif.Props.C99_failing_tree",
    "Verif.Props.C99_missing_entries"
   ],
   "note": ""
  },
  {
   "property": "C100",
   "status": "partial",
   "theorems": [
    "Verif.Props.C100_main_files",
    "Verif.Props.C100_needed_partial",
    "Verif.Props.C100_defect"
   ],
   "note": "False of the code (C100_defect): the walk stops silently at the first failing directory and unreadable tile type files are skipped silently (database.cc:219-224 is dead code, 324-330 drops the status). Proved: whatever a successful run needed was read (C100_needed_partial), the five main files are always required (C100_main_files), and the output is not affected (C99)."
  },
  {
   "property": "C101",
   "status": "partial",
   "theorems": [
    "Verif.Props.C101_same_parsers",
    "Verif.Props.C101_segbits_bad",
    "Verif.Props.C101_segbits_wraps",
    "Verif.Props.C101_segbits",
    "Verif.Props.C101_pins",
    "Verif.Props.C101_ppips",
    "Verif.Props.C101_ppips_partial",
    "Verif.Props.C101_ppips_defect"
   ],
   "note": "False of the code for one kind of error: the message about an unknown state in a ppips file carries no line number (C101_ppips_defect; database-parsers.cc:466-469 passes the inner status on). C101_segbits and C101_pins prove the property for the other two files, C101_ppips says exactly what is said about a ppips file, and C101_ppips_partial proves the property for lines without two fields."
  },
  {
   "property": "C102",
   "status": "proved",
   "theorems": [
    "Verif.Props.C102_same_parser",
    "Verif.Props.C102_first_problem",
    "Verif.Props.C102_explained",
    "Verif.Props.C102_total",
    "Verif.Props.C102_no_place"
   ],
   "note": ""
  },
  {
   "property": "C103",
   "status": "proved",
   "theorems": [
    "Verif.Props.C103_same_parsers",
    "Verif.Props.C103_grid",
    "Verif.Props.C103_part",
    "Verif.Props.C103_trouble",
    "Verif.Props.C103_tile",
    "Verif.Props.C103_names_tile",
    "Verif.Props.C103_no_place"
   ],
   "note": ""
  },
  {
   "property": "C104",
   "status": "proved",
   "theorems": [
    "Verif.Props.C104_same_database",
    "Verif.Props.C104_database",
    "Verif.Props.C104_unknown_part",
    "Verif.Props.C104_program"
   ],
   "note": ""
  },
  {
   "property": "C105",
   "status": "partial",
   "theorems": [
    "Verif.Props.C105_unopened_partial",
    "Verif.Props.C105_path",
    "Verif.Props.C105_defect"
   ],
   "note": "False of the code for files that can be opened (C105_defect: the same message for a bad line in parts.yaml and in devices.yaml; C102_no_place, C103_no_place). Proved for files that cannot be opened: C105_unopened_partial, for each of the five files of a database that loads otherwise."
  },
  {
   "property": "C106",
   "status": "proved",
   "theorems": [
    "Verif.Props.C106_lines",
    "Verif.Props.C106_no_stepdown",
    "Verif.Props.C106_both",
    "Verif.Props.C106_union",
    "Verif.Props.C106_kept",
    "Verif.Props.C106_frames_kept",
    "Verif.Props.C106_repaired",
    "Verif.Props.C106_monotone",
    "Verif.Props.C106_cleared",
    "Verif.Props.C106_parts_example"
   ],
   "note": ""
  },
  {
   "property": "C107",
   "status": "proved",
   "theorems": [
    "Verif.Props.C107_same_design",
    "Verif.Props.C107_succeeds",
    "Verif.Props.C107_same_frames",
    "Verif.Props.C107_extends_agrees",
    "Verif.Props.C107_extended",
    "Verif.Props.C107_program"
   ],
   "note": ""
  },
  {
   "property": "C108",
   "status": "proved",
   "theorems": [
    "Verif.Props.C108_file",
    "Verif.Props.C108_program",
    "Verif.Props.C108_difference"
   ],
   "note": ""
  },
  {
   "property": "C109",
   "status": "proved",
   "theorems": [
    "Verif.Props.C109_or"
   ],
   "note": ""
  },
  {
   "property": "C110",
   "status": "proved",
   "theorems": [
    "Verif.Props.C110_line",
    "Verif.Props.C110_text",
    "Verif.Props.C110_crlf",
    "Verif.Props.C110_assemble",
    "Verif.Props.C110_assemble_same",
    "Verif.Props.C110_assemble_crlf",
    "Verif.Props.C110_program",
    "Verif.Props.C110_quote"
   ],
   "note": ""
  },
  {
   "property": "C111",
   "status": "proved",
   "theorems": [
    "Verif.Props.C111_segbits",
    "Verif.Props.C111_ppips",
    "Verif.Props.C111_ppips_same",
    "Verif.Props.C111_pins_same",
    "Verif.Props.C111_pins_refused",
    "Verif.Props.C111_mapping",
    "Verif.Props.C111_json",
    "Verif.Props.C111_database",
    "Verif.Props.C111_program",
    "Verif.Props.C111_all",
    "Verif.Props.C111_blank_example",
    "Verif.Props.C111_empty_cell"
   ],
   "note": ""
  },
  {
   "property": "C112",
   "status": "proved",
   "theorems": [
    "Verif.Props.C112_apart",
    "Verif.Props.C112_report",
    "Verif.Props.C112_headline",
    "Verif.Props.C112_blocked",
    "Verif.Props.C112_again"
   ],
   "note": ""
  },
  {
   "property": "C113",
   "status": "proved",
   "theorems": [
    "Verif.Props.C113_append",
    "Verif.Props.C113_reads"
   ],
   "note": ""
  },
  {
   "property": "C114",
   "status": "proved",
   "theorems": [
    "Verif.Props.C114_revisits",
    "Verif.Props.C114_endless",
    "Verif.Props.C114_hangs_walk",
    "Verif.Props.C114_ends_walk",
    "Verif.Props.C114_hangs",
    "Verif.Props.C114_ends"
   ],
   "note": ""
  },
  {
   "property": "C115",
   "status": "proved",
   "theorems": [
    "Verif.Props.C115_encode",
    "Verif.Props.C115_collision",
    "Verif.Props.C115_program",
    "Verif.Props.C115_example"
   ],
   "note": ""
  },
  {
   "property": "C116",
   "status": "proved",
   "theorems": [
    "Verif.Props.C116_type2",
    "Verif.Props.C116_type1",
    "Verif.Props.C116_lost",
    "Verif.Props.C116_exact",
    "Verif.Props.C116_huge",
    "Verif.Props.C116_program",
    "Verif.Props.C116_lost_design",
    "Verif.Props.C116_exact_design",
    "Verif.Props.C116_program_design"
   ],
   "note": ""
  },
  {
   "property": "C117",
   "status": "proved",
   "theorems": [
    "Verif.Props.C117_json",
    "Verif.Props.C117_one_line",
    "Verif.Props.C117_shown",
    "Verif.Props.C117_number",
    "Verif.Props.C117_distinct",
    "Verif.Props.C117_part",
    "Verif.Props.C117_grid"
   ],
   "note": ""
  },
  {
   "property": "C118",
   "status": "partial",
   "theorems": [
    "Verif.Props.C118_idle_partial",
    "Verif.Props.C118_stop_partial",
    "Verif.Props.C118_two_files",
    "Verif.Props.C118_ragged",
    "Verif.Props.C118_device",
    "Verif.Props.C118_defect",
    "Verif.Props.C118_defect_id"
   ],
   "note": "False of the code (C118_defect): the reader does not stop at DESYNC, so words behind the file can replace any frame, or make it unreadable (an ID of another part, C118_defect_id), and it reads outside a file when the number of bytes behind is no multiple of four (C118_ragged). Proved: the device takes nothing in (C118_device), words none of which is the header of a write of frames or of an ID change nothing (C118_idle_partial), a word of an unknown type ends the reading whatever follows (C118_stop_partial), and of two files printed one behind the other the first is read back (C118_two_files)."
  },
  {
   "property": "C119",
   "status": "proved",
   "theorems": [
    "Verif.Props.C119_text",
    "Verif.Props.C119_cases",
    "Verif.Props.C119_program",
    "Verif.Props.C119_order"
   ],
   "note": ""
  },
  {
   "property": "C120",
   "status": "proved",
   "theorems": [
    "Verif.Props.C120_grid",
    "Verif.Props.C120_grid_accepted",
    "Verif.Props.C120_part",
    "Verif.Props.C120_database",
    "Verif.Props.C120_program",
    "Verif.Props.C120_order_rows",
    "Verif.Props.C120_order_twice",
    "Verif.Props.C120_order_banks"
   ],
   "note": ""
  },
  {
   "property": "C121",
   "status": "proved",
   "theorems": [
    "Verif.Props.C121_segbits",
    "Verif.Props.C121_ppips",
    "Verif.Props.C121_pins",
    "Verif.Props.C121_program",
    "Verif.Props.C121_order_twice",
    "Verif.Props.C121_order_banks",
    "Verif.Props.C121_order_end",
    "Verif.Props.C121_ends"
   ],
   "note": ""
  },
  {
   "property": "C122",
   "status": "proved",
   "theorems": [
    "Verif.Props.C122_table",
    "Verif.Props.C122_database",
    "Verif.Props.C122_program",
    "Verif.Props.C122_order_twice"
   ],
   "note": ""
  },
  {
   "property": "C123",
   "status": "proved",
   "theorems": [
    "Verif.Props.C123_reads",
    "Verif.Props.C123_database",
    "Verif.Props.C123_program",
    "Verif.Props.C123_messages"
   ],
   "note": ""
  },
  {
   "property": "C124",
   "status": "proved",
   "theorems": [
    "Verif.Props.C124_program",
    "Verif.Props.C124_starts",
    "Verif.Props.C124_ends",
    "Verif.Props.C124_not_started"
   ],
   "note": ""
  },
  {
   "property": "C125",
   "status": "proved",
   "theorems": [
    "Verif.Props.C125_program",
    "Verif.Props.C125_ends",
    "Verif.Props.C125_any_order"
   ],
   "note": ""
  },
  {
   "property": "C126",
   "status": "proved",
   "theorems": [
    "Verif.Props.C126_every",
    "Verif.Props.C126_counts",
    "Verif.Props.C126_all",
    "Verif.Props.C126_screen",
    "Verif.Props.C126_end",
    "Verif.Props.C126_file",
    "Verif.Props.C126_defect_many"
   ],
   "note": ""
  },
  {
   "property": "C127",
   "status": "proved",
   "theorems": [
    "Verif.Props.C127_quotes",
    "Verif.Props.C127_one_reason",
    "Verif.Props.C127_misses",
    "Verif.Props.C127_refused",
    "Verif.Props.C127_script",
    "Verif.Props.C127_says",
    "Verif.Props.C127_files",
    "Verif.Props.C127_nothing_missing"
   ],
   "note": ""
  },
  {
   "property": "C128",
   "status": "proved",
   "theorems": [
    "Verif.Props.C128_frames",
    "Verif.Props.C128_program",
    "Verif.Props.C128_written",
    "Verif.Props.C128_sources",
    "Verif.Props.C128_bitwise"
   ],
   "note": ""
  },
  {
   "property": "C129",
   "status": "proved",
   "theorems": [
    "Verif.Props.C129_device",
    "Verif.Props.C129_needs"
   ],
   "note": ""
  },
  {
   "property": "C130",
   "status": "proved",
   "theorems": [
    "Verif.Props.C130_device",
    "Verif.Props.C130_needs"
   ],
   "note": ""
  },
  {
   "property": "C131",
   "status": "proved",
   "theorems": [
    "Verif.Props.C131_throws",
    "Verif.Props.C131_answered",
    "Verif.Props.C131_success",
    "Verif.Props.C131_ends",
    "Verif.Props.C131_no_guess",
    "Verif.Props.C131_long_names",
    "Verif.Props.C131_terminated"
   ],
   "note": ""
  },
  {
   "property": "C132",
   "status": "proved",
   "theorems": [
    "Verif.Props.C132_file",
    "Verif.Props.C132_again",
    "Verif.Props.C132_order",
    "Verif.Props.C132_memory"
   ],
   "note": ""
  },
  {
   "property": "C133",
   "status": "proved",
   "theorems": [
    "Verif.Props.C133_words",
    "Verif.Props.C133_file",
    "Verif.Props.C133_program"
   ],
   "note": ""
  },
  {
   "property": "C134",
   "status": "proved",
   "theorems": [
    "Verif.Props.C134_wants",
    "Verif.Props.C134_suffice",
    "Verif.Props.C134_same",
    "Verif.Props.C134_program",
    "Verif.Props.C134_two_banks",
    "Verif.Props.C134_exists",
    "Verif.Props.C134_written",
    "Verif.Props.C134_ends"
   ],
   "note": "no tile in two banks is needed (C134_two_banks); C134_ends: all ways of ending, for lines shorter than 2^28 bytes"
  },
  {
   "property": "C135",
   "status": "proved",
   "theorems": [
    "Verif.Props.C135_places",
    "Verif.Props.C135_tells"
   ],
   "note": ""
  },
  {
   "property": "C136",
   "status": "proved",
   "theorems": [
    "Verif.Props.C136_device"
   ],
   "note": ""
  },
  {
   "property": "C137",
   "status": "proved",
   "theorems": [
    "Verif.Props.C137_change",
    "Verif.Props.C137_tiles",
    "Verif.Props.C137_added"
   ],
   "note": ""
  }
 ]
}