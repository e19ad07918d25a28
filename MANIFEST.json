{
 "claims": [
  {
   "property": "C01",
   "status": "proved",
   "theorems": [
    "Cob.C01_store_image",
    "Cob.C01_load_image",
    "Cob.C01_roundtrip",
    "Cob.C01_truncation"
   ],
   "note": "Zoned items of any length, all sign conventions; store image, load image, round trip and truncation of high-order digits."
  },
  {
   "property": "C02",
   "status": "proved",
   "theorems": [
    "Cob.C02_store_image",
    "Cob.C02_load_image",
    "Cob.C02_roundtrip",
    "Cob.C02_truncation"
   ],
   "note": "Packed items of any length; C02_truncation covers high-order truncation."
  },
  {
   "property": "C03",
   "status": "proved",
   "theorems": [
    "Cob.C03_load",
    "Cob.C03_roundtrip",
    "Cob.C03_overflow_wraps",
    "Cob.C03_min_value_refused",
    "Cob.C03_trunc_loses_sign"
   ],
   "note": "COMP/COMP-5/BINARY of 1..8 bytes. Findings: C03_overflow_wraps, C03_min_value_refused, C03_trunc_loses_sign show where stored values differ from the naive expectation."
  },
  {
   "property": "C04",
   "status": "proved",
   "theorems": [
    "Cob.C04_binary_keep",
    "Cob.C04_binary_accepts",
    "Cob.C04_display_keep",
    "Cob.C04_keep_any_item",
    "Cob.C04_no_value",
    "Cob.C04_packed_keep"
   ],
   "note": "ON SIZE ERROR (COB_STORE_KEEP_ON_OVERFLOW) leaves every receiver kind unchanged exactly when the value does not fit."
  },
  {
   "property": "C05",
   "status": "proved",
   "theorems": [
    "Cob.C05_truncates",
    "Cob.C05_rounds",
    "Cob.C05_spec_unique",
    "Cob.C05_store_any_item"
   ],
   "note": "Truncation and nearest-away-from-zero rounding against a rational-number spec, with uniqueness of the spec."
  },
  {
   "property": "C06",
   "status": "proved",
   "theorems": [
    "Cob.C06_add_exact",
    "Cob.C06_sub_exact",
    "Cob.C06_mul_exact",
    "Cob.C06_mul_nan_collision",
    "Cob.C06_nan_propagates",
    "Cob.C06_pow_exact",
    "Cob.C06_pow_truncates_exponent",
    "Cob.C06_add_items",
    "Cob.C06_sub_items",
    "Cob.C06_pow_nan"
   ],
   "note": "Exact rational arithmetic for add/sub/mul/pow on decimals and on items. Findings: C06_mul_nan_collision (scale -128 is taken for 'no value'), C06_pow_truncates_exponent."
  },
  {
   "property": "C07",
   "status": "proved",
   "theorems": [
    "Cob.C07_div_by_zero",
    "Cob.C07_div_zero_dividend",
    "Cob.C07_div_truncated",
    "Cob.C07_divide_items"
   ],
   "note": "Quotient truncated beyond COB_MAX_DIGITS digits; zero divide."
  },
  {
   "property": "C08",
   "status": "proved",
   "theorems": [
    "Cob.C08_remainder"
   ],
   "note": "dividend = quotient*divisor + remainder with the truncated stored quotient."
  },
  {
   "property": "C09",
   "status": "proved",
   "theorems": [
    "Cob.C09_numdisp",
    "Cob.C09_cmp_exact",
    "Cob.C09_cmp_total_order",
    "Cob.C09_items"
   ],
   "note": "Numeric comparison is the order of the rational values, for items of any representation."
  },
  {
   "property": "C10",
   "status": "proved",
   "theorems": [
    "Cob.C10_add_int",
    "Cob.C10_add_int_overflow",
    "Cob.C10_wraps_silently",
    "Cob.C10_notrunc_wraps",
    "Cob.C10_negative_zero"
   ],
   "note": "In-place ADD of an integer to a zoned item; findings C10_wraps_silently, C10_notrunc_wraps, C10_negative_zero."
  },
  {
   "property": "C11",
   "status": "proved",
   "theorems": [
    "Cob.C11_add_packed",
    "Cob.C11_wide_operand_wrong",
    "Cob.C11_overflow_silent",
    "Cob.C11_negative_scale_wrong"
   ],
   "note": "In-place ADD of an integer to a packed item; findings C11_wide_operand_wrong, C11_overflow_silent, C11_negative_scale_wrong."
  },
  {
   "property": "C12",
   "status": "proved",
   "theorems": [
    "Cob.C12_cmp_packed",
    "Cob.C12_any_history",
    "Cob.C12_negative_zero"
   ],
   "note": "cob_cmp_packed with its static cache, over every history of earlier calls; finding C12_negative_zero."
  },
  {
   "property": "C13",
   "status": "proved",
   "theorems": [
    "Cob.C13_move",
    "Cob.C13_source_unchanged",
    "Cob.C13_move_native",
    "Cob.C13_runaway_loop",
    "Cob.C13_wide_to_binary_overflows"
   ],
   "note": "MOVE between zoned, packed and binary items: digits aligned on the decimal point, high/low-order truncation, sign kept iff receiver signed. Findings C13_runaway_loop, C13_wide_to_binary_overflows."
  },
  {
   "property": "C14",
   "status": "proved",
   "theorems": [
    "Cob.C14_left",
    "Cob.C14_justified",
    "Cob.C14_roundtrip",
    "Cob.C14_display_to_text"
   ],
   "note": "Left/right justified text MOVE, numeric DISPLAY to text."
  },
  {
   "property": "C15",
   "status": "proved",
   "theorems": [
    "Cob.C15_move_all",
    "Cob.C15_one_byte",
    "Cob.C15_last_lead_byte_blanked",
    "Cob.C15_numeric_receiver_18_digits"
   ],
   "note": "MOVE ALL to alphanumeric items; findings C15_last_lead_byte_blanked, C15_numeric_receiver_18_digits."
  },
  {
   "property": "C16",
   "status": "proved",
   "theorems": [
    "Cob.C16_finding_db_sign_lost",
    "Cob.C16_finding_buffer",
    "Cob.C16_finding_comma_zero",
    "Cob.C16_finding_period_zero",
    "Cob.C16_finding_trailing_sign_reads",
    "Cob.C16_finding_cut_digit",
    "Cob.C16_finding_fixed_sign_floats",
    "Cob.C16_finding_vpp",
    "Cob.C16_finding_inserted_zero",
    "Cob.C16_finding_ending_point",
    "Cob.C16_edit",
    "Cob.C16_move",
    "Cob.C16_inside",
    "Cob.C16_roundtrip"
   ],
   "note": "C16_edit/C16_move: complete text for all senders; C16_inside: in bounds for arbitrary digits; C16_roundtrip: de-editing. PICTUREs with P or V are modelled but not in the class (C16_finding_vpp shows why); hypotheses ValueFits/fracSep/DeEditable exclude exactly the cases the C16_finding_* theorems show to go wrong. Text-only findings: BLANK WHEN ZERO with decimals makes the item one byte too long (cobc/field.c 648-675)."
  },
  {
   "property": "C17",
   "status": "proved",
   "theorems": [
    "Cob.C17_preserves",
    "Cob.C17_p_picture_reads_outside",
    "Cob.C17_nul_sender_gives_bad_packed"
   ],
   "note": "Packed<->zoned MOVE is part of C13_move; findings for P pictures and NUL senders."
  },
  {
   "property": "C18",
   "status": "proved",
   "theorems": [
    "Cob.C18_all",
    "Cob.C18_leading",
    "Cob.C18_trailing",
    "Cob.C18_characters",
    "Cob.C18_all_in_sequence",
    "Cob.C18_phrase_order_beats_position",
    "Cob.C18_leading_skips_claimed",
    "Cob.C18_numeric_item",
    "Cob.C18_item_unchanged"
   ],
   "note": "Single phrases against a recursive spec of non-overlapping occurrences with BEFORE/AFTER regions; several ALL phrases in sequence. Findings C18_phrase_order_beats_position and C18_leading_skips_claimed: with several phrases the code counts phrase by phrase instead of position by position."
  },
  {
   "property": "C19",
   "status": "proved",
   "theorems": [
    "Cob.C19_length",
    "Cob.C19_outside_region",
    "Cob.C19_first_phrase_wins",
    "Cob.C19_all",
    "Cob.C19_leading",
    "Cob.C19_first",
    "Cob.C19_trailing",
    "Cob.C19_characters",
    "Cob.C19_size_mismatch",
    "Cob.C19_size_exception"
   ],
   "note": "ALL/LEADING/FIRST/TRAILING/CHARACTERS against the same spec; length and bytes outside the region kept; first phrase wins."
  },
  {
   "property": "C20",
   "status": "proved",
   "theorems": [
    "Cob.C20_converting",
    "Cob.C20_low_values_reads_outside"
   ],
   "note": "CONVERTING: first matching table entry decides; finding C20_low_values_reads_outside."
  },
  {
   "property": "C21",
   "status": "proved",
   "theorems": [
    "Cob.C21_string",
    "Cob.C21_bad_pointer"
   ],
   "note": "STRING with any number of senders, delimiters and POINTER."
  },
  {
   "property": "C22",
   "status": "proved",
   "theorems": [
    "Cob.C22_unstring",
    "Cob.C22_by_size",
    "Cob.C22_bad_pointer",
    "Cob.C22_pieces",
    "Cob.C22_receiver"
   ],
   "note": "UNSTRING with any delimiters (with or without ALL), POINTER, TALLYING, DELIMITER IN, COUNT IN."
  },
  {
   "property": "C23",
   "status": "proved",
   "theorems": [
    "Cob.C23_text",
    "Cob.C23_equal_native",
    "Cob.C23_total_preorder",
    "Cob.C23_antisymmetric",
    "Cob.C23_all",
    "Cob.C23_numeric_as_digits",
    "Cob.C23_operand_unchanged",
    "Cob.C23_national_never_less",
    "Cob.C23_national_not_antisymmetric"
   ],
   "note": "Texts of any length, any collating table, ALL literals, numeric operands as their digits, antisymmetry for every mix of operands. Findings: C23_national_never_less and C23_national_not_antisymmetric (SJIS national comparison never answers 'less')."
  },
  {
   "property": "C24",
   "status": "proved",
   "theorems": [
    "Cob.C24_alphabetic",
    "Cob.C24_control_characters_alphabetic",
    "Cob.C24_numeric_text",
    "Cob.C24_numeric_zoned_holds",
    "Cob.C24_numeric_zoned_unsigned",
    "Cob.C24_numeric_zoned_ascii",
    "Cob.C24_numeric_packed",
    "Cob.C24_numeric_test_changes_item",
    "Cob.C24_separate_sign_not_checked",
    "Cob.C24_ebcdic_sign_not_checked"
   ],
   "note": "Exact characterisation for text, zoned (ASCII trailing sign, unsigned, and every item that holds a number), packed. Findings: C24_numeric_test_changes_item, C24_separate_sign_not_checked, C24_ebcdic_sign_not_checked, C24_control_characters_alphabetic show where the class test accepts or modifies invalid contents."
  },
  {
   "property": "C25",
   "status": "proved",
   "theorems": [
    "Cob.C25_lexicographic",
    "Cob.C25_total_preorder",
    "Cob.C25_ties_by_release"
   ],
   "note": "Records with proper numeric keys; NATIONAL keys are covered only by the finding in C23."
  },
  {
   "property": "C26",
   "status": "proved",
   "theorems": [
    "Cob.C26_origin",
    "Cob.C26_successive",
    "Cob.C26_date_roundtrip",
    "Cob.C26_integer_roundtrip",
    "Cob.C26_order",
    "Cob.C26_invalid",
    "Cob.C26_test_date",
    "Cob.C26_day_roundtrip",
    "Cob.C26_day_integer_roundtrip",
    "Cob.C26_day_and_date",
    "Cob.C26_day_invalid",
    "Cob.C26_test_date_which",
    "Cob.C26_test_day_which",
    "Cob.C26_test_negative",
    "Cob.C26_combined",
    "Cob.C26_finding_midnight",
    "Cob.C26_combined_refused"
   ],
   "note": "All dates of 1601..9999; INTEGER-OF-DATE/DAY, DATE/DAY-OF-INTEGER, TEST-DATE/DAY with their codes (C26_test_date_which, C26_test_day_which), COMBINED-DATETIME. Finding: COMBINED-DATETIME refuses 0 seconds (C26_finding_midnight)."
  },
  {
   "property": "C27",
   "status": "proved",
   "theorems": [
    "Cob.C27_fraction_part",
    "Cob.C27_finding_fraction_overflow",
    "Cob.C27_finding_fraction_no_truncate",
    "Cob.C27_finding_mod_run",
    "Cob.C27_abs",
    "Cob.C27_finding_abs_minimum",
    "Cob.C27_sign",
    "Cob.C27_factorial",
    "Cob.C27_finding_factorial",
    "Cob.C27_integer",
    "Cob.C27_finding_integer",
    "Cob.C27_integer_part",
    "Cob.C27_mod",
    "Cob.C27_finding_mod",
    "Cob.C27_rem"
   ],
   "note": "The plain statement (floor, MOD with the sign of the divisor) is false of the code for some arguments: C27_integer characterises exactly when INTEGER is the floor, C27_finding_integer / C27_finding_mod(_run) are witnesses; INTEGER-PART, FRACTION-PART, REM, MOD, ABS, SIGN and FACTORIAL are proved for the stated argument ranges, with witnesses of what happens outside them."
  },
  {
   "property": "C28",
   "status": "proved",
   "theorems": [
    "Cob.C28_refmod",
    "Cob.C28_finding_refmod",
    "Cob.C28_upper",
    "Cob.C28_lower",
    "Cob.C28_case_idempotent",
    "Cob.C28_finding_lower_sjis",
    "Cob.C28_reverse",
    "Cob.C28_concatenate",
    "Cob.C28_substituted_unique",
    "Cob.C28_substitute",
    "Cob.C28_substitute_case",
    "Cob.C28_finding_substitute_case_nul",
    "Cob.C28_trim",
    "Cob.C28_char_ord",
    "Cob.C28_char_outside"
   ],
   "note": "Bytes, C locale. Findings: reference modification behind the value is ignored, SJIS double-byte characters are changed by LOWER-CASE, SUBSTITUTE-CASE stops at NUL."
  },
  {
   "property": "C29",
   "status": "proved",
   "theorems": [
    "Cob.C29_year",
    "Cob.C29_year_invalid",
    "Cob.C29_date",
    "Cob.C29_day",
    "Cob.C29_finding_date"
   ],
   "note": "Finding: DATE-TO-YYYYMMDD accepts dates whose year has more than two digits (C29_finding_date)."
  },
  {
   "property": "C30",
   "status": "proved",
   "theorems": [
    "Cob.C30_midrange",
    "Cob.C30_present_value",
    "Cob.C30_mean",
    "Cob.C30_min",
    "Cob.C30_max",
    "Cob.C30_finding_single",
    "Cob.C30_sum",
    "Cob.C30_range",
    "Cob.C30_median"
   ],
   "note": "MIN, MAX, ORD-MIN, ORD-MAX, SUM, RANGE, MEDIAN, MEAN, MIDRANGE, PRESENT-VALUE over any number of numeric arguments; the store of a result into a floating point number is not modelled. Finding: ORD-MIN/ORD-MAX of a single argument is 0."
  },
  {
   "property": "C31",
   "status": "proved",
   "theorems": [
    "Cob.C31_external"
   ],
   "note": "All histories of requests, as list of (name, length). Areas are identified by the order of allocation; that cob_malloc delivers distinct zeroed areas is an assumption."
  },
  {
   "property": "C32",
   "status": "proved",
   "theorems": [
    "Cob.C32_no_double_free",
    "Cob.C32_free",
    "Cob.C32_allocate",
    "Cob.C32_finding_alias"
   ],
   "note": "All histories of ALLOCATE, FREE and SET to arbitrary addresses, for any malloc that returns areas not in use (addresses may be reused). Finding: FREE through a stale alias releases the area given out again."
  },
  {
   "property": "C33",
   "status": "proved",
   "theorems": [
    "Cob.C33_procedures",
    "Cob.C33_registered",
    "Cob.C33_codes",
    "Cob.C33_finding_use_after_free"
   ],
   "note": "Exact: C33_procedures gives the registered handlers when every call names a new or the most recent handler and shows that all other histories read freed storage (C33_finding_use_after_free); C33_codes relates the install codes of the two routines to the list."
  },
  {
   "property": "C34",
   "status": "proved",
   "theorems": [
    "Cob.C34_binary",
    "Cob.C34_not",
    "Cob.C34_finding_overlap",
    "Cob.C34_xf",
    "Cob.C34_xf_roundtrip",
    "Cob.C34_xf_roundtrip",
    "Cob.C34_switches"
   ],
   "note": "Operands in one storage, overlapping allowed when the first does not begin in front of the second; C34_finding_overlap shows the other case. Also CBL_XF4/XF5 and the switches of CBL_X91."
  },
  {
   "property": "C35",
   "status": "proved",
   "theorems": [
    "Cob.Based.C35_based_one",
    "Cob.Based.C35_based_last",
    "Cob.Based.C35_finding_based_two",
    "Cob.Based.C35_finding_based_omitted",
    "Cob.Based.C35_finding_omitted",
    "Cob.C35_range",
    "Cob.C35_ref_mod",
    "Cob.C35_ref_mod_all",
    "Cob.C35_finding_ref_mod",
    "Cob.C35_ref_mod_national"
   ],
   "note": "Exact for all arguments without 32-bit overflow; C35_ref_mod_all covers all 32-bit arguments; C35_finding_ref_mod is a reference outside the item that is accepted. NULL addresses: exact for statements with one such record; C35_based_last says which one is checked in general."
  },
  {
   "property": "C36",
   "status": "proved",
   "theorems": [
    "Cob.C36_statuses",
    "Cob.C36_streams",
    "Cob.C36_finding_locked",
    "Cob.C36_finding_optional",
    "Cob.C36_finding_closed",
    "Cob.C36_finding_linage",
    "Cob.C36_close"
   ],
   "note": "C36_statuses: the statuses of every proper history equal those of the observational automaton Seen, whose state is updated from the statement and the status only (plus the system's answer to OPEN); C36_streams: in every proper history each organisation routine and each close is called on an open stream. Findings (concrete executions outside the boundary): READ/WRITE/START/CLOSE after CLOSE WITH LOCK use a released stream (locked); WRITE/REWRITE/DELETE on an absent OPTIONAL file open I-O use a null stream (optional); READ on closed file answers 10/23/46 (closed); OPEN refused with 57 leaves the stream open (linage). Organisation routines' results are arbitrary values; their behaviour is C37-C39."
  },
  {
   "property": "C37",
   "status": "proved",
   "theorems": [
    "Cob.C37_io_history",
    "Cob.C37_read_back",
    "Cob.C37_extend",
    "Cob.C37_rewritten_file",
    "Cob.C37_write_limits",
    "Cob.C37_finding_long_record",
    "Cob.C37_finding_read_overflow",
    "Cob.C37_finding_empty_record"
   ],
   "note": "History refinement to a list of records (SeqSpec) for fixed and variable records; C37_write_limits covers WRITEs outside the record limits; findings: record lengths from 65536 lose their length field, a longer record on file overruns the record area, empty records. I/O errors and the external file handler are not modelled."
  },
  {
   "property": "C38",
   "status": "proved",
   "theorems": [
    "Cob.C38_any_text",
    "Cob.C38_round_trip",
    "Cob.C38_finding_line_feed",
    "Cob.C38_finding_page_joins",
    "Cob.C38_page"
   ],
   "note": "Round trip for every list of WRITEs with any ADVANCING lines, both COB_LS_NULLS and COB_LS_FIXED settings; reading of arbitrary text. Findings: LF in data, ADVANCING PAGE joins lines."
  },
  {
   "property": "C39",
   "status": "proved",
   "theorems": [
    "Cob.C39_history",
    "Cob.C39_reopen",
    "Cob.C39_enumeration",
    "Cob.C39_finding_start_delete",
    "Cob.C39_finding_start_garbage",
    "Cob.C39_finding_rewrite_absent",
    "Cob.C39_finding_start_less",
    "Cob.C39_finding_rewrite_length"
   ],
   "note": "C39_history: every legal history of statements, from the creation of the file, is answered (status, record, RELATIVE KEY item) as by the map specification RelSpec; C39_reopen the same after close and reopen with either access mode; C39_enumeration: READ NEXT after reopening gives exactly the present numbers ascending, then 10, then 46. Findings, as concrete executions: after START + READ NEXT a DELETE deletes record 1 (start_delete); READ NEXT after an unsuccessful START returns garbage with 00 (start_garbage); REWRITE/DELETE of a deleted record answers 00 (rewrite_absent); START LESS from above the extent answers 23 (start_less); REWRITE with another length keeps the old length (rewrite_length). Not modelled: status 14 (key too large for the item), locks, I/O errors."
  },
  {
   "property": "C40",
   "status": "proved",
   "theorems": [
    "Cob.C40_sort",
    "Cob.C40_order_unique",
    "Cob.C40_finding_three_records",
    "Cob.C40_finding_sizes_lost"
   ],
   "note": "Full: RELEASE/RETURN with the in-memory merge, the spilling to temporary files at the level of bytes, the file merge passes and the final merge. The order is the actual key comparison (C25). Not modelled: I/O errors on temporary files, USING/GIVING copying. Findings: fewer than four records in memory with spilling is a null dereference; the sizes of variable records are lost when spilled."
  },
  {
   "property": "C41",
   "status": "proved",
   "theorems": [
    "Cob.C41_answers",
    "Cob.C41_stable",
    "Cob.C41_symbols_differ",
    "Cob.C41_symbol_is_identifier",
    "Cob.C41_name_padding",
    "Cob.C41_name_exact",
    "Cob.C41_finding_hyphen_collides",
    "Cob.C41_finding_escape_collides"
   ],
   "note": "Exact characterisation of every answer after every history (C41_answers), stability as a corollary, injectivity of the name encoding for names without underscore; collisions with underscores proved as findings. The loader is an oracle that may change at every call."
  },
  {
   "property": "C42",
   "status": "proved",
   "theorems": [
    "Cob.C42_cancel_all",
    "Cob.C42_cancel_effect",
    "Cob.C42_finding_third_callee",
    "Cob.C42_finding_sister_lost",
    "Cob.C42_finding_hyphen"
   ],
   "note": "For all histories with at most two different callees per node; for more the code is wrong and the findings prove it (third callee lost, sister lost, hyphenated names not cancelled). Assumes GCC's evaluation order of `p->x = f()` where f changes p's global."
  },
  {
   "property": "C43",
   "status": "proved",
   "theorems": [
    "Cob.C43_accepts",
    "Cob.C43_repeat",
    "Cob.C43_runtime_picture",
    "Cob.C43_edited_move",
    "Cob.C43_binary_room",
    "Cob.C43_compx_room",
    "Cob.C43_binary_least",
    "Cob.C43_compx_least",
    "Cob.C43_decimal_room",
    "Cob.C43_compx_signed_no_room",
    "Cob.C43_overflow_mark_lost",
    "Cob.C43_overflow_numeric",
    "Cob.C43_overflow_sum",
    "Cob.C43_scale_wraps",
    "Cob.C43_float_no_decimals",
    "Cob.C43_double_c",
    "Cob.C43_db_factor",
    "Cob.C43_only_sign",
    "Cob.C43_p_then_v",
    "Cob.C43_scaled",
    "Cob.C43_p_then_v_factor",
    "Cob.C43_values",
    "Cob.C43_category"
   ],
   "note": "C43_values: size, sign, digits, scale and runtime symbol list are counted on the expansion, for every accepted string with an expansion shorter than 2^29 symbols, at most one 'C' and one 'D', and DB written out (C43_double_c, C43_db_factor, C43_overflow_* show the excluded strings go wrong). C43_category: category. C43_accepts: every proper PICTURE without 'P' is accepted. C43_scaled: every numeric PICTURE with 'P' on one side is accepted and gives the right digits and scale. C43_edited_move composes with C16. C43_binary_room / C43_compx_room / C43_decimal_room: storage sizes. Findings: C43_overflow_mark_lost, C43_overflow_numeric, C43_overflow_sum, C43_scale_wraps, C43_float_no_decimals, C43_double_c, C43_db_factor, C43_only_sign, C43_p_then_v, C43_p_then_v_factor, C43_compx_signed_no_room. Not modelled: the scanner in front of cb_build_picture, message texts. C43_repeat: a repetition factor in parentheses of any number of digits (up to 47) stands for that many symbols or is refused."
  },
  {
   "property": "C44",
   "status": "proved",
   "theorems": [
    "Cob.C44_report",
    "Cob.C44_open",
    "Cob.C44_record_line",
    "Cob.C44_finding_zero_lines",
    "Cob.C44_finding_after_one_line_early",
    "Cob.C44_finding_flag_leaks"
   ],
   "note": "History refinement to a report of logical pages, with items that may change between WRITEs. Excluded and shown as findings: ADVANCING 0 LINES, position of AFTER ADVANCING records (one line early), the global end-of-page flag leaking after a 57. LINAGE-COUNTER arithmetic is unbounded in the model (PIC 9(9) COMP-5 in the code)."
  },
  {
   "property": "C45",
   "status": "proved",
   "theorems": [
    "Cob.C45_sign_roundtrip",
    "Cob.C45_ascii_any_content",
    "Cob.C45_blank_sign_is_overwritten",
    "Cob.C45_ebcdic_rewrites"
   ],
   "note": "Sign overpunch round trip, ASCII and EBCDIC."
  },
  {
   "property": "C46",
   "status": "proved",
   "theorems": [
    "Cob.C46_compute",
    "Cob.C46_registers",
    "Cob.C46_zero_divide",
    "Cob.C46_multi"
   ],
   "note": "COMPUTE expression compilation with decimal registers."
  },
  {
   "property": "C47",
   "status": "proved",
   "theorems": [
    "Cob.C47_text_to_number",
    "Cob.C47_reads_past_source",
    "Cob.C47_bad_text_is_zero"
   ],
   "note": "Finding C47_reads_past_source: V-P pictures make the skip loop run past the sender."
  },
  {
   "property": "C48",
   "status": "proved",
   "theorems": [
    "Cob.C48_nested",
    "Cob.C48_disjoint",
    "Cob.C48_ordered_disjoint",
    "Cob.C48_reference_inside",
    "Cob.C48_elements_disjoint",
    "Cob.C48_arithmetic",
    "Cob.C48_placed",
    "Cob.C48_finding_sync_group",
    "Cob.C48_finding_two_redefinitions",
    "Cob.C48_finding_wrap"
   ],
   "note": "Layout with exact and 32-bit arithmetic (C48_arithmetic: equal below 4 GB); C48_placed gives the exact position of every item (first aligned position). Findings: SYNC at a binary group separates the group from its items; two longer redefinitions are both added; a product of 2^32 wraps to 0. OCCURS DEPENDING in the middle of a record is not modelled."
  },
  {
   "property": "C49",
   "status": "proved",
   "theorems": [
    "Cob.C49_signed_display",
    "Cob.C49_condition",
    "Cob.C49_finding_scaled_binary",
    "Cob.C49_finding_scaled_display",
    "Cob.C49_binary",
    "Cob.C49_packed"
   ],
   "note": "C49_condition for every operand pair cobc compiles with a numeric comparison, over a model of cb_build_cond/cb_build_optim_cond/cb_chk_num_cond/output_integer/cb_fits_int and the routines; per-routine theorems C49_binary, C49_packed, C49_signed_display. Excluded with proved findings: right operands with P pictures (C49_finding_scaled_binary, C49_finding_scaled_display); packed negative zero (C12_negative_zero)."
  },
  {
   "property": "C50",
   "status": "proved",
   "theorems": [
    "Cob.C50_add_item",
    "Cob.C50_sub_item",
    "Cob.C50_finding_unsigned_operand",
    "Cob.C50_finding_no_truncation",
    "Cob.C50_add_binary",
    "Cob.C50_sub_binary",
    "Cob.C50_set_swapped",
    "Cob.C50_add_packed_same_sign",
    "Cob.C50_add_packed",
    "Cob.C50_packed_spare_nibble"
   ],
   "note": "C50_add_item, C50_sub_item for every usage; exact bytes modulo 2^(8 size) for binary (C50_add_binary, C50_sub_binary, C50_set_swapped); packed: C50_add_packed. Findings: C50_packed_spare_nibble, C50_finding_unsigned_operand, C50_finding_no_truncation."
  },
  {
   "property": "C51",
   "status": "proved",
   "theorems": [
    "Cob.C51_zero",
    "Cob.C51_literal",
    "Cob.C51_literal_native",
    "Cob.C51_literal_same",
    "Cob.C51_literal_zoned",
    "Cob.C51_field",
    "Cob.C51_figurative",
    "Cob.C51_text_literal",
    "Cob.C51_number_text",
    "Cob.C51_all",
    "Cob.C51_text_item",
    "Cob.C51_zoned_item",
    "Cob.C51_finding_no_truncation",
    "Cob.C51_finding_negative",
    "Cob.C51_finding_text_number",
    "Cob.C51_finding_justified",
    "Cob.C51_finding_all",
    "Cob.C51_finding_copy",
    "Cob.C51_all_alphabetic"
   ],
   "note": "C51_literal / C51_literal_same / C51_literal_native / C51_literal_zoned (numeric literals), C51_zero, C51_field, and the text theorems C51_figurative, C51_text_literal, C51_number_text, C51_all, C51_text_item, C51_zoned_item. Excluded with proved findings: literals that do not fit the PICTURE of a binary receiver (C51_finding_no_truncation), negative literals to unsigned binary items (C51_finding_negative), text literals to zoned items (C51_finding_text_number), numeric literals to JUSTIFIED RIGHT items (C51_finding_justified), ALL literals of bytes above 0x80 (C51_finding_all), values beyond the PICTURE (C51_finding_copy). C51_all_alphabetic: ALL literals to alphabetic items."
  },
  {
   "property": "C52",
   "status": "proved",
   "theorems": [
    "Cob.C52_pretty",
    "Cob.C52_plain",
    "Cob.C52_binary",
    "Cob.C52_binary_width",
    "Cob.C52_text",
    "Cob.C52_statement",
    "Cob.C52_distinct",
    "Cob.C52_finding_cut",
    "Cob.C52_finding_comp5_point",
    "Cob.C52_finding_minus_zero"
   ],
   "note": "C52_pretty, C52_plain, C52_binary (numbers), C52_text, C52_statement, C52_distinct (the text determines the value). Findings: C52_finding_cut (value beyond the PICTURE of a binary item), C52_finding_comp5_point (no decimal point for COMP-5), C52_finding_minus_zero."
  },
  {
   "property": "C53",
   "status": "proved",
   "theorems": [
    "Cob.C53_line",
    "Cob.C53_text",
    "Cob.C53_justified",
    "Cob.C53_end",
    "Cob.C53_sequence",
    "Cob.C53_zoned",
    "Cob.C53_packed_binary",
    "Cob.C53_roundtrip",
    "Cob.C53_finding_last_line",
    "Cob.C53_finding_cut",
    "Cob.C53_finding_nul"
   ],
   "note": "C53_line, C53_text, C53_justified, C53_end, C53_sequence, C53_zoned (the characters fit the item), C53_packed_binary, C53_roundtrip. Findings: C53_finding_last_line (the last character of an unterminated last line is lost), C53_finding_cut (a line for a zoned item is cut to the item's size first, so signs and points push digits out), C53_finding_nul."
  },
  {
   "property": "C54",
   "status": "proved",
   "theorems": [
    "Cob.C54_move",
    "Cob.C54_text",
    "Cob.C54_store",
    "Cob.C54_add_sub",
    "Cob.C54_fast",
    "Cob.C54_inline"
   ],
   "note": "C54_store, C54_add_sub, C54_fast, C54_move, C54_inline, C54_text; no assumption on the contents."
  },
  {
   "property": "C55",
   "status": "proved",
   "theorems": [
    "Cob.C55_bound",
    "Cob.C55_compiled",
    "Cob.C55_paragraphs",
    "Cob.C55_section",
    "Cob.C55_once",
    "Cob.C55_times",
    "Cob.C55_times_inline",
    "Cob.C55_until_before",
    "Cob.C55_until_after",
    "Cob.C55_varying",
    "Cob.C55_varying_after",
    "Cob.C55_finding_frames_leak",
    "Cob.C55_finding_times_reentered"
   ],
   "note": "C55_compiled: simulation between the generated code (addresses, frames, counters, jumps) and a recursive interpreter, in both directions, for terminating and non-terminating programs. C55_once/_paragraphs/_section/_times/_until_before/_until_after/_varying/_varying_after say what the interpreter does in terms of executions of the bodies. The simulation excludes what has no defined effect: labels that do not exist, EXIT PERFORM outside an inline PERFORM, more than 254 active PERFORMs, a PERFORM TIMES entered while active. Findings: C55_finding_frames_leak (GO TO out of a performed range leaves its frame on the 255-entry stack, which then overflows unchecked unless compiled with the stack check), C55_finding_times_reentered."
  },
  {
   "property": "C56",
   "status": "proved",
   "theorems": [
    "Cob.C56_arithmetic",
    "Cob.C56_condition",
    "Cob.C56_no_condition",
    "Cob.C56_finding_not_zero",
    "Cob.C56_finding_parenthesized_object",
    "Cob.C56_finding_object_first",
    "Cob.C56_finding_not_not",
    "Cob.C56_finding_class_parentheses",
    "Cob.C56_accepted_typed",
    "Cob.C56_operands",
    "Cob.C56_finding_empty_parentheses"
   ],
   "note": "C56_arithmetic and C56_condition for every well-formed expression, under every interpretation of the operands. What may be written is in the spec (WF): a parenthesis does not begin with an abbreviated relation, NOT is not followed by ZERO or by a relation with its own NOT, a class test is applied to an item. Outside it: C56_finding_not_zero (B = C AND NOT ZERO = A is silently compiled as B = C AND B = A), C56_finding_parenthesized_object, C56_finding_not_not (rejected), C56_finding_class_parentheses. C56_accepted_typed: whatever is accepted is well typed, with C56_operands for what is refused; C56_finding_empty_parentheses."
  },
  {
   "property": "C57",
   "status": "proved",
   "theorems": [
    "Cob.C57_search_all",
    "Cob.C57_search_all_sound",
    "Cob.C57_search_all_bounds",
    "Cob.C57_serial",
    "Cob.C57_finding_occurs_minimum",
    "Cob.C57_finding_element_zero",
    "Cob.C57_finding_key_gap",
    "Cob.C57_finding_repeated_key",
    "Cob.C57_finding_index_key",
    "Cob.C57_finding_varying"
   ],
   "note": "C57_search_all, C57_search_all_sound, C57_search_all_bounds, C57_serial; findings C57_finding_occurs_minimum, _element_zero, _key_gap, _repeated_key, _index_key, _varying."
  },
  {
   "property": "C58",
   "status": "proved",
   "theorems": [
    "Cob.C58_numval_long",
    "Cob.C58_numval_cut",
    "Cob.C58_finding_too_many_digits",
    "Cob.C58_numval_c_credit",
    "Cob.C58_numval_any",
    "Cob.C58_numval",
    "Cob.C58_numval_credit",
    "Cob.C58_finding_credit_followed",
    "Cob.C58_finding_credit_spaces",
    "Cob.C58_finding_garbage",
    "Cob.C58_finding_late_sign",
    "Cob.C58_numval_c",
    "Cob.C58_finding_currency_digit"
   ],
   "note": "More than 18 digits give a floating-point result: only the text handed to sscanf is modelled. C locale for strcasecmp. C58_numval_c_credit: CR and DB in NUMVAL-C. C58_numval_long: 19 to 30 digits, the text handed to sscanf. C58_numval_cut / C58_finding_too_many_digits: the 31st digit is the last one looked at."
  },
  {
   "property": "C59",
   "status": "proved",
   "theorems": [
    "Cob.C59_item",
    "Cob.C59_binary",
    "Cob.C59_finding_scaled_binary",
    "Cob.C59_expression",
    "Cob.C59_finding_division",
    "Cob.C59_finding_unsigned",
    "Cob.C59_division"
   ],
   "note": "Signed overflow in intermediate results (undefined in C) is taken to wrap around. Items with a P picture are left out. Zoned items with more decimals than characters make cob_display_get_int run past the item (text-only finding). C59_division: with division, when every intermediate result fits, the value is the step by step truncated one."
  },
  {
   "property": "C60",
   "status": "proved",
   "theorems": [
    "Cob.C60_88_number",
    "Cob.C60_88_text",
    "Cob.C60_set_true_number",
    "Cob.C60_set_true_text",
    "Cob.C60_finding_set_too_long",
    "Cob.C60_finding_set_justified",
    "Cob.C60_finding_literals",
    "Cob.C60_finding_signed_literal",
    "Cob.C60_number",
    "Cob.C60_text"
   ],
   "note": "NATIONAL operands, index names, pointers and expressions as operands are not in this property (expressions: C56, C49). Exclusions follow C49's findings (P pictures, -2147483648, packed negative zero). Findings: SET TO TRUE leaves the condition false when the literal is longer than the item or the item is JUSTIFIED RIGHT; two numeric literals of the same length compare without their decimal points; the sign of a literal counts as a character against a group only if the sizes differ."
  },
  {
   "property": "C61",
   "status": "proved",
   "theorems": [
    "Cob.C61_history",
    "Cob.C61_read_back",
    "Cob.C61_scan",
    "Cob.C61_scan_open",
    "Cob.C61_unique",
    "Cob.C61_duplicates",
    "Cob.C61_finding_rewrite_unique_alternate",
    "Cob.C61_finding_rewrite_unique_undefined",
    "Cob.C61_finding_rewrite_loses_record",
    "Cob.C61_finding_number_reused",
    "Cob.C61_finding_open_then_lower",
    "Cob.C61_finding_start_le_partial",
    "Cob.C61_finding_rewrite_length",
    "Cob.C61_finding_length_left",
    "Cob.C61_finding_same_place"
   ],
   "note": "C61_history is the whole specification (exactly one answer per statement); the others are its consequences in terms of what a program does. WRITE with a length outside the record limits (44) is part of it. Excluded, and shown by the C61_finding theorems: sequential REWRITE in a file with another unique key (deletes another record or is undefined), sequential REWRITE that changes the record key to one in use (the record is lost), START <= with part of a key, keys that begin at the same place, REWRITE right after a WRITE refused for its length (C61_finding_length_left: an undersized record is stored). The position rules that the specification has to follow (number reuse after deleting the last duplicate, a lower key written after OPEN) are also shown as findings."
  },
  {
   "property": "C62",
   "status": "proved",
   "theorems": [
    "Cob.C62_layout",
    "Cob.C62_initialize",
    "Cob.C62_gets_unique",
    "Cob.C62_number_zero",
    "Cob.C62_plain",
    "Cob.C62_phrases",
    "Cob.C62_initial_values",
    "Cob.C62_finding_filler_redefines",
    "Cob.C62_finding_category_to_value",
    "Cob.C62_finding_filler_value",
    "Cob.C62_finding_longer_redefinition",
    "Cob.C62_finding_edited_zero"
   ],
   "note": "Findings: INITIALIZE ... WITH FILLER of an item with REDEFINES does nothing; category TO VALUE acts like ALL TO VALUE; FILLER with VALUE is set without WITH FILLER; bytes of a redefinition longer than the item it redefines are overwritten or not depending on the neighbours; numeric-edited VALUE ZERO is filled with '0's. The MOVE statement is a parameter constrained by IEnv.Ok (its numeric zero is C51's)."
  },
  {
   "property": "C63",
   "status": "proved",
   "theorems": [
    "Cob.C63_finding_second_not",
    "Cob.C63_finding_many_objects",
    "Cob.C63_finding_empty_before_other",
    "Cob.C63_condition_for_value",
    "Cob.C63_evaluate",
    "Cob.C63_first_match",
    "Cob.C63_chosen_unique",
    "Cob.C63_count"
   ],
   "note": "Findings: in the second and later WHENs before the same statements, a condition 'NOT a AND b' is read as NOT (a AND b) because the counter of objects is not reset per WHEN; with more than 64 objects in a case the parser reads the table entries of a nested EVALUATE; with allow-empty-imperative-statement a last empty case takes the statements of WHEN OTHER (documented extension)."
  },
  {
   "property": "C64",
   "status": "proved",
   "theorems": [
    "Cob.C64_finding_words_joined",
    "Cob.C64_finding_end_dropped",
    "Cob.C64_finding_end_of_copy",
    "Cob.C64_finding_empty_old",
    "Cob.C64_finding_empty_old_rounds",
    "Cob.C64_finding_trailing_order",
    "Cob.C64_finding_trailing_space",
    "Cob.C64_replace",
    "Cob.C64_single_words",
    "Cob.C64_off",
    "Cob.C64_unique",
    "Cob.C64_two_stages"
   ],
   "note": "Findings: after an abandoned partial match the space in front of a replaced word is swallowed, so two words are joined (MOVE B -> MOVEX); text held back as the beginning of an old text is dropped at the end of the program; at the end of a copied file a held-back word is not compared with the later pairs; an empty old text is replaced for ever; COPY REPLACING TRAILING writes past REPLACE and out of order; TRAILING with a space before the text never applies."
  },
  {
   "property": "C65",
   "status": "proved",
   "theorems": [
    "Cob.C65_finding_comment_in_literal",
    "Cob.C65_finding_quote_in_comment",
    "Cob.C65_finding_long_line",
    "Cob.C65_finding_debug_directive",
    "Cob.C65_finding_lost_lines",
    "Cob.C65_finding_format_in_false_part",
    "Cob.C65_finding_edge",
    "Cob.C65_columns",
    "Cob.C65_line_numbers",
    "Cob.C65_continued_literal",
    "Cob.C65_continued_text",
    "Cob.C65_source"
   ],
   "note": "Findings: *> inside a literal with apostrophes cuts the literal; a *> comment with a quotation mark in it is not cut and opens a literal; on a line longer than 256 characters the rest is compiled as a new line; >>D (or >>SOURCE FIXED) behind six comment lines is rejected as invalid indicator; $IF/$END lose lines from the line count; >>SOURCE FORMAT FREE takes effect inside a part not compiled; a literal ending exactly in column 72 makes an ordinary continuation an error. Not modelled but read: with about 8000 skipped lines in sequence the counted newlines overflow the scanner's buffer."
  },
  {
   "property": "C66",
   "status": "proved",
   "theorems": [
    "Cob.C66_conditional",
    "Cob.C66_finding_numeric",
    "Cob.C66_finding_no_end",
    "Cob.C66_finding_space"
   ],
   "note": "Blank lines are not compared (directives lose lines from the count, see C65). Findings: a numeric constant compares equal to nothing, so $IF N = 5 is always false and $IF N NOT = 5 always true; a $IF without $END is not reported and the rest of the program silently disappears; a text with a space cannot be compared."
  },
  {
   "property": "C67",
   "status": "proved",
   "theorems": [
    "Cob.C67_text_to_edited",
    "Cob.C67_number_to_text",
    "Cob.C67_number_to_edited",
    "Cob.C67_finding_justified"
   ],
   "note": "Pictures are the ones the compiler model of C43 produces. For senders with more decimals than digits (no PICTURE gives that) the edited MOVE is modelled but not stated. Finding: JUSTIFIED RIGHT is ignored for numeric senders."
  },
  {
   "property": "C68",
   "status": "proved",
   "theorems": [
    "Cob.C68_tabs",
    "Cob.C68_free",
    "Cob.C68_fixed_to_free",
    "Cob.C68_set_free",
    "Cob.C68_free_to_fixed",
    "Cob.C68_aster",
    "Cob.C68_fixed_to_aster",
    "Cob.C68_finding_aster_dollar",
    "Cob.C68_finding_lost_lines",
    "Cob.C68_finding_debug_word",
    "Cob.C68_finding_comment_in_literal",
    "Cob.C68_set_aster",
    "Cob.C68_set_fixed"
   ],
   "note": "Findings: with FREE_1COL_ASTER a $ directive in column 1 is not seen; the lines of a part of free format that is not compiled are not counted; any directive word that begins with D is taken for >>D; *> in an apostrophe literal cuts the literal off."
  },
  {
   "property": "C69",
   "status": "proved",
   "theorems": [
    "Cob.C69_text",
    "Cob.C69_text_only",
    "Cob.C69_hex",
    "Cob.C69_hex_number",
    "Cob.C69_number",
    "Cob.C69_number_error",
    "Cob.C69_c_string",
    "Cob.C69_concat",
    "Cob.C69_finding_high_value",
    "Cob.C69_picture",
    "Cob.C69_finding_hex_blank",
    "Cob.C69_finding_hex_number",
    "Cob.C69_finding_scale",
    "Cob.C69_finding_constants_again"
   ],
   "note": "Findings: HIGH-VALUE in a concatenation is X\"AD\" (an octal escape was meant to be decimal); an X literal silently ends at a blank; H literals from 2^63 on give a minus sign as a digit or lose digits; 128 decimals wrap the scale; replaced constants are scanned again for later constants."
  },
  {
   "property": "C70",
   "status": "proved",
   "theorems": [
    "Cob.C70_level",
    "Cob.C70_accepted",
    "Cob.C70_hierarchy",
    "Cob.C70_after_constant",
    "Cob.C70_relaxed_same",
    "Cob.C70_finding_relaxed_crash",
    "Cob.C70_relaxed_filler"
   ],
   "note": "Finding: with relax-level-hierarchy (bs2000, ibm, mf, mvs) an item of level 02-49 after a 77 item with a condition name makes the compiler follow a null pointer."
  },
  {
   "property": "C71",
   "status": "proved",
   "theorems": [
    "Cob.C71_finding_not_containing",
    "Cob.C71_finding_label_file",
    "Cob.C71_finding_global_file",
    "Cob.C71_finding_number_label",
    "Cob.C71_same_name",
    "Cob.C71_unique",
    "Cob.C71_ambiguous",
    "Cob.C71_undefined",
    "Cob.C71_own_section",
    "Cob.C71_own_section_twice",
    "Cob.C71_global",
    "Cob.C71_word_table"
   ],
   "note": "Findings: GLOBAL items of a program that does not contain the reference (an earlier sibling of a containing one) are found before those of containing programs further out; paragraphs and files of outer programs are found although not GLOBAL; an item of a GLOBAL record cannot be qualified by its file in a contained program; the qualifier of a numeric paragraph name (100 OF 20) is dropped."
  },
  {
   "property": "C72",
   "status": "proved",
   "theorems": [
    "Cob.C72_finding_duplicate",
    "Cob.C72_finding_case",
    "Cob.C72_move_pairs",
    "Cob.C72_add_pairs",
    "Cob.C72_not_group",
    "Cob.C72_move_order",
    "Cob.C72_add_order",
    "Cob.C72_move_effect",
    "Cob.C72_add_effect"
   ],
   "note": "Findings: two items of one name in a group give two statements for one target (or one source) without a diagnostic; names are compared with regard to case, so that groups of two programs with differently spelled names do not correspond. ADD and SUBTRACT CORRESPONDING take pairs of any class, not only numeric ones (no check in cb_emit_corresponding)."
  },
  {
   "property": "C73",
   "status": "proved",
   "theorems": [
    "Cob.C73_move",
    "Cob.C73_edited",
    "Cob.C73_all",
    "Cob.C73_size",
    "Cob.C73_faithful",
    "Cob.C73_finding_packed",
    "Cob.C73_finding_sign",
    "Cob.C73_finding_low",
    "Cob.C73_high_values",
    "Cob.C73_fill",
    "Cob.C73_low_first",
    "Cob.C73_all_low",
    "Cob.C73_function"
   ],
   "note": "SJIS build. Findings: MOVE of a COMP-3 item to a NATIONAL item converts the packed bytes before they are unpacked (123 becomes 814); the sign of a zoned item arrives as a letter; an item beginning with LOW-VALUE is moved unconverted, and FUNCTION NATIONAL drops its last character; a first half of a two-byte character at the end of the item takes the byte behind the item as its second half (in the model: the parameter after)."
  },
  {
   "property": "C74",
   "status": "proved",
   "theorems": [
    "Cob.C74_global_files",
    "Cob.C74_use_global",
    "Cob.C74_finding_lost",
    "Cob.C74_finding_beside",
    "Cob.C74_finding_hidden",
    "Cob.C74_own_file",
    "Cob.C74_local_procedure",
    "Cob.C74_mode",
    "Cob.C74_no_procedure",
    "Cob.C74_mode_global",
    "Cob.C74_mode_none",
    "Cob.C74_finding_mode",
    "Cob.C74_file_statement",
    "Cob.C74_exactly_one",
    "Cob.C74_other_statement",
    "Cob.C74_finding_other_class"
   ],
   "note": "USE GLOBAL for GLOBAL files is proved as the code does it (C74_global_files: exact for every nest), which agrees with the standard for one such statement (C74_use_global). Findings: with two USE GLOBAL files the in-place reversal of the shared list loses all but the first in every program but the last (C74_finding_lost); USE GLOBAL procedures for files and for modes are taken from programs that do not contain the program (C74_finding_beside, C74_finding_mode); a file of a nested program named like a GLOBAL file of the outer program gets the outer procedure (C74_finding_hidden); an exception of another class executes NOT ON SIZE ERROR only if ON SIZE ERROR is there too (C74_finding_other_class)."
  },
  {
   "property": "C75",
   "status": "proved",
   "theorems": [
    "Cob.C75_item",
    "Cob.C75_item_kept",
    "Cob.C75_refused",
    "Cob.C75_text",
    "Cob.C75_alphabetic",
    "Cob.C75_finding_plus",
    "Cob.C75_finding_point",
    "Cob.C75_finding_least",
    "Cob.C75_finding_picture",
    "Cob.C75_finding_scaled",
    "Cob.C75_finding_national",
    "Cob.C75_finding_national_edited",
    "Cob.C75_number_kept",
    "Cob.C75_binary",
    "Cob.C75_number",
    "Cob.C75_figurative",
    "Cob.C75_number_for_text",
    "Cob.C75_text_for_number",
    "Cob.C75_edited",
    "Cob.C75_crossing"
   ],
   "note": "C75_number_kept and C75_item_kept join the check with the run time MOVE (C17, C51). Findings: a plus sign is treated as a negative sign (C75_finding_plus); the decimal point of a literal is ignored for binary items (C75_finding_point); -2^63 is refused for eight bytes (C75_finding_least); the picture of a COMP item does not limit its VALUE (C75_finding_picture); items with P are not checked for lost figures (C75_finding_scaled); an alphanumeric item to a national one is measured in bytes (C75_finding_national); a NATIONAL EDITED receiver counts as having no places (C75_finding_national_edited). C75_figurative, C75_number_for_text, C75_text_for_number, C75_edited, C75_crossing cover the other combinations."
  },
  {
   "property": "C76",
   "status": "proved",
   "theorems": [
    "Cob.C76_using_giving",
    "Cob.C76_procedure_giving",
    "Cob.C76_using_procedure",
    "Cob.C76_finding_same_file",
    "Cob.C76_finding_depending",
    "Cob.C76_finding_missing",
    "Cob.C76_finding_short_record"
   ],
   "note": "Built on C37 (sequential files), C38 (line sequential files) and C40 (the sorter). Findings: with SORT S USING F GIVING F and variable records all records get the length of the one read last (C76_finding_same_file); RECORD DEPENDING ON of a GIVING file is not set, so records are cut or all lost without a message (C76_finding_depending); a USING file that is missing counts as empty even if not OPTIONAL (C76_finding_missing); a short last record is completed with bytes of the record before (C76_finding_short_record)."
  },
  {
   "property": "C77",
   "status": "proved",
   "theorems": [
    "Cob.C77_variable",
    "Cob.C77_long_name",
    "Cob.C77_chosen_variable",
    "Cob.C77_set_then_accept",
    "Cob.C77_raised",
    "Cob.C77_arguments",
    "Cob.C77_argument_count",
    "Cob.C77_choose_argument",
    "Cob.C77_command_line",
    "Cob.C77_long_command_line",
    "Cob.C77_chaining",
    "Cob.C77_finding_long_name",
    "Cob.C77_finding_negative",
    "Cob.C77_finding_equal_sign"
   ],
   "note": "Proved for histories of any length. Findings proved: SET ENVIRONMENT with a name of 1024 or more bytes assigns the value to the name chosen before (C77_finding_long_name); DISPLAY -1 UPON ARGUMENT-NUMBER chooses argument 1 (C77_finding_negative); ACCEPT FROM ENVIRONMENT \"A=B\" reads the end of A's value (C77_finding_equal_sign)."
  },
  {
   "property": "C78",
   "status": "proved",
   "theorems": [
    "Cob.C78_word",
    "Cob.C78_word_quoted",
    "Cob.C78_logical",
    "Cob.C78_coded",
    "Cob.C78_path",
    "Cob.C78_delete_same",
    "Cob.C78_file_path",
    "Cob.C78_assign_mf",
    "Cob.C78_assign_ibm",
    "Cob.C78_assign_jph1",
    "Cob.C78_finding_file_id",
    "Cob.C78_finding_hyphen"
   ],
   "note": "Findings proved: VALUE OF FILE-ID never has an effect (C78_finding_file_id, for every SELECT entry); after $ a hyphen ends the variable's name because the inner loop tests the wrong character (C78_finding_hyphen)."
  },
  {
   "property": "C79",
   "status": "proved",
   "theorems": [
    "Cob.Args.C79_small_literal",
    "Cob.Args.C79_large_literal",
    "Cob.Args.C79_text_literal",
    "Cob.Args.C79_value",
    "Cob.Args.C79_value_literal",
    "Cob.Args.C79_parameters",
    "Cob.Args.C79_entries",
    "Cob.Args.C79_sticky",
    "Cob.Args.C79_any_length",
    "Cob.Args.C79_finding_auto_sign",
    "Cob.Args.C79_finding_scaled",
    "Cob.Args.C79_finding_wide_literal",
    "Cob.Args.C79_finding_sticky_entry",
    "Cob.Args.C79_untouched",
    "Cob.Args.C79_reference",
    "Cob.Args.C79_stores",
    "Cob.Args.C79_content",
    "Cob.Args.C79_content_private",
    "Cob.Args.C79_text_reference",
    "Cob.Args.C79_function",
    "Cob.Args.C79_value_auto",
    "Cob.Args.C79_finding_auto_unsigned"
   ],
   "note": "Findings proved: SIZE AUTO casts signed items to unsigned (-1 in PIC S9(4) COMP-5 arrives as 65535) and unsigned ones to signed (200 in one byte arrives as -56); binary items with decimals are passed by their digits, zoned ones by their whole part; a short literal read through eight bytes has four undefined bytes; under sticky-linkage an ENTRY with its own USING list gets a saved address instead of the argument of the call."
  },
  {
   "property": "C80",
   "status": "proved",
   "theorems": [
    "Cob.Arith.C80_statement",
    "Cob.Arith.C80_zero_divide",
    "Cob.Arith.C80_operand_read_again",
    "Cob.Arith.C80_native_wraps",
    "Cob.Arith.C80_native_digits"
   ],
   "note": "C80_statement is one theorem over all formats; ADD/SUBTRACT with one operand needs that operand not to be an earlier receiver (finding C80_operand_read_again) and, where the specialised integer routines are used, an operand they can take (SmallFor; see C11, C50). Further findings: C80_native_wraps, C80_native_digits."
  },
  {
   "property": "C81",
   "status": "proved",
   "theorems": [
    "Cob.Life.C81_storage",
    "Cob.Life.C81_module",
    "Cob.Life.C81_call_returns",
    "Cob.Life.C81_finding_recursion",
    "Cob.Life.C81_finding_main",
    "Cob.Life.C81_finding_return_code",
    "Cob.Life.C81_finding_initial_file",
    "Cob.Life.C81_finding_active"
   ],
   "note": "C81_storage (simulation with an ideal machine, recursion allowed), C81_module (module stack, without recursion), C81_call_returns (one call as the caller sees it). Findings: after a recursive call the runtime takes the wrong program for the running one; EXIT PROGRAM ends the run after the main program was called back; RETURN-CODE of an earlier call is returned again; files left open by an INITIAL program are never closed; CANCEL of an active program is carried out."
  },
  {
   "property": "C82",
   "status": "proved",
   "theorems": [
    "Cob.Cbl.C82_history",
    "Cob.Cbl.C82_read_back",
    "Cob.Cbl.C82_write_only",
    "Cob.Cbl.C82_name",
    "Cob.Cbl.C82_finding_quoted",
    "Cob.Cbl.C82_finding_short_write",
    "Cob.Cbl.C82_finding_short_copy",
    "Cob.Cbl.C82_finding_short_copy_long",
    "Cob.Cbl.C82_finding_copy_self",
    "Cob.Cbl.C82_finding_open_empties",
    "Cob.Cbl.C82_finding_short_read"
   ],
   "note": "C82_history: a simulation for all histories against a machine that only knows the writes (Rt/CblFileSpec.lean); C82_read_back, C82_write_only and C82_name say the main parts directly about the routines. Findings proved: names in quotation marks are cut at the mark although there is code for them; a WRITE or COPY of which the operating system takes only part returns 0; COPY of a file to itself empties it and returns 0; OPEN with access 2 empties the file; a READ that gets less than asked for returns 0 without saying how much."
  },
  {
   "property": "C83",
   "status": "proved",
   "theorems": [
    "Cob.Clock.C83_clock",
    "Cob.Clock.C83_cob_date",
    "Cob.Clock.C83_cob_date_refused",
    "Cob.Clock.C83_receiver",
    "Cob.Clock.C83_finding_not_a_date",
    "Cob.Clock.C83_finding_first_day",
    "Cob.Clock.C83_finding_year_10000",
    "Cob.Clock.C83_finding_midnight",
    "Cob.Clock.C83_finding_rest_ignored"
   ],
   "note": "C83_clock and C83_cob_date for all histories; C83_cob_date_refused; C83_receiver with the MOVE of C47; fixedZone_ok shows that the assumptions on the C library can be met. Findings proved: 2020/02/30 is taken as March 1; 1970/01/01 is refused east of Greenwich; from year 10000 on the result is not determined; DATE followed by TIME around midnight gives an instant a day off; text behind the date is ignored."
  },
  {
   "property": "C84",
   "status": "proved",
   "theorems": [
    "Cob.Window.C84_date",
    "Cob.Window.C84_day",
    "Cob.Window.C84_accept",
    "Cob.Window.C84_finding_negative",
    "Cob.Window.C84_finding_month"
   ],
   "note": "The functions and their windows are C29; here they are composed with the clock of C83. Findings proved: small negative arguments are taken; month and day are not looked at. (Dates of eight digits: C29_finding_date.)"
  },
  {
   "property": "C85",
   "status": "proved",
   "theorems": [
    "Cob.Window.C85_seconds",
    "Cob.Window.C85_invalid",
    "Cob.Window.C85_finding_no_range",
    "Cob.Window.C85_finding_upper_case"
   ],
   "note": "C85_seconds and C85_invalid together determine the result for every pair. Findings proved: 99:99:99 is taken; upper case letters are not recognised."
  },
  {
   "property": "C86",
   "status": "proved",
   "theorems": [
    "Cob.Words.C86_one_entry",
    "Cob.Words.C86_function",
    "Cob.Words.C86_reserved",
    "Cob.Words.C86_unsupported",
    "Cob.Words.C86_constant",
    "Cob.Words.C86_user",
    "Cob.Words.C86_case",
    "Cob.Words.C86_finding_unsupported_defined",
    "Cob.Words.C86_finding_length",
    "Cob.Words.C86_finding_alias",
    "Cob.Words.C86_finding_program_name"
   ],
   "note": "The tables are generated from the source, entry by entry, and proved to be in the order the search needs. Findings: a reserved word that is not supported is reported and then still taken for a user word; LENGTH is no longer reserved in the PROCEDURE DIVISION under FUNCTION ALL INTRINSIC; a class called RETURN-CODE is not found under PROGRAM-STATUS; a program cannot be called like a constant."
  },
  {
   "property": "C87",
   "status": "proved",
   "theorems": [
    "Cob.Conf.C87_load",
    "Cob.Conf.C87_accepted",
    "Cob.Conf.C87_message",
    "Cob.Conf.C87_finding_empty_number",
    "Cob.Conf.C87_finding_number_cut",
    "Cob.Conf.C87_finding_comment",
    "Cob.Conf.C87_finding_indented",
    "Cob.Conf.C87_finding_long_comment",
    "Cob.Conf.C87_finding_includes_itself"
   ],
   "note": "Findings: a number without digits is accepted as 0 (tab-width: makes the compiler divide by zero at a tab); numbers of more than 32 bits are accepted and changed; a comment behind a value is part of the value; a tag behind a blank is not found; what stands behind 1023 bytes of a line is a line of its own; a file that includes itself is read until no more files can be opened."
  },
  {
   "property": "C88",
   "status": "proved",
   "theorems": [
    "Cob.Small.C88_text",
    "Cob.Small.C88_justify",
    "Cob.Small.C88_toupper",
    "Cob.Small.C88_tolower",
    "Cob.Small.C88_narg",
    "Cob.Small.C88_paramsize",
    "Cob.Small.C88_fresh",
    "Cob.Small.C88_paramsize_main",
    "Cob.Small.C88_calledby",
    "Cob.Small.C88_finding_narg_stale",
    "Cob.Small.C88_finding_paramsize_stale",
    "Cob.Small.C88_finding_calledby_rest",
    "Cob.Small.C88_finding_calledby_name",
    "Cob.Small.C88_finding_sjis",
    "Cob.Small.C88_finding_small_letter"
   ],
   "note": "Findings: the number of arguments is not restored when a called program returns, so C$NARG and C$PARAMSIZE are wrong afterwards, and C$PARAMSIZE can give sizes of arguments of an earlier call; C$CALLEDBY leaves old bytes behind the name and gives the name of the C function (MY-PROG is MY__PROG); CBL_TOUPPER changes second bytes of Shift-JIS characters; small letters for the direction of C$JUSTIFY mean right."
  },
  {
   "property": "C89",
   "status": "proved",
   "theorems": [
    "Cob.Stat.C89_variance",
    "Cob.Stat.C89_finding_variance_overflow",
    "Cob.Stat.C89_random",
    "Cob.Stat.C89_random_seed",
    "Cob.Stat.C89_finding_random_gap",
    "Cob.Stat.C89_stored_char_length"
   ],
   "note": "Findings: a variance beyond 64 bits sets the size exception but the result given back is its low 64 bits; RANDOM never gives a number between 0 and 0.1, whatever the generator."
  },
  {
   "property": "C90",
   "status": "proved",
   "theorems": [
    "Cob.Exc.C90_status",
    "Cob.Exc.C90_at_fault",
    "Cob.Exc.C90_statement",
    "Cob.Exc.C90_location",
    "Cob.Exc.C90_file",
    "Cob.Exc.C90_object",
    "Cob.Exc.C90_finding_file",
    "Cob.Exc.C90_finding_eop",
    "Cob.Exc.C90_finding_same_line",
    "Cob.Exc.C90_finding_line_numbers",
    "Cob.Exc.C90_finding_cleared"
   ],
   "note": "Findings: EXCEPTION-FILE names a file after exceptions that have nothing to do with files (EC-RANGE, EC-LOCALE, EC-SCREEN, EC-FUNCTION); end-of-page leaves statement and location of an older exception; of two statements on a line (or on lines of the same number in different files) only the first says where it is; the location stays when the exception is cleared."
  },
  {
   "property": "C91",
   "status": "proved",
   "theorems": [
    "Cob.Lock.C91_exclusive",
    "Cob.Lock.C91_kept",
    "Cob.Lock.C91_after",
    "Cob.Lock.C91_status",
    "Cob.Lock.C91_refused",
    "Cob.Lock.C91_granted",
    "Cob.Lock.C91_files",
    "Cob.Lock.C91_open",
    "Cob.Lock.C91_finding_rewrite_gives_up",
    "Cob.Lock.C91_finding_changed_while_locked",
    "Cob.Lock.C91_finding_test_refuses",
    "Cob.Lock.C91_finding_write_lock",
    "Cob.Lock.C91_finding_unlock_file",
    "Cob.Lock.C91_finding_same_process",
    "Cob.Lock.C91_finding_ignore_lock"
   ],
   "note": "Findings: REWRITE gives up the connector's lock before it tests it, so that the process that locked the record can lose it to another and get status 51; REWRITE gives the test lock back before it changes the record, so that a record is changed while another process has it locked; READ without lock can make READ without lock elsewhere fail with 51; WRITE WITH LOCK can end with 51 with the record written; UNLOCK gives up the lock of the file, which another process can then open OUTPUT; within a process files are not protected; IGNORE LOCK with LOCK MODE AUTOMATIC does not ignore the lock."
  },
  {
   "property": "C92",
   "status": "proved",
   "theorems": [
    "Cob.FLock.C92_kept",
    "Cob.FLock.C92_together",
    "Cob.FLock.C92_open",
    "Cob.FLock.C92_contents",
    "Cob.FLock.C92_all_written",
    "Cob.FLock.C92_status",
    "Cob.FLock.C92_device",
    "Cob.FLock.C92_finding_emptied",
    "Cob.FLock.C92_finding_close",
    "Cob.FLock.C92_finding_close_reader",
    "Cob.FLock.C92_finding_input_alone",
    "Cob.FLock.C92_finding_second_connector",
    "Cob.FLock.C92_finding_second_close",
    "Cob.FLock.C92_finding_refused_open",
    "Cob.FLock.C92_finding_unlock",
    "Cob.FLock.C92_finding_lock_mode"
   ],
   "note": "Findings: OPEN OUTPUT that is refused with status 61 has emptied the file of the process that has it open; CLOSE gives up the lock before the buffer is written, so that another process can open the file before the records are in it, or gets them into its own new file; OPEN INPUT SHARING WITH NO OTHER always fails with status 30; a second connector of the same process for the file weakens its lock on OPEN INPUT and loses it on CLOSE, even on a refused OPEN; UNLOCK gives up the lock of the whole file; LOCK MODE EXCLUSIVE has no effect on OPEN."
  },
  {
   "property": "C93",
   "status": "proved",
   "theorems": [
    "Cob.Alpha.C93_sequence",
    "Cob.Alpha.C93_low",
    "Cob.Alpha.C93_high",
    "Cob.Alpha.C93_class",
    "Cob.Alpha.C93_finding_downward",
    "Cob.Alpha.C93_finding_downward_rest",
    "Cob.Alpha.C93_finding_class_range",
    "Cob.Alpha.C93_accepted"
   ],
   "note": "Findings: a THRU that goes down (\"Z\" THRU \"A\") is accepted but its characters get no place in the list, and LOW-VALUE becomes its first character, which is not the lowest; a CLASS range from a number to the text of the very next character (65 THRU \"A\") is empty. LOW-VALUE and HIGH-VALUE in a CLASS clause read a structure of another kind and are left out."
  },
  {
   "property": "C94",
   "status": "proved",
   "theorems": [
    "Cob.TabSort.C94_sorted",
    "Cob.TabSort.C94_unique",
    "Cob.TabSort.C94_finding_duplicates",
    "Cob.TabSort.C94_finding_offset",
    "Cob.TabSort.C94_finding_native"
   ],
   "note": "Findings: the place of a key is counted from the start of the record, so that a table which does not begin its record is sorted by other bytes (proved: '-A2B1' becomes '-B1A2' when sorted by the letter); WITH DUPLICATES IN ORDER has no effect; COLLATING SEQUENCE IS NATIVE has no effect in a program with its own collating sequence."
  },
  {
   "property": "C95",
   "status": "proved",
   "theorems": [
    "Cob.Redef.C95_accepted",
    "Cob.Redef.C95_place",
    "Cob.Redef.C95_layout",
    "Cob.Redef.C95_finding_self",
    "Cob.Redef.C95_finding_loop"
   ],
   "note": "Findings: an entry that names itself (05 B REDEFINES B) is accepted as the last entry of its group and is stored at offset 0 of the record, over other items; with indirect-redefines an entry that redefines such an entry makes the compiler loop for ever."
  },
  {
   "property": "C96",
   "status": "proved",
   "theorems": [
    "Cob.Renames.C96_accepted",
    "Cob.Renames.C96_one",
    "Cob.Renames.C96_range",
    "Cob.Renames.C96_value",
    "Cob.Renames.C96_finding_backwards",
    "Cob.Renames.C96_finding_occurs",
    "Cob.Renames.C96_finding_other_record",
    "Cob.Renames.C96_finding_usage",
    "Cob.Renames.C96_finding_separate"
   ],
   "note": "The value part is proved under the condition that USAGE and SIGN are those of the 01 entry; otherwise it is false (findings)."
  },
  {
   "property": "C97",
   "status": "proved",
   "theorems": [
    "Cob.Switch.C97_names",
    "Cob.Switch.C97_other_names",
    "Cob.Switch.C97_accepted",
    "Cob.Switch.C97_condition",
    "Cob.Switch.C97_get",
    "Cob.Switch.C97_finding_device",
    "Cob.Switch.C97_finding_outside",
    "Cob.Switch.C97_finding_crash"
   ],
   "note": ""
  },
  {
   "property": "C98",
   "status": "proved",
   "theorems": [
    "Cob.Odo.C98_layout",
    "Cob.Odo.C98_accepted",
    "Cob.Odo.C98_cover",
    "Cob.Odo.C98_complex_size",
    "Cob.Odo.C98_finding_counter",
    "Cob.Odo.C98_finding_complex_address",
    "Cob.Odo.C98_finding_complex_table",
    "Cob.Odo.C98_finding_complex_redefines"
   ],
   "note": "complex-odo: yes is modelled for groups of elementary items and only has findings."
  },
  {
   "property": "C99",
   "status": "proved",
   "theorems": [
    "Cob.StopRun.C99_stop_run",
    "Cob.StopRun.C99_again"
   ],
   "note": "Files assigned to the keyboard or display are left alone."
  },
  {
   "property": "C100",
   "status": "proved",
   "theorems": [
    "Cob.Commit.C100_commit",
    "Cob.Commit.C100_unlock",
    "Cob.Commit.C100_system",
    "Cob.Commit.C100_finding_rollback",
    "Cob.Commit.C100_finding_missing",
    "Cob.Commit.C100_finding_unprotected"
   ],
   "note": "Files that are not INDEXED."
  }
 ]
}