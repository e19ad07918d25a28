{"id": "C01", "title": "Zoned DISPLAY store/load round trip", "statement": "Storing a computed decimal into a zoned DISPLAY item (signed or unsigned, sign combined/separate, leading/trailing) and then using that item as an operand yields the same value whenever its magnitude fits in the item's digits; when it does not fit and no SIZE ERROR handling is requested, the item holds the low-order digits with the sign of the value.", "quantifier": "every value, every field length, every sign representation", "why_tests_cant": "values and picture sizes are unbounded combinations", "anchors": ["libcob/numeric.c: cob_decimal_set_display, cob_decimal_get_display", "libcob/common.c: cob_real_get_sign, cob_real_put_sign"]}
{"id": "C02", "title": "PACKED-DECIMAL store/load round trip", "statement": "Storing a decimal in a COMP-3 item and reading it back gives the value (low-order digits on truncation), the sign nibble is D for negative, C for positive signed, F for unsigned, and an unused high nibble is zero for even digit counts.", "quantifier": "every value, every digit count, signed and unsigned", "why_tests_cant": "the digit count and value space is unbounded", "anchors": ["libcob/numeric.c: cob_decimal_set_packed, cob_decimal_get_packed, cob_set_packed_zero"]}
{"id": "C03", "title": "Binary store/load round trip", "statement": "Writing an integer into a COMP/COMP-5 item of 1..8 bytes (native or big-endian storage) and reading it back yields the integer reduced to the item's bit width and signedness; byte order does not affect the value.", "quantifier": "every integer, every size 1..8, both byte orders, signed/unsigned", "why_tests_cant": "2^64 values times layouts", "anchors": ["libcob/numeric.c: cob_binary_get_int64, cob_binary_get_uint64, cob_binary_set_int64", "libcob/move.c: cob_binary_mget_int64, cob_binary_mset_int64"]}
{"id": "C04", "title": "SIZE ERROR leaves the receiving item unchanged", "statement": "When ON SIZE ERROR handling is requested and the (rounded) result of an arithmetic statement does not fit the receiving DISPLAY, PACKED or BINARY item, the item keeps its old contents and the size-error condition is raised; when it fits, no condition is raised and the item holds exactly the result.", "quantifier": "every result value, every receiver format and size, every previous content", "why_tests_cant": "values and formats are unbounded", "anchors": ["libcob/numeric.c: cob_decimal_get_field, cob_decimal_get_display, cob_decimal_get_packed, cob_decimal_get_binary"]}
{"id": "C05", "title": "ROUNDED is nearest, half away from zero; unrounded truncates toward zero", "statement": "With ROUNDED the stored value is the multiple of the receiver's unit nearest to the exact result, ties away from zero; without ROUNDED it is the exact result truncated toward zero.", "quantifier": "every exact decimal result and every receiver scale", "why_tests_cant": "the set of decimals and scales is infinite", "anchors": ["libcob/numeric.c: cob_decimal_get_field, shift_decimal"]}
{"id": "C06", "title": "ADD, SUBTRACT and MULTIPLY are exact", "statement": "The intermediate result of adding, subtracting or multiplying two decimals is the exact mathematical result irrespective of the scales of the operands.", "quantifier": "every pair of values and scales", "why_tests_cant": "infinite operand space", "anchors": ["libcob/numeric.c: cob_decimal_add, cob_decimal_sub, cob_decimal_mul, align_decimal, shift_decimal"]}
{"id": "C07", "title": "DIVIDE is correct to at least 37 decimal places; division by zero raises SIZE ERROR", "statement": "The intermediate quotient is the exact quotient truncated toward zero at some scale of at least 37 decimals more than the operands need; dividing by zero never yields a value and raises the zero-divide size condition; a zero dividend yields zero.", "quantifier": "every dividend, divisor and scale", "why_tests_cant": "infinite operand space", "anchors": ["libcob/numeric.c: cob_decimal_div"]}
{"id": "C08", "title": "DIVIDE ... REMAINDER", "statement": "After DIVIDE A BY B GIVING Q REMAINDER R, the remainder equals A minus the stored (truncated, not rounded) quotient times B, exactly.", "quantifier": "every dividend, nonzero divisor, and quotient scale", "why_tests_cant": "infinite operand space", "anchors": ["libcob/numeric.c: cob_div_quotient, cob_div_remainder"]}
{"id": "C09", "title": "Numeric comparison compares mathematical values", "statement": "Comparing two numeric items gives the order of their mathematical values; it is reflexive, antisymmetric, transitive and independent of representation (scale, leading zeros).", "quantifier": "every pair/triple of decimals", "why_tests_cant": "infinite operand space", "anchors": ["libcob/numeric.c: cob_decimal_cmp, cob_numeric_cmp, align_decimal"]}
{"id": "C10", "title": "ADD/SUBTRACT of an integer to a DISPLAY item (fast path)", "statement": "Adding an integer to an integer zoned item in place yields exactly the sum when it fits; on overflow with size checking the item is left unchanged and the overflow is reported.", "quantifier": "every stored digit string, every field length, every integer increment", "why_tests_cant": "digit strings of any length", "anchors": ["libcob/numeric.c: display_add_int, display_sub_int, cob_display_add_int"]}
{"id": "C11", "title": "ADD/SUBTRACT of an integer to a PACKED item (fast path)", "statement": "Adding an integer to a COMP-3 item in place yields exactly the sum when the sum fits in the item.", "quantifier": "every packed item, every integer", "why_tests_cant": "digit strings of any length", "anchors": ["libcob/numeric.c: cob_add_packed, cob_complement_packed"]}
{"id": "C12", "title": "Packed comparison fast path agrees with general comparison", "statement": "Comparing a COMP-3 item with an integer by the optimized routine gives the same order as comparing the item's value.", "quantifier": "every packed item and integer, every history of earlier comparisons", "why_tests_cant": "history dependence: the routine caches the last integer", "anchors": ["libcob/numeric.c: cob_cmp_packed"]}
{"id": "C13", "title": "Numeric MOVE aligns decimal points", "statement": "Moving digits from a zoned item to another zoned item aligns the decimal points: every receiving digit position equals the sending digit with the same weight, zero where the sender has none; high- and low-order excess digits are dropped.", "quantifier": "all sender/receiver lengths and scales (including negative and larger-than-size scales) and all digit strings", "why_tests_cant": "combinatorial in lengths and scales", "anchors": ["libcob/move.c: store_common_region, cob_move_display_to_display, cob_move_alphanum_to_display"]}
{"id": "C14", "title": "Alphanumeric MOVE pads and truncates", "statement": "Moving text to an alphanumeric item copies from the left, space-pads on the right and truncates on the right; with JUSTIFIED RIGHT it does so on the left. The receiver never changes length.", "quantifier": "every source string and receiver size", "why_tests_cant": "unbounded strings", "anchors": ["libcob/move.c: cob_move_alphanum_to_alphanum"]}
{"id": "C15", "title": "MOVE ALL literal fills cyclically", "statement": "MOVE ALL literal (or a figurative constant) makes byte i of the receiver equal byte i modulo the literal length.", "quantifier": "every literal and receiver size", "why_tests_cant": "unbounded sizes", "anchors": ["libcob/move.c: cob_move_all, cob_move_fp_to_fp"]}
{"id": "C16", "title": "Editing MOVE renders the value", "statement": "Moving a numeric item of any usage to a numeric-edited item leaves exactly the text the PICTURE prescribes for its value: every position shows the digit of its weight, zeros before the first significant digit are replaced by blanks or asterisks, insertion characters, a floating or fixed sign and currency symbol, CR/DB, BLANK WHEN ZERO as written. No byte outside the item is written, whatever the digits. Moving the text back to a numeric item of the same decimal places recovers the value.", "quantifier": "every value, every sender (display, packed, binary), every PICTURE of the symbols 9 Z * 0 / B . , + - currency CR DB in legal order, both decimal points", "why_tests_cant": "unbounded pictures and values; the position of every character depends on every earlier digit", "anchors": ["libcob/move.c: cob_move_display_to_edited, cob_move_edited_to_display"]}
{"id": "C17", "title": "Packed <-> zoned MOVE preserves the value", "statement": "Moving zoned to packed and packed to zoned preserves the value modulo the receiver's digits with decimal-point alignment.", "quantifier": "all digit strings, lengths and scales", "why_tests_cant": "unbounded", "anchors": ["libcob/move.c: cob_move_display_to_packed, cob_move_packed_to_display"]}
{"id": "C18", "title": "INSPECT TALLYING ALL/LEADING/CHARACTERS counts", "statement": "INSPECT TALLYING adds to the counter the number of non-overlapping left-to-right occurrences (ALL), of contiguous leading occurrences (LEADING) or of unclaimed characters (CHARACTERS) inside the BEFORE/AFTER region and never changes the inspected item.", "quantifier": "all subject strings, patterns, regions", "why_tests_cant": "unbounded strings", "anchors": ["libcob/strings.c: cob_inspect_init, inspect_common, cob_inspect_characters, cob_inspect_finish"]}
{"id": "C19", "title": "INSPECT REPLACING", "statement": "INSPECT REPLACING preserves the length of the item, changes only positions matched inside the region, each position is replaced at most once (earlier phrases win), and ALL replaces exactly the greedy left-to-right non-overlapping occurrences.", "quantifier": "all subject strings, patterns, replacement strings, regions and sequences of phrases", "why_tests_cant": "unbounded strings and phrase sequences", "anchors": ["libcob/strings.c: inspect_common, cob_inspect_before, cob_inspect_after, cob_inspect_finish"]}
{"id": "C20", "title": "INSPECT CONVERTING", "statement": "INSPECT CONVERTING maps every character of the region that occurs in the FROM list to the TO character at its first position, exactly once, and leaves all others unchanged.", "quantifier": "all strings and conversion tables", "why_tests_cant": "unbounded strings", "anchors": ["libcob/strings.c: cob_inspect_converting"]}
{"id": "C21", "title": "STRING statement", "statement": "STRING writes into the receiver, from the pointer, the longest prefix of the concatenation of the delimited sources that fits; all other receiver bytes are unchanged; the pointer ends one past the last byte written; overflow is raised exactly when something did not fit or the pointer was out of range.", "quantifier": "all lists of sources, delimiters, receivers and pointers", "why_tests_cant": "unbounded lists and strings", "anchors": ["libcob/strings.c: cob_string_init, cob_string_delimited, cob_string_append, cob_string_finish"]}
{"id": "C22", "title": "UNSTRING statement", "statement": "UNSTRING splits the source from the pointer: each receiving item gets the bytes up to the next delimiter, consecutive delimiters collapse with ALL, the COUNT is the length of the piece, the pointer ends just past the last delimiter consumed, and overflow is raised exactly when source remains.", "quantifier": "all sources, delimiter lists, numbers of receivers", "why_tests_cant": "unbounded strings and lists", "anchors": ["libcob/strings.c: cob_unstring_init, cob_unstring_delimited, cob_unstring_into, cob_unstring_finish"]}
{"id": "C23", "title": "Alphanumeric comparison is space-padded lexicographic order", "statement": "Comparing alphanumeric items equals comparing the space-extended byte strings in the active collating sequence; it is a total preorder.", "quantifier": "all strings, all collating tables", "why_tests_cant": "unbounded strings", "anchors": ["libcob/common.c: common_cmpc, common_cmps, cob_cmp_all, cob_cmp_simple_str, cob_cmp_alnum"]}
{"id": "C24", "title": "Class conditions", "statement": "IS NUMERIC / ALPHABETIC / ALPHABETIC-UPPER / ALPHABETIC-LOWER hold exactly when every character is in the class (with a valid operational sign for signed numeric items) and do not modify the item.", "quantifier": "all field contents", "why_tests_cant": "unbounded contents", "anchors": ["libcob/common.c: cob_is_numeric, cob_is_alpha, cob_is_upper, cob_is_lower"]}
{"id": "C25", "title": "SORT keys define a total order consistent with ASCENDING/DESCENDING", "statement": "The comparison used by SORT is lexicographic over the keys, reversed for DESCENDING keys, transitive and total, and ties are broken by release order (stable).", "quantifier": "all records, key lists, collating tables", "why_tests_cant": "unbounded key lists and records", "anchors": ["libcob/fileio.c: cob_file_sort_compare, sort_cmps", "libcob/common.c: sort_compare"]}
{"id": "C26", "title": "Date functions are inverse", "statement": "INTEGER-OF-DATE and DATE-OF-INTEGER (and the DAY variants) are mutually inverse on valid dates 1601..9999, order preserving, successive days give successive integers, and invalid input returns 0 with an argument exception.", "quantifier": "all dates in the range and all integers", "why_tests_cant": "millions of cases and the leap rules; also all invalid input", "anchors": ["libcob/intrinsic.c: cob_intr_date_of_integer, cob_intr_integer_of_date, cob_intr_day_of_integer, cob_intr_integer_of_day"]}
{"id": "C27", "title": "FUNCTION INTEGER, INTEGER-PART, FRACTION-PART, MOD, REM, ABS, SIGN and FACTORIAL", "statement": "INTEGER returns the greatest integer not greater than the argument, INTEGER-PART truncates toward zero, FRACTION-PART is what INTEGER-PART leaves (|x| < 9, 18 decimals); MOD(a,b)=a-b*INTEGER(a/b) has the sign of b, REM(a,b)=a-b*INTEGER-PART(a/b) the sign of a; ABS returns the magnitude in an item of the argument's form, SIGN -1, 0 or 1, FACTORIAL n! for 0..20. Findings: INTEGER of -1.05 is -1 and MOD(-1,20) is -1; FRACTION-PART(10.5) overflows, and without binary truncation FRACTION-PART(2.5) is 2.5; ABS of the least binary value is that value; FACTORIAL(21) is the low 64 bits.", "quantifier": "all decimal arguments", "why_tests_cant": "infinite arguments", "anchors": ["libcob/intrinsic.c: cob_intr_integer, cob_intr_integer_part, cob_intr_fraction_part, cob_intr_mod, cob_intr_rem, cob_intr_abs, cob_intr_sign, cob_intr_factorial"]}
{"id": "C28", "title": "Character functions", "statement": "REVERSE is an involution preserving length; UPPER-CASE/LOWER-CASE change only letters and are idempotent; TRIM removes exactly leading/trailing spaces; CHAR and ORD are inverse on 1..256; CONCATENATE and SUBSTITUTE behave as on strings.", "quantifier": "all strings", "why_tests_cant": "unbounded strings", "anchors": ["libcob/intrinsic.c: cob_intr_reverse, cob_intr_upper_case, cob_intr_lower_case, cob_intr_trim, cob_intr_char, cob_intr_ord, cob_intr_substitute"]}
{"id": "C29", "title": "YEAR-TO-YYYY windowing", "statement": "YEAR-TO-YYYY returns a year congruent to the argument modulo 100 in the 100-year window ending at the given maximum year.", "quantifier": "all years, intervals and current years", "why_tests_cant": "all combinations of three integers", "anchors": ["libcob/intrinsic.c: cob_intr_year_to_yyyy, cob_intr_date_to_yyyymmdd, cob_intr_day_to_yyyyddd"]}
{"id": "C30", "title": "MIN/MAX/ORD-MIN/ORD-MAX/SUM/RANGE/MEDIAN/MEAN/MIDRANGE/PRESENT-VALUE", "statement": "MIN/MAX return an argument that bounds all arguments; ORD-MIN/ORD-MAX return the position of the first such; SUM is the exact sum; MEDIAN is the middle element (or mean of the two middle elements) of the sorted arguments; MEAN is the exact average cut off after 18 digits; MIDRANGE is exactly half the sum of the smallest and the largest argument; PRESENT-VALUE is the sum of the amounts, each divided by one plus the rate as often as its place says, within 10^-37 per amount (MEDIAN of an even number of arguments, MIDRANGE and PRESENT-VALUE: before the result is put into a floating point number).", "quantifier": "all argument lists", "why_tests_cant": "unbounded lists", "anchors": ["libcob/intrinsic.c: cob_intr_min, cob_intr_max, cob_intr_ord_min, cob_intr_ord_max, cob_intr_sum, cob_intr_median, cob_intr_range, cob_intr_midrange, cob_intr_mean", "libcob/intrinsic.c: cob_intr_present_value"]}
{"id": "C31", "title": "EXTERNAL items with the same name share one storage area", "statement": "Requesting an EXTERNAL item by name returns the same area for the same name and different areas for different names, for any history of requests; the area is zero/initial exactly on the first request; a request larger than the first is a fatal error.", "quantifier": "all histories of EXTERNAL requests", "why_tests_cant": "history dependent", "anchors": ["libcob/common.c: cob_external_addr"]}
{"id": "C32", "title": "ALLOCATE and FREE", "statement": "FREE releases exactly the areas obtained by ALLOCATE that are still live, sets the pointer to NULL, and never frees an area twice for any history of ALLOCATE/FREE statements.", "quantifier": "all histories of ALLOCATE/FREE", "why_tests_cant": "history dependent", "anchors": ["libcob/common.c: cob_allocate, cob_free_alloc"]}
{"id": "C33", "title": "Exit and error procedures", "statement": "Installing and removing handlers with CBL_EXIT_PROC/CBL_ERROR_PROC keeps exactly the installed and not removed handlers registered, most recent first, for any history in which each call names a handler that is new or the most recent one; in every other history the code frees a node that stays in its list and reads it later (a defect).", "quantifier": "all histories of install/remove", "why_tests_cant": "history dependent, memory-safety", "anchors": ["libcob/common.c: CBL_EXIT_PROC, CBL_ERROR_PROC"]}
{"id": "C34", "title": "Bitwise library routines", "statement": "CBL_AND/OR/XOR/NOR/NIMP/IMP/EQ/NOT apply the Boolean operation to every bit of the first n bytes of the target and change nothing else; CBL_XF5 followed by CBL_XF4 restores the byte.", "quantifier": "all byte strings and lengths", "why_tests_cant": "unbounded strings", "anchors": ["libcob/common.c: CBL_AND, CBL_OR, CBL_NOR, CBL_XOR, CBL_IMP, CBL_NIMP, CBL_EQ, CBL_NOT, CBL_XF4, CBL_XF5"]}
{"id": "C35", "title": "Subscript, ODO, reference-modification and NULL-address checks are exact", "statement": "The runtime checks accept exactly the accesses that stay inside the table or item and reject every other, for all values whose sum offset + length does not exceed 2^31; above that the reference-modification check wraps around and accepts some accesses outside the item (a defect). A statement that uses a BASED item (or a LINKAGE item that is no parameter), and no other such record, is executed just when its address is not NULL; otherwise the run unit stops with the message about it before anything of the statement is done. (Findings: of several such records in one statement only the last is checked, IS OMITTED takes the check away, and an OMITTED parameter is not checked.)", "quantifier": "all 32-bit offsets, lengths and sizes; all lists of references of a statement, all sets of records with the address NULL", "why_tests_cant": "2^96 combinations and integer wrap-around", "anchors": ["libcob/common.c: cob_check_odo, cob_check_subscript, cob_check_ref_mod", "libcob/common.c: cob_check_based", "cobc/typeck.c: cb_build_identifier, cb_build_expr", "cobc/codegen.c: output_stmt"]}
{"id": "C36", "title": "File status automaton", "statement": "For every history of OPEN, CLOSE, READ, READ PREVIOUS, START, WRITE, REWRITE, DELETE and DELETE FILE on a file, and whatever the file system and the organisation's routines answer, the FILE STATUS is the one determined by what the program has observed: 38 for OPEN/DELETE FILE after CLOSE WITH LOCK, 41 when already open, 42 for CLOSE when not open, 46 for a READ after the end was reported, 47/48/49 for statements the open mode does not allow, 43 for a sequential REWRITE/DELETE without an immediately preceding successful READ, 44 for a record of a wrong length, 05/10/23 for an absent OPTIONAL file, 35/37/61/57/30 for an OPEN that fails; and no statement touches a stream that is not open. Boundary: no statement other than OPEN/REWRITE/DELETE/DELETE FILE after CLOSE WITH LOCK; no WRITE/REWRITE/DELETE on an absent OPTIONAL file open I-O with random or dynamic access; no READ/START on a closed file that was an absent OPTIONAL one or (READ) was closed at its end.", "quantifier": "all histories of file statements on a connector and all outcomes of the underlying file", "why_tests_cant": "unbounded histories", "anchors": ["libcob/fileio.c: cob_ex_open, cob_ex_close, cob_ex_start, cob_ex_read, cob_ex_write, cob_ex_rewrite, cob_ex_delete, save_status"]}
{"id": "C37", "title": "SEQUENTIAL files give back the records written", "statement": "Reading a sequential file sequentially returns exactly the records written (record lengths 1 to 65535 within the record limits), in order and with their lengths, followed by end of file (10, then 46); OPEN EXTEND appends; in a history of READs and REWRITEs every REWRITE (of the same length, after a successful READ) replaces exactly the record last read.", "quantifier": "all lists of records, fixed and variable length", "why_tests_cant": "unbounded lists and sizes", "anchors": ["libcob/fileio.c: sequential_read, sequential_write, sequential_rewrite"]}
{"id": "C38", "title": "LINE SEQUENTIAL files give back the records written", "statement": "Reading a line sequential file returns the records written (with the empty lines of ADVANCING), for records without CR/LF (or for all records under COB_LS_NULLS), trailing spaces normalised, followed by end of file; any text file is read as its lines without carriage returns, each cut or padded to the record length.", "quantifier": "all lists of records", "why_tests_cant": "unbounded lists", "anchors": ["libcob/fileio.c: lineseq_read, lineseq_write, cob_file_close"]}
{"id": "C39", "title": "RELATIVE files behave as a map from record numbers to records", "statement": "For every history of WRITE, READ, READ NEXT, REWRITE, DELETE, START and changes of the RELATIVE KEY item on a relative file, the statuses, the records read and the RELATIVE KEY item are those of a finite map from record number to record: WRITE of an existing number gives 22, READ of an absent number 23, a statement about one number never affects another, READ NEXT enumerates the present numbers in ascending order and then gives 10 and 46, and closing and reopening the file keeps the map. The boundary of the claim is exact: REWRITE keeps the record length, no READ NEXT follows an unsuccessful START, a sequential DELETE finds RELATIVE KEY as the READ left it; REWRITE/DELETE of a deleted (not never-written) number answers 00, START LESS/NOT GREATER from above the highest number ever written answers 23, and START NOT LESS than 0 answers 23. Outside the boundary the map is broken (findings).", "quantifier": "all histories of operations, all record numbers, all record lengths up to the maximum, both access modes", "why_tests_cant": "unbounded histories", "anchors": ["libcob/fileio.c: relative_start, relative_read, relative_read_next, relative_write, relative_rewrite, relative_delete"]}
{"id": "C40", "title": "SORT returns a sorted stable permutation", "statement": "For every sequence of RELEASE and RETURN statements of a SORT, the RETURNs yield exactly the records released before the first RETURN, each once, in key order and with equal keys in the order of release, then status 10; a RELEASE after the first RETURN is refused with status 30. This holds whether or not the records fit into the sort memory (at least four records must fit if they do not all fit: with fewer the runtime dereferences a null pointer). The size in RECORD DEPENDING ON comes back with each record only if no temporary file was needed.", "quantifier": "all record sequences, keys, memory limits", "why_tests_cant": "unbounded sequences; spill paths only appear at scale", "anchors": ["libcob/fileio.c: cob_file_sort_submit, cob_sort_queues, cob_write_block, cob_file_sort_process, cob_file_sort_retrieve"]}
{"id": "C41", "title": "CALL resolution is stable and name encoding is unambiguous", "statement": "After every history of CALLs, program starts and CANCELs: once a program name has been resolved every later CALL of the same name gets the same entry point, whatever the loader would say by then; CANCEL runs exactly the cancel function the program registered last, once; names that share a hash bucket do not disturb each other; two different program names without underscore are mapped to different entry symbols (names with underscores can collide: A-B and A__B); trailing spaces of the item holding the name are insignificant.", "quantifier": "all program names, all histories of CALL", "why_tests_cant": "unbounded names and histories", "anchors": ["libcob/call.c: hash, insert, lookup, cob_resolve, cob_set_cancel, cobcancel", "cobc/typeck.c: cb_encode_program_id", "libcob/common.c: cob_field_to_string"]}
{"id": "C42", "title": "CANCEL ALL cancels each program called below", "statement": "After every history of calls and returns in which no program (at one place of the call tree) calls more than two different programs, CANCEL ALL in the running program cancels exactly the programs that were called below it, directly or indirectly and also when they have returned, each once for every path by which it was called. (From the third different callee on the code links the program to the wrong node and this fails; programs with a hyphen in their name are not cancelled.)", "quantifier": "all histories of calls and returns with at most two different callees per program, any depth", "why_tests_cant": "unbounded trees", "anchors": ["libcob/call.c: cob_push_call_stack_list, cob_pop_call_stack_list, cob_cancel_call_stack_list, cob_cancel_all, cobcancel", "cobc/codegen.c: 4343, 4361, 4612"]}
{"id": "C43", "title": "PICTURE analysis", "statement": "For every PICTURE string that the compiler accepts, the size in bytes, the presence of a sign, the digit count and scale of a numeric or numeric-edited item, the category, and the symbol list handed to the runtime are those counted on the string's expansion (every repetition factor written out). Every proper PICTURE (numeric S9..V9.. up to 36 digits, alphanumeric, national, numeric-edited up to 160 characters, with CR or DB at the end) is accepted in any way of writing it, and MOVE of a number to the numeric-edited item so described leaves the text the PICTURE means. Binary, COMP-X (unsigned), COMP-3 and DISPLAY items get enough bytes for every number of their digits.", "quantifier": "all PICTURE strings, decimal point and currency symbols, configured limits; expansions shorter than 2^29", "why_tests_cant": "unbounded strings", "anchors": ["cobc/tree.c: cb_build_picture, guess_pic_category, increase_character_length", "cobc/field.c: compute_size"]}
{"id": "C44", "title": "LINAGE page control", "statement": "For every sequence of WRITE ADVANCING statements (by at least one line, or PAGE) the LINAGE-COUNTER stays between 1 and LINAGE; every logical page has the physical lines its items (read when the page starts) describe; a record written BEFORE ADVANCING stands on the body line LINAGE-COUNTER named; END-OF-PAGE (52) is signalled exactly when the phrase is present and the footing area or page end is reached; items that make no sense at a page start give 57 from then on.", "quantifier": "all WRITE sequences and LINAGE parameters", "why_tests_cant": "unbounded histories", "anchors": ["libcob/fileio.c: cob_linage_write_opt, file_linage_check, lineseq_write"]}
{"id": "C45", "title": "Operational sign overpunch", "statement": "Reading the sign of a signed zoned item and putting it back leaves the item unchanged; the sign round-trips for every digit, in ASCII and EBCDIC sign conventions, and the digits seen between get and put are the absolute value.", "quantifier": "all digit strings and sign conventions", "why_tests_cant": "unbounded lengths", "anchors": ["libcob/common.c: cob_real_get_sign, cob_real_put_sign, cob_get_sign_ebcdic, cob_put_sign_ebcdic, cob_get_sign_ascii, cob_put_sign_ascii"]}
{"id": "C46", "title": "COMPUTE evaluates the written expression", "statement": "For every arithmetic expression over numeric items and literals, COMPUTE stores in the receiver the mathematically exact value of the expression (division to at least 37 further digits), truncated or rounded and size-checked as declared, whatever the nesting depth; several receivers of one statement all get the value computed from the operands as they were before the statement; a zero divide or undefined result anywhere leaves the receiver unchanged and raises SIZE ERROR.", "quantifier": "all expression trees, operand items and receivers", "why_tests_cant": "unbounded expression trees and operand values", "anchors": ["cobc/typeck.c: decimal_expand, decimal_compute, decimal_assign, build_decimal_assign", "libcob/numeric.c: cob_decimal_add, cob_decimal_sub, cob_decimal_mul, cob_decimal_div, cob_decimal_pow, cob_decimal_get_field"]}
{"id": "C47", "title": "MOVE of a text numeral to a numeric item", "statement": "Moving alphanumeric text that is a numeral (blanks, optional sign, digits, optional decimal point and digits, blanks) to a zoned numeric item stores the number written, aligned on the decimal point and truncated to the receiver's positions, for either decimal-point convention.", "quantifier": "all numerals of any length, all receiving pictures", "why_tests_cant": "unbounded texts and pictures", "anchors": ["libcob/move.c: cob_move_alphanum_to_display"]}
{"id": "C48", "title": "Record layout: nesting, no overlap, table elements inside the record", "statement": "In the storage layout of any record description every item lies with all its occurrences inside one occurrence of its group, items that are not redefinitions do not overlap, a redefinition starts where the redefined item starts, every subscripted reference that passes the subscript checks addresses bytes inside the record, and references with different subscripts do not overlap.", "quantifier": "all record descriptions (any depth, OCCURS, REDEFINES, SYNC of elementary items) and all subscripts", "why_tests_cant": "unbounded trees and subscripts", "anchors": ["cobc/field.c: compute_size", "cobc/codegen.c: output_base, output_data", "cobc/typeck.c: cb_build_identifier", "libcob/common.c: cob_check_subscript"]}
{"id": "C49", "title": "Conditions on numeric items compiled to specialised routines", "statement": "Comparing a numeric item with a numeric literal or item gives the relation between the two numbers whichever routine the compiler selects for the pair (byte comparison, packed, zoned, signed zoned, binary by size/sign/byte order, or the general comparison), and regardless of the comparisons made before.", "quantifier": "all pairs of numeric items and literals of any usage, size, sign convention and byte order, all contents, all histories of earlier comparisons", "why_tests_cant": "28 binary routines times all contents and operands; selection depends on both operands", "anchors": ["libcob/codegen.h: cob_cmp_u8_binary .. cob_cmpswp_s64_binary, cob_cmp_packed_int, cob_get_numdisp, cob_get_packed_int", "libcob/numeric.c: cob_cmp_sign_numdisp, cob_cmp_long_sign_numdisp, cob_cmp_uint", "libcob/move.c: cob_get_int, cob_display_get_int", "cobc/typeck.c: cb_build_cond, cb_build_optim_cond, cb_chk_num_cond", "cobc/codegen.c: output_integer", "cobc/tree.c: cb_fits_int"]}
{"id": "C50", "title": "Integer ADD and SUBTRACT compiled to specialised routines", "statement": "When the compiler uses a specialised routine to add an integer to or subtract it from an integer item (binary of any size and byte order, packed, zoned), the item afterwards holds the exact sum or difference whenever it has room for it; the size and attributes of the item do not change; a binary item otherwise holds the result modulo two to the number of its bits.", "quantifier": "all items of every usage, size, sign and byte order, all contents, all int operands", "why_tests_cant": "unbounded contents and operands over some sixty routines", "anchors": ["libcob/codegen.h: cob_add_u8_binary .. cob_subswp_s64_binary, cob_setswp_*, cob_add_packed_int", "cobc/typeck.c: cb_build_optim_add, cb_build_optim_sub, build_store_option", "libcob/numeric.c: cob_add_int, cob_sub_int"]}
{"id": "C51", "title": "MOVE compiled in line has the effect of the general MOVE", "statement": "Whether the compiler turns a MOVE into in-line code (memset, memcpy, a constant image, an assignment, a specialised packed routine) or calls the general routine, the receiver ends up the same: for text receivers byte for byte, for numeric receivers with the same number (the literal or item aligned on the decimal point, truncated to the PICTURE, sign kept iff the receiver is signed), for zoned receivers and MOVE ZERO byte for byte.", "quantifier": "every literal, figurative constant and item as sender; every usage, size, scale and sign convention of the receiver", "why_tests_cant": "the selection depends on the combination of sizes, scales, usages and contents; combinations are unbounded", "anchors": ["cobc/typeck.c: cb_build_move, cb_build_move_literal, cb_build_move_field, cb_build_move_num_zero, validate_move", "libcob/numeric.c: cob_set_packed_int, cob_set_packed_zero", "libcob/codegen.h: cob_setswp_*", "libcob/move.c: cob_move"]}
{"id": "C52", "title": "DISPLAY writes the number the item holds", "statement": "DISPLAY of a numeric item (zoned, packed or binary) writes, with the default settings, the sign if the item is signed, the digits before the decimal point with leading zeros, and, if the PICTURE has decimals, the program's decimal point and all decimals, and this text denotes exactly the item's number when it is within the PICTURE; so two items of the same PICTURE with different values are written differently. COMP-5 items (and all binary items without pretty-display) are written in full for every bit pattern. Text, groups and edited items are written byte for byte; several operands are written in order with nothing between them, and a newline follows unless NO ADVANCING is said.", "quantifier": "every numeric item of every usage, size, scale and sign convention, every value; every list of operands; both display settings; both decimal points", "why_tests_cant": "the text is produced by moving to a temporary item whose PICTURE depends on the item; values, scales and sizes are unbounded in combination", "anchors": ["libcob/termio.c: cob_display, display, display_numeric, pretty_display_numeric, display_alnum, bin_digits", "libcob/move.c: cob_move, cob_move_display_to_edited"]}
{"id": "C53", "title": "ACCEPT stores the next input line", "statement": "ACCEPT takes exactly the next line of the input without its newline: a text item receives it from the left (from the right if JUSTIFIED), filled with spaces or cut; a numeric item receives the number written on the line, aligned on the decimal point, as by MOVE. Successive ACCEPTs read successive lines, none skipped or read twice; at the end of the input text items become spaces. What DISPLAY writes for an unsigned whole number ACCEPT reads back.", "quantifier": "every line of fewer than 8191 bytes without NUL, every sequence of lines and items, every numeral, every usage and size of the receiver", "why_tests_cant": "lines, contents and histories of ACCEPT statements are unbounded", "anchors": ["libcob/termio.c: cob_accept", "libcob/move.c: cob_hankaku_move, cob_move_alphanum_to_display, cob_move_alphanum_to_alphanum"]}
{"id": "C54", "title": "A numeric statement keeps the description and size of its receiver", "statement": "Whatever value is stored, with whatever options, and whatever bytes operands and receiver contain (valid numbers or not), after ADD, SUBTRACT, COMPUTE stores, MOVE (library and in-line forms), and text converted to a number, the receiver has the same USAGE, attributes and number of bytes as before.", "quantifier": "every receiver the compiler can lay out, with any contents; every decimal value, literal, text and option", "why_tests_cant": "it must hold for garbage contents and for values of any size", "anchors": ["libcob/numeric.c: cob_decimal_get_field, cob_add, cob_sub, cob_display_add_int, cob_add_packed", "libcob/move.c: cob_move, store_common_region, cob_move_alphanum_to_display", "libcob/codegen.h: cob_add_packed_int, cob_add_*_binary", "cobc/typeck.c: cb_build_move_literal"]}
{"id": "C55", "title": "PERFORM executes its range exactly as often as it says, and comes back", "statement": "Running a compiled program does what its procedure division says. PERFORM of paragraphs or sections (also nested, with GO TO and EXIT inside the range) executes from the first label to the end of the last one and goes on behind the PERFORM; n TIMES executes the range exactly n times, where n is the value when the statement is reached; UNTIL and VARYING ... AFTER with the test before or after execute it for exactly the values of the loop items in their order, and leave the items at their documented values; EXIT PERFORM, EXIT PERFORM CYCLE, GO TO and GO TO DEPENDING ON lead where they say; and the program ends exactly when its procedure division does, with the same data.", "quantifier": "every procedure division built of these statements, every data type and initial data, every loop counter contents, any number of steps, terminating or not", "why_tests_cant": "the generated code returns from a range by comparing a frame on a run-time stack with the label at the end of every paragraph, and keeps TIMES counts in static counters; that this agrees with the nesting of the PERFORMs for all programs, fall-through paths and iteration counts is a simulation argument", "anchors": ["cobc/codegen.c: output_perform, output_perform_call, output_perform_exit, output_perform_until, output_goto", "cobc/parser.y: perform_option, section_header, paragraph_header, exit_body", "cobc/tree.c: cb_build_perform_varying", "libcob/common.h: COB_STACK_SIZE, cob_frame"]}
{"id": "C56", "title": "Expressions and conditions mean what their text says", "statement": "Every arithmetic expression written with the COBOL rules (sign, **, * and /, + and -, left to right, parentheses) and every condition written with them (relations with and without NOT, class and sign conditions, condition-names, NOT before AND before OR, parentheses, abbreviated relations with the subject or the subject and the operator omitted) is accepted by the compiler, and the generated code computes the value or the truth value the text stands for; an omitted subject and operator are those of the last relation in front of it, the operator with its NOT.", "quantifier": "every expression and condition of any length and nesting, every meaning of operands, operators, comparisons and class tests", "why_tests_cant": "the parser is an operator-precedence stack with two registers for abbreviations that are set and used at different times of the reduction; that every nesting is parsed with the right precedence and every abbreviation gets the right subject is an induction over the syntax", "anchors": ["cobc/typeck.c: cb_build_expr, cb_expr_shift, expr_reduce, cb_expr_shift_sign, cb_expr_shift_class, expr_expand, cb_expr_finish", "cobc/tree.c: cb_build_binary_op", "cobc/codegen.c: output_cond", "cobc/parser.y: expr_tokens, expr_token"]}
{"id": "C57", "title": "SEARCH and SEARCH ALL find what is there", "statement": "SEARCH ALL on a table whose elements are in the order of its declared keys, with a condition 'key = value AND ...' that names the first m declared keys (each once, in any order, ascending or descending, through a condition-name, or with the sides exchanged where the option allows it), always ends; if it takes WHEN the index points at an element in use that satisfies the condition, and if it takes AT END no element in use satisfies it. In any order and with any keys it never takes WHEN for an element that does not satisfy the condition, never looks outside elements 1..occurs (minimum of OCCURS at least 1), and looks at no more than k elements when there are fewer than 2^k. Serial SEARCH starts where the index is, ends, and takes the first WHEN that is true at the first occurrence where one is, else AT END with the index one past the table; the VARYING index is the one moved if it belongs to the table. Findings: with OCCURS n TO m, n > 1, elements 1..n-1 are never searched; with OCCURS 0 TO m element 0 is read, can be 'found' and can hide element 1; a condition that skips the first key is accepted and misses elements; of two equalities about one key only the last counts; for an INDEX or POINTER key the direction comes from an uninitialised variable; the VARYING item is overwritten with the index instead of being counted up.", "quantifier": "every table size, number and direction of keys, key contents, starting index, list of WHEN conditions, initial value of the generated C variable, and every accepted condition", "why_tests_cant": "a binary search is right for all sizes, key combinations and positions or it is wrong for a few of them; the boundary elements and the interplay of key order with the order of the conditions need an induction over the loop", "anchors": ["cobc/codegen.c: output_occurs, output_search_whens, output_search_all, output_search, output_cond", "cobc/typeck.c: search_set_keys, cb_build_search_all, cb_emit_search, cb_emit_search_all, build_cond_88, cb_build_cond", "cobc/parser.y: occurs_clause, occurs_keys, search_body, search_whens, table_name"]}
{"id": "C58", "title": "NUMVAL and NUMVAL-C give exactly the number the text shows", "statement": "FUNCTION NUMVAL of a text made of optional spaces, an optional leading or trailing sign and digits with at most one decimal point, at most 18 digits in all, is exactly the number shown, with as many decimals as the text has, whatever bytes follow the argument in storage. FUNCTION NUMVAL-C gives the same for texts that also show a currency string or the program's currency sign and separators between digits. A trailing CR or DB makes the number negative when it ends the argument. A text with at most 18 digits and other characters gives the number its digits make. (The code misses CR and DB whenever the byte after the argument is not NUL or spaces follow the letters, and reports nothing for texts that show no number.)", "quantifier": "every text argument, currency string, currency sign, decimal point and every content of the storage behind the argument", "why_tests_cant": "the texts, lengths and the storage behind the argument are unbounded; the missed CR is only seen with particular neighbouring bytes", "anchors": ["libcob/intrinsic.c: cob_intr_numval", "libcob/intrinsic.c: cob_intr_numval_c"]}
{"id": "C59", "title": "Items and expressions used as integers", "statement": "Where a statement needs an integer (subscript, reference modification, PERFORM TIMES, integer arguments) a numeric item stands for the integer part of the number it holds, whatever its usage, size, sign convention, byte order and number of decimals, as long as that fits in 32 bits; an expression of sums, differences and products stands for its exact value when that fits. (Not so for binary items with decimals, whose decimals are not taken off, nor for division, which is carried out on integers, and on unsigned integers when an unsigned binary item takes part.)", "quantifier": "every zoned, packed and binary item with any number of decimals, every value it can hold, every expression of any depth over such items", "why_tests_cant": "the C types and conversions on the way depend on the combination of usages, sizes and signs; the values and nesting are unbounded", "anchors": ["cobc/codegen.c: output_integer", "libcob/move.c: cob_get_int, cob_display_get_int, cob_packed_get_int", "libcob/codegen.h: cob_get_numdisp, cob_get_packed_int"]}
{"id": "C60", "title": "Relations, condition-names and SET TO TRUE in compiled programs", "statement": "Whatever code the compiler selects for a relation between items, literals and constants (a difference of two characters, memcmp, a specialised routine or the library), its outcome is the comparison COBOL defines: numbers by value, texts in the collating sequence with the shorter one extended with spaces and constants repeated. A condition-name (level 88) is true exactly when the item equals one of its values or lies in one of its ranges, ends included, and SET condition-name TO TRUE stores its first value and makes it true when that value has room in the item.", "quantifier": "all pairs of operands (items of every usage, size and scale, groups, text and numeric literals, ALL literals, figurative constants), all contents, all collating sequences, all lists of values and ranges, with subscript checking on or off, after any history of comparisons", "why_tests_cant": "the code selected depends on the categories, sizes and order of both operands and on program-wide settings; each selection must agree with the general rule for all contents", "anchors": ["cobc/typeck.c:cb_build_cond", "cobc/typeck.c:build_cond_88", "cobc/typeck.c:cb_chk_alpha_cond", "cobc/typeck.c:cb_emit_set_true", "cobc/codegen.c:output_funcall ($G)", "libcob/common.c:cob_cmp"]}
{"id": "C61", "title": "INDEXED files: a keyed file behaves like a set of records ordered by each key", "statement": "For an ORGANIZATION INDEXED file with a unique record key and any number of alternate keys (unique or WITH DUPLICATES), every sequence of WRITE, REWRITE, DELETE, START, READ with a key, READ NEXT, READ PREVIOUS and CLOSE/OPEN within the rules answers with exactly the file status and the record that a plain collection of records with an order per key prescribes: WRITE refuses a record whose record key or unique alternate key is in use (22) and, with ACCESS SEQUENTIAL, keys that descend (21), and a record length outside the limits (44), and stores nothing then; a record written is read back by its key with the bytes and the length written until it is rewritten or deleted; START and READ find the first (or, for less, the last) record whose leading key bytes satisfy the condition or answer 23; reading from the start of any key delivers every record exactly once in the order of that key, duplicates in the order they were written, then 10, then 46; no two records ever share a unique key.", "quantifier": "every SELECT clause (number, places, lengths and uniqueness of the keys, access mode, record lengths) whose keys lie inside the smallest record at distinct places; every finite history of statements within the rules; every record content", "why_tests_cant": "the B-trees, the saved positions, the duplicate numbers and the end-of-file flags interact over unbounded histories; a test sees a few histories", "anchors": ["libcob/fileio.c:indexed_open", "libcob/fileio.c:indexed_start_internal", "libcob/fileio.c:indexed_read", "libcob/fileio.c:indexed_read_next", "libcob/fileio.c:get_dupno", "libcob/fileio.c:check_alt_keys", "libcob/fileio.c:indexed_write", "libcob/fileio.c:indexed_write_internal", "libcob/fileio.c:indexed_delete_internal", "libcob/fileio.c:indexed_rewrite", "libcob/fileio.c:cob_ex_start", "libcob/fileio.c:cob_ex_read"]}
{"id": "C62", "title": "INITIALIZE and initial values set every elementary item to what the phrases say, and nothing else", "statement": "After INITIALIZE item [WITH FILLER] [ALL TO VALUE] [REPLACING category BY ...] [TO DEFAULT], every occurrence of every elementary item of the item (tables included, at every depth) holds: its VALUE if TO VALUE is written and it has one; else, unless it is FILLER and WITH FILLER is not written, the operand of the first REPLACING phrase for its category moved to it; else by DEFAULT zero (numeric, in its usage), edited zero, or spaces; items that no phrase concerns are unchanged, and so is all storage outside the item. A text VALUE stands at the left and is filled with spaces or cut, VALUE ALL is repeated. The same holds for the initial values of WORKING-STORAGE (every item, FILLER too, holds its VALUE or its default). The compiler's merging of neighbouring items into one memset, and its three ways of writing a literal, do not show.", "quantifier": "every record description (groups, OCCURS, REDEFINES, FILLER, any nesting) with the layout of C48, every combination of phrases, every old contents of memory, every subscripted occurrence of the item", "why_tests_cant": "The generated code depends on which neighbouring items happen to have the same type and fill byte; the merged memsets, loops over occurrences and skipped redefinitions interact for every shape of record.", "anchors": ["cobc/codegen.c:initialize_type", "cobc/codegen.c:initialize_uniform_char", "cobc/codegen.c:output_initialize_one", "cobc/codegen.c:output_initialize_compound", "cobc/codegen.c:output_initialize", "cobc/codegen.c:output_initial_values", "cobc/typeck.c:cb_emit_initialize"]}
{"id": "C63", "title": "EVALUATE executes the statements of the first matching WHEN", "statement": "EVALUATE subjects WHEN objects ... executes exactly the statements of the first case one of whose WHENs matches, where a WHEN matches if every object matches the subject in the same position (ANY matches; TRUE/FALSE match a condition with that truth value; a condition matches TRUE/FALSE by its truth value; [NOT] v matches when the subject does [not] equal v; [NOT] v THRU w when it does [not] lie between). If no case matches, the statements of WHEN OTHER are executed, or nothing. A WHEN with another number of objects than subjects is rejected.", "quantifier": "every list of subjects, every list of cases with any number of WHENs, all arithmetic expressions and (abbreviated) conditions, all values of the items, any comparison", "why_tests_cant": "The compiled form is a chain of nested IFs over an unbounded number of cases, WHENs and subjects, and the parser decides how NOT is read from a table indexed by a counter that runs through all WHENs of a case; a wrong combination only shows for particular positions and values.", "anchors": ["cobc/parser.y:evaluate_statement", "cobc/parser.y:evaluate_object", "cobc/typeck.c:evaluate_test", "cobc/typeck.c:build_evaluate", "cobc/typeck.c:cb_emit_evaluate"]}
{"id": "C64", "title": "COPY REPLACING and REPLACE change exactly the matching texts", "statement": "In the source text the pairs of REPLACE and COPY ... REPLACING are applied from left to right: at each word the first pair (in the order written) whose old text matches the following words - separators, line breaks and upper/lower case do not count - replaces the text from this word to its last matching word by the new text; with LEADING and TRAILING the matching part of the word is exchanged; every other word and its order is kept. The scanner sees the text one piece at a time, with matches in progress held back; this does not change the result, whatever text follows. REPLACE applies to the result of COPY REPLACING. With one-word old texts the result is exact including all separators; otherwise no word is lost or changed, but separators may be.", "quantifier": "every list of pairs with a word in each old text, every sequence of source texts, every later text", "why_tests_cant": "The text arrives in pieces and overlapping partial matches of several pairs are held in a queue; whether the streaming search equals left-to-right replacement depends on every combination of pairs, prefixes and separators.", "anchors": ["cobc/pplex.l:ppecho_0", "cobc/pplex.l:ppecho_1", "cobc/pplex.l:ppecho_2", "cobc/ppparse.y:replacing_tokens"]}
{"id": "C65", "title": "Fixed-format source lines: columns 7-72, comments, continuation and line numbers", "statement": "A program in fixed format is read as its reference format says: columns 1-6 and everything from column 73 on have no influence; lines with * or / in column 7, debugging lines without the debugging option, short and blank lines contribute no text; the text of another line is columns 8 to 72 without spaces at its end; a line with - in column 7 continues the line before directly, without its leading spaces, and a continued literal consists of the characters up to column 72 and those behind the quotation mark of the next line, over any number of lines; any other indicator and a literal continued without its mark are errors. The text of each line stands on the same line number as in the file (so that messages name the right line), and the number of lines is kept.", "quantifier": "every file of lines up to 255 characters without tabs, *> comments and directives, with and without debugging lines", "why_tests_cant": "The state of quotation marks and the count of skipped lines are carried from line to line over the whole file; the claim is about every sequence of lines.", "anchors": ["cobc/pplex.l:ppinput", "cobc/pplex.l:check_directive", "cobc/pplex.l:check_dollar_directive"]}
{"id": "C66", "title": "Conditional compilation selects exactly the lines whose conditions hold", "statement": "A fixed-format program with $IF name [NOT] DEFINED or $IF name [NOT] = \"text\", $ELSE and $END, nested up to ten deep, is compiled as the program that consists only of the selected lines: a line is selected when every $IF part around it is the one chosen by its condition (upper and lower case do not count). The result is the same error or the same lines of text; lines not selected are not looked at (invalid indicators in them are no error), continuation lines and continued literals may have directives between them.", "quantifier": "every file of ordinary lines and correctly nested directives with depth at most 10, every list of command-line constants", "why_tests_cant": "Nesting is unbounded in shape; selection depends on a stack of conditions, on the pending newline count and on quotation state carried over unselected parts.", "anchors": ["cobc/pplex.l:check_dollar_directive", "cobc/pplex.l:ppinput"]}
{"id": "C67", "title": "MOVE to an alphanumeric-edited item, and of numbers to text", "statement": "A MOVE of text to an item whose PICTURE consists of A, X, 9, B, 0 and / writes exactly one character for each symbol: A, X and 9 take the characters of the sender in order, spaces when there are no more, B is a space, 0 and / stand for themselves; the number of characters is the size the compiler gave the item. A MOVE of a numeric item (zoned, packed or binary, signed or not, any scale) to an alphanumeric item writes the digits of its absolute value, with the zeros of trailing P positions, left aligned, cut or filled with spaces, and to an alphanumeric-edited item it fills the PICTURE with those digits. The sending item is unchanged, although the runtime takes its sign off in place.", "quantifier": "every PICTURE string of these symbols the compiler accepts, every sending text, every numeric item and value, every receiver size", "why_tests_cant": "Unboundedly many pictures, texts, sizes and values; the edit loop reads the sender and writes the receiver without bounds.", "anchors": ["libcob/move.c:cob_move_alphanum_to_edited", "libcob/move.c:cob_move_display_to_alphanum", "libcob/move.c:cob_move", "libcob/move.c:indirect_move"]}
{"id": "C68", "title": "Source text in free format, tabs, line ends and the directives that change the format", "statement": "A fixed-format source file with tabs and with CR LF or LF line ends, in any mixture, is read exactly as the file with every tab expanded to the next tab stop and plain LF line ends. A file in free format is given to the scanner line by line as written, each line with a space in front unless it begins with one, comments *> cut off, no line lost or added; with FREE_1COL_ASTER the lines with * in column 1 become empty and the others are passed on unchanged. >>SOURCE [FORMAT] [IS] FREE and $SET SOURCEFORMAT(FREE), in any case of letters, switch from fixed to free format: the lines in front are read as if the file ended there and those behind are read in free format; >>SOURCE [FORMAT] [IS] FIXED switches back and every later line is on the line with its number.", "quantifier": "every file of lines not longer than 254 characters, every place of tabs, every mixture of line ends, every number of lines before and behind the directive", "why_tests_cant": "Unboundedly many files; the format, the open literal and the count of pending newlines are static variables that every line reads and changes.", "anchors": ["cobc/pplex.l:ppinput", "cobc/pplex.l:check_directive", "cobc/pplex.l:check_dollar_directive"]}
{"id": "C69", "title": "Literals and constants in PICTURE strings", "statement": "A literal between quotation marks is exactly its text with doubled marks taken once (an empty one is a space), whatever follows it, and every source text behind a quotation mark is read this way; it is a national literal exactly when it consists of double-byte characters. X\"...\" of letters and digits is accepted exactly when it is pairs of hexadecimal digits and gives these bytes; H\"...\" below 2^63 is the number it writes. A numeric literal with sign, digits and decimal point (period or comma) is the number it writes, held by the constant of the generated program; one with two points is an error. The C string written for a literal stands for its bytes, whatever they are. Concatenation appends the texts. In a PICTURE string every level-78 constant is replaced where it stands as a whole word and nowhere else, and a final period or comma is not part of the string.", "quantifier": "every text of every length, every byte, every number of digits (127 decimals), every list of constants", "why_tests_cant": "Unboundedly many texts and bytes; the reading of doubled marks, of pairs of digits and the replacement of words are loops over them.", "anchors": ["cobc/scanner.l:read_literal", "cobc/scanner.l:scan_x", "cobc/scanner.l:scan_h", "cobc/scanner.l:scan_numeric", "cobc/scanner.l:scan_picture", "cobc/scanner.l:can_replace", "cobc/tree.c:cb_concat_literals", "cobc/codegen.c:output_string"]}
{"id": "C70", "title": "Level numbers and the tree of data items", "statement": "The entries of a DATA DIVISION section are accepted exactly when every level number is in its place: 01 and 77 anywhere, 66 and 88 after an entry, 02-49 when the nearest entry before that is no condition name has level 01-49 and is either of a smaller level or the nearest entry of a level not greater has the same level. There is then one item per entry with its level and name, its parent is the item it belongs to (the last entry with a smaller level number; for 88 the entry before, for 66 the record), and walking from a group through its children meets exactly what belongs to it, in source order. Level numbers are read by value; level 78 entries leave the tree alone and after a CONSTANT only 01/77 is accepted. With relax-level-hierarchy accepted texts give the same tree, and a level without an open group gets a FILLER group around all its group contained.", "quantifier": "every list of entries of every length and depth, every level number text", "why_tests_cant": "The tree depends on the whole history of level numbers; the linked lists are changed by every entry and must agree with the levels after any number of them.", "anchors": ["cobc/field.c:cb_get_level", "cobc/field.c:cb_build_field_tree", "cobc/tree.c:cb_field_founder", "cobc/tree.c:cb_build_filler", "cobc/parser.y:data_description"]}
{"id": "C71", "title": "What a name refers to", "statement": "A reference with qualifiers is a reference to the one definition of the program whose name is the same (letters in either case; words with bytes from 128 on exactly) and whose groups, from the inside outward with gaps allowed, and last its file, have the names of the qualifiers (a paragraph: its section); it is ambiguous exactly when there are several, undefined when there is none. A procedure name without qualifier written in a section that has a paragraph of this name is that paragraph, whatever other sections contain. In a contained program a name that has no definition there is looked up in the containing programs from the inside outward among their GLOBAL items; the first program that has a fitting definition decides. Texts get the same entry of the word table exactly when they are the same name, after any history of words.", "quantifier": "every program with any number of definitions, every tree of groups, every name and list of qualifiers, every nesting of programs", "why_tests_cant": "Whether a name is unique depends on all definitions of the program and all ways qualifiers can skip groups.", "anchors": ["cobc/tree.c:cb_ref", "cobc/tree.c:global_check", "cobc/tree.c:cb_define", "cobc/tree.c:lookup_word", "cobc/tree.c:cb_get_hexword", "cobc/cobc.c:sjis_casecmp", "cobc/parser.y:label", "cobc/parser.y:procedure_name"]}
{"id": "C72", "title": "CORRESPONDING", "statement": "MOVE, ADD and SUBTRACT CORRESPONDING emit one statement for exactly the pairs of items to which the same names lead from the two groups, through items without REDEFINES, RENAMES and OCCURS, and which are not both groups: MOVE in the order of the source items, ADD and SUBTRACT in the order of the targets, no target twice when the names in each group differ. With groups that lie apart (MOVE: any number of targets) every corresponding target afterwards has what its statement makes of the contents before, and no other byte of memory is changed. An operand that is no group is an error.", "quantifier": "every two texts of data items of any size and depth, every clause pattern, every memory contents, every statement that writes its target only", "why_tests_cant": "The pairs depend on two trees of arbitrary shape; the effect must hold for all memory contents and all layouts.", "anchors": ["cobc/typeck.c:emit_corresponding", "cobc/typeck.c:cb_emit_corresponding", "cobc/typeck.c:emit_move_corresponding", "cobc/typeck.c:cb_emit_move_corresponding", "cobc/typeck.c:cb_check_group_name"]}
{"id": "C73", "title": "Text in NATIONAL items", "statement": "A text of half-width, full-width and control characters given to FUNCTION NATIONAL or moved to a NATIONAL item becomes the text in full-width characters (JIS X 0208 in Shift_JIS): each half-width character becomes its full-width form, a half-width letter with a sound mark becomes one letter, control characters become spaces, full-width characters stay; the MOVE cuts or pads with full-width spaces on the right, on the left for JUSTIFIED; a NATIONAL-EDITED item takes the characters at its N positions with full-width insertion characters between; MOVE ALL repeats the full-width literal. For any bytes the result is a whole number of characters, at most one per byte; different half-width texts have different full-width texts.", "quantifier": "every text of any length and mixture of characters, every byte string (size), every receiving size, every picture of N, B, 0 and /, every ALL literal", "why_tests_cant": "The conversion looks at the preceding byte and the output is edited in place; it must be right for every sequence of characters and every pair of neighbouring bytes.", "anchors": ["libcob/move.c:han2zen", "libcob/move.c:judge_hankakujpn_exist", "libcob/move.c:cob_move_alphanum_to_national", "libcob/move.c:cob_move_alphanum_to_national_edited", "libcob/move.c:cob_move_all", "libcob/intrinsic.c:cob_intr_national"]}
{"id": "C74", "title": "Exception phrases and USE procedures", "statement": "After an input-output statement with a successful status the MOVE of INTO and the NOT phrase are executed; otherwise the exception phrase if the status is of its kind (AT END 1x, INVALID KEY 2x, AT EOP 52), otherwise the error procedure: never two of them, never none. ON SIZE ERROR and ON OVERFLOW are executed just for exceptions of their class. The error procedure is the last USE statement of the program naming the file, for a GLOBAL file the program's own non-GLOBAL USE or otherwise the USE GLOBAL of the programs around; otherwise the last USE for the open mode, in a nested program that of the innermost containing program with USE GLOBAL; otherwise the program carries on when it has a FILE STATUS clause and is stopped as the configuration says when not.", "quantifier": "every file status below 100, every combination of phrases, every exception code; every source file with any number of nested programs, USE statements, files and modes", "why_tests_cant": "Which procedure is performed depends on all USE statements of all programs of the source file, whose lists the compiler builds, shares and reverses in place; a test fixes one nest.", "anchors": ["libcob/fileio.c:save_status", "cobc/codegen.c:output_stmt", "cobc/codegen.c:output_ferror_stmt", "cobc/codegen.c:output_file_error", "cobc/parser.y:setup_use_file", "cobc/cobc.c:process_translate", "cobc/tree.c:cb_list_reverse", "cobc/tree.c:cb_list_add"]}
{"id": "C75", "title": "The compiler's checks of MOVE and VALUE", "statement": "For a numeric literal the compiler is silent exactly when the receiving item can hold the number without losing a figure (and is signed if the literal is written with a sign): by its picture, with or without P, or, for binary items without decimals, by its bytes. Between numeric items it is silent exactly when the receiver can hold every number the sender can hold. No message means no loss: the MOVE then leaves exactly the number in the receiver. Between elementary items a MOVE is refused exactly when the table of the standard has no such MOVE. Text is reported exactly when it is longer than the receiver. A literal of the other class always gives a message, SPACE and ZERO are refused exactly for the receivers that cannot take them, and an edited receiver is measured by the places of its picture that take a character.", "quantifier": "every numeric literal, every picture with up to 36 positions including P, every pair of items and categories", "why_tests_cant": "Whether the message is given depends on the figures of the literal, on leading and trailing zeros and on the scale of both sides; \"no message, no loss\" ranges over all of them and over all values of the sender.", "anchors": ["cobc/typeck.c:validate_move", "cobc/typeck.c:move_error", "cobc/typeck.c:count_pic_alphanumeric_edited", "cobc/tree.c:cb_get_long_long", "cobc/field.c:validate_field_value"]}
{"id": "C76", "title": "SORT and MERGE with USING and GIVING", "statement": "SORT or MERGE USING files GIVING files: each GIVING file afterwards holds exactly the records of the USING files (each cut or filled with spaces to the length of the sort record, then to that of the file), sorted by the keys, records with equal keys in the order of the USING files and of reading; SORT-RETURN is 0 and no other file changes, also when a file is both read and written. The same for INPUT PROCEDURE with GIVING and USING with OUTPUT PROCEDURE.", "quantifier": "every number of SEQUENTIAL (fixed or variable) and LINE SEQUENTIAL files, every content, every record size of the sort file and of the files, every key list, every size of the sort memory from four records on", "why_tests_cant": "The output is a function of all records of all files, with lengths converted twice and temporary files used from some size on; a test fixes the files.", "anchors": ["libcob/fileio.c:cob_file_sort_using", "libcob/fileio.c:cob_file_sort_giving", "libcob/fileio.c:cob_copy_check", "libcob/fileio.c:cob_file_release", "cobc/typeck.c:cb_emit_sort_using", "cobc/typeck.c:cb_emit_sort_giving"]}
{"id": "C77", "title": "Environment variables, arguments and the command line", "statement": "Whatever statements a program has executed, ACCEPT FROM ENVIRONMENT gives the value last assigned to the variable (by SET ENVIRONMENT or DISPLAY UPON ENVIRONMENT-NAME/-VALUE) without its trailing spaces, otherwise the one the process started with, otherwise spaces and the exception; ACCEPT FROM ENVIRONMENT-VALUE does so for the name chosen last. ACCEPT FROM ARGUMENT-VALUE gives the arguments one after the other, from the chosen one on, and the exception after the last with the item unchanged; ARGUMENT-NUMBER stores their number. ACCEPT FROM COMMAND-LINE gives the text displayed upon it last, otherwise all arguments with a space after each and never a part of one. CHAINING items hold the arguments by position.", "quantifier": "all initial environments and arguments, all histories of these statements, all receiving sizes", "why_tests_cant": "the effect depends on the whole history of names chosen and values assigned, and on every length of names, values and arguments", "anchors": ["libcob/common.c: cob_display_environment, cob_display_env_value, cob_set_environment, cob_get_environment, cob_accept_environment", "libcob/common.c: cob_display_arg_number, cob_accept_arg_number, cob_accept_arg_value", "libcob/common.c: cob_display_command_line, cob_accept_command_line, cob_chain_setup"]}
{"id": "C78", "title": "The name of a file", "statement": "A file assigned to a logical name (letters, digits, _ and -) is the file named by the environment variable DD_name, else dd_name, else name, else name itself in the directory COB_FILE_PATH (if set and not blank). In any other name every $NAME is replaced by the variable's value (nothing if unset) and the rest is taken literally. Names in Japanese, which the compiler keeps in a coded form, are decoded to the word written in the program. DELETE FILE removes the file that OPEN opens. The ASSIGN clause gives the literal, the data item's contents, or the part of the word that the dialect (mf, ibm, jph1) says.", "quantifier": "all names, environments, paths, and all forms of the ASSIGN clause", "why_tests_cant": "names and variables are unbounded texts, and which variable wins depends on the whole environment", "anchors": ["libcob/fileio.c: cob_ex_open, cob_ex_delete_file", "libcob/common.c: cb_get_jisword_buff", "cobc/tree.c: cb_get_hexword, finalize_file", "cobc/typeck.c: cb_build_assignment_name, get_coded_filename"]}
{"id": "C79", "title": "The arguments of a CALL: BY REFERENCE, BY CONTENT, BY VALUE", "statement": "Whatever a called program does with its parameters and for however long, the only bytes of the caller that can change are those of items passed BY REFERENCE. An item passed BY REFERENCE is the called program's parameter: at every moment both see the same bytes, also when an item is passed twice or items overlap, and a byte stored by the called program is in the caller's item at the same place. A parameter passed BY CONTENT starts as a copy of the item and nothing stored in another parameter changes it. A numeric literal of fewer than ten digits reaches the called program as a four-byte native binary number, a longer one as an eight-byte one, an alphanumeric literal and the result of a FUNCTION character for character; BY VALUE with SIZE AUTO a number is passed in the fewest bytes, equal to it modulo that size; a whole number BY VALUE with a SIZE reaches a parameter of the same SIZE if it is in its range. In a program with several entries each linkage item named in the entry's USING gets the argument at its place and the others none; under sticky-linkage an argument left out is the one last given; an ANY LENGTH parameter has the length of the argument last given.", "quantifier": "every called program (any sequence of reads and single-byte writes of its parameters, any number of steps), every list of arguments and parameters, every storage contents, every number, every list of entries and every history of calls", "why_tests_cant": "what a called program may do to its caller ranges over all programs and all aliasings of the arguments; what a left-out argument is depends on the whole history of calls", "anchors": ["cobc/codegen.c: output_call, output_integer, output_data, output_size, output_entry_function, output_internal_function (sticky linkage, ANY LENGTH)", "cobc/parser.y: call_param, procedure_param, size_optional", "cobc/tree.c: cb_fits_int"]}
{"id": "C80", "title": "Arithmetic statements as a whole", "statement": "ADD, SUBTRACT, MULTIPLY, DIVIDE (every format without REMAINDER and CORRESPONDING) and COMPUTE compute, for every receiver, the result from the numbers the items held when the statement began - even when an operand is itself a receiver - and store it rounded or truncated to the receiver's own decimals if the receiver has room for it. A receiver whose result is beyond it is left unchanged when the statement has ON SIZE ERROR (or, under binary-truncate, either phrase), the other receivers still get theirs, and no other item changes; without a phrase (under binary-truncate) a zoned or packed receiver takes the low-order digits. ON SIZE ERROR is taken when a result was beyond its receiver or a divisor is zero, NOT ON SIZE ERROR when every result had room; after a division by zero no item has changed.", "quantifier": "all statements with any number of operands and receivers, all expressions of any size (a division only as the last operation), items of every usage, size, sign and scale, all contents, both settings of binary-truncate, both phrases present or absent, any prior contents of the work registers", "why_tests_cant": "unbounded number of operands, receivers and contents; the code chooses between four ways of doing the arithmetic per receiver", "anchors": ["cobc/parser.y: add_body, subtract_body, multiply_body, divide_body, compute_body, on_size_error", "cobc/typeck.c: cb_emit_arithmetic, build_decimal_assign, decimal_expand, build_store_option, cb_build_add, cb_build_sub", "cobc/tree.c: cb_build_binary_list, cb_fits_int", "cobc/codegen.c: output_stmt", "libcob/numeric.c: cob_add, cob_sub, cob_add_int, cob_decimal_get_field"]}
{"id": "C81", "title": "The life of a program: CALL, EXIT PROGRAM, GOBACK, CANCEL, INITIAL and LOCAL-STORAGE", "statement": "A called program starts in its initial state (VALUEs, RETURN-CODE 0, files closed) at its first call, after CANCEL and, if INITIAL, at every call; otherwise it finds WORKING-STORAGE and files as it left them. LOCAL-STORAGE is new in every activation, also in a recursive one, and the caller's copy is untouched. EXIT PROGRAM returns from a called program and does nothing in the first one; GOBACK always returns. On return the caller runs again with its storage, files and LOCAL-STORAGE as before and with the callee's RETURN-CODE in its RETURN-CODE; the runtime then takes the caller for the running program. CANCEL closes all files of the cancelled program.", "quantifier": "all sets of programs, all histories of storage changes, OPEN, CLOSE, CALL, CANCEL, EXIT PROGRAM and GOBACK of any length and depth (recursion included for the storage part)", "why_tests_cant": "Which storage a program finds depends on the whole history of calls and cancels; histories and depths are unbounded.", "anchors": ["cobc/codegen.c: output_internal_function, output_initial_values, output_base, output_goto, output_call, output_file_initialization", "libcob/call.c: cobcancel, cob_set_cancel", "cobc/typeck.c: cb_build_registers"]}
{"id": "C82", "title": "Byte-stream files: CBL_OPEN_FILE, CREATE, READ, WRITE, CLOSE, DELETE, RENAME, COPY, CHECK_FILE_EXIST", "statement": "For every file system to begin with and every history of calls of the routines for byte-stream files, with whatever answers of the operating system, each call gives back what the history of the writes says: CBL_READ_FILE the bytes at the offset as last written through any handle of the file (zero bytes in gaps), 10 at the end of the file, the rest of the buffer untouched, with flag 128 the size of the file; CBL_WRITE_FILE changes only the bytes it covers; CBL_COPY_FILE makes an independent copy of every size; names are taken up to the first space, NUL or quotation mark; handles stay usable after the name is deleted or renamed; failures are reported as -1, 30, 35 and 128 and change nothing. Boundary: WRITE and COPY that the operating system executes only in part, COPY of a file to itself.", "quantifier": "every initial file system, every finite history of calls, every content of the parameters (offsets of 8, lengths of 4 bytes), every answer of the operating system", "why_tests_cant": "Histories of writes, offsets, file sizes and handles are unbounded, and handles, names and copies share files.", "anchors": ["libcob/fileio.c:CBL_OPEN_FILE", "libcob/fileio.c:CBL_CREATE_FILE", "libcob/fileio.c:CBL_READ_FILE", "libcob/fileio.c:CBL_WRITE_FILE", "libcob/fileio.c:CBL_CLOSE_FILE", "libcob/fileio.c:CBL_DELETE_FILE", "libcob/fileio.c:CBL_COPY_FILE", "libcob/fileio.c:CBL_CHECK_FILE_EXIST", "libcob/fileio.c:CBL_RENAME_FILE", "libcob/fileio.c:cob_str_from_fld", "libcob/fileio.c:open_cbl_file"]}
{"id": "C83", "title": "ACCEPT FROM DATE, DAY, DAY-OF-WEEK, TIME, FUNCTION CURRENT-DATE, and COB_DATE", "statement": "For every sequence of ACCEPT FROM DATE [YYYYMMDD], DAY [YYYYDDD], DAY-OF-WEEK, TIME, FUNCTION CURRENT-DATE and SECONDS-PAST-MIDNIGHT, at whatever instants: without COB_DATE each gives the day and time of the instant at which it runs, in the documented number of digits; the forms agree with each other and with FUNCTION INTEGER-OF-DATE and INTEGER-OF-DAY (day of the year, day of the week 1 = Monday to 7 = Sunday). With COB_DATE=year/month/day, a valid day from 1971 on, every one of them gives that day, and the time of day of its instant, throughout the run. A COB_DATE that is not of this form or before 1969 changes nothing. The digits reach an unsigned DISPLAY item with room for them unchanged.", "quantifier": "every sequence of questions and instants (1970 to 9998), every value of COB_DATE of the forms described, every C library whose localtime and mktime are as assumed (shown to exist), every receiving item", "why_tests_cant": "The answers depend on the clock and on the order of the questions (CURRENT-DATE writes into the job date that the others read); tests run at one instant.", "anchors": ["libcob/common.c:job_or_current_localtime", "libcob/common.c:cob_localtime", "libcob/common.c:cob_init", "libcob/common.c:cob_accept_date", "libcob/common.c:cob_accept_date_yyyymmdd", "libcob/common.c:cob_accept_day", "libcob/common.c:cob_accept_day_yyyyddd", "libcob/common.c:cob_accept_day_of_week", "libcob/common.c:cob_accept_time", "libcob/intrinsic.c:cob_intr_current_date", "libcob/intrinsic.c:cob_intr_seconds_past_midnight"]}
{"id": "C84", "title": "Dates with two digits of the year: expansion is the inverse of ACCEPT FROM DATE and DAY", "statement": "A valid date (day of a year) cut to two digits of the year and expanded by FUNCTION DATE-TO-YYYYMMDD (DAY-TO-YYYYDDD) is recovered exactly when its year is one of the hundred years that end `interval` years after the base year; what ACCEPT FROM DATE and FROM DAY give is expanded, with interval 50 and the current year, to what ACCEPT FROM DATE YYYYMMDD and DAY YYYYDDD give at that instant, also under COB_DATE.", "quantifier": "all dates, intervals and base years in range; all instants and values of COB_DATE as in C83", "why_tests_cant": "Three integer arguments and the current date; the window boundary moves every year.", "anchors": ["libcob/intrinsic.c:cob_intr_year_to_yyyy", "libcob/intrinsic.c:cob_intr_date_to_yyyymmdd", "libcob/intrinsic.c:cob_intr_day_to_yyyyddd"]}
{"id": "C85", "title": "FUNCTION SECONDS-FROM-FORMATTED-TIME", "statement": "For every format and value: when the format has \"hh\", \"mm\" and \"ss\" at positions where the value has two digits (the first such position counts, in any order, with any characters between), the result is hours*3600+minutes*60+seconds without exception; when one of the three is missing, or the value is shorter than the format, it is 0 with EC-ARGUMENT-FUNCTION.", "quantifier": "all formats and values of any length", "why_tests_cant": "Formats are arbitrary strings.", "anchors": ["libcob/intrinsic.c:cob_intr_seconds_from_formatted_time"]}
{"id": "C86", "title": "What a word is: function, reserved word, constant or word of the program", "statement": "For every word of a source program in whatever case, every configuration (not-reserved lines, FUNCTION ALL INTRINSIC, the status registers) and everything the program defined before: with FUNCTION ALL INTRINSIC the word is a function exactly if it names an implemented function and is not taken out; otherwise it has the token of a reserved word exactly if the compiler's list (536 words) has it as supported and it is not taken out; the message that a reserved word is not supported comes exactly for the listed words without support; every other word is the last defined constant of that name, or behind PROGRAM-ID the program name, or a class, mnemonic name or user word, in that order. The case of letters never matters, no word has two entries, and no definition of the program takes precedence over a reserved word.", "quantifier": "every word, every configuration and every set of definitions", "why_tests_cant": "The lists are searched by halving: a single entry out of order makes other words unfindable; there are unboundedly many words, cases and configurations.", "anchors": ["cobc/reserved.c:reserved_words", "cobc/reserved.c:function_list", "cobc/reserved.c:lookup_reserved_word", "cobc/reserved.c:lookup_intrinsic", "cobc/scanner.l:word rule"]}
{"id": "C87", "title": "Configuration files: -std, -conf, include and not-reserved", "statement": "For every configuration file with its includes, to any depth: if every line is a comment, blank, or a known tag with a value of its type, and every setting (except assign_external) has a line, the configuration is accepted without a message, every setting has the value of the line read last (lines of an included file stand in the place of the include), assign_external without a line is no, and the not-reserved words are taken out in addition to those before. Nothing else is accepted, and a configuration is refused exactly if there is a message.", "quantifier": "every file system of text files, every file, any depth of includes, every state before", "why_tests_cant": "Files, includes and orders of lines are unbounded; the tests use the shipped files.", "anchors": ["cobc/config.c:cb_load_conf", "cobc/config.c:cb_load_std", "cobc/config.c:read_string", "cobc/config.c:config_table", "cobc/config.def"]}
{"id": "C88", "title": "Library routines C$JUSTIFY, CBL_TOUPPER, CBL_TOLOWER, C$NARG, C$PARAMSIZE and C$CALLEDBY", "statement": "C$JUSTIFY moves the text of every item, without the spaces at its ends and unchanged, to the left (L), the middle (C, with at most one space more on the right) or else the right, and fills the rest with spaces. CBL_TOUPPER and CBL_TOLOWER change exactly the letters of the other case among the bytes of the length given. After every history of CALLs and returns, in a program that has not called another one since it was entered, C$NARG gives the number of arguments it was called with and C$PARAMSIZE the size of each of them as passed, 0 for other numbers; in general C$NARG gives the number of arguments of the program entered last. C$CALLEDBY puts the name of the calling program at the front of the item (spaces in the main program).", "quantifier": "every item content and size, every length, every history of calls and returns of any depth without recursion, all arguments", "why_tests_cant": "Depends on the whole history of calls and on all contents.", "anchors": ["libcob/common.c:cob_acuw_justify", "libcob/common.c:CBL_TOUPPER", "libcob/common.c:CBL_TOLOWER", "libcob/common.c:cob_return_args", "libcob/common.c:cob_parameter_size", "libcob/common.c:cob_acuw_calledby", "cobc/codegen.c:output_call", "cobc/codegen.c:output_internal_function"]}
{"id": "C89", "title": "FUNCTION VARIANCE, RANDOM and STORED-CHAR-LENGTH", "statement": "VARIANCE of any number of numeric items, of any usage, size and scale, gives the exact variance of the numbers they hold with 18 digits, cut off there (the intermediate mean, itself cut off at 37 decimals or more, moves it by less than 10^-74, and not at all when the mean has 37 decimals), as long as it is below 10^18 - 1. RANDOM gives back a fraction of at least 0 and below 1 whose decimals are the digits of one number of the generator; a seed alone decides all numbers that follow it. STORED-CHAR-LENGTH is the length of the text without the spaces at its end.", "quantifier": "every list of well-formed numeric items and the numbers they hold; every generator with numbers below 2^31, every state of it, every series of calls; every text", "why_tests_cant": "the result depends on all values, scales and the number of arguments at once, and rounding of the intermediate mean shows only for some of them", "anchors": ["libcob/intrinsic.c:cob_intr_variance", "libcob/intrinsic.c:cob_intr_random", "libcob/intrinsic.c:cob_intr_stored_char_length"]}
{"id": "C90", "title": "FUNCTION EXCEPTION-STATUS, EXCEPTION-STATEMENT, EXCEPTION-LOCATION and EXCEPTION-FILE", "statement": "After every history of statements, exceptions, statements that clear the exception, and input-output: EXCEPTION-STATUS is the name of the exception raised last if nothing cleared it since, otherwise spaces; EXCEPTION-FILE is the status and name of the file last used when that exception is one of input-output, and 00 when there is none and for most other classes; in programs compiled with locations in which each statement is on another line than the one in front of it, EXCEPTION-STATEMENT is the name of the statement begun last before the exception was raised, and EXCEPTION-LOCATION its program, paragraph, section and line, whatever order the statements of whatever programs were executed in.", "quantifier": "every set of programs, every history of events of any length in any order, all exceptions, statuses and files", "why_tests_cant": "the functions tell about the past: every order of statements, exceptions and programs is a different case", "anchors": ["libcob/intrinsic.c:cob_intr_exception_status", "libcob/intrinsic.c:cob_intr_exception_statement", "libcob/intrinsic.c:cob_intr_exception_location", "libcob/intrinsic.c:cob_intr_exception_file", "libcob/common.c:cob_set_location", "libcob/common.c:cob_set_exception", "libcob/common.c:cob_get_exception_name", "libcob/fileio.c:save_status", "cobc/codegen.c:output_stmt", "libcob/exception.def"]}
{"id": "C91", "title": "Locks of INDEXED files shared by processes (DB_HOME), for every interleaving", "statement": "When several processes use INDEXED files in a common Berkeley DB environment, in every state that any interleaving of their statements, step by step, can lead to: no two connectors hold the lock of the same record of the same file; a lock is kept whatever others do until a statement of its own connector; when a statement of an open file has ended, its connector holds the lock of the record just read or written exactly if the statement asked for it (WITH LOCK, LOCK MODE AUTOMATIC) and ended with status 00, and no other; while a record is locked, no READ (without IGNORE LOCK), REWRITE or DELETE begun by another connector for that record reads or changes it, and it ends with status 51; a lock is refused only because of the same record of the same file; two processes have a file open together only if neither of them opened it in a way that excludes others, and an OPEN is refused only because of such a file lock of another process.", "quantifier": "any number of processes, connectors and files, every LOCK MODE and open mode, every program of statements and every interleaving of their single calls of the lock manager and the database, of any length", "why_tests_cant": "a test sees one schedule; the claim is about all of them", "anchors": ["libcob/fileio.c:lock_record", "libcob/fileio.c:test_record_lock", "libcob/fileio.c:unlock_record", "libcob/fileio.c:indexed_open", "libcob/fileio.c:indexed_close", "libcob/fileio.c:indexed_read", "libcob/fileio.c:indexed_read_next", "libcob/fileio.c:indexed_write", "libcob/fileio.c:indexed_rewrite", "libcob/fileio.c:indexed_delete_internal", "libcob/fileio.c:cob_file_unlock", "libcob/fileio.c:cob_ex_read", "cobc/typeck.c:cb_emit_read"]}
{"id": "C92", "title": "SEQUENTIAL, LINE SEQUENTIAL and RELATIVE files shared by processes, for every interleaving", "statement": "When every process has at most one connector for a file and does not UNLOCK it: in every state that any interleaving of the steps of OPEN, WRITE, CLOSE and of the buffers of the C library can lead to, two processes have a file open together only if both have it open INPUT; an OPEN ends with status 00 exactly if no other process has the file open at that moment, or all of them and this one are INPUT, and otherwise with status 61 and the file closed (OPEN INPUT SHARING WITH NO OTHER always with status 30); while a process has a file open, nothing that others do writes to it (but an OPEN OUTPUT empties it); and what a process writes between OPEN and the end of CLOSE is written to the file completely, in order and once, whatever others do.", "quantifier": "any number of processes, connectors and files, all open modes and SHARING phrases, every interleaving of single steps of any length, every moment at which the C library writes its buffer", "why_tests_cant": "a test sees one schedule of the processes and one moment of flushing", "anchors": ["libcob/fileio.c:cob_file_open", "libcob/fileio.c:cob_file_close", "libcob/fileio.c:cob_file_unlock", "libcob/fileio.c:cob_ex_open", "cobc/typeck.c:cb_emit_open", "cobc/parser.y:sharing_option"]}
{"id": "C93", "title": "ALPHABET and CLASS clauses", "statement": "The compiler accepts an ALPHABET clause of literals exactly if every value is a character and no character is listed twice (THRU and ALSO included). If no THRU of an accepted clause goes down, then in the collating sequence of the program every character has the place that COBOL gives it: listed characters in the order of the list, those joined with ALSO at one place, and all others behind them in their own order; LOW-VALUE is one of the lowest and HIGH-VALUE one of the highest characters of that sequence. A class condition with a CLASS name is true exactly if every character of the item is one that the clause names, by itself or by a range in either direction.", "quantifier": "all ALPHABET and CLASS clauses of any length with texts, numbers, figurative constants, THRU and ALSO; all characters; all contents of the tested item", "why_tests_cant": "the table depends on every combination of entries; a test sees a few clauses", "anchors": ["cobc/typeck.c:cb_validate_program_environment", "cobc/typeck.c:get_value", "cobc/codegen.c:output_alphabet_name_definition", "cobc/codegen.c:output_class_name_definition", "cobc/parser.y:alphabet_literal", "cobc/parser.y:class_item", "cobc/parser.y:literal_value"]}
{"id": "C94", "title": "SORT of a table", "statement": "SORT of a table that begins at the start of its record (with the collating sequence of the program or of an alphabet that is not NATIVE) leaves the same elements, in the order of the ASCENDING and DESCENDING keys; everything else in the record is unchanged, also the elements that an OCCURS DEPENDING ON table does not have at the moment. If no two elements have equal keys, the result is the same with every C library.", "quantifier": "all tables, numbers of elements, lists of numeric and alphanumeric keys with proper contents, collating sequences, records, and all sorting functions that do what the C standard says of qsort", "why_tests_cant": "a test sees one table, one list of keys and one C library", "anchors": ["libcob/common.c:cob_table_sort", "libcob/common.c:cob_table_sort_init", "libcob/common.c:cob_table_sort_init_key", "libcob/common.c:sort_compare", "cobc/typeck.c:cb_emit_sort_init", "cobc/parser.y:sort_statement"]}
{"id": "C95", "title": "REDEFINES inside a group", "statement": "If no entry of a group names itself in its REDEFINES clause, the compiler accepts the clauses of the group exactly if each names an entry in front of it (the first of the group with that name, in capital or small letters) that has the same level number and is not a redefinition itself (unless the configuration says indirect-redefines), with nothing but redefinitions between the two. In an accepted group an entry with REDEFINES starts in storage where the entry starts that it names, and all entries have the places of C48, where a redefinition lies over the last entry in front of it that is none: so that entries that are not redefinitions never overlap.", "quantifier": "all groups of any number of entries, names, level numbers, sizes and REDEFINES clauses, both settings of indirect-redefines", "why_tests_cant": "the clauses of a group depend on one another (chains of redefinitions); a test sees a few groups", "anchors": ["cobc/field.c:cb_resolve_redefines", "cobc/field.c:validate_field_1", "cobc/field.c:compute_size", "cobc/parser.y:redefines_clause", "cobc/cobc.c:sjis_casecmp"]}
{"id": "C96", "title": "RENAMES stands for exactly the bytes from the first item to the last", "statement": "For every record the compiler lays out, of any depth: 66 R RENAMES B stands for the bytes of B; 66 R RENAMES B THRU C, with B in front of C, begins where B begins and ends where C ends, contains B, C (if it has no OCCURS) and every item between them with everything subordinate to them, and touches nothing in front of B or behind C, nor anything outside the record. It is accepted exactly if the items named are not at level 01 and not at a level above 50. A numeric item is read through R as by its own name if its USAGE and SIGN clauses are those of the 01 entry. Findings: C in front of B is accepted (size below zero), THRU an item with OCCURS takes its first occurrence only, an item of another record is accepted and gives bytes outside the record, and R of a COMP item or of one with SIGN SEPARATE is read with the USAGE and SIGN of the 01 entry, so with another value.", "quantifier": "all record descriptions (any depth, OCCURS, REDEFINES, SYNCHRONIZED), all pairs of items in them, all third items, all level numbers", "why_tests_cant": "the items, nesting depths and positions are unbounded; that nothing else is touched speaks about every other item of every record", "anchors": ["cobc/parser.y:renames_clause", "cobc/field.c:compute_size", "cobc/field.c:cb_build_field_tree", "cobc/field.c:validate_field_1", "cobc/tree.c:cb_tree_category"]}
{"id": "C97", "title": "External switches say what was set last", "statement": "For every history of SET ... TO ON / OFF statements and X\"91\" calls of all programs of a run unit: the ON STATUS condition of a switch is true exactly if the last statement that sets the switch sets it on, or none sets it and the environment variable COB_SWITCH_n is ON in capital or small letters; the OFF STATUS condition is its opposite; X\"91\" function 12 gives the same values. SWITCH-n and UPSI-(n-1), n = 1..8, name the same switch and nothing else names one; condition-names are accepted for switches only, and without mnemonic name only if the configuration says so. Findings: SET ON / OFF of the mnemonic name of a device or printer channel is accepted and sets a switch (CONSOLE: switch 4) or writes outside the switches (C08 to C12); a condition-name for a system-name that is no switch, without mnemonic name, makes the compiler use a null pointer.", "quantifier": "all histories of statements, all programs with any SPECIAL-NAMES, all environments, all switches, all parameter areas", "why_tests_cant": "histories are unbounded and interleave several programs; all environment values and all eight switches times every order of settings", "anchors": ["libcob/common.c:cob_init", "libcob/common.c:cob_get_switch", "libcob/common.c:cob_set_switch", "libcob/common.c:CBL_X91", "cobc/typeck.c:cb_define_switch_name", "cobc/typeck.c:cb_emit_set_on_off", "cobc/reserved.c:system_table", "cobc/parser.y:mnemonic_name_clause"]}
{"id": "C98", "title": "OCCURS DEPENDING ON: the size of a group follows the counter", "statement": "For every record that the compiler (complex-odo: no) accepts with a table OCCURS ... DEPENDING ON: with n in the counter every group that contains the table has, as a sending item or if the counter is outside the group, exactly the size it would have if the table were declared with n occurrences, and otherwise its largest size; all items are at the addresses and have the sizes they would have then, for every n. The size contains everything in front of the table and its first n elements, nothing of the others, and stays within the group while n is not above the largest number. Accepted, without redefinitions behind the table, are exactly the records that end in the table with no OCCURS above it. Findings: the counter is not checked where a group is used (9 in a counter for at most 5 reads past the record); with complex-odo: yes an item behind an elementary variable table is addressed behind its largest size while the size of the group follows the counter, a fixed table behind a variable one counts once, and what follows a redefinition is left out.", "quantifier": "all record descriptions of any depth, all positions of the table, all counter values, all groups and items of the record", "why_tests_cant": "records, depths and counter values are unbounded; the claim compares the run-time size with the layout of another declaration for every n", "anchors": ["cobc/field.c:validate_field_1", "cobc/codegen.c:output_size", "cobc/codegen.c:output_base", "cobc/tree.c:cb_field_variable_size", "cobc/tree.c:cb_field_variable_address"]}
{"id": "C99", "title": "STOP RUN closes exactly the files that are open", "statement": "For every history of file statements on any number of files of a run unit, with any answers of the file system: STOP RUN (and a run-time error or a signal) closes every file that is open, leaves every file that is closed, closed WITH LOCK or was never opened as it is, and reports each file it closes exactly once and no other; the stream it closes is an open one (none for an OPTIONAL file that does not exist). Afterwards no file is open, so that ending a second time closes and reports nothing.", "quantifier": "all histories of OPEN, CLOSE, READ, WRITE, REWRITE, START, DELETE on any files, all file descriptions, all answers of the file system", "why_tests_cant": "histories and the number of files are unbounded; the claim is about every file after every history", "anchors": ["libcob/fileio.c:cob_exit_fileio", "libcob/fileio.c:cob_cache_file", "libcob/fileio.c:cob_ex_open", "libcob/fileio.c:cob_ex_close", "libcob/common.c:cob_stop_run", "libcob/common.c:cob_sig_handler"]}
{"id": "C100", "title": "COMMIT and ROLLBACK", "statement": "For every history of file statements on any number of files of a run unit: COMMIT deals with every file that is open exactly once and with no other file; what was written and is still in a buffer is brought to the file, in order and once; every file stays open in its mode; the process has afterwards no lock for a file that it has open without LOCK MODE EXCLUSIVE, and every other lock and all files of other processes are as before. The stream used is the open stream of the file, unless the file is an OPTIONAL one that is missing. UNLOCK does the same with one file, and nothing with one that is not open. (Findings: ROLLBACK is the same as COMMIT and takes nothing back; a missing OPTIONAL file makes COMMIT, ROLLBACK and UNLOCK use a null or released stream; after COMMIT another process can empty and write a file that is still open for writing.)", "quantifier": "all histories of file statements on any files, all file descriptions, all answers of the file system; all states of connectors, buffers and locks of any number of processes, all lists of opened files", "why_tests_cant": "histories, the number of files and the states of other processes are unbounded", "anchors": ["libcob/fileio.c:cob_ex_commit", "libcob/fileio.c:cob_ex_rollback", "libcob/fileio.c:cob_file_unlock", "libcob/fileio.c:cob_ex_unlock_file", "cobc/typeck.c:cb_emit_commit", "cobc/typeck.c:cb_emit_rollback"]}
