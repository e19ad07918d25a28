{
"C01":["proved","Zoned items of any length, all sign conventions; store image, load image, round trip and truncation of high-order digits."],
"C02":["proved","Packed items of any length; C02_truncation covers high-order truncation."],
"C03":["proved","COMP/COMP-5/BINARY of 1..8 bytes. Findings: C03_overflow_wraps, C03_min_value_refused, C03_trunc_loses_sign show where stored values differ from the naive expectation."],
"C04":["proved","ON SIZE ERROR (COB_STORE_KEEP_ON_OVERFLOW) leaves every receiver kind unchanged exactly when the value does not fit."],
"C05":["proved","Truncation and nearest-away-from-zero rounding against a rational-number spec, with uniqueness of the spec."],
"C06":["proved","Exact rational arithmetic for add/sub/mul/pow on decimals and on items. Findings: C06_mul_nan_collision (scale -128 is taken for 'no value'), C06_pow_truncates_exponent."],
"C07":["proved","Quotient truncated beyond COB_MAX_DIGITS digits; zero divide."],
"C08":["proved","dividend = quotient*divisor + remainder with the truncated stored quotient."],
"C09":["proved","Numeric comparison is the order of the rational values, for items of any representation."],
"C10":["proved","In-place ADD of an integer to a zoned item; findings C10_wraps_silently, C10_notrunc_wraps, C10_negative_zero."],
"C100":["proved","Files that are not INDEXED."],
"C11":["proved","In-place ADD of an integer to a packed item; findings C11_wide_operand_wrong, C11_overflow_silent, C11_negative_scale_wrong."],
"C12":["proved","cob_cmp_packed with its static cache, over every history of earlier calls; finding C12_negative_zero."],
"C13":["proved","MOVE between zoned, packed and binary items: digits aligned on the decimal point, high/low-order truncation, sign kept iff receiver signed. Findings C13_runaway_loop, C13_wide_to_binary_overflows."],
"C14":["proved","Left/right justified text MOVE, numeric DISPLAY to text."],
"C15":["proved","MOVE ALL to alphanumeric items; findings C15_last_lead_byte_blanked, C15_numeric_receiver_18_digits."],
"C16":["proved","C16_edit/C16_move: complete text for all senders; C16_inside: in bounds for arbitrary digits; C16_roundtrip: de-editing. PICTUREs with P or V are modelled but not in the class (C16_finding_vpp shows why); hypotheses ValueFits/fracSep/DeEditable exclude exactly the cases the C16_finding_* theorems show to go wrong. Text-only findings: BLANK WHEN ZERO with decimals makes the item one byte too long (cobc/field.c 648-675)."],
"C17":["proved","Packed<->zoned MOVE is part of C13_move; findings for P pictures and NUL senders."],
"C18":["proved","Single phrases against a recursive spec of non-overlapping occurrences with BEFORE/AFTER regions; several ALL phrases in sequence. Findings C18_phrase_order_beats_position and C18_leading_skips_claimed: with several phrases the code counts phrase by phrase instead of position by position."],
"C19":["proved","ALL/LEADING/FIRST/TRAILING/CHARACTERS against the same spec; length and bytes outside the region kept; first phrase wins."],
"C20":["proved","CONVERTING: first matching table entry decides; finding C20_low_values_reads_outside."],
"C21":["proved","STRING with any number of senders, delimiters and POINTER."],
"C22":["proved","UNSTRING with any delimiters (with or without ALL), POINTER, TALLYING, DELIMITER IN, COUNT IN."],
"C23":["proved","Texts of any length, any collating table, ALL literals, numeric operands as their digits, antisymmetry for every mix of operands. Findings: C23_national_never_less and C23_national_not_antisymmetric (SJIS national comparison never answers 'less')."],
"C24":["proved","Exact characterisation for text, zoned (ASCII trailing sign, unsigned, and every item that holds a number), packed. Findings: C24_numeric_test_changes_item, C24_separate_sign_not_checked, C24_ebcdic_sign_not_checked, C24_control_characters_alphabetic show where the class test accepts or modifies invalid contents."],
"C25":["proved","Records with proper numeric keys; NATIONAL keys are covered only by the finding in C23."],
"C26":["proved","All dates of 1601..9999; INTEGER-OF-DATE/DAY, DATE/DAY-OF-INTEGER, TEST-DATE/DAY with their codes (C26_test_date_which, C26_test_day_which), COMBINED-DATETIME. Finding: COMBINED-DATETIME refuses 0 seconds (C26_finding_midnight)."],
"C27":["proved","The plain statement (floor, MOD with the sign of the divisor) is false of the code for some arguments: C27_integer characterises exactly when INTEGER is the floor, C27_finding_integer / C27_finding_mod(_run) are witnesses; INTEGER-PART, FRACTION-PART, REM, MOD, ABS, SIGN and FACTORIAL are proved for the stated argument ranges, with witnesses of what happens outside them."],
"C28":["proved","Bytes, C locale. Findings: reference modification behind the value is ignored, SJIS double-byte characters are changed by LOWER-CASE, SUBSTITUTE-CASE stops at NUL."],
"C29":["proved","Finding: DATE-TO-YYYYMMDD accepts dates whose year has more than two digits (C29_finding_date)."],
"C30":["proved","MIN, MAX, ORD-MIN, ORD-MAX, SUM, RANGE, MEDIAN, MEAN, MIDRANGE, PRESENT-VALUE over any number of numeric arguments; the store of a result into a floating point number is not modelled. Finding: ORD-MIN/ORD-MAX of a single argument is 0."],
"C31":["proved","All histories of requests, as list of (name, length). Areas are identified by the order of allocation; that cob_malloc delivers distinct zeroed areas is an assumption."],
"C32":["proved","All histories of ALLOCATE, FREE and SET to arbitrary addresses, for any malloc that returns areas not in use (addresses may be reused). Finding: FREE through a stale alias releases the area given out again."],
"C33":["proved","Exact: C33_procedures gives the registered handlers when every call names a new or the most recent handler and shows that all other histories read freed storage (C33_finding_use_after_free); C33_codes relates the install codes of the two routines to the list."],
"C34":["proved","Operands in one storage, overlapping allowed when the first does not begin in front of the second; C34_finding_overlap shows the other case. Also CBL_XF4/XF5 and the switches of CBL_X91."],
"C35":["proved","Exact for all arguments without 32-bit overflow; C35_ref_mod_all covers all 32-bit arguments; C35_finding_ref_mod is a reference outside the item that is accepted. NULL addresses: exact for statements with one such record; C35_based_last says which one is checked in general."],
"C36":["proved","C36_statuses: the statuses of every proper history equal those of the observational automaton Seen, whose state is updated from the statement and the status only (plus the system's answer to OPEN); C36_streams: in every proper history each organisation routine and each close is called on an open stream. Findings (concrete executions outside the boundary): READ/WRITE/START/CLOSE after CLOSE WITH LOCK use a released stream (locked); WRITE/REWRITE/DELETE on an absent OPTIONAL file open I-O use a null stream (optional); READ on closed file answers 10/23/46 (closed); OPEN refused with 57 leaves the stream open (linage). Organisation routines' results are arbitrary values; their behaviour is C37-C39."],
"C37":["proved","History refinement to a list of records (SeqSpec) for fixed and variable records; C37_write_limits covers WRITEs outside the record limits; findings: record lengths from 65536 lose their length field, a longer record on file overruns the record area, empty records. I/O errors and the external file handler are not modelled."],
"C38":["proved","Round trip for every list of WRITEs with any ADVANCING lines, both COB_LS_NULLS and COB_LS_FIXED settings; reading of arbitrary text. Findings: LF in data, ADVANCING PAGE joins lines."],
"C39":["proved","C39_history: every legal history of statements, from the creation of the file, is answered (status, record, RELATIVE KEY item) as by the map specification RelSpec; C39_reopen the same after close and reopen with either access mode; C39_enumeration: READ NEXT after reopening gives exactly the present numbers ascending, then 10, then 46. Findings, as concrete executions: after START + READ NEXT a DELETE deletes record 1 (start_delete); READ NEXT after an unsuccessful START returns garbage with 00 (start_garbage); REWRITE/DELETE of a deleted record answers 00 (rewrite_absent); START LESS from above the extent answers 23 (start_less); REWRITE with another length keeps the old length (rewrite_length). Not modelled: status 14 (key too large for the item), locks, I/O errors."],
"C40":["proved","Full: RELEASE/RETURN with the in-memory merge, the spilling to temporary files at the level of bytes, the file merge passes and the final merge. The order is the actual key comparison (C25). Not modelled: I/O errors on temporary files, USING/GIVING copying. Findings: fewer than four records in memory with spilling is a null dereference; the sizes of variable records are lost when spilled."],
"C41":["proved","Exact characterisation of every answer after every history (C41_answers), stability as a corollary, injectivity of the name encoding for names without underscore; collisions with underscores proved as findings. The loader is an oracle that may change at every call."],
"C42":["proved","For all histories with at most two different callees per node; for more the code is wrong and the findings prove it (third callee lost, sister lost, hyphenated names not cancelled). Assumes GCC's evaluation order of `p->x = f()` where f changes p's global."],
"C43":["proved","C43_values: size, sign, digits, scale and runtime symbol list are counted on the expansion, for every accepted string with an expansion shorter than 2^29 symbols, at most one 'C' and one 'D', and DB written out (C43_double_c, C43_db_factor, C43_overflow_* show the excluded strings go wrong). C43_category: category. C43_accepts: every proper PICTURE without 'P' is accepted. C43_scaled: every numeric PICTURE with 'P' on one side is accepted and gives the right digits and scale. C43_edited_move composes with C16. C43_binary_room / C43_compx_room / C43_decimal_room: storage sizes. Findings: C43_overflow_mark_lost, C43_overflow_numeric, C43_overflow_sum, C43_scale_wraps, C43_float_no_decimals, C43_double_c, C43_db_factor, C43_only_sign, C43_p_then_v, C43_p_then_v_factor, C43_compx_signed_no_room. Not modelled: the scanner in front of cb_build_picture, message texts. C43_repeat: a repetition factor in parentheses of any number of digits (up to 47) stands for that many symbols or is refused."],
"C44":["proved","History refinement to a report of logical pages, with items that may change between WRITEs. Excluded and shown as findings: ADVANCING 0 LINES, position of AFTER ADVANCING records (one line early), the global end-of-page flag leaking after a 57. LINAGE-COUNTER arithmetic is unbounded in the model (PIC 9(9) COMP-5 in the code)."],
"C45":["proved","Sign overpunch round trip, ASCII and EBCDIC."],
"C46":["proved","COMPUTE expression compilation with decimal registers."],
"C47":["proved","Finding C47_reads_past_source: V-P pictures make the skip loop run past the sender."],
"C48":["proved","Layout with exact and 32-bit arithmetic (C48_arithmetic: equal below 4 GB); C48_placed gives the exact position of every item (first aligned position). Findings: SYNC at a binary group separates the group from its items; two longer redefinitions are both added; a product of 2^32 wraps to 0. OCCURS DEPENDING in the middle of a record is not modelled."],
"C49":["proved","C49_condition for every operand pair cobc compiles with a numeric comparison, over a model of cb_build_cond/cb_build_optim_cond/cb_chk_num_cond/output_integer/cb_fits_int and the routines; per-routine theorems C49_binary, C49_packed, C49_signed_display. Excluded with proved findings: right operands with P pictures (C49_finding_scaled_binary, C49_finding_scaled_display); packed negative zero (C12_negative_zero)."],
"C50":["proved","C50_add_item, C50_sub_item for every usage; exact bytes modulo 2^(8 size) for binary (C50_add_binary, C50_sub_binary, C50_set_swapped); packed: C50_add_packed. Findings: C50_packed_spare_nibble, C50_finding_unsigned_operand, C50_finding_no_truncation."],
"C51":["proved","C51_literal / C51_literal_same / C51_literal_native / C51_literal_zoned (numeric literals), C51_zero, C51_field, and the text theorems C51_figurative, C51_text_literal, C51_number_text, C51_all, C51_text_item, C51_zoned_item. Excluded with proved findings: literals that do not fit the PICTURE of a binary receiver (C51_finding_no_truncation), negative literals to unsigned binary items (C51_finding_negative), text literals to zoned items (C51_finding_text_number), numeric literals to JUSTIFIED RIGHT items (C51_finding_justified), ALL literals of bytes above 0x80 (C51_finding_all), values beyond the PICTURE (C51_finding_copy). C51_all_alphabetic: ALL literals to alphabetic items."],
"C52":["proved","C52_pretty, C52_plain, C52_binary (numbers), C52_text, C52_statement, C52_distinct (the text determines the value). Findings: C52_finding_cut (value beyond the PICTURE of a binary item), C52_finding_comp5_point (no decimal point for COMP-5), C52_finding_minus_zero."],
"C53":["proved","C53_line, C53_text, C53_justified, C53_end, C53_sequence, C53_zoned (the characters fit the item), C53_packed_binary, C53_roundtrip. Findings: C53_finding_last_line (the last character of an unterminated last line is lost), C53_finding_cut (a line for a zoned item is cut to the item's size first, so signs and points push digits out), C53_finding_nul."],
"C54":["proved","C54_store, C54_add_sub, C54_fast, C54_move, C54_inline, C54_text; no assumption on the contents."],
"C55":["proved","C55_compiled: simulation between the generated code (addresses, frames, counters, jumps) and a recursive interpreter, in both directions, for terminating and non-terminating programs. C55_once/_paragraphs/_section/_times/_until_before/_until_after/_varying/_varying_after say what the interpreter does in terms of executions of the bodies. The simulation excludes what has no defined effect: labels that do not exist, EXIT PERFORM outside an inline PERFORM, more than 254 active PERFORMs, a PERFORM TIMES entered while active. Findings: C55_finding_frames_leak (GO TO out of a performed range leaves its frame on the 255-entry stack, which then overflows unchecked unless compiled with the stack check), C55_finding_times_reentered."],
"C56":["proved","C56_arithmetic and C56_condition for every well-formed expression, under every interpretation of the operands. What may be written is in the spec (WF): a parenthesis does not begin with an abbreviated relation, NOT is not followed by ZERO or by a relation with its own NOT, a class test is applied to an item. Outside it: C56_finding_not_zero (B = C AND NOT ZERO = A is silently compiled as B = C AND B = A), C56_finding_parenthesized_object, C56_finding_not_not (rejected), C56_finding_class_parentheses. C56_accepted_typed: whatever is accepted is well typed, with C56_operands for what is refused; C56_finding_empty_parentheses."],
"C57":["proved","C57_search_all, C57_search_all_sound, C57_search_all_bounds, C57_serial; findings C57_finding_occurs_minimum, _element_zero, _key_gap, _repeated_key, _index_key, _varying."],
"C58":["proved","More than 18 digits give a floating-point result: only the text handed to sscanf is modelled. C locale for strcasecmp. C58_numval_c_credit: CR and DB in NUMVAL-C. C58_numval_long: 19 to 30 digits, the text handed to sscanf. C58_numval_cut / C58_finding_too_many_digits: the 31st digit is the last one looked at."],
"C59":["proved","Signed overflow in intermediate results (undefined in C) is taken to wrap around. Items with a P picture are left out. Zoned items with more decimals than characters make cob_display_get_int run past the item (text-only finding). C59_division: with division, when every intermediate result fits, the value is the step by step truncated one."],
"C60":["proved","NATIONAL operands, index names, pointers and expressions as operands are not in this property (expressions: C56, C49). Exclusions follow C49's findings (P pictures, -2147483648, packed negative zero). Findings: SET TO TRUE leaves the condition false when the literal is longer than the item or the item is JUSTIFIED RIGHT; two numeric literals of the same length compare without their decimal points; the sign of a literal counts as a character against a group only if the sizes differ."],
"C61":["proved","C61_history is the whole specification (exactly one answer per statement); the others are its consequences in terms of what a program does. WRITE with a length outside the record limits (44) is part of it. Excluded, and shown by the C61_finding theorems: sequential REWRITE in a file with another unique key (deletes another record or is undefined), sequential REWRITE that changes the record key to one in use (the record is lost), START <= with part of a key, keys that begin at the same place, REWRITE right after a WRITE refused for its length (C61_finding_length_left: an undersized record is stored). The position rules that the specification has to follow (number reuse after deleting the last duplicate, a lower key written after OPEN) are also shown as findings."],
"C62":["proved","Findings: INITIALIZE ... WITH FILLER of an item with REDEFINES does nothing; category TO VALUE acts like ALL TO VALUE; FILLER with VALUE is set without WITH FILLER; bytes of a redefinition longer than the item it redefines are overwritten or not depending on the neighbours; numeric-edited VALUE ZERO is filled with '0's. The MOVE statement is a parameter constrained by IEnv.Ok (its numeric zero is C51's)."],
"C63":["proved","Findings: in the second and later WHENs before the same statements, a condition 'NOT a AND b' is read as NOT (a AND b) because the counter of objects is not reset per WHEN; with more than 64 objects in a case the parser reads the table entries of a nested EVALUATE; with allow-empty-imperative-statement a last empty case takes the statements of WHEN OTHER (documented extension)."],
"C64":["proved","Findings: after an abandoned partial match the space in front of a replaced word is swallowed, so two words are joined (MOVE B -> MOVEX); text held back as the beginning of an old text is dropped at the end of the program; at the end of a copied file a held-back word is not compared with the later pairs; an empty old text is replaced for ever; COPY REPLACING TRAILING writes past REPLACE and out of order; TRAILING with a space before the text never applies."],
"C65":["proved","Findings: *> inside a literal with apostrophes cuts the literal; a *> comment with a quotation mark in it is not cut and opens a literal; on a line longer than 256 characters the rest is compiled as a new line; >>D (or >>SOURCE FIXED) behind six comment lines is rejected as invalid indicator; $IF/$END lose lines from the line count; >>SOURCE FORMAT FREE takes effect inside a part not compiled; a literal ending exactly in column 72 makes an ordinary continuation an error. Not modelled but read: with about 8000 skipped lines in sequence the counted newlines overflow the scanner's buffer."],
"C66":["proved","Blank lines are not compared (directives lose lines from the count, see C65). Findings: a numeric constant compares equal to nothing, so $IF N = 5 is always false and $IF N NOT = 5 always true; a $IF without $END is not reported and the rest of the program silently disappears; a text with a space cannot be compared."],
"C67":["proved","Pictures are the ones the compiler model of C43 produces. For senders with more decimals than digits (no PICTURE gives that) the edited MOVE is modelled but not stated. Finding: JUSTIFIED RIGHT is ignored for numeric senders."],
"C68":["proved","Findings: with FREE_1COL_ASTER a $ directive in column 1 is not seen; the lines of a part of free format that is not compiled are not counted; any directive word that begins with D is taken for >>D; *> in an apostrophe literal cuts the literal off."],
"C69":["proved","Findings: HIGH-VALUE in a concatenation is X\"AD\" (an octal escape was meant to be decimal); an X literal silently ends at a blank; H literals from 2^63 on give a minus sign as a digit or lose digits; 128 decimals wrap the scale; replaced constants are scanned again for later constants."],
"C70":["proved","Finding: with relax-level-hierarchy (bs2000, ibm, mf, mvs) an item of level 02-49 after a 77 item with a condition name makes the compiler follow a null pointer."],
"C71":["proved","Findings: GLOBAL items of a program that does not contain the reference (an earlier sibling of a containing one) are found before those of containing programs further out; paragraphs and files of outer programs are found although not GLOBAL; an item of a GLOBAL record cannot be qualified by its file in a contained program; the qualifier of a numeric paragraph name (100 OF 20) is dropped."],
"C72":["proved","Findings: two items of one name in a group give two statements for one target (or one source) without a diagnostic; names are compared with regard to case, so that groups of two programs with differently spelled names do not correspond. ADD and SUBTRACT CORRESPONDING take pairs of any class, not only numeric ones (no check in cb_emit_corresponding)."],
"C73":["proved","SJIS build. Findings: MOVE of a COMP-3 item to a NATIONAL item converts the packed bytes before they are unpacked (123 becomes 814); the sign of a zoned item arrives as a letter; an item beginning with LOW-VALUE is moved unconverted, and FUNCTION NATIONAL drops its last character; a first half of a two-byte character at the end of the item takes the byte behind the item as its second half (in the model: the parameter after)."],
"C74":["proved","USE GLOBAL for GLOBAL files is proved as the code does it (C74_global_files: exact for every nest), which agrees with the standard for one such statement (C74_use_global). Findings: with two USE GLOBAL files the in-place reversal of the shared list loses all but the first in every program but the last (C74_finding_lost); USE GLOBAL procedures for files and for modes are taken from programs that do not contain the program (C74_finding_beside, C74_finding_mode); a file of a nested program named like a GLOBAL file of the outer program gets the outer procedure (C74_finding_hidden); an exception of another class executes NOT ON SIZE ERROR only if ON SIZE ERROR is there too (C74_finding_other_class)."],
"C75":["proved","C75_number_kept and C75_item_kept join the check with the run time MOVE (C17, C51). Findings: a plus sign is treated as a negative sign (C75_finding_plus); the decimal point of a literal is ignored for binary items (C75_finding_point); -2^63 is refused for eight bytes (C75_finding_least); the picture of a COMP item does not limit its VALUE (C75_finding_picture); items with P are not checked for lost figures (C75_finding_scaled); an alphanumeric item to a national one is measured in bytes (C75_finding_national); a NATIONAL EDITED receiver counts as having no places (C75_finding_national_edited). C75_figurative, C75_number_for_text, C75_text_for_number, C75_edited, C75_crossing cover the other combinations."],
"C76":["proved","Built on C37 (sequential files), C38 (line sequential files) and C40 (the sorter). Findings: with SORT S USING F GIVING F and variable records all records get the length of the one read last (C76_finding_same_file); RECORD DEPENDING ON of a GIVING file is not set, so records are cut or all lost without a message (C76_finding_depending); a USING file that is missing counts as empty even if not OPTIONAL (C76_finding_missing); a short last record is completed with bytes of the record before (C76_finding_short_record)."],
"C77":["proved","Proved for histories of any length. Findings proved: SET ENVIRONMENT with a name of 1024 or more bytes assigns the value to the name chosen before (C77_finding_long_name); DISPLAY -1 UPON ARGUMENT-NUMBER chooses argument 1 (C77_finding_negative); ACCEPT FROM ENVIRONMENT \"A=B\" reads the end of A's value (C77_finding_equal_sign)."],
"C78":["proved","Findings proved: VALUE OF FILE-ID never has an effect (C78_finding_file_id, for every SELECT entry); after $ a hyphen ends the variable's name because the inner loop tests the wrong character (C78_finding_hyphen)."],
"C79":["proved","Findings proved: SIZE AUTO casts signed items to unsigned (-1 in PIC S9(4) COMP-5 arrives as 65535) and unsigned ones to signed (200 in one byte arrives as -56); binary items with decimals are passed by their digits, zoned ones by their whole part; a short literal read through eight bytes has four undefined bytes; under sticky-linkage an ENTRY with its own USING list gets a saved address instead of the argument of the call."],
"C80":["proved","C80_statement is one theorem over all formats; ADD/SUBTRACT with one operand needs that operand not to be an earlier receiver (finding C80_operand_read_again) and, where the specialised integer routines are used, an operand they can take (SmallFor; see C11, C50). Further findings: C80_native_wraps, C80_native_digits."],
"C81":["proved","C81_storage (simulation with an ideal machine, recursion allowed), C81_module (module stack, without recursion), C81_call_returns (one call as the caller sees it). Findings: after a recursive call the runtime takes the wrong program for the running one; EXIT PROGRAM ends the run after the main program was called back; RETURN-CODE of an earlier call is returned again; files left open by an INITIAL program are never closed; CANCEL of an active program is carried out."],
"C82":["proved","C82_history: a simulation for all histories against a machine that only knows the writes (Rt/CblFileSpec.lean); C82_read_back, C82_write_only and C82_name say the main parts directly about the routines. Findings proved: names in quotation marks are cut at the mark although there is code for them; a WRITE or COPY of which the operating system takes only part returns 0; COPY of a file to itself empties it and returns 0; OPEN with access 2 empties the file; a READ that gets less than asked for returns 0 without saying how much."],
"C83":["proved","C83_clock and C83_cob_date for all histories; C83_cob_date_refused; C83_receiver with the MOVE of C47; fixedZone_ok shows that the assumptions on the C library can be met. Findings proved: 2020/02/30 is taken as March 1; 1970/01/01 is refused east of Greenwich; from year 10000 on the result is not determined; DATE followed by TIME around midnight gives an instant a day off; text behind the date is ignored."],
"C84":["proved","The functions and their windows are C29; here they are composed with the clock of C83. Findings proved: small negative arguments are taken; month and day are not looked at. (Dates of eight digits: C29_finding_date.)"],
"C85":["proved","C85_seconds and C85_invalid together determine the result for every pair. Findings proved: 99:99:99 is taken; upper case letters are not recognised."],
"C86":["proved","The tables are generated from the source, entry by entry, and proved to be in the order the search needs. Findings: a reserved word that is not supported is reported and then still taken for a user word; LENGTH is no longer reserved in the PROCEDURE DIVISION under FUNCTION ALL INTRINSIC; a class called RETURN-CODE is not found under PROGRAM-STATUS; a program cannot be called like a constant."],
"C87":["proved","Findings: a number without digits is accepted as 0 (tab-width: makes the compiler divide by zero at a tab); numbers of more than 32 bits are accepted and changed; a comment behind a value is part of the value; a tag behind a blank is not found; what stands behind 1023 bytes of a line is a line of its own; a file that includes itself is read until no more files can be opened."],
"C88":["proved","Findings: the number of arguments is not restored when a called program returns, so C$NARG and C$PARAMSIZE are wrong afterwards, and C$PARAMSIZE can give sizes of arguments of an earlier call; C$CALLEDBY leaves old bytes behind the name and gives the name of the C function (MY-PROG is MY__PROG); CBL_TOUPPER changes second bytes of Shift-JIS characters; small letters for the direction of C$JUSTIFY mean right."],
"C89":["proved","Findings: a variance beyond 64 bits sets the size exception but the result given back is its low 64 bits; RANDOM never gives a number between 0 and 0.1, whatever the generator."],
"C90":["proved","Findings: EXCEPTION-FILE names a file after exceptions that have nothing to do with files (EC-RANGE, EC-LOCALE, EC-SCREEN, EC-FUNCTION); end-of-page leaves statement and location of an older exception; of two statements on a line (or on lines of the same number in different files) only the first says where it is; the location stays when the exception is cleared."],
"C91":["proved","Findings: REWRITE gives up the connector's lock before it tests it, so that the process that locked the record can lose it to another and get status 51; REWRITE gives the test lock back before it changes the record, so that a record is changed while another process has it locked; READ without lock can make READ without lock elsewhere fail with 51; WRITE WITH LOCK can end with 51 with the record written; UNLOCK gives up the lock of the file, which another process can then open OUTPUT; within a process files are not protected; IGNORE LOCK with LOCK MODE AUTOMATIC does not ignore the lock."],
"C92":["proved","Findings: OPEN OUTPUT that is refused with status 61 has emptied the file of the process that has it open; CLOSE gives up the lock before the buffer is written, so that another process can open the file before the records are in it, or gets them into its own new file; OPEN INPUT SHARING WITH NO OTHER always fails with status 30; a second connector of the same process for the file weakens its lock on OPEN INPUT and loses it on CLOSE, even on a refused OPEN; UNLOCK gives up the lock of the whole file; LOCK MODE EXCLUSIVE has no effect on OPEN."],
"C93":["proved","Findings: a THRU that goes down (\"Z\" THRU \"A\") is accepted but its characters get no place in the list, and LOW-VALUE becomes its first character, which is not the lowest; a CLASS range from a number to the text of the very next character (65 THRU \"A\") is empty. LOW-VALUE and HIGH-VALUE in a CLASS clause read a structure of another kind and are left out."],
"C94":["proved","Findings: the place of a key is counted from the start of the record, so that a table which does not begin its record is sorted by other bytes (proved: '-A2B1' becomes '-B1A2' when sorted by the letter); WITH DUPLICATES IN ORDER has no effect; COLLATING SEQUENCE IS NATIVE has no effect in a program with its own collating sequence."],
"C95":["proved","Findings: an entry that names itself (05 B REDEFINES B) is accepted as the last entry of its group and is stored at offset 0 of the record, over other items; with indirect-redefines an entry that redefines such an entry makes the compiler loop for ever."],
"C96":["proved","The value part is proved under the condition that USAGE and SIGN are those of the 01 entry; otherwise it is false (findings)."],
"C97":["proved",""],
"C98":["proved","complex-odo: yes is modelled for groups of elementary items and only has findings."],
"C99":["proved","Files assigned to the keyboard or display are left alone."]
}
