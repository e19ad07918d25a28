# DESIGN — formal model of opensource COBOL (libcob and parts of cobc) in Lean 4

This file is generated by `gen_design.py`; the hand-written parts are `design_head.md`,
`design_methods.json` and `notes.json`.

## 1. What is modelled and how

The runtime `libcob` and selected passes of the compiler `cobc` are modelled function by
function as total, computable Lean functions.

* **Bytes and storage.**  A data item is a descriptor (`Attr`: digits, scale, sign flags,
  byte order) together with its bytes (`List Nat`, every byte `< 256` where it matters, which
  is part of the well-formedness predicates `WFDisplay`, `WFPacked`, `WFBinary`, `WFItem`).
  Where aliasing is observable (bit routines, ALLOCATE/FREE, CANCEL tree, EXTERNAL) the state
  is an explicit store.
* **Numbers.**  GMP values are `Int`; C `int`/`long long` arithmetic is either shown not to
  overflow under the stated hypotheses, or modelled with explicit wrap (`wrap32`, `toCInt`,
  `% 2^n`), and the findings show what happens on overflow.
* **Loops** are structural recursions over the lists the C code walks, or recursion on an
  explicit fuel that is proved never to run out (the theorems have no fuel in their statement).
* **Undefined behaviour is not totalised away.**  Use of a closed or null stream, reads outside
  an item, use after free, and non-termination are separate constructors of the result type
  (or `none`), and theorems state that they do not occur, or findings that they do.
* **Histories.**  Properties of stateful parts (files, caches, EXTERNAL, ALLOCATE, handlers,
  call table, sort) quantify over arbitrary finite lists of statements from the initial state;
  they are proved by an invariant or a simulation with a small specification automaton.
* **Build configuration:** default `configure` of the pinned commit: no `I18N_UTF8` (SJIS
  build), `WITH_VARSEQ=0`, no EXTFH, 64-bit little-endian Linux, C locale.

Layout: `lean/Verif/<Area>/X.lean` is the code model (each definition cites file and lines and
says what is simplified), `XSpec.lean` the independent specification (or a *Specification*
section at the head of `XProps.lean` for small ones), `XLemmas.lean` helper lemmas,
`XProps.lean` property theorems `Cnn_…` with non-vacuity `example`s beside them.

## 2. Trusted base

1. **Lean 4.33.0's kernel.**  No axioms are added; every theorem depends at most on `propext`,
   `Classical.choice` and `Quot.sound` (checked with `#print axioms` over all `Cnn_…` theorems by
   `vcheck`).  No compiled evaluation: concrete witnesses are checked with `decide +kernel`,
   `rfl` or `norm_num`, all replayed by the kernel.
2. **The translation from C to Lean**, made by hand; every definition cites the lines it models.
   The model is executable, so it can be compared with the C code by reading it side by side;
   it has not been compared by running, because the project cannot be built in the sandbox.
3. **Assumptions about what is outside**: GMP computes exactly; the C library functions
   (`memcpy`, `memcmp`, `memset`, `strtol`, `qsort`-free code, `toupper` in the C locale, stdio and
   POSIX file calls without I/O errors) behave as documented; `malloc` returns areas not in use;
   GCC's evaluation order where the code depends on it (C42, noted there).
4. **Mathlib** lemmas, which are checked by the same kernel.

Not modelled at all: `screenio.c`, the indexed file back-ends (vbisam/BDB), EXTFH, signal
handling, locale-dependent formatting, the scanner and parser of `cobc` and most of its
code generation (the modelled compiler passes are PICTURE analysis, storage layout, COMPUTE
decimal registers, and the selection of specialised comparison / arithmetic / MOVE routines).

## 3. Properties and findings

A property is stated as the user would state it.  Where the code does not satisfy the plain
statement, the theorem carries the exact hypothesis under which it does, and a *finding* theorem
(`Cnn_finding_…` or a name given in the remarks) proves with a concrete execution of the model
that the hypothesis cannot be dropped.  No property is claimed beyond its theorems; a theorem
covering only a part of its property would carry the suffix `_partial`.

## 4. Testing the theorems

`seeded/LOG.jsonl` records attempts to break the theorems: one mutation of a model definition
at a time (hand-written realistic bugs, and systematic ones: changed boundaries, dropped cases,
swapped branches, dropped updates), a rebuild, and which theorems stopped proving.  Surviving
mutations were triaged: either the mutation is equivalent (the changed line cannot be reached or
has no observable effect, with the reason recorded) or the theorem was tightened.

## 5. Properties: what is modelled, how it is proved

### C01 — Zoned DISPLAY store/load round trip (proved)
Storing a computed decimal into a zoned DISPLAY item (signed or unsigned, sign combined/separate, leading/trailing) and then using that item as an operand yields the same value whenever its magnitude fits in the item's digits; when it does not fit and no SIZE ERROR handling is requested, the item holds the low-order digits with the sign of the value.

*Specification:* `Num/FieldSpec.lean`: `HoldsUnits` (the digits, read positionally, with the sign convention of the item) and `zonedImage` (the bytes an item of that PICTURE must contain).
*Proof:* induction over the digit string; the sign byte by case analysis over conventions.
*Model:* `Num/Field.lean`, `Num/Decimal.lean`; *theorems in* `Num/DisplayProps.lean`.
*Code:* libcob/numeric.c: cob_decimal_set_display, cob_decimal_get_display; libcob/common.c: cob_real_get_sign, cob_real_put_sign.
*Theorems:* `C01_store_image`, `C01_load_image`, `C01_roundtrip`, `C01_truncation`.
*Remarks:* Zoned items of any length, all sign conventions; store image, load image, round trip and truncation of high-order digits.

### C02 — PACKED-DECIMAL store/load round trip (proved)
Storing a decimal in a COMP-3 item and reading it back gives the value (low-order digits on truncation), the sign nibble is D for negative, C for positive signed, F for unsigned, and an unused high nibble is zero for even digit counts.

*Specification:* `packedImage`: two digits per byte, sign nibble last.
*Proof:* induction over the nibble list.
*Model:* `Num/Field.lean`; *theorems in* `Num/PackedProps.lean`.
*Code:* libcob/numeric.c: cob_decimal_set_packed, cob_decimal_get_packed, cob_set_packed_zero.
*Theorems:* `C02_store_image`, `C02_load_image`, `C02_roundtrip`, `C02_truncation`.
*Remarks:* Packed items of any length; C02_truncation covers high-order truncation.

### C03 — Binary store/load round trip (proved)
Writing an integer into a COMP/COMP-5 item of 1..8 bytes (native or big-endian storage) and reading it back yields the integer reduced to the item's bit width and signedness; byte order does not affect the value.

*Specification:* `binaryHolds`: value of the bytes as a signed/unsigned integer of the item's width and byte order.
*Proof:* little-endian positional value `leVal`, modular arithmetic.
*Model:* `Num/Field.lean`; *theorems in* `Num/BinaryProps.lean`.
*Code:* libcob/numeric.c: cob_binary_get_int64, cob_binary_get_uint64, cob_binary_set_int64; libcob/move.c: cob_binary_mget_int64, cob_binary_mset_int64.
*Theorems:* `C03_load`, `C03_roundtrip`, `C03_overflow_wraps`, `C03_min_value_refused`, `C03_trunc_loses_sign`.
*Remarks:* COMP/COMP-5/BINARY of 1..8 bytes. Findings: C03_overflow_wraps, C03_min_value_refused, C03_trunc_loses_sign show where stored values differ from the naive expectation.

### C04 — SIZE ERROR leaves the receiving item unchanged (proved)
When ON SIZE ERROR handling is requested and the (rounded) result of an arithmetic statement does not fit the receiving DISPLAY, PACKED or BINARY item, the item keeps its old contents and the size-error condition is raised; when it fits, no condition is raised and the item holds exactly the result.

*Specification:* receiver bytes unchanged iff the scaled value does not fit in the PICTURE.
*Proof:* case analysis of the store routines over the fit test.
*Model:* `Num/Field.lean`, `Num/Item.lean`; *theorems in* `Num/BinaryProps.lean`, `Num/DisplayProps.lean`, `Num/ItemProps.lean`, `Num/PackedProps.lean`.
*Code:* libcob/numeric.c: cob_decimal_get_field, cob_decimal_get_display, cob_decimal_get_packed, cob_decimal_get_binary.
*Theorems:* `C04_binary_keep`, `C04_binary_accepts`, `C04_display_keep`, `C04_keep_any_item`, `C04_no_value`, `C04_packed_keep`.
*Remarks:* ON SIZE ERROR (COB_STORE_KEEP_ON_OVERFLOW) leaves every receiver kind unchanged exactly when the value does not fit.

### C05 — ROUNDED is nearest, half away from zero; unrounded truncates toward zero (proved)
With ROUNDED the stored value is the multiple of the receiver's unit nearest to the exact result, ties away from zero; without ROUNDED it is the exact result truncated toward zero.

*Specification:* rational-number specification of truncation and nearest-away-from-zero, with a uniqueness theorem.
*Proof:* Int division lemmas.
*Model:* `Num/Item.lean`, `Num/Decimal.lean`; *theorems in* `Num/DecimalProps.lean`, `Num/ItemProps.lean`.
*Code:* libcob/numeric.c: cob_decimal_get_field, shift_decimal.
*Theorems:* `C05_truncates`, `C05_rounds`, `C05_spec_unique`, `C05_store_any_item`.
*Remarks:* Truncation and nearest-away-from-zero rounding against a rational-number spec, with uniqueness of the spec.

### C06 — ADD, SUBTRACT and MULTIPLY are exact (proved)
The intermediate result of adding, subtracting or multiplying two decimals is the exact mathematical result irrespective of the scales of the operands.

*Specification:* `Num/DecimalSpec.lean`: the value of a decimal is `v * 10^(-s)` in ℚ.
*Proof:* field arithmetic on zpow.
*Model:* `Num/Decimal.lean`; *theorems in* `Num/DecimalProps.lean`, `Num/ItemProps.lean`, `Tight.lean`.
*Code:* libcob/numeric.c: cob_decimal_add, cob_decimal_sub, cob_decimal_mul, align_decimal, shift_decimal.
*Theorems:* `C06_add_exact`, `C06_sub_exact`, `C06_mul_exact`, `C06_mul_nan_collision`, `C06_nan_propagates`, `C06_pow_exact`, `C06_pow_truncates_exponent`, `C06_add_items`, `C06_sub_items`, `C06_pow_nan`.
*Remarks:* Exact rational arithmetic for add/sub/mul/pow on decimals and on items. Findings: C06_mul_nan_collision (scale -128 is taken for 'no value'), C06_pow_truncates_exponent.

### C07 — DIVIDE is correct to at least 37 decimal places; division by zero raises SIZE ERROR (proved)
The intermediate quotient is the exact quotient truncated toward zero at some scale of at least 37 decimals more than the operands need; dividing by zero never yields a value and raises the zero-divide size condition; a zero dividend yields zero.

*Specification:* quotient in ℚ, error below one unit of the last kept digit.
*Proof:* Int division lemmas.
*Model:* `Num/Decimal.lean`; *theorems in* `Num/DecimalProps.lean`, `Num/ItemProps.lean`.
*Code:* libcob/numeric.c: cob_decimal_div.
*Theorems:* `C07_div_by_zero`, `C07_div_zero_dividend`, `C07_div_truncated`, `C07_divide_items`.
*Remarks:* Quotient truncated beyond COB_MAX_DIGITS digits; zero divide.

### C08 — DIVIDE ... REMAINDER (proved)
After DIVIDE A BY B GIVING Q REMAINDER R, the remainder equals A minus the stored (truncated, not rounded) quotient times B, exactly.

*Specification:* dividend = quotient·divisor + remainder in ℚ.
*Proof:* composition of C05–C07.
*Model:* `Num/Item.lean`; *theorems in* `Num/ItemProps.lean`.
*Code:* libcob/numeric.c: cob_div_quotient, cob_div_remainder.
*Theorems:* `C08_remainder`.
*Remarks:* dividend = quotient*divisor + remainder with the truncated stored quotient.

### C09 — Numeric comparison compares mathematical values (proved)
Comparing two numeric items gives the order of their mathematical values; it is reflexive, antisymmetric, transitive and independent of representation (scale, leading zeros).

*Specification:* order of ℚ.
*Proof:* alignment preserves order.
*Model:* `Num/Item.lean`, `Num/Decimal.lean`; *theorems in* `Num/CmpPackedProps.lean`, `Num/DecimalProps.lean`, `Num/ItemProps.lean`.
*Code:* libcob/numeric.c: cob_decimal_cmp, cob_numeric_cmp, align_decimal.
*Theorems:* `C09_numdisp`, `C09_cmp_exact`, `C09_cmp_total_order`, `C09_items`.
*Remarks:* Numeric comparison is the order of the rational values, for items of any representation.

### C10 — ADD/SUBTRACT of an integer to a DISPLAY item (fast path) (proved)
Adding an integer to an integer zoned item in place yields exactly the sum when it fits; on overflow with size checking the item is left unchanged and the overflow is reported.

*Specification:* the number held afterwards is the sum.
*Proof:* loop invariant of the carry loop, induction over digits.
*Model:* `Num/AddInt.lean`; *theorems in* `Num/AddIntProps.lean`.
*Code:* libcob/numeric.c: display_add_int, display_sub_int, cob_display_add_int.
*Theorems:* `C10_add_int`, `C10_add_int_overflow`, `C10_wraps_silently`, `C10_notrunc_wraps`, `C10_negative_zero`.
*Remarks:* In-place ADD of an integer to a zoned item; findings C10_wraps_silently, C10_notrunc_wraps, C10_negative_zero.

### C11 — ADD/SUBTRACT of an integer to a PACKED item (fast path) (proved)
Adding an integer to a COMP-3 item in place yields exactly the sum when the sum fits in the item.

*Specification:* the number held afterwards is the sum.
*Proof:* loop invariant over nibbles.
*Model:* `Num/AddInt.lean`; *theorems in* `Num/AddPackedProps.lean`.
*Code:* libcob/numeric.c: cob_add_packed, cob_complement_packed.
*Theorems:* `C11_add_packed`, `C11_wide_operand_wrong`, `C11_overflow_silent`, `C11_negative_scale_wrong`.
*Remarks:* In-place ADD of an integer to a packed item; findings C11_wide_operand_wrong, C11_overflow_silent, C11_negative_scale_wrong.

### C12 — Packed comparison fast path agrees with general comparison (proved)
Comparing a COMP-3 item with an integer by the optimized routine gives the same order as comparing the item's value.

*Specification:* sign of the difference, for every reachable state of the static cache.
*Proof:* history invariant `CacheOk`.
*Model:* `Num/CmpPacked.lean`; *theorems in* `Num/CmpPackedProps.lean`.
*Code:* libcob/numeric.c: cob_cmp_packed.
*Theorems:* `C12_cmp_packed`, `C12_any_history`, `C12_negative_zero`.
*Remarks:* cob_cmp_packed with its static cache, over every history of earlier calls; finding C12_negative_zero.

### C13 — Numeric MOVE aligns decimal points (proved)
Moving digits from a zoned item to another zoned item aligns the decimal points: every receiving digit position equals the sending digit with the same weight, zero where the sender has none; high- and low-order excess digits are dropped.

*Specification:* `Move/NumericSpec.lean` `MovedUnits`: digits aligned at the decimal point.
*Proof:* index-wise characterisation of the copied digits.
*Model:* `Move/Numeric.lean`; *theorems in* `Move/NumericProps.lean`.
*Code:* libcob/move.c: store_common_region, cob_move_display_to_display, cob_move_alphanum_to_display.
*Theorems:* `C13_move`, `C13_source_unchanged`, `C13_move_native`, `C13_runaway_loop`, `C13_wide_to_binary_overflows`.
*Remarks:* MOVE between zoned, packed and binary items: digits aligned on the decimal point, high/low-order truncation, sign kept iff receiver signed. Findings C13_runaway_loop, C13_wide_to_binary_overflows.

### C14 — Alphanumeric MOVE pads and truncates (proved)
Moving text to an alphanumeric item copies from the left, space-pads on the right and truncates on the right; with JUSTIFIED RIGHT it does so on the left. The receiver never changes length.

*Specification:* position-wise: padded/truncated on the right (left if JUSTIFIED).
*Proof:* list extensionality.
*Model:* `Move/Alnum.lean`; *theorems in* `Move/AlnumProps.lean`.
*Code:* libcob/move.c: cob_move_alphanum_to_alphanum.
*Theorems:* `C14_left`, `C14_justified`, `C14_roundtrip`, `C14_display_to_text`.
*Remarks:* Left/right justified text MOVE, numeric DISPLAY to text.

### C15 — MOVE ALL literal fills cyclically (proved)
MOVE ALL literal (or a figurative constant) makes byte i of the receiver equal byte i modulo the literal length.

*Specification:* position `i` holds pattern byte `i mod n`.
*Proof:* list extensionality.
*Model:* `Move/Alnum.lean`; *theorems in* `Move/AlnumProps.lean`.
*Code:* libcob/move.c: cob_move_all, cob_move_fp_to_fp.
*Theorems:* `C15_move_all`, `C15_one_byte`, `C15_last_lead_byte_blanked`, `C15_numeric_receiver_18_digits`.
*Remarks:* MOVE ALL to alphanumeric items; findings C15_last_lead_byte_blanked, C15_numeric_receiver_18_digits.

### C16 — Editing MOVE renders the value (proved)
Moving a numeric item of any usage to a numeric-edited item leaves exactly the text the PICTURE prescribes for its value: every position shows the digit of its weight, zeros before the first significant digit are replaced by blanks or asterisks, insertion characters, a floating or fixed sign and currency symbol, CR/DB, BLANK WHEN ZERO as written. No byte outside the item is written, whatever the digits. Moving the text back to a numeric item of the same decimal places recovers the value.

*Specification:* `Move/EditedSpec.lean`: the text an editing PICTURE prescribes, defined per symbol from the COBOL rules.
*Proof:* simulation of the single left-to-right pass with deferred floating insertion; separate lemmas for check protection, floating strings, BLANK WHEN ZERO, CR/DB; inverse theorem for de-editing.
*Model:* `Move/Edited.lean`; *theorems in* `Move/EditedExamples.lean`, `Move/EditedProps.lean`.
*Code:* libcob/move.c: cob_move_display_to_edited, cob_move_edited_to_display.
*Theorems:* `C16_finding_db_sign_lost`, `C16_finding_buffer`, `C16_finding_comma_zero`, `C16_finding_period_zero`, `C16_finding_trailing_sign_reads`, `C16_finding_cut_digit`, `C16_finding_fixed_sign_floats`, `C16_finding_vpp`, `C16_finding_inserted_zero`, `C16_finding_ending_point`, `C16_edit`, `C16_move`, `C16_inside`, `C16_roundtrip`.
*Remarks:* C16_edit/C16_move: complete text for all senders; C16_inside: in bounds for arbitrary digits; C16_roundtrip: de-editing. PICTUREs with P or V are modelled but not in the class (C16_finding_vpp shows why); hypotheses ValueFits/fracSep/DeEditable exclude exactly the cases the C16_finding_* theorems show to go wrong. Text-only findings: BLANK WHEN ZERO with decimals makes the item one byte too long (cobc/field.c 648-675).

### C17 — Packed <-> zoned MOVE preserves the value (proved)
Moving zoned to packed and packed to zoned preserves the value modulo the receiver's digits with decimal-point alignment.

*Specification:* same units before and after.
*Proof:* corollaries of C13 plus nibble induction.
*Model:* `Move/Numeric.lean`; *theorems in* `Move/NumericProps.lean`.
*Code:* libcob/move.c: cob_move_display_to_packed, cob_move_packed_to_display.
*Theorems:* `C17_preserves`, `C17_p_picture_reads_outside`, `C17_nul_sender_gives_bad_packed`.
*Remarks:* Packed<->zoned MOVE is part of C13_move; findings for P pictures and NUL senders.

### C18 — INSPECT TALLYING ALL/LEADING/CHARACTERS counts (proved)
INSPECT TALLYING adds to the counter the number of non-overlapping left-to-right occurrences (ALL), of contiguous leading occurrences (LEADING) or of unclaimed characters (CHARACTERS) inside the BEFORE/AFTER region and never changes the inspected item.

*Specification:* `Str/InspectSpec.lean`: recursive count of non-overlapping occurrences in the BEFORE/AFTER region.
*Proof:* loop invariant with the mark array.
*Model:* `Str/Inspect.lean`; *theorems in* `Str/InspectProps.lean`.
*Code:* libcob/strings.c: cob_inspect_init, inspect_common, cob_inspect_characters, cob_inspect_finish.
*Theorems:* `C18_all`, `C18_leading`, `C18_trailing`, `C18_characters`, `C18_all_in_sequence`, `C18_phrase_order_beats_position`, `C18_leading_skips_claimed`, `C18_numeric_item`, `C18_item_unchanged`.
*Remarks:* Single phrases against a recursive spec of non-overlapping occurrences with BEFORE/AFTER regions; several ALL phrases in sequence. Findings C18_phrase_order_beats_position and C18_leading_skips_claimed: with several phrases the code counts phrase by phrase instead of position by position.

### C19 — INSPECT REPLACING (proved)
INSPECT REPLACING preserves the length of the item, changes only positions matched inside the region, each position is replaced at most once (earlier phrases win), and ALL replaces exactly the greedy left-to-right non-overlapping occurrences.

*Specification:* recursive replacement specification.
*Proof:* loop invariant with the mark array.
*Model:* `Str/Inspect.lean`; *theorems in* `Str/InspectProps.lean`, `Tight.lean`.
*Code:* libcob/strings.c: inspect_common, cob_inspect_before, cob_inspect_after, cob_inspect_finish.
*Theorems:* `C19_length`, `C19_outside_region`, `C19_first_phrase_wins`, `C19_all`, `C19_leading`, `C19_first`, `C19_trailing`, `C19_characters`, `C19_size_mismatch`, `C19_size_exception`.
*Remarks:* ALL/LEADING/FIRST/TRAILING/CHARACTERS against the same spec; length and bytes outside the region kept; first phrase wins.

### C20 — INSPECT CONVERTING (proved)
INSPECT CONVERTING maps every character of the region that occurs in the FROM list to the TO character at its first position, exactly once, and leaves all others unchanged.

*Specification:* first matching table entry decides for each position.
*Proof:* induction over table and text.
*Model:* `Str/Inspect.lean`; *theorems in* `Str/InspectProps.lean`.
*Code:* libcob/strings.c: cob_inspect_converting.
*Theorems:* `C20_converting`, `C20_low_values_reads_outside`.
*Remarks:* CONVERTING: first matching table entry decides; finding C20_low_values_reads_outside.

### C21 — STRING statement (proved)
STRING writes into the receiver, from the pointer, the longest prefix of the concatenation of the delimited sources that fits; all other receiver bytes are unchanged; the pointer ends one past the last byte written; overflow is raised exactly when something did not fit or the pointer was out of range.

*Specification:* concatenation of the delimited senders placed at POINTER.
*Proof:* induction over senders.
*Model:* `Str/StringStmt.lean`; *theorems in* `Str/StringProps.lean`.
*Code:* libcob/strings.c: cob_string_init, cob_string_delimited, cob_string_append, cob_string_finish.
*Theorems:* `C21_string`, `C21_bad_pointer`.
*Remarks:* STRING with any number of senders, delimiters and POINTER.

### C22 — UNSTRING statement (proved)
UNSTRING splits the source from the pointer: each receiving item gets the bytes up to the next delimiter, consecutive delimiters collapse with ALL, the COUNT is the length of the piece, the pointer ends just past the last delimiter consumed, and overflow is raised exactly when source remains.

*Specification:* recursive splitting at delimiters.
*Proof:* induction over receivers with an invariant on the offset.
*Model:* `Str/StringStmt.lean`; *theorems in* `Str/StringProps.lean`.
*Code:* libcob/strings.c: cob_unstring_init, cob_unstring_delimited, cob_unstring_into, cob_unstring_finish.
*Theorems:* `C22_unstring`, `C22_by_size`, `C22_bad_pointer`, `C22_pieces`, `C22_receiver`.
*Remarks:* UNSTRING with any delimiters (with or without ALL), POINTER, TALLYING, DELIMITER IN, COUNT IN.

### C23 — Alphanumeric comparison is space-padded lexicographic order (proved)
Comparing alphanumeric items equals comparing the space-extended byte strings in the active collating sequence; it is a total preorder.

*Specification:* lexicographic order after space padding, over the collating table.
*Proof:* chunk loop reduced to the padded list.
*Model:* `Cmp/Compare.lean`; *theorems in* `Cmp/CompareProps.lean`.
*Code:* libcob/common.c: common_cmpc, common_cmps, cob_cmp_all, cob_cmp_simple_str, cob_cmp_alnum.
*Theorems:* `C23_text`, `C23_equal_native`, `C23_total_preorder`, `C23_antisymmetric`, `C23_all`, `C23_numeric_as_digits`, `C23_operand_unchanged`, `C23_national_never_less`, `C23_national_not_antisymmetric`.
*Remarks:* Texts of any length, any collating table, ALL literals, numeric operands as their digits, antisymmetry for every mix of operands. Findings: C23_national_never_less and C23_national_not_antisymmetric (SJIS national comparison never answers 'less').

### C24 — Class conditions (proved)
IS NUMERIC / ALPHABETIC / ALPHABETIC-UPPER / ALPHABETIC-LOWER hold exactly when every character is in the class (with a valid operational sign for signed numeric items) and do not modify the item.

*Specification:* byte-wise class predicates.
*Proof:* case analysis, induction over bytes.
*Model:* `Cmp/Compare.lean`; *theorems in* `Cmp/CompareProps.lean`.
*Code:* libcob/common.c: cob_is_numeric, cob_is_alpha, cob_is_upper, cob_is_lower.
*Theorems:* `C24_alphabetic`, `C24_control_characters_alphabetic`, `C24_numeric_text`, `C24_numeric_zoned_holds`, `C24_numeric_zoned_unsigned`, `C24_numeric_zoned_ascii`, `C24_numeric_packed`, `C24_numeric_test_changes_item`, `C24_separate_sign_not_checked`, `C24_ebcdic_sign_not_checked`.
*Remarks:* Exact characterisation for text, zoned (ASCII trailing sign, unsigned, and every item that holds a number), packed. Findings: C24_numeric_test_changes_item, C24_separate_sign_not_checked, C24_ebcdic_sign_not_checked, C24_control_characters_alphabetic show where the class test accepts or modifies invalid contents.

### C25 — SORT keys define a total order consistent with ASCENDING/DESCENDING (proved)
The comparison used by SORT is lexicographic over the keys, reversed for DESCENDING keys, transitive and total, and ties are broken by release order (stable).

*Specification:* lexicographic order over the key list.
*Proof:* induction over keys; total preorder.
*Model:* `Cmp/Compare.lean`; *theorems in* `Cmp/SortKeyProps.lean`.
*Code:* libcob/fileio.c: cob_file_sort_compare, sort_cmps; libcob/common.c: sort_compare.
*Theorems:* `C25_lexicographic`, `C25_total_preorder`, `C25_ties_by_release`.
*Remarks:* Records with proper numeric keys; NATIONAL keys are covered only by the finding in C23.

### C26 — Date functions are inverse (proved)
INTEGER-OF-DATE and DATE-OF-INTEGER (and the DAY variants) are mutually inverse on valid dates 1601..9999, order preserving, successive days give successive integers, and invalid input returns 0 with an argument exception.

*Specification:* Gregorian calendar: day number by a recursive successor-of-date definition.
*Proof:* induction over year and month loops.
*Model:* `Intr/Date.lean`; *theorems in* `Intr/DateProps.lean`, `Tight.lean`.
*Code:* libcob/intrinsic.c: cob_intr_date_of_integer, cob_intr_integer_of_date, cob_intr_day_of_integer, cob_intr_integer_of_day.
*Theorems:* `C26_origin`, `C26_successive`, `C26_date_roundtrip`, `C26_integer_roundtrip`, `C26_order`, `C26_invalid`, `C26_test_date`, `C26_day_roundtrip`, `C26_day_integer_roundtrip`, `C26_day_and_date`, `C26_day_invalid`, `C26_test_date_which`, `C26_test_day_which`, `C26_test_negative`, `C26_combined`, `C26_finding_midnight`, `C26_combined_refused`.
*Remarks:* All dates of 1601..9999; INTEGER-OF-DATE/DAY, DATE/DAY-OF-INTEGER, TEST-DATE/DAY with their codes (C26_test_date_which, C26_test_day_which), COMBINED-DATETIME. Finding: COMBINED-DATETIME refuses 0 seconds (C26_finding_midnight).

### C27 — FUNCTION INTEGER, INTEGER-PART, FRACTION-PART, MOD, REM, ABS, SIGN and FACTORIAL (proved)
INTEGER returns the greatest integer not greater than the argument, INTEGER-PART truncates toward zero, FRACTION-PART is what INTEGER-PART leaves (|x| < 9, 18 decimals); MOD(a,b)=a-b*INTEGER(a/b) has the sign of b, REM(a,b)=a-b*INTEGER-PART(a/b) the sign of a; ABS returns the magnitude in an item of the argument's form, SIGN -1, 0 or 1, FACTORIAL n! for 0..20. Findings: INTEGER of -1.05 is -1 and MOD(-1,20) is -1; FRACTION-PART(10.5) overflows, and without binary truncation FRACTION-PART(2.5) is 2.5; ABS of the least binary value is that value; FACTORIAL(21) is the low 64 bits.

*Specification:* floor / truncation in ℚ.
*Proof:* Int division lemmas.
*Model:* `Intr/Numeric.lean`, `Intr/Numeric2.lean`; *theorems in* `Intr/NumericMore.lean`, `Intr/NumericProps.lean`.
*Code:* libcob/intrinsic.c: cob_intr_integer, cob_intr_integer_part, cob_intr_fraction_part, cob_intr_mod, cob_intr_rem, cob_intr_abs, cob_intr_sign, cob_intr_factorial.
*Theorems:* `C27_fraction_part`, `C27_finding_fraction_overflow`, `C27_finding_fraction_no_truncate`, `C27_finding_mod_run`, `C27_abs`, `C27_finding_abs_minimum`, `C27_sign`, `C27_factorial`, `C27_finding_factorial`, `C27_integer`, `C27_finding_integer`, `C27_integer_part`, `C27_mod`, `C27_finding_mod`, `C27_rem`.
*Remarks:* The plain statement (floor, MOD with the sign of the divisor) is false of the code for some arguments: C27_integer characterises exactly when INTEGER is the floor, C27_finding_integer / C27_finding_mod(_run) are witnesses; INTEGER-PART, FRACTION-PART, REM, MOD, ABS, SIGN and FACTORIAL are proved for the stated argument ranges, with witnesses of what happens outside them.

### C28 — Character functions (proved)
REVERSE is an involution preserving length; UPPER-CASE/LOWER-CASE change only letters and are idempotent; TRIM removes exactly leading/trailing spaces; CHAR and ORD are inverse on 1..256; CONCATENATE and SUBSTITUTE behave as on strings.

*Specification:* list reverse, map, trim.
*Proof:* list induction.
*Model:* `Intr/Text.lean`; *theorems in* `Intr/TextProps.lean`.
*Code:* libcob/intrinsic.c: cob_intr_reverse, cob_intr_upper_case, cob_intr_lower_case, cob_intr_trim, cob_intr_char, cob_intr_ord, cob_intr_substitute.
*Theorems:* `C28_refmod`, `C28_finding_refmod`, `C28_upper`, `C28_lower`, `C28_case_idempotent`, `C28_finding_lower_sjis`, `C28_reverse`, `C28_concatenate`, `C28_substituted_unique`, `C28_substitute`, `C28_substitute_case`, `C28_finding_substitute_case_nul`, `C28_trim`, `C28_char_ord`, `C28_char_outside`.
*Remarks:* Bytes, C locale. Findings: reference modification behind the value is ignored, SJIS double-byte characters are changed by LOWER-CASE, SUBSTITUTE-CASE stops at NUL.

### C29 — YEAR-TO-YYYY windowing (proved)
YEAR-TO-YYYY returns a year congruent to the argument modulo 100 in the 100-year window ending at the given maximum year.

*Specification:* the 100-year window in ℤ.
*Proof:* arithmetic.
*Model:* `Intr/Text.lean`, `Intr/Date.lean`; *theorems in* `Intr/TextProps.lean`.
*Code:* libcob/intrinsic.c: cob_intr_year_to_yyyy, cob_intr_date_to_yyyymmdd, cob_intr_day_to_yyyyddd.
*Theorems:* `C29_year`, `C29_year_invalid`, `C29_date`, `C29_day`, `C29_finding_date`.
*Remarks:* Finding: DATE-TO-YYYYMMDD accepts dates whose year has more than two digits (C29_finding_date).

### C30 — MIN/MAX/ORD-MIN/ORD-MAX/SUM/RANGE/MEDIAN/MEAN/MIDRANGE/PRESENT-VALUE (proved)
MIN/MAX return an argument that bounds all arguments; ORD-MIN/ORD-MAX return the position of the first such; SUM is the exact sum; MEDIAN is the middle element (or mean of the two middle elements) of the sorted arguments; MEAN is the exact average cut off after 18 digits; MIDRANGE is exactly half the sum of the smallest and the largest argument; PRESENT-VALUE is the sum of the amounts, each divided by one plus the rate as often as its place says, within 10^-37 per amount (MEDIAN of an even number of arguments, MIDRANGE and PRESENT-VALUE: before the result is put into a floating point number).

*Specification:* extremum, position, sum, sorted middle.
*Proof:* fold invariants; the error of each division is bounded by C07.
*Model:* `Intr/Select.lean`, `Intr/Numeric2.lean`, `Intr/Midrange.lean`; *theorems in* `Intr/Midrange.lean`, `Intr/NumericMore.lean`, `Intr/SelectProps.lean`.
*Code:* libcob/intrinsic.c: cob_intr_min, cob_intr_max, cob_intr_ord_min, cob_intr_ord_max, cob_intr_sum, cob_intr_median, cob_intr_range, cob_intr_midrange, cob_intr_mean; libcob/intrinsic.c: cob_intr_present_value.
*Theorems:* `C30_midrange`, `C30_present_value`, `C30_mean`, `C30_min`, `C30_max`, `C30_finding_single`, `C30_sum`, `C30_range`, `C30_median`.
*Remarks:* MIN, MAX, ORD-MIN, ORD-MAX, SUM, RANGE, MEDIAN, MEAN, MIDRANGE, PRESENT-VALUE over any number of numeric arguments; the store of a result into a floating point number is not modelled. Finding: ORD-MIN/ORD-MAX of a single argument is 0.

### C31 — EXTERNAL items with the same name share one storage area (proved)
Requesting an EXTERNAL item by name returns the same area for the same name and different areas for different names, for any history of requests; the area is zero/initial exactly on the first request; a request larger than the first is a fatal error.

*Specification:* one area per name, zeroed at creation.
*Proof:* invariant over histories.
*Model:* `Rt/Storage.lean`; *theorems in* `Rt/StorageProps.lean`.
*Code:* libcob/common.c: cob_external_addr.
*Theorems:* `C31_external`.
*Remarks:* All histories of requests, as list of (name, length). Areas are identified by the order of allocation; that cob_malloc delivers distinct zeroed areas is an assumption.

### C32 — ALLOCATE and FREE (proved)
FREE releases exactly the areas obtained by ALLOCATE that are still live, sets the pointer to NULL, and never frees an area twice for any history of ALLOCATE/FREE statements.

*Specification:* set of live areas.
*Proof:* invariant over histories.
*Model:* `Rt/Storage.lean`; *theorems in* `Rt/StorageProps.lean`.
*Code:* libcob/common.c: cob_allocate, cob_free_alloc.
*Theorems:* `C32_no_double_free`, `C32_free`, `C32_allocate`, `C32_finding_alias`.
*Remarks:* All histories of ALLOCATE, FREE and SET to arbitrary addresses, for any malloc that returns areas not in use (addresses may be reused). Finding: FREE through a stale alias releases the area given out again.

### C33 — Exit and error procedures (proved)
Installing and removing handlers with CBL_EXIT_PROC/CBL_ERROR_PROC keeps exactly the installed and not removed handlers registered, most recent first, for any history in which each call names a handler that is new or the most recent one; in every other history the code frees a node that stays in its list and reads it later (a defect).

*Specification:* list of registered handlers.
*Proof:* exact characterisation by induction over histories.
*Model:* `Rt/Storage.lean`; *theorems in* `Rt/StorageProps.lean`.
*Code:* libcob/common.c: CBL_EXIT_PROC, CBL_ERROR_PROC.
*Theorems:* `C33_procedures`, `C33_registered`, `C33_codes`, `C33_finding_use_after_free`.
*Remarks:* Exact: C33_procedures gives the registered handlers when every call names a new or the most recent handler and shows that all other histories read freed storage (C33_finding_use_after_free); C33_codes relates the install codes of the two routines to the list.

### C34 — Bitwise library routines (proved)
CBL_AND/OR/XOR/NOR/NIMP/IMP/EQ/NOT apply the Boolean operation to every bit of the first n bytes of the target and change nothing else; CBL_XF5 followed by CBL_XF4 restores the byte.

*Specification:* bit-wise Boolean functions.
*Proof:* extensionality over positions.
*Model:* `Rt/Bits.lean`; *theorems in* `Rt/BitsProps.lean`.
*Code:* libcob/common.c: CBL_AND, CBL_OR, CBL_NOR, CBL_XOR, CBL_IMP, CBL_NIMP, CBL_EQ, CBL_NOT, CBL_XF4, CBL_XF5.
*Theorems:* `C34_binary`, `C34_not`, `C34_finding_overlap`, `C34_xf`, `C34_xf_roundtrip`, `C34_xf_roundtrip`, `C34_switches`.
*Remarks:* Operands in one storage, overlapping allowed when the first does not begin in front of the second; C34_finding_overlap shows the other case. Also CBL_XF4/XF5 and the switches of CBL_X91.

### C35 — Subscript, ODO, reference-modification and NULL-address checks are exact (proved)
The runtime checks accept exactly the accesses that stay inside the table or item and reject every other, for all values whose sum offset + length does not exceed 2^31; above that the reference-modification check wraps around and accepts some accesses outside the item (a defect). A statement that uses a BASED item (or a LINKAGE item that is no parameter), and no other such record, is executed just when its address is not NULL; otherwise the run unit stops with the message about it before anything of the statement is done. (Findings: of several such records in one statement only the last is checked, IS OMITTED takes the check away, and an OMITTED parameter is not checked.)

*Specification:* interval inclusion; 32-bit arithmetic by `wrap32`.
*Proof:* omega / wrap lemmas. Null addresses: the last such reference of the list, by induction.
*Model:* `Rt/Storage.lean`, `Cobc/Based.lean`; *theorems in* `Cobc/Based.lean`, `Rt/StorageProps.lean`.
*Code:* libcob/common.c: cob_check_odo, cob_check_subscript, cob_check_ref_mod; libcob/common.c: cob_check_based; cobc/typeck.c: cb_build_identifier, cb_build_expr; cobc/codegen.c: output_stmt.
*Theorems:* `C35_based_one`, `C35_based_last`, `C35_finding_based_two`, `C35_finding_based_omitted`, `C35_finding_omitted`, `C35_range`, `C35_ref_mod`, `C35_ref_mod_all`, `C35_finding_ref_mod`, `C35_ref_mod_national`.
*Remarks:* Exact for all arguments without 32-bit overflow; C35_ref_mod_all covers all 32-bit arguments; C35_finding_ref_mod is a reference outside the item that is accepted. NULL addresses: exact for statements with one such record; C35_based_last says which one is checked in general.

### C36 — File status automaton (proved)
For every history of OPEN, CLOSE, READ, READ PREVIOUS, START, WRITE, REWRITE, DELETE and DELETE FILE on a file, and whatever the file system and the organisation's routines answer, the FILE STATUS is the one determined by what the program has observed: 38 for OPEN/DELETE FILE after CLOSE WITH LOCK, 41 when already open, 42 for CLOSE when not open, 46 for a READ after the end was reported, 47/48/49 for statements the open mode does not allow, 43 for a sequential REWRITE/DELETE without an immediately preceding successful READ, 44 for a record of a wrong length, 05/10/23 for an absent OPTIONAL file, 35/37/61/57/30 for an OPEN that fails; and no statement touches a stream that is not open. Boundary: no statement other than OPEN/REWRITE/DELETE/DELETE FILE after CLOSE WITH LOCK; no WRITE/REWRITE/DELETE on an absent OPTIONAL file open I-O with random or dynamic access; no READ/START on a closed file that was an absent OPTIONAL one or (READ) was closed at its end.

*Specification:* observational automaton `Seen`.
*Proof:* simulation.
*Model:* `Io/Status.lean`; *theorems in* `Io/StatusProps.lean`, `Tight.lean`.
*Code:* libcob/fileio.c: cob_ex_open, cob_ex_close, cob_ex_start, cob_ex_read, cob_ex_write, cob_ex_rewrite, cob_ex_delete, save_status.
*Theorems:* `C36_statuses`, `C36_streams`, `C36_finding_locked`, `C36_finding_optional`, `C36_finding_closed`, `C36_finding_linage`, `C36_close`.
*Remarks:* C36_statuses: the statuses of every proper history equal those of the observational automaton Seen, whose state is updated from the statement and the status only (plus the system's answer to OPEN); C36_streams: in every proper history each organisation routine and each close is called on an open stream. Findings (concrete executions outside the boundary): READ/WRITE/START/CLOSE after CLOSE WITH LOCK use a released stream (locked); WRITE/REWRITE/DELETE on an absent OPTIONAL file open I-O use a null stream (optional); READ on closed file answers 10/23/46 (closed); OPEN refused with 57 leaves the stream open (linage). Organisation routines' results are arbitrary values; their behaviour is C37-C39.

### C37 — SEQUENTIAL files give back the records written (proved)
Reading a sequential file sequentially returns exactly the records written (record lengths 1 to 65535 within the record limits), in order and with their lengths, followed by end of file (10, then 46); OPEN EXTEND appends; in a history of READs and REWRITEs every REWRITE (of the same length, after a successful READ) replaces exactly the record last read.

*Specification:* list of records with a read position.
*Proof:* simulation over histories.
*Model:* `Io/Seq.lean`, `Io/Stream.lean`; *theorems in* `Io/SeqProps.lean`.
*Code:* libcob/fileio.c: sequential_read, sequential_write, sequential_rewrite.
*Theorems:* `C37_io_history`, `C37_read_back`, `C37_extend`, `C37_rewritten_file`, `C37_write_limits`, `C37_finding_long_record`, `C37_finding_read_overflow`, `C37_finding_empty_record`.
*Remarks:* History refinement to a list of records (SeqSpec) for fixed and variable records; C37_write_limits covers WRITEs outside the record limits; findings: record lengths from 65536 lose their length field, a longer record on file overruns the record area, empty records. I/O errors and the external file handler are not modelled.

### C38 — LINE SEQUENTIAL files give back the records written (proved)
Reading a line sequential file returns the records written (with the empty lines of ADVANCING), for records without CR/LF (or for all records under COB_LS_NULLS), trailing spaces normalised, followed by end of file; any text file is read as its lines without carriage returns, each cut or padded to the record length.

*Specification:* list of lines.
*Proof:* round trip by induction.
*Model:* `Io/Line.lean`; *theorems in* `Io/LineProps.lean`, `Tight.lean`.
*Code:* libcob/fileio.c: lineseq_read, lineseq_write, cob_file_close.
*Theorems:* `C38_any_text`, `C38_round_trip`, `C38_finding_line_feed`, `C38_finding_page_joins`, `C38_page`.
*Remarks:* Round trip for every list of WRITEs with any ADVANCING lines, both COB_LS_NULLS and COB_LS_FIXED settings; reading of arbitrary text. Findings: LF in data, ADVANCING PAGE joins lines.

### C39 — RELATIVE files behave as a map from record numbers to records (proved)
For every history of WRITE, READ, READ NEXT, REWRITE, DELETE, START and changes of the RELATIVE KEY item on a relative file, the statuses, the records read and the RELATIVE KEY item are those of a finite map from record number to record: WRITE of an existing number gives 22, READ of an absent number 23, a statement about one number never affects another, READ NEXT enumerates the present numbers in ascending order and then gives 10 and 46, and closing and reopening the file keeps the map. The boundary of the claim is exact: REWRITE keeps the record length, no READ NEXT follows an unsuccessful START, a sequential DELETE finds RELATIVE KEY as the READ left it; REWRITE/DELETE of a deleted (not never-written) number answers 00, START LESS/NOT GREATER from above the highest number ever written answers 23, and START NOT LESS than 0 answers 23. Outside the boundary the map is broken (findings).

*Specification:* `RelSpec`: partial map from record numbers, with a cursor.
*Proof:* simulation over histories; the byte image of the file is slots of fixed size.
*Model:* `Io/Rel.lean`; *theorems in* `Io/RelProps.lean`.
*Code:* libcob/fileio.c: relative_start, relative_read, relative_read_next, relative_write, relative_rewrite, relative_delete.
*Theorems:* `C39_history`, `C39_reopen`, `C39_enumeration`, `C39_finding_start_delete`, `C39_finding_start_garbage`, `C39_finding_rewrite_absent`, `C39_finding_start_less`, `C39_finding_rewrite_length`.
*Remarks:* C39_history: every legal history of statements, from the creation of the file, is answered (status, record, RELATIVE KEY item) as by the map specification RelSpec; C39_reopen the same after close and reopen with either access mode; C39_enumeration: READ NEXT after reopening gives exactly the present numbers ascending, then 10, then 46. Findings, as concrete executions: after START + READ NEXT a DELETE deletes record 1 (start_delete); READ NEXT after an unsuccessful START returns garbage with 00 (start_garbage); REWRITE/DELETE of a deleted record answers 00 (rewrite_absent); START LESS from above the extent answers 23 (start_less); REWRITE with another length keeps the old length (rewrite_length). Not modelled: status 14 (key too large for the item), locks, I/O errors.

### C40 — SORT returns a sorted stable permutation (proved)
For every sequence of RELEASE and RETURN statements of a SORT, the RETURNs yield exactly the records released before the first RETURN, each once, in key order and with equal keys in the order of release, then status 10; a RELEASE after the first RETURN is refused with status 30. This holds whether or not the records fit into the sort memory (at least four records must fit if they do not all fit: with fewer the runtime dereferences a null pointer). The size in RECORD DEPENDING ON comes back with each record only if no temporary file was needed.

*Specification:* RETURN gives a permutation of the RELEASEd records, sorted by the keys.
*Proof:* block-structure invariants of the in-memory queues, of the bytes of the temporary files and of the merges.
*Model:* `Io/Sort.lean`; *theorems in* `Io/SortProps.lean`.
*Code:* libcob/fileio.c: cob_file_sort_submit, cob_sort_queues, cob_write_block, cob_file_sort_process, cob_file_sort_retrieve.
*Theorems:* `C40_sort`, `C40_order_unique`, `C40_finding_three_records`, `C40_finding_sizes_lost`.
*Remarks:* Full: RELEASE/RETURN with the in-memory merge, the spilling to temporary files at the level of bytes, the file merge passes and the final merge. The order is the actual key comparison (C25). Not modelled: I/O errors on temporary files, USING/GIVING copying. Findings: fewer than four records in memory with spilling is a null dereference; the sizes of variable records are lost when spilled.

### C41 — CALL resolution is stable and name encoding is unambiguous (proved)
After every history of CALLs, program starts and CANCELs: once a program name has been resolved every later CALL of the same name gets the same entry point, whatever the loader would say by then; CANCEL runs exactly the cancel function the program registered last, once; names that share a hash bucket do not disturb each other; two different program names without underscore are mapped to different entry symbols (names with underscores can collide: A-B and A__B); trailing spaces of the item holding the name are insignificant.

*Specification:* answer of the loader at the first successful resolution.
*Proof:* hash-table invariant over histories.
*Model:* `Rt/Call.lean`; *theorems in* `Rt/CallProps.lean`.
*Code:* libcob/call.c: hash, insert, lookup, cob_resolve, cob_set_cancel, cobcancel; cobc/typeck.c: cb_encode_program_id; libcob/common.c: cob_field_to_string.
*Theorems:* `C41_answers`, `C41_stable`, `C41_symbols_differ`, `C41_symbol_is_identifier`, `C41_name_padding`, `C41_name_exact`, `C41_finding_hyphen_collides`, `C41_finding_escape_collides`.
*Remarks:* Exact characterisation of every answer after every history (C41_answers), stability as a corollary, injectivity of the name encoding for names without underscore; collisions with underscores proved as findings. The loader is an oracle that may change at every call.

### C42 — CANCEL ALL cancels each program called below (proved)
After every history of calls and returns in which no program (at one place of the call tree) calls more than two different programs, CANCEL ALL in the running program cancels exactly the programs that were called below it, directly or indirectly and also when they have returned, each once for every path by which it was called. (From the third different callee on the code links the program to the wrong node and this fails; programs with a hyphen in their name are not cancelled.)

*Specification:* descendants in the call tree.
*Proof:* tree invariant over histories.
*Model:* `Rt/Call.lean`; *theorems in* `Rt/CancelProps.lean`.
*Code:* libcob/call.c: cob_push_call_stack_list, cob_pop_call_stack_list, cob_cancel_call_stack_list, cob_cancel_all, cobcancel; cobc/codegen.c: 4343, 4361, 4612.
*Theorems:* `C42_cancel_all`, `C42_cancel_effect`, `C42_finding_third_callee`, `C42_finding_sister_lost`, `C42_finding_hyphen`.
*Remarks:* For all histories with at most two different callees per node; for more the code is wrong and the findings prove it (third callee lost, sister lost, hyphenated names not cancelled). Assumes GCC's evaluation order of `p->x = f()` where f changes p's global.

### C43 — PICTURE analysis (proved)
For every PICTURE string that the compiler accepts, the size in bytes, the presence of a sign, the digit count and scale of a numeric or numeric-edited item, the category, and the symbol list handed to the runtime are those counted on the string's expansion (every repetition factor written out). Every proper PICTURE (numeric S9..V9.. up to 36 digits, alphanumeric, national, numeric-edited up to 160 characters, with CR or DB at the end) is accepted in any way of writing it, and MOVE of a number to the numeric-edited item so described leaves the text the PICTURE means. Binary, COMP-X (unsigned), COMP-3 and DISPLAY items get enough bytes for every number of their digits.

*Specification:* `Cobc/PictureSpec.lean`: counts on the expansion of the PICTURE string.
*Proof:* invariant of the scanner loop, induction over the groups of the string.
*Model:* `Cobc/Picture.lean`; *theorems in* `Cobc/PictureAccept.lean`, `Cobc/PictureCount.lean`, `Cobc/PictureMore.lean`, `Cobc/PictureP.lean`, `Cobc/PictureProps.lean`.
*Code:* cobc/tree.c: cb_build_picture, guess_pic_category, increase_character_length; cobc/field.c: compute_size.
*Theorems:* `C43_accepts`, `C43_repeat`, `C43_runtime_picture`, `C43_edited_move`, `C43_binary_room`, `C43_compx_room`, `C43_binary_least`, `C43_compx_least`, `C43_decimal_room`, `C43_compx_signed_no_room`, `C43_overflow_mark_lost`, `C43_overflow_numeric`, `C43_overflow_sum`, `C43_scale_wraps`, `C43_float_no_decimals`, `C43_double_c`, `C43_db_factor`, `C43_only_sign`, `C43_p_then_v`, `C43_scaled`, `C43_p_then_v_factor`, `C43_values`, `C43_category`.
*Remarks:* C43_values: size, sign, digits, scale and runtime symbol list are counted on the expansion, for every accepted string with an expansion shorter than 2^29 symbols, at most one 'C' and one 'D', and DB written out (C43_double_c, C43_db_factor, C43_overflow_* show the excluded strings go wrong). C43_category: category. C43_accepts: every proper PICTURE without 'P' is accepted. C43_scaled: every numeric PICTURE with 'P' on one side is accepted and gives the right digits and scale. C43_edited_move composes with C16. C43_binary_room / C43_compx_room / C43_decimal_room: storage sizes. Findings: C43_overflow_mark_lost, C43_overflow_numeric, C43_overflow_sum, C43_scale_wraps, C43_float_no_decimals, C43_double_c, C43_db_factor, C43_only_sign, C43_p_then_v, C43_p_then_v_factor, C43_compx_signed_no_room. Not modelled: the scanner in front of cb_build_picture, message texts. C43_repeat: a repetition factor in parentheses of any number of digits (up to 47) stands for that many symbols or is refused.

### C44 — LINAGE page control (proved)
For every sequence of WRITE ADVANCING statements (by at least one line, or PAGE) the LINAGE-COUNTER stays between 1 and LINAGE; every logical page has the physical lines its items (read when the page starts) describe; a record written BEFORE ADVANCING stands on the body line LINAGE-COUNTER named; END-OF-PAGE (52) is signalled exactly when the phrase is present and the footing area or page end is reached; items that make no sense at a page start give 57 from then on.

*Specification:* report as a list of logical pages.
*Proof:* simulation over histories.
*Model:* `Io/Line.lean`; *theorems in* `Io/LinageProps.lean`.
*Code:* libcob/fileio.c: cob_linage_write_opt, file_linage_check, lineseq_write.
*Theorems:* `C44_report`, `C44_open`, `C44_record_line`, `C44_finding_zero_lines`, `C44_finding_after_one_line_early`, `C44_finding_flag_leaks`.
*Remarks:* History refinement to a report of logical pages, with items that may change between WRITEs. Excluded and shown as findings: ADVANCING 0 LINES, position of AFTER ADVANCING records (one line early), the global end-of-page flag leaking after a 57. LINAGE-COUNTER arithmetic is unbounded in the model (PIC 9(9) COMP-5 in the code).

### C45 — Operational sign overpunch (proved)
Reading the sign of a signed zoned item and putting it back leaves the item unchanged; the sign round-trips for every digit, in ASCII and EBCDIC sign conventions, and the digits seen between get and put are the absolute value.

*Specification:* overpunch tables.
*Proof:* case analysis per digit, all lengths.
*Model:* `Num/Field.lean`; *theorems in* `Num/DisplayProps.lean`.
*Code:* libcob/common.c: cob_real_get_sign, cob_real_put_sign, cob_get_sign_ebcdic, cob_put_sign_ebcdic, cob_get_sign_ascii, cob_put_sign_ascii.
*Theorems:* `C45_sign_roundtrip`, `C45_ascii_any_content`, `C45_blank_sign_is_overwritten`, `C45_ebcdic_rewrites`.
*Remarks:* Sign overpunch round trip, ASCII and EBCDIC.

### C46 — COMPUTE evaluates the written expression (proved)
For every arithmetic expression over numeric items and literals, COMPUTE stores in the receiver the mathematically exact value of the expression (division to at least 37 further digits), truncated or rounded and size-checked as declared, whatever the nesting depth; several receivers of one statement all get the value computed from the operands as they were before the statement; a zero divide or undefined result anywhere leaves the receiver unchanged and raises SIZE ERROR.

*Specification:* value of the expression tree in ℚ.
*Proof:* structural induction with a register-disjointness invariant.
*Model:* `Num/Compute.lean`; *theorems in* `Num/ComputeProps.lean`.
*Code:* cobc/typeck.c: decimal_expand, decimal_compute, decimal_assign, build_decimal_assign; libcob/numeric.c: cob_decimal_add, cob_decimal_sub, cob_decimal_mul, cob_decimal_div, cob_decimal_pow, cob_decimal_get_field.
*Theorems:* `C46_compute`, `C46_registers`, `C46_zero_divide`, `C46_multi`.
*Remarks:* COMPUTE expression compilation with decimal registers.

### C47 — MOVE of a text numeral to a numeric item (proved)
Moving alphanumeric text that is a numeral (blanks, optional sign, digits, optional decimal point and digits, blanks) to a zoned numeric item stores the number written, aligned on the decimal point and truncated to the receiver's positions, for either decimal-point convention.

*Specification:* digits of the integer part.
*Proof:* list lemmas.
*Model:* `Move/Alnum.lean`; *theorems in* `Move/AlnumProps.lean`.
*Code:* libcob/move.c: cob_move_alphanum_to_display.
*Theorems:* `C47_text_to_number`, `C47_reads_past_source`, `C47_bad_text_is_zero`.
*Remarks:* Finding C47_reads_past_source: V-P pictures make the skip loop run past the sender.

### C48 — Record layout: nesting, no overlap, table elements inside the record (proved)
In the storage layout of any record description every item lies with all its occurrences inside one occurrence of its group, items that are not redefinitions do not overlap, a redefinition starts where the redefined item starts, every subscripted reference that passes the subscript checks addresses bytes inside the record, and references with different subscripts do not overlap.

*Specification:* intervals of items, disjointness and nesting.
*Proof:* structural induction over the record description.
*Model:* `Cobc/Layout.lean`; *theorems in* `Cobc/LayoutProps.lean`.
*Code:* cobc/field.c: compute_size; cobc/codegen.c: output_base, output_data; cobc/typeck.c: cb_build_identifier; libcob/common.c: cob_check_subscript.
*Theorems:* `C48_nested`, `C48_disjoint`, `C48_ordered_disjoint`, `C48_reference_inside`, `C48_elements_disjoint`, `C48_arithmetic`, `C48_placed`, `C48_finding_sync_group`, `C48_finding_two_redefinitions`, `C48_finding_wrap`.
*Remarks:* Layout with exact and 32-bit arithmetic (C48_arithmetic: equal below 4 GB); C48_placed gives the exact position of every item (first aligned position). Findings: SYNC at a binary group separates the group from its items; two longer redefinitions are both added; a product of 2^32 wraps to 0. OCCURS DEPENDING in the middle of a record is not modelled.

### C49 — Conditions on numeric items compiled to specialised routines (proved)
Comparing a numeric item with a numeric literal or item gives the relation between the two numbers whichever routine the compiler selects for the pair (byte comparison, packed, zoned, signed zoned, binary by size/sign/byte order, or the general comparison), and regardless of the comparisons made before.

*Specification:* order of ℚ of the operand values (the same specification as C09).
*Proof:* per-routine theorems composed by case analysis of the routine selection.
*Model:* `Num/FastPath.lean`; *theorems in* `Num/CondProps.lean`, `Num/FastPathProps.lean`.
*Code:* libcob/codegen.h: cob_cmp_u8_binary .. cob_cmpswp_s64_binary, cob_cmp_packed_int, cob_get_numdisp, cob_get_packed_int; libcob/numeric.c: cob_cmp_sign_numdisp, cob_cmp_long_sign_numdisp, cob_cmp_uint; libcob/move.c: cob_get_int, cob_display_get_int; cobc/typeck.c: cb_build_cond, cb_build_optim_cond, cb_chk_num_cond; cobc/codegen.c: output_integer; cobc/tree.c: cb_fits_int.
*Theorems:* `C49_signed_display`, `C49_condition`, `C49_finding_scaled_binary`, `C49_finding_scaled_display`, `C49_binary`, `C49_packed`.
*Remarks:* C49_condition for every operand pair cobc compiles with a numeric comparison, over a model of cb_build_cond/cb_build_optim_cond/cb_chk_num_cond/output_integer/cb_fits_int and the routines; per-routine theorems C49_binary, C49_packed, C49_signed_display. Excluded with proved findings: right operands with P pictures (C49_finding_scaled_binary, C49_finding_scaled_display); packed negative zero (C12_negative_zero).

### C50 — Integer ADD and SUBTRACT compiled to specialised routines (proved)
When the compiler uses a specialised routine to add an integer to or subtract it from an integer item (binary of any size and byte order, packed, zoned), the item afterwards holds the exact sum or difference whenever it has room for it; the size and attributes of the item do not change; a binary item otherwise holds the result modulo two to the number of its bits.

*Specification:* the number held afterwards is the sum/difference.
*Proof:* per-routine theorems composed by case analysis of the routine selection.
*Model:* `Num/FastPath.lean`; *theorems in* `Num/CondProps.lean`, `Num/FastPathProps.lean`.
*Code:* libcob/codegen.h: cob_add_u8_binary .. cob_subswp_s64_binary, cob_setswp_*, cob_add_packed_int; cobc/typeck.c: cb_build_optim_add, cb_build_optim_sub, build_store_option; libcob/numeric.c: cob_add_int, cob_sub_int.
*Theorems:* `C50_add_item`, `C50_sub_item`, `C50_finding_unsigned_operand`, `C50_finding_no_truncation`, `C50_add_binary`, `C50_sub_binary`, `C50_set_swapped`, `C50_add_packed_same_sign`, `C50_add_packed`, `C50_packed_spare_nibble`.
*Remarks:* C50_add_item, C50_sub_item for every usage; exact bytes modulo 2^(8 size) for binary (C50_add_binary, C50_sub_binary, C50_set_swapped); packed: C50_add_packed. Findings: C50_packed_spare_nibble, C50_finding_unsigned_operand, C50_finding_no_truncation.

### C51 — MOVE compiled in line has the effect of the general MOVE (proved)
Whether the compiler turns a MOVE into in-line code (memset, memcpy, a constant image, an assignment, a specialised packed routine) or calls the general routine, the receiver ends up the same: for text receivers byte for byte, for numeric receivers with the same number (the literal or item aligned on the decimal point, truncated to the PICTURE, sign kept iff the receiver is signed), for zoned receivers and MOVE ZERO byte for byte.

*Specification:* `MovedUnits` (the rule proved of the library by C13) for numbers; equality with the library routine's bytes for text.
*Proof:* case analysis of the code selection; image lemmas for the constants built at compile time.
*Not modelled / excluded:* NATIONAL and edited receivers (always the library), COMP-1/2, subscripted and reference-modified operands.
*Model:* `Cobc/Move.lean`, `Move/Numeric.lean`, `Move/Alnum.lean`; *theorems in* `Cobc/MoveProps.lean`.
*Code:* cobc/typeck.c: cb_build_move, cb_build_move_literal, cb_build_move_field, cb_build_move_num_zero, validate_move; libcob/numeric.c: cob_set_packed_int, cob_set_packed_zero; libcob/codegen.h: cob_setswp_*; libcob/move.c: cob_move.
*Theorems:* `C51_zero`, `C51_literal`, `C51_literal_native`, `C51_literal_same`, `C51_literal_zoned`, `C51_field`, `C51_figurative`, `C51_text_literal`, `C51_number_text`, `C51_all`, `C51_text_item`, `C51_zoned_item`, `C51_finding_no_truncation`, `C51_finding_negative`, `C51_finding_text_number`, `C51_finding_justified`, `C51_finding_all`, `C51_finding_copy`, `C51_all_alphabetic`.
*Remarks:* C51_literal / C51_literal_same / C51_literal_native / C51_literal_zoned (numeric literals), C51_zero, C51_field, and the text theorems C51_figurative, C51_text_literal, C51_number_text, C51_all, C51_text_item, C51_zoned_item. Excluded with proved findings: literals that do not fit the PICTURE of a binary receiver (C51_finding_no_truncation), negative literals to unsigned binary items (C51_finding_negative), text literals to zoned items (C51_finding_text_number), numeric literals to JUSTIFIED RIGHT items (C51_finding_justified), ALL literals of bytes above 0x80 (C51_finding_all), values beyond the PICTURE (C51_finding_copy). C51_all_alphabetic: ALL literals to alphabetic items.

### C52 — DISPLAY writes the number the item holds (proved)
DISPLAY of a numeric item (zoned, packed or binary) writes, with the default settings, the sign if the item is signed, the digits before the decimal point with leading zeros, and, if the PICTURE has decimals, the program's decimal point and all decimals, and this text denotes exactly the item's number when it is within the PICTURE; so two items of the same PICTURE with different values are written differently. COMP-5 items (and all binary items without pretty-display) are written in full for every bit pattern. Text, groups and edited items are written byte for byte; several operands are written in order with nothing between them, and a newline follows unless NO ADVANCING is said.

*Specification:* `prettyText`, `plainText`, `numvalText`, `digitText`: the characters written directly from the number of units, with `fixedDigits`.
*Proof:* the temporary PICTURE is shown to satisfy the conditions of C16, and the edited text of that PICTURE is computed position by position; the plain form follows from the alignment lemmas of C13.
*Not modelled / excluded:* COMP-1/COMP-2 (printf of a double), pointers, and the screen.
*Model:* `Rt/Termio.lean`, `Move/Numeric.lean`, `Move/Edited.lean`; *theorems in* `Rt/TermioProps.lean`.
*Code:* libcob/termio.c: cob_display, display, display_numeric, pretty_display_numeric, display_alnum, bin_digits; libcob/move.c: cob_move, cob_move_display_to_edited.
*Theorems:* `C52_pretty`, `C52_plain`, `C52_binary`, `C52_binary_width`, `C52_text`, `C52_statement`, `C52_distinct`, `C52_finding_cut`, `C52_finding_comp5_point`, `C52_finding_minus_zero`.
*Remarks:* C52_pretty, C52_plain, C52_binary (numbers), C52_text, C52_statement, C52_distinct (the text determines the value). Findings: C52_finding_cut (value beyond the PICTURE of a binary item), C52_finding_comp5_point (no decimal point for COMP-5), C52_finding_minus_zero.

### C53 — ACCEPT stores the next input line (proved)
ACCEPT takes exactly the next line of the input without its newline: a text item receives it from the left (from the right if JUSTIFIED), filled with spaces or cut; a numeric item receives the number written on the line, aligned on the decimal point, as by MOVE. Successive ACCEPTs read successive lines, none skipped or read twice; at the end of the input text items become spaces. What DISPLAY writes for an unsigned whole number ACCEPT reads back.

*Specification:* positions of the line (as C14), `Numeral.value` and `MovedUnits` for numbers.
*Proof:* induction on the line for fgets; C47 and C13 for the conversion; induction on the statements for the sequence.
*Not modelled / excluded:* the screen, ACCEPT FROM DATE/TIME/ENVIRONMENT; lines of 8191 bytes and more (split by the buffer).
*Model:* `Rt/Termio.lean`, `Move/Alnum.lean`, `Move/Numeric.lean`; *theorems in* `Rt/AcceptProps.lean`.
*Code:* libcob/termio.c: cob_accept; libcob/move.c: cob_hankaku_move, cob_move_alphanum_to_display, cob_move_alphanum_to_alphanum.
*Theorems:* `C53_line`, `C53_text`, `C53_justified`, `C53_end`, `C53_sequence`, `C53_zoned`, `C53_packed_binary`, `C53_roundtrip`, `C53_finding_last_line`, `C53_finding_cut`, `C53_finding_nul`.
*Remarks:* C53_line, C53_text, C53_justified, C53_end, C53_sequence, C53_zoned (the characters fit the item), C53_packed_binary, C53_roundtrip. Findings: C53_finding_last_line (the last character of an unterminated last line is lost), C53_finding_cut (a line for a zoned item is cut to the item's size first, so signs and points push digits out), C53_finding_nul.

### C54 — A numeric statement keeps the description and size of its receiver (proved)
Whatever value is stored, with whatever options, and whatever bytes operands and receiver contain (valid numbers or not), after ADD, SUBTRACT, COMPUTE stores, MOVE (library and in-line forms), and text converted to a number, the receiver has the same USAGE, attributes and number of bytes as before.

*Specification:* `SameShape`: equality of usage, attributes and length.
*Proof:* length lemmas for every storing loop; case analysis of the dispatchers.
*Not modelled / excluded:* writes outside an item that the C code might make through pointers are only visible where the model has an explicit failure value (C16_inside, moveDispPacked, C13).
*Model:* `Num/Field.lean`, `Num/Item.lean`, `Num/AddInt.lean`, `Num/FastPath.lean`, `Move/Numeric.lean`, `Move/Alnum.lean`, `Cobc/Move.lean`; *theorems in* `Move/SizeProps.lean`.
*Code:* libcob/numeric.c: cob_decimal_get_field, cob_add, cob_sub, cob_display_add_int, cob_add_packed; libcob/move.c: cob_move, store_common_region, cob_move_alphanum_to_display; libcob/codegen.h: cob_add_packed_int, cob_add_*_binary; cobc/typeck.c: cb_build_move_literal.
*Theorems:* `C54_move`, `C54_text`, `C54_store`, `C54_add_sub`, `C54_fast`, `C54_inline`.
*Remarks:* C54_store, C54_add_sub, C54_fast, C54_move, C54_inline, C54_text; no assumption on the contents.

### C55 — PERFORM executes its range exactly as often as it says, and comes back (proved)
Running a compiled program does what its procedure division says. PERFORM of paragraphs or sections (also nested, with GO TO and EXIT inside the range) executes from the first label to the end of the last one and goes on behind the PERFORM; n TIMES executes the range exactly n times, where n is the value when the statement is reached; UNTIL and VARYING ... AFTER with the test before or after execute it for exactly the values of the loop items in their order, and leave the items at their documented values; EXIT PERFORM, EXIT PERFORM CYCLE, GO TO and GO TO DEPENDING ON lead where they say; and the program ends exactly when its procedure division does, with the same data.

*Specification:* Cobc/PerformSpec.lean: a recursive interpreter of sections, paragraphs and statements without addresses, frames or counters; `Returns`/`Does` in PerformProps.lean
*Proof:* Step-indexed simulation (PerformSim.lean): by induction on the bound and the statement, every interpreter outcome is matched by steps of the machine that leave the frames below and the counters of the active loops alone; monotonicity in the bound; induction on the number of passes
*Not modelled / excluded:* perform-osvs, SORT/MERGE procedures, USE procedures, ENTRY points, the code variants for compilers without computed goto
*Model:* `Cobc/Perform.lean`; *theorems in* `Cobc/PerformProps.lean`.
*Code:* cobc/codegen.c: output_perform, output_perform_call, output_perform_exit, output_perform_until, output_goto; cobc/parser.y: perform_option, section_header, paragraph_header, exit_body; cobc/tree.c: cb_build_perform_varying; libcob/common.h: COB_STACK_SIZE, cob_frame.
*Theorems:* `C55_bound`, `C55_compiled`, `C55_paragraphs`, `C55_section`, `C55_once`, `C55_times`, `C55_times_inline`, `C55_until_before`, `C55_until_after`, `C55_varying`, `C55_varying_after`, `C55_finding_frames_leak`, `C55_finding_times_reentered`.
*Remarks:* C55_compiled: simulation between the generated code (addresses, frames, counters, jumps) and a recursive interpreter, in both directions, for terminating and non-terminating programs. C55_once/_paragraphs/_section/_times/_until_before/_until_after/_varying/_varying_after say what the interpreter does in terms of executions of the bodies. The simulation excludes what has no defined effect: labels that do not exist, EXIT PERFORM outside an inline PERFORM, more than 254 active PERFORMs, a PERFORM TIMES entered while active. Findings: C55_finding_frames_leak (GO TO out of a performed range leaves its frame on the 255-entry stack, which then overflows unchecked unless compiled with the stack check), C55_finding_times_reentered.

### C56 — Expressions and conditions mean what their text says (proved)
Every arithmetic expression written with the COBOL rules (sign, **, * and /, + and -, left to right, parentheses) and every condition written with them (relations with and without NOT, class and sign conditions, condition-names, NOT before AND before OR, parentheses, abbreviated relations with the subject or the subject and the operator omitted) is accepted by the compiler, and the generated code computes the value or the truth value the text stands for; an omitted subject and operator are those of the last relation in front of it, the operator with its NOT.

*Specification:* Cobc/ExprSpec.lean: syntax trees, their tokens, their values and truth values (`AExp.value`, `CExp.truth`), defined without the parser
*Proof:* Induction on the syntax (ExprSim.lean): behind the tokens of an expression the stack reduces, for every next token that binds weaker, to the stack in front of it with the tree of the expression on top; the registers hold the last subject and operator
*Not modelled / excluded:* warnings, constant-divisor check, user class names as separate tokens, pointer comparisons
*Model:* `Cobc/Expr.lean`; *theorems in* `Cobc/ExprProps.lean`, `Cobc/ExprTyped.lean`.
*Code:* cobc/typeck.c: cb_build_expr, cb_expr_shift, expr_reduce, cb_expr_shift_sign, cb_expr_shift_class, expr_expand, cb_expr_finish; cobc/tree.c: cb_build_binary_op; cobc/codegen.c: output_cond; cobc/parser.y: expr_tokens, expr_token.
*Theorems:* `C56_arithmetic`, `C56_condition`, `C56_no_condition`, `C56_finding_not_zero`, `C56_finding_parenthesized_object`, `C56_finding_object_first`, `C56_finding_not_not`, `C56_finding_class_parentheses`, `C56_accepted_typed`, `C56_operands`, `C56_finding_empty_parentheses`.
*Remarks:* C56_arithmetic and C56_condition for every well-formed expression, under every interpretation of the operands. What may be written is in the spec (WF): a parenthesis does not begin with an abbreviated relation, NOT is not followed by ZERO or by a relation with its own NOT, a class test is applied to an item. Outside it: C56_finding_not_zero (B = C AND NOT ZERO = A is silently compiled as B = C AND B = A), C56_finding_parenthesized_object, C56_finding_not_not (rejected), C56_finding_class_parentheses. C56_accepted_typed: whatever is accepted is well typed, with C56_operands for what is refused; C56_finding_empty_parentheses.

### C57 — SEARCH and SEARCH ALL find what is there (proved)
SEARCH ALL on a table whose elements are in the order of its declared keys, with a condition 'key = value AND ...' that names the first m declared keys (each once, in any order, ascending or descending, through a condition-name, or with the sides exchanged where the option allows it), always ends; if it takes WHEN the index points at an element in use that satisfies the condition, and if it takes AT END no element in use satisfies it. In any order and with any keys it never takes WHEN for an element that does not satisfy the condition, never looks outside elements 1..occurs (minimum of OCCURS at least 1), and looks at no more than k elements when there are fewer than 2^k. Serial SEARCH starts where the index is, ends, and takes the first WHEN that is true at the first occurrence where one is, else AT END with the index one past the table; the VARYING index is the one moved if it belongs to the table. Findings: with OCCURS n TO m, n > 1, elements 1..n-1 are never searched; with OCCURS 0 TO m element 0 is read, can be 'found' and can hide element 1; a condition that skips the first key is accepted and misses elements; of two equalities about one key only the last counts; for an INDEX or POINTER key the direction comes from an uninitialised variable; the VARYING item is overwritten with the index instead of being counted up.

*Specification:* LawfulCmp (a three-way comparison for a linear order), SCond.Holds (truth of the condition as written), LexLe/InOrder (elements in key order), KeyCond (the shape of condition the manual allows), reached (the variables when the index has reached a given occurrence).
*Proof:* setKeys is characterised per key (setKeys_spec), the generated test is a lexicographic three-way comparison (evalConj_spec), the loop keeps 'nothing below head, nothing from tail on' (allLoop_complete) and halves the distance (allLoop_total); serial search by induction on the distance to the end.
*Not modelled / excluded:* int overflow of head + tail, the comparison functions themselves (C10, C23, C49), subscript checks, conditions with side effects, a DEPENDING ON item changed during the search.
*Model:* `Cobc/Search.lean: setKeys, buildCmps, evalConj, allLoop, searchAll; pickIndex, serialStep, firstWhen, serialLoop, searchSerial`; *theorems in* `Cobc/SearchProps.lean`.
*Code:* cobc/codegen.c: output_occurs, output_search_whens, output_search_all, output_search, output_cond; cobc/typeck.c: search_set_keys, cb_build_search_all, cb_emit_search, cb_emit_search_all, build_cond_88, cb_build_cond; cobc/parser.y: occurs_clause, occurs_keys, search_body, search_whens, table_name.
*Theorems:* `C57_search_all`, `C57_search_all_sound`, `C57_search_all_bounds`, `C57_serial`, `C57_finding_occurs_minimum`, `C57_finding_element_zero`, `C57_finding_key_gap`, `C57_finding_repeated_key`, `C57_finding_index_key`, `C57_finding_varying`.
*Remarks:* C57_search_all, C57_search_all_sound, C57_search_all_bounds, C57_serial; findings C57_finding_occurs_minimum, _element_zero, _key_gap, _repeated_key, _index_key, _varying.

### C58 — NUMVAL and NUMVAL-C give exactly the number the text shows (proved)
FUNCTION NUMVAL of a text made of optional spaces, an optional leading or trailing sign and digits with at most one decimal point, at most 18 digits in all, is exactly the number shown, with as many decimals as the text has, whatever bytes follow the argument in storage. FUNCTION NUMVAL-C gives the same for texts that also show a currency string or the program's currency sign and separators between digits. A trailing CR or DB makes the number negative when it ends the argument. A text with at most 18 digits and other characters gives the number its digits make. (The code misses CR and DB whenever the byte after the argument is not NUL or spaces follow the letters, and reports nothing for texts that show no number.)

*Specification:* Verif/Intr/NumvalProps.lean (textDigits, NumvalText, NumvalCText, shownNumber)
*Proof:* The loop is shown to be a fold over the characters when neither CR nor DB can start (no C/D letter) and a currency string can only match where it is written; the fold's value, decimals and sign are computed by induction over the text.
*Not modelled / excluded:* The floating-point result for more than 18 digits.
*Model:* `Verif/Intr/Numval.lean`; *theorems in* `Intr/NumvalMore.lean`, `Intr/NumvalProps.lean`.
*Code:* libcob/intrinsic.c: cob_intr_numval; libcob/intrinsic.c: cob_intr_numval_c.
*Theorems:* `C58_numval_long`, `C58_numval_cut`, `C58_finding_too_many_digits`, `C58_numval_c_credit`, `C58_numval_any`, `C58_numval`, `C58_numval_credit`, `C58_finding_credit_followed`, `C58_finding_credit_spaces`, `C58_finding_garbage`, `C58_finding_late_sign`, `C58_numval_c`, `C58_finding_currency_digit`.
*Remarks:* More than 18 digits give a floating-point result: only the text handed to sscanf is modelled. C locale for strcasecmp. C58_numval_c_credit: CR and DB in NUMVAL-C. C58_numval_long: 19 to 30 digits, the text handed to sscanf. C58_numval_cut / C58_finding_too_many_digits: the 31st digit is the last one looked at.

### C59 — Items and expressions used as integers (proved)
Where a statement needs an integer (subscript, reference modification, PERFORM TIMES, integer arguments) a numeric item stands for the integer part of the number it holds, whatever its usage, size, sign convention, byte order and number of decimals, as long as that fits in 32 bits; an expression of sums, differences and products stands for its exact value when that fits. (Not so for binary items with decimals, whose decimals are not taken off, nor for division, which is carried out on integers, and on unsigned integers when an unsigned binary item takes part.)

*Specification:* Verif/Cobc/IntExprProps.lean (IntReadable, IntMeans; IsTrunc from Num/DecimalSpec)
*Proof:* Per usage, the digits read are shown to be those before the decimal point; for expressions, every C type keeps the value modulo 2^32.
*Not modelled / excluded:* Exponentiation (pow), intrinsic functions and pointers in integer expressions.
*Model:* `Verif/Num/FastPath.lean (displayGetInt, packedGetInt, getInt, outputInteger)`, `Verif/Cobc/IntExpr.lean`; *theorems in* `Cobc/IntExprProps.lean`.
*Code:* cobc/codegen.c: output_integer; libcob/move.c: cob_get_int, cob_display_get_int, cob_packed_get_int; libcob/codegen.h: cob_get_numdisp, cob_get_packed_int.
*Theorems:* `C59_item`, `C59_binary`, `C59_finding_scaled_binary`, `C59_expression`, `C59_finding_division`, `C59_finding_unsigned`, `C59_division`.
*Remarks:* Signed overflow in intermediate results (undefined in C) is taken to wrap around. Items with a P picture are left out. Zoned items with more decimals than characters make cob_display_get_int run past the item (text-only finding). C59_division: with division, when every intermediate result fits, the value is the step by step truncated one.

### C60 — Relations, condition-names and SET TO TRUE in compiled programs (proved)
Whatever code the compiler selects for a relation between items, literals and constants (a difference of two characters, memcmp, a specialised routine or the library), its outcome is the comparison COBOL defines: numbers by value, texts in the collating sequence with the shorter one extended with spaces and constants repeated. A condition-name (level 88) is true exactly when the item equals one of its values or lies in one of its ranges, ends included, and SET condition-name TO TRUE stores its first value and makes it true when that value has room in the item.

*Specification:* Number / shown / len / TextOk, HasNumber, HasText, FitsExactly (rationals, and character order by first difference after extension with spaces)
*Proof:* case analysis on the operands and the selection; the library comparison is C23/C09, the specialised numeric routines C49, memcmp by induction; condition-names by induction on the list of values; SET through C51 (inline MOVE) and C13/C14/C15
*Not modelled / excluded:* NATIONAL, pointers, index names, LOW/HIGH-VALUE under a PROGRAM COLLATING SEQUENCE in SET
*Model:* `Cobc/Cond.lean`; *theorems in* `Cobc/Cond88Props.lean`, `Cobc/CondProps.lean`.
*Code:* cobc/typeck.c:cb_build_cond; cobc/typeck.c:build_cond_88; cobc/typeck.c:cb_chk_alpha_cond; cobc/typeck.c:cb_emit_set_true; cobc/codegen.c:output_funcall ($G); libcob/common.c:cob_cmp.
*Theorems:* `C60_88_number`, `C60_88_text`, `C60_set_true_number`, `C60_set_true_text`, `C60_finding_set_too_long`, `C60_finding_set_justified`, `C60_finding_literals`, `C60_finding_signed_literal`, `C60_number`, `C60_text`.
*Remarks:* NATIONAL operands, index names, pointers and expressions as operands are not in this property (expressions: C56, C49). Exclusions follow C49's findings (P pictures, -2147483648, packed negative zero). Findings: SET TO TRUE leaves the condition false when the literal is longer than the item or the item is JUSTIFIED RIGHT; two numeric literals of the same length compare without their decimal points; the sign of a literal counts as a character against a group only if the sizes differ.

### C61 — INDEXED files: a keyed file behaves like a set of records ordered by each key (proved)
For an ORGANIZATION INDEXED file with a unique record key and any number of alternate keys (unique or WITH DUPLICATES), every sequence of WRITE, REWRITE, DELETE, START, READ with a key, READ NEXT, READ PREVIOUS and CLOSE/OPEN within the rules answers with exactly the file status and the record that a plain collection of records with an order per key prescribes: WRITE refuses a record whose record key or unique alternate key is in use (22) and, with ACCESS SEQUENTIAL, keys that descend (21), and a record length outside the limits (44), and stores nothing then; a record written is read back by its key with the bytes and the length written until it is rewritten or deleted; START and READ find the first (or, for less, the last) record whose leading key bytes satisfy the condition or answer 23; reading from the start of any key delivers every record exactly once in the order of that key, duplicates in the order they were written, then 10, then 46; no two records ever share a unique key.

*Specification:* Verif.Io.IndexedSpec: an abstract file is a partial map from record keys to records with a number per key; IxDoes is a relation with one constructor per statement and outcome, without trees, cursors or saved keys; IxDo chains it; IxLegal are the programs within the rules.
*Proof:* A simulation relation (IxRel) between the trees and registers and the abstract file is preserved by every statement (IndexedSim, IndexedSim2, IndexedStep); the specification is shown deterministic (IndexedDet); histories by induction.
*Not modelled / excluded:* Berkeley DB itself is trusted (B-tree order, DB_SET_RANGE, DB_DUP insertion order); locking with DB_HOME, I/O errors, concurrent processes, duplicate numbers beyond 2^32, the mode checks (see the connector properties).
*Model:* `Verif.Io.Indexed`; *theorems in* `Io/IndexedProps.lean`.
*Code:* libcob/fileio.c:indexed_open; libcob/fileio.c:indexed_start_internal; libcob/fileio.c:indexed_read; libcob/fileio.c:indexed_read_next; libcob/fileio.c:get_dupno; libcob/fileio.c:check_alt_keys; libcob/fileio.c:indexed_write; libcob/fileio.c:indexed_write_internal; libcob/fileio.c:indexed_delete_internal; libcob/fileio.c:indexed_rewrite; libcob/fileio.c:cob_ex_start; libcob/fileio.c:cob_ex_read.
*Theorems:* `C61_history`, `C61_read_back`, `C61_scan`, `C61_scan_open`, `C61_unique`, `C61_duplicates`, `C61_finding_rewrite_unique_alternate`, `C61_finding_rewrite_unique_undefined`, `C61_finding_rewrite_loses_record`, `C61_finding_number_reused`, `C61_finding_open_then_lower`, `C61_finding_start_le_partial`, `C61_finding_rewrite_length`, `C61_finding_length_left`, `C61_finding_same_place`.
*Remarks:* C61_history is the whole specification (exactly one answer per statement); the others are its consequences in terms of what a program does. WRITE with a length outside the record limits (44) is part of it. Excluded, and shown by the C61_finding theorems: sequential REWRITE in a file with another unique key (deletes another record or is undefined), sequential REWRITE that changes the record key to one in use (the record is lost), START <= with part of a key, keys that begin at the same place, REWRITE right after a WRITE refused for its length (C61_finding_length_left: an undersized record is stored). The position rules that the specification has to follow (number reuse after deleting the last duplicate, a lower key written after OPEN) are also shown as findings.

### C62 — INITIALIZE and initial values set every elementary item to what the phrases say, and nothing else (proved)
After INITIALIZE item [WITH FILLER] [ALL TO VALUE] [REPLACING category BY ...] [TO DEFAULT], every occurrence of every elementary item of the item (tables included, at every depth) holds: its VALUE if TO VALUE is written and it has one; else, unless it is FILLER and WITH FILLER is not written, the operand of the first REPLACING phrase for its category moved to it; else by DEFAULT zero (numeric, in its usage), edited zero, or spaces; items that no phrase concerns are unchanged, and so is all storage outside the item. A text VALUE stands at the left and is filled with spaces or cut, VALUE ALL is repeated. The same holds for the initial values of WORKING-STORAGE (every item, FILLER too, holds its VALUE or its default). The compiler's merging of neighbouring items into one memset, and its three ways of writing a literal, do not show.

*Specification:* Cobc/InitSpec.lean: Regular (storage), Occ/Named (the occurrences of the items), Gets (what an item gets, by the phrases), valueIs, defaultIs, Bytes.
*Proof:* Induction over the item tree with one invariant for a list of items of a group (skip count, ordered offsets): what is outside is unchanged and every occurrence is done; merged memsets by absorb_spec/merge_spec; tables by a lemma on consecutive blocks; the storage hypothesis is proved from C48's layout.
*Not modelled / excluded:* NATIONAL items, CHAINING, EXTERNAL, reference-modified operands, level 01 with OCCURS (an extension), REPLACING operands inside the record.
*Model:* `Cobc/Init.lean`; *theorems in* `Cobc/InitMore.lean`.
*Code:* cobc/codegen.c:initialize_type; cobc/codegen.c:initialize_uniform_char; cobc/codegen.c:output_initialize_one; cobc/codegen.c:output_initialize_compound; cobc/codegen.c:output_initialize; cobc/codegen.c:output_initial_values; cobc/typeck.c:cb_emit_initialize.
*Theorems:* `C62_layout`, `C62_initialize`, `C62_gets_unique`, `C62_number_zero`, `C62_plain`, `C62_phrases`, `C62_initial_values`, `C62_finding_filler_redefines`, `C62_finding_category_to_value`, `C62_finding_filler_value`, `C62_finding_longer_redefinition`, `C62_finding_edited_zero`.
*Remarks:* Findings: INITIALIZE ... WITH FILLER of an item with REDEFINES does nothing; category TO VALUE acts like ALL TO VALUE; FILLER with VALUE is set without WITH FILLER; bytes of a redefinition longer than the item it redefines are overwritten or not depending on the neighbours; numeric-edited VALUE ZERO is filled with '0's. The MOVE statement is a parameter constrained by IEnv.Ok (its numeric zero is C51's).

### C63 — EVALUATE executes the statements of the first matching WHEN (proved)
EVALUATE subjects WHEN objects ... executes exactly the statements of the first case one of whose WHENs matches, where a WHEN matches if every object matches the subject in the same position (ANY matches; TRUE/FALSE match a condition with that truth value; a condition matches TRUE/FALSE by its truth value; [NOT] v matches when the subject does [not] equal v; [NOT] v THRU w when it does [not] lie between). If no case matches, the statements of WHEN OTHER are executed, or nothing. A WHEN with another number of objects than subjects is rejected.

*Specification:* Cobc/EvaluateSpec.lean: subjects, objects, cases as written; Matches, Selected, Chosen; hypotheses WF, For, NotsPlain.
*Proof:* Each test is related to Matches through C56 (the expression compiler); induction over objects, WHENs and cases with the running counter; the chain of IFs picks the first selected case.
*Not modelled / excluded:* Subjects or objects with errors of their own; omitted ALSO (extension); code generation of the statements themselves.
*Model:* `Cobc/Evaluate.lean`; *theorems in* `Cobc/EvaluateMore.lean`, `Cobc/EvaluateProps.lean`.
*Code:* cobc/parser.y:evaluate_statement; cobc/parser.y:evaluate_object; cobc/typeck.c:evaluate_test; cobc/typeck.c:build_evaluate; cobc/typeck.c:cb_emit_evaluate.
*Theorems:* `C63_finding_second_not`, `C63_finding_many_objects`, `C63_finding_empty_before_other`, `C63_condition_for_value`, `C63_evaluate`, `C63_first_match`, `C63_chosen_unique`, `C63_count`.
*Remarks:* Findings: in the second and later WHENs before the same statements, a condition 'NOT a AND b' is read as NOT (a AND b) because the counter of objects is not reset per WHEN; with more than 64 objects in a case the parser reads the table entries of a nested EVALUATE; with allow-empty-imperative-statement a last empty case takes the statements of WHEN OTHER (documented extension).

### C64 — COPY REPLACING and REPLACE change exactly the matching texts (proved)
In the source text the pairs of REPLACE and COPY ... REPLACING are applied from left to right: at each word the first pair (in the order written) whose old text matches the following words - separators, line breaks and upper/lower case do not count - replaces the text from this word to its last matching word by the new text; with LEADING and TRAILING the matching part of the word is exchanged; every other word and its order is kept. The scanner sees the text one piece at a time, with matches in progress held back; this does not change the result, whatever text follows. REPLACE applies to the result of COPY REPLACING. With one-word old texts the result is exact including all separators; otherwise no word is lost or changed, but separators may be.

*Specification:* Cobc/ReplaceSpec.lean: wordsOf, RRule.Applies, Replaced (inductive, with the text that follows), LosesSeps, Begun.
*Proof:* Each comparison decides (applies for every continuation / for none / words so far are a proper beginning); induction over the queue and over the pieces; Replaced is composed with replaced_append; uniqueness of the result proved separately.
*Not modelled / excluded:* The flex scanner that cuts the text into pieces, COPY file search, JOINING/PREFIXING phrases, the stack of copied files.
*Model:* `Cobc/Replace.lean`; *theorems in* `Cobc/ReplaceMore.lean`, `Cobc/ReplaceProps.lean`.
*Code:* cobc/pplex.l:ppecho_0; cobc/pplex.l:ppecho_1; cobc/pplex.l:ppecho_2; cobc/ppparse.y:replacing_tokens.
*Theorems:* `C64_finding_words_joined`, `C64_finding_end_dropped`, `C64_finding_end_of_copy`, `C64_finding_empty_old`, `C64_finding_empty_old_rounds`, `C64_finding_trailing_order`, `C64_finding_trailing_space`, `C64_replace`, `C64_single_words`, `C64_off`, `C64_unique`, `C64_two_stages`.
*Remarks:* Findings: after an abandoned partial match the space in front of a replaced word is swallowed, so two words are joined (MOVE B -> MOVEX); text held back as the beginning of an old text is dropped at the end of the program; at the end of a copied file a held-back word is not compared with the later pairs; an empty old text is replaced for ever; COPY REPLACING TRAILING writes past REPLACE and out of order; TRAILING with a space before the text never applies.

### C65 — Fixed-format source lines: columns 7-72, comments, continuation and line numbers (proved)
A program in fixed format is read as its reference format says: columns 1-6 and everything from column 73 on have no influence; lines with * or / in column 7, debugging lines without the debugging option, short and blank lines contribute no text; the text of another line is columns 8 to 72 without spaces at its end; a line with - in column 7 continues the line before directly, without its leading spaces, and a continued literal consists of the characters up to column 72 and those behind the quotation mark of the next line, over any number of lines; any other indicator and a literal continued without its mark are errors. The text of each line stands on the same line number as in the file (so that messages name the right line), and the number of lines is kept.

*Specification:* Cobc/SourceSpec.lean: area, SrcOk, ignored, blankText, Lit (state of literals), visible, contStart, sourceText, layOut, fileOf.
*Proof:* Each line is simulated (line_ok) with a relation between the static variables and Lit; induction over the file; line numbers by counting newlines in layOut; columns by showing that sourceText only depends on columns 7-72; continued literals by induction over the middle lines.
*Not modelled / excluded:* Comment paragraphs (within_comment), warnings, the scanner's buffer size, tab stops and free format (modelled, no theorem), mfcomment.
*Model:* `Cobc/Source.lean`; *theorems in* `Cobc/SourceFind.lean`, `Cobc/SourceMore.lean`, `Cobc/SourceProps.lean`.
*Code:* cobc/pplex.l:ppinput; cobc/pplex.l:check_directive; cobc/pplex.l:check_dollar_directive.
*Theorems:* `C65_finding_comment_in_literal`, `C65_finding_quote_in_comment`, `C65_finding_long_line`, `C65_finding_debug_directive`, `C65_finding_lost_lines`, `C65_finding_format_in_false_part`, `C65_finding_edge`, `C65_columns`, `C65_line_numbers`, `C65_continued_literal`, `C65_continued_text`, `C65_source`.
*Remarks:* Findings: *> inside a literal with apostrophes cuts the literal; a *> comment with a quotation mark in it is not cut and opens a literal; on a line longer than 256 characters the rest is compiled as a new line; >>D (or >>SOURCE FIXED) behind six comment lines is rejected as invalid indicator; $IF/$END lose lines from the line count; >>SOURCE FORMAT FREE takes effect inside a part not compiled; a literal ending exactly in column 72 makes an ordinary continuation an error. Not modelled but read: with about 8000 skipped lines in sequence the counted newlines overflow the scanner's buffer.

### C66 — Conditional compilation selects exactly the lines whose conditions hold (proved)
A fixed-format program with $IF name [NOT] DEFINED or $IF name [NOT] = "text", $ELSE and $END, nested up to ten deep, is compiled as the program that consists only of the selected lines: a line is selected when every $IF part around it is the one chosen by its condition (upper and lower case do not count). The result is the same error or the same lines of text; lines not selected are not looked at (invalid indicators in them are no error), continuation lines and continued literals may have directives between them.

*Specification:* Cobc/SourceIfSpec.lean: DirCond with words and holds, HasWords, DirLine, IfText with lines/selected/depth/Ok, srcLines.
*Proof:* Runs (line-by-line execution relation) composed along the tree; invariant InPart ties the status and stack of the code to the enclosing conditions; Laid shows that the output depends on the texts only up to empty lines; induction over IfText.
*Not modelled / excluded:* Free format, $SET, the other directives inside conditional parts (see the findings of C65), copied files inside conditional parts.
*Model:* `Cobc/Source.lean`; *theorems in* `Cobc/SourceIf.lean`.
*Code:* cobc/pplex.l:check_dollar_directive; cobc/pplex.l:ppinput.
*Theorems:* `C66_conditional`, `C66_finding_numeric`, `C66_finding_no_end`, `C66_finding_space`.
*Remarks:* Blank lines are not compared (directives lose lines from the count, see C65). Findings: a numeric constant compares equal to nothing, so $IF N = 5 is always false and $IF N NOT = 5 always true; a $IF without $END is not reported and the rest of the program silently disappears; a text with a space cannot be compared.

### C67 — MOVE to an alphanumeric-edited item, and of numbers to text (proved)
A MOVE of text to an item whose PICTURE consists of A, X, 9, B, 0 and / writes exactly one character for each symbol: A, X and 9 take the characters of the sender in order, spaces when there are no more, B is a space, 0 and / stand for themselves; the number of characters is the size the compiler gave the item. A MOVE of a numeric item (zoned, packed or binary, signed or not, any scale) to an alphanumeric item writes the digits of its absolute value, with the zeros of trailing P positions, left aligned, cut or filled with spaces, and to an alphanumeric-edited item it fills the PICTURE with those digits. The sending item is unchanged, although the runtime takes its sign off in place.

*Specification:* Move/TextProps.lean: EditedBy (position by position), LeftAligned, sentText, sentWidth; digitText (C52).
*Proof:* The loop over (symbol, count) pairs is composed from runs, each run edits its part of the symbols (editText_append); C43_runtime_picture connects the PICTURE string with the pairs; numeric senders go through src_forms (the zoned image of any usage) and image_getSign (taking the sign off and putting it back).
*Not modelled / excluded:* NATIONAL and national-edited receivers, floating-point senders, receivers overlapping the sender.
*Model:* `Move/Text.lean`, `Move/Alnum.lean`; *theorems in* `Move/TextProps.lean`.
*Code:* libcob/move.c:cob_move_alphanum_to_edited; libcob/move.c:cob_move_display_to_alphanum; libcob/move.c:cob_move; libcob/move.c:indirect_move.
*Theorems:* `C67_text_to_edited`, `C67_number_to_text`, `C67_number_to_edited`, `C67_finding_justified`.
*Remarks:* Pictures are the ones the compiler model of C43 produces. For senders with more decimals than digits (no PICTURE gives that) the edited MOVE is modelled but not stated. Finding: JUSTIFIED RIGHT is ignored for numeric senders.

### C68 — Source text in free format, tabs, line ends and the directives that change the format (proved)
A fixed-format source file with tabs and with CR LF or LF line ends, in any mixture, is read exactly as the file with every tab expanded to the next tab stop and plain LF line ends. A file in free format is given to the scanner line by line as written, each line with a space in front unless it begins with one, comments *> cut off, no line lost or added; with FREE_1COL_ASTER the lines with * in column 1 become empty and the others are passed on unchanged. >>SOURCE [FORMAT] [IS] FREE and $SET SOURCEFORMAT(FREE), in any case of letters, switch from fixed to free format: the lines in front are read as if the file ended there and those behind are read in free format; >>SOURCE [FORMAT] [IS] FIXED switches back and every later line is on the line with its number.

*Specification:* Cobc/SourceFreeSpec.lean: untab, rawFile, freeLine, FreeText, AsterText, FormatLine, formatWords; fileOf, sourceText, layOut (C65).
*Proof:* readChars is shown to expand tabs and to drop CR of CR LF by induction over the line; each line of free format is one step that leaves the state as it is; a directive line is one step from the fixed invariant Between to the free invariant InFree or back; lines before and behind by induction over the lines with explicit fuel.
*Not modelled / excluded:* A lone CR, `>>D` lines with debugging, more than one change of format in one theorem, comment paragraphs.
*Model:* `Cobc/Source.lean`; *theorems in* `Cobc/SourceFree.lean`, `Cobc/SourceSet.lean`.
*Code:* cobc/pplex.l:ppinput; cobc/pplex.l:check_directive; cobc/pplex.l:check_dollar_directive.
*Theorems:* `C68_tabs`, `C68_free`, `C68_fixed_to_free`, `C68_set_free`, `C68_free_to_fixed`, `C68_aster`, `C68_fixed_to_aster`, `C68_finding_aster_dollar`, `C68_finding_lost_lines`, `C68_finding_debug_word`, `C68_finding_comment_in_literal`, `C68_set_aster`, `C68_set_fixed`.
*Remarks:* Findings: with FREE_1COL_ASTER a $ directive in column 1 is not seen; the lines of a part of free format that is not compiled are not counted; any directive word that begins with D is taken for >>D; *> in an apostrophe literal cuts the literal off.

### C69 — Literals and constants in PICTURE strings (proved)
A literal between quotation marks is exactly its text with doubled marks taken once (an empty one is a space), whatever follows it, and every source text behind a quotation mark is read this way; it is a national literal exactly when it consists of double-byte characters. X"..." of letters and digits is accepted exactly when it is pairs of hexadecimal digits and gives these bytes; H"..." below 2^63 is the number it writes. A numeric literal with sign, digits and decimal point (period or comma) is the number it writes, held by the constant of the generated program; one with two points is an error. The C string written for a literal stands for its bytes, whatever they are. Concatenation appends the texts. In a PICTURE string every level-78 constant is replaced where it stands as a whole word and nowhere else, and a final period or comma is not part of the string.

*Specification:* Cobc/LiteralSpec.lean: doubled, DoubleBytes, HexBytes, HexNumber, NumberParts, CText, ConstIn, ConstsIn; Holds (C13).
*Proof:* Inductions over the text in both directions; lit_holds (C51) for the value of the constant item; CText and ConstIn are shown to determine their results (CText.unique, ConstIn.unique).
*Not modelled / excluded:* Which rule of the scanner matches, NX literals (the same routine), the buffer size of scan_picture, numeric literals of more than 255 digits (the attribute's digits are one byte), locales other than C.
*Model:* `Cobc/Literal.lean`; *theorems in* `Cobc/LiteralProps.lean`.
*Code:* cobc/scanner.l:read_literal; cobc/scanner.l:scan_x; cobc/scanner.l:scan_h; cobc/scanner.l:scan_numeric; cobc/scanner.l:scan_picture; cobc/scanner.l:can_replace; cobc/tree.c:cb_concat_literals; cobc/codegen.c:output_string.
*Theorems:* `C69_text`, `C69_text_only`, `C69_hex`, `C69_hex_number`, `C69_number`, `C69_number_error`, `C69_c_string`, `C69_concat`, `C69_finding_high_value`, `C69_picture`, `C69_finding_hex_blank`, `C69_finding_hex_number`, `C69_finding_scale`, `C69_finding_constants_again`.
*Remarks:* Findings: HIGH-VALUE in a concatenation is X"AD" (an octal escape was meant to be decimal); an X literal silently ends at a blank; H literals from 2^63 on give a minus sign as a digit or lose digits; 128 decimals wrap the scale; replaced constants are scanned again for later constants.

### C70 — Level numbers and the tree of data items (proved)
The entries of a DATA DIVISION section are accepted exactly when every level number is in its place: 01 and 77 anywhere, 66 and 88 after an entry, 02-49 when the nearest entry before that is no condition name has level 01-49 and is either of a smaller level or the nearest entry of a level not greater has the same level. There is then one item per entry with its level and name, its parent is the item it belongs to (the last entry with a smaller level number; for 88 the entry before, for 66 the record), and walking from a group through its children meets exactly what belongs to it, in source order. Level numbers are read by value; level 78 entries leave the tree alone and after a CONSTANT only 01/77 is accepted. With relax-level-hierarchy accepted texts give the same tree, and a level without an open group gets a FILLER group around all its group contained.

*Specification:* Cobc/NamesSpec.lean: ownerOf, LevelOk, contents, records, IsLevel, Entries, all over the list of level numbers.
*Proof:* Invariant over the entries: parent pointers equal ownerOf, child and sister pointers run through contents; chain lemmas say that the parents of the last item are exactly the items after which everything is deeper.
*Not modelled / excluded:* Overflow of the level number in int, properties inherited from the parent, the redefinition warning, storage sections, sections after a rejected entry.
*Model:* `Cobc/Names.lean`; *theorems in* `Cobc/NamesMore.lean`, `Cobc/NamesRelax.lean`.
*Code:* cobc/field.c:cb_get_level; cobc/field.c:cb_build_field_tree; cobc/tree.c:cb_field_founder; cobc/tree.c:cb_build_filler; cobc/parser.y:data_description.
*Theorems:* `C70_level`, `C70_accepted`, `C70_hierarchy`, `C70_after_constant`, `C70_relaxed_same`, `C70_finding_relaxed_crash`, `C70_relaxed_filler`.
*Remarks:* Finding: with relax-level-hierarchy (bs2000, ibm, mf, mvs) an item of level 02-49 after a 77 item with a condition name makes the compiler follow a null pointer.

### C71 — What a name refers to (proved)
A reference with qualifiers is a reference to the one definition of the program whose name is the same (letters in either case; words with bytes from 128 on exactly) and whose groups, from the inside outward with gaps allowed, and last its file, have the names of the qualifiers (a paragraph: its section); it is ambiguous exactly when there are several, undefined when there is none. A procedure name without qualifier written in a section that has a paragraph of this name is that paragraph, whatever other sections contain. In a contained program a name that has no definition there is looked up in the containing programs from the inside outward among their GLOBAL items; the first program that has a fitting definition decides. Texts get the same entry of the word table exactly when they are the same name, after any history of words.

*Specification:* Cobc/RefsSpec.lean: SameName, Surrounded, groupNames, FileWord, FitsQuals, Meant, MeantGlobal, containing, firstMeant.
*Proof:* Greedy matching of qualifiers along the groups equals the existence of a matching (Surrounded); the scan over the definitions is characterised by the list of fitting ones; induction over the containing programs; invariant of the hash table over any history of lookups.
*Not modelled / excluded:* flag_invalid, reference counts, the cached value of a reference, the lexical rules of the scanner.
*Model:* `Cobc/Refs.lean`, `Cobc/RefsWords.lean`; *theorems in* `Cobc/RefsFind.lean`, `Cobc/RefsProps.lean`, `Cobc/RefsWords.lean`.
*Code:* cobc/tree.c:cb_ref; cobc/tree.c:global_check; cobc/tree.c:cb_define; cobc/tree.c:lookup_word; cobc/tree.c:cb_get_hexword; cobc/cobc.c:sjis_casecmp; cobc/parser.y:label; cobc/parser.y:procedure_name.
*Theorems:* `C71_finding_not_containing`, `C71_finding_label_file`, `C71_finding_global_file`, `C71_finding_number_label`, `C71_same_name`, `C71_unique`, `C71_ambiguous`, `C71_undefined`, `C71_own_section`, `C71_own_section_twice`, `C71_global`, `C71_word_table`.
*Remarks:* Findings: GLOBAL items of a program that does not contain the reference (an earlier sibling of a containing one) are found before those of containing programs further out; paragraphs and files of outer programs are found although not GLOBAL; an item of a GLOBAL record cannot be qualified by its file in a contained program; the qualifier of a numeric paragraph name (100 OF 20) is dropped.

### C72 — CORRESPONDING (proved)
MOVE, ADD and SUBTRACT CORRESPONDING emit one statement for exactly the pairs of items to which the same names lead from the two groups, through items without REDEFINES, RENAMES and OCCURS, and which are not both groups: MOVE in the order of the source items, ADD and SUBTRACT in the order of the targets, no target twice when the names in each group differ. With groups that lie apart (MOVE: any number of targets) every corresponding target afterwards has what its statement makes of the contents before, and no other byte of memory is changed. An operand that is no group is an error.

*Specification:* Cobc/CorrSpec.lean: PartOf, IsGroup, Reach, NamesDiffer, LaidOut, Corresponds, over level numbers and names.
*Proof:* Induction over the depth of the tree with the walks of C70; items of a part come before the next part by the level numbers; names lead to one item; targets of two statements are never nested; frame argument for the sequence of statements.
*Not modelled / excluded:* Subscripts and the emitted statements themselves (MOVE: C13, arithmetic: C20), overlapping groups.
*Model:* `Cobc/Corr.lean`; *theorems in* `Cobc/CorrFind.lean`, `Cobc/CorrProps.lean`, `Cobc/CorrRun.lean`.
*Code:* cobc/typeck.c:emit_corresponding; cobc/typeck.c:cb_emit_corresponding; cobc/typeck.c:emit_move_corresponding; cobc/typeck.c:cb_emit_move_corresponding; cobc/typeck.c:cb_check_group_name.
*Theorems:* `C72_finding_duplicate`, `C72_finding_case`, `C72_move_pairs`, `C72_add_pairs`, `C72_not_group`, `C72_move_order`, `C72_add_order`, `C72_move_effect`, `C72_add_effect`.
*Remarks:* Findings: two items of one name in a group give two statements for one target (or one source) without a diagnostic; names are compared with regard to case, so that groups of two programs with differently spelled names do not correspond. ADD and SUBTRACT CORRESPONDING take pairs of any class, not only numeric ones (no check in cb_emit_corresponding).

### C73 — Text in NATIONAL items (proved)
A text of half-width, full-width and control characters given to FUNCTION NATIONAL or moved to a NATIONAL item becomes the text in full-width characters (JIS X 0208 in Shift_JIS): each half-width character becomes its full-width form, a half-width letter with a sound mark becomes one letter, control characters become spaces, full-width characters stay; the MOVE cuts or pads with full-width spaces on the right, on the left for JUSTIFIED; a NATIONAL-EDITED item takes the characters at its N positions with full-width insertion characters between; MOVE ALL repeats the full-width literal. For any bytes the result is a whole number of characters, at most one per byte; different half-width texts have different full-width texts.

*Specification:* Move/NationalSpec.lean: jisCell, sjisBytes, halfChar, fullForm, soundMark, widened, natFitted, NatEditedBy: rows and cells of JIS X 0208, written from the standard with characters, not from the tables of the code.
*Proof:* Induction over the text with the byte before as state: the output for a letter stands until the next byte shows whether it is a sound mark; the tables are checked for all 256 bytes; a decoder shows faithfulness.
*Not modelled / excluded:* The UTF-8 build; texts with LOW-VALUE or HIGH-VALUE inside (only the size theorem covers them); hankaku_move.
*Model:* `Move/National.lean`; *theorems in* `Move/NationalMove.lean`, `Move/NationalProps.lean`.
*Code:* libcob/move.c:han2zen; libcob/move.c:judge_hankakujpn_exist; libcob/move.c:cob_move_alphanum_to_national; libcob/move.c:cob_move_alphanum_to_national_edited; libcob/move.c:cob_move_all; libcob/intrinsic.c:cob_intr_national.
*Theorems:* `C73_move`, `C73_edited`, `C73_all`, `C73_size`, `C73_faithful`, `C73_finding_packed`, `C73_finding_sign`, `C73_finding_low`, `C73_high_values`, `C73_fill`, `C73_low_first`, `C73_all_low`, `C73_function`.
*Remarks:* SJIS build. Findings: MOVE of a COMP-3 item to a NATIONAL item converts the packed bytes before they are unpacked (123 becomes 814); the sign of a zoned item arrives as a letter; an item beginning with LOW-VALUE is moved unconverted, and FUNCTION NATIONAL drops its last character; a first half of a two-byte character at the end of the item takes the byte behind the item as its second half (in the model: the parameter after).

### C74 — Exception phrases and USE procedures (proved)
After an input-output statement with a successful status the MOVE of INTO and the NOT phrase are executed; otherwise the exception phrase if the status is of its kind (AT END 1x, INVALID KEY 2x, AT EOP 52), otherwise the error procedure: never two of them, never none. ON SIZE ERROR and ON OVERFLOW are executed just for exceptions of their class. The error procedure is the last USE statement of the program naming the file, for a GLOBAL file the program's own non-GLOBAL USE or otherwise the USE GLOBAL of the programs around; otherwise the last USE for the open mode, in a nested program that of the innermost containing program with USE GLOBAL; otherwise the program carries on when it has a FILE STATUS clause and is stopped as the configuration says when not.

*Specification:* Cobc/UseSpec.lean: status classes of the phrases, LastSuch/FirstSuch statement of a program, Contains (nesting read off the level numbers), GlobalFor, globalUses (the USE GLOBAL entries in text order).
*Proof:* The 100 statuses are checked by the kernel; the USE lists by induction over statements and programs; the shared list as a heap of cells with an invariant for a partly reversed list.
*Not modelled / excluded:* USE FOR DEBUGGING and USE AT PROGRAM START, several outermost programs in one source file for C74_global_files, COB_USERFH.
*Model:* `Cobc/Use.lean`; *theorems in* `Cobc/UseLists.lean`, `Cobc/UseMore.lean`, `Cobc/UseProps.lean`.
*Code:* libcob/fileio.c:save_status; cobc/codegen.c:output_stmt; cobc/codegen.c:output_ferror_stmt; cobc/codegen.c:output_file_error; cobc/parser.y:setup_use_file; cobc/cobc.c:process_translate; cobc/tree.c:cb_list_reverse; cobc/tree.c:cb_list_add.
*Theorems:* `C74_global_files`, `C74_use_global`, `C74_finding_lost`, `C74_finding_beside`, `C74_finding_hidden`, `C74_own_file`, `C74_local_procedure`, `C74_mode`, `C74_no_procedure`, `C74_mode_global`, `C74_mode_none`, `C74_finding_mode`, `C74_file_statement`, `C74_exactly_one`, `C74_other_statement`, `C74_finding_other_class`.
*Remarks:* USE GLOBAL for GLOBAL files is proved as the code does it (C74_global_files: exact for every nest), which agrees with the standard for one such statement (C74_use_global). Findings: with two USE GLOBAL files the in-place reversal of the shared list loses all but the first in every program but the last (C74_finding_lost); USE GLOBAL procedures for files and for modes are taken from programs that do not contain the program (C74_finding_beside, C74_finding_mode); a file of a nested program named like a GLOBAL file of the outer program gets the outer procedure (C74_finding_hidden); an exception of another class executes NOT ON SIZE ERROR only if ON SIZE ERROR is there too (C74_finding_other_class).

### C75 — The compiler's checks of MOVE and VALUE (proved)
For a numeric literal the compiler is silent exactly when the receiving item can hold the number without losing a figure (and is signed if the literal is written with a sign): by its picture, with or without P, or, for binary items without decimals, by its bytes. Between numeric items it is silent exactly when the receiver can hold every number the sender can hold. No message means no loss: the MOVE then leaves exactly the number in the receiver. Between elementary items a MOVE is refused exactly when the table of the standard has no such MOVE. Text is reported exactly when it is longer than the receiver. A literal of the other class always gives a message, SPACE and ZERO are refused exactly for the receivers that cannot take them, and an edited receiver is measured by the places of its picture that take a character.

*Specification:* Cobc/CheckSpec.lean: CanHold (the numbers of n positions and a scale, as rationals), PicShape (the three kinds of picture proved in C43), InBytes (range of a binary item), MoveAllowed (the table of the standard).
*Proof:* The loops over the literal's figures are characterised by leading/trailing zeros and related to the rational value; the range checks of the binary sizes by the value of the digits against the powers of two; the pairs of categories by cases.
*Not modelled / excluded:* Receivers that are pointers, files, alphabet or condition names, reference modification, items of variable size, senders that are expressions, functions or registers; whether the options print a warning that the check gives.
*Model:* `Cobc/Check.lean`; *theorems in* `Cobc/CheckItems.lean`, `Cobc/CheckMore.lean`, `Cobc/CheckProps.lean`, `Cobc/CheckRest.lean`.
*Code:* cobc/typeck.c:validate_move; cobc/typeck.c:move_error; cobc/typeck.c:count_pic_alphanumeric_edited; cobc/tree.c:cb_get_long_long; cobc/field.c:validate_field_value.
*Theorems:* `C75_item`, `C75_item_kept`, `C75_refused`, `C75_text`, `C75_alphabetic`, `C75_finding_plus`, `C75_finding_point`, `C75_finding_least`, `C75_finding_picture`, `C75_finding_scaled`, `C75_finding_national`, `C75_finding_national_edited`, `C75_number_kept`, `C75_binary`, `C75_number`, `C75_figurative`, `C75_number_for_text`, `C75_text_for_number`, `C75_edited`, `C75_crossing`.
*Remarks:* C75_number_kept and C75_item_kept join the check with the run time MOVE (C17, C51). Findings: a plus sign is treated as a negative sign (C75_finding_plus); the decimal point of a literal is ignored for binary items (C75_finding_point); -2^63 is refused for eight bytes (C75_finding_least); the picture of a COMP item does not limit its VALUE (C75_finding_picture); items with P are not checked for lost figures (C75_finding_scaled); an alphanumeric item to a national one is measured in bytes (C75_finding_national); a NATIONAL EDITED receiver counts as having no places (C75_finding_national_edited). C75_figurative, C75_number_for_text, C75_text_for_number, C75_edited, C75_crossing cover the other combinations.

### C76 — SORT and MERGE with USING and GIVING (proved)
SORT or MERGE USING files GIVING files: each GIVING file afterwards holds exactly the records of the USING files (each cut or filled with spaces to the length of the sort record, then to that of the file), sorted by the keys, records with equal keys in the order of the USING files and of reading; SORT-RETURN is 0 and no other file changes, also when a file is both read and written. The same for INPUT PROCEDURE with GIVING and USING with OUTPUT PROCEDURE.

*Specification:* Io/SortStmtSpec.lean: FileHas (what a program reads from a file: the answers of READ statements), fitTo (a record in an area of another length), GivingOk and HoldsBytes (the file can be written); SortedReleases of C40 for the order.
*Proof:* The USING loop is a run of READ and RELEASE, the GIVING loop a run of RETURN and WRITE (inductions), then C40_sort, C37_read_back and C38_round_trip.
*Not modelled / excluded:* RELATIVE and INDEXED files, special files, LINAGE, files that exist but cannot be opened, errors of the temporary files, SAME RECORD AREA.
*Model:* `Io/SortStmt.lean`; *theorems in* `Io/SortGiving.lean`, `Io/SortStmtMore.lean`.
*Code:* libcob/fileio.c:cob_file_sort_using; libcob/fileio.c:cob_file_sort_giving; libcob/fileio.c:cob_copy_check; libcob/fileio.c:cob_file_release; cobc/typeck.c:cb_emit_sort_using; cobc/typeck.c:cb_emit_sort_giving.
*Theorems:* `C76_using_giving`, `C76_procedure_giving`, `C76_using_procedure`, `C76_finding_same_file`, `C76_finding_depending`, `C76_finding_missing`, `C76_finding_short_record`.
*Remarks:* Built on C37 (sequential files), C38 (line sequential files) and C40 (the sorter). Findings: with SORT S USING F GIVING F and variable records all records get the length of the one read last (C76_finding_same_file); RECORD DEPENDING ON of a GIVING file is not set, so records are cut or all lost without a message (C76_finding_depending); a USING file that is missing counts as empty even if not OPTIONAL (C76_finding_missing); a short last record is completed with bytes of the record before (C76_finding_short_record).

### C77 — Environment variables, arguments and the command line (proved)
Whatever statements a program has executed, ACCEPT FROM ENVIRONMENT gives the value last assigned to the variable (by SET ENVIRONMENT or DISPLAY UPON ENVIRONMENT-NAME/-VALUE) without its trailing spaces, otherwise the one the process started with, otherwise spaces and the exception; ACCEPT FROM ENVIRONMENT-VALUE does so for the name chosen last. ACCEPT FROM ARGUMENT-VALUE gives the arguments one after the other, from the chosen one on, and the exception after the last with the item unchanged; ARGUMENT-NUMBER stores their number. ACCEPT FROM COMMAND-LINE gives the text displayed upon it last, otherwise all arguments with a space after each and never a part of one. CHAINING items hold the arguments by position.

*Specification:* Rt/EnvSpec: assignments of a history, valueNow, received
*Proof:* refinement of the environ strings to a list of variables by induction over the history
*Not modelled / excluded:* numeric and national receivers of the texts; getenv and setenv are the C library's as described in the model; memory exhaustion
*Model:* `Rt/Env`; *theorems in* `Rt/EnvProps.lean`.
*Code:* libcob/common.c: cob_display_environment, cob_display_env_value, cob_set_environment, cob_get_environment, cob_accept_environment; libcob/common.c: cob_display_arg_number, cob_accept_arg_number, cob_accept_arg_value; libcob/common.c: cob_display_command_line, cob_accept_command_line, cob_chain_setup.
*Theorems:* `C77_variable`, `C77_long_name`, `C77_chosen_variable`, `C77_set_then_accept`, `C77_raised`, `C77_arguments`, `C77_argument_count`, `C77_choose_argument`, `C77_command_line`, `C77_long_command_line`, `C77_chaining`, `C77_finding_long_name`, `C77_finding_negative`, `C77_finding_equal_sign`.
*Remarks:* Proved for histories of any length. Findings proved: SET ENVIRONMENT with a name of 1024 or more bytes assigns the value to the name chosen before (C77_finding_long_name); DISPLAY -1 UPON ARGUMENT-NUMBER chooses argument 1 (C77_finding_negative); ACCEPT FROM ENVIRONMENT "A=B" reads the end of A's value (C77_finding_equal_sign).

### C78 — The name of a file (proved)
A file assigned to a logical name (letters, digits, _ and -) is the file named by the environment variable DD_name, else dd_name, else name, else name itself in the directory COB_FILE_PATH (if set and not blank). In any other name every $NAME is replaced by the variable's value (nothing if unset) and the rest is taken literally. Names in Japanese, which the compiler keeps in a coded form, are decoded to the word written in the program. DELETE FILE removes the file that OPEN opens. The ASSIGN clause gives the literal, the data item's contents, or the part of the word that the dialect (mf, ibm, jph1) says.

*Specification:* Io/FileNameSpec: located, nameWritten/meant, Logical, Uncoded
*Proof:* induction over the pieces of the name; case analysis of the variables
*Not modelled / excluded:* overflow of the 1024 byte buffers by longer names (excluded by the length hypotheses); characters from 128 on in isalnum (C locale); the EXTFH builds
*Model:* `Io/FileName`; *theorems in* `Io/FileNameProps.lean`.
*Code:* libcob/fileio.c: cob_ex_open, cob_ex_delete_file; libcob/common.c: cb_get_jisword_buff; cobc/tree.c: cb_get_hexword, finalize_file; cobc/typeck.c: cb_build_assignment_name, get_coded_filename.
*Theorems:* `C78_word`, `C78_word_quoted`, `C78_logical`, `C78_coded`, `C78_path`, `C78_delete_same`, `C78_file_path`, `C78_assign_mf`, `C78_assign_ibm`, `C78_assign_jph1`, `C78_finding_file_id`, `C78_finding_hyphen`.
*Remarks:* Findings proved: VALUE OF FILE-ID never has an effect (C78_finding_file_id, for every SELECT entry); after $ a hyphen ends the variable's name because the inner loop tests the wrong character (C78_finding_hyphen).

### C79 — The arguments of a CALL: BY REFERENCE, BY CONTENT, BY VALUE (proved)
Whatever a called program does with its parameters and for however long, the only bytes of the caller that can change are those of items passed BY REFERENCE. An item passed BY REFERENCE is the called program's parameter: at every moment both see the same bytes, also when an item is passed twice or items overlap, and a byte stored by the called program is in the caller's item at the same place. A parameter passed BY CONTENT starts as a copy of the item and nothing stored in another parameter changes it. A numeric literal of fewer than ten digits reaches the called program as a four-byte native binary number, a longer one as an eight-byte one, an alphanumeric literal and the result of a FUNCTION character for character; BY VALUE with SIZE AUTO a number is passed in the fewest bytes, equal to it modulo that size; a whole number BY VALUE with a SIZE reaches a parameter of the same SIZE if it is in its range. In a program with several entries each linkage item named in the entry's USING gets the argument at its place and the others none; under sticky-linkage an argument left out is the one last given; an ANY LENGTH parameter has the length of the argument last given.

*Specification:* Rt/CallArgsSpec: Lent (the bytes of BY REFERENCE items), SizesFit, Sees, NativeHolds/NativeRange (two's complement), Readable, lastGiven, lastSize, argLength.
*Proof:* The objects of C are separate lists of bytes; induction over the steps of an arbitrary called program with the invariant that a parameter in the caller's storage is a BY REFERENCE item; index lemmas for the set-up of the unions and the entry function; the number passed from C49's reading of items as C integers; induction over the calls for sticky linkage and ANY LENGTH.
*Not modelled / excluded:* ADDRESS OF, pointers and files as arguments; RETURNING; widths that differ between caller and called program (undefined in C); the called program is confined to its parameters.
*Model:* `Rt/CallArgs`; *theorems in* `Rt/CallArgsMore.lean`, `Rt/CallArgsProps.lean`, `Rt/CallArgsRest.lean`.
*Code:* cobc/codegen.c: output_call, output_integer, output_data, output_size, output_entry_function, output_internal_function (sticky linkage, ANY LENGTH); cobc/parser.y: call_param, procedure_param, size_optional; cobc/tree.c: cb_fits_int.
*Theorems:* `C79_small_literal`, `C79_large_literal`, `C79_text_literal`, `C79_value`, `C79_value_literal`, `C79_parameters`, `C79_entries`, `C79_sticky`, `C79_any_length`, `C79_finding_auto_sign`, `C79_finding_scaled`, `C79_finding_wide_literal`, `C79_finding_sticky_entry`, `C79_untouched`, `C79_reference`, `C79_stores`, `C79_content`, `C79_content_private`, `C79_text_reference`, `C79_function`, `C79_value_auto`, `C79_finding_auto_unsigned`.
*Remarks:* Findings proved: SIZE AUTO casts signed items to unsigned (-1 in PIC S9(4) COMP-5 arrives as 65535) and unsigned ones to signed (200 in one byte arrives as -56); binary items with decimals are passed by their digits, zoned ones by their whole part; a short literal read through eight bytes has four undefined bytes; under sticky-linkage an ENTRY with its own USING list gets a saved address instead of the argument of the call.

### C80 — Arithmetic statements as a whole (proved)
ADD, SUBTRACT, MULTIPLY, DIVIDE (every format without REMAINDER and CORRESPONDING) and COMPUTE compute, for every receiver, the result from the numbers the items held when the statement began - even when an operand is itself a receiver - and store it rounded or truncated to the receiver's own decimals if the receiver has room for it. A receiver whose result is beyond it is left unchanged when the statement has ON SIZE ERROR (or, under binary-truncate, either phrase), the other receivers still get theirs, and no other item changes; without a phrase (under binary-truncate) a zoned or packed receiver takes the low-order digits. ON SIZE ERROR is taken when a result was beyond its receiver or a divisor is zero, NOT ON SIZE ERROR when every result had room; after a division by zero no item has changed.

*Specification:* Num/ArithSpec.lean: Stmt.result gives the number each receiver should get from the initial values, in the rationals, format by format; Units, HasRoom, Exceeds and Protected say what can be stored and when a receiver is protected.
*Proof:* Generic invariant of the loop over the receivers (each_spec), one lemma for each of the three ways of execution (store_all, op_all, one_all) built on C05/C04 (stores), C06/C07 (decimal arithmetic), C46 (registers), C10/C11/C50 (integer routines).
*Not modelled / excluded:* Receivers that are numeric-edited, floating point, index or pointer items; exponentiation; divisions inside a COMPUTE expression other than the last operation; overlapping receivers; items with P in the PICTURE.
*Model:* `Num/Arith.lean`; *theorems in* `Num/ArithMain.lean`.
*Code:* cobc/parser.y: add_body, subtract_body, multiply_body, divide_body, compute_body, on_size_error; cobc/typeck.c: cb_emit_arithmetic, build_decimal_assign, decimal_expand, build_store_option, cb_build_add, cb_build_sub; cobc/tree.c: cb_build_binary_list, cb_fits_int; cobc/codegen.c: output_stmt; libcob/numeric.c: cob_add, cob_sub, cob_add_int, cob_decimal_get_field.
*Theorems:* `C80_statement`, `C80_zero_divide`, `C80_operand_read_again`, `C80_native_wraps`, `C80_native_digits`.
*Remarks:* C80_statement is one theorem over all formats; ADD/SUBTRACT with one operand needs that operand not to be an earlier receiver (finding C80_operand_read_again) and, where the specialised integer routines are used, an operand they can take (SmallFor; see C11, C50). Further findings: C80_native_wraps, C80_native_digits.

### C81 — The life of a program: CALL, EXIT PROGRAM, GOBACK, CANCEL, INITIAL and LOCAL-STORAGE (proved)
A called program starts in its initial state (VALUEs, RETURN-CODE 0, files closed) at its first call, after CANCEL and, if INITIAL, at every call; otherwise it finds WORKING-STORAGE and files as it left them. LOCAL-STORAGE is new in every activation, also in a recursive one, and the caller's copy is untouched. EXIT PROGRAM returns from a called program and does nothing in the first one; GOBACK always returns. On return the caller runs again with its storage, files and LOCAL-STORAGE as before and with the callee's RETURN-CODE in its RETURN-CODE; the runtime then takes the caller for the running program. CANCEL closes all files of the cancelled program.

*Specification:* Rt/LifeSpec.lean: an ideal machine with a stack of activations and for each program storage in the last-used state or none; conditions on histories (no CANCEL of active programs, no recursion).
*Proof:* Simulation relation between the run and the ideal run, preserved by each event; the chain of module.next has at least as many members as there are activations (Walk), which gives the registration for CANCEL; Linked for the module stack; induction over the events of a call for C81_call_returns.
*Not modelled / excluded:* Contained programs, EXTERNAL and BASED items, GLOBAL LOCAL-STORAGE items, parameters (C79), name resolution and the call table (C28), STOP RUN, the files' contents (C14-C19).
*Model:* `Rt/Life.lean`; *theorems in* `Rt/LifeMain.lean`.
*Code:* cobc/codegen.c: output_internal_function, output_initial_values, output_base, output_goto, output_call, output_file_initialization; libcob/call.c: cobcancel, cob_set_cancel; cobc/typeck.c: cb_build_registers.
*Theorems:* `C81_storage`, `C81_module`, `C81_call_returns`, `C81_finding_recursion`, `C81_finding_main`, `C81_finding_return_code`, `C81_finding_initial_file`, `C81_finding_active`.
*Remarks:* C81_storage (simulation with an ideal machine, recursion allowed), C81_module (module stack, without recursion), C81_call_returns (one call as the caller sees it). Findings: after a recursive call the runtime takes the wrong program for the running one; EXIT PROGRAM ends the run after the main program was called back; RETURN-CODE of an earlier call is returned again; files left open by an INITIAL program are never closed; CANCEL of an active program is carried out.

### C82 — Byte-stream files: CBL_OPEN_FILE, CREATE, READ, WRITE, CLOSE, DELETE, RENAME, COPY, CHECK_FILE_EXIST (proved)
For every file system to begin with and every history of calls of the routines for byte-stream files, with whatever answers of the operating system, each call gives back what the history of the writes says: CBL_READ_FILE the bytes at the offset as last written through any handle of the file (zero bytes in gaps), 10 at the end of the file, the rest of the buffer untouched, with flag 128 the size of the file; CBL_WRITE_FILE changes only the bytes it covers; CBL_COPY_FILE makes an independent copy of every size; names are taken up to the first space, NUL or quotation mark; handles stay usable after the name is deleted or renamed; failures are reported as -1, 30, 35 and 128 and change nothing. Boundary: WRITE and COPY that the operating system executes only in part, COPY of a file to itself.

*Specification:* Rt/CblFileSpec.lean: a file is the list of the writes since it was last emptied; the byte at a position is that of the last write covering it. Names, handles, sizes and results follow from this.
*Proof:* A relation between contents and histories (length = size, every byte = byteAt), kept by every call; the copy loop by induction over the rest of the source; run by induction over the history.
*Not modelled / excluded:* directories, special files, locks, reads that return less than there is, the other descriptors of the process, the check of the number of parameters, CBL_FLUSH_FILE (does nothing), the C$ routines
*Model:* `Rt/CblFile.lean`; *theorems in* `Rt/CblFileMain.lean`.
*Code:* libcob/fileio.c:CBL_OPEN_FILE; libcob/fileio.c:CBL_CREATE_FILE; libcob/fileio.c:CBL_READ_FILE; libcob/fileio.c:CBL_WRITE_FILE; libcob/fileio.c:CBL_CLOSE_FILE; libcob/fileio.c:CBL_DELETE_FILE; libcob/fileio.c:CBL_COPY_FILE; libcob/fileio.c:CBL_CHECK_FILE_EXIST; libcob/fileio.c:CBL_RENAME_FILE; libcob/fileio.c:cob_str_from_fld; libcob/fileio.c:open_cbl_file.
*Theorems:* `C82_history`, `C82_read_back`, `C82_write_only`, `C82_name`, `C82_finding_quoted`, `C82_finding_short_write`, `C82_finding_short_copy`, `C82_finding_short_copy_long`, `C82_finding_copy_self`, `C82_finding_open_empties`, `C82_finding_short_read`.
*Remarks:* C82_history: a simulation for all histories against a machine that only knows the writes (Rt/CblFileSpec.lean); C82_read_back, C82_write_only and C82_name say the main parts directly about the routines. Findings proved: names in quotation marks are cut at the mark although there is code for them; a WRITE or COPY of which the operating system takes only part returns 0; COPY of a file to itself empties it and returns 0; OPEN with access 2 empties the file; a READ that gets less than asked for returns 0 without saying how much.

### C83 — ACCEPT FROM DATE, DAY, DAY-OF-WEEK, TIME, FUNCTION CURRENT-DATE, and COB_DATE (proved)
For every sequence of ACCEPT FROM DATE [YYYYMMDD], DAY [YYYYDDD], DAY-OF-WEEK, TIME, FUNCTION CURRENT-DATE and SECONDS-PAST-MIDNIGHT, at whatever instants: without COB_DATE each gives the day and time of the instant at which it runs, in the documented number of digits; the forms agree with each other and with FUNCTION INTEGER-OF-DATE and INTEGER-OF-DAY (day of the year, day of the week 1 = Monday to 7 = Sunday). With COB_DATE=year/month/day, a valid day from 1971 on, every one of them gives that day, and the time of day of its instant, throughout the run. A COB_DATE that is not of this form or before 1969 changes nothing. The digits reach an unsigned DISPLAY item with room for them unchanged.

*Specification:* Rt/ClockSpec.lean: LibcOk (what is assumed of localtime and mktime), Reads (digits that denote a number), RightAnswer (the answer for a day and time of day, by INTEGER-OF-DATE), DateWritten.
*Proof:* Every question is answered rightly from a struct tm of the right day; cob_localtime changes only the time of day, so the job date keeps describing its day; induction over the history.
*Not modelled / excluded:* leap seconds, the offset from Greenwich in CURRENT-DATE (only its sign character), instants before 1970, the Windows branches, warnings on stderr, numbers in COB_DATE beyond the int range
*Model:* `Rt/Clock.lean`; *theorems in* `Rt/ClockMain.lean`.
*Code:* libcob/common.c:job_or_current_localtime; libcob/common.c:cob_localtime; libcob/common.c:cob_init; libcob/common.c:cob_accept_date; libcob/common.c:cob_accept_date_yyyymmdd; libcob/common.c:cob_accept_day; libcob/common.c:cob_accept_day_yyyyddd; libcob/common.c:cob_accept_day_of_week; libcob/common.c:cob_accept_time; libcob/intrinsic.c:cob_intr_current_date; libcob/intrinsic.c:cob_intr_seconds_past_midnight.
*Theorems:* `C83_clock`, `C83_cob_date`, `C83_cob_date_refused`, `C83_receiver`, `C83_finding_not_a_date`, `C83_finding_first_day`, `C83_finding_year_10000`, `C83_finding_midnight`, `C83_finding_rest_ignored`.
*Remarks:* C83_clock and C83_cob_date for all histories; C83_cob_date_refused; C83_receiver with the MOVE of C47; fixedZone_ok shows that the assumptions on the C library can be met. Findings proved: 2020/02/30 is taken as March 1; 1970/01/01 is refused east of Greenwich; from year 10000 on the result is not determined; DATE followed by TIME around midnight gives an instant a day off; text behind the date is ignored.

### C84 — Dates with two digits of the year: expansion is the inverse of ACCEPT FROM DATE and DAY (proved)
A valid date (day of a year) cut to two digits of the year and expanded by FUNCTION DATE-TO-YYYYMMDD (DAY-TO-YYYYDDD) is recovered exactly when its year is one of the hundred years that end `interval` years after the base year; what ACCEPT FROM DATE and FROM DAY give is expanded, with interval 50 and the current year, to what ACCEPT FROM DATE YYYYMMDD and DAY YYYYDDD give at that instant, also under COB_DATE.

*Specification:* Date, ValidDay of C26; the answers of C83.
*Proof:* C29 and C83, linear arithmetic.
*Not modelled / excluded:* as C29 and C83
*Model:* `Intr/Text.lean`, `Rt/Clock.lean`; *theorems in* `Intr/WindowProps.lean`.
*Code:* libcob/intrinsic.c:cob_intr_year_to_yyyy; libcob/intrinsic.c:cob_intr_date_to_yyyymmdd; libcob/intrinsic.c:cob_intr_day_to_yyyyddd.
*Theorems:* `C84_date`, `C84_day`, `C84_accept`, `C84_finding_negative`, `C84_finding_month`.
*Remarks:* The functions and their windows are C29; here they are composed with the clock of C83. Findings proved: small negative arguments are taken; month and day are not looked at. (Dates of eight digits: C29_finding_date.)

### C85 — FUNCTION SECONDS-FROM-FORMATTED-TIME (proved)
For every format and value: when the format has "hh", "mm" and "ss" at positions where the value has two digits (the first such position counts, in any order, with any characters between), the result is hours*3600+minutes*60+seconds without exception; when one of the three is missing, or the value is shorter than the format, it is 0 with EC-ARGUMENT-FUNCTION.

*Specification:* At and Found in Intr/FormattedTime.lean.
*Proof:* The loop is split into three independent searches; each finds the first position by induction over the format.
*Not modelled / excluded:* -
*Model:* `Intr/Window.lean`; *theorems in* `Intr/FormattedTime.lean`.
*Code:* libcob/intrinsic.c:cob_intr_seconds_from_formatted_time.
*Theorems:* `C85_seconds`, `C85_invalid`, `C85_finding_no_range`, `C85_finding_upper_case`.
*Remarks:* C85_seconds and C85_invalid together determine the result for every pair. Findings proved: 99:99:99 is taken; upper case letters are not recognised.

### C86 — What a word is: function, reserved word, constant or word of the program (proved)
For every word of a source program in whatever case, every configuration (not-reserved lines, FUNCTION ALL INTRINSIC, the status registers) and everything the program defined before: with FUNCTION ALL INTRINSIC the word is a function exactly if it names an implemented function and is not taken out; otherwise it has the token of a reserved word exactly if the compiler's list (536 words) has it as supported and it is not taken out; the message that a reserved word is not supported comes exactly for the listed words without support; every other word is the last defined constant of that name, or behind PROGRAM-ID the program name, or a class, mnemonic name or user word, in that order. The case of letters never matters, no word has two entries, and no definition of the program takes precedence over a reserved word.

*Specification:* Same (equal up to case), IsReserved, IsFunction, Out, IsToken, IsFree, Free, Stands
*Proof:* halving search proved right for every increasing table; order of the two tables evaluated by the kernel; then case analysis
*Not modelled / excluded:* the tokens of the grammar themselves; the words that other rules of the scanner read (PROGRAM-ID, WHEN OTHER and the like); words with Japanese characters (C71)
*Model:* `Cobc/WordsTable.lean`, `Cobc/Words.lean`; *theorems in* `Cobc/WordsMain.lean`.
*Code:* cobc/reserved.c:reserved_words; cobc/reserved.c:function_list; cobc/reserved.c:lookup_reserved_word; cobc/reserved.c:lookup_intrinsic; cobc/scanner.l:word rule.
*Theorems:* `C86_one_entry`, `C86_function`, `C86_reserved`, `C86_unsupported`, `C86_constant`, `C86_user`, `C86_case`, `C86_finding_unsupported_defined`, `C86_finding_length`, `C86_finding_alias`, `C86_finding_program_name`.
*Remarks:* The tables are generated from the source, entry by entry, and proved to be in the order the search needs. Findings: a reserved word that is not supported is reported and then still taken for a user word; LENGTH is no longer reserved in the PROCEDURE DIVISION under FUNCTION ALL INTRINSIC; a class called RETURN-CODE is not found under PROGRAM-STATUS; a program cannot be called like a constant.

### C87 — Configuration files: -std, -conf, include and not-reserved (proved)
For every configuration file with its includes, to any depth: if every line is a comment, blank, or a known tag with a value of its type, and every setting (except assign_external) has a line, the configuration is accepted without a message, every setting has the value of the line read last (lines of an included file stand in the place of the include), assign_external without a line is no, and the not-reserved words are taken out in addition to those before. Nothing else is accepted, and a configuration is refused exactly if there is a message.

*Specification:* Splits, Skipped, Quoted, named, supports, Means, IsText, Reads, lastSet, words
*Proof:* induction over the lines and the depth of includes; the table is generated from config.def
*Not modelled / excluded:* what the settings do; the texts of the messages; errors while reading an open file
*Model:* `Cobc/ConfTable.lean`, `Cobc/Conf.lean`; *theorems in* `Cobc/ConfMain.lean`.
*Code:* cobc/config.c:cb_load_conf; cobc/config.c:cb_load_std; cobc/config.c:read_string; cobc/config.c:config_table; cobc/config.def.
*Theorems:* `C87_load`, `C87_accepted`, `C87_message`, `C87_finding_empty_number`, `C87_finding_number_cut`, `C87_finding_comment`, `C87_finding_indented`, `C87_finding_long_comment`, `C87_finding_includes_itself`.
*Remarks:* Findings: a number without digits is accepted as 0 (tab-width: makes the compiler divide by zero at a tab); numbers of more than 32 bits are accepted and changed; a comment behind a value is part of the value; a tag behind a blank is not found; what stands behind 1023 bytes of a line is a line of its own; a file that includes itself is read until no more files can be opened.

### C88 — Library routines C$JUSTIFY, CBL_TOUPPER, CBL_TOLOWER, C$NARG, C$PARAMSIZE and C$CALLEDBY (proved)
C$JUSTIFY moves the text of every item, without the spaces at its ends and unchanged, to the left (L), the middle (C, with at most one space more on the right) or else the right, and fills the rest with spaces. CBL_TOUPPER and CBL_TOLOWER change exactly the letters of the other case among the bytes of the length given. After every history of CALLs and returns, in a program that has not called another one since it was entered, C$NARG gives the number of arguments it was called with and C$PARAMSIZE the size of each of them as passed, 0 for other numbers; in general C$NARG gives the number of arguments of the program entered last. C$CALLEDBY puts the name of the calling program at the front of the item (spaces in the main program).

*Specification:* Between, Justified, Runs (stack of active programs), lastCount
*Proof:* invariant over histories: every active caller still holds the arguments of the program it called
*Not modelled / excluded:* recursive calls; how the C calling convention passes the data; C$SLEEP, CBL_OC_NANOSLEEP, C$GETPID
*Model:* `Rt/Small.lean`; *theorems in* `Rt/SmallProps.lean`.
*Code:* libcob/common.c:cob_acuw_justify; libcob/common.c:CBL_TOUPPER; libcob/common.c:CBL_TOLOWER; libcob/common.c:cob_return_args; libcob/common.c:cob_parameter_size; libcob/common.c:cob_acuw_calledby; cobc/codegen.c:output_call; cobc/codegen.c:output_internal_function.
*Theorems:* `C88_text`, `C88_justify`, `C88_toupper`, `C88_tolower`, `C88_narg`, `C88_paramsize`, `C88_fresh`, `C88_paramsize_main`, `C88_calledby`, `C88_finding_narg_stale`, `C88_finding_paramsize_stale`, `C88_finding_calledby_rest`, `C88_finding_calledby_name`, `C88_finding_sjis`, `C88_finding_small_letter`.
*Remarks:* Findings: the number of arguments is not restored when a called program returns, so C$NARG and C$PARAMSIZE are wrong afterwards, and C$PARAMSIZE can give sizes of arguments of an earlier call; C$CALLEDBY leaves old bytes behind the name and gives the name of the C function (MY-PROG is MY__PROG); CBL_TOUPPER changes second bytes of Shift-JIS characters; small letters for the direction of C$JUSTIFY mean right.

### C89 — FUNCTION VARIANCE, RANDOM and STORED-CHAR-LENGTH (proved)
VARIANCE of any number of numeric items, of any usage, size and scale, gives the exact variance of the numbers they hold with 18 digits, cut off there (the intermediate mean, itself cut off at 37 decimals or more, moves it by less than 10^-74, and not at all when the mean has 37 decimals), as long as it is below 10^18 - 1. RANDOM gives back a fraction of at least 0 and below 1 whose decimals are the digits of one number of the generator; a seed alone decides all numbers that follow it. STORED-CHAR-LENGTH is the length of the text without the spaces at its end.

*Specification:* Intr/StatProps.lean: average, variance (over the rationals), Hold
*Proof:* the sum of squares around any point is that around the mean plus n times the square of the distance; exactness of add, sub and mul of decimals (C06), truncation of division (C07), storing into binary items (C05)
*Not modelled / excluded:* MIDRANGE, STANDARD-DEVIATION, PRESENT-VALUE and the other functions with floating point results; the generator of the C library itself is a parameter; the I18N_UTF8 branch of STORED-CHAR-LENGTH
*Model:* `Intr/Stat.lean`; *theorems in* `Intr/StatProps.lean`.
*Code:* libcob/intrinsic.c:cob_intr_variance; libcob/intrinsic.c:cob_intr_random; libcob/intrinsic.c:cob_intr_stored_char_length.
*Theorems:* `C89_variance`, `C89_finding_variance_overflow`, `C89_random`, `C89_random_seed`, `C89_finding_random_gap`, `C89_stored_char_length`.
*Remarks:* Findings: a variance beyond 64 bits sets the size exception but the result given back is its low 64 bits; RANDOM never gives a number between 0 and 0.1, whatever the generator.

### C90 — FUNCTION EXCEPTION-STATUS, EXCEPTION-STATEMENT, EXCEPTION-LOCATION and EXCEPTION-FILE (proved)
After every history of statements, exceptions, statements that clear the exception, and input-output: EXCEPTION-STATUS is the name of the exception raised last if nothing cleared it since, otherwise spaces; EXCEPTION-FILE is the status and name of the file last used when that exception is one of input-output, and 00 when there is none and for most other classes; in programs compiled with locations in which each statement is on another line than the one in front of it, EXCEPTION-STATEMENT is the name of the statement begun last before the exception was raised, and EXCEPTION-LOCATION its program, paragraph, section and line, whatever order the statements of whatever programs were executed in.

*Specification:* Rt/ExcProps.lean: now, lastFile, begun, culprit over histories read backwards; locText, In31
*Proof:* invariant over the history; the table by the kernel (codes and names are distinct, no name is longer than 31)
*Not modelled / excluded:* which statement raises which exception (C04, C21, C22, C36, C74); exceptions set by a user file handler (COB_USERFH); SORT setting the status of a sort file without save_status
*Model:* `Rt/ExcTable.lean`, `Rt/Exc.lean`; *theorems in* `Rt/ExcProps.lean`.
*Code:* libcob/intrinsic.c:cob_intr_exception_status; libcob/intrinsic.c:cob_intr_exception_statement; libcob/intrinsic.c:cob_intr_exception_location; libcob/intrinsic.c:cob_intr_exception_file; libcob/common.c:cob_set_location; libcob/common.c:cob_set_exception; libcob/common.c:cob_get_exception_name; libcob/fileio.c:save_status; cobc/codegen.c:output_stmt; libcob/exception.def.
*Theorems:* `C90_status`, `C90_at_fault`, `C90_statement`, `C90_location`, `C90_file`, `C90_object`, `C90_finding_file`, `C90_finding_eop`, `C90_finding_same_line`, `C90_finding_line_numbers`, `C90_finding_cleared`.
*Remarks:* Findings: EXCEPTION-FILE names a file after exceptions that have nothing to do with files (EC-RANGE, EC-LOCALE, EC-SCREEN, EC-FUNCTION); end-of-page leaves statement and location of an older exception; of two statements on a line (or on lines of the same number in different files) only the first says where it is; the location stays when the exception is cleared.

### C91 — Locks of INDEXED files shared by processes (DB_HOME), for every interleaving (proved)
When several processes use INDEXED files in a common Berkeley DB environment, in every state that any interleaving of their statements, step by step, can lead to: no two connectors hold the lock of the same record of the same file; a lock is kept whatever others do until a statement of its own connector; when a statement of an open file has ended, its connector holds the lock of the record just read or written exactly if the statement asked for it (WITH LOCK, LOCK MODE AUTOMATIC) and ended with status 00, and no other; while a record is locked, no READ (without IGNORE LOCK), REWRITE or DELETE begun by another connector for that record reads or changes it, and it ends with status 51; a lock is refused only because of the same record of the same file; two processes have a file open together only if neither of them opened it in a way that excludes others, and an OPEN is refused only because of such a file lock of another process.

*Specification:* Io/LockMain.lean: Holds, Names, SameFile, keeps, Uses, Alone
*Proof:* invariant over all interleavings (Io/LockProps.lean: Inv ties the lock table to the connectors and says all entries are compatible)
*Not modelled / excluded:* the lock manager of Berkeley DB is trusted to grant a lock exactly if no other locker holds a conflicting one; the contents of records (C61); fcntl locks of the other organizations; COB_READ_WAIT_LOCK waiting; OPEN that fails after the lock is granted; deadlock
*Model:* `Io/Lock.lean`; *theorems in* `Io/LockMain.lean`.
*Code:* libcob/fileio.c:lock_record; libcob/fileio.c:test_record_lock; libcob/fileio.c:unlock_record; libcob/fileio.c:indexed_open; libcob/fileio.c:indexed_close; libcob/fileio.c:indexed_read; libcob/fileio.c:indexed_read_next; libcob/fileio.c:indexed_write; libcob/fileio.c:indexed_rewrite; libcob/fileio.c:indexed_delete_internal; libcob/fileio.c:cob_file_unlock; libcob/fileio.c:cob_ex_read; cobc/typeck.c:cb_emit_read.
*Theorems:* `C91_exclusive`, `C91_kept`, `C91_after`, `C91_status`, `C91_refused`, `C91_granted`, `C91_files`, `C91_open`, `C91_finding_rewrite_gives_up`, `C91_finding_changed_while_locked`, `C91_finding_test_refuses`, `C91_finding_write_lock`, `C91_finding_unlock_file`, `C91_finding_same_process`, `C91_finding_ignore_lock`.
*Remarks:* Findings: REWRITE gives up the connector's lock before it tests it, so that the process that locked the record can lose it to another and get status 51; REWRITE gives the test lock back before it changes the record, so that a record is changed while another process has it locked; READ without lock can make READ without lock elsewhere fail with 51; WRITE WITH LOCK can end with 51 with the record written; UNLOCK gives up the lock of the file, which another process can then open OUTPUT; within a process files are not protected; IGNORE LOCK with LOCK MODE AUTOMATIC does not ignore the lock.

### C92 — SEQUENTIAL, LINE SEQUENTIAL and RELATIVE files shared by processes, for every interleaving (proved)
When every process has at most one connector for a file and does not UNLOCK it: in every state that any interleaving of the steps of OPEN, WRITE, CLOSE and of the buffers of the C library can lead to, two processes have a file open together only if both have it open INPUT; an OPEN ends with status 00 exactly if no other process has the file open at that moment, or all of them and this one are INPUT, and otherwise with status 61 and the file closed (OPEN INPUT SHARING WITH NO OTHER always with status 30); while a process has a file open, nothing that others do writes to it (but an OPEN OUTPUT empties it); and what a process writes between OPEN and the end of CLOSE is written to the file completely, in order and once, whatever others do.

*Specification:* Io/FLockProps.lean: OneEach, NoUnlock, Reachable, IsOpen, Rivals, NoOther, writtenBy, putBy
*Proof:* invariant over all interleavings (Io/FLockProps.lean: Inv ties the lock table to the open connectors)
*Not modelled / excluded:* the operating system is trusted to do what POSIX says about fcntl locks and the C library about buffers; names of devices (/dev/) are not locked; processes that end without CLOSE; files that do not exist or may not be used; INDEXED files (C91)
*Model:* `Io/FLock.lean`; *theorems in* `Io/FLockMain.lean`.
*Code:* libcob/fileio.c:cob_file_open; libcob/fileio.c:cob_file_close; libcob/fileio.c:cob_file_unlock; libcob/fileio.c:cob_ex_open; cobc/typeck.c:cb_emit_open; cobc/parser.y:sharing_option.
*Theorems:* `C92_kept`, `C92_together`, `C92_open`, `C92_contents`, `C92_all_written`, `C92_status`, `C92_device`, `C92_finding_emptied`, `C92_finding_close`, `C92_finding_close_reader`, `C92_finding_input_alone`, `C92_finding_second_connector`, `C92_finding_second_close`, `C92_finding_refused_open`, `C92_finding_unlock`, `C92_finding_lock_mode`.
*Remarks:* Findings: OPEN OUTPUT that is refused with status 61 has emptied the file of the process that has it open; CLOSE gives up the lock before the buffer is written, so that another process can open the file before the records are in it, or gets them into its own new file; OPEN INPUT SHARING WITH NO OTHER always fails with status 30; a second connector of the same process for the file weakens its lock on OPEN INPUT and loses it on CLOSE, even on a refused OPEN; UNLOCK gives up the lock of the whole file; LOCK MODE EXCLUSIVE has no effect on OPEN.

### C93 — ALPHABET and CLASS clauses (proved)
The compiler accepts an ALPHABET clause of literals exactly if every value is a character and no character is listed twice (THRU and ALSO included). If no THRU of an accepted clause goes down, then in the collating sequence of the program every character has the place that COBOL gives it: listed characters in the order of the list, those joined with ALSO at one place, and all others behind them in their own order; LOW-VALUE is one of the lowest and HIGH-VALUE one of the highest characters of that sequence. A class condition with a CLASS name is true exactly if every character of the item is one that the clause names, by itself or by a range in either direction.

*Specification:* Cobc/AlphabetProps.lean: code, positions, listed, Valid, Upward, Place, unlistedBelow, Belongs, Definite
*Proof:* induction over the entries (Cobc/AlphabetProps.lean: Good ties the state of the check to the characters listed so far; Cobc/AlphabetMain.lean: the table, LOW-VALUE, HIGH-VALUE, CLASS)
*Not modelled / excluded:* predefined alphabets (NATIVE, STANDARD-1/2, EBCDIC); the comparison that uses the table (C14); LOW-VALUE and HIGH-VALUE in a CLASS clause
*Model:* `Cobc/Alphabet.lean`; *theorems in* `Cobc/AlphabetMain.lean`, `Cobc/AlphabetProps.lean`.
*Code:* cobc/typeck.c:cb_validate_program_environment; cobc/typeck.c:get_value; cobc/codegen.c:output_alphabet_name_definition; cobc/codegen.c:output_class_name_definition; cobc/parser.y:alphabet_literal; cobc/parser.y:class_item; cobc/parser.y:literal_value.
*Theorems:* `C93_sequence`, `C93_low`, `C93_high`, `C93_class`, `C93_finding_downward`, `C93_finding_downward_rest`, `C93_finding_class_range`, `C93_accepted`.
*Remarks:* Findings: a THRU that goes down ("Z" THRU "A") is accepted but its characters get no place in the list, and LOW-VALUE becomes its first character, which is not the lowest; a CLASS range from a number to the text of the very next character (65 THRU "A") is empty. LOW-VALUE and HIGH-VALUE in a CLASS clause read a structure of another kind and are left out.

### C94 — SORT of a table (proved)
SORT of a table that begins at the start of its record (with the collating sequence of the program or of an alphabet that is not NATIVE) leaves the same elements, in the order of the ASCENDING and DESCENDING keys; everything else in the record is unchanged, also the elements that an OCCURS DEPENDING ON table does not have at the moment. If no two elements have equal keys, the result is the same with every C library.

*Specification:* Rt/TabSortProps.lean: element, Has, inElement, prescribed, Done
*Proof:* the comparison is a total preorder (C25), so that the contract of qsort applies; uniqueness of ordered permutations
*Not modelled / excluded:* qsort itself (its contract in the C standard is an assumption, Qsort); keys that the runtime looks for behind the end of the element; NATIONAL keys; tables inside tables; a DEPENDING item with a value below 0 or above the maximum
*Model:* `Rt/TabSort.lean`, `Cmp/Compare.lean`; *theorems in* `Rt/TabSortProps.lean`.
*Code:* libcob/common.c:cob_table_sort; libcob/common.c:cob_table_sort_init; libcob/common.c:cob_table_sort_init_key; libcob/common.c:sort_compare; cobc/typeck.c:cb_emit_sort_init; cobc/parser.y:sort_statement.
*Theorems:* `C94_sorted`, `C94_unique`, `C94_finding_duplicates`, `C94_finding_offset`, `C94_finding_native`.
*Remarks:* Findings: the place of a key is counted from the start of the record, so that a table which does not begin its record is sorted by other bytes (proved: '-A2B1' becomes '-B1A2' when sorted by the letter); WITH DUPLICATES IN ORDER has no effect; COLLATING SEQUENCE IS NATIVE has no effect in a program with its own collating sequence.

### C95 — REDEFINES inside a group (proved)
If no entry of a group names itself in its REDEFINES clause, the compiler accepts the clauses of the group exactly if each names an entry in front of it (the first of the group with that name, in capital or small letters) that has the same level number and is not a redefinition itself (unless the configuration says indirect-redefines), with nothing but redefinitions between the two. In an accepted group an entry with REDEFINES starts in storage where the entry starts that it names, and all entries have the places of C48, where a redefinition lies over the last entry in front of it that is none: so that entries that are not redefinitions never overlap.

*Specification:* Cobc/RedefProps.lean: Same, IsRedef, NamesEntry, Proper, Apart
*Proof:* invariant of the entries read so far (RInv: the redefined entry of every entry is no redefinition), induction over the entries
*Not modelled / excluded:* REDEFINES at level 01 and 77, where the name is looked up as any other (C71); names with multi-byte characters; OCCURS DEPENDING in redefinitions (refused); SYNCHRONIZED; level 66
*Model:* `Cobc/Redef.lean`, `Cobc/Layout.lean`; *theorems in* `Cobc/RedefProps.lean`.
*Code:* cobc/field.c:cb_resolve_redefines; cobc/field.c:validate_field_1; cobc/field.c:compute_size; cobc/parser.y:redefines_clause; cobc/cobc.c:sjis_casecmp.
*Theorems:* `C95_accepted`, `C95_place`, `C95_layout`, `C95_finding_self`, `C95_finding_loop`.
*Remarks:* Findings: an entry that names itself (05 B REDEFINES B) is accepted as the last entry of its group and is stored at offset 0 of the record, over other items; with indirect-redefines an entry that redefines such an entry makes the compiler loop for ever.

### C96 — RENAMES stands for exactly the bytes from the first item to the last (proved)
For every record the compiler lays out, of any depth: 66 R RENAMES B stands for the bytes of B; 66 R RENAMES B THRU C, with B in front of C, begins where B begins and ends where C ends, contains B, C (if it has no OCCURS) and every item between them with everything subordinate to them, and touches nothing in front of B or behind C, nor anything outside the record. It is accepted exactly if the items named are not at level 01 and not at a level above 50. A numeric item is read through R as by its own name if its USAGE and SIGN clauses are those of the 01 entry. Findings: C in front of B is accepted (size below zero), THRU an item with OCCURS takes its first occurrence only, an item of another record is accepted and gives bytes outside the record, and R of a COMP item or of one with SIGN SEPARATE is read with the USAGE and SIGN of the 01 entry, so with another value.

*Specification:* Before (order in the source text by child numbers, the later not a redefinition) and Under (subordinate) on paths; layouts and Plain of C48
*Proof:* every entry of a layout is itself a placed entry (induction on the path), so C48 holds at every level; then interval arithmetic
*Not modelled / excluded:* name lookup; pointers and floating-point items
*Model:* `Cobc/Renames.lean`; *theorems in* `Cobc/RenamesProps.lean`.
*Code:* cobc/parser.y:renames_clause; cobc/field.c:compute_size; cobc/field.c:cb_build_field_tree; cobc/field.c:validate_field_1; cobc/tree.c:cb_tree_category.
*Theorems:* `C96_accepted`, `C96_one`, `C96_range`, `C96_value`, `C96_finding_backwards`, `C96_finding_occurs`, `C96_finding_other_record`, `C96_finding_usage`, `C96_finding_separate`.
*Remarks:* The value part is proved under the condition that USAGE and SIGN are those of the 01 entry; otherwise it is false (findings).

### C97 — External switches say what was set last (proved)
For every history of SET ... TO ON / OFF statements and X"91" calls of all programs of a run unit: the ON STATUS condition of a switch is true exactly if the last statement that sets the switch sets it on, or none sets it and the environment variable COB_SWITCH_n is ON in capital or small letters; the OFF STATUS condition is its opposite; X"91" function 12 gives the same values. SWITCH-n and UPSI-(n-1), n = 1..8, name the same switch and nothing else names one; condition-names are accepted for switches only, and without mnemonic name only if the configuration says so. Findings: SET ON / OFF of the mnemonic name of a device or printer channel is accepted and sets a switch (CONSOLE: switch 4) or writes outside the switches (C08 to C12); a condition-name for a system-name that is no switch, without mnemonic name, makes the compiler use a null pointer.

*Specification:* Sets (a statement sets switch k), Last (the last such statement), SwitchName, Means, CondFor written without the lookup functions of the model
*Proof:* the state after a statement as a predicate on switch numbers, by induction on the list of names and on the history; the system-name table by a general lemma on searches in a table without duplicates
*Not modelled / excluded:* lookup of mnemonic names (C71); the interface names ARGUMENT-NUMBER etc.
*Model:* `Rt/Switch.lean`, `Rt/Bits.lean`; *theorems in* `Rt/SwitchProps.lean`.
*Code:* libcob/common.c:cob_init; libcob/common.c:cob_get_switch; libcob/common.c:cob_set_switch; libcob/common.c:CBL_X91; cobc/typeck.c:cb_define_switch_name; cobc/typeck.c:cb_emit_set_on_off; cobc/reserved.c:system_table; cobc/parser.y:mnemonic_name_clause.
*Theorems:* `C97_names`, `C97_other_names`, `C97_accepted`, `C97_condition`, `C97_get`, `C97_finding_device`, `C97_finding_outside`, `C97_finding_crash`.

### C98 — OCCURS DEPENDING ON: the size of a group follows the counter (proved)
For every record that the compiler (complex-odo: no) accepts with a table OCCURS ... DEPENDING ON: with n in the counter every group that contains the table has, as a sending item or if the counter is outside the group, exactly the size it would have if the table were declared with n occurrences, and otherwise its largest size; all items are at the addresses and have the sizes they would have then, for every n. The size contains everything in front of the table and its first n elements, nothing of the others, and stays within the group while n is not above the largest number. Accepted, without redefinitions behind the table, are exactly the records that end in the table with no OCCURS above it. Findings: the counter is not checked where a group is used (9 in a counter for at most 5 reads past the record); with complex-odo: yes an item behind an elementary variable table is addressed behind its largest size while the size of the group follows the counter, a fixed table behind a variable one counts once, and what follows a redefinition is left out.

*Specification:* Ends: inductive relation between the record with max and the same record with n occurrences at the end
*Proof:* induction on the path to the table with the loop of compute_size for an appended last entry; interval arithmetic from C48/C96 for the rest
*Not modelled / excluded:* GLOBAL records, position of the counter, nested groups with complex-odo
*Model:* `Cobc/Odo.lean`, `Cobc/Layout.lean`; *theorems in* `Cobc/OdoProps.lean`.
*Code:* cobc/field.c:validate_field_1; cobc/codegen.c:output_size; cobc/codegen.c:output_base; cobc/tree.c:cb_field_variable_size; cobc/tree.c:cb_field_variable_address.
*Theorems:* `C98_layout`, `C98_accepted`, `C98_cover`, `C98_complex_size`, `C98_finding_counter`, `C98_finding_complex_address`, `C98_finding_complex_table`, `C98_finding_complex_redefines`.
*Remarks:* complex-odo: yes is modelled for groups of elementary items and only has findings.

### C99 — STOP RUN closes exactly the files that are open (proved)
For every history of file statements on any number of files of a run unit, with any answers of the file system: STOP RUN (and a run-time error or a signal) closes every file that is open, leaves every file that is closed, closed WITH LOCK or was never opened as it is, and reports each file it closes exactly once and no other; the stream it closes is an open one (none for an OPTIONAL file that does not exist). Afterwards no file is open, so that ending a second time closes and reports nothing.

*Specification:* after: the state of a file from its own statements alone (C36); IsOpen; the order and the list of files of the run time do not occur in the statement
*Proof:* invariant of the file list (no duplicates, contains every open file), stream invariant, induction on the list for the closing loop
*Not modelled / excluded:* exit procedures, screens, text of the message, user file handlers, ISAM
*Model:* `Io/StopRun.lean`, `Io/Status.lean`; *theorems in* `Io/StopRunProps.lean`.
*Code:* libcob/fileio.c:cob_exit_fileio; libcob/fileio.c:cob_cache_file; libcob/fileio.c:cob_ex_open; libcob/fileio.c:cob_ex_close; libcob/common.c:cob_stop_run; libcob/common.c:cob_sig_handler.
*Theorems:* `C99_stop_run`, `C99_again`.
*Remarks:* Files assigned to the keyboard or display are left alone.

### C100 — COMMIT and ROLLBACK (proved)
For every history of file statements on any number of files of a run unit: COMMIT deals with every file that is open exactly once and with no other file; what was written and is still in a buffer is brought to the file, in order and once; every file stays open in its mode; the process has afterwards no lock for a file that it has open without LOCK MODE EXCLUSIVE, and every other lock and all files of other processes are as before. The stream used is the open stream of the file, unless the file is an OPTIONAL one that is missing. UNLOCK does the same with one file, and nothing with one that is not open. (Findings: ROLLBACK is the same as COMMIT and takes nothing back; a missing OPTIONAL file makes COMMIT, ROLLBACK and UNLOCK use a null or released stream; after COMMIT another process can empty and write a file that is still open for writing.)

*Specification:* IsOpen and after of C36/C99 for the files of a run unit; IsOpen and writtenBy of C92 for processes; the list of the run time does not occur in C100_commit
*Proof:* the invariant of C99 for the list; induction on the list with the exact effect of one unlock on connectors, locks and changes of files
*Not modelled / excluded:* INDEXED files, user file handlers, VBISAM
*Model:* `Io/Commit.lean`, `Io/StopRun.lean`, `Io/FLock.lean`; *theorems in* `Io/CommitProps.lean`.
*Code:* libcob/fileio.c:cob_ex_commit; libcob/fileio.c:cob_ex_rollback; libcob/fileio.c:cob_file_unlock; libcob/fileio.c:cob_ex_unlock_file; cobc/typeck.c:cb_emit_commit; cobc/typeck.c:cb_emit_rollback.
*Theorems:* `C100_commit`, `C100_unlock`, `C100_system`, `C100_finding_rollback`, `C100_finding_missing`, `C100_finding_unprotected`.
*Remarks:* Files that are not INDEXED.

## 6. Model inventory (definitions → C code)

Generated from the citations that stand in the comments of the definitions.

* `Cmp/Compare.lean`: libcob/common.c: common_cmpc (505-528), alnum_cmps (549-570), national_cmps (572-597), cob_cmp_all (629-642), cob_cmp_all (613-665), cob_cmp_simple_str (667-699), cob_get_sign (1361-1404), cob_cmp (1257-1406), cob_is_numeric (1430-1453), cob_is_numeric (1417-1475), cob_is_alpha (1477-1488), cob_is_upper (1490-1501), cob_is_lower (1503-1514), sort_compare (722-748); libcob/fileio.c: sort_cmps (5605-5626), none (5654-5662), cob_file_sort_compare (5638-5669)
* `Cobc/Alphabet.lean`: cobc/parser.y: alphabet_lits (1421-1428), alphabet_literal (1402-1419), literal_value (263-279), class_item (1492-1502); cobc/typeck.c: get_value (1256-1276), cb_validate_program_environment (1303-1447); cobc/codegen.c: literal_value (3846-3866), output_alphabet_name_definition (3889-3922), output_class_name_definition (3954-4015)
* `Cobc/Based.lean`: cobc/typeck.c: cb_build_identifier (923-939), cb_build_expr (923-939), null_check (923-939); libcob/common.c: cob_is_omitted (1411-1415), cob_check_based (1552-1562); cobc/codegen.c: output_stmt (3275-3281)
* `Cobc/Check.lean`: cobc/typeck.c: move_error (4665-4689), count_pic_alphanumeric_edited (4742-4758), strict (5158-5357); cobc/tree.c: cb_get_long_long (766-791)
* `Cobc/Cond.lean`: cobc/tree.c: cb_fits_int (629-674); cobc/typeck.c: cb_chk_alpha_cond (2669-2692), cb_build_optim_cond (2529-2623), cb_chk_num_cond (2625-2667), cb_build_cond (2782-2838), build_cond_88 (2494-2527), cb_emit_set_true (6675-6705), cb_build_move (5987-6062); cobc/codegen.c: output_data (420-476)
* `Cobc/Conf.lean`: cobc/config.c: read_string (81-96), inc (158-346), assign_external (349-355), snprintf (141-146), cb_load_conf (116-369)
* `Cobc/ConfTable.lean`: cobc/config.c: cb_config_type (45-53), config_table (57-80)
* `Cobc/Evaluate.lean`: cobc/tree.c: cb_build_binary_op (2273-2283); cobc/typeck.c: evaluate_test (3946-4001), build_evaluate (4023-4087); cobc/parser.y: eval_check (4793-4812), evaluate_object (4898-4935), evaluate_object_list (4884-4896), evaluate_when_list (4878-4882), evaluate_case (4840-4857), evaluate_condition_list (4814-4838), evaluate_other (4861-4876), other (4755-4778)
* `Cobc/EvaluateSpec.lean`: cobc/codegen.c: output_cond (1406-1510)
* `Cobc/Expr.lean`: cobc/tree.c: cb_tree_category (493-569), cb_build_binary_op (2237-2261); cobc/typeck.c: cb_check_numeric_value (444-457), expr_reduce (1787-1911), expr_reduce (1777-1921), cb_expr_shift_sign (1924-1940), cb_expr_shift (1964-1987, 2055-2068), cb_expr_shift (1960-2069), expr_expand (2071-2089), cb_expr_finish (2091-2113), cb_build_expr (2148-2211)
* `Cobc/ExprSpec.lean`: cobc/codegen.c: output_cond (1406-1510)
* `Cobc/Init.lean`: cobc/parser.y: CB_PURPOSE_INT (5184-5196,); cobc/tree.c: cb_tree_category (493-570); cobc/codegen.c: initialize_type (1529-1610), initialize_uniform_char (1612-1641), output_initialize_literal (1664-1711), output_initialize_one (1790-1987), output_initialize_compound (1989-2076), output_initialize (2078-2109), output_initial_values (4017-4035); cobc/typeck.c: cb_emit_initialize (4184-4203)
* `Cobc/IntExpr.lean`: cobc/codegen.c: output_integer (752-958)
* `Cobc/Layout.lean`: cobc/field.c: compute_size (775-962); cobc/typeck.c: cb_build_identifier (958-1020); cobc/codegen.c: output_data (429-471)
* `Cobc/Literal.lean`: cobc/tree.c: cb_concat_literals (1097-1155); cobc/codegen.c: output_string (293-320)
* `Cobc/Move.lean`: cobc/tree.h: cb_literal (417-425); cobc/codegen.c: output_attr (599-606); cobc/tree.c: cb_get_int (737-764), cb_fits_int (634-639); libcob/numeric.c: cob_set_packed_zero (890-899), cob_set_packed_int (923-927), cob_set_packed_int (901-932); libcob/move.c: cob_move_all (1412-1457), cob_move (1481-1680); cobc/typeck.c: cb_build_move_num_zero (5466-5517), cb_build_move_literal (5733-5928), cb_build_move_field (5930-5985), cb_build_move (5987-6062)
* `Cobc/Names.lean`: cobc/field.c: q (181-184), relax (102-216)
* `Cobc/Odo.lean`: cobc/codegen.c: output_size (525-533), output_size (518-545), q (536-545), output_base (409-422)
* `Cobc/Perform.lean`: cobc/tree.c: cb_build_perform_varying (2497-2508); cobc/parser.y: perform_option (5493-5519), exitPerform (4999-5034), paragraph_header (3940-3971), section_header (3905-3933); cobc/codegen.c: output_perform_until (2891-2933), output_perform (2935-2978), output_stmt (3166-3560); libcob/common.h: frame_stack (190)
* `Cobc/Picture.lean`: cobc/tree.c: guess_pic_category (1182-1250), increase_character_length (180-196), rest (1411-1433), fuel (1288-1557), cb_build_picture (1252-1632)
* `Cobc/Redef.lean`: cobc/cobc.c: sjis_casecmp (593-608); cobc/field.c: cb_resolve_redefines (231-294), validate_field_1 (454-461)
* `Cobc/Refs.lean`: cobc/tree.c: k (2177-2206)
* `Cobc/RefsWords.lean`: cobc/tree.c: CB_WORD_HASH_SIZE (132-141)
* `Cobc/Renames.lean`: cobc/field.c: compute_size (778-788); cobc/codegen.c: output_attr (589-640)
* `Cobc/Search.lean`: cobc/typeck.c: output_search_all (6495–6556,); cobc/codegen.c: turns (2179–2239), none (2145–2176)
* `Cobc/Use.lean`: libcob/fileio.c: status_exception (263-274), save_status (731-754); cobc/codegen.c: output_ferror_stmt (3169-3203), output_stmt (3284-3314), output_file_error (3129-3163); cobc/tree.c: cb_list_append (847-868), cb_list_reverse (870-882), cb_build_program (907-941); cobc/parser.y: setup_use_file (282-306)
* `Cobc/Words.lean`: cobc/reserved.c: reserve_comp (909-919), lookup_reserved_word (934-955), lookup_intrinsic (957-977)
* `Cobc/WordsTable.lean`: cobc/reserved.c: reserved_words (86-633), function_list (640-905)
* `Intr/Date.lean`: libcob/intrinsic.c: leap_year (371-375), normal_days (82), leap_days (83), normal_month_days (84), leap_month_days (85), cob_intr_date_of_integer (1241-1288), cob_intr_day_of_integer (1290-1323), cob_intr_test_date_yyyymmdd (1441-1483), cob_intr_integer_of_date (1326-1394), cob_intr_test_day_yyyyddd (1486-1514), cob_intr_integer_of_day (1396-1438), cob_intr_combined_datetime (1209-1238)
* `Intr/Midrange.lean`: libcob/intrinsic.c: cob_intr_midrange (2189-2220), cob_intr_present_value (2607-2619), cob_intr_present_value (2581-2624)
* `Intr/Numeric.lean`: libcob/common.h: digits (325), scale (326); libcob/intrinsic.c: make_field_entry (343-369), cob_intr_binop (462-489), cob_intr_binop (434-492), cob_intr_integer (521-533), cob_intr_integer (510-536), cob_intr_integer_part (538-550), cob_intr_fraction_part (552-564), cob_intr_mod (2311-2330), cob_intr_rem (2370-2393), cob_intr_abs (1576-1586), cob_intr_sum (2042-2050), cob_intr_sum (2027-2075)
* `Intr/Numeric2.lean`: libcob/intrinsic.c: cob_intr_sign (566-586), cob_intr_factorial (1516-1538), cob_intr_mean (2267-2309)
* `Intr/Numval.lean`: libcob/intrinsic.c: sym (1856-1877), cob_intr_numval (1848-1881), cob_intr_numval_c (1927-1972), cob_intr_numval (1826-1905), cob_intr_numval_c (1907-1996)
* `Intr/Select.lean`: libcob/intrinsic.c: cob_intr_min (2156-2163), cob_intr_min (2147-2166), cob_intr_max (2177-2184), cob_intr_max (2168-2187), cob_intr_ord_min (2099-2106), cob_intr_ord_min (2077-2110), cob_intr_ord_max (2134-2141), cob_intr_ord_max (2112-2145), cob_intr_range (2332-2368), cob_intr_median (2222-2265)
* `Intr/Stat.lean`: libcob/intrinsic.c: cob_intr_variance (2490-2496), cob_intr_variance (2447-2513), cob_get_int (2412-2422), cob_intr_random (2396-2444), cob_intr_stored_char_length (1155-1207)
* `Intr/Text.lean`: libcob/intrinsic.c: calc_ref_mod (411-428), cob_intr_upper_case (588-603), cob_intr_lower_case (606-621), cob_intr_reverse (624-639), cob_intr_concatenate (642-678), none (715-740), cob_intr_substitute (678-773), cob_intr_substitute_case (775-873), cob_intr_trim (875-914), cob_intr_char (1121-1139), cob_intr_ord (1141-1153), cob_intr_year_to_yyyy (2626-2687), cob_intr_date_to_yyyymmdd (2689-2755), cob_intr_day_to_yyyyddd (2757-2823)
* `Intr/Window.lean`: libcob/intrinsic.c: p1 (2871-2894), cob_intr_seconds_from_formatted_time (2846-2904)
* `Io/Commit.lean`: libcob/fileio.c: cob_file_unlock (3767-3822), cob_ex_commit (4700-4708), cob_ex_rollback (4719-4727), cob_ex_unlock_file (3828-3833), cob_file_unlock (3779-3800)
* `Io/FLock.lean`: cobc/typeck.c: cb_emit_open (6116-6123); libcob/fileio.c: cob_ex_open (3863-3866, 834-878), fcntl (886-900, 4074-4104), cob_file_close (931-939), fclose (941-947), cob_file_unlock (3779-3800)
* `Io/FileName.lean`: cobc/typeck.c: idx (706-711), get_coded_filename (699-721), cb_build_assignment_name (723-805); cobc/tree.c: finalize_file (1869-1872); libcob/common.c: cb_get_jisword_buff (2735-2800); libcob/fileio.c: prefix (276), cob_ex_open (3940-3988), cob_ex_delete_file (4595-4642), cob_file_path (4844-4849)
* `Io/Indexed.lean`: libcob/fileio.c: indexed_open (1961-2147), dups (2241-2324), indexed_start_internal (2220-2388), nextprev (2899-2907), indexed_read_next (2882-3161), get_dupno (3167-3194), check_alt_keys (3197-3219), i (3269-3307), indexed_write_internal (3221-3337), indexed_write (3374-3390), indexed_delete_internal (3394-3521), indexed_rewrite (3647-3696), cob_ex_start (4257-4552)
* `Io/Line.lean`: cobc/typeck.c: n (7711-7771); libcob/fileio.c: file_linage_check (757-796), cob_linage_write_opt (952-1015), cob_file_write_opt (1017-1033), lineseq_write (1257-1354), cob_ex_write (4398-4444), lineseq_read (1219-1247), lineseq_read (1204-1255), cob_ex_read (4302-4374), cob_file_open (895-907)
* `Io/Lock.lean`: cobc/parser.y: none (1924-1927); libcob/fileio.c: cob_ex_read (4333-4344), unlock_record (1733-1745), test_record_lock (1725), lock_record (1680-1704)
* `Io/Rel.lean`: libcob/fileio.c: relative_start (1386-1412,), relative_start (1361-1414), relative_read (1416-1451), relative_read_next (1453-1505), relative_write (1507-1569), relative_rewrite (1571-1604), relative_delete (1606-1638), cob_ex_start (4257-4285), cob_ex_read (4302-4374), cob_ex_write (4398-4444), cob_ex_rewrite (4468-4511), cob_ex_delete (4527-4552)
* `Io/Seq.lean`: libcob/fileio.c: sequential_read (1035-1100), sequential_write (1102-1179), sequential_rewrite (1181-1198), cob_ex_read (4302-4374), cob_ex_write (4398-4444), cob_ex_rewrite (4468-4511)
* `Io/Sort.lean`: libcob/fileio.c: block_byte (166-173), while (5797-5823,), cob_sort_queues (5776-5830), cob_read_item (5832-5846), cob_write_block (5848-5872), none (5947-5957), while (5945-5967,), while (5935-5976,), while (5931-5982,), ret (186-201), cob_file_sort_init (6197-6221), cob_file_sort_submit (5994-6066), cob_file_sort_process (5894-5991), cob_file_sort_retrieve (6068-6122), cob_file_release (6258-6313)
* `Io/SortStmt.lean`: libcob/fileio.c: cob_ex_open (3852-3875), cob_ex_read (4302-4374), cob_copy_check (5874-5892), cob_file_sort_using (6130-6140), cob_file_sort_using (6124-6142), cob_file_release (6258-6282), cob_file_sort_giving (6163-6188), cob_file_sort_giving (6144-6194); cobc/typeck.c: cb_emit_sort_using (6796-6808)
* `Io/Status.lean`: libcob/fileio.c: cob_ex_open (3849-4112), cob_file_close (913-950), cob_ex_close (4179-4220), cob_ex_start (4257-4284), cob_ex_read (4302-4373), cob_ex_rewrite (4468-4513), cob_ex_write (4398-4445), cob_write (4447-4466), cob_ex_delete (4527-4552), cob_ex_delete_file (4566-4592)
* `Io/StopRun.lean`: libcob/fileio.c: cob_cache_file (3849-4045), cob_cache_file (715-729), cob_exit_fileio (4871-4899); libcob/common.c: cob_stop_run (1031-1047)
* `Move/Alnum.lean`: libcob/move.c: cob_move_alphanum_to_alphanum (333-362), cob_move_display_to_alphanum (296-331), k (249-258), room (260-275), cob_move_alphanum_to_display (207-281), cob_move_all (1412-1456)
* `Move/Edited.lean`: libcob/move.c: out (690-710), cob_move_display_to_edited (687-919), cob_move (1548-1612), V (968-990), cob_move_edited_to_display (921-996)
* `Move/National.lean`: libcob/move.c: han2zen (1114-1208), han2zen (1209-1269), han2zen (1110-1325), han2zen (1090-1330), cob_move_alphanum_to_national (386-408), cob_move_alphanum_to_national (364-411), c (1057-1087), cob_move_alphanum_to_national_edited (1036-1088), judge_hankakujpn_exist (1332-1344), src (364-411, 1036-1088), cob_move (1463-1545, 1572-1577, 1635-1640, 1664-1669), cob_move_all (1389, 1394-1399), cob_move_all (1366-1460); libcob/intrinsic.c: cob_intr_national (3310-3327)
* `Move/Numeric.lean`: libcob/move.c: store_common_region (100-130), cob_move_display_to_display (283-294), cob_move_packed_to_display (489-499), cob_move_packed_to_display (480-505), cob_move_display_to_packed (452-467), cob_move_display_to_packed (418-478), cob_move_display_to_binary (624-632), cob_move_display_to_binary (600-645), cob_move_binary_to_display (647-681), indirect_move (1350-1365), cob_move (1548-1619)
* `Move/Text.lean`: libcob/move.c: n (1014-1030), cob_move_alphanum_to_edited (998-1033), cob_move (1549, 1567-1590), cob_move (1548-1619)
* `Num/AddInt.lean`: libcob/numeric.c: display_add_int (1120-1142), display_add_int (1112-1156), display_sub_int (1167-1189), display_sub_int (1158-1199), cob_display_add_int (1201-1275), cob_add_packed (697-736), cob_complement_packed (637-658), cob_add_packed (662-757)
* `Num/Arith.lean`: cobc/parser.y: arithmetic_x (6875-6877); cobc/tree.c: cb_build_binary_op (2231-2304), cb_build_binary_list (2307-2317), cb_fits_int (629-641); cobc/typeck.c: build_store_option (2217-2256), decimal_expand (2313-2358,), cb_build_optim_add (2851-2967), cb_build_add (2969-3045), cb_emit_arithmetic (2430-2489); libcob/numeric.c: cob_sub_int (1309-1322)
* `Num/CmpPacked.lean`: libcob/numeric.c: cob_cmp_packed (1396-1460), cob_cmp_numdisp (1483-1496)
* `Num/Compute.lean`: cobc/typeck.c: decimal_expand (2306-2379), build_decimal_assign (2387-2428)
* `Num/Decimal.lean`: libcob/numeric.h: cob_decimal (33-39); libcob/numeric.c: DECIMAL_NAN (37), DECIMAL_CHECK (38-42), shift_decimal (296-312), align_decimal (314-322), cob_decimal_add (1036-1042), cob_decimal_sub (1044-1050), cob_decimal_mul (1052-1058), cob_decimal_div (1060-1082), cob_decimal_pow (1084-1099), cob_decimal_cmp (1101-1106)
* `Num/FastPath.lean`: libcob/codegen.h: size (507-1850), cob_cmp_u8_binary (507-805, 1571-1845), size (824-2439), cob_add_u8_binary (824-1190, 1848-2143), cob_sub_u8_binary (1196-1563, 2148-2439), cob_setswp_u16_binary (2446-2672), cob_get_packed_int (228-247), cob_cmp_packed_int (206-225), cob_add_packed_int (279-290), cob_add_packed_int (250-292), cob_get_numdisp (189-203); libcob/numeric.c: cob_get_ebcdic_sign (1585-1648), cob_cmp_sign_numdisp (1718-1746), cob_add_int (1299-1324); libcob/move.c: cob_display_get_int (1914-1950), cob_packed_get_int (1862-1887), cob_get_int (2005-2026); cobc/codegen.c: output_integer (832-946), output_integer (752-958); cobc/tree.c: cb_fits_int (629-674); cobc/typeck.c: cb_build_optim_cond (2529-2623), cb_chk_num_cond (2625-2667), cb_build_cond (2770-2838), cb_build_optim_add (2851-2909), cb_build_optim_sub (2912-2967)
* `Num/Field.lean`: libcob/common.h: cob_field_attr (321-329), cob_field (331-337), COB_FIELD_DATA (248-250), COB_FIELD_SIZE (251-252), cob_get_sign (239), cob_put_sign (240); libcob/common.c: cob_get_sign_ebcdic (313-383), cob_put_sign_ebcdic (425-504), cob_real_get_sign (1135-1177), cob_real_put_sign (1179-1223); libcob/numeric.c: cob_decimal_set_display (363-409), cob_decimal_get_display (412-449), cob_packed_get_sign (611-621), cob_decimal_set_packed (760-826), cob_decimal_get_packed (867-875), cob_decimal_get_packed (828-888), cob_binary_get_int64 (166-211), cob_binary_get_uint64 (219-236), cob_binary_set_uint64 (238-292), cob_decimal_set_binary (453-496), cob_decimal_get_binary (503-607)
* `Num/Item.lean`: libcob/numeric.c: cob_decimal_set_field (936-960), cob_decimal_get_field (962-1029), cob_add (1279-1286), cob_sub (1288-1295), cob_div_quotient (1335-1364), cob_div_remainder (1364-1368), cob_numeric_cmp (1388-1394), cob_cmp_int (1370-1377)
* `Rt/Bits.lean`: libcob/common.c: k (2302-2304), CBL_AND (2293-2306), CBL_OR (2309-2322), CBL_NOR (2325-2338), CBL_XOR (2341-2354), CBL_IMP (2357-2370), CBL_NIMP (2373-2386), CBL_EQ (2389-2402), CBL_NOT (2405-2418), n (2427-2430), CBL_XF4 (2421-2432), n (2441-2443), CBL_XF5 (2435-2445), CBL_X91 (2448-2484)
* `Rt/Call.lean`: libcob/call.c: call_table (145), hash (233-242), insert (245-264), lookup (267-281), cob_set_cancel (347-364), cobcancel (529-552), cob_resolve (390-406), cob_resolve (367-497), init_call_stack_list (284-292), cob_create_call_stack_list (294-304), cob_push_call_stack_list (739-773), cob_pop_call_stack_list (775-779), cob_cancel_call_stack_list (306-324), cob_cancel_all (781-790), cob_field_cancel (306-324); cobc/typeck.c: cb_encode_program_id (582-607); libcob/common.c: cob_field_to_string (1224-1235)
* `Rt/CallArgs.lean`: cobc/tree.h: width (1219-1227); cobc/codegen.c: content_n (2308-2408), n (2554-2704), cob_procedure_parameters (2410-2448), n (4771-4834, 4860-4891)
* `Rt/CblFile.lean`: libcob/fileio.c: cob_str_from_fld (4916-4953), open (4985-4994), open_cbl_file (4955-4995), lseek (5043-5066), CBL_READ_FILE (5023-5067), CBL_WRITE_FILE (5069-5097), CBL_CLOSE_FILE (5099-5108), CBL_DELETE_FILE (5120-5140), CBL_RENAME_FILE (5241-5265), CBL_COPY_FILE (5183-5188), CBL_COPY_FILE (5142-5192), CBL_CHECK_FILE_EXIST (5194-5239)
* `Rt/Clock.lean`: libcob/common.c: cob_init (975-992), job_or_current_localtime (748-762), cob_localtime (767-779), cob_accept_date (1757-1764), cob_accept_date_yyyymmdd (1766-1773), cob_accept_day (1775-1782), cob_accept_day_yyyyddd (1784-1791), cob_accept_day_of_week (1793-1806), cob_accept_time (1808-1839); libcob/intrinsic.c: cob_intr_current_date (1079-1119)
* `Rt/Env.lean`: libcob/common.c: current_arg (81-82), cob_local_env (86), none (85,), cob_memcpy (863-874), cob_display_environment (1933-1944), cob_display_env_value (1946-1968), cob_set_environment (1971-1975), cob_get_environment (1978-1998), cob_accept_environment (2001-2013), cob_display_arg_number (1885-1901), cob_accept_arg_number (1904-1915), cob_accept_arg_value (1918-1926), cob_accept_command_line (1866-1875), cob_accept_command_line (1853-1878), cob_chain_setup (2016-2033), cob_display_command_line (1842-1851)
* `Rt/Exc.lean`: cobc/codegen.c: output_stmt (3239-3263); libcob/common.c: cob_set_location (813-831), cob_exception_tab_code (124-129), cob_set_exception (901-913), cob_get_exception_name (888-899); libcob/fileio.c: status_exception (263-274), save_status (730-755); libcob/intrinsic.c: cob_intr_exception_status (975-995), cob_intr_exception_statement (997-1019), cob_intr_exception_location (939-973), cob_intr_exception_file (915-937)
* `Rt/Life.lean`: cobc/codegen.c: q (4340-4413, 4473-4515); libcob/call.c: cobcancel (529-552)
* `Rt/Small.lean`: libcob/common.c: cob_acuw_justify (2625-2693), CBL_TOUPPER (2491-2507), CBL_TOLOWER (2509-2525), cob_return_args (2572-2582), cob_parameter_size (2584-2602), cob_acuw_calledby (2706-2733)
* `Rt/Storage.lean`: libcob/common.c: cob_external_addr (1725-1753), cob_allocate (2035-2063), cob_free_alloc (2066-2095), CBL_EXIT_PROC (2178-2214), CBL_ERROR_PROC (2217-2253), cob_stop_run (1036-1042), cob_check_odo (1592-1603), cob_check_subscript (1606-1617), cob_check_ref_mod (1671-1695), cob_check_ref_mod_national (1636-1668)
* `Rt/Switch.lean`: cobc/reserved.c: system_table (36-73), lookup_system_name (921-932); cobc/typeck.c: cb_define_switch_name (647-673), cb_emit_set_on_off (6659-6672); libcob/common.c: cob_get_switch (1241-1245), cob_set_switch (1247-1255)
* `Rt/TabSort.lean`: libcob/common.c: cob_table_sort_init_key (1532-1539), cob_table_sort_init (1525-1529), cob_table_sort_init (1520-1546); cobc/parser.y: sort_collating (5925-5928)
* `Rt/Termio.lean`: libcob/termio.c: bin_digits (40), display_numeric (46-79), pretty_display_numeric (115-139), pretty_display_numeric (81-145), display (157-204), cob_display (206-229), temp (249-257), cob_accept (235-264); libcob/move.c: cob_hankaku_move (1830-1842)
* `Str/Inspect.lean`: libcob/strings.c: cob_inspect_init (227-251), cob_inspect_start (253-258), cob_inspect_before (260-308), cob_inspect_after (310-322), inspect_common (192-215), inspect_common (170-190), inspect_common (167-216), inspect_common (120-221), alloc_figurative (88-118), cob_inspect_characters (324-366), cob_inspect_characters (324-344), cob_inspect_finish (520-534), cob_inspect_converting (505-514), cob_inspect_converting (392-518); cobc/typeck.c: cb_build_inspect_region_start (4619-4633), cb_emit_inspect (4208-4237)
* `Str/StringStmt.lean`: libcob/strings.c: cob_string_init (540-568), cob_string_delimited (570-622), cob_string_finish (624-639), cob_unstring_init (645-693), p (757-796), cob_unstring_into (723-829), cob_memcpy (765, 800, 751)
