{
 "C01": {
  "model": [
   "Num/Field.lean",
   "Num/Decimal.lean"
  ],
  "spec": "`Num/FieldSpec.lean`: `HoldsUnits` (the digits, read positionally, with the sign convention of the item) and `zonedImage` (the bytes an item of that PICTURE must contain).",
  "proof": "induction over the digit string; the sign byte by case analysis over conventions."
 },
 "C02": {
  "model": [
   "Num/Field.lean"
  ],
  "spec": "`packedImage`: two digits per byte, sign nibble last.",
  "proof": "induction over the nibble list."
 },
 "C03": {
  "model": [
   "Num/Field.lean"
  ],
  "spec": "`binaryHolds`: value of the bytes as a signed/unsigned integer of the item's width and byte order.",
  "proof": "little-endian positional value `leVal`, modular arithmetic."
 },
 "C04": {
  "model": [
   "Num/Field.lean",
   "Num/Item.lean"
  ],
  "spec": "receiver bytes unchanged iff the scaled value does not fit in the PICTURE.",
  "proof": "case analysis of the store routines over the fit test."
 },
 "C05": {
  "model": [
   "Num/Item.lean",
   "Num/Decimal.lean"
  ],
  "spec": "rational-number specification of truncation and nearest-away-from-zero, with a uniqueness theorem.",
  "proof": "Int division lemmas."
 },
 "C06": {
  "model": [
   "Num/Decimal.lean"
  ],
  "spec": "`Num/DecimalSpec.lean`: the value of a decimal is `v * 10^(-s)` in ℚ.",
  "proof": "field arithmetic on zpow."
 },
 "C07": {
  "model": [
   "Num/Decimal.lean"
  ],
  "spec": "quotient in ℚ, error below one unit of the last kept digit.",
  "proof": "Int division lemmas."
 },
 "C08": {
  "model": [
   "Num/Item.lean"
  ],
  "spec": "dividend = quotient·divisor + remainder in ℚ.",
  "proof": "composition of C05–C07."
 },
 "C09": {
  "model": [
   "Num/Item.lean",
   "Num/Decimal.lean"
  ],
  "spec": "order of ℚ.",
  "proof": "alignment preserves order."
 },
 "C10": {
  "model": [
   "Num/AddInt.lean"
  ],
  "spec": "the number held afterwards is the sum.",
  "proof": "loop invariant of the carry loop, induction over digits."
 },
 "C11": {
  "model": [
   "Num/AddInt.lean"
  ],
  "spec": "the number held afterwards is the sum.",
  "proof": "loop invariant over nibbles."
 },
 "C12": {
  "model": [
   "Num/CmpPacked.lean"
  ],
  "spec": "sign of the difference, for every reachable state of the static cache.",
  "proof": "history invariant `CacheOk`."
 },
 "C13": {
  "model": [
   "Move/Numeric.lean"
  ],
  "spec": "`Move/NumericSpec.lean` `MovedUnits`: digits aligned at the decimal point.",
  "proof": "index-wise characterisation of the copied digits."
 },
 "C14": {
  "model": [
   "Move/Alnum.lean"
  ],
  "spec": "position-wise: padded/truncated on the right (left if JUSTIFIED).",
  "proof": "list extensionality."
 },
 "C15": {
  "model": [
   "Move/Alnum.lean"
  ],
  "spec": "position `i` holds pattern byte `i mod n`.",
  "proof": "list extensionality."
 },
 "C16": {
  "model": [
   "Move/Edited.lean"
  ],
  "spec": "`Move/EditedSpec.lean`: the text an editing PICTURE prescribes, defined per symbol from the COBOL rules.",
  "proof": "simulation of the single left-to-right pass with deferred floating insertion; separate lemmas for check protection, floating strings, BLANK WHEN ZERO, CR/DB; inverse theorem for de-editing."
 },
 "C17": {
  "model": [
   "Move/Numeric.lean"
  ],
  "spec": "same units before and after.",
  "proof": "corollaries of C13 plus nibble induction."
 },
 "C18": {
  "model": [
   "Str/Inspect.lean"
  ],
  "spec": "`Str/InspectSpec.lean`: recursive count of non-overlapping occurrences in the BEFORE/AFTER region.",
  "proof": "loop invariant with the mark array."
 },
 "C19": {
  "model": [
   "Str/Inspect.lean"
  ],
  "spec": "recursive replacement specification.",
  "proof": "loop invariant with the mark array."
 },
 "C20": {
  "model": [
   "Str/Inspect.lean"
  ],
  "spec": "first matching table entry decides for each position.",
  "proof": "induction over table and text."
 },
 "C21": {
  "model": [
   "Str/StringStmt.lean"
  ],
  "spec": "concatenation of the delimited senders placed at POINTER.",
  "proof": "induction over senders."
 },
 "C22": {
  "model": [
   "Str/StringStmt.lean"
  ],
  "spec": "recursive splitting at delimiters.",
  "proof": "induction over receivers with an invariant on the offset."
 },
 "C23": {
  "model": [
   "Cmp/Compare.lean"
  ],
  "spec": "lexicographic order after space padding, over the collating table.",
  "proof": "chunk loop reduced to the padded list."
 },
 "C24": {
  "model": [
   "Cmp/Compare.lean"
  ],
  "spec": "byte-wise class predicates.",
  "proof": "case analysis, induction over bytes."
 },
 "C25": {
  "model": [
   "Cmp/Compare.lean"
  ],
  "spec": "lexicographic order over the key list.",
  "proof": "induction over keys; total preorder."
 },
 "C26": {
  "model": [
   "Intr/Date.lean"
  ],
  "spec": "Gregorian calendar: day number by a recursive successor-of-date definition.",
  "proof": "induction over year and month loops."
 },
 "C27": {
  "model": [
   "Intr/Numeric.lean",
   "Intr/Numeric2.lean"
  ],
  "spec": "floor / truncation in ℚ.",
  "proof": "Int division lemmas."
 },
 "C28": {
  "model": [
   "Intr/Text.lean"
  ],
  "spec": "list reverse, map, trim.",
  "proof": "list induction."
 },
 "C29": {
  "model": [
   "Intr/Text.lean",
   "Intr/Date.lean"
  ],
  "spec": "the 100-year window in ℤ.",
  "proof": "arithmetic."
 },
 "C30": {
  "model": [
   "Intr/Select.lean",
   "Intr/Numeric2.lean",
   "Intr/Midrange.lean"
  ],
  "spec": "extremum, position, sum, sorted middle.",
  "proof": "fold invariants; the error of each division is bounded by C07."
 },
 "C31": {
  "model": [
   "Rt/Storage.lean"
  ],
  "spec": "one area per name, zeroed at creation.",
  "proof": "invariant over histories."
 },
 "C32": {
  "model": [
   "Rt/Storage.lean"
  ],
  "spec": "set of live areas.",
  "proof": "invariant over histories."
 },
 "C33": {
  "model": [
   "Rt/Storage.lean"
  ],
  "spec": "list of registered handlers.",
  "proof": "exact characterisation by induction over histories."
 },
 "C34": {
  "model": [
   "Rt/Bits.lean"
  ],
  "spec": "bit-wise Boolean functions.",
  "proof": "extensionality over positions."
 },
 "C35": {
  "model": [
   "Rt/Storage.lean",
   "Cobc/Based.lean"
  ],
  "spec": "interval inclusion; 32-bit arithmetic by `wrap32`.",
  "proof": "omega / wrap lemmas. Null addresses: the last such reference of the list, by induction."
 },
 "C36": {
  "model": [
   "Io/Status.lean"
  ],
  "spec": "observational automaton `Seen`.",
  "proof": "simulation."
 },
 "C37": {
  "model": [
   "Io/Seq.lean",
   "Io/Stream.lean"
  ],
  "spec": "list of records with a read position.",
  "proof": "simulation over histories."
 },
 "C38": {
  "model": [
   "Io/Line.lean"
  ],
  "spec": "list of lines.",
  "proof": "round trip by induction."
 },
 "C39": {
  "model": [
   "Io/Rel.lean"
  ],
  "spec": "`RelSpec`: partial map from record numbers, with a cursor.",
  "proof": "simulation over histories; the byte image of the file is slots of fixed size."
 },
 "C40": {
  "model": [
   "Io/Sort.lean"
  ],
  "spec": "RETURN gives a permutation of the RELEASEd records, sorted by the keys.",
  "proof": "block-structure invariants of the in-memory queues, of the bytes of the temporary files and of the merges."
 },
 "C41": {
  "model": [
   "Rt/Call.lean"
  ],
  "spec": "answer of the loader at the first successful resolution.",
  "proof": "hash-table invariant over histories."
 },
 "C42": {
  "model": [
   "Rt/Call.lean"
  ],
  "spec": "descendants in the call tree.",
  "proof": "tree invariant over histories."
 },
 "C43": {
  "model": [
   "Cobc/Picture.lean"
  ],
  "spec": "`Cobc/PictureSpec.lean`: counts on the expansion of the PICTURE string.",
  "proof": "invariant of the scanner loop, induction over the groups of the string."
 },
 "C44": {
  "model": [
   "Io/Line.lean"
  ],
  "spec": "report as a list of logical pages.",
  "proof": "simulation over histories."
 },
 "C45": {
  "model": [
   "Num/Field.lean"
  ],
  "spec": "overpunch tables.",
  "proof": "case analysis per digit, all lengths."
 },
 "C46": {
  "model": [
   "Num/Compute.lean"
  ],
  "spec": "value of the expression tree in ℚ.",
  "proof": "structural induction with a register-disjointness invariant."
 },
 "C47": {
  "model": [
   "Move/Alnum.lean"
  ],
  "spec": "digits of the integer part.",
  "proof": "list lemmas."
 },
 "C48": {
  "model": [
   "Cobc/Layout.lean"
  ],
  "spec": "intervals of items, disjointness and nesting.",
  "proof": "structural induction over the record description."
 },
 "C49": {
  "model": [
   "Num/FastPath.lean"
  ],
  "spec": "order of ℚ of the operand values (the same specification as C09).",
  "proof": "per-routine theorems composed by case analysis of the routine selection."
 },
 "C50": {
  "model": [
   "Num/FastPath.lean"
  ],
  "spec": "the number held afterwards is the sum/difference.",
  "proof": "per-routine theorems composed by case analysis of the routine selection."
 },
 "C51": {
  "model": [
   "Cobc/Move.lean",
   "Move/Numeric.lean",
   "Move/Alnum.lean"
  ],
  "spec": "`MovedUnits` (the rule proved of the library by C13) for numbers; equality with the library routine's bytes for text.",
  "proof": "case analysis of the code selection; image lemmas for the constants built at compile time.",
  "not": "NATIONAL and edited receivers (always the library), COMP-1/2, subscripted and reference-modified operands."
 },
 "C52": {
  "model": [
   "Rt/Termio.lean",
   "Move/Numeric.lean",
   "Move/Edited.lean"
  ],
  "spec": "`prettyText`, `plainText`, `numvalText`, `digitText`: the characters written directly from the number of units, with `fixedDigits`.",
  "proof": "the temporary PICTURE is shown to satisfy the conditions of C16, and the edited text of that PICTURE is computed position by position; the plain form follows from the alignment lemmas of C13.",
  "not": "COMP-1/COMP-2 (printf of a double), pointers, and the screen."
 },
 "C53": {
  "model": [
   "Rt/Termio.lean",
   "Move/Alnum.lean",
   "Move/Numeric.lean"
  ],
  "spec": "positions of the line (as C14), `Numeral.value` and `MovedUnits` for numbers.",
  "proof": "induction on the line for fgets; C47 and C13 for the conversion; induction on the statements for the sequence.",
  "not": "the screen, ACCEPT FROM DATE/TIME/ENVIRONMENT; lines of 8191 bytes and more (split by the buffer)."
 },
 "C54": {
  "model": [
   "Num/Field.lean",
   "Num/Item.lean",
   "Num/AddInt.lean",
   "Num/FastPath.lean",
   "Move/Numeric.lean",
   "Move/Alnum.lean",
   "Cobc/Move.lean"
  ],
  "spec": "`SameShape`: equality of usage, attributes and length.",
  "proof": "length lemmas for every storing loop; case analysis of the dispatchers.",
  "not": "writes outside an item that the C code might make through pointers are only visible where the model has an explicit failure value (C16_inside, moveDispPacked, C13)."
 },
 "C55": {
  "model": [
   "Cobc/Perform.lean"
  ],
  "spec": "Cobc/PerformSpec.lean: a recursive interpreter of sections, paragraphs and statements without addresses, frames or counters; `Returns`/`Does` in PerformProps.lean",
  "proof": "Step-indexed simulation (PerformSim.lean): by induction on the bound and the statement, every interpreter outcome is matched by steps of the machine that leave the frames below and the counters of the active loops alone; monotonicity in the bound; induction on the number of passes",
  "not": "perform-osvs, SORT/MERGE procedures, USE procedures, ENTRY points, the code variants for compilers without computed goto"
 },
 "C56": {
  "model": [
   "Cobc/Expr.lean"
  ],
  "spec": "Cobc/ExprSpec.lean: syntax trees, their tokens, their values and truth values (`AExp.value`, `CExp.truth`), defined without the parser",
  "proof": "Induction on the syntax (ExprSim.lean): behind the tokens of an expression the stack reduces, for every next token that binds weaker, to the stack in front of it with the tree of the expression on top; the registers hold the last subject and operator",
  "not": "warnings, constant-divisor check, user class names as separate tokens, pointer comparisons"
 },
 "C57": {
  "model": [
   "Cobc/Search.lean: setKeys, buildCmps, evalConj, allLoop, searchAll; pickIndex, serialStep, firstWhen, serialLoop, searchSerial"
  ],
  "spec": "LawfulCmp (a three-way comparison for a linear order), SCond.Holds (truth of the condition as written), LexLe/InOrder (elements in key order), KeyCond (the shape of condition the manual allows), reached (the variables when the index has reached a given occurrence).",
  "proof": "setKeys is characterised per key (setKeys_spec), the generated test is a lexicographic three-way comparison (evalConj_spec), the loop keeps 'nothing below head, nothing from tail on' (allLoop_complete) and halves the distance (allLoop_total); serial search by induction on the distance to the end.",
  "not": "int overflow of head + tail, the comparison functions themselves (C10, C23, C49), subscript checks, conditions with side effects, a DEPENDING ON item changed during the search."
 },
 "C58": {
  "model": [
   "Verif/Intr/Numval.lean"
  ],
  "spec": "Verif/Intr/NumvalProps.lean (textDigits, NumvalText, NumvalCText, shownNumber)",
  "proof": "The loop is shown to be a fold over the characters when neither CR nor DB can start (no C/D letter) and a currency string can only match where it is written; the fold's value, decimals and sign are computed by induction over the text.",
  "not": "The floating-point result for more than 18 digits."
 },
 "C59": {
  "model": [
   "Verif/Num/FastPath.lean (displayGetInt, packedGetInt, getInt, outputInteger)",
   "Verif/Cobc/IntExpr.lean"
  ],
  "spec": "Verif/Cobc/IntExprProps.lean (IntReadable, IntMeans; IsTrunc from Num/DecimalSpec)",
  "proof": "Per usage, the digits read are shown to be those before the decimal point; for expressions, every C type keeps the value modulo 2^32.",
  "not": "Exponentiation (pow), intrinsic functions and pointers in integer expressions."
 },
 "C60": {
  "model": [
   "Cobc/Cond.lean"
  ],
  "spec": "Number / shown / len / TextOk, HasNumber, HasText, FitsExactly (rationals, and character order by first difference after extension with spaces)",
  "proof": "case analysis on the operands and the selection; the library comparison is C23/C09, the specialised numeric routines C49, memcmp by induction; condition-names by induction on the list of values; SET through C51 (inline MOVE) and C13/C14/C15",
  "not": "NATIONAL, pointers, index names, LOW/HIGH-VALUE under a PROGRAM COLLATING SEQUENCE in SET"
 },
 "C61": {
  "model": [
   "Verif.Io.Indexed"
  ],
  "spec": "Verif.Io.IndexedSpec: an abstract file is a partial map from record keys to records with a number per key; IxDoes is a relation with one constructor per statement and outcome, without trees, cursors or saved keys; IxDo chains it; IxLegal are the programs within the rules.",
  "proof": "A simulation relation (IxRel) between the trees and registers and the abstract file is preserved by every statement (IndexedSim, IndexedSim2, IndexedStep); the specification is shown deterministic (IndexedDet); histories by induction.",
  "not": "Berkeley DB itself is trusted (B-tree order, DB_SET_RANGE, DB_DUP insertion order); locking with DB_HOME, I/O errors, concurrent processes, duplicate numbers beyond 2^32, the mode checks (see the connector properties)."
 },
 "C62": {
  "model": [
   "Cobc/Init.lean"
  ],
  "spec": "Cobc/InitSpec.lean: Regular (storage), Occ/Named (the occurrences of the items), Gets (what an item gets, by the phrases), valueIs, defaultIs, Bytes.",
  "proof": "Induction over the item tree with one invariant for a list of items of a group (skip count, ordered offsets): what is outside is unchanged and every occurrence is done; merged memsets by absorb_spec/merge_spec; tables by a lemma on consecutive blocks; the storage hypothesis is proved from C48's layout.",
  "not": "NATIONAL items, CHAINING, EXTERNAL, reference-modified operands, level 01 with OCCURS (an extension), REPLACING operands inside the record."
 },
 "C63": {
  "model": [
   "Cobc/Evaluate.lean"
  ],
  "spec": "Cobc/EvaluateSpec.lean: subjects, objects, cases as written; Matches, Selected, Chosen; hypotheses WF, For, NotsPlain.",
  "proof": "Each test is related to Matches through C56 (the expression compiler); induction over objects, WHENs and cases with the running counter; the chain of IFs picks the first selected case.",
  "not": "Subjects or objects with errors of their own; omitted ALSO (extension); code generation of the statements themselves."
 },
 "C64": {
  "model": [
   "Cobc/Replace.lean"
  ],
  "spec": "Cobc/ReplaceSpec.lean: wordsOf, RRule.Applies, Replaced (inductive, with the text that follows), LosesSeps, Begun.",
  "proof": "Each comparison decides (applies for every continuation / for none / words so far are a proper beginning); induction over the queue and over the pieces; Replaced is composed with replaced_append; uniqueness of the result proved separately.",
  "not": "The flex scanner that cuts the text into pieces, COPY file search, JOINING/PREFIXING phrases, the stack of copied files."
 },
 "C65": {
  "model": [
   "Cobc/Source.lean"
  ],
  "spec": "Cobc/SourceSpec.lean: area, SrcOk, ignored, blankText, Lit (state of literals), visible, contStart, sourceText, layOut, fileOf.",
  "proof": "Each line is simulated (line_ok) with a relation between the static variables and Lit; induction over the file; line numbers by counting newlines in layOut; columns by showing that sourceText only depends on columns 7-72; continued literals by induction over the middle lines.",
  "not": "Comment paragraphs (within_comment), warnings, the scanner's buffer size, tab stops and free format (modelled, no theorem), mfcomment."
 },
 "C66": {
  "model": [
   "Cobc/Source.lean"
  ],
  "spec": "Cobc/SourceIfSpec.lean: DirCond with words and holds, HasWords, DirLine, IfText with lines/selected/depth/Ok, srcLines.",
  "proof": "Runs (line-by-line execution relation) composed along the tree; invariant InPart ties the status and stack of the code to the enclosing conditions; Laid shows that the output depends on the texts only up to empty lines; induction over IfText.",
  "not": "Free format, $SET, the other directives inside conditional parts (see the findings of C65), copied files inside conditional parts."
 },
 "C67": {
  "model": [
   "Move/Text.lean",
   "Move/Alnum.lean"
  ],
  "spec": "Move/TextProps.lean: EditedBy (position by position), LeftAligned, sentText, sentWidth; digitText (C52).",
  "proof": "The loop over (symbol, count) pairs is composed from runs, each run edits its part of the symbols (editText_append); C43_runtime_picture connects the PICTURE string with the pairs; numeric senders go through src_forms (the zoned image of any usage) and image_getSign (taking the sign off and putting it back).",
  "not": "NATIONAL and national-edited receivers, floating-point senders, receivers overlapping the sender."
 },
 "C68": {
  "model": [
   "Cobc/Source.lean"
  ],
  "spec": "Cobc/SourceFreeSpec.lean: untab, rawFile, freeLine, FreeText, AsterText, FormatLine, formatWords; fileOf, sourceText, layOut (C65).",
  "proof": "readChars is shown to expand tabs and to drop CR of CR LF by induction over the line; each line of free format is one step that leaves the state as it is; a directive line is one step from the fixed invariant Between to the free invariant InFree or back; lines before and behind by induction over the lines with explicit fuel.",
  "not": "A lone CR, `>>D` lines with debugging, more than one change of format in one theorem, comment paragraphs."
 },
 "C69": {
  "model": [
   "Cobc/Literal.lean"
  ],
  "spec": "Cobc/LiteralSpec.lean: doubled, DoubleBytes, HexBytes, HexNumber, NumberParts, CText, ConstIn, ConstsIn; Holds (C13).",
  "proof": "Inductions over the text in both directions; lit_holds (C51) for the value of the constant item; CText and ConstIn are shown to determine their results (CText.unique, ConstIn.unique).",
  "not": "Which rule of the scanner matches, NX literals (the same routine), the buffer size of scan_picture, numeric literals of more than 255 digits (the attribute's digits are one byte), locales other than C."
 },
 "C70": {
  "model": [
   "Cobc/Names.lean"
  ],
  "spec": "Cobc/NamesSpec.lean: ownerOf, LevelOk, contents, records, IsLevel, Entries, all over the list of level numbers.",
  "proof": "Invariant over the entries: parent pointers equal ownerOf, child and sister pointers run through contents; chain lemmas say that the parents of the last item are exactly the items after which everything is deeper.",
  "not": "Overflow of the level number in int, properties inherited from the parent, the redefinition warning, storage sections, sections after a rejected entry."
 },
 "C71": {
  "model": [
   "Cobc/Refs.lean",
   "Cobc/RefsWords.lean"
  ],
  "spec": "Cobc/RefsSpec.lean: SameName, Surrounded, groupNames, FileWord, FitsQuals, Meant, MeantGlobal, containing, firstMeant.",
  "proof": "Greedy matching of qualifiers along the groups equals the existence of a matching (Surrounded); the scan over the definitions is characterised by the list of fitting ones; induction over the containing programs; invariant of the hash table over any history of lookups.",
  "not": "flag_invalid, reference counts, the cached value of a reference, the lexical rules of the scanner."
 },
 "C72": {
  "model": [
   "Cobc/Corr.lean"
  ],
  "spec": "Cobc/CorrSpec.lean: PartOf, IsGroup, Reach, NamesDiffer, LaidOut, Corresponds, over level numbers and names.",
  "proof": "Induction over the depth of the tree with the walks of C70; items of a part come before the next part by the level numbers; names lead to one item; targets of two statements are never nested; frame argument for the sequence of statements.",
  "not": "Subscripts and the emitted statements themselves (MOVE: C13, arithmetic: C20), overlapping groups."
 },
 "C73": {
  "model": [
   "Move/National.lean"
  ],
  "spec": "Move/NationalSpec.lean: jisCell, sjisBytes, halfChar, fullForm, soundMark, widened, natFitted, NatEditedBy: rows and cells of JIS X 0208, written from the standard with characters, not from the tables of the code.",
  "proof": "Induction over the text with the byte before as state: the output for a letter stands until the next byte shows whether it is a sound mark; the tables are checked for all 256 bytes; a decoder shows faithfulness.",
  "not": "The UTF-8 build; texts with LOW-VALUE or HIGH-VALUE inside (only the size theorem covers them); hankaku_move."
 },
 "C74": {
  "model": [
   "Cobc/Use.lean"
  ],
  "spec": "Cobc/UseSpec.lean: status classes of the phrases, LastSuch/FirstSuch statement of a program, Contains (nesting read off the level numbers), GlobalFor, globalUses (the USE GLOBAL entries in text order).",
  "proof": "The 100 statuses are checked by the kernel; the USE lists by induction over statements and programs; the shared list as a heap of cells with an invariant for a partly reversed list.",
  "not": "USE FOR DEBUGGING and USE AT PROGRAM START, several outermost programs in one source file for C74_global_files, COB_USERFH."
 },
 "C75": {
  "model": [
   "Cobc/Check.lean"
  ],
  "spec": "Cobc/CheckSpec.lean: CanHold (the numbers of n positions and a scale, as rationals), PicShape (the three kinds of picture proved in C43), InBytes (range of a binary item), MoveAllowed (the table of the standard).",
  "proof": "The loops over the literal's figures are characterised by leading/trailing zeros and related to the rational value; the range checks of the binary sizes by the value of the digits against the powers of two; the pairs of categories by cases.",
  "not": "Receivers that are pointers, files, alphabet or condition names, reference modification, items of variable size, senders that are expressions, functions or registers; whether the options print a warning that the check gives."
 },
 "C76": {
  "model": [
   "Io/SortStmt.lean"
  ],
  "spec": "Io/SortStmtSpec.lean: FileHas (what a program reads from a file: the answers of READ statements), fitTo (a record in an area of another length), GivingOk and HoldsBytes (the file can be written); SortedReleases of C40 for the order.",
  "proof": "The USING loop is a run of READ and RELEASE, the GIVING loop a run of RETURN and WRITE (inductions), then C40_sort, C37_read_back and C38_round_trip.",
  "not": "RELATIVE and INDEXED files, special files, LINAGE, files that exist but cannot be opened, errors of the temporary files, SAME RECORD AREA."
 },
 "C77": {
  "model": [
   "Rt/Env"
  ],
  "spec": "Rt/EnvSpec: assignments of a history, valueNow, received",
  "proof": "refinement of the environ strings to a list of variables by induction over the history",
  "not": "numeric and national receivers of the texts; getenv and setenv are the C library's as described in the model; memory exhaustion"
 },
 "C78": {
  "model": [
   "Io/FileName"
  ],
  "spec": "Io/FileNameSpec: located, nameWritten/meant, Logical, Uncoded",
  "proof": "induction over the pieces of the name; case analysis of the variables",
  "not": "overflow of the 1024 byte buffers by longer names (excluded by the length hypotheses); characters from 128 on in isalnum (C locale); the EXTFH builds"
 },
 "C79": {
  "model": [
   "Rt/CallArgs"
  ],
  "spec": "Rt/CallArgsSpec: Lent (the bytes of BY REFERENCE items), SizesFit, Sees, NativeHolds/NativeRange (two's complement), Readable, lastGiven, lastSize, argLength.",
  "proof": "The objects of C are separate lists of bytes; induction over the steps of an arbitrary called program with the invariant that a parameter in the caller's storage is a BY REFERENCE item; index lemmas for the set-up of the unions and the entry function; the number passed from C49's reading of items as C integers; induction over the calls for sticky linkage and ANY LENGTH.",
  "not": "ADDRESS OF, pointers and files as arguments; RETURNING; widths that differ between caller and called program (undefined in C); the called program is confined to its parameters."
 },
 "C80": {
  "model": [
   "Num/Arith.lean"
  ],
  "spec": "Num/ArithSpec.lean: Stmt.result gives the number each receiver should get from the initial values, in the rationals, format by format; Units, HasRoom, Exceeds and Protected say what can be stored and when a receiver is protected.",
  "proof": "Generic invariant of the loop over the receivers (each_spec), one lemma for each of the three ways of execution (store_all, op_all, one_all) built on C05/C04 (stores), C06/C07 (decimal arithmetic), C46 (registers), C10/C11/C50 (integer routines).",
  "not": "Receivers that are numeric-edited, floating point, index or pointer items; exponentiation; divisions inside a COMPUTE expression other than the last operation; overlapping receivers; items with P in the PICTURE."
 },
 "C81": {
  "model": [
   "Rt/Life.lean"
  ],
  "spec": "Rt/LifeSpec.lean: an ideal machine with a stack of activations and for each program storage in the last-used state or none; conditions on histories (no CANCEL of active programs, no recursion).",
  "proof": "Simulation relation between the run and the ideal run, preserved by each event; the chain of module.next has at least as many members as there are activations (Walk), which gives the registration for CANCEL; Linked for the module stack; induction over the events of a call for C81_call_returns.",
  "not": "Contained programs, EXTERNAL and BASED items, GLOBAL LOCAL-STORAGE items, parameters (C79), name resolution and the call table (C28), STOP RUN, the files' contents (C14-C19)."
 },
 "C82": {
  "model": [
   "Rt/CblFile.lean"
  ],
  "spec": "Rt/CblFileSpec.lean: a file is the list of the writes since it was last emptied; the byte at a position is that of the last write covering it. Names, handles, sizes and results follow from this.",
  "proof": "A relation between contents and histories (length = size, every byte = byteAt), kept by every call; the copy loop by induction over the rest of the source; run by induction over the history.",
  "not": "directories, special files, locks, reads that return less than there is, the other descriptors of the process, the check of the number of parameters, CBL_FLUSH_FILE (does nothing), the C$ routines"
 },
 "C83": {
  "model": [
   "Rt/Clock.lean"
  ],
  "spec": "Rt/ClockSpec.lean: LibcOk (what is assumed of localtime and mktime), Reads (digits that denote a number), RightAnswer (the answer for a day and time of day, by INTEGER-OF-DATE), DateWritten.",
  "proof": "Every question is answered rightly from a struct tm of the right day; cob_localtime changes only the time of day, so the job date keeps describing its day; induction over the history.",
  "not": "leap seconds, the offset from Greenwich in CURRENT-DATE (only its sign character), instants before 1970, the Windows branches, warnings on stderr, numbers in COB_DATE beyond the int range"
 },
 "C84": {
  "model": [
   "Intr/Text.lean",
   "Rt/Clock.lean"
  ],
  "spec": "Date, ValidDay of C26; the answers of C83.",
  "proof": "C29 and C83, linear arithmetic.",
  "not": "as C29 and C83"
 },
 "C85": {
  "model": [
   "Intr/Window.lean"
  ],
  "spec": "At and Found in Intr/FormattedTime.lean.",
  "proof": "The loop is split into three independent searches; each finds the first position by induction over the format.",
  "not": "-"
 },
 "C86": {
  "model": [
   "Cobc/WordsTable.lean",
   "Cobc/Words.lean"
  ],
  "spec": "Same (equal up to case), IsReserved, IsFunction, Out, IsToken, IsFree, Free, Stands",
  "proof": "halving search proved right for every increasing table; order of the two tables evaluated by the kernel; then case analysis",
  "not": "the tokens of the grammar themselves; the words that other rules of the scanner read (PROGRAM-ID, WHEN OTHER and the like); words with Japanese characters (C71)"
 },
 "C87": {
  "model": [
   "Cobc/ConfTable.lean",
   "Cobc/Conf.lean"
  ],
  "spec": "Splits, Skipped, Quoted, named, supports, Means, IsText, Reads, lastSet, words",
  "proof": "induction over the lines and the depth of includes; the table is generated from config.def",
  "not": "what the settings do; the texts of the messages; errors while reading an open file"
 },
 "C88": {
  "model": [
   "Rt/Small.lean"
  ],
  "spec": "Between, Justified, Runs (stack of active programs), lastCount",
  "proof": "invariant over histories: every active caller still holds the arguments of the program it called",
  "not": "recursive calls; how the C calling convention passes the data; C$SLEEP, CBL_OC_NANOSLEEP, C$GETPID"
 },
 "C89": {
  "model": [
   "Intr/Stat.lean"
  ],
  "spec": "Intr/StatProps.lean: average, variance (over the rationals), Hold",
  "proof": "the sum of squares around any point is that around the mean plus n times the square of the distance; exactness of add, sub and mul of decimals (C06), truncation of division (C07), storing into binary items (C05)",
  "not": "MIDRANGE, STANDARD-DEVIATION, PRESENT-VALUE and the other functions with floating point results; the generator of the C library itself is a parameter; the I18N_UTF8 branch of STORED-CHAR-LENGTH"
 },
 "C90": {
  "model": [
   "Rt/ExcTable.lean",
   "Rt/Exc.lean"
  ],
  "spec": "Rt/ExcProps.lean: now, lastFile, begun, culprit over histories read backwards; locText, In31",
  "proof": "invariant over the history; the table by the kernel (codes and names are distinct, no name is longer than 31)",
  "not": "which statement raises which exception (C04, C21, C22, C36, C74); exceptions set by a user file handler (COB_USERFH); SORT setting the status of a sort file without save_status"
 },
 "C91": {
  "model": [
   "Io/Lock.lean"
  ],
  "spec": "Io/LockMain.lean: Holds, Names, SameFile, keeps, Uses, Alone",
  "proof": "invariant over all interleavings (Io/LockProps.lean: Inv ties the lock table to the connectors and says all entries are compatible)",
  "not": "the lock manager of Berkeley DB is trusted to grant a lock exactly if no other locker holds a conflicting one; the contents of records (C61); fcntl locks of the other organizations; COB_READ_WAIT_LOCK waiting; OPEN that fails after the lock is granted; deadlock"
 },
 "C92": {
  "model": [
   "Io/FLock.lean"
  ],
  "spec": "Io/FLockProps.lean: OneEach, NoUnlock, Reachable, IsOpen, Rivals, NoOther, writtenBy, putBy",
  "proof": "invariant over all interleavings (Io/FLockProps.lean: Inv ties the lock table to the open connectors)",
  "not": "the operating system is trusted to do what POSIX says about fcntl locks and the C library about buffers; names of devices (/dev/) are not locked; processes that end without CLOSE; files that do not exist or may not be used; INDEXED files (C91)"
 },
 "C93": {
  "model": [
   "Cobc/Alphabet.lean"
  ],
  "spec": "Cobc/AlphabetProps.lean: code, positions, listed, Valid, Upward, Place, unlistedBelow, Belongs, Definite",
  "proof": "induction over the entries (Cobc/AlphabetProps.lean: Good ties the state of the check to the characters listed so far; Cobc/AlphabetMain.lean: the table, LOW-VALUE, HIGH-VALUE, CLASS)",
  "not": "predefined alphabets (NATIVE, STANDARD-1/2, EBCDIC); the comparison that uses the table (C14); LOW-VALUE and HIGH-VALUE in a CLASS clause"
 },
 "C94": {
  "model": [
   "Rt/TabSort.lean",
   "Cmp/Compare.lean"
  ],
  "spec": "Rt/TabSortProps.lean: element, Has, inElement, prescribed, Done",
  "proof": "the comparison is a total preorder (C25), so that the contract of qsort applies; uniqueness of ordered permutations",
  "not": "qsort itself (its contract in the C standard is an assumption, Qsort); keys that the runtime looks for behind the end of the element; NATIONAL keys; tables inside tables; a DEPENDING item with a value below 0 or above the maximum"
 },
 "C95": {
  "model": [
   "Cobc/Redef.lean",
   "Cobc/Layout.lean"
  ],
  "spec": "Cobc/RedefProps.lean: Same, IsRedef, NamesEntry, Proper, Apart",
  "proof": "invariant of the entries read so far (RInv: the redefined entry of every entry is no redefinition), induction over the entries",
  "not": "REDEFINES at level 01 and 77, where the name is looked up as any other (C71); names with multi-byte characters; OCCURS DEPENDING in redefinitions (refused); SYNCHRONIZED; level 66"
 },
 "C96": {
  "model": [
   "Cobc/Renames.lean"
  ],
  "spec": "Before (order in the source text by child numbers, the later not a redefinition) and Under (subordinate) on paths; layouts and Plain of C48",
  "proof": "every entry of a layout is itself a placed entry (induction on the path), so C48 holds at every level; then interval arithmetic",
  "not": "name lookup; pointers and floating-point items"
 },
 "C97": {
  "model": [
   "Rt/Switch.lean",
   "Rt/Bits.lean"
  ],
  "spec": "Sets (a statement sets switch k), Last (the last such statement), SwitchName, Means, CondFor written without the lookup functions of the model",
  "proof": "the state after a statement as a predicate on switch numbers, by induction on the list of names and on the history; the system-name table by a general lemma on searches in a table without duplicates",
  "not": "lookup of mnemonic names (C71); the interface names ARGUMENT-NUMBER etc."
 },
 "C98": {
  "model": [
   "Cobc/Odo.lean",
   "Cobc/Layout.lean"
  ],
  "spec": "Ends: inductive relation between the record with max and the same record with n occurrences at the end",
  "proof": "induction on the path to the table with the loop of compute_size for an appended last entry; interval arithmetic from C48/C96 for the rest",
  "not": "GLOBAL records, position of the counter, nested groups with complex-odo"
 },
 "C99": {
  "model": [
   "Io/StopRun.lean",
   "Io/Status.lean"
  ],
  "spec": "after: the state of a file from its own statements alone (C36); IsOpen; the order and the list of files of the run time do not occur in the statement",
  "proof": "invariant of the file list (no duplicates, contains every open file), stream invariant, induction on the list for the closing loop",
  "not": "exit procedures, screens, text of the message, user file handlers, ISAM"
 },
 "C100": {
  "model": [
   "Io/Commit.lean",
   "Io/StopRun.lean",
   "Io/FLock.lean"
  ],
  "spec": "IsOpen and after of C36/C99 for the files of a run unit; IsOpen and writtenBy of C92 for processes; the list of the run time does not occur in C100_commit",
  "proof": "the invariant of C99 for the list; induction on the list with the exact effect of one unlock on connectors, locks and changes of files",
  "not": "INDEXED files, user file handlers, VBISAM"
 }
}