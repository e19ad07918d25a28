import Verif.Cobc.WordsTable
/-
Model of how the compiler tells words apart: the search in its tables (/repo/cobc/reserved.c) and the rule for words of the scanner
(/repo/cobc/scanner.l:557-687).  A word is its characters; words with Japanese characters have become plain ones before (`cb_get_hexword`, C71).
-/
namespace Cob.Words

/-- `tolower` of a byte in the C locale. -/
def lower (c : Nat) : Nat := if 65 ≤ c ∧ c ≤ 90 then c + 32 else c

/-- `strcasecmp` of texts without NUL: which is smaller at the first difference. -/
def casecmp : List Nat → List Nat → Ordering
  | [], [] => .eq
  | [], _ :: _ => .lt
  | _ :: _, [] => .gt
  | a :: s, b :: t => if lower a < lower b then .lt else if lower b < lower a then .gt else casecmp s t

/-- `bsearch` of the C library over the entries `l` to `u - 1`; `cmp i` compares the key with entry `i`.  `fuel` bounds the recursion; `u - l` is enough. -/
def bsearchGo (cmp : Nat → Ordering) : (fuel l u : Nat) → Option Nat
  | 0, _, _ => none
  | fuel + 1, l, u =>
    if l < u then
      let idx := (l + u) / 2
      match cmp idx with
      | .lt => bsearchGo cmp fuel l idx
      | .gt => bsearchGo cmp fuel (idx + 1) u
      | .eq => some idx
    else none

/-- /repo/cobc/reserved.c:909-919 `reserve_comp`, `intrinsic_comp` and the calls of `bsearch` (940, 970). -/
def bsearch (names : List (List Nat)) (word : List Nat) : Option Nat :=
  bsearchGo (fun i => casecmp word (names.getD i [])) names.length 0 names.length

/-- /repo/cobc/reserved.c:945-949 and 965-969: the words that `not-reserved:` lines of the configuration took out. -/
def takenOut (nores : List (List Nat)) (word : List Nat) : Bool := nores.any fun w => casecmp word w == .eq

/-- What `lookup_reserved_word` found: a token, nothing (0), or nothing with the error "reserved word, but not supported yet". -/
inductive Lookup where
  | token (t : String)
  | none
  | unsupported
deriving DecidableEq

/-- /repo/cobc/reserved.c:934-955 `lookup_reserved_word`. -/
def lookupReserved (nores : List (List Nat)) (word : List Nat) : Lookup :=
  match bsearch (reservedWords.map (·.name)) word with
  | none => .none
  | some i =>
    if takenOut nores word then .none
    else
      match (reservedWords[i]?).bind (·.token) with
      | some t => .token t
      | none => .unsupported

/-- /repo/cobc/reserved.c:957-977 `lookup_intrinsic` with `checkres`. -/
def lookupIntrinsic (checkres : Bool) (nores : List (List Nat)) (word : List Nat) : Option Function :=
  if checkres ∧ takenOut nores word then none
  else
    match (bsearch (functionList.map (·.name)) word).bind (functionList[·]?) with
    | some f => if f.implemented then some f else none
    | none => none

/-- What the scanner knows when it meets a word. -/
structure Ctx where
  /-- in the PROCEDURE DIVISION, with REPOSITORY FUNCTION ALL INTRINSIC -/
  allFunctions : Bool := false
  nores : List (List Nat) := []
  /-- the constants (level 78), the last defined first -/
  constants : List (List Nat × Nat) := []
  /-- where a constant may not stand (`non_const_word`: behind the name of a data item being described) -/
  noConstant : Bool := false
  /-- behind PROGRAM-ID and END PROGRAM -/
  forcePid : Bool := false
  programStatus : Bool := false
  sortStatus : Bool := false
  classNames : List (List Nat) := []
  /-- the words that are defined (first) as system names -/
  mnemonics : List (List Nat) := []

/-- The kinds of words that the grammar tells apart. -/
inductive Word where
  | function (f : Function)
  | token (t : String)
  | constant (value : Nat)
  /-- a constant where none may stand: "CONSTANT (78 level) may not be used here" -/
  | refusedConstant
  | programName (name : List Nat)
  | className (name : List Nat)
  | mnemonic (name : List Nat)
  | user (name : List Nat)
deriving DecidableEq

/-- PROGRAM-STATUS -/
def sProgramStatus : List Nat := [80, 82, 79, 71, 82, 65, 77, 45, 83, 84, 65, 84, 85, 83]
/-- RETURN-CODE -/
def sReturnCode : List Nat := [82, 69, 84, 85, 82, 78, 45, 67, 79, 68, 69]
/-- SORT-STATUS -/
def sSortStatus : List Nat := [83, 79, 82, 84, 45, 83, 84, 65, 84, 85, 83]
/-- SORT-RETURN -/
def sSortReturn : List Nat := [83, 79, 82, 84, 45, 82, 69, 84, 85, 82, 78]

/-- /repo/cobc/scanner.l:648-657: two register names stand for others. -/
def standsFor (c : Ctx) (w : List Nat) : List Nat :=
  if c.programStatus ∧ casecmp w sProgramStatus = .eq then sReturnCode
  else if c.sortStatus ∧ casecmp w sSortStatus = .eq then sSortReturn
  else w

/-- /repo/cobc/scanner.l:638-687: words that are in none of the tables.  The class-name test sees the text as written, the test for system names the
word it stands for. -/
def userWord (c : Ctx) (w : List Nat) : Word :=
  if c.forcePid then .programName w
  else if c.classNames.any (fun n => casecmp n w == .eq) then .className w
  else if c.mnemonics.any (fun n => casecmp n (standsFor c w) == .eq) then .mnemonic (standsFor c w)
  else .user (standsFor c w)

/-- /repo/cobc/scanner.l:572-687: what a word is, and whether there is the error "reserved word, but not supported yet". -/
def classify (c : Ctx) (w : List Nat) : Word × Bool :=
  match (if c.allFunctions then lookupIntrinsic true c.nores w else none) with
  | some f => (.function f, false)
  | none =>
    match lookupReserved c.nores w with
    | .token t => (.token t, false)
    | r =>
      match c.constants.find? (fun p => casecmp w p.1 == .eq) with
      | some p => (if c.noConstant then .refusedConstant else .constant p.2, r == .unsupported)
      | none => (userWord c w, r == .unsupported)

end Cob.Words
