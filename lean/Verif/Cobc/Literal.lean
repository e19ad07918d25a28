import Verif.Cobc.Move
/-
Model of the reading of literals and PICTURE strings in the scanner (cobc/scanner.l:790-1060), of the concatenation of
literals (cobc/tree.c:1097-1155) and of the writing of literals to the C program (cobc/codegen.c:293-320).

Bytes are numbers.  Built without I18N_UTF8, in the C locale.  Not modelled: the buffer of `scan_picture` (COB_SMALL_BUFF, not
checked), warnings, source locations, and which rule of the scanner matches.
-/
namespace Cob

/-- A literal that is not numeric; `national`: CB_CATEGORY_NATIONAL. -/
structure TextLit where
  data : List Nat
  national : Bool
  deriving DecidableEq

/-- cobc/scanner.l:803-814: the loop of `read_literal`: the text and what is left of the input. -/
def readMarked (mark : Nat) : List Nat → List Nat × List Nat
  | [] => ([], [])
  | c :: rest =>
    if c = mark then
      match rest with
      | d :: rest' => if d = mark then (c :: (readMarked mark rest').1, (readMarked mark rest').2) else ([], d :: rest')
      | [] => ([], [])
    else (c :: (readMarked mark rest).1, (readMarked mark rest).2)

/-- cobc/scanner.l:834-844: the test of one pair of bytes. -/
def isDouble (a b : Nat) : Bool :=
  ((0x81 ≤ a && a ≤ 0x9F) || (0xE0 ≤ a && a ≤ 0xFC)) && ((0x40 ≤ b && b ≤ 0x7E) || (0x80 ≤ b && b ≤ 0xFC))

/-- cobc/scanner.l:831-845: the loop over the pairs. -/
def allDouble : List Nat → Bool
  | [] => true
  | [_] => false
  | a :: b :: t => isDouble a b && allDouble t

/-- cobc/scanner.l:793-860 `read_literal`: the literal behind its first quotation mark; an empty one is a space. -/
def readLiteral (mark : Nat) (input : List Nat) : TextLit × List Nat :=
  let r := readMarked mark input
  let d := if r.1 = [] then [32] else r.1
  (⟨d, decide (d ≠ []) && allDouble d⟩, r.2)

/-- `toupper` in the C locale. -/
def upperC (c : Nat) : Nat := if 97 ≤ c ∧ c ≤ 122 then c - 32 else c

/-- `isalnum` in the C locale. -/
def isAlnumL (c : Nat) : Bool := (48 ≤ c && c ≤ 57) || (65 ≤ c && c ≤ 90) || (97 ≤ c && c ≤ 122)

/-- cobc/scanner.l:883-890, 923-930: the value of a hexadecimal digit. -/
def hexVal (c : Nat) : Option Nat :=
  let u := upperC c
  if 48 ≤ u ∧ u ≤ 57 then some (u - 48) else if 65 ≤ u ∧ u ≤ 70 then some (u - 65 + 10) else none

/-- cobc/scanner.l:881-901: the loop of `scan_x`.  `high`: the first digit of a pair.  `none`: an error. -/
def scanXLoop : (high : Option Nat) → List Nat → Option (List Nat)
  | h, [] => if h = none then some [] else none
  | h, c :: t =>
    if isAlnumL c then
      match hexVal c with
      | none => none
      | some v =>
        match h with
        | none => scanXLoop (some v) t
        | some u => (scanXLoop none t).map ((u * 16 + v) :: ·)
    else if h = none then some [] else none

/-- cobc/scanner.l:862-912 `scan_x`; the text is what stands behind the first mark, with the second one. -/
def scanX (text : List Nat) : Option TextLit := (scanXLoop none text).map (⟨·, false⟩)

/-- A C `long long` (on overflow: as the compilers do it). -/
def wrapLL (n : Int) : Int := (n + 2 ^ 63) % 2 ^ 64 - 2 ^ 63

/-- cobc/scanner.l:922-934: the loop of `scan_h`. -/
def scanHLoop : Int → List Nat → Option Int
  | v, [] => some v
  | v, c :: t =>
    if c = 39 ∨ c = 34 then some v
    else
      match hexVal c with
      | none => none
      | some d => scanHLoop (wrapLL (v * 16 + d)) t

/-- The decimal digits of a number below `10 ^ fuel`. -/
def printNat : (fuel : Nat) → Nat → List Nat
  | 0, _ => []
  | fuel + 1, n => if n < 10 then [48 + n] else printNat fuel (n / 10) ++ [48 + n % 10]

/-- `sprintf (buff, "%lld", val)`. -/
def printLL (v : Int) : List Nat := (if v < 0 then [45] else []) ++ printNat 20 v.natAbs

/-- cobc/scanner.l:914-948 `scan_h`. -/
def scanH (text : List Nat) : Option NumLit := (scanHLoop 0 text).map fun v => ⟨printLL v, 0, 0⟩

/-- A C `signed char`. -/
def wrapSC (n : Int) : Int := (n + 128) % 256 - 128

/-- cobc/scanner.l:950-985 `scan_numeric` and cobc/tree.c:1075-1083 (the scale is a signed char).  `none`: an error. -/
def scanNumeric (point : Nat) (text : List Nat) : Option NumLit :=
  let sign : Int := if text.head? = some 43 then 1 else if text.head? = some 45 then -1 else 0
  let t := if sign = 0 then text else text.drop 1
  let before := t.takeWhile (· != point)
  let s := t.drop before.length
  let scale := s.length - 1
  let d := before ++ s.drop 1
  if d.contains 46 || d.contains 44 then none else some ⟨d, sign, wrapSC scale⟩

/-- The figurative constants as operands of `&`. -/
inductive CatFig where
  | space | zero | quote | low | high | null
  deriving DecidableEq

/-- An operand of `&`. -/
inductive CatOp where
  | lit (data : List Nat)
  | fig (f : CatFig)
  deriving DecidableEq

/-- cobc/tree.c:1108-1150: the text of an operand.  (The text for HIGH-VALUE is written "\255".) -/
def CatOp.data : CatOp → List Nat
  | .lit d => d
  | .fig .space => [32]
  | .fig .zero => [48]
  | .fig .quote => [34]
  | .fig .low => [0]
  | .fig .high => [0o255]
  | .fig .null => [0]

/-- cobc/tree.c:1097-1155 `cb_concat_literals`. -/
def concatLiterals (a b : CatOp) : TextLit := ⟨a.data ++ b.data, false⟩

/-- `isprint` in the C locale. -/
def isPrintC (c : Nat) : Bool := 32 ≤ c && c ≤ 126

/-- cobc/codegen.c:293-320 `output_string`. -/
def outputString (s : List Nat) : List Nat :=
  let printable := s.all isPrintC
  34 :: (s.flatMap fun c =>
    if printable then (if c = 34 ∨ c = 92 then [92, c] else [c])
    else [92, 48 + c / 64, 48 + c / 8 % 8, 48 + c % 8]) ++ [34]

/-- A character of a word: `isalnum`, `-` or `_` (cobc/scanner.l:993-1002). -/
def isWordC (c : Nat) : Bool := isAlnumL c || c == 45 || c == 95

/-- `strncasecmp (a, b, strlen (b)) == 0` where `b` has no NUL byte. -/
def beginsNoCase : List Nat → List Nat → Bool
  | _, [] => true
  | [], _ :: _ => false
  | a :: t, b :: u => upperC a == upperC b && beginsNoCase t u

/-- cobc/scanner.l:987-1006 `can_replace`.  `prev`: the character in front, if there is one. -/
def canReplace (prev : Option Nat) (t name : List Nat) : Bool :=
  beginsNoCase t name && !((t.drop name.length).head?.any isWordC) && !(prev.any isWordC)

/-- cobc/scanner.l:1042-1051: one constant of level 78 in the PICTURE string. -/
def substPic (name value : List Nat) : (fuel : Nat) → (prev : Option Nat) → List Nat → List Nat
  | 0, _, _ => []
  | _ + 1, _, [] => []
  | fuel + 1, prev, c :: t =>
    if canReplace prev (c :: t) name then
      value ++ substPic name value fuel ((c :: t).take name.length).getLast? ((c :: t).drop name.length)
    else c :: substPic name value fuel (some c) t

/-- cobc/scanner.l:1008-1060 `scan_picture`: the PICTURE string for `cb_build_picture`, and the `.` or `,` given back.  The
constants in the order of `lev78ptr`, the latest first. -/
def scanPicture (consts : List (List Nat × List Nat)) (text : List Nat) : List Nat × Option Nat :=
  let back := if text.getLast? = some 46 ∨ text.getLast? = some 44 then text.getLast? else none
  let t := (if back = none then text else text.dropLast).map upperC
  (consts.foldl (fun b c => substPic c.1 c.2 (b.length + 1) none b) t, back)

end Cob
