import Verif.Cobc.ConfTable
/-
Model of how the compiler reads a configuration file (`-std=`, `-conf=`): /repo/cobc/config.c:81-369.
-/
namespace Cob.Conf

/-- The characters of a text. -/
def str (s : String) : List Nat := s.toList.map Char.toNat

/-- The value of a setting: a number (INT, BOOLEAN), a text, a character, or one of the names of an enumeration. -/
inductive Val where
  | int (n : Int)
  | text (s : List Nat)
  | char (c : Nat)
  | choice (name : String)
deriving DecidableEq

/-- The messages of /repo/cobc/config.c. -/
inductive Kind where
  | cannotOpen | invalidLine | unknownTag | invalidValue | unsupported | noDefinition
deriving DecidableEq

/-- A message: the file as it was named, the line (0 for those without), and what it says. -/
structure Msg where
  file : List Nat
  line : Nat
  kind : Kind
deriving DecidableEq

/-- The settings (`var`), which of them have got a value (`val`), the words taken out (`norestab`) and the messages so far. -/
structure St where
  vals : List Nat → Option Val := fun _ => none
  isSet : List Nat → Bool := fun _ => false
  nores : List (List Nat) := []
  msgs : List Msg := []

def St.say (s : St) (file : List Nat) (line : Nat) (k : Kind) : St := { s with msgs := s.msgs ++ [⟨file, line, k⟩] }

/-- `f` with `v` at `k` -/
def put {α : Type} (f : List Nat → α) (k : List Nat) (v : α) : List Nat → α := fun x => if x = k then v else f x

/-- /repo/cobc/config.c:81-96 `read_string`. -/
def readString (text : List Nat) : List Nat :=
  (if text.head? = some 34 then text.drop 1 else text).takeWhile (· ≠ 34)

/-- " \t:=" -/
def isSep (c : Nat) : Bool := c = 32 || c = 9 || c = 58 || c = 61
/-- " \t\r\n" -/
def isTrail (c : Nat) : Bool := c = 32 || c = 9 || c = 13 || c = 10
/-- `isgraph` in the C locale -/
def isGraph (c : Nat) : Bool := 33 ≤ c && c ≤ 126
/-- `isdigit` -/
def isDigit (c : Nat) : Bool := 48 ≤ c && c ≤ 57
/-- `isspace` -/
def isSpace (c : Nat) : Bool := c = 32 || (9 ≤ c && c ≤ 13)

/-- A number of 32 bits with sign, from the low bits of a greater one. -/
def int32 (x : Int) : Int := (x + 2 ^ 31) % 2 ^ 32 - 2 ^ 31

/-- The number that digits say. -/
def decimal (ds : List Nat) : Nat := ds.foldl (fun a c => 10 * a + (c - 48)) 0

/-- `atoi` of the C library: `strtol` cut to an int. -/
def atoi (s : List Nat) : Int :=
  let s := s.dropWhile isSpace
  let neg := s.head? = some 45
  let s := if s.head? = some 45 ∨ s.head? = some 43 then s.drop 1 else s
  let n : Int := decimal (s.takeWhile isDigit)
  int32 (if neg then max (-n) (-(2 ^ 63)) else min n (2 ^ 63 - 1))

/-- A good value; a bad one. -/
def good (v : Val) : Option Val × Option Kind := (some v, none)
def bad : Option Val × Option Kind := (none, some .invalidValue)

/-- /repo/cobc/config.c:212-268: the settings with names of their own for values.  What is assigned, and what is said. -/
def anyValue (name val : List Nat) : Option Val × Option Kind :=
  if name = str "assign-clause" then
    if val = str "cobol2002" then (none, some .unsupported)
    else if val = str "mf" then good (.choice "CB_ASSIGN_MF")
    else if val = str "ibm" then good (.choice "CB_ASSIGN_IBM")
    else if val = str "jph1" then good (.choice "CB_ASSIGN_JPH1")
    else bad
  else if name = str "binary-size" then
    if val = str "2-4-8" then good (.choice "CB_BINARY_SIZE_2_4_8")
    else if val = str "1-2-4-8" then good (.choice "CB_BINARY_SIZE_1_2_4_8")
    else if val = str "1--8" then good (.choice "CB_BINARY_SIZE_1__8")
    else bad
  else if name = str "binary-byteorder" then
    if val = str "native" then good (.choice "CB_BYTEORDER_NATIVE")
    else if val = str "big-endian" then good (.choice "CB_BYTEORDER_BIG_ENDIAN")
    else bad
  else if name = str "abort-on-io-exception" then
    if val = str "any" then good (.choice "CB_ABORT_ON_IO_ANY")
    else if val = str "fatal" then good (.choice "CB_ABORT_ON_IO_FATAL")
    else if val = str "never" then good (.choice "CB_ABORT_ON_IO_NEVER")
    else bad
  else if name = str "default-organization" then
    if val = str "record-sequential" then good (.choice "CB_ORG_RECORD_SEQUENTIAL")
    else if val = str "line-sequential" then good (.choice "CB_ORG_LINE_SEQUENTIAL")
    else bad
  else (none, none)

/-- /repo/cobc/config.c:207-342: a value of a setting other than `include` and `not-reserved`. -/
def parse (e : Entry) (val : List Nat) : Option Val × Option Kind :=
  match e.ty with
  | .any => anyValue e.name val
  | .int => (some (.int (atoi val)), if val.all isDigit then none else some .invalidValue)
  | .str => good (.text (readString val))
  | .chr =>
    match val with
    | [c] => good (.char c)
    | _ => bad
  | .bool =>
    if val = str "yes" then good (.int 1)
    else if val = str "no" then good (.int 0)
    else bad
  | .support =>
    if val = str "ok" then good (.choice "CB_OK")
    else if val = str "warning" then good (.choice "CB_WARNING")
    else if val = str "archaic" then good (.choice "CB_ARCHAIC")
    else if val = str "obsolete" then good (.choice "CB_OBSOLETE")
    else if val = str "skip" then good (.choice "CB_SKIP")
    else if val = str "ignore" then good (.choice "CB_IGNORE")
    else if val = str "error" then good (.choice "CB_ERROR")
    else if val = str "unconformable" then good (.choice "CB_UNCONFORMABLE")
    else bad

/-- What a line leaves: the state and the result so far, or the end of the reading with -1 (`return -1` behind a failed include). -/
inductive Step where
  | next (s : St) (ok : Bool)
  | stop (s : St)

/-- /repo/cobc/config.c:196-204: the value of a line, behind its tag. -/
def valueOf (rest : List Nat) : List Nat := ((rest.dropWhile isSep).reverse.dropWhile isTrail).reverse

/-- /repo/cobc/config.c:207-342: the effect of the value of a setting. -/
def assign (s : St) (e : Entry) (p : Option Val × Option Kind) (file : List Nat) (n : Nat) : St :=
  let s := match p.1 with
    | some v => { s with vals := put s.vals e.name (some v) }
    | none => s
  match p.2 with
  | some k => s.say file n k
  | none => s

/-- /repo/cobc/config.c:158-346: one line.  `inc` reads an included file, `file` is the name in messages, `n` the number of the line. -/
def doLine (inc : List Nat → St → St × Bool) (file : List Nat) (n : Nat) (line : List Nat) (s : St) (ok : Bool) : Step :=
  let buff := line.takeWhile (· ≠ 0)
  if buff.head? = some 35 then .next s ok
  else if buff.all (fun c => !isGraph c) then .next s ok
  else if buff.all (fun c => !isSep c) then .next (s.say file n .invalidLine) false
  else
    let tag := buff.takeWhile (fun c => !isSep c)
    let rest := (buff.dropWhile (fun c => !isSep c)).drop 1
    match configTable.find? (fun e => e.name = tag) with
    | none => .next (s.say file n .unknownTag) false
    | some e =>
      let val := valueOf rest
      let s := { s with isSet := put s.isSet e.name true }
      if e.name = sInclude then
        match inc (readString val) s with
        | (s, true) => .next s ok
        | (s, false) => .stop s
      else if e.name = sNotReserved then
        .next { s with nores := readString (readString val) :: s.nores } ok
      else
        let p := parse e val
        .next (assign s e p file n) (ok && p.2 = none)

/-- /repo/cobc/config.c:157-346: the lines in order. -/
def doLines (inc : List Nat → St → St × Bool) (file : List Nat) : Nat → List (List Nat) → St → Bool → Step
  | _, [], s, ok => .next s ok
  | n, l :: r, s, ok =>
    match doLine inc file n l s ok with
    | .next s ok => doLines inc file (n + 1) r s ok
    | .stop s => .stop s

/-- `fgets` into 1024 bytes, again and again: up to and with a newline, at most 1023 bytes.  `fuel` bounds the recursion. -/
def fgetsGo : Nat → List Nat → List (List Nat)
  | 0, _ => []
  | _, [] => []
  | fuel + 1, s =>
    let head := s.take 1023
    let line := if head.all (· ≠ 10) then head else head.takeWhile (· ≠ 10) ++ [10]
    line :: fgetsGo fuel (s.drop line.length)

def fgets (s : List Nat) : List (List Nat) := fgetsGo s.length s

/-- assign_external -/
def sAssignExternal : List Nat := str "assign_external"

/-- /repo/cobc/config.c:349-355: `assign_external` without a line is "no". -/
def defaultExternal (s : St) : St :=
  if s.isSet sAssignExternal then s
  else { s with isSet := put s.isSet sAssignExternal true, vals := put s.vals sAssignExternal (some (.int 0)) }

/-- /repo/cobc/config.c:357-366: the settings without a value. -/
def undefinedMsgs (s : St) (file : List Nat) : List Msg :=
  (settings.filter (fun e => !s.isSet e.name)).map fun _ => ⟨file, 0, .noDefinition⟩

/-- The world: the directory of the configuration files and what files hold. -/
structure Files where
  dir : List Nat
  read : List Nat → Option (List Nat)

/-- /repo/cobc/config.c:141-146: the path of a file; `snprintf` cuts it. -/
def path (w : Files) (prefixDir : Bool) (file : List Nat) : List Nat :=
  if prefixDir then (w.dir ++ [47] ++ file).take 1022 else file

/-- /repo/cobc/config.c:116-369 `cb_load_conf`: the state and whether it returned 0.  The number is how many files can still be opened
(`fopen` fails beyond). -/
def loadConf (w : Files) : Nat → (file : List Nat) → (checkNodef prefixDir : Bool) → St → St × Bool
  | 0, file, _, _, s => (s.say file 0 .cannotOpen, false)
  | more + 1, file, checkNodef, prefixDir, s =>
    let s := if checkNodef then { s with isSet := fun _ => false } else s
    match w.read (path w prefixDir file) with
    | none => (s.say file 0 .cannotOpen, false)
    | some bytes =>
      match doLines (fun f s => loadConf w more f false true s) file 1 (fgets bytes) s true with
      | .stop s => (s, false)
      | .next s ok =>
        let s := defaultExternal s
        if checkNodef then
          let m := undefinedMsgs s file
          ({ s with msgs := s.msgs ++ m }, ok && m.isEmpty)
        else (s, ok)

end Cob.Conf
