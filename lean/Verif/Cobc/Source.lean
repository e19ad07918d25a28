/-
Model of the reading of source lines in the preprocessor (cobc/pplex.l:616-1192): `ppinput` with `check_directive` and
`check_dollar_directive`.

Bytes are numbers.  Not modelled: warnings; comment paragraphs (`within_comment`, set by the scanner); NUL bytes; the size
of the scanner's buffer; the default `cb_tab_width` (it is 8 in all configurations) is a parameter.
-/
namespace Cob

/-- CB_FORMAT_FIXED, CB_FORMAT_FREE, CB_FORMAT_FREE_1COL_ASTER. -/
inductive SFmt where
  | fixed | free | aster
  deriving DecidableEq

/-- CB_COMPILE_STATUS_... (cobc/pplex.l:47-55). -/
inductive CSt where
  | none | tru | fls | flsEnd | truElse | flsElse | err
  deriving DecidableEq

/-- The configuration.  `consts`: the constants of the command line, numeric ones without a value
(`struct cb_constant_list`). -/
structure SCfg where
  textCol : Nat
  tab : Nat
  debugging : Bool
  mfcomment : Bool
  consts : List (List Nat × Option (List Nat))

/-- The static variables (cobc/pplex.l:59-76).  `stack`: `cb_compile_status_list` up to `compile_directive_depth`, innermost
first. -/
structure SSt where
  nl : Nat
  quote : Nat
  consec : Bool
  fmt : SFmt
  fmt1 : Bool
  status : CSt
  stack : List CSt
  deriving DecidableEq

/-- cobc/pplex.l:940-980: the characters of a line up to the newline or to 256 of them.  `cr`: `gotcr`. -/
def readChars (free : Bool) (tab : Nat) : Bool → List Nat → List Nat → List Nat × List Nat
  | _, acc, [] => (acc, [])
  | cr, acc, c :: cs =>
    if 256 ≤ acc.length then (acc, c :: cs)
    else
      let a1 := if acc = [] ∧ free = true ∧ c ≠ 32 ∧ c ≠ 10 then [32] else acc
      let a2 := if cr = true ∧ c ≠ 10 then a1 ++ [13] else a1
      if c = 13 then readChars free tab true a2 cs
      else if c = 9 then readChars free tab false (a2 ++ List.replicate (tab - a2.length % tab) 32) cs
      else if c = 10 then (a2 ++ [10], cs)
      else readChars free tab false (a2 ++ [c]) cs

/-- cobc/pplex.l:982-985: a line that does not end with a newline gets one. -/
def endLine (b : List Nat) : List Nat := if b.getLast? = some 10 then b else b ++ [10]

/-- `strstr (b, "*>")`. -/
def findStar : List Nat → Option Nat
  | 42 :: 62 :: _ => some 0
  | _ :: l => (findStar l).map (· + 1)
  | [] => none

/-- cobc/pplex.l:991-1001: a comment `*>` from column 8 on is cut off, unless a `"` follows. -/
def cutComment (b : List Nat) : List Nat :=
  match findStar b with
  | none => b
  | some p => if 7 ≤ p ∧ ¬ (b.drop p).contains 34 = true then b.take p ++ [10] else b

/-- `sscanf (s, "%255s ...")`: the words. -/
def scanWords : List Nat → List Nat → List (List Nat)
  | cur, [] => if cur = [] then [] else [cur]
  | cur, c :: cs =>
    if c = 32 ∨ c = 10 ∨ c = 13 ∨ c = 9 ∨ c = 11 ∨ c = 12 then (if cur = [] then scanWords [] cs else cur :: scanWords [] cs)
    else scanWords (cur ++ [c]) cs

/-- `tolower` in the C locale. -/
def lowB (c : Nat) : Nat := if 65 ≤ c ∧ c ≤ 90 then c + 32 else c

/-- `strcasecmp (a, b) == 0`. -/
def sameB (a b : List Nat) : Bool := a.map lowB == b.map lowB

def bytes (s : String) : List Nat := s.toList.map Char.toNat

/-- The format named in a directive. -/
def fmtNamed (w : List Nat) : Option SFmt :=
  if sameB w (bytes "FIXED") then some .fixed
  else if sameB w (bytes "FREE") then some .free
  else if sameB w (bytes "FREE_1COL_ASTER") then some .aster
  else none

def SSt.setFmt (st : SSt) (f : SFmt) : SSt := { st with fmt := f, fmt1 := st.fmt1 || f == .aster }

/-- cobc/pplex.l:660-733: `>>SOURCE [FORMAT] [IS] format`. -/
def sourceDirective (st : SSt) (ws : List (List Nat)) : SSt :=
  match ws with
  | w0 :: w1 :: r =>
    if !sameB w0 (bytes "SOURCE") then st
    else
      let f := match r with
        | [] => fmtNamed w1
        | [w2] => if sameB w1 (bytes "FORMAT") || sameB w1 (bytes "IS") then fmtNamed w2 else none
        | w2 :: w3 :: _ => if sameB w1 (bytes "FORMAT") && sameB w2 (bytes "IS") then fmtNamed w3 else none
      match f with
      | some f => st.setFmt f
      | none => st
  | _ => st

/-- cobc/pplex.l:616-733 `check_directive`: the line is replaced by the counted newlines and a comment. -/
def checkDirective (cfg : SCfg) (st : SSt) (b : List Nat) : SSt × List Nat :=
  if st.fmt = .fixed ∧ (b.length < 8 ∨ b.getD 6 0 ≠ 32) then (st, b)
  else
    let from_ := if st.fmt = .fixed then 7 else 0
    let lead := b.take from_ ++ (b.drop from_).takeWhile (· == 32)
    match b.drop lead.length with
    | 62 :: 62 :: s =>
      if s.head? = some 68 then
        if cfg.debugging then (st, lead ++ [32, 32, 32] ++ s.drop 1)
        else ({ st with nl := 0 }, List.replicate st.nl 10 ++ bytes "      *> DEBUG\n")
      else (sourceDirective { st with nl := 0 } ((scanWords [] s).take 5), List.replicate st.nl 10 ++ bytes "      *> DIRECTIVE\n")
    | _ => (st, b)

/-- cobc/pplex.l:799-856: the condition of `$IF name [NOT] DEFINED`, `$IF name [NOT] = "text"`. `none`: an error. -/
def dollarCond (cfg : SCfg) (ws : List (List Nat)) : Option Bool :=
  let w := fun i => ws.getD i []
  if w 1 = [] then none
  else
    let isNot := sameB (w 2) (bytes "NOT")
    let k := if isNot then 1 else 0
    let isDef := sameB (w (2 + k)) (bytes "DEFINED")
    if isDef = false ∧ (sameB (w (2 + k)) (bytes "=") = false ∨ w (3 + k) = []) then none
    else
      match cfg.consts.find? (fun c => sameB c.1 (w 1)) with
      | none => some isNot
      | some c =>
        if isDef then some (!isNot)
        else
          match c.2 with
          | none => some isNot
          | some v =>
            let x := w (3 + k)
            if x.length < 3 ∨ x.head? ≠ some 34 ∨ x.getLast? ≠ some 34 ∨ (x.drop 1).dropLast.contains 34 = true then none
            else if sameB (x.drop 1).dropLast v then some (!isNot) else some isNot

/-- cobc/pplex.l:775-907: `$IF`, `$ELSE`, `$END` on the stack of conditions; `$SET` is treated separately.  `none`: an error. -/
def dollarStack (cfg : SCfg) (stack : List CSt) (ws : List (List Nat)) : Option (List CSt) :=
  let w0 := ws.getD 0 []
  if sameB w0 (bytes "$IF") then
    if 10 ≤ stack.length then none
    else (dollarCond cfg ws).map fun b => (if b then .tru else .fls) :: stack
  else if sameB w0 (bytes "$ELSE") then
    match stack with
    | [] => none
    | .truElse :: _ => none
    | .flsElse :: _ => none
    | .fls :: s => some (.truElse :: s)
    | _ :: s => some (.flsElse :: s)
  else if sameB w0 (bytes "$END") then
    match stack with
    | [] => none
    | _ :: s => some s
  else none

/-- cobc/pplex.l:736-922 `check_dollar_directive`. -/
def checkDollar (cfg : SCfg) (st : SSt) (b : List Nat) : SSt × List Nat :=
  if st.fmt = .fixed ∧ (b.length < 8 ∨ b.getD 6 0 ≠ 36) then (st, b)
  else if st.fmt ≠ .fixed ∧ b.getD 1 0 ≠ 36 then (st, b)
  else
    let s := if st.fmt = .fixed then (b.take cfg.textCol).drop 6 else b
    let ws := (scanWords [] s).take 5
    let b' := List.replicate st.nl 10 ++ bytes "      *> DIRECTIVE\n"
    let st' := { st with nl := 0 }
    if sameB (ws.getD 0 []) (bytes "$SET") then
      if sameB (ws.getD 1 []) (bytes "SOURCEFORMAT(FREE)") then (st'.setFmt .free, b')
      else if sameB (ws.getD 1 []) (bytes "SOURCEFORMAT(FIXED)") then (st'.setFmt .fixed, b')
      else if sameB (ws.getD 1 []) (bytes "SOURCEFORMAT(FREE_1COL_ASTER)") then (st'.setFmt .aster, b')
      else ({ st' with status := .err }, b')
    else
      match dollarStack cfg st.stack ws with
      | none => ({ st' with status := .err }, b')
      | some stack =>
        if stack.all (fun c => c == .tru || c == .truElse) then
          ({ st' with stack := stack, status := if st.nl = 0 then .tru else .flsEnd }, b')
        else ({ st' with stack := stack, status := .fls }, b')

/-- The result for one line: nothing (`goto start`), a text for the scanner, an error. -/
inductive SRd where
  | skip (st : SSt)
  | out (text : List Nat) (st : SSt)
  | stop

/-- cobc/pplex.l:1138-1156: the literals in a line, from column `i` on: the open quotation mark (0: none) and whether it is
a mark in the last column. -/
def scanQuotes (textCol : Nat) : Nat → Nat → Bool → List Nat → Nat × Bool
  | _, q, cons, [] => (q, cons)
  | i, q, cons, c :: cs =>
    if c = 39 ∨ c = 34 then
      if q = 0 then scanQuotes textCol (i + 1) c cons cs
      else if q = c then
        if i = textCol - 1 then scanQuotes textCol (i + 1) q true cs else scanQuotes textCol (i + 1) 0 cons cs
      else scanQuotes textCol (i + 1) q cons cs
    else scanQuotes textCol (i + 1) q cons cs

/-- Without the spaces at the end. -/
def rtrimB (l : List Nat) : List Nat := (l.reverse.dropWhile (· == 32)).reverse

/-- cobc/pplex.l:1158-1170: an open literal is filled up to column 72; otherwise the spaces at the end are dropped, and a
quotation mark at the end is followed by a space.  `col`: the column of the first character. -/
def finishText (q col : Nat) (t : List Nat) : List Nat :=
  if q ≠ 0 then t ++ List.replicate (72 - (col + t.length)) 32
  else
    let r := rtrimB t
    if r.getLast? = some 39 ∨ r.getLast? = some 34 then r ++ [32] else r

/-- cobc/pplex.l:1137-1180: the text from column `col` on. -/
def emitText (cfg : SCfg) (st : SSt) (cont : Bool) (col : Nat) (t : List Nat) : SRd :=
  let s := scanQuotes cfg.textCol col st.quote st.consec t
  let x := finishText s.1 col t
  if cont then .out x { st with quote := s.1, consec := s.2, nl := st.nl + 1 }
  else .out (List.replicate st.nl 10 ++ x) { st with quote := s.1, consec := s.2, nl := 1 }

/-- cobc/pplex.l:1110-1136: a continuation line.  `t`: the text from column 8 on. -/
def continueLine (cfg : SCfg) (st : SSt) (t : List Nat) : SRd :=
  let sp := (t.takeWhile (· == 32)).length
  let r := t.drop sp
  if st.consec then
    match r with
    | a :: b :: r' =>
      if a = st.quote ∧ b = st.quote then emitText cfg { st with quote := 0, consec := false } true (7 + sp + 1) (b :: r')
      else .stop
    | _ => .stop
  else if st.quote ≠ 0 then
    match r with
    | a :: r' => if a = st.quote then emitText cfg st true (7 + sp + 1) r' else .stop
    | [] => .stop
  else emitText cfg st true (7 + sp) r

/-- cobc/pplex.l:1024-1192: a line of fixed format, behind the directives.  (The comment paragraphs are left out.) -/
def fixedLine (cfg : SCfg) (st : SSt) (b : List Nat) : SRd :=
  if b.length < 8 then .skip { st with nl := st.nl + 1 }
  else if cfg.mfcomment = true ∧ (b.getD 0 0 = 42 ∨ b.getD 0 0 = 47) then .skip { st with nl := st.nl + 1 }
  else
    let ind := b.getD 6 0
    if ind = 42 ∨ ind = 47 then .skip { st with nl := st.nl + 1 }
    else if (ind = 68 ∨ ind = 100) ∧ cfg.debugging = false then .skip { st with nl := st.nl + 1 }
    else if ind ≠ 32 ∧ ind ≠ 45 ∧ ind ≠ 68 ∧ ind ≠ 100 then .stop
    else
      let b' := if cfg.textCol + 1 < b.length then b.take cfg.textCol ++ [10] else b
      let t := (b'.drop 7).takeWhile (· != 10)
      if t.all (· == 32) then .skip { st with nl := st.nl + 1 }
      else if ind = 45 then continueLine cfg st t
      else emitText cfg { st with quote := 0, consec := false } false 7 t

/-- cobc/pplex.l:987-1022: a line that has been read. -/
def ppLine (cfg : SCfg) (st : SSt) (b : List Nat) : SRd :=
  if st.fmt1 = true ∧ b.getD 0 0 = 42 ∧ b.getD 1 0 ≠ 62 then .out [10] st
  else
    let d1 := checkDirective cfg st (cutComment b)
    let d2 := checkDollar cfg d1.1 d1.2
    match d2.1.status with
    | .err => .stop
    | .fls => .skip { d2.1 with nl := d2.1.nl + 1 }
    | .flsEnd => .skip { d2.1 with nl := d2.1.nl + 1, status := .none }
    | _ => if d2.1.fmt = .fixed then fixedLine cfg d2.1 d2.2 else .out d2.2 d2.1

/-- The texts given to the scanner, call by call (cobc/pplex.l:927-1192 `ppinput`); `none`: an error.  At the end of the file
the counted newlines follow. -/
def ppFile (cfg : SCfg) : (fuel : Nat) → SSt → List Nat → Option (List (List Nat))
  | 0, _, _ => none
  | fuel + 1, st, input =>
    let r := readChars (decide (st.fmt ≠ .fixed ∧ st.fmt1 = false)) cfg.tab false [] input
    if r.1 = [] then some (if st.nl = 0 then [] else [List.replicate st.nl 10])
    else
      match ppLine cfg st (endLine r.1) with
      | .skip st' => ppFile cfg fuel st' r.2
      | .out t st' => (ppFile cfg fuel st' r.2).map (t :: ·)
      | .stop => none

def startState (f : SFmt) : SSt := ⟨0, 0, false, f, f == .aster, .none, []⟩

/-- A whole file. -/
def ppSource (cfg : SCfg) (f : SFmt) (input : List Nat) : Option (List Nat) :=
  (ppFile cfg (input.length + 1) (startState f) input).map List.flatten

end Cob
