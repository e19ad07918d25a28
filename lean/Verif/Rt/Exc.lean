import Verif.Rt.ExcTable
/-
FUNCTION EXCEPTION-STATUS, EXCEPTION-STATEMENT, EXCEPTION-LOCATION and EXCEPTION-FILE
(libcob/intrinsic.c), the record of the last exception (libcob/common.c, libcob/fileio.c), and the
code the compiler puts in front of a statement to say where it is (cobc/codegen.c).
Texts are lists of bytes.  Files, programs and statements are numbered.
-/
namespace Cob.Exc

/-- A statement as the code generator meets it (cobc/codegen.c:3231-3264): `x->source_file` (absent:
NULL), `x->source_line`, `p->name`, and `excp_current_section` and `excp_current_paragraph` at that
point. -/
structure Stmt where
  file : Option (List Nat)
  line : Nat
  name : Option (List Nat)
  sect : Option (List Nat)
  para : Option (List Nat)
deriving DecidableEq, Repr

/-- A program: `excp_current_program_id` (cobc/codegen.c:5052) and its statements in the order in
which code is generated for them. -/
structure Prog where
  id : List Nat
  stmts : List Stmt
deriving Repr

/-- cobc/codegen.c:3239-3263 of `output_stmt`: for each statement, whether `cob_set_location` is
generated; `last` is `last_line`.  (Compiled with -debug or -fsource-location; without, none is.) -/
def emits : Nat → List Stmt → List Bool
  | _, [] => []
  | last, s :: rest =>
    if s.file.isSome && decide (last ≠ s.line) then true :: emits s.line rest
    else false :: emits last rest

/-- The run-time state: `cob_exception_code`, `cob_got_exception`, the `cob_orig_` values, the
values `cob_set_location` sets, `cob_error_file`, and `file_status` of each file as a number. -/
structure St where
  code : Nat := 0
  got : Bool := false
  oStmt : Option (List Nat) := none
  oLine : Nat := 0
  oProg : Option (List Nat) := none
  oSect : Option (List Nat) := none
  oPara : Option (List Nat) := none
  stmt : Option (List Nat) := none
  line : Nat := 0
  prog : Option (List Nat) := none
  sect : Option (List Nat) := none
  para : Option (List Nat) := none
  errFile : Option Nat := none
  status : Nat → Nat := fun _ => 0

/-- libcob/common.c:813-831 `cob_set_location` (the trace output is left out). -/
def setLocation (id : List Nat) (x : Stmt) (s : St) : St :=
  { s with
    prog := some id
    line := x.line
    sect := x.sect
    para := x.para
    stmt := if x.name.isSome then x.name else s.stmt }

/-- libcob/common.c:124-129 `cob_exception_tab_code`: `COB_EC_ZERO`, the table, `COB_EC_MAX`. -/
def tabCode (id : Nat) : Nat :=
  match id with
  | 0 => 0
  | n + 1 => ((table.map (·.1)).getD n 0)

/-- libcob/common.c:901-913 `cob_set_exception`. -/
def setException (id : Nat) (s : St) : St :=
  let s := { s with code := tabCode id }
  if s.code ≠ 0 then
    { s with got := true, oStmt := s.stmt, oLine := s.line, oProg := s.prog, oSect := s.sect, oPara := s.para }
  else s

/-- libcob/fileio.c:263-274 `status_exception`: numbers of entries of the table (0: none). -/
def statusExc : List Nat := [0, 33, 38, 41, 40, 42, 36, 32, 32, 37]

/-- libcob/fileio.c:730-755 `save_status` for file `f`. -/
def saveStatus (f status : Nat) (s : St) : St :=
  let s := { s with errFile := some f }
  if status = 0 then
    { s with status := fun g => if g = f then 0 else s.status g, code := 0 }
  else
    let s := if status ≠ 52 then setException (statusExc.getD (status / 10) 0) s else s
    { s with status := fun g => if g = f then status else s.status g }

/-- What happens in the course of a run: statement `i` of program `p` begins, exception `id` (its
number in the table) is raised, the exception is cleared (`cob_exception_code = 0`, as in front of
a statement with a phrase, cobc/codegen.c:3265-3268, and in many functions), an input-output
statement on `f` ends with a status, or a WRITE on `f` ends with end-of-page
(libcob/fileio.c:1349-1353). -/
inductive Ev where
  | begin (p i : Nat)
  | raise (id : Nat)
  | clear
  | io (f status : Nat)
  | eop (f : Nat)
deriving DecidableEq, Repr

/-- One event; `ps` are the programs. -/
def step (ps : Nat → Prog) (s : St) : Ev → St
  | .begin p i =>
    match (ps p).stmts[i]? with
    | some x => if (emits 0 (ps p).stmts).getD i false then setLocation (ps p).id x s else s
    | none => s
  | .raise id => setException id s
  | .clear => { s with code := 0 }
  | .io f status => saveStatus f status s
  | .eop f => saveStatus f 52 { s with code := 0x0502 }

/-- A run from the start of the run unit. -/
def run (ps : Nat → Prog) (h : List Ev) : St := h.foldl (step ps) {}

/-- `memset` to spaces and `memcpy` of at most 31 bytes. -/
def pad31 (t : List Nat) : List Nat := t.take 31 ++ List.replicate (31 - t.length) 32

/-- libcob/common.c:888-899 `cob_get_exception_name`: the first entry with the code; entry 0 (code
0) and the last one have no name. -/
def exceptionName (code : Nat) : Option (List Nat) :=
  if code = 0 then none else (table.find? (fun e => e.1 == code)).map (·.2)

/-- "EXCEPTION-OBJECT". -/
def sObject : List Nat := [69, 88, 67, 69, 80, 84, 73, 79, 78, 45, 79, 66, 74, 69, 67, 84]

/-- libcob/intrinsic.c:975-995 `cob_intr_exception_status`. -/
def exceptionStatus (s : St) : List Nat :=
  if s.code ≠ 0 then
    match exceptionName s.code with
    | some n => pad31 n
    | none => pad31 sObject
  else pad31 []

/-- libcob/intrinsic.c:997-1019 `cob_intr_exception_statement`. -/
def exceptionStatement (s : St) : List Nat :=
  if s.code ≠ 0 then
    match s.oStmt with
    | some t => pad31 t
    | none => pad31 []
  else pad31 []

/-- `%d` of a line number. -/
def dec (n : Nat) : List Nat := (Nat.toDigits 10 n).map Char.toNat

/-- libcob/intrinsic.c:939-973 `cob_intr_exception_location`; `snprintf` writes at most 1022 bytes
(`COB_SMALL_MAX` is 1023). -/
def exceptionLocation (s : St) : List Nat :=
  match s.got, s.oProg with
  | true, some p =>
    (match s.oSect, s.oPara with
     | some sec, some par => p ++ [59, 32] ++ par ++ [32, 79, 70, 32] ++ sec ++ [59, 32] ++ dec s.oLine
     | some sec, none => p ++ [59, 32] ++ sec ++ [59, 32] ++ dec s.oLine
     | none, some par => p ++ [59, 32] ++ par ++ [59, 32] ++ dec s.oLine
     | none, none => p ++ [59, 32, 59, 32] ++ dec s.oLine).take 1022
  | _, _ => [32]

/-- libcob/intrinsic.c:915-937 `cob_intr_exception_file`; `name` gives `select_name`; the status is
two digits (`cob_i2d`, libcob/fileio.c:748-749). -/
def exceptionFile (name : Nat → List Nat) (s : St) : List Nat :=
  match s.errFile with
  | some f =>
    if s.code = 0 ∨ s.code &&& 0x0500 ≠ 0x0500 then [48, 48]
    else [48 + s.status f / 10, 48 + s.status f % 10] ++ name f
  | none => [48, 48]

end Cob.Exc
