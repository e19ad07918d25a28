/-
Model of what is executed after a statement: the exception phrases (AT END, INVALID KEY, AT EOP, ON SIZE ERROR, ON OVERFLOW
and their NOT forms), the USE procedures of the DECLARATIVES and the standard error procedure
(libcob/fileio.c, cobc/codegen.c, cobc/parser.y, cobc/tree.c, cobc/cobc.c).
File names, sections and programs are numbers; `strcmp` of file names is equality.
Not modelled: a file handler given by COB_USERFH (`cob_invoke_fun`), tracing, PERFORM itself (C55).
-/
namespace Cob

/-- /repo/libcob/fileio.c:263-274 `status_exception` with the codes of /repo/libcob/exception.def:91-111. -/
def statusExc : List Nat :=
  [0, 0x0501, 0x0506, 0x0509, 0x0508, 0x050A, 0x0504, 0x0500, 0x0500, 0x0505]

/-- /repo/libcob/fileio.c:731-754 `save_status`: `cob_exception_code` after an input-output statement with this status.
For status 52 the code was set before (/repo/libcob/fileio.c:1349-1353). -/
def ioExc (status : Nat) : Nat :=
  if status = 0 then 0
  else if status ≠ 52 then statusExc.getD (status / 10) 0
  else 0x0502

/-- The handlers of a statement (`struct cb_statement`): the exception phrase, the NOT phrase, the MOVE of READ INTO, the code
of `handler_id`, whether the statement has a file, and whether EC-I-O is enabled. -/
structure StmtH where
  h1 : Bool
  h2 : Bool
  h3 : Bool
  code : Nat
  file : Bool
  io : Bool
deriving DecidableEq, Repr

/-- What is executed behind the body of a statement. -/
inductive HAct where
  | phrase
  | notPhrase
  | into
  | fileError
deriving DecidableEq, Repr

/-- /repo/cobc/codegen.c:3175-3180, 3290-3295: the test of an exception phrase. -/
def phraseTest (code exc : Nat) : Bool :=
  if code &&& 0xff = 0 then exc &&& 0xff00 == code else exc == code

/-- /repo/cobc/codegen.c:3169-3203 `output_ferror_stmt`. -/
def ferrorActs (p : StmtH) (exc : Nat) : List HAct :=
  if exc ≠ 0 then
    if p.h1 then (if phraseTest p.code exc then [.phrase] else [.fileError])
    else [.fileError]
  else (if p.h3 then [.into] else []) ++ (if p.h2 then [.notPhrase] else [])

/-- /repo/cobc/codegen.c:3284-3314 `output_stmt`, the part behind the body; `exc` is `cob_exception_code`. -/
def stmtActs (p : StmtH) (exc : Nat) : List HAct :=
  if p.h1 ∨ p.h2 ∨ (p.file ∧ p.io) then
    if p.file then ferrorActs p exc
    else if p.h1 then
      if phraseTest p.code exc then [.phrase] else if p.h2 then [.notPhrase] else []
    else if p.h2 then (if exc = 0 then [.notPhrase] else [])
    else []
  else []

/-! ### USE statements -/

/-- A file named in a USE statement, with whether it is a GLOBAL file; or an open mode (1 INPUT, 2 OUTPUT, 3 I-O, 4 EXTEND). -/
inductive UseTarget where
  | files (l : List (Nat × Bool))
  | mode (m : Nat)
deriving DecidableEq, Repr

/-- A USE statement: the section it stands in, GLOBAL or not, and its target. -/
structure UseStmt where
  sect : Nat
  glob : Bool
  target : UseTarget
deriving DecidableEq, Repr

/-- A program of a source file: its depth of nesting and its USE statements. -/
structure UseProg where
  level : Nat
  uses : List UseStmt
deriving DecidableEq, Repr

/-- The copy of a GLOBAL file made by /repo/cobc/parser.y:289-292: name, program and section of the handler. -/
structure UEntry where
  name : Nat
  prog : Nat
  sect : Nat
deriving DecidableEq, Repr

/-- The cells of the lists `global_file_list`: value and CB_CHAIN. -/
abbrev UHeap := List (UEntry × Option Nat)

/-- CB_CHAIN of a cell. -/
def uChain (h : UHeap) (i : Nat) : Option Nat := (h[i]?).bind (·.2)

/-- Assignment to CB_CHAIN. -/
def uSetChain (h : UHeap) (i : Nat) (c : Option Nat) : UHeap := h.modify i fun p => (p.1, c)

/-- /repo/cobc/tree.c:855-858: the last cell of a list. -/
def uLast (h : UHeap) : (fuel : Nat) → Nat → Nat
  | 0, i => i
  | fuel + 1, i => match uChain h i with
    | some j => uLast h fuel j
    | none => i

/-- /repo/cobc/tree.c:847-868 `cb_list_append` and `cb_list_add`, which changes the list it is given. -/
def uAdd (h : UHeap) (p : Option Nat) (e : UEntry) : UHeap × Option Nat :=
  match p with
  | none => (h ++ [(e, none)], some h.length)
  | some i => (uSetChain (h ++ [(e, none)]) (uLast h h.length i) (some h.length), some i)

/-- /repo/cobc/tree.c:870-882 `cb_list_reverse`, in place. -/
def uReverse : (fuel : Nat) → UHeap → (l last : Option Nat) → UHeap × Option Nat
  | 0, h, _, last => (h, last)
  | fuel + 1, h, l, last => match l with
    | none => (h, last)
    | some i => uReverse fuel (uSetChain h i last) (uChain h i) (some i)

/-- The values of a list. -/
def uCells (h : UHeap) : (fuel : Nat) → Option Nat → List UEntry
  | 0, _ => []
  | _ + 1, none => []
  | fuel + 1, some i => match h[i]? with
    | some c => c.1 :: uCells h fuel c.2
    | none => []

/-- What is kept for a program (`struct cb_program`): level, the handlers of its own files, `local_file_list`,
`global_file_list`, and `global_handler`: section and `is_global` for the modes. -/
structure UseSt where
  level : Nat
  own : List (Nat × Nat)
  locals : List UEntry
  gptr : Option Nat
  modes : List (Nat × (Nat × Bool))
deriving DecidableEq, Repr

/-- /repo/cobc/parser.y:282-306 `setup_use_file`. -/
def useFile (prog : Nat) (u : UseStmt) (hs : UHeap × UseSt) (f : Nat × Bool) : UHeap × UseSt :=
  let (h, st) := hs
  if f.2 then
    let e : UEntry := { name := f.1, prog := prog, sect := u.sect }
    if u.glob = false then (h, { st with locals := st.locals ++ [e] })
    else
      let r := uAdd h st.gptr e
      (r.1, { st with gptr := r.2 })
  else (h, { st with own := (f.1, u.sect) :: st.own })

/-- /repo/cobc/parser.y:6269-6335: one USE statement. -/
def useStmt (prog : Nat) (hs : UHeap × UseSt) (u : UseStmt) : UHeap × UseSt :=
  match u.target with
  | .files l => l.foldl (useFile prog u) hs
  | .mode m => (hs.1, { hs.2 with modes := (m, (u.sect, u.glob)) :: hs.2.modes })

/-- /repo/cobc/tree.c:907-941 `cb_build_program` and the DECLARATIVES of the program; `prev` is the list `global_file_list` of
the program in front of it in the source file. -/
def useProg (prog : Nat) (h : UHeap) (prev : Option Nat) (p : UseProg) : UHeap × UseSt :=
  p.uses.foldl (useStmt prog)
    (h, { level := p.level, own := [], locals := [], gptr := if p.level = 0 then none else prev, modes := [] })

/-- All programs of a source file in their order, from the program with number `i` on. -/
def useBuild : (i : Nat) → UHeap → Option Nat → List UseProg → UHeap × List UseSt
  | _, h, _, [] => (h, [])
  | i, h, prev, p :: ps =>
    let r := useProg i h prev p
    let q := useBuild (i + 1) r.1 r.2.gptr ps
    (q.1, r.2 :: q.2)

/-- /repo/cobc/cobc.c:1753-1756: the lists are reversed, the last program's first. -/
def useReverse (h : UHeap) : List UseSt → UHeap × List UseSt
  | [] => (h, [])
  | st :: sts =>
    let r := useReverse h sts
    let q := uReverse (r.1.length + 1) r.1 st.gptr none
    (q.1, { st with gptr := q.2 } :: r.2)

/-- A source file after parsing. -/
def useAll (ps : List UseProg) : UHeap × List UseSt :=
  let b := useBuild 0 [] none ps
  useReverse b.1 b.2

/-- /repo/cobc/cobc.c:1757-1775: the handler for a mode taken over from one of the programs in front, which are given the
nearest first. -/
def outerMode (m level : Nat) : (r : List UseSt) → (i : Nat) → Option (Nat × Nat)
  | [], _ => none
  | st :: rest, i =>
    if level ≤ st.level then outerMode m level rest (i - 1)
    else match st.modes.lookup m with
      | some (s, true) => some (i, s)
      | _ => if st.level = 0 then none else outerMode m level rest (i - 1)

/-- `global_handler[m]` of the program with number `q`: program and section. -/
def modeHandler (sts : List UseSt) (q m : Nat) : Option (Nat × Nat) :=
  match sts[q]? with
  | none => none
  | some st => match st.modes.lookup m with
    | some (s, _) => some (q, s)
    | none => if st.level = 0 then none else outerMode m st.level (sts.take q).reverse (q - 1)

/-- /repo/cobc/codegen.c:3129-3163 `output_file_error` in the program `q`: the procedure for the file (name, GLOBAL or not), or
`none`: the standard error procedure. -/
def fileHandler (hs : UHeap × List UseSt) (q : Nat) (f : Nat × Bool) : Option (Nat × Nat) :=
  match hs.2[q]? with
  | none => none
  | some st =>
    match st.locals.find? (fun e => e.name == f.1) with
    | some e => some (q, e.sect)
    | none =>
      match (uCells hs.1 (hs.1.length + 1) st.gptr).find? (fun e => e.name == f.1) with
      | some e => some (e.prog, e.sect)
      | none => if f.2 then none else (st.own.lookup f.1).map fun s => (q, s)

/-- The configuration entry `abort-on-io-exception`. -/
inductive IoAbort where
  | any
  | fatal
  | never
deriving DecidableEq, Repr

/-- What happens on an input-output error. -/
inductive UseRes where
  | perform (prog sect : Nat)
  | stopRun
  | carryOn
deriving DecidableEq, Repr

/-- /repo/cobc/codegen.c:4624-4698: the standard error procedure of program `q`; `mode` is `last_open_mode`, `fs` tells
whether the file has a FILE STATUS clause. -/
def standardError (sts : List UseSt) (cfg : IoAbort) (q mode : Nat) (fs : Bool) (status : Nat) : UseRes :=
  match (if 1 ≤ mode ∧ mode ≤ 4 then modeHandler sts q mode else none) with
  | some (p, s) => .perform p s
  | none =>
    if fs then .carryOn
    else match cfg with
      | .any => .stopRun
      | .fatal => if status / 10 = 3 ∨ status / 10 = 4 ∨ status / 10 = 9 then .stopRun else .carryOn
      | .never => .carryOn

/-- The error procedure executed in program `q` for a file. -/
def ioError (hs : UHeap × List UseSt) (cfg : IoAbort) (q : Nat) (f : Nat × Bool) (mode : Nat) (fs : Bool) (status : Nat) :
    UseRes :=
  match fileHandler hs q f with
  | some (p, s) => .perform p s
  | none => standardError hs.2 cfg q mode fs status

end Cob
