/-
The connector: which statement is allowed when, and with which FILE STATUS (libcob/fileio.c).

Modelled: `cob_ex_open`, `cob_ex_close`, `cob_ex_start`, `cob_ex_read`, `cob_ex_write`,
`cob_ex_rewrite`, `cob_ex_delete`, `cob_ex_delete_file`, the dispatch of `cob_write`, and the parts
of `cob_file_open`/`cob_file_close` that set or end the stream, for SEQUENTIAL, LINE SEQUENTIAL and
RELATIVE organisation.  What the file system and the organisation's function answer is part of the
statement (an arbitrary value), as is the result of the record length test.
Not modelled: file name mapping, EXTFH and user file handlers, ISAM, `cob_sync`, the exception code.
-/
namespace Cob

/-- `COB_OPEN_INPUT`, `_OUTPUT`, `_I_O`, `_EXTEND`: libcob/common.h. -/
inductive UseMode where
  | input
  | output
  | io
  | extend
deriving DecidableEq, Repr

/-- `open_mode`: closed (`COB_OPEN_CLOSED`), one of the four, or `COB_OPEN_LOCKED`. -/
inductive ConnMode where
  | closed
  | opened (m : UseMode)
  | locked
deriving DecidableEq, Repr

/-- `access_mode`. -/
inductive Access where
  | sequential
  | random
  | dynamic
deriving DecidableEq, Repr

/-- The stream pointer `f->file`: NULL, an open stream, or a pointer to a stream that `fclose` has
released. -/
inductive Handle where
  | null
  | live
  | dead
deriving DecidableEq, Repr

/-- The option of CLOSE. -/
inductive CloseOpt where
  | normal
  | lock
  | noRewind
  | unit
deriving DecidableEq, Repr

/-- The SELECT clause: `special` 0 for a file, 1 for the keyboard, 2 for the display;
`rewriteAssumed` is the setting asked by `cob_io_rewrite_assumed`. -/
structure ConnCfg where
  access : Access
  optional : Bool
  special : Nat
  rewriteAssumed : Bool
deriving DecidableEq, Repr

/-- The flags of `cob_file` that decide about the statements. -/
structure Conn where
  mode : ConnMode
  nonexistent : Bool
  eof : Bool
  bof : Bool
  firstRead : Nat
  readDone : Bool
  file : Handle
deriving DecidableEq, Repr

/-- A file before its first OPEN. -/
def Conn.init : Conn :=
  { mode := .closed, nonexistent := false, eof := false, bof := false, firstRead := 0,
    readDone := false, file := .null }

/-- A statement, with what the file system and the organisation's function answer to it if asked:
for OPEN whether `stat` finds the file missing, whether the environment asks to create it, and the
result of `cob_file_open`; for the others the status from the organisation's function. -/
inductive FStmt where
  | openF (m : UseMode) (missing creates : Bool) (res : Nat)
  | close (opt : CloseOpt)
  | start (res : Nat)
  | read (keyed previous : Bool) (res : Nat)
  | write (sizeOk : Bool) (res : Nat)
  | rewrite (sizeOk : Bool) (res : Nat)
  | delete (res : Nat)
  | deleteFile (res : Nat)
deriving DecidableEq, Repr

/-- The result of a statement: the status, the stream it was carried out on (`none`: no stream
touched), the state afterwards. -/
structure FRes where
  status : Nat
  touch : Option Handle
  conn : Conn
deriving DecidableEq, Repr

/-- libcob/fileio.c:3849-4112 `cob_ex_open`, with `f->file = fp` of `cob_file_open` (902).  Numbers:
ENOENT 2, EACCES 13, EISDIR 21, EROFS 30, EAGAIN 11, `COB_LINAGE_INVALID` 16384. -/
def connOpen (cfg : ConnCfg) (f : Conn) (m : UseMode) (missing creates : Bool) (res : Nat) : FRes :=
  let f := { f with readDone := false }
  if f.mode = .locked then ⟨38, none, f⟩
  else if f.mode ≠ .closed then ⟨41, none, f⟩
  else
    let f := { f with nonexistent := false, eof := false, bof := false, firstRead := 2 }
    if cfg.special = 1 then
      if m ≠ .input then ⟨30, none, f⟩ else ⟨0, none, { f with file := .live, mode := .opened m }⟩
    else if cfg.special ≠ 0 then
      if m ≠ .output then ⟨30, none, f⟩ else ⟨0, none, { f with file := .live, mode := .opened m }⟩
    else if missing && m ≠ .output && !cfg.optional &&
        (m ≠ .io || !creates) && (m ≠ .extend || !creates) then ⟨35, none, f⟩
    else if res = 0 then
      ⟨if cfg.optional && missing then 5 else 0, none, { f with file := .live, mode := .opened m }⟩
    else if res = 2 then
      if m = .extend ∨ m = .output then ⟨30, none, f⟩
      else if cfg.optional then
        ⟨5, none, { f with mode := .opened m, nonexistent := true, eof := true, bof := true }⟩
      else ⟨35, none, f⟩
    else if res = 13 ∨ res = 21 ∨ res = 30 then ⟨37, none, f⟩
    else if res = 11 ∨ res = 61 then ⟨61, none, f⟩
    else if res = 91 then ⟨91, none, f⟩
    else if res = 16384 then ⟨57, none, { f with file := .live }⟩
    else ⟨30, none, f⟩

/-- libcob/fileio.c:913-950 `cob_file_close`: status and state. -/
def fileClose (f : Conn) : CloseOpt → Nat × Conn
  | .normal => (0, { f with file := .dead })
  | .lock => (0, { f with file := .dead })
  | .noRewind => (7, { f with file := .dead, mode := .closed })
  | .unit => (7, f)

/-- libcob/fileio.c:4179-4220 `cob_ex_close`. -/
def connClose (cfg : ConnCfg) (f : Conn) (opt : CloseOpt) : FRes :=
  let f := { f with readDone := false }
  if cfg.special ≠ 0 then ⟨0, none, { f with mode := .closed }⟩
  else if f.mode = .closed then ⟨42, none, f⟩
  else
    let touch := if f.nonexistent then none else some f.file
    let r := if f.nonexistent then (0, f) else fileClose f opt
    if r.1 = 0 then
      ⟨0, touch, { r.2 with mode := if opt = .lock then .locked else .closed }⟩
    else ⟨r.1, touch, r.2⟩

/-- libcob/fileio.c:4257-4284 `cob_ex_start`. -/
def connStart (cfg : ConnCfg) (f : Conn) (res : Nat) : FRes :=
  let f := { f with readDone := false, firstRead := 0 }
  if f.nonexistent then ⟨23, none, f⟩
  else if f.mode = .closed ∨ f.mode = .opened .output ∨ f.mode = .opened .extend ∨
      cfg.access = .random then ⟨47, none, f⟩
  else
    ⟨res, some f.file, if res = 0 then { f with eof := false, bof := false, firstRead := 1 } else f⟩

/-- libcob/fileio.c:4302-4373 `cob_ex_read`. -/
def connRead (_cfg : ConnCfg) (f : Conn) (keyed previous : Bool) (res : Nat) : FRes :=
  let f := { f with readDone := false }
  if f.nonexistent then
    if f.firstRead = 0 then ⟨23, none, f⟩ else ⟨10, none, { f with firstRead := 0 }⟩
  else if !keyed && f.eof && !previous then ⟨46, none, f⟩
  else if !keyed && f.bof && previous then ⟨46, none, f⟩
  else if f.mode = .closed ∨ f.mode = .opened .output ∨ f.mode = .opened .extend then
    ⟨47, none, f⟩
  else
    ⟨res, some f.file,
      if res = 0 then { f with firstRead := 0, readDone := true, eof := false, bof := false }
      else if res = 10 then
        if previous then { f with bof := true } else { f with eof := true }
      else f⟩

/-- libcob/fileio.c:4468-4513 `cob_ex_rewrite`; `sizeOk` is the length test of 4487-4497. -/
def connRewrite (cfg : ConnCfg) (f : Conn) (sizeOk : Bool) (res : Nat) : FRes :=
  let readDone := f.readDone
  let f := { f with readDone := false }
  if f.mode ≠ .opened .io then ⟨49, none, f⟩
  else if cfg.access = .sequential && !readDone then ⟨43, none, f⟩
  else if !sizeOk then ⟨44, none, f⟩
  else ⟨res, some f.file, f⟩

/-- libcob/fileio.c:4398-4445 `cob_ex_write`; `sizeOk` is the length test of 4426. -/
def connExWrite (cfg : ConnCfg) (f : Conn) (sizeOk : Bool) (res : Nat) : FRes :=
  let f := { f with readDone := false }
  let denied :=
    if cfg.access = .sequential then
      f.mode = .closed ∨ f.mode = .opened .input ∨ f.mode = .opened .io
    else f.mode = .closed ∨ f.mode = .opened .input ∨ f.mode = .opened .extend
  if denied then ⟨48, none, f⟩
  else if !sizeOk then ⟨44, none, f⟩
  else ⟨res, some f.file, f⟩

/-- libcob/fileio.c:4447-4466 `cob_write`. -/
def connWrite (cfg : ConnCfg) (f : Conn) (sizeOk : Bool) (res : Nat) : FRes :=
  if cfg.access = .sequential ∧ f.mode = .opened .io ∧ cfg.rewriteAssumed = true then
    connRewrite cfg f sizeOk res
  else connExWrite cfg f sizeOk res

/-- libcob/fileio.c:4527-4552 `cob_ex_delete`. -/
def connDelete (cfg : ConnCfg) (f : Conn) (res : Nat) : FRes :=
  let readDone := f.readDone
  let f := { f with readDone := false }
  if f.mode ≠ .opened .io then ⟨49, none, f⟩
  else if cfg.access = .sequential && !readDone then ⟨43, none, f⟩
  else ⟨res, some f.file, f⟩

/-- libcob/fileio.c:4566-4592 `cob_ex_delete_file`, up to the tests (removing the file touches no stream of
the connector). -/
def connDeleteFile (cfg : ConnCfg) (f : Conn) (res : Nat) : FRes :=
  let f := { f with readDone := false }
  if f.mode = .locked then ⟨38, none, f⟩
  else if f.mode ≠ .closed then ⟨41, none, f⟩
  else if cfg.special ≠ 0 then ⟨30, none, f⟩
  else ⟨res, none, f⟩

/-- One statement. -/
def connStep (cfg : ConnCfg) (f : Conn) : FStmt → FRes
  | .openF m missing creates res => connOpen cfg f m missing creates res
  | .close opt => connClose cfg f opt
  | .start res => connStart cfg f res
  | .read k p res => connRead cfg f k p res
  | .write s res => connWrite cfg f s res
  | .rewrite s res => connRewrite cfg f s res
  | .delete res => connDelete cfg f res
  | .deleteFile res => connDeleteFile cfg f res

/-- The statements in order: for each the status and the stream touched. -/
def connRun (cfg : ConnCfg) (f : Conn) : List FStmt → List (Nat × Option Handle)
  | [] => []
  | s :: rest =>
    let r := connStep cfg f s
    (r.status, r.touch) :: connRun cfg r.conn rest

end Cob
