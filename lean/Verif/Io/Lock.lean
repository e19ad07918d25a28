/-
File and record locks of INDEXED files in a Berkeley DB environment (DB_HOME set; libcob/fileio.c,
build USE_DB41): any number of processes, each with any number of open files, whose statements are
interleaved at the granularity of single calls of the lock manager and of the reading and changing
of records.

The lock manager is trusted: `lock_get` with DB_LOCK_NOWAIT grants a lock exactly if no lock of
another locker on the same object conflicts with it (two read locks do not), `lock_put` gives the
lock of a handle back, and has no effect for a handle given back before.  A handle is identified by
the file connector and the kind of lock it was asked for.  What the records are is not modelled
here (C61): `take` and `change` stand for the reading and changing of the record with a key, and
whether a record is found is part of the statement.
-/
namespace Cob.Lock

/-- Modes of locks (DB_LOCK_READ, DB_LOCK_WRITE). -/
inductive Mode where
  | rd | wr
deriving DecidableEq, Repr

/-- Lockers: `bdb_lock_id` of a process (libcob/fileio.c:1677), and `p->bdb_lock_id` of an open file
(libcob/fileio.c:2131). -/
inductive Locker where
  | proc (p : Nat)
  | conn (c : Nat)
deriving DecidableEq, Repr

/-- What a handle was obtained for: `bdb_file_lock`, `bdb_record_lock`, `test_lock`. -/
inductive Kind where
  | file | record | test
deriving DecidableEq, Repr

/-- A lock in the lock table. -/
structure Lk where
  conn : Nat
  kind : Kind
  locker : Locker
  obj : List Nat
  mode : Mode
deriving DecidableEq, Repr

/-- OPEN modes. -/
inductive OpenMode where
  | input | output | io | extend
deriving DecidableEq, Repr

/-- The LOCK MODE clause (cobc/parser.y:1924-1927); `none`: there is none. -/
inductive LockMode where
  | none | manual | automatic | exclusive
deriving DecidableEq, Repr

/-- cobc/typeck.c:6253-6261: the lock phrase of READ. -/
inductive ReadOpt where
  | plain | lock | noLock | ignoreLock | waitLock
deriving DecidableEq, Repr

/-- Single steps of a statement. -/
inductive Act where
  | unlock
  | testGet (key : List Nat)
  | testPut
  | lockGet (key : List Nat)
  | fileGet (m : Mode)
  | filePut
  | take (key : List Nat)
  | change (key : List Nat)
  | closed
  | finish (status : Nat)
deriving DecidableEq, Repr

/-- A file connector: process, name of the file (`filename`), LOCK MODE, open mode if it is open, the locks its
handles stand for, the rest of the statement in execution, the last status. `gone` is only for
stating properties: the file lock was given back since OPEN. -/
structure Conn where
  proc : Nat
  file : List Nat
  lmode : LockMode
  opened : Option OpenMode := none
  asked : OpenMode := .input
  fileLk : Option Mode := none
  recLk : Option (List Nat) := none
  testLk : Option (List Nat) := none
  gone : Bool := false
  todo : List Act := []
  status : Nat := 0
deriving DecidableEq, Repr

/-- All connectors of all processes, the lock table, and what was done to records, latest first. -/
structure Sys where
  conns : Nat → Conn
  table : List Lk := []
  log : List (Nat × Act) := []

/-- libcob/fileio.c:1689-1697, 1716-1724: the object of a record lock: the name of the file with
its end byte, and the key. -/
def recObj (file key : List Nat) : List Nat := file ++ 0 :: key

/-- The lock of a record (libcob/fileio.c:1698). -/
def recL (c : Nat) (file key : List Nat) : Lk := ⟨c, .record, .conn c, recObj file key, .wr⟩

/-- The lock for a test (libcob/fileio.c:1725). -/
def testL (c : Nat) (file key : List Nat) : Lk := ⟨c, .test, .conn c, recObj file key, .wr⟩

/-- The lock of a file (libcob/fileio.c:1988-1991): the object is the name. -/
def fileL (c proc : Nat) (file : List Nat) (m : Mode) : Lk := ⟨c, .file, .proc proc, file, m⟩

/-- Does the lock `a` stand against granting `l`? -/
def conflicts (a l : Lk) : Bool :=
  a.obj = l.obj && a.locker ≠ l.locker && !(a.mode = .rd && l.mode = .rd)

/-- `lock_get` with DB_LOCK_NOWAIT: is `l` granted? -/
def granted (table : List Lk) (l : Lk) : Bool := !table.any fun a => conflicts a l

/-- `lock_put`. -/
def put (table : List Lk) (l : Lk) : List Lk := table.filter (· ≠ l)

/-- libcob/fileio.c:1981-1987: the mode of the file lock. -/
def fileMode (m : OpenMode) (lm : LockMode) : Mode :=
  if m = .output ∨ m = .extend ∨ lm = .exclusive ∨ (m = .io ∧ lm = .none) then .wr else .rd

/-- libcob/fileio.c:4333-4344 `cob_ex_read`: is COB_READ_LOCK set when the file is read?  `m` is the
open mode. -/
def wantsLock (m : OpenMode) (lm : LockMode) (o : ReadOpt) : Bool :=
  if m ≠ .io ∨ lm = .exclusive then false
  else if lm = .automatic ∧ o ≠ .noLock then true
  else o = .lock

/-- Statements.  `key` is the record key of the record the statement finds (`found`) or looks for.
`write`, `rewrite`: `lock` is WITH LOCK (COB_WRITE_LOCK); `dup`: an alternate key is a duplicate. -/
inductive Stmt where
  | opn (m : OpenMode)
  | read (key : List Nat) (found : Bool) (o : ReadOpt)
  | write (key : List Nat) (dup lock : Bool)
  | rewrite (key : List Nat) (found dup lock : Bool)
  | delete (key : List Nat) (found : Bool)
  | unlock
  | close
deriving DecidableEq, Repr

/-- The steps of a statement.  A statement on a file that is not open, or an OPEN of an open file,
does nothing here (C36).
OPEN: libcob/fileio.c:1980-1999.  READ (both forms): libcob/fileio.c:2604-2620 with 2336-2360, 2887-2890
with 2963-2988 and 3108-3134.  WRITE: libcob/fileio.c:3374-3390 with 3317-3330.  REWRITE:
libcob/fileio.c:3660-3692 with 3417-3447 and 3317-3330.  DELETE: libcob/fileio.c:3417-3447.  UNLOCK:
libcob/fileio.c:3807-3812.  CLOSE: libcob/fileio.c:2206-2210. -/
def steps (cn : Conn) : Stmt → List Act
  | .opn m => match cn.opened with
    | none => [.fileGet (fileMode m cn.lmode), .finish 0]
    | some _ => []
  | .read key found o => match cn.opened with
    | none => []
    | some m =>
      if found then
        .unlock :: (if o = .ignoreLock then [] else [.testGet key, .testPut]) ++
          (if wantsLock m cn.lmode o then [.lockGet key] else []) ++ [.take key, .finish 0]
      else [.unlock, .finish 23]
  | .write key dup lock => match cn.opened with
    | none => []
    | some _ =>
      if dup then [.unlock, .finish 22]
      else [.unlock, .change key] ++ (if lock then [.lockGet key] else []) ++ [.finish 0]
  | .rewrite key found dup lock => match cn.opened with
    | none => []
    | some _ =>
      if dup then [.unlock, .finish 22]
      else if found then
        [.unlock, .unlock, .testGet key, .testPut, .change key] ++ (if lock then [.lockGet key] else []) ++ [.finish 0]
      else [.unlock, .unlock, .finish 23]
  | .delete key found => match cn.opened with
    | none => []
    | some _ =>
      if found then [.unlock, .testGet key, .testPut, .change key, .finish 0]
      else [.unlock, .finish 23]
  | .unlock => match cn.opened with
    | none => []
    | some _ => [.unlock, .filePut, .finish 0]
  | .close => match cn.opened with
    | none => []
    | some _ => [.unlock, .filePut, .closed, .finish 0]

/-- Put `cn` in the place of connector `c`. -/
def Sys.set (s : Sys) (c : Nat) (cn : Conn) : Sys :=
  { s with conns := fun d => if d = c then cn else s.conns d }

/-- One step of connector `c`. -/
def move (s : Sys) (c : Nat) : Sys :=
  let cn := s.conns c
  match cn.todo with
  | [] => s
  | a :: rest =>
    let cn := { cn with todo := rest }
    match a with
    | .unlock =>
      -- libcob/fileio.c:1733-1745 `unlock_record`
      match cn.recLk with
      | none => s.set c cn
      | some k => { s.set c { cn with recLk := none } with table := put s.table (recL c cn.file k) }
    | .testGet k =>
      -- libcob/fileio.c:1725 of `test_record_lock`
      if granted s.table (testL c cn.file k) then
        { s.set c { cn with testLk := some k } with table := testL c cn.file k :: s.table }
      else s.set c { cn with todo := [], status := 51 }
    | .testPut =>
      -- libcob/fileio.c:1727-1729
      match cn.testLk with
      | none => s.set c cn
      | some k => { s.set c { cn with testLk := none } with table := put s.table (testL c cn.file k) }
    | .lockGet k =>
      -- libcob/fileio.c:1680-1704 `lock_record`
      if granted s.table (recL c cn.file k) then
        { s.set c { cn with recLk := some k } with table := recL c cn.file k :: s.table }
      else s.set c { cn with todo := [], status := 51 }
    | .fileGet m =>
      -- libcob/fileio.c:1990-1998
      if granted s.table (fileL c cn.proc cn.file m) then
        { s.set c { cn with fileLk := some m, opened := some cn.asked, gone := false } with
          table := fileL c cn.proc cn.file m :: s.table }
      else s.set c { cn with todo := [], status := 61 }
    | .filePut =>
      match cn.fileLk with
      | none => s.set c { cn with gone := true }
      | some m => { s.set c { cn with fileLk := none, gone := true } with table := put s.table (fileL c cn.proc cn.file m) }
    | .take k => { s.set c cn with log := (c, .take k) :: s.log }
    | .change k => { s.set c cn with log := (c, .change k) :: s.log }
    | .closed => s.set c { cn with opened := none }
    | .finish st => s.set c { cn with status := st }

/-- Connector `c` begins a statement (if it has finished the one before). -/
def start (s : Sys) (c : Nat) (x : Stmt) : Sys :=
  let cn := s.conns c
  match cn.todo with
  | [] => s.set c { cn with
      todo := steps cn x,
      asked := match x, cn.opened with | .opn m, none => m | _, _ => cn.asked }
  | _ :: _ => s

/-- What may happen: a connector begins a statement, or does a step of the one it executes. -/
inductive Ev where
  | start (c : Nat) (x : Stmt)
  | move (c : Nat)
deriving DecidableEq, Repr

/-- One event. -/
def step (s : Sys) : Ev → Sys
  | .start c x => start s c x
  | .move c => move s c

/-- A run: any interleaving. -/
def run (s : Sys) (evs : List Ev) : Sys := evs.foldl step s

/-- At the beginning nothing is open: process, file and LOCK MODE of each connector are given. -/
def init (cfg : Nat → Nat × List Nat × LockMode) : Sys :=
  { conns := fun c => { proc := (cfg c).1, file := (cfg c).2.1, lmode := (cfg c).2.2 } }

end Cob.Lock
