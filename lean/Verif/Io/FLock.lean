/-
Files of the organizations SEQUENTIAL, LINE SEQUENTIAL and RELATIVE used by several processes:
OPEN locks the whole file (`fcntl`), CLOSE and UNLOCK give the lock up.

The operating system is trusted to do what POSIX says about record locks: they belong to the process
(not to the descriptor), `F_SETLK` is refused if another process has a lock that conflicts, a new lock
of a process takes the place of its old one, a write lock needs a descriptor open for writing, and when
a process closes any descriptor of a file all its locks of that file are gone.  The C library keeps what
is written in a buffer, and writes it to the file whenever it likes, at the latest in `fclose`.

A run is any interleaving of the single steps of the statements of all processes.

Simplified: the file exists and the process may use it; what the records are is left open (C37, C38,
C39); a process that ends without CLOSE is left out.
-/
namespace Cob.FLock

/-- Open modes (/repo/libcob/common.h `COB_OPEN_*`). -/
inductive OpenMode where
  | input | output | io | extend
deriving DecidableEq, Repr

/-- /repo/cobc/parser.y:2080-2084: what can be said about SHARING. -/
inductive Sharing where
  | all | noOther | readOnly
deriving DecidableEq, Repr

/-- The types of a lock: read and write. -/
inductive Ty where
  | rd | wr
deriving DecidableEq, Repr

/-- /repo/cobc/parser.y:2080-2084: ALL is no value at all. -/
def given : Option Sharing → Option Bool
  | some .noOther => some true
  | some .readOnly => some false
  | _ => none

/-- /repo/cobc/typeck.c:6116-6123 `cb_emit_open`: the argument `sharing` of `cob_open`, from the SHARING
phrase of the OPEN statement, the SHARING clause of the file, and the mode. -/
def sharingArg (phrase clause : Option Sharing) (m : OpenMode) : Bool :=
  let sharing := match given phrase with
    | some b => b
    | none => (given clause).getD false
  if sharing = false ∧ m ≠ .input then true else sharing

/-- /repo/libcob/fileio.c:890: the type of the lock. -/
def lockType (sharing : Bool) (m : OpenMode) : Ty := if sharing ∨ m = .output then .wr else .rd

/-- Where a connector is: closed; between `fopen` and `fcntl`; open; in CLOSE, between the unlock and `fclose`. -/
inductive Phase where
  | closed
  | asking (m : OpenMode) (sharing : Bool)
  | opened (m : OpenMode) (sharing : Bool)
  | closing
deriving DecidableEq, Repr

/-- What a connector is: its process, its file, whether the name begins with `/dev/`, and whether it has
LOCK MODE EXCLUSIVE. -/
structure Cfg where
  proc : Nat
  file : Nat
  dev : Bool := false
  exclusive : Bool := false
deriving DecidableEq, Repr

/-- The state of a connector: its phase, what the C library has in its buffer, the file status. -/
structure Conn where
  phase : Phase := .closed
  buffer : List Nat := []
  status : Nat := 0
deriving DecidableEq, Repr

/-- What happens to the contents of a file. -/
inductive Change where
  | emptied
  | written (data : List Nat)
deriving DecidableEq, Repr

/-- The system: the connectors, the locks (file, process, type), and all changes of files, the last first. -/
structure Sys where
  conns : Nat → Conn
  locks : List (Nat × Nat × Ty)
  log : List (Nat × Change)

/-- The connectors with a new state of one of them. -/
def Sys.set (s : Sys) (c : Nat) (x : Conn) : Sys := { s with conns := fun d => if d = c then x else s.conns d }

/-- The lock of a process for a file becomes this one. -/
def Sys.lockIs (s : Sys) (f p : Nat) (t : Option Ty) : Sys :=
  { s with locks := (t.toList.map fun t => (f, p, t)) ++ s.locks.filter fun l => !(l.1 = f ∧ l.2.1 = p) }

/-- The C library writes its buffer to the file. -/
def Sys.flush (s : Sys) (c : Nat) : Sys :=
  if (s.conns c).buffer = [] then s
  else { s.set c { s.conns c with buffer := [] } with log := (c, .written (s.conns c).buffer) :: s.log }

/-- Two locks of different processes that cannot be held together. -/
def clash (a b : Ty) : Bool := a = .wr || b = .wr

/-- `F_SETLK` is refused: another process has a lock that conflicts. -/
def refused (s : Sys) (f p : Nat) (t : Ty) : Bool := s.locks.any fun l => l.1 = f && l.2.1 ≠ p && clash l.2.2 t

/-- One step. -/
inductive Ev where
  | opn (c : Nat) (m : OpenMode) (phrase clause : Option Sharing)
  | lock (c : Nat)
  | put (c : Nat) (data : List Nat)
  | flush (c : Nat)
  | close (c : Nat)
  | fclose (c : Nat)
  | unlock (c : Nat)
deriving DecidableEq, Repr

/-- /repo/libcob/fileio.c:3863-3866, 834-878 (`cob_ex_open`, `cob_file_open`): status 41 if the file is
open; otherwise `fopen`, which with `w` empties the file. -/
def openStep (s : Sys) (c : Nat) (m : OpenMode) (sharing : Bool) : Sys :=
  match (s.conns c).phase with
  | .closed =>
    let s' := s.set c { s.conns c with phase := .asking m sharing, buffer := [] }
    if m = .output then { s' with log := (c, .emptied) :: s'.log } else s'
  | .opened _ _ => s.set c { s.conns c with status := 41 }
  | _ => s

/-- /repo/libcob/fileio.c:886-900, 4074-4104: `fcntl` and what OPEN returns.  `EBADF` is status 30, `EAGAIN` is
status 61; both close the descriptor. -/
def lockStep (k : Cfg) (s : Sys) (c : Nat) : Sys :=
  match (s.conns c).phase with
  | .asking m sharing =>
    if k.dev then s.set c { s.conns c with phase := .opened m sharing, status := 0 }
    else if m = .input ∧ lockType sharing m = .wr then
      (s.lockIs k.file k.proc none).set c { s.conns c with phase := .closed, status := 30 }
    else if refused s k.file k.proc (lockType sharing m) then
      (s.lockIs k.file k.proc none).set c { s.conns c with phase := .closed, status := 61 }
    else (s.lockIs k.file k.proc (some (lockType sharing m))).set c { s.conns c with phase := .opened m sharing, status := 0 }
  | _ => s

/-- A statement that writes (WRITE, REWRITE, DELETE) puts data into the buffer if the file is open for it (C36). -/
def putStep (s : Sys) (c : Nat) (data : List Nat) : Sys :=
  match (s.conns c).phase with
  | .opened m _ => if m = .input then s.set c { s.conns c with status := 48 }
      else s.set c { s.conns c with buffer := (s.conns c).buffer ++ data, status := 0 }
  | _ => s

/-- The buffer is written at some time while the file is open. -/
def flushStep (s : Sys) (c : Nat) : Sys :=
  match (s.conns c).phase with
  | .opened _ _ => s.flush c
  | _ => s

/-- /repo/libcob/fileio.c:931-939 `cob_file_close`: CLOSE first unlocks the file. -/
def closeStep (k : Cfg) (s : Sys) (c : Nat) : Sys :=
  match (s.conns c).phase with
  | .opened _ _ => (s.lockIs k.file k.proc none).set c { s.conns c with phase := .closing }
  | .closed => s.set c { s.conns c with status := 42 }
  | _ => s

/-- /repo/libcob/fileio.c:941-947: then `fclose`, which writes the buffer. -/
def fcloseStep (k : Cfg) (s : Sys) (c : Nat) : Sys :=
  match (s.conns c).phase with
  | .closing =>
    let s' := (s.flush c).lockIs k.file k.proc none
    s'.set c { s'.conns c with phase := .closed, status := 0 }
  | _ => s

/-- /repo/libcob/fileio.c:3779-3800 `cob_file_unlock`: the buffer is written, and the lock of the file is given up unless LOCK MODE is EXCLUSIVE. -/
def unlockStep (k : Cfg) (s : Sys) (c : Nat) : Sys :=
  match (s.conns c).phase with
  | .opened _ _ =>
    let s' := s.flush c
    let s' := if k.exclusive then s' else s'.lockIs k.file k.proc none
    s'.set c { s'.conns c with status := 0 }
  | _ => s

/-- One step of the system. -/
def step (cfg : Nat → Cfg) (s : Sys) : Ev → Sys
  | .opn c m phrase clause => openStep s c m (sharingArg phrase clause m)
  | .lock c => lockStep (cfg c) s c
  | .put c data => putStep s c data
  | .flush c => flushStep s c
  | .close c => closeStep (cfg c) s c
  | .fclose c => fcloseStep (cfg c) s c
  | .unlock c => unlockStep (cfg c) s c

/-- Any number of steps. -/
def run (cfg : Nat → Cfg) (s : Sys) (evs : List Ev) : Sys := evs.foldl (step cfg) s

/-- Nothing is open. -/
def init : Sys := { conns := fun _ => {}, locks := [], log := [] }

end Cob.FLock
