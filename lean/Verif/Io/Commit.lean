import Verif.Io.StopRun
import Verif.Io.FLock
/-
Model of COMMIT and ROLLBACK (C100) for files that are not INDEXED: both walk through the list of the files that were opened and unlock each one.

Two views: which streams they use (over the connectors of C36 and the list of C99), and what that does to locks and files (over the processes of C92).

Not modelled: INDEXED files (`unlock_record`), the file handlers of the user, a build with VBISAM.
-/
namespace Cob.Commit

/-- What `cob_file_unlock` does to one file: `fflush`, `fsync` and `fileno` get this stream, and the lock is given up or not. -/
structure Unlocked where
  conn : Nat
  stream : Handle
  lockGone : Bool
deriving DecidableEq, Repr

/-- /repo/libcob/fileio.c:3767-3822 `cob_file_unlock`: nothing for a file that is closed (or closed WITH LOCK). -/
def fileUnlock (exclusive : Bool) (c : Nat) (f : Conn) : List Unlocked :=
  if f.mode ≠ .closed ∧ f.mode ≠ .locked then [⟨c, f.file, !exclusive⟩] else []

/-- /repo/libcob/fileio.c:4700-4708 `cob_ex_commit`. -/
def commit (exclusive : Nat → Bool) (u : StopRun.Unit) : List Unlocked :=
  u.cache.flatMap fun c => fileUnlock (exclusive c) c (u.conns c)

/-- /repo/libcob/fileio.c:4719-4727 `cob_ex_rollback`: the same loop. -/
def rollback (exclusive : Nat → Bool) (u : StopRun.Unit) : List Unlocked :=
  u.cache.flatMap fun c => fileUnlock (exclusive c) c (u.conns c)

/-- /repo/libcob/fileio.c:3828-3833 `cob_ex_unlock_file`: the UNLOCK statement; the file status becomes 00. -/
def unlock (exclusive : Nat → Bool) (u : StopRun.Unit) (c : Nat) : List Unlocked × Nat := (fileUnlock (exclusive c) c (u.conns c), 0)

open FLock in
/-- /repo/libcob/fileio.c:3779-3800 `cob_file_unlock` among processes: the buffer is written, and the lock is given up unless LOCK MODE is EXCLUSIVE;
no file status is set. -/
def release (k : FLock.Cfg) (s : FLock.Sys) (c : Nat) : FLock.Sys :=
  match (s.conns c).phase with
  | .opened _ _ => if k.exclusive then s.flush c else (s.flush c).lockIs k.file k.proc none
  | _ => s

/-- /repo/libcob/fileio.c:4700-4708 `cob_ex_commit` (and 4719-4727 `cob_ex_rollback`) of the process whose list of opened files this is. -/
def releaseAll (cfg : Nat → FLock.Cfg) (s : FLock.Sys) : List Nat → FLock.Sys
  | [] => s
  | c :: rest => releaseAll cfg (release (cfg c) s c) rest

end Cob.Commit
