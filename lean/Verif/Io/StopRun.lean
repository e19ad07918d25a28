import Verif.Io.Status
/-
Model of the end of a run unit (C99): the list of the files that were opened, and what STOP RUN (also a run-time error, or a signal) does with them.

Not modelled: exit procedures (C33), screens, the names in the message, file handlers of the user, ISAM.
-/
namespace Cob.StopRun

/-- The run unit: the connectors of all programs, `file_cache` (/repo/libcob/fileio.c:240-245). -/
structure Unit where
  conns : Nat → Conn
  cache : List Nat

/-- Before the first statement. -/
def start : Unit := ⟨fun _ => .init, []⟩

/-- /repo/libcob/fileio.c:3849-4045: whether OPEN gets to `cob_cache_file`. -/
def reaches (cfg : ConnCfg) (f : Conn) (m : UseMode) (missing creates : Bool) : Bool :=
  f.mode = .closed && cfg.special = 0 &&
    !(missing && m ≠ .output && !cfg.optional && (m ≠ .io || !creates) && (m ≠ .extend || !creates))

/-- /repo/libcob/fileio.c:715-729 `cob_cache_file`. -/
def cacheFile (cache : List Nat) (c : Nat) : List Nat := if c ∈ cache then cache else c :: cache

/-- A statement on the connector `c`. -/
def step (cfg : Nat → ConnCfg) (u : Unit) (c : Nat) (s : FStmt) : Unit :=
  let cache := match s with
    | .openF m missing creates _ => if reaches (cfg c) (u.conns c) m missing creates then cacheFile u.cache c else u.cache
    | _ => u.cache
  ⟨fun i => if i = c then (connStep (cfg c) (u.conns c) s).conn else u.conns i, cache⟩

/-- The statements of the run unit one after the other. -/
def run (cfg : Nat → ConnCfg) : Unit → List (Nat × FStmt) → Unit
  | u, [] => u
  | u, (c, s) :: rest => run cfg (step cfg u c s) rest

/-- /repo/libcob/fileio.c:4871-4899 `cob_exit_fileio`: for every file of the list that is open (not closed, not locked) CLOSE and the message
"Implicit CLOSE".  Gives the connectors afterwards and, for each message, the connector and the stream that was closed. -/
def closeAll (cfg : Nat → ConnCfg) : List Nat → (Nat → Conn) → (Nat → Conn) × List (Nat × Option Handle)
  | [], conns => (conns, [])
  | c :: rest, conns =>
    if (conns c).mode ≠ .closed ∧ (conns c).mode ≠ .locked then
      let r := connClose (cfg c) (conns c) .normal
      let q := closeAll cfg rest (fun i => if i = c then r.conn else conns i)
      (q.1, (c, r.touch) :: q.2)
    else closeAll cfg rest conns

/-- /repo/libcob/common.c:1031-1047 `cob_stop_run`, and /repo/libcob/common.c:215-221 for a signal. -/
def stopRun (cfg : Nat → ConnCfg) (u : Unit) : Unit × List (Nat × Option Handle) :=
  let r := closeAll cfg u.cache u.conns
  (⟨r.1, u.cache⟩, r.2)

end Cob.StopRun
