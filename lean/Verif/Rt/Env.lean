import Verif.Move.Numeric
import Verif.Move.Alnum
import Verif.Rt.Call
/-
Model of the program's contact with the process that started it (libcob/common.c 1842-2033): environment variables, the
arguments and the command line.  Receiving items are alphanumeric; the number of arguments also goes to numeric items.
-/
namespace Cob

/-- What the statements look at: the process's `environ` (strings `NAME=VALUE`), `cob_argv` with the program's own name first
(libcob/common.c:81-82), `current_arg` (libcob/common.c:86), `cob_local_env` (libcob/common.c:85, `none`: not allocated) and
the `commlncnt` bytes at `commlnptr` (libcob/common.c:87-88). -/
structure PEnv where
  environ : List (List Nat)
  argv : List (List Nat)
  curArg : Nat := 1
  name : Option (List Nat) := none
  cmd : List Nat := []
deriving DecidableEq, Repr

/-- What a statement does besides: does it raise an exception, and what it stores in the receiving item (`none`: the item keeps
what it has). -/
structure EnvOut where
  raised : Bool := false
  stored : Option (List Nat) := none
deriving DecidableEq, Repr

/-- `getenv` (C library): the rest of the first string that begins with the name and an equal sign. -/
def cGetenv (environ : List (List Nat)) (nm : List Nat) : Option (List Nat) :=
  if nm = [] then none
  else (environ.find? (fun e => (nm ++ [61]).isPrefixOf e)).map (List.drop (nm.length + 1))

/-- `setenv` (C library) over the strings: the first string of the name is replaced, or a string is added. -/
def putVar (nm v : List Nat) : List (List Nat) → List (List Nat)
  | [] => [nm ++ [61] ++ v]
  | e :: es => if (nm ++ [61]).isPrefixOf e then (nm ++ [61] ++ v) :: es else e :: putVar nm v es

/-- `setenv (nm, v, 1)` (C library): `none` for an empty name or one with an equal sign. -/
def cSetenv (environ : List (List Nat)) (nm v : List Nat) : Option (List (List Nat)) :=
  if nm = [] ∨ 61 ∈ nm then none else some (putVar nm v environ)

/-- libcob/common.c:863-874 `cob_memcpy`, :876-887 `cob_hankaku_memcpy` to an alphanumeric item of `size` bytes; text of no
length moves as a space (libcob/move.c:1532-1534, :1729-1731). -/
def memToText (just : Bool) (size : Nat) (src : List Nat) : List Nat :=
  if size = 0 then [] else moveAlnum just (if src = [] then [32] else src) size

/-- libcob/common.c:1933-1944 `cob_display_environment`. -/
def displayEnvironment (st : PEnv) (d : List Nat) : PEnv × Bool :=
  let st := if st.name = none then { st with name := some [] } else st
  if d.length > 1023 then (st, true) else ({ st with name := some (fieldToString d) }, false)

/-- libcob/common.c:1946-1968 `cob_display_env_value`. -/
def displayEnvValue (st : PEnv) (d : List Nat) : PEnv × Bool :=
  match st.name with
  | none => (st, true)
  | some nm =>
    if nm = [] then (st, true)
    else
      match cSetenv st.environ nm (fieldToString d) with
      | none => (st, true)
      | some e => ({ st with environ := e }, false)

/-- libcob/common.c:1971-1975 `cob_set_environment`. -/
def setEnvironment (st : PEnv) (n v : List Nat) : PEnv × Bool :=
  let r := displayEnvironment st n
  let q := displayEnvValue r.1 v
  (q.1, r.2 || q.2)

/-- libcob/common.c:1978-1998 `cob_get_environment`. -/
def getEnvironment (st : PEnv) (n : List Nat) (just : Bool) (size : Nat) : EnvOut :=
  if n.length < 1024 then
    match cGetenv st.environ (fieldToString n) with
    | none => ⟨true, some (memToText just size [32])⟩
    | some v => ⟨false, some (memToText just size v)⟩
  else ⟨true, some (memToText just size [32])⟩

/-- libcob/common.c:2001-2013 `cob_accept_environment`. -/
def acceptEnvironment (st : PEnv) (just : Bool) (size : Nat) : EnvOut :=
  match st.name.bind (cGetenv st.environ) with
  | none => ⟨true, some (memToText just size [32])⟩
  | some v => ⟨false, some (memToText just size v)⟩

/-- libcob/common.c:1892-1894, :1911-1913: the temporary item of the two statements, holding `n`. -/
def argItem (n : Nat) : Item := ⟨.binary, ⟨{ digits := 9 }, leBytes 4 n⟩⟩

/-- libcob/common.c:1885-1901 `cob_display_arg_number` of a numeric item.  `n` is read back from four bytes as an `int`; `none`:
the move is not modelled. -/
def displayArgNumber (ebc cut : Bool) (st : PEnv) (src : Item) : Option (PEnv × Bool) :=
  match cobMoveNum ebc cut src (argItem 0) with
  | .done it =>
    let n := leVal it.field.data
    if 2 ^ 31 ≤ n ∨ st.argv.length ≤ n then some (st, true) else some ({ st with curArg := n }, false)
  | _ => none

/-- libcob/common.c:1904-1915 `cob_accept_arg_number` into a numeric item. -/
def acceptArgNumber (ebc cut : Bool) (st : PEnv) (dst : Item) : MoveRes :=
  cobMoveNum ebc cut (argItem (st.argv.length - 1)) dst

/-- libcob/common.c:1918-1926 `cob_accept_arg_value`. -/
def acceptArgValue (st : PEnv) (just : Bool) (size : Nat) : PEnv × EnvOut :=
  if st.argv.length ≤ st.curArg then (st, ⟨true, none⟩)
  else ({ st with curArg := st.curArg + 1 }, ⟨false, some (memToText just size (st.argv.getD st.curArg []))⟩)

/-- libcob/common.c:1866-1875: the loop of `cob_accept_command_line` over the arguments, `buff` being filled so far. -/
def joinArgs (buff : List Nat) : List (List Nat) → List Nat
  | [] => buff
  | a :: as => if buff.length + a.length ≥ 8192 then buff else joinArgs (buff ++ a ++ [32]) as

/-- libcob/common.c:1853-1878 `cob_accept_command_line`. -/
def acceptCommandLine (st : PEnv) (just : Bool) (size : Nat) : EnvOut :=
  if st.cmd.length ≠ 0 then ⟨false, some (memToText just size st.cmd)⟩
  else ⟨false, some (memToText just size (joinArgs [] (st.argv.drop 1)))⟩

/-- libcob/common.c:2016-2033 `cob_chain_setup`: the bytes of the CHAINING item with number `parm` (cobc/parser.y:176-200: from 1
on). -/
def chainSetup (argv : List (List Nat)) (parm size : Nat) : List Nat :=
  let data := List.replicate size 32
  if parm ≤ argv.length - 1 then
    let a := argv.getD parm []
    if a.length ≤ size then a ++ data.drop a.length else a.take size
  else data

/-- The statements. -/
inductive EnvOp where
  | name (d : List Nat)
  | value (d : List Nat)
  | set (n v : List Nat)
  | getEnv (n : List Nat) (just : Bool) (size : Nat)
  | getValue (just : Bool) (size : Nat)
  | argNo (ebc cut : Bool) (src : Item)
  | argValue (just : Bool) (size : Nat)
  | putCmd (d : List Nat)
  | getCmd (just : Bool) (size : Nat)
deriving DecidableEq, Repr

/-- cobc/typeck.c:3339-3416, 3685-3720, 6564-6568: each statement calls one function (`argNo`: a move that is not
modelled leaves everything as it is).  libcob/common.c:1842-1851 `cob_display_command_line`. -/
def envStep (st : PEnv) : EnvOp → PEnv × EnvOut
  | .name d => ((displayEnvironment st d).1, ⟨(displayEnvironment st d).2, none⟩)
  | .value d => ((displayEnvValue st d).1, ⟨(displayEnvValue st d).2, none⟩)
  | .set n v => ((setEnvironment st n v).1, ⟨(setEnvironment st n v).2, none⟩)
  | .getEnv n just size => (st, getEnvironment st n just size)
  | .getValue just size => (st, acceptEnvironment st just size)
  | .argNo ebc cut src =>
    match displayArgNumber ebc cut st src with
    | some r => (r.1, ⟨r.2, none⟩)
    | none => (st, {})
  | .argValue just size => acceptArgValue st just size
  | .putCmd d => ({ st with cmd := d }, {})
  | .getCmd just size => (st, acceptCommandLine st just size)

/-- A run of statements. -/
def envRun (st : PEnv) (ops : List EnvOp) : PEnv := ops.foldl (fun s o => (envStep s o).1) st

end Cob
