/-
Model of the life of COBOL programs in a run: what the C function of a program does on entry, on exit and when it is
cancelled (cobc/codegen.c `output_internal_function`), with the storage it works on.

The programs of a run are numbered.  What the statements of a program do to its own storage is an event of the history, so a
theorem about all histories is one about all programs and all executions.

Not modelled: contained programs (they share RETURN-CODE with the outermost one), parameters (C79), EXTERNAL and BASED
items, LOCAL-STORAGE items that are GLOBAL, SORT files, CHAINING, the decimals of the program (C06), CALLs to functions that
are not COBOL programs, STOP RUN.
-/
namespace Cob.Life

/-- What the compiler knows of a program: `initial` is IS INITIAL (`flag_initial`), `main` is `flag_main` (the program that
was compiled with -x), `implicit` is -fimplicit-init; `ws0` and `ls0` are the images that /repo/cobc/codegen.c:4018-4035
`output_initial_values` gives to WORKING-STORAGE and LOCAL-STORAGE (C62). -/
structure Prog where
  initial : Bool := false
  main : Bool := false
  implicit : Bool := false
  ws0 : List Nat := []
  ls0 : List Nat := []
deriving DecidableEq, Repr

/-- The static storage of a program: whether `cob_set_cancel` was called for it, WORKING-STORAGE, the flag `initialized`
(/repo/cobc/codegen.c:4085), RETURN-CODE (an item of WORKING-STORAGE with VALUE ZERO, /repo/cobc/typeck.c:523-528), `module.next` and
the files with an `open_mode` other than closed. -/
structure Static where
  inited : Bool := false
  registered : Bool := false
  ws : List Nat := []
  rc : Int := 0
  next : Option Nat := none
  opened : List Nat := []
deriving DecidableEq, Repr

/-- The state of the run: the static storage of each program, `cob_current_module`, the activations on the C stack (the last
one first) with their LOCAL-STORAGE - its address is in an automatic variable, /repo/cobc/codegen.c:392-405 -, and the files
that the operating system holds open, as (program, file). -/
structure Rt where
  unit : Nat → Static
  current : Option Nat
  frames : List (Nat × List Nat)
  handles : List (Nat × Nat)

/-- A change of the static storage of program `q`. -/
def Rt.set (r : Rt) (q : Nat) (u : Static) : Rt := { r with unit := fun x => if x = q then u else r.unit x }

/-- /repo/cobc/codegen.c:4380-4405, 4473-4493: the initial values of WORKING-STORAGE and the initialisation of the files, which
sets `open_mode` to closed (/repo/cobc/codegen.c:3737-3767) without looking at what it was. -/
def fresh (p : Prog) (u : Static) : Static := { u with ws := p.ws0, rc := 0, opened := [] }

/-- /repo/cobc/codegen.c:4340-4413, 4473-4515: entry into program `q`: `module.next`, `cob_current_module`, the block for programs that are
not initialized, the initial values of an INITIAL program, LOCAL-STORAGE. -/
def enter (P : Nat → Prog) (q : Nat) (r : Rt) : Rt :=
  let p := P q
  let u : Static := { r.unit q with next := r.current }
  let u := if u.inited = false then
      let u := if p.main = false ∧ (p.implicit = true ∨ u.next ≠ none) then { u with registered := true } else u
      let u := if p.initial = false then fresh p u else u
      { u with inited := true }
    else u
  let u := if p.initial then fresh p u else u
  { r.set q u with current := some q, frames := (q, p.ls0) :: r.frames }

/-- /repo/cobc/codegen.c:4600-4623: exit from the running program: LOCAL-STORAGE is freed, `cob_current_module =
cob_current_module->next`, the value of the function is RETURN-CODE; /repo/cobc/codegen.c:2541-2548: the calling program assigns
it to its own RETURN-CODE. -/
def leave (r : Rt) : Rt :=
  match r.frames with
  | [] => r
  | (p, _) :: rest =>
    let r' : Rt := { r with current := r.current.bind (fun m => (r.unit m).next), frames := rest }
    match rest with
    | [] => r'
    | (c, _) :: _ => r'.set c { r'.unit c with rc := (r.unit p).rc }

/-- /repo/cobc/codegen.c:4290-4311: the program called with a negative entry; /repo/libcob/call.c:529-552 `cobcancel` calls it if
`cob_set_cancel` was called (`flag_is_active` is always 0). -/
def cancel (q : Nat) (r : Rt) : Rt :=
  let u := r.unit q
  if u.registered = false ∨ u.inited = false then r
  else { r.set q { u with inited := false, opened := [] } with
    handles := r.handles.filter (fun h => !(h.1 == q && u.opened.contains h.2)) }

/-- What the running program does: it changes its WORKING-STORAGE, its LOCAL-STORAGE or its RETURN-CODE, opens or closes file
`i`, calls or cancels program `q`, executes EXIT PROGRAM or GOBACK. -/
inductive Ev where
  | setWs (d : List Nat)
  | setLs (d : List Nat)
  | setRc (n : Int)
  | openF (i : Nat)
  | closeF (i : Nat)
  | call (q : Nat)
  | cancel (q : Nat)
  | exitProgram
  | goback
deriving DecidableEq, Repr

/-- One event; nothing happens any more when the first program has been left.  EXIT PROGRAM and GOBACK:
/repo/cobc/codegen.c:2773-2783.  OPEN of a file that is open and CLOSE of one that is not change nothing. -/
def step (P : Nat → Prog) (r : Rt) (e : Ev) : Rt :=
  match r.frames with
  | [] => r
  | (p, _) :: rest =>
    let u := r.unit p
    match e with
    | .setWs d => r.set p { u with ws := d }
    | .setLs d => { r with frames := (p, d) :: rest }
    | .setRc n => r.set p { u with rc := n }
    | .openF i =>
      if i ∈ u.opened then r
      else { r.set p { u with opened := i :: u.opened } with handles := (p, i) :: r.handles }
    | .closeF i =>
      if i ∈ u.opened then
        { r.set p { u with opened := u.opened.filter (fun x => !(x == i)) } with
          handles := r.handles.filter (fun h => !(h == (p, i))) }
      else r
    | .call q => enter P q r
    | .cancel q => cancel q r
    | .exitProgram => if (P p).implicit = true ∨ u.next ≠ none then leave r else r
    | .goback => leave r

/-- The run before any program. -/
def blank : Rt := { unit := fun _ => {}, current := none, frames := [], handles := [] }

/-- The run that starts with program `m`, after the events. -/
def run (P : Nat → Prog) (m : Nat) (es : List Ev) : Rt := es.foldl (step P) (enter P m blank)

end Cob.Life
