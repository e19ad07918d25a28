import Verif.Rt.Call
/-
Model of small library routines that programs CALL: C$JUSTIFY, CBL_TOUPPER, CBL_TOLOWER, C$NARG, C$PARAMSIZE, C$CALLEDBY
(/repo/libcob/common.c:2491-2733), with the part of a CALL that they look at (/repo/cobc/codegen.c:2412-2448, 4371, 4524).
-/
namespace Cob.Small

/-- `memcpy` (or `memmove`) of bytes to an offset. -/
def put (d : List Nat) (off : Nat) (bs : List Nat) : List Nat := d.take off ++ bs ++ d.drop (off + bs.length)

/-- `memset` of spaces. -/
def blank (d : List Nat) (off n : Nat) : List Nat := put d off (List.replicate n 32)

/-- The second argument of C$JUSTIFY: none, or its first character. -/
abbrev Direction := Option Nat

/-- /repo/libcob/common.c:2625-2693 `cob_acuw_justify`. -/
def justify (data : List Nat) (dir : Direction) : List Nat :=
  let datalen := data.length
  if datalen < 2 then data
  else if data.head? ≠ some 32 ∧ data.getLast? ≠ some 32 then data
  else
    let left := (data.takeWhile (· = 32)).length
    if left = datalen then data
    else
      let right := (data.reverse.takeWhile (· = 32)).length
      let movelen := datalen - left - right
      let text := (data.drop left).take movelen
      if dir = some 76 then
        blank (put data 0 text) movelen (datalen - movelen)
      else if dir = some 67 then
        let centrelen := (left + right) / 2
        let d := blank (put data centrelen text) 0 centrelen
        if (left + right) % 2 ≠ 0 then blank d (centrelen + movelen) (centrelen + 1)
        else blank d (centrelen + movelen) centrelen
      else
        blank (put data (left + right) text) 0 (datalen - movelen)

/-- /repo/libcob/common.c:2491-2507 `CBL_TOUPPER`, with the character functions of the C locale: the bytes from the address of the item on, and the length
given. -/
def toUpper (mem : List Nat) (length : Int) : List Nat :=
  if length > 0 then
    (mem.take length.toNat).map (fun c => if 97 ≤ c ∧ c ≤ 122 then c - 32 else c) ++ mem.drop length.toNat
  else mem

/-- /repo/libcob/common.c:2509-2525 `CBL_TOLOWER`. -/
def toLower (mem : List Nat) (length : Int) : List Nat :=
  if length > 0 then
    (mem.take length.toNat).map (fun c => if 65 ≤ c ∧ c ≤ 90 then c + 32 else c) ++ mem.drop length.toNat
  else mem

/-- What the routines know about calls: the programs that are active (the current one first, by the names of their C functions), for every program the
array of its arguments (`cob_user_parameters`; the sizes of the fields, `none` for NULL), and the two counters. -/
structure M where
  active : List (List Nat)
  params : List Nat → List (Option Nat) := fun _ => []
  callParams : Nat := 0
  saved : Nat := 0

/-- /repo/cobc/codegen.c:2412-2448: what a CALL writes before it calls: the arguments, four NULLs behind them, and their number. -/
def M.passes (m : M) (args : List (Option Nat)) : M :=
  match m.active with
  | [] => m
  | p :: _ =>
    { m with
      params := fun q => if q = p then args ++ List.replicate 4 none ++ (m.params p).drop (args.length + 4) else m.params q,
      callParams := args.length }

/-- What happens: a program is called with arguments (of these sizes), a library routine is called, the current program returns. -/
inductive Ev where
  | call (prog : List Nat) (args : List (Option Nat))
  | lib (args : List (Option Nat))
  | ret
deriving DecidableEq

/-- /repo/cobc/codegen.c:4524 at the entry of a program, the link of the modules at entry and exit; library routines enter no program. -/
def step (m : M) : Ev → M
  | .call p args =>
    let m := m.passes args
    { m with active := p :: m.active, saved := m.callParams }
  | .lib args => m.passes args
  | .ret => { m with active := m.active.drop 1 }

/-- The main program, started with this number of arguments. -/
def start (main : List Nat) (n : Nat) : M := { active := [main], callParams := n, saved := n }

def run (main : List Nat) (n : Nat) (es : List Ev) : M := es.foldl step (start main n)

/-- /repo/libcob/common.c:2572-2582 `cob_return_args`: C$NARG. -/
def narg (m : M) : Nat := m.saved

/-- /repo/libcob/common.c:2584-2602 `cob_parameter_size`: C$PARAMSIZE. -/
def paramSize (m : M) (n : Int) : Nat :=
  if n > 0 ∧ n ≤ m.saved then
    match m.active with
    | _ :: caller :: _ => ((m.params caller).getD (n.toNat - 1) none).getD 0
    | _ => 0
  else 0

/-- /repo/libcob/common.c:2706-2733 `cob_acuw_calledby`: the item after C$CALLEDBY, and the value returned. -/
def calledBy (m : M) (data : List Nat) : List Nat × Int :=
  match m.active with
  | _ :: caller :: _ =>
    let length := if caller.length < data.length then caller.length else data.length
    (put data 0 (caller.take length), 1)
  | _ => (List.replicate data.length 32, 0)

end Cob.Small
