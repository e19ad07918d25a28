import Verif.Rt.Env
/-
Specification for C77: environment variables, arguments, the command line.
-/
namespace Cob

/-- The text an item stands for: without the spaces and NULs at its end, and up to the first NUL. -/
def asString (d : List Nat) : List Nat :=
  ((d.reverse.dropWhile (fun c => c == 32 || c == 0)).reverse).takeWhile (fun c => c != 0)

/-- What an alphanumeric item of `size` bytes holds after it has received a text: the text from the left (from the right if the
item is JUSTIFIED), cut or filled with spaces. -/
def received (just : Bool) (size : Nat) (text : List Nat) : List Nat :=
  if just then (List.replicate size 32 ++ text).drop text.length else (text ++ List.replicate size 32).take size

/-- The variables a process starts with: names without an equal sign, each with a value. -/
def Vars77 (vars : List (List Nat × List Nat)) : Prop := ∀ p ∈ vars, p.1 ≠ [] ∧ 61 ∉ p.1

/-- The strings of `environ` for these variables. -/
def environOf (vars : List (List Nat × List Nat)) : List (List Nat) := vars.map fun p => p.1 ++ [61] ++ p.2

/-- The name chosen for DISPLAY/ACCEPT ENVIRONMENT-VALUE after the statement: a name of up to 1023 characters replaces it. -/
def chosen (cur : Option (List Nat)) : EnvOp → Option (List Nat)
  | .name d => if d.length ≤ 1023 then some (asString d) else cur
  | .set n _ => if n.length ≤ 1023 then some (asString n) else cur
  | _ => cur

/-- The assignment the statement makes, the chosen name being `cur` before it: none with no name, or a name with an equal sign. -/
def assigns (cur : Option (List Nat)) : EnvOp → Option (List Nat × List Nat)
  | .value v => cur.bind fun nm => if nm = [] ∨ 61 ∈ nm then none else some (nm, asString v)
  | .set n v =>
    (chosen cur (.set n v)).bind fun nm => if nm = [] ∨ 61 ∈ nm then none else some (nm, asString v)
  | _ => none

/-- All assignments, in the order in which they are made. -/
def assignments (cur : Option (List Nat)) : List EnvOp → List (List Nat × List Nat)
  | [] => []
  | o :: os => (assigns cur o).toList ++ assignments (chosen cur o) os

/-- The value of a variable: the last one assigned, otherwise the one the process started with. -/
def valueNow (vars asg : List (List Nat × List Nat)) (nm : List Nat) : Option (List Nat) :=
  match (asg.reverse.find? fun p => p.1 = nm) with
  | some p => some p.2
  | none => (vars.find? fun p => p.1 = nm).map (·.2)

/-- The statement does not choose another argument. -/
def KeepsPlace : EnvOp → Prop
  | .argNo .. => False
  | _ => True

/-- The statement accepts an argument. -/
def EnvOp.isArg : EnvOp → Bool
  | .argValue .. => true
  | _ => false

/-- The last text displayed upon the command line, if any. -/
def lastCmd : List EnvOp → Option (List Nat)
  | [] => none
  | .putCmd d :: os => some ((lastCmd os).getD d)
  | _ :: os => lastCmd os

end Cob
