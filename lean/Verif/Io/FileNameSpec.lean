import Verif.Io.FileName
import Verif.Cobc.Refs
import Verif.Cobc.Source
import Verif.Rt.EnvSpec
/-
Specification for C78: the name of a file.
-/
namespace Cob

/-- Letters, digits, underscore: the characters of a variable's name after `$`. -/
def VarChar (c : Nat) : Prop := (48 ≤ c ∧ c ≤ 57) ∨ (65 ≤ c ∧ c ≤ 90) ∨ (97 ≤ c ∧ c ≤ 122) ∨ c = 95

instance (c : Nat) : Decidable (VarChar c) := by unfold VarChar; infer_instance

/-- A name of a file in a program without `$`, `/`, `.` and the like: only letters, digits, underscores, hyphens. -/
def Logical (n : List Nat) : Prop := ∀ c ∈ n, VarChar c ∨ c = 45

/-- The name is not the `___` form of a word and not in apostrophes. -/
def Uncoded (n : List Nat) : Prop := (¬ ∃ m, n = [95, 95, 95] ++ m ++ [95, 95, 95]) ∧ n.head? ≠ some 39

/-- The value of a variable of the process. -/
def varValue (vars : List (List Nat × List Nat)) (nm : List Nat) : Option (List Nat) :=
  (vars.find? fun p => p.1 = nm).map (·.2)

/-- The pieces of a file name: text, and `$NAME`. -/
inductive NamePart where
  | text (s : List Nat)
  | var (nm : List Nat)

/-- how the name is written. -/
def nameWritten : List NamePart → List Nat
  | [] => []
  | .text s :: ps => s ++ nameWritten ps
  | .var nm :: ps => 36 :: nm ++ nameWritten ps

/-- The pieces are those of the written name: no dollar sign in a text, and a variable's name ends where the characters end that a
name can have. -/
def PartsOk : List NamePart → Prop
  | [] => True
  | .text s :: ps => 36 ∉ s ∧ PartsOk ps
  | .var nm :: ps => nm ≠ [] ∧ (∀ c ∈ nm, VarChar c) ∧ (∀ c, (nameWritten ps).head? = some c → ¬ VarChar c) ∧ PartsOk ps

/-- The name meant: each variable's value in its place, nothing for one that is not set. -/
def meant (vars : List (List Nat × List Nat)) : List NamePart → List Nat
  | [] => []
  | .text s :: ps => s ++ meant vars ps
  | .var nm :: ps => (varValue vars nm).getD [] ++ meant vars ps

/-- The name of the file for a logical name: the value of the variable DD_name, dd_name or name, whichever is there first;
otherwise the name, in the directory COB_FILE_PATH if there is one. -/
def located (vars : List (List Nat × List Nat)) (path : Option (List Nat)) (n : List Nat) : List Nat :=
  match varValue vars (bytes "DD_" ++ n) with
  | some v => v
  | none =>
    match varValue vars (bytes "dd_" ++ n) with
    | some v => v
    | none =>
      match varValue vars n with
      | some v => v
      | none =>
        match path with
        | some p => p ++ bytes "/" ++ n
        | none => n

/-- The word is not KEYBOARD, in capital or small letters. -/
def NotKeyboard (s : List Nat) : Prop := s.map (fun c => if 97 ≤ c ∧ c ≤ 122 then c - 32 else c) ≠ bytes "KEYBOARD"

end Cob
