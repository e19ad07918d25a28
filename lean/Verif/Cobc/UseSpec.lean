import Verif.Cobc.Use
/-
C74: exception phrases and USE procedures.  Specification: file status classes, the phrases, and the texts of USE statements
and nested programs; nothing here uses exception codes or the lists of the compiler.
-/
namespace Cob

/-- The phrases that can stand in a statement with a file. -/
inductive IoPhrase where
  | atEnd
  | invalidKey
  | atEop
deriving DecidableEq, Repr

/-- The file statuses a phrase is for. -/
def IoPhrase.Fits : IoPhrase → Nat → Prop
  | .atEnd, s => s / 10 = 1
  | .invalidKey, s => s / 10 = 2
  | .atEop, s => s = 52

/-- The `handler_id` of a phrase, /repo/cobc/parser.y:6562-6576, 6608-6622, 6658-6672. -/
def IoPhrase.code : IoPhrase → Nat
  | .atEnd => 0x0501
  | .invalidKey => 0x0506
  | .atEop => 0x0502

/-- ON SIZE ERROR and ON OVERFLOW: the exceptions of their class (/repo/libcob/exception.def: EC-SIZE is 0x1000 to 0x10ff,
EC-OVERFLOW 0x0a00 to 0x0aff), and their `handler_id`, /repo/cobc/parser.y:6501-6517, 6529. -/
inductive ExcPhrase where
  | sizeError
  | overflow
deriving DecidableEq, Repr

def ExcPhrase.class : ExcPhrase → Nat
  | .sizeError => 0x10
  | .overflow => 0x0a

/-- The first, and the last, element with a property. -/
def FirstSuch {α : Type} (l : List α) (P : α → Prop) (x : α) : Prop :=
  ∃ a b, l = a ++ x :: b ∧ P x ∧ ∀ y ∈ a, ¬ P y

def LastSuch {α : Type} (l : List α) (P : α → Prop) (x : α) : Prop :=
  ∃ a b, l = a ++ x :: b ∧ P x ∧ ∀ y ∈ b, ¬ P y

/-- A USE statement names a file: name, and whether the file is GLOBAL. -/
def UseStmt.NamesFile (u : UseStmt) (n : Nat) (g : Bool) : Prop := ∃ l, u.target = .files l ∧ (n, g) ∈ l

/-- A USE statement for an open mode. -/
def UseStmt.ForMode (u : UseStmt) (m : Nat) : Prop := u.target = .mode m

/-- The program with number `i` contains, directly or indirectly, the one with number `j`: all programs behind it up to `j` are
nested deeper. -/
def Contains (ps : List UseProg) (i j : Nat) : Prop :=
  ∃ p, ps[i]? = some p ∧ i < j ∧ j < ps.length ∧ ∀ (k : Nat) (r : UseProg), i < k → k ≤ j → ps[k]? = some r → p.level < r.level

/-- The program has a USE GLOBAL procedure for the mode: the last USE statement for the mode is GLOBAL. -/
def GlobalFor (p : UseProg) (m s : Nat) : Prop :=
  ∃ u, LastSuch p.uses (·.ForMode m) u ∧ u.glob = true ∧ u.sect = s

/-- All GLOBAL files named in USE GLOBAL statements, in the order of the source, with program and section. -/
def globalUses : (i : Nat) → List UseProg → List UEntry
  | _, [] => []
  | i, p :: ps =>
    (p.uses.flatMap fun u => match u.target with
      | .files l => if u.glob then (l.filter (·.2)).map fun f => ⟨f.1, i, u.sect⟩ else []
      | .mode _ => []) ++ globalUses (i + 1) ps

end Cob
