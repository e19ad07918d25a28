import Verif.Cobc.SourceSpec
/-
Conditional compilation: `$IF name [NOT] DEFINED`, `$IF name [NOT] = "text"`, `$ELSE`, `$END` in fixed format.
-/
namespace Cob

/-- Equal but for the case of letters. -/
def eqNoCase (a b : List Nat) : Bool :=
  a.map (fun c => if 65 ≤ c ∧ c ≤ 90 then c + 32 else c) == b.map (fun c => if 65 ≤ c ∧ c ≤ 90 then c + 32 else c)

/-- A condition; `neg`: with NOT. -/
inductive DirCond where
  | defined (neg : Bool) (name : List Nat)
  | equals (neg : Bool) (name text : List Nat)
  deriving DecidableEq

/-- The words of a condition. -/
def DirCond.words : DirCond → List (List Nat)
  | .defined neg n => n :: (if neg then [bytes "NOT"] else []) ++ [bytes "DEFINED"]
  | .equals neg n t => n :: (if neg then [bytes "NOT"] else []) ++ [bytes "=", 34 :: t ++ [34]]

/-- The text of a comparison is not empty and has no quotation mark in it. -/
def DirCond.Ok : DirCond → Prop
  | .defined _ _ => True
  | .equals _ _ t => t ≠ [] ∧ 34 ∉ t

/-- The truth of a condition for the constants of the command line.  A numeric constant (without text) is equal to
nothing. -/
def DirCond.holds (consts : List (List Nat × Option (List Nat))) : DirCond → Bool
  | .defined neg n => neg != consts.any fun c => eqNoCase c.1 n
  | .equals neg n t => neg != match (consts.filter fun c => eqNoCase c.1 n).head? with
    | some (_, some v) => eqNoCase v t
    | _ => false

/-- The words of a text, separated by spaces. -/
inductive HasWords : List Nat → List (List Nat) → Prop
  | none (n : Nat) : HasWords (List.replicate n 32) []
  | last (n : Nat) (w : List Nat) (hw : w ≠ []) (hs : 32 ∉ w) : HasWords (List.replicate n 32 ++ w) [w]
  | more (n : Nat) (w rest : List Nat) (ws : List (List Nat)) (hw : w ≠ []) (hs : 32 ∉ w) (hr : HasWords rest ws) :
    HasWords (List.replicate n 32 ++ w ++ 32 :: rest) (w :: ws)

/-- A directive: `$` in column 7, the words of columns 7 to 72 are `ws` but for the case of letters. -/
structure DirLine (l : List Nat) (ws : List (List Nat)) : Prop where
  len : l.length ≤ 255
  chars : ∀ c ∈ l, c ≠ 9 ∧ c ≠ 10 ∧ c ≠ 13 ∧ c ≠ 11 ∧ c ≠ 12
  star : ∀ p, 7 ≤ p → ¬ (l[p]? = some 42 ∧ l[p + 1]? = some 62)
  dollar : l[6]? = some 36
  words : ∃ vs, HasWords ((l.drop 6).take 66) vs ∧ vs.length = ws.length ∧ ∀ p ∈ vs.zip ws, eqNoCase p.1 p.2 = true

/-- A file with conditional parts. -/
inductive IfText where
  | done
  | line (l : List Nat) (rest : IfText)
  | ifEnd (i : List Nat) (c : DirCond) (yes : IfText) (e : List Nat) (rest : IfText)
  | ifElse (i : List Nat) (c : DirCond) (yes : IfText) (el : List Nat) (no : IfText) (e : List Nat) (rest : IfText)

/-- All lines, as they are written. -/
def IfText.lines : IfText → List (List Nat)
  | .done => []
  | .line l rest => l :: rest.lines
  | .ifEnd i _ yes e rest => i :: (yes.lines ++ e :: rest.lines)
  | .ifElse i _ yes el no e rest => i :: (yes.lines ++ el :: (no.lines ++ e :: rest.lines))

/-- The lines that are to be compiled. -/
def IfText.selected (consts : List (List Nat × Option (List Nat))) : IfText → List (List Nat)
  | .done => []
  | .line l rest => l :: rest.selected consts
  | .ifEnd _ c yes _ rest => (if c.holds consts then yes.selected consts else []) ++ rest.selected consts
  | .ifElse _ c yes _ no _ rest =>
    (if c.holds consts then yes.selected consts else no.selected consts) ++ rest.selected consts

/-- The depth of nesting. -/
def IfText.depth : IfText → Nat
  | .done => 0
  | .line _ rest => rest.depth
  | .ifEnd _ _ yes _ rest => max (yes.depth + 1) rest.depth
  | .ifElse _ _ yes _ no _ rest => max (max (yes.depth + 1) (no.depth + 1)) rest.depth

/-- Ordinary lines and directives stand where they should. -/
def IfText.Ok : IfText → Prop
  | .done => True
  | .line l rest => SrcOk l ∧ rest.Ok
  | .ifEnd i c yes e rest => DirLine i (bytes "$IF" :: c.words) ∧ c.Ok ∧ yes.Ok ∧ DirLine e [bytes "$END"] ∧ rest.Ok
  | .ifElse i c yes el no e rest =>
    DirLine i (bytes "$IF" :: c.words) ∧ c.Ok ∧ yes.Ok ∧ DirLine el [bytes "$ELSE"] ∧ no.Ok ∧ DirLine e [bytes "$END"] ∧ rest.Ok

/-- The lines of a text that are not empty.  `cur`: the beginning of the first one. -/
def srcLines : (cur : List Nat) → List Nat → List (List Nat)
  | cur, [] => if cur = [] then [] else [cur]
  | cur, c :: t => if c = 10 then (if cur = [] then srcLines [] t else cur :: srcLines [] t) else srcLines (cur ++ [c]) t

end Cob
