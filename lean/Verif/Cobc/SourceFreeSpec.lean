import Verif.Cobc.SourceIfSpec
/-
Free format, tabs and line ends, the directive that changes the format.
-/
namespace Cob

/-- Tabs go to the next column that is a multiple of `tab`; `col`: the column of the first character, from 0. -/
def untab (tab : Nat) : (col : Nat) → List Nat → List Nat
  | _, [] => []
  | col, c :: l =>
    if c = 9 then List.replicate (tab - col % tab) 32 ++ untab tab (col + (tab - col % tab)) l
    else c :: untab tab (col + 1) l

/-- A file of lines with their line ends. -/
def rawFile (lines : List (List Nat × List Nat)) : List Nat := (lines.map fun p => p.1 ++ p.2).flatten

/-- A line of free format as it is read: it begins with a space. -/
def freeLine (l : List Nat) : List Nat :=
  match l with
  | [] => []
  | c :: t => if c = 32 then c :: t else 32 :: c :: t

/-- There is no comment `*>` in the line. -/
def NoStar (l : List Nat) : Prop := ∀ p, ¬ (l[p]? = some 42 ∧ l[p + 1]? = some 62)

/-- A line of free format without tabs, not longer than 254 characters, that is not a directive. -/
structure FreeOk (l : List Nat) : Prop where
  len : l.length ≤ 254
  chars : ∀ c ∈ l, c ≠ 9 ∧ c ≠ 10 ∧ c ≠ 13
  dollar : (freeLine l)[1]? ≠ some 36
  direct : ∀ n r, l ≠ List.replicate n 32 ++ 62 :: 62 :: r

/-- The text of a line of free format: a comment from column 8 on that has no `"` in it is cut off; no other comment is
looked at here. -/
inductive FreeText : List Nat → List Nat → Prop
  | plain (l : List Nat) (h : NoStar l) : FreeText l (freeLine l)
  | comment (t c : List Nat) (h : NoStar (t ++ [42])) (hlen : 7 ≤ (freeLine t).length) (hc : 34 ∉ c) :
      FreeText (t ++ 42 :: 62 :: c) (freeLine t)

/-- A directive `>>` whose words are `ws` but for the case of letters. -/
structure FormatLine (start : List Nat) (l : List Nat) (ws : List (List Nat)) : Prop where
  len : l.length ≤ 254
  chars : ∀ c ∈ l, c ≠ 9 ∧ c ≠ 10 ∧ c ≠ 13 ∧ c ≠ 11 ∧ c ≠ 12
  star : NoStar l
  text : ∃ n t vs, l = start ++ List.replicate n 32 ++ 62 :: 62 :: t ∧ t.head? ≠ some 68 ∧ HasWords t vs ∧
    vs.length = ws.length ∧ ∀ p ∈ vs.zip ws, eqNoCase p.1 p.2 = true

/-- The ways to write the directive that changes to the format `f`. -/
def formatWords (f : List Nat) : List (List (List Nat)) :=
  [[bytes "SOURCE", f], [bytes "SOURCE", bytes "FORMAT", f], [bytes "SOURCE", bytes "IS", f],
   [bytes "SOURCE", bytes "FORMAT", bytes "IS", f]]

/-- A line of the format FREE_1COL_ASTER that is not a directive. -/
structure AsterOk (l : List Nat) : Prop where
  len : l.length ≤ 255
  chars : ∀ c ∈ l, c ≠ 9 ∧ c ≠ 10 ∧ c ≠ 13
  dollar : l[1]? ≠ some 36
  direct : ∀ n r, l ≠ List.replicate n 32 ++ 62 :: 62 :: r

/-- The text of a line of the format FREE_1COL_ASTER: a line with `*` in column 1 is a comment, unless it begins with `*>`;
otherwise as in free format, but no space is put in front. -/
inductive AsterText : List Nat → List Nat → Prop
  | aster (c : List Nat) (h : c.head? ≠ some 62) : AsterText (42 :: c) []
  | plain (l : List Nat) (h : NoStar l) (h1 : l.head? ≠ some 42) : AsterText l l
  | comment (t c : List Nat) (h : NoStar (t ++ [42])) (h1 : t.head? ≠ some 42) (hlen : 7 ≤ t.length) (hc : 34 ∉ c) :
      AsterText (t ++ 42 :: 62 :: c) t

end Cob
