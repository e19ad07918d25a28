import Verif.Cobc.Source
/-
The reference format of COBOL (fixed format): columns 1-6 sequence number, column 7 indicator, columns 8-72 text, the rest
is not looked at.  A line is a list of bytes without the newline.
-/
namespace Cob

/-- Columns 8 to 72. -/
def area (l : List Nat) : List Nat := (l.drop 7).take 65

/-- A line without tabs and carriage returns, not longer than 255 characters, without a comment `*>` in the text, not a
directive. -/
structure SrcOk (l : List Nat) : Prop where
  len : l.length ≤ 255
  chars : ∀ c ∈ l, c ≠ 9 ∧ c ≠ 10 ∧ c ≠ 13
  star : ∀ p, 7 ≤ p → ¬ (l[p]? = some 42 ∧ l[p + 1]? = some 62)
  dollar : l[6]? ≠ some 36
  direct : l[6]? = some 32 → ∀ n r, l.drop 7 ≠ List.replicate n 32 ++ 62 :: 62 :: r

/-- The line counts for nothing: no text, a comment (`*`, `/`), a debugging line (`D`) without debugging. -/
def ignored (dbg : Bool) (l : List Nat) : Bool :=
  decide (l.length < 7) || l[6]? == some 42 || l[6]? == some 47 || ((l[6]? == some 68 || l[6]? == some 100) && !dbg)

/-- The text is blank. -/
def blankText (l : List Nat) : Bool := (area l).all (· == 32)

/-- The state of literals between two lines: no literal is open; a literal with the mark `q` is open; a literal had its mark
in the last column (it is closed, unless the next line continues with two marks). -/
inductive Lit where
  | closed
  | opened (q : Nat)
  | edge (q : Nat)
  deriving DecidableEq

/-- The state behind a text, the first character of which stands in column `col + 1`. -/
def Lit.after : Lit → Nat → List Nat → Lit
  | s, _, [] => s
  | .closed, col, c :: t => if c = 39 ∨ c = 34 then Lit.after (.opened c) (col + 1) t else Lit.after .closed (col + 1) t
  | .opened q, col, c :: t =>
    if c = q then (if col = 71 then Lit.after (.edge q) (col + 1) t else Lit.after .closed (col + 1) t)
    else Lit.after (.opened q) (col + 1) t
  | .edge q, col, _ :: t => Lit.after (.edge q) (col + 1) t

/-- The text as it is read: an open literal reaches to column 72; otherwise spaces at the end are dropped, but a literal is
followed by a space. -/
def visible (s : Lit) (col : Nat) (t : List Nat) : List Nat :=
  if s = .closed then
    let r := (t.reverse.dropWhile (· == 32)).reverse
    if r.getLast? = some 39 ∨ r.getLast? = some 34 then r ++ [32] else r
  else t ++ List.replicate (72 - (col + t.length)) 32

/-- A continuation line: where its text begins, and the state of literals there.  The text of an open literal begins behind a
quotation mark. -/
def contStart (s : Lit) (t : List Nat) : Option (Lit × Nat × List Nat) :=
  let sp := (t.takeWhile (· == 32)).length
  match s, t.drop sp with
  | .closed, r => some (.closed, 7 + sp, r)
  | .opened q, c :: r => if c = q then some (.opened q, 7 + sp + 1, r) else none
  | .edge q, c :: d :: r => if c = q ∧ d = q then some (.closed, 7 + sp + 1, d :: r) else none
  | _, _ => none

/-- The text of a line and its number, counted from 0. -/
structure SrcPiece where
  line : Nat
  cont : Bool
  text : List Nat
  deriving DecidableEq

/-- The texts of the lines from line `k` on; `none` for an indicator that is not defined and a literal continued wrongly. -/
def sourceText (dbg : Bool) : Nat → Lit → List (List Nat) → Option (List SrcPiece)
  | _, _, [] => some []
  | k, s, l :: ls =>
    if ignored dbg l then sourceText dbg (k + 1) s ls
    else if ¬ (l[6]? = some 32 ∨ l[6]? = some 45 ∨ l[6]? = some 68 ∨ l[6]? = some 100) then none
    else if blankText l then sourceText dbg (k + 1) s ls
    else if l[6]? = some 45 then
      (contStart s (area l)).bind fun p =>
        let s' := p.1.after p.2.1 p.2.2
        (sourceText dbg (k + 1) s' ls).map (⟨k, true, visible s' p.2.1 p.2.2⟩ :: ·)
    else
      let s' := Lit.closed.after 7 (area l)
      (sourceText dbg (k + 1) s' ls).map (⟨k, false, visible s' 7 (area l)⟩ :: ·)

/-- What the scanner reads: the text of a line stands on the line with the same number, a continuation follows directly.
`done`: the newlines so far. -/
def layOut (total : Nat) : (done : Nat) → List SrcPiece → List Nat
  | done, [] => List.replicate (total - done) 10
  | done, p :: ps =>
    if p.cont then p.text ++ layOut total done ps
    else List.replicate (p.line - done) 10 ++ p.text ++ layOut total p.line ps

/-- The file: the lines, each with a newline. -/
def fileOf (lines : List (List Nat)) : List Nat := (lines.map (· ++ [10])).flatten

end Cob
