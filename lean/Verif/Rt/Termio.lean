import Verif.Move.Numeric
import Verif.Move.Edited
import Verif.Move.Alnum
/-
Model of the DISPLAY and ACCEPT statements on the terminal (libcob/termio.c).  Floating point items,
pointers and the screen are not modelled.
-/
namespace Cob

/-- The settings of the module that DISPLAY looks at: the sign convention, `flag_pretty_display`, and the
decimal point and currency symbol. -/
structure TermEnv where
  ebc : Bool := false
  pretty : Bool := true
  edit : EditEnv := {}

/-- libcob/termio.c:40 `bin_digits`. -/
def binDigits (size : Nat) : Nat := [1, 3, 5, 8, 10, 13, 15, 17, 20].getD size 0

/-- libcob/termio.c:46-79 `display_numeric`: the characters written for a number without punctuation: the item
is moved to a zoned item with as many digits and a separate sign. -/
def displayNumeric (ebc : Bool) (it : Item) : Option (List Nat) :=
  let a := it.field.attr
  if it.field.data.length = 0 then some []
  else
    let size := a.digits + (if a.haveSign then 1 else 0)
    let temp : Field := ⟨{ digits := a.digits, scale := a.scale, haveSign := a.haveSign, separate := a.haveSign,
                           leading := a.haveSign && (a.leading || it.usage == .binary) }, List.replicate size 0⟩
    match cobMoveNum ebc true it ⟨.display, temp⟩ with
    | .done r => some r.field.data
    | _ => none

/-- libcob/termio.c:115-139: the PICTURE built by `pretty_display_numeric`.  The negative repetition `digits - scale`
of an item with more decimals than digits counts as none. -/
def prettyPic (env : EditEnv) (a : Attr) : List (Nat × Nat) :=
  (if a.haveSign then [(43, 1)] else []) ++
    (if a.scale > 0 then [(57, ((a.digits : Int) - a.scale).toNat), (env.dp, 1), (57, a.scale.toNat)]
     else [(57, a.digits)])

/-- libcob/termio.c:81-145 `pretty_display_numeric`: the item is moved to a numeric-edited item. -/
def prettyDisplayNumeric (env : TermEnv) (it : Item) : Option (List Nat) :=
  let a := it.field.attr
  if it.field.data.length = 0 then some []
  else
    let size := a.digits + (if a.haveSign then 1 else 0) + (if a.scale > 0 then 1 else 0)
    cobMoveEdited env.ebc env.edit false (prettyPic env.edit a) it (List.replicate size 0)

/-- An operand of DISPLAY: a number (`real`: COB_FLAG_REAL_BINARY) or anything that is written as it is. -/
inductive TermOperand where
  | num (real : Bool) (it : Item)
  | text (bytes : List Nat)

/-- libcob/termio.c:157-204 `display`.  Every item with COB_FLAG_REAL_BINARY is binary. -/
def displayOne (env : TermEnv) : TermOperand → Option (List Nat)
  | .num real it =>
    if it.usage = .binary ∧ (real = true ∨ env.pretty = false) then
      displayNumeric env.ebc { it with
        field := { it.field with
          attr := { it.field.attr with digits := binDigits it.field.data.length } } }
    else if env.pretty then prettyDisplayNumeric env it
    else displayNumeric env.ebc it
  | .text bytes => some bytes

/-- libcob/termio.c:206-229 `cob_display`: what is written. -/
def cobDisplay (env : TermEnv) (newline : Bool) (ops : List TermOperand) : Option (List Nat) :=
  (ops.mapM (displayOne env)).map fun ls => ls.flatten ++ (if newline then [10] else [])

/-- `fgets (buf, n + 1, stdin)` (C library): the bytes read, up to and including a newline, at most `n`; and the
rest of the input. -/
def fgetsLine : (n : Nat) → List Nat → List Nat × List Nat
  | 0, s => ([], s)
  | _ + 1, [] => ([], [])
  | n + 1, b :: s => if b = 10 then ([10], s) else ((b :: (fgetsLine n s).1), (fgetsLine n s).2)

/-- libcob/termio.c:249-257: the bytes of `temp` for the input `stdin`, and the rest of the input.  `none`: the line begins
with a NUL byte and `strlen - 1` wraps around. -/
def acceptLine (stdin : List Nat) : Option (List Nat) × List Nat :=
  if stdin = [] then (some [32], [])
  else
    let r := fgetsLine 8191 stdin
    let s := r.1.takeWhile (· != 0)
    (if s = [] then none else some (s.take (s.length - 1)), r.2)

/-- libcob/termio.c:235-264 `cob_accept` into an alphanumeric item of `size` bytes, and libcob/move.c:1719-1736, 1850-1853
`cob_hankaku_move`: an empty sender is a space. -/
def acceptText (just : Bool) (size : Nat) (stdin : List Nat) : Option (List Nat) × List Nat :=
  let r := acceptLine stdin
  (r.1.map fun line => if size = 0 then [] else moveAlnum just (if line = [] then [32] else line) size, r.2)

/-- libcob/move.c:1830-1842: `cob_hankaku_move` from text to a number: directly to a zoned item, through a zoned item of 36
digits, 18 of them decimals, to the others. -/
def textToItem (ebc cut : Bool) (dp sep : Nat) (src : List Nat) (it : Item) : MoveRes :=
  match it.usage with
  | .display =>
    match moveAlnumDisp ebc dp sep src it.field with
    | .done f => .done { it with field := f }
    | .outside => .outside
  | _ =>
    match moveAlnumDisp ebc dp sep src (tempItem 36 18) with
    | .done f => moveFromDisp ebc cut f it
    | .outside => .outside

/-- libcob/termio.c:235-264 `cob_accept` into a number: for a zoned item the line is cut to the size of the item. -/
def acceptNum (ebc cut : Bool) (dp sep : Nat) (it : Item) (stdin : List Nat) : Option MoveRes × List Nat :=
  let r := acceptLine stdin
  (r.1.map fun line =>
    if it.field.data.length = 0 then .done it
    else
      let line := if it.usage = .display then line.take it.field.data.length else line
      textToItem ebc cut dp sep (if line = [] then [32] else line) it, r.2)

end Cob
