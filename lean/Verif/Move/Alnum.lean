import Verif.Move.Numeric
/-
Model of MOVE to and from alphanumeric items (libcob/move.c).
-/
namespace Cob

/-- libcob/move.c:333-362 `cob_move_alphanum_to_alphanum`: the receiver's bytes (`size2` of them)
after moving the bytes `src`; `just` is COB_FLAG_JUSTIFIED of the receiver. -/
def moveAlnum (just : Bool) (src : List Nat) (size2 : Nat) : List Nat :=
  let size1 := src.length
  if size2 ≤ size1 then
    if just then (src.drop (size1 - size2)).take size2 else src.take size2
  else
    if just then List.replicate (size2 - size1) 32 ++ src
    else src ++ List.replicate (size2 - size1) 32

/-- libcob/move.c:296-331 `cob_move_display_to_alphanum`: the sending item afterwards and the
receiver's bytes.  `memcpy` copies the digit bytes with the sign taken off. -/
def moveDispAlnum (ebc : Bool) (f1 : Field) (size2 : Nat) : Field × List Nat :=
  let g := f1.getSign ebc
  let data1 := g.2.digitBytes
  let size1 := f1.dsize
  let out :=
    if size2 ≤ size1 then data1.take size2
    else
      let diff := size2 - size1
      let zeroSize := if f1.attr.scale < 0 then min (-f1.attr.scale).toNat diff else 0
      data1 ++ List.replicate zeroSize 48 ++ List.replicate (diff - zeroSize) 32
  (g.2.putSign ebc g.1, out)

/-- `isspace` in the C locale. -/
def isSpace (b : Nat) : Bool := b == 32 || (decide (9 ≤ b) && decide (b ≤ 13))

/-- libcob/move.c:249-258: skip `k` digits (and what is between them); `none`: the loop ran past
the end of the sending item. -/
def skipDigits : (k : Nat) → List Nat → Option (List Nat)
  | 0, s => some s
  | _ + 1, [] => none
  | k + 1, b :: s => if isDigit b then skipDigits k s else skipDigits (k + 1) s

/-- libcob/move.c:260-275: the copying loop; `room` is `e2 - s2`, `pt` the number of decimal
points seen.  Result: the digits written, or `none` for a character that is not allowed. -/
def copyDigits (dp sep : Nat) : List Nat → (room : Nat) → (pt : Nat) → Option (List Nat)
  | [], _, _ => some []
  | _ :: _, 0, _ => some []
  | c :: s, room + 1, pt =>
    if isDigit c then (copyDigits dp sep s room pt).map (c :: ·)
    else if c = dp then (if pt > 0 then none else copyDigits dp sep s (room + 1) (pt + 1))
    else if isSpace c || c == sep then copyDigits dp sep s (room + 1) pt
    else none

/-- Outcome of MOVE text TO a numeric item. -/
inductive TextMove where
  | done (f : Field)
  | outside
deriving DecidableEq, Repr

/-- libcob/move.c:232-238: the optional sign in front of the digits: '+' is 1, '-' is -1, no sign
is 0; and what follows it. -/
def scanSign : List Nat → Int × List Nat
  | 43 :: t => (1, t)
  | 45 :: t => (-1, t)
  | s => (0, s)

/-- libcob/move.c:207-281 `cob_move_alphanum_to_display`; `dp` and `sep` are the module's
`decimal_point` and `numeric_separator`. -/
def moveAlnumDisp (ebc : Bool) (dp sep : Nat) (src : List Nat) (f2 : Field) : TextMove :=
  let s1 := src.dropWhile isSpace
  let sg := scanSign s1
  let s1 := sg.2
  let count := (s1.takeWhile (· != dp)).countP isDigit
  let size : Int := (f2.dsize : Int) - f2.attr.scale
  let zeros : Field := { f2 with data := List.replicate f2.data.length 48 }
  let start : Option (Nat × List Nat) :=
    if (count : Int) < size then some ((size - count).toNat, s1)
    else (skipDigits ((count : Int) - size).toNat s1).map fun s => (0, s)
  match start with
  | none => .outside
  | some (off, s) =>
    match copyDigits dp sep s (f2.dsize - off) 0 with
    | none => .done (zeros.putSign ebc 0)
    | some w =>
      let w := if f2.dsize < off then [] else w
      .done ((zeros.storeDigits (List.replicate (min off f2.dsize) 48 ++ w ++
        List.replicate (f2.dsize - off - w.length) 48)).putSign ebc sg.1)

/-- libcob/move.c:1412-1456: the filling part of `cob_move_all` for a receiver that is not
NATIONAL: `digcount` bytes (the receiver's size, or 18 for a numeric receiver) of the
literal repeated; if the literal is longer than one byte and the last byte is a SJIS lead byte
it is replaced by a space. -/
def fillAll (lit : List Nat) (digcount : Nat) : List Nat :=
  if lit.length = 1 then List.replicate digcount (lit.getD 0 0)
  else
    let l := (List.range digcount).map fun i => lit.getD (i % lit.length) 0
    let z := l.getD (digcount - 1) 0
    if (0x81 ≤ z ∧ z ≤ 0x9F) ∨ (0xE0 ≤ z ∧ z ≤ 0xFC) then l.set (digcount - 1) 32 else l

/-- libcob/move.c:1457 and 1670-1673: MOVE ALL literal to an alphanumeric item of `size2` bytes. -/
def moveAllAlnum (just : Bool) (lit : List Nat) (size2 : Nat) : List Nat :=
  moveAlnum just (fillAll lit size2) size2

/-- libcob/move.c:1412-1415, 1457, 1555-1557: MOVE ALL literal to a zoned item: the 18
characters are moved as an unsigned 18-digit integer. -/
def moveAllDisp (ebc : Bool) (lit : List Nat) (f2 : Field) : Field :=
  (moveDispDisp ebc ⟨{ digits := 18 }, fillAll lit 18⟩ f2).2

end Cob
