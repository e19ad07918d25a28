import Verif.Num.FieldSpec
import Verif.Move.Edited
/-
Specification of numeric editing, position by position.  Nothing here uses the code model's
functions except the environment (decimal point and currency symbol).

The PICTURE is `cs`, one symbol per position, followed by a `tail`, which is empty, [67] for CR or
[68] for DB.  `heads` are the symbols at its beginning that only stand for themselves (a sign, a
currency symbol, or both in some order); a repetition of such a symbol is a floating string.
-/
namespace Cob

/-- '9', 'Z', '*': a digit place. -/
def isPlace (c : Nat) : Bool := c == 57 || c == 90 || c == 42

/-- '+', '-' or the currency symbol. -/
def isSym (env : EditEnv) (c : Nat) : Bool := c == 43 || c == 45 || c == env.cur

/-- There is a digit place before position `i`. -/
def placeBefore (cs : List Nat) (i : Nat) : Bool := (cs.take i).any isPlace

/-- Position `i` is a trailing symbol: after the digit places. -/
def trailingSym (env : EditEnv) (cs : List Nat) (i : Nat) : Bool := isSym env (cs.getD i 0) && placeBefore cs i

/-- Position `i` is aligned with a digit of the number: a digit place or a leading symbol. -/
def aligned (env : EditEnv) (cs : List Nat) (i : Nat) : Bool :=
  isPlace (cs.getD i 0) || (isSym env (cs.getD i 0) && !placeBefore cs i)

/-- The number of aligned positions before `k`. -/
def alignedBefore (env : EditEnv) (cs : List Nat) (k : Nat) : Nat := (List.range k).countP (aligned env cs)

/-- The position of the decimal point, the length of the PICTURE if it has none. -/
def pointPos (env : EditEnv) (cs : List Nat) : Nat := cs.findIdx (· == env.dp)

/-- Position `i` shows the digit of `10 ^ weight`. -/
def weightAt (env : EditEnv) (cs : List Nat) (i : Nat) : Int :=
  (alignedBefore env cs (pointPos env cs) : Int) - alignedBefore env cs (i + 1)

/-- The digit of `10 ^ w` in the number of `m` units of `10 ^ -s`. -/
def digitAt (m : Nat) (s w : Int) : Nat := if 0 ≤ s + w then m / 10 ^ (s + w).toNat % 10 else 0

/-- The digit shown at position `i`: 0 where there is none. -/
def digitShown (env : EditEnv) (cs : List Nat) (nheads m : Nat) (s : Int) (i : Nat) : Nat :=
  if aligned env cs i = true ∧ nheads ≤ i then digitAt m s (weightAt env cs i) else 0

/-- No digit other than a leading zero has come before position `k`: the digits are 0 and there is no
'9'. -/
def leadingZeros (cs : List Nat) (dig : Nat → Nat) (k : Nat) : Bool :=
  (List.range k).all fun j => cs.getD j 0 != 57 && dig j == 0

/-- The character that replaces suppressed positions. -/
def fillAt (cs : List Nat) (i : Nat) : Nat := if (cs.take (i + 1)).contains 42 then 42 else 32

/-- The text of a symbol: '+' shows the sign, '-' shows only a minus. -/
def symText (env : EditEnv) (neg : Bool) (c : Nat) : Nat :=
  if c = env.cur then c else if neg then 45 else if c = 43 then 43 else 32

/-- The text of CR and DB: only for a negative number. -/
def tailText2 (neg : Bool) (tail : List Nat) : List Nat :=
  match tail with
  | [] => []
  | c :: _ => if neg then (if c = 67 then [67, 82] else [68, 66]) else [32, 32]

/-- The character at position `i`, leading symbols left out. -/
def bodyChar (env : EditEnv) (cs : List Nat) (dig : Nat → Nat) (neg : Bool) (i : Nat) : Nat :=
  let c := cs.getD i 0
  let suppressed : Bool := leadingZeros cs dig (i + 1) && decide (i < pointPos env cs)
  if c = 48 ∨ c = 47 ∨ c = env.dp then c
  else if c = 66 then if suppressed then fillAt cs i else 32
  else if c = 46 ∨ c = 44 then if suppressed then fillAt cs i else c
  else if trailingSym env cs i then symText env neg c
  else if suppressed && c != 57 then (if isSym env c then 32 else fillAt cs i)
  else 48 + dig i

/-- The positions that are blank because the digits are suppressed. -/
def blankPositions (env : EditEnv) (cs : List Nat) (dig : Nat → Nat) : List Nat :=
  (List.range (pointPos env cs)).filter fun i =>
    leadingZeros cs dig (i + 1) && fillAt cs i == 32 && cs.getD i 0 != 48 && cs.getD i 0 != 47

/-- The leading symbols go to the last blank position (two of them to that and the one before). -/
def putHeads (k : Nat) (heads text : List Nat) : List Nat :=
  match heads with
  | [] => text
  | [a] => text.set k a
  | a :: b :: _ => (text.set k b).set (k - 1) a

/-- The edited text of the number `(-1)^neg * m * 10 ^ -s`. -/
def editedText (env : EditEnv) (blankZero : Bool) (heads cs tail : List Nat) (neg : Bool) (m : Nat) (s : Int) : List Nat :=
  let dig := digitShown env cs heads.length m s
  let n := cs.length
  let size := n + 2 * tail.length
  let zero : Bool := (List.range n).all fun i => dig i == 0
  if zero = true ∧ (blankZero = true ∨ 57 ∉ cs) then
    if blankZero = true ∨ 42 ∉ cs then List.replicate size 32
    else (List.range size).map fun i => if cs.getD i 0 = env.dp then env.dp else 42
  else
    putHeads ((blankPositions env cs dig).getLastD 0) (heads.map (symText env neg))
      ((List.range n).map (bodyChar env cs dig neg)) ++ tailText2 neg tail

/-- The decimal point and the currency symbol are acceptable. -/
def EnvOk (env : EditEnv) : Prop :=
  (env.dp = 46 ∨ env.dp = 44) ∧ ¬ (48 ≤ env.cur ∧ env.cur ≤ 57) ∧
  env.cur ∉ [0, 32, 42, 43, 44, 45, 46, 47, 66, 67, 68, 80, 86, 90]

/-- The PICTUREs considered. -/
structure EditPic (env : EditEnv) (heads cs tail : List Nat) : Prop where
  /-- the symbols -/
  legal : ∀ c ∈ cs, c ∈ [57, 90, 42, 48, 47, 66, 46, 44, 43, 45] ∨ c = env.cur
  tailOk : tail = [] ∨ tail = [67] ∨ tail = [68]
  /-- at most one sign and one currency symbol at the beginning -/
  headsOk : heads = [] ∨ heads = [env.cur] ∨ heads = [43] ∨ heads = [45] ∨
    heads = [43, env.cur] ∨ heads = [45, env.cur] ∨ heads = [env.cur, 43] ∨ heads = [env.cur, 45]
  headsAre : heads <+: cs
  /-- any other leading symbol repeats one of them -/
  floats : ∀ i < cs.length, isSym env (cs.getD i 0) = true → placeBefore cs i = false → cs.getD i 0 ∈ heads
  /-- at most one decimal point -/
  onePoint : ∀ i < cs.length, cs.getD i 0 = env.dp → i = pointPos env cs
  /-- 'Z' and '*' exclude each other -/
  oneFill : 90 ∉ cs ∨ 42 ∉ cs
  /-- trailing symbols are at the end, and only without CR or DB -/
  trailEnd : ∀ i j, i < j → j < cs.length → trailingSym env cs i = true → trailingSym env cs j = true
  trailTail : ∀ i < cs.length, trailingSym env cs i = true → tail = []
  /-- after the decimal point, a comma or 'B' only after a '9', and no period -/
  fracSep : ∀ i, pointPos env cs < i → i < cs.length →
    cs.getD i 0 ≠ 46 ∧ (cs.getD i 0 = 44 ∨ cs.getD i 0 = 66 → 57 ∈ cs.take i)

/-- The number has no digit where the PICTURE has only a symbol: the digit left of the places of a
PICTURE with leading symbols is 0, and there are no further decimals if there are trailing symbols. -/
def ValueFits (env : EditEnv) (heads cs : List Nat) (m : Nat) (s : Int) : Prop :=
  (∀ i < heads.length, digitAt m s (weightAt env cs i) = 0) ∧
  ((∃ i < cs.length, trailingSym env cs i = true) →
    ∀ w : Int, w < weightAt env cs cs.length → digitAt m s w = 0)

/-- The PICTUREs whose text can be read back: no '0' inserted, and a digit place after the decimal point if
there is one. -/
def DeEditable (env : EditEnv) (cs : List Nat) : Prop :=
  48 ∉ cs ∧ (pointPos env cs < cs.length → ∃ i, pointPos env cs < i ∧ i < cs.length ∧ aligned env cs i = true)

/-- The number of digit places after the decimal point. -/
def fracPlaces (env : EditEnv) (cs : List Nat) : Nat :=
  (List.range cs.length).countP fun i => decide (pointPos env cs < i) && aligned env cs i

/-- The text shows the sign of a negative number. -/
def signShown (cs tail : List Nat) : Bool := cs.contains 43 || cs.contains 45 || tail.contains 67

end Cob
