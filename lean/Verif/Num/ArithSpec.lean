import Verif.Num.Arith
import Verif.Num.ItemProps
/-
Specification for C80: what the arithmetic statements of COBOL mean, in terms of the numbers the
items hold when the statement begins.
-/
namespace Cob.Arith

/-- The number an operand stands for, `vals` being the numbers the items hold. -/
def Opnd.val (vals : Nat → ℚ) : Opnd → ℚ
  | .lit d => (d.value : ℚ) / (10 : ℚ) ^ d.scale
  | .var v => vals v

/-- The value of an expression. -/
def Tree.val (vals : Nat → ℚ) : Tree → ℚ
  | .leaf x => x.val vals
  | .bin .add x y => x.val vals + y.val vals
  | .bin .sub x y => x.val vals - y.val vals
  | .bin .mul x y => x.val vals * y.val vals
  | .bin .div x y => x.val vals / y.val vals

/-- The sum of a list of operands. -/
def total (vals : Nat → ℚ) (xs : List Opnd) : ℚ := (xs.map (Opnd.val vals)).sum

/-- The receivers of a statement. -/
def Stmt.recvs : Stmt → List Recv
  | .addTo _ _ rs | .addGiving _ _ _ rs | .subFrom _ _ rs | .subGiving _ _ _ rs | .mulBy _ rs
  | .mulGiving _ _ rs | .divInto _ rs | .divIntoGiving _ _ rs | .divByGiving _ _ rs
  | .compute rs _ => rs

/-- The number receiver `v` is to be given. -/
def Stmt.result (vals : Nat → ℚ) (v : Nat) : Stmt → ℚ
  | .addTo x xs _ => vals v + total vals (x :: xs)
  | .addGiving x xs none _ => total vals (x :: xs)
  | .addGiving x xs (some y) _ => total vals (x :: xs) + y.val vals
  | .subFrom x xs _ => vals v - total vals (x :: xs)
  | .subGiving x xs y _ => y.val vals - total vals (x :: xs)
  | .mulBy x _ => vals v * x.val vals
  | .mulGiving x y _ => x.val vals * y.val vals
  | .divInto x _ => vals v / x.val vals
  | .divIntoGiving x y _ => y.val vals / x.val vals
  | .divByGiving x y _ => x.val vals / y.val vals
  | .compute _ e => e.val vals

/-- The leaves of an expression. -/
def Tree.leaves : Tree → List Opnd
  | .leaf x => [x]
  | .bin _ x y => x.leaves ++ y.leaves

/-- The operands written in the statement. -/
def Stmt.opnds : Stmt → List Opnd
  | .addTo x xs _ | .subFrom x xs _ => x :: xs
  | .addGiving x xs y _ => x :: xs ++ y.toList
  | .subGiving x xs y _ => y :: x :: xs
  | .mulBy x _ | .divInto x _ => [x]
  | .mulGiving x y _ | .divIntoGiving x y _ | .divByGiving x y _ => [x, y]
  | .compute _ e => e.leaves

/-- Statements without GIVING (and not COMPUTE) also take the receivers as operands. -/
def Stmt.updates : Stmt → Prop
  | .addTo .. | .subFrom .. | .mulBy .. | .divInto .. => True
  | _ => False

/-- No division in the expression. -/
def Tree.noDiv : Tree → Prop
  | .leaf _ => True
  | .bin .div _ _ => False
  | .bin _ x y => x.noDiv ∧ y.noDiv

/-- The divisor of a statement that divides (of a COMPUTE: one division, performed last). -/
def Stmt.divisor (vals : Nat → ℚ) : Stmt → Option ℚ
  | .divInto x _ => some (x.val vals)
  | .divIntoGiving x _ _ => some (x.val vals)
  | .divByGiving _ y _ => some (y.val vals)
  | .compute _ (.bin .div _ y) => some (y.val vals)
  | _ => none

/-- COMPUTE expressions considered: no division, or one performed last. -/
def Stmt.plain : Stmt → Prop
  | .compute _ (.bin .div x y) => x.noDiv ∧ y.noDiv
  | .compute _ e => e.noDiv
  | _ => True

/-- `ADD x TO rs` and `SUBTRACT x FROM rs` with a single operand. -/
def Stmt.single : Stmt → Option Opnd
  | .addTo x [] _ | .subFrom x [] _ => some x
  | _ => none

/-- The number of units of `10^-scale` receiver `r` should hold for the result `x`: rounded half
away from zero with ROUNDED, truncated otherwise. -/
def Units (it : Item) (r : Recv) (x : ℚ) (u : Int) : Prop :=
  if r.rounded then IsRoundHalfAway (x * (10 : ℚ) ^ it.field.attr.scale) u
  else IsTrunc (x * (10 : ℚ) ^ it.field.attr.scale) u

/-- Does receiver `r`, laid out as `it`, have room for `u` units?  A sign needs a signed item; a
zoned or packed item takes its number of digits; a binary item what its bytes hold, and under
`binary-truncate` what its PICTURE allows - except a COMP-5 or COMP-X item without ROUNDED and ON
SIZE ERROR. -/
def HasRoom (P : Prog) (ph : Phrases) (r : Recv) (it : Item) (u : Int) : Prop :=
  (it.field.attr.haveSign = true ∨ 0 ≤ u) ∧
  match it.usage with
  | .display => u.natAbs < 10 ^ it.field.dsize
  | .packed => u.natAbs < 10 ^ it.field.attr.digits
  | .binary =>
    u.natAbs < 2 ^ (8 * it.field.data.length - (if it.field.attr.haveSign then 1 else 0)) ∧
      (P.binTrunc = true → (P.native r.v = false ∨ r.rounded = true ∨ ph.onSize = true) →
        u.natAbs < 10 ^ it.field.attr.digits)

/-- Is the magnitude of `u` units beyond the item? -/
def Exceeds (P : Prog) (it : Item) (u : Int) : Prop :=
  match it.usage with
  | .display => 10 ^ it.field.dsize ≤ u.natAbs
  | .packed => 10 ^ it.field.attr.digits ≤ u.natAbs
  | .binary =>
    2 ^ (8 * it.field.data.length - (if it.field.attr.haveSign then 1 else 0)) ≤ u.natAbs ∨
      (P.binTrunc = true ∧ 10 ^ it.field.attr.digits ≤ u.natAbs)

/-- When a receiver keeps its contents rather than being given a truncated result: the statement
has ON SIZE ERROR; or, under `binary-truncate`, only NOT ON SIZE ERROR, and the receiver is not COMP-5
or COMP-X. -/
def Protected (P : Prog) (ph : Phrases) (r : Recv) : Prop :=
  ph.onSize = true ∨ (ph.notOnSize = true ∧ P.binTrunc = true ∧ P.native r.v = false)

/-- When a receiver is given a truncated result: no phrase, `binary-truncate` (the default), and not COMP-5 or COMP-X. -/
def Unguarded (P : Prog) (ph : Phrases) (r : Recv) : Prop :=
  ph.onSize = false ∧ ph.notOnSize = false ∧ P.binTrunc = true ∧ P.native r.v = false

/-- What a zoned or packed item of `digits` digits makes of `u` units: the low-order digits, with the sign if the item has
one. -/
def lowDigits (haveSign : Bool) (digits : Nat) (u : Int) : Int :=
  (if haveSign = true ∧ u < 0 then -1 else 1) * ((u.natAbs % 10 ^ digits : Nat) : Int)

/-- The conditions for adding a number to an item by a specialised routine: an `int`, with no more
digits than a packed item, and within 63 bits at the scale of a zoned item. -/
def SmallFor (it : Item) (y : ℚ) : Prop :=
  |y| < 2147483648 ∧
  (it.usage = .packed → |y| * (10 : ℚ) ^ it.field.attr.scale < (10 : ℚ) ^ it.field.attr.digits) ∧
  (it.usage = .display → |y| * (10 : ℚ) ^ it.field.attr.scale < (2 : ℚ) ^ 63)

/-- When statement `s` may be executed: items hold numbers where they are read and are laid out as
declared, without `P` in the PICTURE; the receivers are different items. -/
structure Ready (P : Prog) (ph : Phrases) (σ : State) (vals : Nat → ℚ) (s : Stmt) : Prop where
  /-- the operands -/
  items : ∀ v, .var v ∈ s.opnds → WFItem (σ v) ∧ Holds P.ebc (σ v) (vals v) ∧ 0 ≤ (σ v).field.attr.scale
  lits : ∀ d, .lit d ∈ s.opnds → 0 ≤ d.scale
  /-- the receivers -/
  recvs : ∀ r ∈ s.recvs, WFItem (σ r.v) ∧ 0 ≤ (σ r.v).field.attr.scale
  holds : s.updates → ∀ r ∈ s.recvs, Holds P.ebc (σ r.v) (vals r.v)
  distinct : (s.recvs.map (·.v)).Nodup
  plain : s.plain
  /-- a quotient has at most 36 decimals -/
  decimals : s.divisor vals ≠ none → ∀ r ∈ s.recvs, (σ r.v).field.attr.scale ≤ 36
  /-- the one operand of ADD or SUBTRACT is not also a receiver, except the last -/
  apart : ∀ v, s.single = some (.var v) → v ∉ (s.recvs.dropLast).map (·.v)
  /-- what the specialised routines for integers require, where they are used -/
  small : ∀ x, s.single = some x → (∃ n : Int, x.val vals = n) → ph.onSize = false →
    ∀ r ∈ s.recvs, r.rounded = false → (P.binTrunc = false ∨ P.native r.v = true) →
      SmallFor (σ r.v) (x.val vals)

end Cob.Arith
