import Verif.Num.Decimal
import Mathlib.Data.Rat.Floor
import Mathlib.Algebra.Order.Field.Basic
import Mathlib.Tactic.Ring
import Mathlib.Tactic.Linarith
import Mathlib.Tactic.FieldSimp
import Mathlib.Tactic.Positivity
/-
Independent specification for decimal arithmetic: the rational number a decimal stands
for, and what it means to round or truncate a rational to an integer number of units.
-/
namespace Cob

/-- The number denoted by a decimal: `value / 10 ^ scale` (numeric.h:33). -/
def Dec.toRat (d : Dec) : ℚ := (d.value : ℚ) / (10 : ℚ) ^ d.scale

/-- `r` is `x` truncated toward zero. -/
def IsTrunc (x : ℚ) (r : ℤ) : Prop :=
  |(r : ℚ)| ≤ |x| ∧ |x| < |(r : ℚ)| + 1 ∧ 0 ≤ x * r

/-- `r` is the integer nearest to `x`, ties going away from zero. -/
def IsRoundHalfAway (x : ℚ) (r : ℤ) : Prop :=
  2 * |x - r| ≤ 1 ∧ (2 * |x - r| = 1 → |x| < |(r : ℚ)|)

end Cob
