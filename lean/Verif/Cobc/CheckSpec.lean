import Verif.Cobc.Check
import Verif.Cobc.MoveProps
/-
C75: what the compiler's checks on MOVE and VALUE promise.  Specification: which numbers an item can hold, which MOVEs exist.
-/
namespace Cob

/-- An item with `n` digit positions and scale `s` (decimals; negative: zeros in front of the decimal point) can hold the
number. -/
def CanHold (n : Nat) (s : Int) (x : ℚ) : Prop := ∃ u : Int, x * (10 : ℚ) ^ s = u ∧ u.natAbs < 10 ^ n

/-- The picture has `n` positions (characters 9): without P, with `m` P behind the 9s, with `m` P in front of them.  These are
the numbers that `C43_values` and `C43_scaled` prove of the compiler's pictures. -/
def PicShape (it : MvItem) (n : Nat) : Prop :=
  it.picSize = n ∧ 0 < n ∧ n ≤ 36 ∧
  ((it.digits = n ∧ 0 ≤ it.scale ∧ it.scale ≤ n) ∨
   (∃ m : Nat, 0 < m ∧ n + m ≤ 36 ∧ it.digits = n + m ∧ it.scale = -(m : Int)) ∨
   (∃ m : Nat, 0 < m ∧ n + m ≤ 36 ∧ it.digits = n + m ∧ it.scale = n + m))

/-- The range of a binary item of `n` bytes. -/
def InBytes (n : Nat) (signed : Bool) (v : Int) : Prop :=
  if signed then -(2 ^ (8 * n - 1)) ≤ v ∧ v < 2 ^ (8 * n - 1) else v < 2 ^ (8 * n)

/-- Which elementary items may be moved to which (ISO table for MOVE): to an alphabetic item no numbers; to a numeric or
numeric edited item no alphabetic, no alphanumeric edited and no national items; to an alphabetic item no national items; a
number with decimals neither to a national item nor, by `move-non-integer-to-alphanumeric`, to an alphanumeric one. -/
def MoveAllowed (strict : Bool) (src : MvCat) (decimals : Bool) (dst : MvCat) : Prop :=
  match dst with
  | .alphabetic => src = .alphabetic ∨ src = .alphanumeric ∨ src = .alphanumericEdited
  | .numeric | .numericEdited => src = .numeric ∨ src = .numericEdited ∨ src = .alphanumeric
  | .national | .nationalEdited => src = .numeric → decimals = false
  | .alphanumeric | .alphanumericEdited => src = .numeric → decimals = false ∨ strict = false

end Cob
