import Verif.Num.ItemProps
import Verif.Move.Numeric
/-
Specification of a numeric MOVE, independent of the code model.
-/
namespace Cob

/-- The number of decimal positions of an item. -/
def Item.positions (it : Item) : Nat :=
  match it.usage with
  | .display => it.field.dsize
  | _ => it.field.attr.digits

/-- What a numeric MOVE of the number `x` must leave in the receiver, in units of its last
decimal place: `x` truncated toward zero to the receiver's decimal places, the high-order
digits beyond its positions dropped, and the sign dropped when the receiver is unsigned. -/
def MovedUnits (dst : Item) (x : ℚ) (u : Int) : Prop :=
  ∃ t : Int, IsTrunc (x * (10 : ℚ) ^ dst.field.attr.scale) t ∧
    u = if dst.field.attr.haveSign then t.tmod (10 ^ dst.positions)
        else ((t.natAbs % 10 ^ dst.positions : Nat) : Int)

/-- The number of digits the runtime has in hand when it moves from the item: its own digits, or
twenty for a binary item. -/
def Item.sent (it : Item) : Nat :=
  match it.usage with
  | .display => it.field.dsize
  | .packed => it.field.attr.digits
  | .binary => 20

/-- A binary receiver is large enough for its PICTURE. -/
def BinaryHasRoom (f : Field) : Prop :=
  10 ^ f.attr.digits ≤ 2 ^ (8 * f.data.length - (if f.attr.haveSign then 1 else 0))

end Cob
