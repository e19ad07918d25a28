import Verif.Num.Field
/-
Independent specification of the storage formats: what the bytes of a zoned, packed or
binary item must be for a given number.  Nothing here uses the code model's functions.
-/
namespace Cob

/-- The `k` low-order decimal digits of `n`, most significant first. -/
def fixedDigits : Nat → Nat → List Nat
  | 0, _ => []
  | k + 1, n => fixedDigits k (n / 10) ++ [n % 10]

/-- The number written by a list of digits, most significant first. -/
def digitsVal : List Nat → Nat
  | [] => 0
  | d :: ds => d * 10 ^ ds.length + digitsVal ds

/-- The character that carries digit `d` and the sign: ASCII convention '0'..'9' /
'p'..'y', EBCDIC convention "{ABCDEFGHI" / "}JKLMNOPQR". -/
def overpunch (ebc neg : Bool) (d : Nat) : Nat :=
  if ebc then
    if neg then [125, 74, 75, 76, 77, 78, 79, 80, 81, 82].getD d 0
    else [123, 65, 66, 67, 68, 69, 70, 71, 72, 73].getD d 0
  else if neg then [112, 113, 114, 115, 116, 117, 118, 119, 120, 121].getD d 0
  else [48, 49, 50, 51, 52, 53, 54, 55, 56, 57].getD d 0

/-- The bytes of a zoned item holding the digits `ds` with the given sign. -/
def zonedImage (a : Attr) (ebc neg : Bool) (ds : List Nat) : List Nat :=
  let chars := ds.map (48 + ·)
  if !a.haveSign then chars
  else if a.separate then
    let s := if neg then 45 else 43
    if a.leading then s :: chars else chars ++ [s]
  else if a.leading then
    match ds with
    | [] => []
    | d :: t => overpunch ebc neg d :: t.map (48 + ·)
  else ds.dropLast.map (48 + ·) ++ (ds.getLast?.map (overpunch ebc neg)).toList

/-- A zoned item as the compiler lays it out: at least one digit, and a separate sign only
for signed items. -/
def WFDisplay (f : Field) : Prop :=
  (f.attr.separate = true → f.attr.haveSign = true) ∧
  (if f.attr.separate then 2 else 1) ≤ f.data.length

/-- Pair up nibbles into bytes. -/
def packNibbles : List Nat → List Nat
  | a :: b :: t => (16 * a + b) :: packNibbles t
  | _ => []

/-- The bytes of a packed item of `digits` digits holding the low digits of `n`. -/
def packedImage (digits n signNibble : Nat) : List Nat :=
  packNibbles ((if digits % 2 = 0 then [0] else []) ++ fixedDigits digits n ++ [signNibble])

/-- A packed item as the compiler lays it out. -/
def WFPacked (f : Field) : Prop :=
  0 < f.attr.digits ∧ f.data.length = f.attr.digits / 2 + 1

end Cob
