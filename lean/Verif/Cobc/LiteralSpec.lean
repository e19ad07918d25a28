import Mathlib.Data.Rat.Defs
import Mathlib.Algebra.Field.Rat
import Verif.Cobc.SourceIfSpec
/-
What the texts of literals mean.
-/
namespace Cob

/-- A text with every quotation mark `m` in it doubled. -/
def doubled (m : Nat) : List Nat → List Nat
  | [] => []
  | c :: t => if c = m then m :: m :: doubled m t else c :: doubled m t

/-- A text of double-byte characters (Shift JIS). -/
inductive DoubleBytes : List Nat → Prop
  | nil : DoubleBytes []
  | cons (a b : Nat) (t : List Nat) (ha : (0x81 ≤ a ∧ a ≤ 0x9F) ∨ (0xE0 ≤ a ∧ a ≤ 0xFC))
      (hb : (0x40 ≤ b ∧ b ≤ 0x7E) ∨ (0x80 ≤ b ∧ b ≤ 0xFC)) (ht : DoubleBytes t) : DoubleBytes (a :: b :: t)

/-- `c` is the hexadecimal digit `v`. -/
def HexDigit (c v : Nat) : Prop :=
  (48 ≤ c ∧ c ≤ 57 ∧ v = c - 48) ∨ (65 ≤ c ∧ c ≤ 70 ∧ v = c - 55) ∨ (97 ≤ c ∧ c ≤ 102 ∧ v = c - 87)

/-- The text writes the bytes, two digits for each. -/
inductive HexBytes : List Nat → List Nat → Prop
  | nil : HexBytes [] []
  | cons (a b u v : Nat) (t bs : List Nat) (ha : HexDigit a u) (hb : HexDigit b v) (ht : HexBytes t bs) :
      HexBytes (a :: b :: t) ((16 * u + v) :: bs)

/-- The text writes the number in base 16. -/
inductive HexNumber : List Nat → Nat → Prop
  | nil : HexNumber [] 0
  | snoc (t : List Nat) (n c v : Nat) (ht : HexNumber t n) (hc : HexDigit c v) : HexNumber (t ++ [c]) (16 * n + v)

/-- The number written by decimal digits. -/
def decNumber (t : List Nat) : Nat := t.foldl (fun n c => 10 * n + (c - 48)) 0

/-- The parts of a numeric literal: the sign as a character, if there is one, the digits before the decimal point, and the
digits behind it if there is a point. -/
structure NumberParts where
  sign : Option Nat
  whole : List Nat
  frac : Option (List Nat)

/-- The decimal point and the digits behind it. -/
def NumberParts.fracText (point : Nat) (p : NumberParts) : List Nat :=
  match p.frac with
  | none => []
  | some f => point :: f

/-- As it is written with the decimal point `point`. -/
def NumberParts.text (point : Nat) (p : NumberParts) : List Nat := p.sign.toList ++ p.whole ++ p.fracText point

/-- The digits behind the point. -/
def NumberParts.decimals (p : NumberParts) : List Nat := p.frac.getD []

/-- The sign is + or -, there are only digits, at least one. -/
structure NumberParts.Ok (p : NumberParts) : Prop where
  sign : p.sign = none ∨ p.sign = some 43 ∨ p.sign = some 45
  whole : ∀ c ∈ p.whole, 48 ≤ c ∧ c ≤ 57
  frac : ∀ c ∈ p.decimals, 48 ≤ c ∧ c ≤ 57
  digits : p.whole ++ p.decimals ≠ []

/-- The number. -/
def NumberParts.value (p : NumberParts) : ℚ :=
  (if p.sign = some 45 then -1 else 1) * ((decNumber p.whole : ℚ) + (decNumber p.decimals : ℚ) / 10 ^ p.decimals.length)

/-- The characters between the quotation marks of a C string constant and the bytes they stand for: only characters of the
basic set, the escapes `\"` and `\\`, and octal escapes of three digits are used. -/
inductive CText : List Nat → List Nat → Prop
  | nil : CText [] []
  | char (c : Nat) (t u : List Nat) (h1 : 32 ≤ c ∧ c ≤ 126) (h2 : c ≠ 34) (h3 : c ≠ 92) (h : CText t u) : CText (c :: t) (c :: u)
  | quote (t u : List Nat) (h : CText t u) : CText (92 :: 34 :: t) (34 :: u)
  | backslash (t u : List Nat) (h : CText t u) : CText (92 :: 92 :: t) (92 :: u)
  | octal (a b c : Nat) (t u : List Nat) (ha : a ≤ 3) (hb : b ≤ 7) (hc : c ≤ 7) (h : CText t u) :
      CText (92 :: (48 + a) :: (48 + b) :: (48 + c) :: t) ((64 * a + 8 * b + c) :: u)

/-- A letter, a digit, `-` or `_`. -/
def WordChar (c : Nat) : Prop := (48 ≤ c ∧ c ≤ 57) ∨ (65 ≤ c ∧ c ≤ 90) ∨ (97 ≤ c ∧ c ≤ 122) ∨ c = 45 ∨ c = 95

/-- The words of the text that are `name`, whatever the case of the letters, are replaced by `value`; all else stays. -/
inductive ConstIn (name value : List Nat) : List Nat → List Nat → Prop
  | nil : ConstIn name value [] []
  | other (c : Nat) (t u : List Nat) (hc : ¬ WordChar c) (h : ConstIn name value t u) : ConstIn name value (c :: t) (c :: u)
  | word (w t u : List Nat) (hw : w ≠ []) (hc : ∀ c ∈ w, WordChar c) (ht : ∀ c, t.head? = some c → ¬ WordChar c)
      (h : ConstIn name value t u) :
      ConstIn name value (w ++ t) ((if eqNoCase w name then value else w) ++ u)

/-- The constants one after the other. -/
inductive ConstsIn : List (List Nat × List Nat) → List Nat → List Nat → Prop
  | nil (t : List Nat) : ConstsIn [] t t
  | cons (c : List Nat × List Nat) (cs : List (List Nat × List Nat)) (t u v : List Nat) (h : ConstIn c.1 c.2 t u)
      (hs : ConstsIn cs u v) : ConstsIn (c :: cs) t v

end Cob
