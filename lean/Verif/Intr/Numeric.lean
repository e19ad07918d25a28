import Verif.Move.Numeric
import Verif.Num.Item
/-
Model of the numeric functions of libcob/intrinsic.c that stay in decimal arithmetic: INTEGER,
INTEGER-PART, FRACTION-PART, MOD, REM, ABS, SUM, and the arithmetic of function arguments
(`cob_intr_binop`).  Arguments and results are numeric items; `none` / `MoveRes` errors as in
the modules imported.  `trunc` is the module flag of binary truncation.
-/
namespace Cob

/-- libcob/common.h:325: `digits` is an `unsigned char`. -/
def uchar (n : Nat) : Nat := n % 256

/-- libcob/common.h:326: `scale` is a `signed char`. -/
def schar (n : Int) : Int := Int.bmod n 256

/-- libcob/intrinsic.c:343-369 `make_field_entry` for a binary result (cleared). -/
def newBinary (digits : Nat) (scale : Int) (sign : Bool) (size : Nat) : Item :=
  ⟨.binary, ⟨{ digits := uchar digits, scale := schar scale, haveSign := sign }, List.replicate size 0⟩⟩

/-- libcob/intrinsic.c:343-369 `make_field_entry` for a zoned result (cleared). -/
def newZoned (size : Nat) (scale : Int) (sign : Bool) : Item :=
  ⟨.display, ⟨{ digits := uchar size, scale := schar scale, haveSign := sign }, List.replicate size 0⟩⟩

/-- Number of decimal digits of `n`, at least 1 (`fuel` bounds the recursion). -/
def ndigitsAux : Nat → Nat → Nat
  | 0, _ => 1
  | fuel + 1, n => if n < 10 then 1 else ndigitsAux fuel (n / 10) + 1

/-- Number of decimal digits of `n`, at least 1. -/
def ndigits (n : Nat) : Nat := ndigitsAux n n

/-- `mpz_sizeinbase (v, 10)`: exact, or one too big (GMP documents both); `extra` is which. -/
def sizeBase10 (extra : Bool) (v : Int) : Nat := ndigits v.natAbs + if extra then 1 else 0

/-- libcob/intrinsic.c:462-489: the receiving item `cob_intr_binop` makes for the decimal `d`.
`mpz_sizeinbase (v, 2) < b` is `|v| < 2 ^ (b - 1)`. -/
def binopItem (extra : Bool) (d : Dec) : Item :=
  let neg := decide (d.value < 0)
  let sign := if neg then 1 else 0
  if d.value.natAbs < 2 ^ (32 - sign) ∧ d.scale < 10 then newBinary 9 d.scale neg 4
  else if d.value.natAbs < 2 ^ (64 - sign) ∧ d.scale < 19 then newBinary 20 d.scale neg 8
  else
    let size := sizeBase10 extra d.value
    let size := if d.scale > size then d.scale.toNat else size
    newZoned size d.scale neg

/-- libcob/intrinsic.c:434-492 `cob_intr_binop` for `+ - * /`; `op` is the decimal operation. -/
def intrBinop (ebc trunc extra : Bool) (op : Dec → Dec → Dec) (f1 f2 : Item) : Option ItemRes :=
  match readItem ebc f1, readItem ebc f2 with
  | (some d1, _), (some d2, _) =>
    let d := op d1 d2
    some (storeItem ebc d (binopItem extra d) { binTrunc := trunc })
  | _, _ => none

/-- libcob/intrinsic.c:526-529: `while (d1.scale > 1)`, `n` times. -/
def dropDigits : Nat → Int → Int
  | 0, v => v
  | n + 1, v => dropDigits n (v.tdiv 10)

/-- libcob/intrinsic.c:521-533: what `cob_intr_integer` does to the decimal before storing it. -/
def integerDec (d : Dec) : Dec :=
  if 0 ≤ d.value then d
  else
    let v := dropDigits (d.scale - 1).toNat d.value
    let s := if d.scale > 1 then 1 else d.scale
    let scale : Int := if s > 0 then 10 else 1
    ⟨if v % scale ≠ 0 then v - scale else v, s⟩

/-- libcob/intrinsic.c:510-536 `cob_intr_integer`. -/
def intrInteger (ebc trunc : Bool) (src : Item) : Option ItemRes :=
  match readItem ebc src with
  | (some d, _) => some (storeItem ebc (integerDec d) (newBinary 18 0 true 8) { binTrunc := trunc })
  | _ => none

/-- libcob/intrinsic.c:538-550 `cob_intr_integer_part`. -/
def intrIntegerPart (ebc trunc : Bool) (src : Item) : MoveRes :=
  cobMoveNum ebc trunc src (newBinary 18 0 true 8)

/-- libcob/intrinsic.c:552-564 `cob_intr_fraction_part`. -/
def intrFractionPart (ebc trunc : Bool) (src : Item) : MoveRes :=
  cobMoveNum ebc trunc src (newBinary 18 18 true 8)

/-- libcob/intrinsic.c:2311-2330 `cob_intr_mod`. -/
def intrMod (ebc trunc extra : Bool) (f1 f2 : Item) : Option ItemRes :=
  match intrBinop ebc trunc extra (fun a b => (a.div b).1) f1 f2 with
  | none => none
  | some q =>
    match intrInteger ebc trunc q.item with
    | none => none
    | some i =>
      match readItem ebc f1, readItem ebc f2, readItem ebc i.item with
      | (some a, _), (some b, _), (some n, _) =>
        some (storeItem ebc (a.sub (n.mul b)) (newBinary 18 0 true 8) { binTrunc := trunc })
      | _, _, _ => none

/-- libcob/intrinsic.c:2370-2393 `cob_intr_rem`. -/
def intrRem (ebc trunc extra : Bool) (f1 f2 : Item) : Option ItemRes :=
  match intrBinop ebc trunc extra (fun a b => (a.div b).1) f1 f2 with
  | none => none
  | some q =>
    match intrIntegerPart ebc trunc q.item with
    | .done i =>
      match readItem ebc f1, readItem ebc f2, readItem ebc i with
      | (some a, _), (some b, _), (some n, _) =>
        let s1 := f1.field.attr.scale
        let s2 := f2.field.attr.scale
        let scale := if s2 > s1 then s2 else s1
        some (storeItem ebc (a.sub (n.mul b)) (newBinary 18 scale true 8) { binTrunc := trunc })
      | _, _, _ => none
    | _ => none

/-- libcob/intrinsic.c:1576-1586 `cob_intr_abs`: the result has the form of the argument. -/
def intrAbs (ebc trunc : Bool) (src : Item) : Option ItemRes :=
  match readItem ebc src with
  | (some d, _) =>
    some (storeItem ebc ⟨d.value.natAbs, d.scale⟩
      { src with field := { src.field with data := List.replicate src.field.data.length 0 } } { binTrunc := trunc })
  | _ => none

/-- libcob/intrinsic.c:2042-2050: the loop of `cob_intr_sum`; the largest scale and the sum. -/
def sumLoop (ebc : Bool) : List Item → Int → Dec → Option (Int × Dec)
  | [], scale, d => some (scale, d)
  | f :: fs, scale, d =>
    match readItem ebc f with
    | (some d2, _) => sumLoop ebc fs (if f.field.attr.scale > scale then f.field.attr.scale else scale) (d.add d2)
    | _ => none

/-- libcob/intrinsic.c:2027-2075 `cob_intr_sum`.  `d1.scale > size` compares an `int` with a
`size_t`; the scale of the sum is never negative here (it starts at 0 and addition raises it). -/
def intrSum (ebc trunc extra : Bool) (args : List Item) : Option ItemRes :=
  match sumLoop ebc args 0 ⟨0, 0⟩ with
  | none => none
  | some (scale, d) =>
    let size := sizeBase10 extra d.value
    let it :=
      if size < 19 then newBinary 18 scale true 8
      else
        let size := if d.scale > size then d.scale.toNat else size
        let size := if scale > size then scale.toNat else size
        newZoned size scale true
    some (storeItem ebc d it { binTrunc := trunc })

end Cob
