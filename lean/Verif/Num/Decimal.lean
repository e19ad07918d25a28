/-
Model of the decimal arithmetic of libcob/numeric.c (`cob_decimal`).
GMP integers are `Int`; `mpz_tdiv_q` is `Int.tdiv`.
-/
namespace Cob

/-- libcob/numeric.h:33-39 `cob_decimal`: an arbitrary precision integer and a decimal
scale.  libcob/numeric.c:37 `DECIMAL_NAN` (-128) is the scale value marking "no value". -/
structure Dec where
  value : Int
  scale : Int
deriving DecidableEq, Repr

namespace Dec

/-- libcob/numeric.c:37 `DECIMAL_NAN`. -/
def nanScale : Int := -128

/-- libcob/numeric.c:38-42: the test made by `DECIMAL_CHECK`. -/
def isNaN (d : Dec) : Bool := d.scale == nanScale

/-- libcob/numeric.c:296-312 `shift_decimal`.  `n` and `scale` are C `int`s; the model
uses unbounded integers (scales are sums of at most a few hundred `signed char`s). -/
def shift (d : Dec) (n : Int) : Dec :=
  if n = 0 then d
  else if n > 0 then ⟨d.value * 10 ^ n.toNat, d.scale + n⟩
  else ⟨d.value.tdiv (10 ^ (-n).toNat), d.scale + n⟩

/-- libcob/numeric.c:314-322 `align_decimal`: both operands are modified. -/
def align (d1 d2 : Dec) : Dec × Dec :=
  if d1.scale < d2.scale then (d1.shift (d2.scale - d1.scale), d2)
  else if d1.scale > d2.scale then (d1, d2.shift (d1.scale - d2.scale))
  else (d1, d2)

/-- libcob/numeric.c:1036-1042 `cob_decimal_add` (the new value of `d1`). -/
def add (d1 d2 : Dec) : Dec :=
  if d1.isNaN || d2.isNaN then ⟨d1.value, nanScale⟩
  else
    let p := align d1 d2
    ⟨p.1.value + p.2.value, p.1.scale⟩

/-- libcob/numeric.c:1044-1050 `cob_decimal_sub`. -/
def sub (d1 d2 : Dec) : Dec :=
  if d1.isNaN || d2.isNaN then ⟨d1.value, nanScale⟩
  else
    let p := align d1 d2
    ⟨p.1.value - p.2.value, p.1.scale⟩

/-- libcob/numeric.c:1052-1058 `cob_decimal_mul`. -/
def mul (d1 d2 : Dec) : Dec :=
  if d1.isNaN || d2.isNaN then ⟨d1.value, nanScale⟩
  else ⟨d1.value * d2.value, d1.scale + d2.scale⟩

/-- libcob/numeric.c:1060-1082 `cob_decimal_div`.  The Boolean is "COB_EC_SIZE_ZERO_DIVIDE
was raised".  The `cob_error_on_exit_flag` abort (line 1070) is not modelled. -/
def div (d1 d2 : Dec) : Dec × Bool :=
  if d1.isNaN || d2.isNaN then (⟨d1.value, nanScale⟩, false)
  else if d2.value = 0 then (⟨d1.value, nanScale⟩, true)
  else if d1.value = 0 then (⟨0, 0⟩, false)
  else
    let d := (⟨d1.value, d1.scale - d2.scale⟩ : Dec)
    let d' := d.shift (37 + (if d.scale < 0 then -d.scale else 0))
    (⟨d'.value.tdiv d2.value, d'.scale⟩, false)

/-- libcob/numeric.c:1084-1099 `cob_decimal_pow`, integer branch only (`d2.scale = 0` and
the exponent fits an `unsigned long`); the exponent is truncated to `unsigned int`
(line 1087).  The floating point branch is not modelled (`none`). -/
def pow (d1 d2 : Dec) : Option Dec :=
  if d1.isNaN || d2.isNaN then some ⟨d1.value, nanScale⟩
  else if d2.scale = 0 ∧ 0 ≤ d2.value ∧ d2.value < 2 ^ 64 then
    let n : Nat := d2.value.toNat % 2 ^ 32
    some ⟨d1.value ^ n, d1.scale * (n : Int)⟩
  else none

/-- libcob/numeric.c:1101-1106 `cob_decimal_cmp`; the sign of the result of `mpz_cmp`. -/
def cmp (d1 d2 : Dec) : Ordering :=
  let p := align d1 d2
  compare p.1.value p.2.value

/-- libcob/numeric.c:985-1001: the rounding and scaling part of `cob_decimal_get_field`,
for a receiving field of scale `fs`; `round` is the bit `COB_STORE_ROUND` of `opt`. -/
def toFieldScale (d : Dec) (fs : Int) (round : Bool) : Dec :=
  let d1 :=
    if round = true ∧ fs < d.scale ∧ d.value ≠ 0 then
      let e := d.shift (fs - d.scale + 1)
      if d.value > 0 then (⟨e.value + 5, e.scale⟩ : Dec) else ⟨e.value - 5, e.scale⟩
    else d
  d1.shift (fs - d1.scale)

end Dec
end Cob
