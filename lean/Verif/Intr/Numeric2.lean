import Verif.Intr.Numeric
/-
More of the numeric functions of libcob/intrinsic.c: SIGN, FACTORIAL and MEAN.
-/
namespace Cob

/-- libcob/intrinsic.c:566-586 `cob_intr_sign`: the argument is compared with the result item set
to zero (4 bytes, signed). The result is the number then set (`cob_set_int`). -/
def intrSign (ebc : Bool) (src : Item) : Option Int :=
  match numericCmp ebc src (newBinary 8 0 true 4) with
  | some .lt => some (-1)
  | some .gt => some 1
  | some .eq => some 0
  | none => none

/-- `mpz_fac_ui`: the product 1 · 2 ⋯ n. -/
def facUi : Nat → Nat
  | 0 => 1
  | n + 1 => (n + 1) * facUi n

/-- libcob/intrinsic.c:1516-1538 `cob_intr_factorial`, given `cob_get_int` of the argument: the
result item and whether an exception was raised (1530: a negative argument, result 0). -/
def intrFactorial (ebc trunc : Bool) (srcval : Int) : ItemRes :=
  if srcval < 0 then { storeItem ebc ⟨0, 0⟩ (newBinary 18 0 false 8) {} with raised := true }
  else storeItem ebc ⟨facUi srcval.toNat, 0⟩ (newBinary 18 0 false 8) { binTrunc := trunc }

/-- libcob/intrinsic.c:2302: `for (i = 0; n; n /= 10, ++i) ;`, `fuel` turns at most. -/
def countDigits : Nat → Int → Nat
  | 0, _ => 0
  | fuel + 1, n => if n = 0 then 0 else countDigits fuel (n.tdiv 10) + 1

/-- libcob/intrinsic.c:2267-2309 `cob_intr_mean`: the quotient is stored once without decimals to
count the digits of its whole part (2297-2302), then with as many decimals as 18 digits leave. -/
def intrMean (ebc trunc : Bool) (args : List Item) : Option ItemRes :=
  match sumLoop ebc args 0 ⟨0, 0⟩ with
  | none => none
  | some (_, d) =>
    let q := (d.div ⟨args.length, 0⟩).1
    let r := storeItem ebc q (newBinary 18 0 true 8) { binTrunc := trunc }
    match readItem ebc r.item with
    | (some n, _) =>
      let i := countDigits 20 n.value
      let scale : Int := if i ≤ 18 then 18 - i else 0
      some (storeItem ebc q (newBinary 18 scale true 8) { binTrunc := trunc })
    | _ => none

end Cob
