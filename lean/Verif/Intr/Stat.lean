import Verif.Intr.Numeric2
/-
FUNCTION VARIANCE, RANDOM and STORED-CHAR-LENGTH of libcob/intrinsic.c.
-/
namespace Cob.Stat
open Cob

/-- libcob/intrinsic.c:2490-2496: the second loop of `cob_intr_variance`: the squares of the
differences from the mean `m` (`d1`) are added to `acc` (`d4`).  `cob_decimal_sub` may also rewrite
`d1` with more decimals (numeric.c `align_decimals`), which leaves the number it denotes unchanged;
the model keeps `m`. -/
def devLoop (ebc : Bool) (m : Dec) : List Item → Dec → Option Dec
  | [], acc => some acc
  | f :: fs, acc =>
    match readItem ebc f with
    | (some d2, _) => devLoop ebc m fs (acc.add ((d2.sub m).mul (d2.sub m)))
    | _ => none

/-- libcob/intrinsic.c:2501-2512: the quotient is stored without decimals to count the digits of
its whole part, then with as many decimals as 18 digits leave. -/
def finish (ebc trunc : Bool) (q : Dec) : Option ItemRes :=
  match readItem ebc (storeItem ebc q (newBinary 18 0 true 8) { binTrunc := trunc }).item with
  | (some n, _) =>
    let i := countDigits 20 n.value
    let scale : Int := if i ≤ 18 then 18 - i else 0
    some (storeItem ebc q (newBinary 18 scale true 8) { binTrunc := trunc })
  | _ => none

/-- libcob/intrinsic.c:2447-2513 `cob_intr_variance`.  With one argument (2463-2467) the result is
0; otherwise the mean (2469-2482), the sum of squares (2486-2496), and their quotient (2498-2500).
`none`: an argument is not numeric (outside of what is modelled). -/
def intrVariance (ebc trunc : Bool) (args : List Item) : Option ItemRes :=
  if args.length = 1 then some (storeItem ebc ⟨0, 0⟩ (newBinary 18 0 true 8) { binTrunc := trunc })
  else
    match sumLoop ebc args 0 ⟨0, 0⟩ with
    | none => none
    | some (_, d) =>
      match devLoop ebc (d.div ⟨args.length, 0⟩).1 args ⟨0, 0⟩ with
      | none => none
      | some d4 => finish ebc trunc (d4.div ⟨args.length, 0⟩).1

/-- A 32-bit `int` after an operation whose exact result is `n` (two's complement). -/
def wrap32 (n : Int) : Int := (n + 2 ^ 31) % 2 ^ 32 - 2 ^ 31

/-- libcob/intrinsic.c:2430-2436: `for (i = 0; i < 10; ++i) { if ((randnum / exp10) == 0) break;
exp10 *= 10; }`, from turn `i` on, `fuel` turns at most; the value of `i` afterwards. -/
def randDigits : Nat → Int → Int → Nat → Nat
  | 0, _, _, i => i
  | fuel + 1, randnum, exp10, i =>
    if randnum.tdiv exp10 = 0 then i else randDigits fuel randnum (wrap32 (exp10 * 10)) (i + 1)

/-- The number generator of the C library: its state, `srand` and `rand`. -/
structure Gen (S : Type) where
  /-- `srand`. -/
  seed : Nat → S
  /-- `rand`: the number and the state afterwards. -/
  next : S → Nat × S

/-- libcob/intrinsic.c:2412-2422: with an argument (`cob_get_int` of it) the generator is seeded
with it, or with 0 when it is negative. -/
def reseed {S : Type} (g : Gen S) (s : S) : Option Int → S
  | some v => g.seed (if v < 0 then 0 else v).toNat
  | none => s

/-- libcob/intrinsic.c:2430-2443: the raw number stored as a `long long`, with its digits as
decimals, at least one. -/
def randomItem (r : Nat) : Item :=
  let i := randDigits 10 r 1 0
  let it := newBinary 18 (if i = 0 then 1 else i : Nat) true 8
  { it with field := { it.field with data := leBytes 8 r } }

/-- libcob/intrinsic.c:2396-2444 `cob_intr_random`: the result item and the state of the
generator afterwards. -/
def intrRandom {S : Type} (g : Gen S) (s : S) (arg : Option Int) : Item × S :=
  (randomItem (g.next (reseed g s arg)).1, (g.next (reseed g s arg)).2)

/-- The results of a series of calls. -/
def series {S : Type} (g : Gen S) : S → List (Option Int) → List Item
  | _, [] => []
  | s, a :: as => (intrRandom g s a).1 :: series g (intrRandom g s a).2 as

/-- libcob/intrinsic.c:1197-1203: `for (; count > 0; count--, p--) if (*p != ' ') break;`, where
`rev` is the data read from its last byte. -/
def countLoop : List Nat → Nat → Nat
  | [], count => count
  | b :: rest, count => if count = 0 then 0 else if b ≠ 32 then count else countLoop rest (count - 1)

/-- libcob/intrinsic.c:1155-1207 `cob_intr_stored_char_length` (the build without I18N_UTF8). -/
def storedCharLength (data : List Nat) : Nat := countLoop data.reverse data.length

end Cob.Stat
