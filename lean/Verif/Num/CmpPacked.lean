import Verif.Num.Field
/-
Model of libcob/numeric.c `cob_cmp_packed` with its cached conversion of the integer, and of
`cob_cmp_numdisp`.
-/
namespace Cob

/-- The static state of `cob_cmp_packed`: `lastval` (numeric.c:1399) and the file-level array
`packed_value[20]` (numeric.c:111, zeroed by `cob_init_numeric`). -/
structure CmpCache where
  lastval : Int
  packed : List Nat
deriving DecidableEq, Repr

/-- The state after `cob_init_numeric` (numeric.c:1478). -/
def CmpCache.init : CmpCache := ⟨0, List.replicate 20 0⟩

/-- numeric.c:1442-1447: the digit-pair loop, from byte `p` downwards. -/
def packPairs : (p n : Nat) → List Nat → List Nat
  | 0, n, l => if n = 0 then l else l.set 0 (n % 100 % 10 + 16 * (n % 100 / 10))
  | p + 1, n, l => if n = 0 then l
      else packPairs p (n / 100) (l.set (p + 1) (n % 100 % 10 + 16 * (n % 100 / 10)))

/-- numeric.c:1430-1449: refresh the cache for `n` if it is not the last value compared. -/
def CmpCache.refresh (c : CmpCache) (n : Int) : CmpCache :=
  if n = c.lastval then c
  else
    let m := n.natAbs
    let base := c.packed.take 14 ++ List.replicate 6 0
    ⟨n, if m = 0 then base else packPairs 18 (m / 10) (base.set 19 (m % 10 * 16))⟩

/-- numeric.c:1417-1429: the item's bytes right-adjusted in 20, sign and unused nibble cleared. -/
def cmpVal1 (f : Field) : List Nat :=
  let v := List.replicate (20 - f.data.length) 0 ++ f.data
  let v := v.set 19 (v.getD 19 0 / 16 * 16)
  if f.attr.digits % 2 = 0 then
    v.set (20 - f.data.length) (v.getD (20 - f.data.length) 0 % 16) else v

/-- numeric.c:1450-1458: the first difference of the byte strings, as an ordering. -/
def byteCmp : List Nat → List Nat → Ordering
  | a :: as, b :: bs => if a = b then byteCmp as bs else compare a b
  | _, _ => .eq

/-- libcob/numeric.c:1396-1460 `cob_cmp_packed`: the sign of the returned value, and the static
state afterwards. -/
def cobCmpPacked (c : CmpCache) (f : Field) (n : Int) : Ordering × CmpCache :=
  let sign := packedGetSign f
  if 0 ≤ sign ∧ n < 0 then (.gt, c)
  else if sign < 0 ∧ 0 ≤ n then (.lt, c)
  else
    let c' := c.refresh n
    let r := byteCmp (cmpVal1 f) c'.packed
    (if sign < 0 then r.swap else r, c')

/-- libcob/numeric.c:1483-1496 `cob_cmp_numdisp` (items of at most 9 digits, no `int` overflow). -/
def cobCmpNumdisp (bs : List Nat) (n : Int) : Ordering :=
  compare (bs.foldl (fun (v : Int) (b : Nat) => v * 10 + ((b : Int) - 48)) 0) n

end Cob
