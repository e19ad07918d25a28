import Verif.Cmp.Compare
import Verif.Intr.Numeric
/-
Model of the selection functions of libcob/intrinsic.c: MIN, MAX, ORD-MIN, ORD-MAX, RANGE,
MEDIAN, MIDRANGE, MEAN.  The arguments are operands (`Opnd`); the comparison is `cob_cmp`.
-/
namespace Cob

/-- libcob/intrinsic.c:2156-2163: the loop of `cob_intr_min` over the remaining arguments.
`none`: a comparison met a numeric item without numeric contents (see `cobCmp`). -/
def minLoop (cmp : Opnd → Opnd → Option Int) : List Opnd → Opnd → Option Opnd
  | [], base => some base
  | f :: fs, base =>
    match cmp f base with
    | none => none
    | some c => minLoop cmp fs (if c < 0 then f else base)

/-- libcob/intrinsic.c:2147-2166 `cob_intr_min` (at least one argument). -/
def intrMin (cmp : Opnd → Opnd → Option Int) (f : Opnd) (fs : List Opnd) : Option Opnd := minLoop cmp fs f

/-- libcob/intrinsic.c:2177-2184: the loop of `cob_intr_max`. -/
def maxLoop (cmp : Opnd → Opnd → Option Int) : List Opnd → Opnd → Option Opnd
  | [], base => some base
  | f :: fs, base =>
    match cmp f base with
    | none => none
    | some c => maxLoop cmp fs (if c > 0 then f else base)

/-- libcob/intrinsic.c:2168-2187 `cob_intr_max`. -/
def intrMax (cmp : Opnd → Opnd → Option Int) (f : Opnd) (fs : List Opnd) : Option Opnd := maxLoop cmp fs f

/-- libcob/intrinsic.c:2099-2106: the loop of `cob_intr_ord_min` from argument index `i`; `ord` is
`ordmin`. -/
def ordMinLoop (cmp : Opnd → Opnd → Option Int) : List Opnd → Nat → Opnd → Nat → Option Nat
  | [], _, _, ord => some ord
  | f :: fs, i, base, ord =>
    match cmp f base with
    | none => none
    | some c => if c < 0 then ordMinLoop cmp fs (i + 1) f i else ordMinLoop cmp fs (i + 1) base ord

/-- libcob/intrinsic.c:2077-2110 `cob_intr_ord_min`. -/
def intrOrdMin (cmp : Opnd → Opnd → Option Int) : List Opnd → Option Nat
  | [] => some 0
  | [_] => some 0
  | f :: fs => (ordMinLoop cmp fs 1 f 0).map (· + 1)

/-- libcob/intrinsic.c:2134-2141: the loop of `cob_intr_ord_max`. -/
def ordMaxLoop (cmp : Opnd → Opnd → Option Int) : List Opnd → Nat → Opnd → Nat → Option Nat
  | [], _, _, ord => some ord
  | f :: fs, i, base, ord =>
    match cmp f base with
    | none => none
    | some c => if c > 0 then ordMaxLoop cmp fs (i + 1) f i else ordMaxLoop cmp fs (i + 1) base ord

/-- libcob/intrinsic.c:2112-2145 `cob_intr_ord_max`. -/
def intrOrdMax (cmp : Opnd → Opnd → Option Int) : List Opnd → Option Nat
  | [] => some 0
  | [_] => some 0
  | f :: fs => (ordMaxLoop cmp fs 1 f 0).map (· + 1)

/-- libcob/intrinsic.c:2332-2368 `cob_intr_range` on numeric items: the loop keeps the first
smallest and the first largest argument. -/
def rangeLoop (ebc : Bool) : List Item → Item → Item → Option (Item × Item)
  | [], lo, hi => some (lo, hi)
  | f :: fs, lo, hi =>
    match numericCmp ebc f lo, numericCmp ebc f hi with
    | some c, some d => rangeLoop ebc fs (if c = .lt then f else lo) (if d = .gt then f else hi)
    | _, _ => none

/-- libcob/intrinsic.c:2332-2368 `cob_intr_range` on numeric items. -/
def intrRange (ebc trunc : Bool) (f : Item) (fs : List Item) : Option ItemRes :=
  match rangeLoop ebc fs f f with
  | none => none
  | some (lo, hi) =>
    let s1 := lo.field.attr.scale
    let s2 := hi.field.attr.scale
    let scale := if s2 > s1 then s2 else s1
    match readItem ebc hi, readItem ebc lo with
    | (some d1, _), (some d2, _) => some (storeItem ebc (d1.sub d2) (newBinary 18 scale true 8) { binTrunc := trunc })
    | _, _ => none

/-- libcob/intrinsic.c:2222-2265 `cob_intr_median` on numeric items, up to the final store: the
decimal of the result, given the array `sorted` that `qsort` leaves (libcob/intrinsic.c:400-409
`comp_field` is the order).  For an even count, the mean of the two middle arguments; it is
then stored as a floating point number, which is not modelled. -/
def medianOf (ebc : Bool) (sorted : List Item) : Option Dec :=
  let n := sorted.length
  let i := n / 2
  if n % 2 = 1 then
    match sorted[i]? with
    | some f => (readItem ebc f).1
    | none => none
  else
    match sorted[i - 1]?, sorted[i]? with
    | some f, some g =>
      match readItem ebc f, readItem ebc g with
      | (some d1, _), (some d2, _) => some ((d1.add d2).div ⟨2, 0⟩).1
      | _, _ => none
    | _, _ => none

end Cob
