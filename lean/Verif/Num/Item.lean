import Verif.Num.Field
/-
Model of the dispatching layer of libcob/numeric.c: reading any numeric item into a decimal,
storing a decimal into any numeric item, and the arithmetic entry points the generated code
calls (`cob_add`, `cob_sub`, `cob_div_quotient`, ...).
Floating point items and numeric-edited receivers are not modelled here.
-/
namespace Cob

/-- libcob/common.h:160-170: the numeric field types modelled. -/
inductive Usage where
  | display | packed | binary
deriving DecidableEq, Repr

/-- A numeric item: its storage type and its field. -/
structure Item where
  usage : Usage
  field : Field
deriving DecidableEq, Repr

/-- libcob/numeric.c:936-960 `cob_decimal_set_field`: the decimal read and the item afterwards.
`none`: the characters were not digits (see `decSetDisplay`). -/
def readItem (ebc : Bool) (it : Item) : Option Dec × Item :=
  match it.usage with
  | .binary => (some (decSetBinary it.field), it)
  | .packed => (some (decSetPacked it.field), it)
  | .display =>
    let r := decSetDisplay ebc it.field
    (r.1, { it with field := r.2 })

/-- Result of a store into an item. -/
structure ItemRes where
  item : Item
  raised : Bool
  failed : Bool
deriving DecidableEq, Repr

/-- libcob/numeric.c:962-1029 `cob_decimal_get_field`. -/
def storeItem (ebc : Bool) (d : Dec) (it : Item) (opt : StoreOpt) : ItemRes :=
  if d.isNaN then ⟨it, true, true⟩
  else
    let v := (d.toFieldScale it.field.attr.scale opt.round).value
    let r := match it.usage with
      | .binary => decGetBinary v it.field opt
      | .packed => decGetPacked v it.field opt
      | .display => decGetDisplay ebc v it.field opt
    ⟨{ it with field := r.field }, r.raised, r.failed⟩

/-- libcob/numeric.c:1279-1286 `cob_add` (items with numeric contents; `none` otherwise).  `f1`
and `f2` are different storage. -/
def cobAdd (ebc : Bool) (f1 f2 : Item) (opt : StoreOpt) : Option ItemRes :=
  match readItem ebc f1, readItem ebc f2 with
  | (some d1, i1), (some d2, _) => some (storeItem ebc (d1.add d2) i1 opt)
  | _, _ => none

/-- libcob/numeric.c:1288-1295 `cob_sub`. -/
def cobSub (ebc : Bool) (f1 f2 : Item) (opt : StoreOpt) : Option ItemRes :=
  match readItem ebc f1, readItem ebc f2 with
  | (some d1, i1), (some d2, _) => some (storeItem ebc (d1.sub d2) i1 opt)
  | _, _ => none

/-- libcob/numeric.c:1335-1364 `cob_div_quotient` on the decimals read from dividend and
divisor: the result of the store in the quotient (`none`: not stored, division by zero) and
the decimal kept for the remainder. -/
def divQuotient (ebc : Bool) (d1 d2 : Dec) (quotient : Item) (opt : StoreOpt) :
    Option ItemRes × Dec :=
  let q := (d1.div d2).1
  if q.isNaN then (none, ⟨d1.value, Dec.nanScale⟩)
  else
    let r := storeItem ebc q quotient opt
    let d4 := q.shift (quotient.field.attr.scale - q.scale)
    (some r, d1.sub (d4.mul d2))

/-- libcob/numeric.c:1364-1368 `cob_div_remainder`. -/
def divRemainder (ebc : Bool) (d3 : Dec) (rem : Item) (opt : StoreOpt) : ItemRes :=
  storeItem ebc d3 rem opt

/-- libcob/numeric.c:1388-1394 `cob_numeric_cmp`. -/
def numericCmp (ebc : Bool) (f1 f2 : Item) : Option Ordering :=
  match readItem ebc f1, readItem ebc f2 with
  | (some d1, _), (some d2, _) => some (d1.cmp d2)
  | _, _ => none

/-- libcob/numeric.c:1370-1377 `cob_cmp_int`. -/
def cmpInt (ebc : Bool) (f1 : Item) (n : Int) : Option Ordering :=
  match readItem ebc f1 with
  | (some d1, _) => some (d1.cmp ⟨n, 0⟩)
  | _ => none

end Cob
