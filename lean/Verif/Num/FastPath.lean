import Verif.Num.Item
import Verif.Num.CmpPacked
import Verif.Num.AddInt
/-
Model of the specialised comparison and addition routines that cobc selects instead of the
general library entry points (libcob/codegen.h, inlined into the generated code; parts of
libcob/numeric.c and libcob/move.c), and of the selection itself (cobc/typeck.c, cobc/tree.c,
cobc/codegen.c).

The 28 `cob_cmp_*`, 32 `cob_add_*`/`cob_sub_*` and 14 `cob_setswp_*` routines are written out in
the source one per size, signedness and byte order; they follow one scheme (checked by reading
all of them) and are modelled by one definition each, parameterised by the number of bytes.
Branches: little-endian machine, `ALLOW_MISALIGNED`.  Overflow of a C signed addition is
modelled as wrap-around.
-/
namespace Cob

/-! ### binary items -/

/-- libcob/codegen.h:507-1850: the C object a routine for `size` bytes works in (`char`, `short`,
`int` or `long long`), in bytes. -/
def regWidth (size : Nat) : Nat :=
  if size ≤ 1 then 1 else if size ≤ 2 then 2 else if size ≤ 4 then 4 else 8

/-- A `w`-byte bit pattern read as a signed C integer. -/
def regSigned (w u : Nat) : Int := if 2 * u < 2 ^ (8 * w) then u else (u : Int) - 2 ^ (8 * w)

/-- libcob/codegen.h:507-805 (`cob_cmp_*`) and 1571-1845 (`cob_cmpswp_*`): the value loaded.  The
object starts as zero bytes; unsigned routines put the item's bytes at its low end, signed ones
at its high end and shift right arithmetically; the swapped ones put them at the other end and
byte-swap the whole object. -/
def cmpLoad (signed swap : Bool) (data : List Nat) : Int :=
  let w := regWidth data.length
  let pad := List.replicate (w - data.length) 0
  if signed then
    regSigned w (leVal (if swap then bswapBytes (data ++ pad) else pad ++ data))
      / 2 ^ (8 * (w - data.length))
  else leVal (if swap then bswapBytes (pad ++ data) else data ++ pad)

/-- libcob/codegen.h:507-805, 1571-1845: `cob_cmp_u8_binary` ... `cob_cmpswp_s64_binary`. -/
def cmpBinary (signed swap : Bool) (data : List Nat) (n : Int) : Ordering :=
  if !signed && decide (n < 0) then .gt
  else
    let val := cmpLoad signed swap data
    if val < n then .lt else if val > n then .gt else .eq

/-- libcob/codegen.h:824-1565 (`cob_add_*`, `cob_sub_*`), 1848-2439 (`cob_addswp_*`,
`cob_subswp_*`): the value loaded; here the swapped routines copy the bytes in reverse. -/
def addLoad (signed swap : Bool) (data : List Nat) : Int :=
  let w := regWidth data.length
  let pad := List.replicate (w - data.length) 0
  let bytes := if swap then data.reverse else data
  if signed then regSigned w (leVal (pad ++ bytes)) / 2 ^ (8 * (w - data.length))
  else leVal (bytes ++ pad)

/-- libcob/codegen.h:824-2439: the low `size` bytes of the object go back into the item. -/
def regStore (swap : Bool) (size : Nat) (x : Int) : List Nat :=
  let bytes := (leBytes (regWidth size) (x % 2 ^ (8 * regWidth size)).toNat).take size
  if swap then bytes.reverse else bytes

/-- libcob/codegen.h:824-1190, 1848-2143: `cob_add_u8_binary` ... `cob_addswp_s64_binary`. -/
def addBinary (signed swap : Bool) (data : List Nat) (val : Int) : List Nat :=
  regStore swap data.length (addLoad signed swap data + val)

/-- libcob/codegen.h:1196-1563, 2148-2439: `cob_sub_u8_binary` ... `cob_subswp_s64_binary`. -/
def subBinary (signed swap : Bool) (data : List Nat) (val : Int) : List Nat :=
  regStore swap data.length (addLoad signed swap data - val)

/-- libcob/codegen.h:2446-2672: `cob_setswp_u16_binary` ... `cob_setswp_s64_binary`. -/
def setSwpBinary (size : Nat) (val : Int) : List Nat := regStore true size val

/-! ### packed items of at most nine digits -/

/-- libcob/codegen.h:228-247 `cob_get_packed_int` (no `int` overflow: at most five bytes of
decimal nibbles). -/
def getPackedInt (data : List Nat) : Int :=
  let hi : Int := data.dropLast.foldl (fun (v : Int) (b : Nat) => (v * 10 + (b / 16 : Nat)) * 10 + (b % 16 : Nat)) 0
  let last := data.getLastD 0
  let val := hi * 10 + (last / 16 : Nat)
  if last % 16 = 13 then -val else val

/-- libcob/codegen.h:206-225 `cob_cmp_packed_int`. -/
def cmpPackedInt (data : List Nat) (n : Int) : Ordering :=
  let val := getPackedInt data
  if val < n then .lt else if val > n then .gt else .eq

/-- libcob/codegen.h:279-290: the loop of `cob_add_packed_int` over the bytes left of the sign
byte, from the right (`bs` is reversed). -/
def addPackedLoop : (bs : List Nat) → (n carry : Nat) → List Nat
  | [], _, _ => []
  | b :: bs, n, carry =>
    if carry = 0 ∧ n = 0 then b :: bs
    else
      let inc := (b / 16) * 10 + b % 16 + carry + n % 100
      (inc % 100 / 10 * 16 + inc % 100 % 10) :: addPackedLoop bs (n / 100) (inc / 100)

/-- libcob/codegen.h:250-292 `cob_add_packed_int`. -/
def addPackedInt (f : Field) (val : Int) : Field :=
  if val = 0 then f
  else
    let last := f.data.getLastD 0
    if (last % 16 = 13 ∧ val > 0) ∨ (last % 16 ≠ 13 ∧ val < 0) then cobAddPacked f val
    else
      let n := val.natAbs
      let inc := last / 16 + n % 10
      let last' := inc % 10 * 16 + last % 16
      { f with data := (addPackedLoop f.data.dropLast.reverse (n / 10) (inc / 10)).reverse ++ [last'] }

/-! ### zoned items -/

/-- libcob/codegen.h:189-203 `cob_get_numdisp`. -/
def getNumdisp (bs : List Nat) : Int :=
  bs.foldl (fun (v : Int) (b : Nat) => v * 10 + (if b > 57 then 10 else (b : Int) - 48)) 0

/-- libcob/numeric.c:1585-1648 `cob_get_ebcdic_sign`: what is added to the value, and whether
the sign is negative. -/
def ebcdicSignDigit (b : Nat) : Int × Bool :=
  if 65 ≤ b ∧ b ≤ 73 then ((b : Int) - 64, false)
  else if b = 125 then (0, true)
  else if 74 ≤ b ∧ b ≤ 82 then ((b : Int) - 73, true)
  else (0, false)

/-- libcob/numeric.c:1718-1746 `cob_cmp_sign_numdisp` and 1749-1777
`cob_cmp_long_sign_numdisp` (no overflow: at most 9, resp. 18 digits). -/
def cmpSignNumdisp (ebc : Bool) (bs : List Nat) (n : Int) : Ordering :=
  let hi : Int := bs.dropLast.foldl (fun (v : Int) (b : Nat) => v * 10 + ((b : Int) - 48)) 0
  let p := bs.getLastD 0
  let val :=
    if 48 ≤ p ∧ p ≤ 57 then hi * 10 + ((p : Int) - 48)
    else if ebc then
      let e := ebcdicSignDigit p
      if e.2 then -(hi * 10 + e.1) else hi * 10 + e.1
    else -(hi * 10 + ((p : Int) - 112))
  if val < n then .lt else if val > n then .gt else .eq

/-! ### reading an operand as a C `int` -/

/-- A 32-bit conversion: the value kept when an integer is converted to `int`. -/
def toCInt (z : Int) : Int := (z + 2147483648) % 4294967296 - 2147483648

/-- libcob/move.c:1914-1950 `cob_display_get_int` (skipping leading zeros does not change the
value; the product with the power of ten is taken in `int`).  For more decimals than characters
`size -= scale` (move.c:1939) wraps around and the loop runs past the item; here no digit is read
then: the theorems assume at most as many decimals as characters. -/
def displayGetInt (ebc : Bool) (f : Field) : Int :=
  let s := Field.getSign ebc f
  let ds := s.2.digitBytes
  let acc (l : List Nat) : Int := l.foldl (fun (v : Int) (b : Nat) => v * 10 + ((b : Int) - 48)) 0
  let val :=
    if f.attr.scale < 0 then toCInt (acc ds * 10 ^ (-f.attr.scale).toNat)
    else acc (ds.take (ds.length - f.attr.scale.toNat))
  if s.1 < 0 then -val else val

/-- Half byte `i` of a packed item (libcob/move.c:1875-1879). -/
def halfByte (data : List Nat) (i : Nat) : Nat :=
  if i % 2 = 0 then data.getD (i / 2) 0 / 16 else data.getD (i / 2) 0 % 16

/-- libcob/move.c:1862-1887 `cob_packed_get_int` (no overflow of `int`). -/
def packedGetInt (f : Field) : Int :=
  let off := 1 - f.attr.digits % 2
  let v : Int := (List.range ((f.attr.digits : Int) - f.attr.scale).toNat).foldl
    (fun (v : Int) (i : Nat) => v * 10 + halfByte f.data (i + off)) 0
  if packedGetSign f < 0 then -v else v

/-- libcob/move.c:2005-2026 `cob_get_int` for the numeric types modelled. -/
def getInt (ebc : Bool) (it : Item) : Int :=
  match it.usage with
  | .display => displayGetInt ebc it.field
  | .binary => toCInt (binGetInt64 it.field)
  | .packed => packedGetInt it.field

/-- cobc/codegen.c:832-946 `output_integer`: the C integer expression emitted for a numeric item
(machine with misaligned access). -/
def outputInteger (ebc : Bool) (it : Item) : Int :=
  let f := it.field
  match it.usage with
  | .display =>
    if 0 ≤ f.attr.scale ∧ 0 < (f.data.length : Int) - f.attr.scale ∧
        (f.data.length : Int) - f.attr.scale ≤ 9 ∧ f.attr.haveSign = false then
      getNumdisp (f.data.take ((f.data.length : Int) - f.attr.scale).toNat)
    else getInt ebc it
  | .packed => if f.attr.scale = 0 ∧ f.attr.digits < 10 then getPackedInt f.data else getInt ebc it
  | .binary =>
    if f.data.length = 1 ∨ f.data.length = 2 ∨ f.data.length = 4 ∨ f.data.length = 8 then
      cmpLoad f.attr.haveSign f.attr.swap f.data
    else if f.attr.haveSign then getInt ebc it
    else getInt ebc it % 4294967296

/-! ### which routine the compiler selects -/

/-- The right-hand operand of a condition, or what is added: a literal or an item. -/
inductive Operand where
  | lit (n : Int)
  | item (it : Item)
deriving DecidableEq, Repr

/-- cobc/tree.c:629-674 `cb_fits_int`: a literal of fewer than ten digits, or an item looked at
by its size and scale only. -/
def fitsInt : Operand → Bool
  | .lit n => decide (n.natAbs < 10 ^ 9)
  | .item it =>
    match it.usage with
    | .binary => decide (it.field.attr.scale ≤ 0 ∧ it.field.data.length ≤ 4)
    | .display => decide (it.field.data.length < 10 ∧ it.field.attr.scale ≤ 0)
    | .packed => decide (it.field.attr.scale ≤ 0 ∧ it.field.attr.digits < 10)

/-- The integer expression for an operand (cobc/codegen.c:752-958 `output_integer`). -/
def operandInt (ebc : Bool) : Operand → Int
  | .lit n => n
  | .item it => outputInteger ebc it

/-- Is the operand an unsigned binary item (cobc/typeck.c:2538-2545)? -/
def isUnsignedBinary : Operand → Bool
  | .item it => decide (it.usage = .binary) && !it.field.attr.haveSign
  | .lit _ => false

/-- cobc/typeck.c:2529-2623 `cb_build_optim_cond`: the answer of the routine selected; the state
of `cob_cmp_packed` is threaded.  `none`: the item's characters are not digits. -/
def optimCond (ebc : Bool) (c : CmpCache) (x : Item) (y : Operand) : Option Ordering × CmpCache :=
  let f := x.field
  let n := toCInt (operandInt ebc y)
  if isUnsignedBinary y then (cmpInt ebc x (operandInt ebc y % 4294967296), c)
  else if f.attr.scale = 0 ∧ x.usage = .packed then
    if f.attr.digits < 10 then (some (cmpPackedInt f.data n), c)
    else
      let r := cobCmpPacked c f n
      (some r.1, r.2)
  else if f.attr.scale = 0 ∧ x.usage = .display ∧ f.attr.leading = false ∧ f.attr.separate = false ∧
      f.data.length < 19 then
    if f.attr.haveSign then (some (cmpSignNumdisp ebc f.data n), c)
    else (some (cobCmpNumdisp f.data n), c)
  else if f.attr.scale = 0 ∧ x.usage = .binary then
    (some (cmpBinary f.attr.haveSign f.attr.swap f.data n), c)
  else (cmpInt ebc x n, c)

/-- cobc/typeck.c:2625-2667 `cb_chk_num_cond`: two unsigned zoned items of the same size and
scale. -/
def chkNumCond (x : Item) : Operand → Bool
  | .lit _ => false
  | .item y =>
    decide (x.usage = .display ∧ y.usage = .display ∧ x.field.attr.haveSign = false ∧
      y.field.attr.haveSign = false ∧ x.field.data.length = y.field.data.length ∧
      x.field.attr.scale = y.field.attr.scale)

/-- cobc/typeck.c:2770-2838 `cb_build_cond`: the comparison of a numeric item with a numeric
operand.  A literal that does not fit an `int` and an item that does not are compared by
`cob_cmp`, which for numeric items is `cob_numeric_cmp` (a literal is a constant item). -/
def numCond (ebc : Bool) (c : CmpCache) (x : Item) (y : Operand) : Option Ordering × CmpCache :=
  if chkNumCond x y then
    match y with
    | .item y => (some (byteCmp x.field.data y.field.data), c)
    | .lit _ => (none, c)
  else if fitsInt y then optimCond ebc c x y
  else
    match y with
    | .item y => (numericCmp ebc x y, c)
    | .lit n => (cmpInt ebc x n, c)

/-- libcob/numeric.c:1299-1324 `cob_add_int` for zoned and packed items. -/
def addIntItem (ebc binTrunc : Bool) (v : Item) (n : Int) : Option Item :=
  if n = 0 then some v
  else
    match v.usage with
    | .display => some { v with field := (cobDisplayAddInt ebc binTrunc v.field n).1 }
    | .packed => some { v with field := cobAddPacked v.field n }
    | .binary => none

/-- cobc/typeck.c:2851-2909 `cb_build_optim_add` with the integer expression `n` of the operand:
the item afterwards.  COMP-5 items of 1, 2, 4 or 8 bytes get a plain C assignment, which is the
same operation on the object.  Everything else goes to `cob_add_int`: for zoned and packed items
that is modelled in `Num/AddInt.lean`; for binary items with decimals it is not modelled
(`none`). -/
def optimAdd (ebc binTrunc : Bool) (v : Item) (n : Int) : Option Item :=
  let f := v.field
  if v.usage = .binary ∧ f.attr.scale = 0 then
    some { v with field := { f with data := addBinary f.attr.haveSign f.attr.swap f.data (toCInt n) } }
  else if v.usage = .packed ∧ f.attr.scale = 0 ∧ f.attr.digits < 10 then
    some { v with field := addPackedInt f (toCInt n) }
  else addIntItem ebc binTrunc v (toCInt n)

/-- cobc/typeck.c:2912-2967 `cb_build_optim_sub`; `cob_sub_int` (numeric.c:1326-1333) is
`cob_add_int` with the operand negated. -/
def optimSub (ebc binTrunc : Bool) (v : Item) (n : Int) : Option Item :=
  let f := v.field
  if v.usage = .binary ∧ f.attr.scale = 0 then
    some { v with field := { f with data := subBinary f.attr.haveSign f.attr.swap f.data (toCInt n) } }
  else addIntItem ebc binTrunc v (toCInt (-toCInt n))

end Cob
