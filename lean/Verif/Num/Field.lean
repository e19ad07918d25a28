import Verif.Num.Decimal
/-
Model of the storage formats of numeric items: zoned DISPLAY, PACKED-DECIMAL and BINARY
(libcob/numeric.c, libcob/common.c).  Bytes are natural numbers below 256.
-/
namespace Cob

/-- libcob/common.h:321-329 `cob_field_attr` (the parts used by numeric items). -/
structure Attr where
  digits : Nat := 0
  scale : Int := 0
  haveSign : Bool := false
  separate : Bool := false
  leading : Bool := false
  swap : Bool := false
deriving DecidableEq, Repr

/-- libcob/common.h:331-337 `cob_field`; `size` is the length of `data`. -/
structure Field where
  attr : Attr
  data : List Nat
deriving DecidableEq, Repr

/-- The options of a store (libcob/numeric.h:28-30) and the module flag
`flag_binary_truncate` (libcob/common.h:352). -/
structure StoreOpt where
  round : Bool := false
  keep : Bool := false
  trunc : Bool := false
  binTrunc : Bool := true
deriving DecidableEq, Repr

namespace Field

/-- libcob/common.h:248-250 `COB_FIELD_DATA`: offset of the first digit byte. -/
def dataOff (f : Field) : Nat := if f.attr.separate && f.attr.leading then 1 else 0

/-- libcob/common.h:251-252 `COB_FIELD_SIZE`: number of digit bytes. -/
def dsize (f : Field) : Nat := f.data.length - (if f.attr.separate then 1 else 0)

/-- The bytes a loop over `COB_FIELD_DATA .. + COB_FIELD_SIZE` visits. -/
def digitBytes (f : Field) : List Nat := (f.data.drop f.dataOff).take f.dsize

/-- Storing `bs` (of length `dsize`) at `COB_FIELD_DATA` (a `memcpy`/`memset` pair). -/
def storeDigits (f : Field) (bs : List Nat) : Field :=
  { f with data := f.data.take f.dataOff ++ bs ++ f.data.drop (f.dataOff + bs.length) }

/-- Position of the byte carrying the sign: libcob/common.c:1143-1147 and 1187-1191. -/
def signPos (f : Field) : Nat := if f.attr.leading then 0 else f.data.length - 1

end Field

/-- libcob/common.c:313-383 `cob_get_sign_ebcdic`: sign and de-punched byte. -/
def getSignEbcdic (b : Nat) : Int × Nat :=
  if b = 123 then (1, 48)            -- '{'
  else if 65 ≤ b ∧ b ≤ 73 then (1, b - 65 + 49)   -- 'A'..'I'
  else if b = 125 then (-1, 48)      -- '}'
  else if 74 ≤ b ∧ b ≤ 82 then (-1, b - 74 + 49)  -- 'J'..'R'
  else (1, 48)                       -- default: libcob/common.c:378-381

/-- libcob/common.c:425-504 `cob_put_sign_ebcdic`. -/
def putSignEbcdic (b : Nat) (sign : Int) : Nat :=
  if sign < 0 then
    if b = 48 then 125 else if 49 ≤ b ∧ b ≤ 57 then b - 49 + 74 else 125
  else
    if b = 48 then 123 else if 49 ≤ b ∧ b ≤ 57 then b - 49 + 65 else 123

/-- libcob/common.c:1149-1171: reading an overpunched sign byte (not SEPARATE).
`ebc` is `cob_current_module->display_sign`; `GET_SIGN_ASCII` (common.h:263) subtracts
0x40 from an unsigned char. -/
def getSignByte (ebc : Bool) (b : Nat) : Int × Nat :=
  if 48 ≤ b ∧ b ≤ 57 then (1, b)
  else if b = 32 then (1, 48)
  else if ebc then getSignEbcdic b
  else (-1, (b + 256 - 64) % 256)

/-- libcob/common.c:1199-1208: writing an overpunched sign byte (not SEPARATE). -/
def putSignByte (ebc : Bool) (b : Nat) (sign : Int) : Nat :=
  if ebc then putSignEbcdic b sign
  else if sign < 0 then (b + 64) % 256 else b

namespace Field

/-- libcob/common.h:239 `cob_get_sign` and libcob/common.c:1135-1177 `cob_real_get_sign` for a
DISPLAY item: sign (0 when unsigned) and the field with its sign byte turned into a digit. -/
def getSign (ebc : Bool) (f : Field) : Int × Field :=
  if !f.attr.haveSign then (0, f)
  else
    let b := f.data.getD f.signPos 0
    if f.attr.separate then ((if b = 43 then 1 else -1), f)
    else
      let r := getSignByte ebc b
      (r.1, { f with data := f.data.set f.signPos r.2 })

/-- libcob/common.h:240 `cob_put_sign` and libcob/common.c:1179-1223 `cob_real_put_sign` for
a DISPLAY item. -/
def putSign (ebc : Bool) (f : Field) (sign : Int) : Field :=
  if !f.attr.haveSign then f
  else
    let b := f.data.getD f.signPos 0
    let b' := if f.attr.separate then (if sign < 0 then 45 else 43) else putSignByte ebc b sign
    { f with data := f.data.set f.signPos b' }

end Field

/-! ### conversions between integers and digit strings -/

/-- `mpz_get_str (buf, 10, v)` for `v ≥ 0`: the decimal digits, most significant first,
as character codes (GMP manual). -/
def decStr (n : Nat) : List Nat :=
  if n < 10 then [48 + n] else decStr (n / 10) ++ [48 + n % 10]
termination_by n
decreasing_by omega

/-- `mpz_set_str` / the accumulation loops on valid digit characters: the number written. -/
def strVal (bs : List Nat) : Nat := bs.foldl (fun n b => n * 10 + (b - 48)) 0

/-- Is the byte one of '0'..'9'. -/
def isDigit (b : Nat) : Bool := decide (48 ≤ b ∧ b ≤ 57)

/-- libcob/numeric.c:363-409 `cob_decimal_set_display`.  Result: the decimal read, and the field
afterwards (the sign is taken off and put back; a blank sign position becomes '0').
`none` for the decimal means that `mpz_set_str` rejected the characters (ten or more
characters, not all digits), which leaves the previous contents of the accumulator.
For shorter items the sum is formed in `unsigned int` arithmetic (line 391). -/
def decSetDisplay (ebc : Bool) (f : Field) : Option Dec × Field :=
  let first := f.data.getD f.dataOff 0
  if first = 255 then (some ⟨10 ^ f.dsize, f.attr.scale⟩, f)
  else if first = 0 then (some ⟨-(10 ^ f.dsize), f.attr.scale⟩, f)
  else
    let g := f.getSign ebc
    let ds := g.2.digitBytes
    -- lines 383-387: skip leading zeros but keep one character
    let core := ds.dropWhile (· == 48)
    let core := if core.isEmpty then ds.drop (ds.length - 1) else core
    let mag : Option Int :=
      if core.length < 10 then
        some (core.foldl (fun (n : Int) (b : Nat) => (n * 10 + ((b : Int) - 48)) % 2 ^ 32) 0)
      else if core.all isDigit then some (strVal core : Int)
      else none
    let f' := g.2.putSign ebc g.1
    (mag.map fun m => ⟨if g.1 < 0 then -m else m, f.attr.scale⟩, f')

/-- Result of a store: the field afterwards, whether the exception COB_EC_SIZE_OVERFLOW was
raised, and whether the function returned a nonzero code. -/
structure StoreRes where
  field : Field
  raised : Bool
  failed : Bool
deriving DecidableEq, Repr

/-- libcob/numeric.c:412-449 `cob_decimal_get_display` for the value `v`. -/
def decGetDisplay (ebc : Bool) (v : Int) (f : Field) (opt : StoreOpt) : StoreRes :=
  let sign := v.sign
  let s := decStr v.natAbs
  let size := s.length
  if f.dsize < size then
    if opt.keep then ⟨f, true, true⟩
    else ⟨(f.storeDigits (s.drop (size - f.dsize))).putSign ebc sign, true, false⟩
  else
    ⟨(f.storeDigits (List.replicate (f.dsize - size) 48 ++ s)).putSign ebc sign, false, false⟩

/-! ### PACKED-DECIMAL -/

/-- libcob/numeric.c:611-621 `cob_packed_get_sign`. -/
def packedGetSign (f : Field) : Int :=
  if !f.attr.haveSign then 0
  else if f.data.getD (f.data.length - 1) 0 % 16 = 13 then -1 else 1

/-- libcob/numeric.c:783-796 and 804-819: the pair-wise accumulation loop of
`cob_decimal_set_packed` (`digits` remaining, from byte `p`).  The C code skips a
multiplication or addition when the operand is zero, which does not change the number. -/
def packedAcc (data : List Nat) : (digits p val : Nat) → Nat
  | 0, p, val => val * 10 + data.getD p 0 / 16
  | 1, p, val => val * 10 + data.getD p 0 / 16
  | d + 2, p, val => packedAcc data d (p + 1)
      (val * 100 + (data.getD p 0 / 16 * 10 + data.getD p 0 % 16))

/-- libcob/numeric.c:760-826 `cob_decimal_set_packed`. -/
def decSetPacked (f : Field) : Dec :=
  let sign := packedGetSign f
  let m :=
    if f.attr.digits % 2 = 0 then
      packedAcc f.data (f.attr.digits - 1) 1 (f.data.getD 0 0 % 16)
    else packedAcc f.data f.attr.digits 0 0
  ⟨if sign < 0 then -(m : Int) else m, f.attr.scale⟩

/-- libcob/numeric.c:867-875: the nibble-writing loop of `cob_decimal_get_packed`. -/
def packLoop : (q : List Nat) → (i p : Nat) → List Nat → List Nat
  | [], _, _, data => data
  | x :: q, i, p, data =>
    if i % 2 = 0 then packLoop q (i + 1) p (data.set p ((x - 48) * 16))
    else packLoop q (i + 1) (p + 1) (data.set p (data.getD p 0 ||| (x - 48)))

/-- libcob/numeric.c:877-884, common.c:1210-1217: writing the sign nibble. -/
def setSignNibble (data : List Nat) (nib : Nat) : List Nat :=
  data.set (data.length - 1) (data.getD (data.length - 1) 0 / 16 * 16 + nib)

/-- libcob/numeric.c:828-888 `cob_decimal_get_packed` for the value `v`. -/
def decGetPacked (v : Int) (f : Field) (opt : StoreOpt) : StoreRes :=
  let sign := v.sign
  let s := decStr v.natAbs
  let over : Bool := f.attr.digits < s.length
  if over && opt.keep then ⟨f, true, true⟩
  else
    let q := if over then s.drop (s.length - f.attr.digits) else s
    let size := q.length
    let d0 := List.replicate f.data.length 0
    let p := f.attr.digits / 2 - size / 2
    let d1 := packLoop q (1 - size % 2) p d0
    let nib := if !f.attr.haveSign then 15 else if sign < 0 then 13 else 12
    ⟨{ f with data := setSignNibble d1 nib }, over, false⟩

/-! ### BINARY -/

/-- The 8 bytes of a 64-bit object on a little-endian machine, or the first `k` of them. -/
def leBytes : Nat → Nat → List Nat
  | 0, _ => []
  | k + 1, n => n % 256 :: leBytes k (n / 256)

/-- The number a little-endian byte string stands for. -/
def leVal : List Nat → Nat
  | [] => 0
  | b :: bs => b + 256 * leVal bs

/-- A 64-bit pattern read as `long long`. -/
def toInt64 (u : Nat) : Int := if u % 2 ^ 64 < 2 ^ 63 then (u % 2 ^ 64 : Nat) else (u % 2 ^ 64 : Nat) - 2 ^ 64

/-- `COB_BSWAP_64` on the byte image of a 64-bit object. -/
def bswapBytes (bs : List Nat) : List Nat := bs.reverse

/-- libcob/numeric.c:166-211 `cob_binary_get_int64` (little-endian branches 187-202).  The
object `n` starts as 8 zero bytes, the item's bytes are copied into it at offset 0 or
`8 - size`, swapped if needed, and shifted right arithmetically. -/
def binGetInt64 (f : Field) : Int :=
  let fsiz := 8 - f.data.length
  let zeros := List.replicate fsiz 0
  if f.attr.swap then
    if f.attr.haveSign then
      toInt64 (leVal (bswapBytes (f.data ++ zeros))) / 2 ^ (8 * fsiz)
    else toInt64 (leVal (bswapBytes (zeros ++ f.data)))
  else
    if f.attr.haveSign then toInt64 (leVal (zeros ++ f.data)) / 2 ^ (8 * fsiz)
    else toInt64 (leVal (f.data ++ zeros))

/-- libcob/numeric.c:219-236 `cob_binary_get_uint64`. -/
def binGetUint64 (f : Field) : Nat :=
  let zeros := List.replicate (8 - f.data.length) 0
  if f.attr.swap then leVal (bswapBytes (zeros ++ f.data)) else leVal (f.data ++ zeros)

/-- libcob/numeric.c:238-292 `cob_binary_set_uint64`, `cob_binary_set_int64`: the low `size`
bytes of the 64-bit pattern, byte-swapped for big-endian items. -/
def binSet (f : Field) (n : Int) : Field :=
  let bytes := leBytes 8 (n % 2 ^ 64).toNat
  if f.attr.swap then
    { f with data := ((bswapBytes bytes).drop (8 - f.data.length)).take f.data.length }
  else { f with data := bytes.take f.data.length }

/-- libcob/numeric.c:453-496 `cob_decimal_set_binary` (branch `COB_LI_IS_LL`). -/
def decSetBinary (f : Field) : Dec :=
  ⟨if f.attr.haveSign then binGetInt64 f else binGetUint64 f, f.attr.scale⟩

/-- `mpz_get_ui`: the low 64 bits of the absolute value. -/
def mpzGetUi (v : Int) : Nat := v.natAbs % 2 ^ 64

/-- `mpz_get_si` (GMP): the value when it fits, otherwise low bits with the sign kept. -/
def mpzGetSi (v : Int) : Int :=
  if 0 ≤ v then (v.natAbs % 2 ^ 63 : Nat) else -1 - ((v.natAbs - 1) % 2 ^ 63 : Nat)

/-- libcob/numeric.c:503-607 `cob_decimal_get_binary` (branch `COB_LI_IS_LL`) for the value
`v`.  `mpz_sizeinbase (v, 2) > b` is `2 ^ b ≤ |v|`; `cob_mpze10[d]` is `10 ^ d`. -/
def decGetBinary (v : Int) (f : Field) (opt : StoreOpt) : StoreRes :=
  if v = 0 then ⟨{ f with data := List.replicate f.data.length 0 }, false, false⟩
  else
    let sign : Nat := if f.attr.haveSign then 1 else 0
    let v := if f.attr.haveSign then v else (v.natAbs : Int)
    let bitnum := f.data.length * 8 - sign
    let cut (v : Int) : Int :=
      if opt.trunc then v.tmod (10 ^ f.attr.digits) else v % 2 ^ (f.data.length * 8)
    let anyOpt : Bool := opt.round || opt.keep || opt.trunc
    if 2 ^ bitnum ≤ v.natAbs then
      if opt.keep then ⟨f, true, true⟩
      else ⟨binSet f (mpzGetUi (cut v)), true, true⟩
    else if anyOpt && opt.binTrunc && decide (10 ^ f.attr.digits ≤ v.natAbs) then
      if opt.keep then ⟨f, true, true⟩
      else ⟨binSet f (mpzGetUi (cut v)), true, true⟩
    else if f.attr.haveSign then ⟨binSet f (mpzGetSi v), false, false⟩
    else ⟨binSet f (mpzGetUi v), false, false⟩

end Cob
