import Verif.Num.Field
/-
Model of the integer fast paths of libcob/numeric.c: `display_add_int`, `display_sub_int`,
`cob_display_add_int`, and of their PACKED-DECIMAL counterparts.
-/
namespace Cob

/-- libcob/numeric.c:1144-1155: propagate a carry upwards (bytes least significant first);
the Boolean is "ran off the most significant digit". -/
def carryUp : List Nat → List Nat × Bool
  | [] => ([], true)
  | b :: t => if b + 1 ≤ 57 then ((b + 1) :: t, false) else
      let r := carryUp t
      (48 :: r.1, r.2)

/-- libcob/numeric.c:1120-1142: the addition loop of `display_add_int` (bytes least significant
first), followed by the carry loop. -/
def addLoop : List Nat → (n carry : Nat) → List Nat × Bool
  | [], n, c => if n = 0 then (if c = 0 then ([], false) else carryUp []) else ([], true)
  | b :: t, n, c =>
    if n = 0 then (if c = 0 then (b :: t, false) else carryUp (b :: t))
    else
      let is := b % 16 + n % 10 + c
      let r := addLoop t (n / 10) (if is > 9 then 1 else 0)
      ((if is > 9 then 48 + is % 10 else 48 + is) :: r.1, r.2)

/-- libcob/numeric.c:1112-1156 `display_add_int`: the digits afterwards and the return code
(nonzero only when the module truncates binary items: lines 1129-1131, 1151-1153). -/
def displayAddInt (binTrunc : Bool) (bs : List Nat) (n : Nat) : List Nat × Bool :=
  let r := addLoop bs.reverse n 0
  (r.1.reverse, r.2 && binTrunc)

/-- libcob/numeric.c:1191-1197: propagate a borrow upwards. -/
def borrowUp : List Nat → List Nat × Bool
  | [] => ([], true)
  | b :: t => if 48 ≤ (b + 255) % 256 then (((b + 255) % 256) :: t, false) else
      let r := borrowUp t
      (57 :: r.1, r.2)

/-- libcob/numeric.c:1167-1189: the subtraction loop of `display_sub_int` on unsigned chars. -/
def subLoop : List Nat → (n carry : Nat) → List Nat × Bool
  | [], n, c => if n = 0 then (if c = 0 then ([], false) else borrowUp []) else ([], true)
  | b :: t, n, c =>
    if n = 0 then (if c = 0 then (b :: t, false) else borrowUp (b :: t))
    else
      let x := (b + 256 - (n % 10 + c)) % 256
      let r := subLoop t (n / 10) (if x < 48 then 1 else 0)
      ((if x < 48 then (x + 10) % 256 else x) :: r.1, r.2)

/-- libcob/numeric.c:1158-1199 `display_sub_int`. -/
def displaySubInt (bs : List Nat) (n : Nat) : List Nat × Bool :=
  let r := subLoop bs.reverse n 0
  (r.1.reverse, r.2)

/-- libcob/numeric.c:1222-1245: the integer brought to the item's scale.  The C code computes in
`long long`; the model is exact (the theorems assume the product fits 63 bits). -/
def scaledInt (scale n : Int) : Int :=
  if 0 ≤ scale then n * 10 ^ scale.toNat
  else if -scale < 10 then n.tdiv (10 ^ (-scale).toNat) else 0

/-- libcob/numeric.c:1201-1275 `cob_display_add_int`: the field afterwards and whether
COB_EC_SIZE_OVERFLOW was raised (and returned). -/
def cobDisplayAddInt (ebc binTrunc : Bool) (f : Field) (n : Int) : Field × Bool :=
  let g := f.getSign ebc
  let sign := g.1
  let n := scaledInt f.attr.scale (if sign < 0 then -n else n)
  if n > 0 then
    let r := displayAddInt binTrunc g.2.digitBytes n.toNat
    if r.2 then (g.2.putSign ebc sign, true)
    else ((g.2.storeDigits r.1).putSign ebc sign, false)
  else if n < 0 then
    let r := displaySubInt g.2.digitBytes (-n).toNat
    if r.2 then
      let c := (displayAddInt binTrunc (r.1.map (fun b => 48 + (9 - (b - 48)))) 1).1
      ((g.2.storeDigits c).putSign ebc (-sign), false)
    else ((g.2.storeDigits r.1).putSign ebc sign, false)
  else (g.2.putSign ebc sign, false)

/-! ### PACKED-DECIMAL -/

/-- Reading a nibble of byte `p`: the high one when `msn` (numeric.c:698-702). -/
def getNib (data : List Nat) (p : Nat) (msn : Bool) : Nat :=
  if msn then data.getD p 0 / 16 else data.getD p 0 % 16

/-- Writing a nibble of byte `p` (numeric.c:728-735). -/
def setNib (data : List Nat) (p : Nat) (msn : Bool) (v : Nat) : List Nat :=
  data.set p (if msn then data.getD p 0 % 16 + 16 * v else data.getD p 0 / 16 * 16 + v)

/-- One digit of the loop of `cob_add_packed` (numeric.c:703-724): the new digit and carry. -/
def packedStep (subtr : Bool) (tval val carry : Nat) : Nat × Nat :=
  let c := carry + val % 10
  if subtr then
    if tval < c then (tval + 10 - c, 1) else (tval - c, 0)
  else if 9 < tval + c then ((tval + c) % 10, 1) else (tval + c, 0)

/-- libcob/numeric.c:697-736: the digit loop of `cob_add_packed`: (data, carry, zeroes).
`p` and `msn` designate the current digit; `if (val)` (703) is immaterial as `0 % 10 = 0`. -/
def packedAddLoop (subtr : Bool) : (ndigs : Nat) → List Nat → (p : Nat) → (msn : Bool) →
    (val carry zeroes : Nat) → List Nat × Nat × Nat
  | 0, data, _, _, _, carry, zeroes => (data, carry, zeroes)
  | k + 1, data, p, msn, val, carry, zeroes =>
    let r := packedStep subtr (getNib data p msn) val carry
    packedAddLoop subtr k (setNib data p msn r.1) (if msn then p - 1 else p) (!msn) (val / 10) r.2
      (if r.1 = 0 then zeroes + 1 else zeroes)

/-- libcob/numeric.c:637-658: the loop of `cob_complement_packed`. -/
def packedComplLoop : (ndigs : Nat) → List Nat → (p : Nat) → (msn : Bool) → (carry : Nat) → List Nat
  | 0, data, _, _, _ => data
  | k + 1, data, p, msn, carry =>
    let t := getNib data p msn + carry
    packedComplLoop k (setNib data p msn (if 0 < t then 10 - t else t))
      (if msn then p - 1 else p) (!msn) (if 0 < t then 1 else 0)

/-- libcob/numeric.c:635, 695: the byte of the least significant digit. -/
def packedStart (f : Field) : Nat := (f.attr.digits + (1 - f.attr.digits % 2)) / 2

/-- libcob/numeric.c:662-757 `cob_add_packed`.  A negative scale is ignored (lines 679-683). -/
def cobAddPacked (f : Field) (n : Int) : Field :=
  if f.attr.digits = 0 then f
  else
    let sign := packedGetSign f
    let v := (if sign < 0 then -1 else 1) * (n * 10 ^ f.attr.scale.toNat)
    let subtr := decide (v < 0)
    let r := packedAddLoop subtr f.attr.digits f.data (packedStart f) true v.natAbs 0 0
    let compl := packedComplLoop f.attr.digits r.1 (packedStart f) true 0
    if sign ≠ 0 then
      if f.attr.digits = r.2.2 then { f with data := setSignNibble r.1 12 }
      else if subtr ∧ r.2.1 ≠ 0 then
        { f with data := setSignNibble compl (if -sign < 0 then 13 else 12) }
      else { f with data := r.1 }
    else if subtr ∧ r.2.1 ≠ 0 then { f with data := compl }
    else { f with data := r.1 }

end Cob
