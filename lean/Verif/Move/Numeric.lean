import Verif.Num.Item
/-
Model of MOVE between numeric items (libcob/move.c).
-/
namespace Cob

/-- libcob/move.c:100-130 `store_common_region`: the digit bytes of the receiver (`n2` of them,
scale `s2`) after aligning the source characters `data` (scale `s1`) on the decimal point.  The
C code fills the receiver with '0' and copies `csize` bytes from `data + hf1 - gcf` to
`q = COB_FIELD_DATA + hf2 - gcf`, a blank being copied as '0'. -/
def commonRegion (data : List Nat) (s1 : Int) (n2 : Nat) (s2 : Int) : List Nat :=
  let lf1 := -s1
  let lf2 := -s2
  let hf1 := (data.length : Int) + lf1
  let hf2 := (n2 : Int) + lf2
  let lcf := max lf1 lf2
  let gcf := min hf1 hf2
  if gcf > lcf then
    let csize := (gcf - lcf).toNat
    let off := (hf2 - gcf).toNat
    List.replicate off 48 ++
      (((data.drop (hf1 - gcf).toNat).take csize).map fun b => if b = 32 then 48 else b) ++
      List.replicate (n2 - off - csize) 48
  else List.replicate n2 48

/-- libcob/move.c:100-130 `store_common_region` on a field. -/
def storeCommonRegion (f : Field) (data : List Nat) (scale : Int) : Field :=
  f.storeDigits (commonRegion data scale f.dsize f.attr.scale)

/-- libcob/move.c:283-294 `cob_move_display_to_display`: sending and receiving field afterwards
(different storage). -/
def moveDispDisp (ebc : Bool) (f1 f2 : Field) : Field × Field :=
  let g := f1.getSign ebc
  let r := storeCommonRegion f2 g.2.digitBytes f1.attr.scale
  (g.2.putSign ebc g.1, r.putSign ebc g.1)

/-- libcob/move.c:489-499: unpacking loop of `cob_move_packed_to_display` (`cob_i2d` adds '0'). -/
def unpackDigits (f : Field) : List Nat :=
  let offset := 1 - f.attr.digits % 2
  (List.range f.attr.digits).map fun k =>
    let i := k + offset
    48 + (if i % 2 = 0 then f.data.getD (i / 2) 0 / 16 else f.data.getD (i / 2) 0 % 16)

/-- libcob/move.c:480-505 `cob_move_packed_to_display`. -/
def movePackedDisp (ebc : Bool) (f1 f2 : Field) : Field :=
  (storeCommonRegion f2 (unpackDigits f1) f1.attr.scale).putSign ebc (packedGetSign f1)

/-- libcob/move.c:452-467: the nibble packing loop of `cob_move_display_to_packed`; `ns` are the
digits still to be written, the first at nibble `i`. -/
def packNibLoop : (ns : List Nat) → (i : Nat) → List Nat → List Nat
  | [], _, data => data
  | n :: ns, i, data =>
    if i % 2 = 0 then packNibLoop ns (i + 1) (data.set (i / 2) (n * 16 % 256))
    else packNibLoop ns (i + 1) (data.set (i / 2) (data.getD (i / 2) 0 ||| n))

/-- libcob/move.c:418-478 `cob_move_display_to_packed`: sending and receiving field.
Note that the code uses `COB_FIELD_DIGITS (f1)`, which counts the `P` positions of the picture,
although the item stores only `COB_FIELD_SIZE (f1)` bytes.  `none` in a digit: the code reads a
byte that is not part of the sending item (the result depends on it); a
byte before the item or after `digits1` positions only selects between two zeros. -/
def moveDispPacked (ebc : Bool) (f1 f2 : Field) : Field × Option Field :=
  let g := f1.getSign ebc
  let d1 := g.2.digitBytes
  let digits1 := f1.attr.digits
  let digits2 := f2.attr.digits
  -- lines 439-447: NUL-filled sender
  if (g.2.data.take digits1).all (· == 0) ∧ digits1 ≤ g.2.data.length then
    (g.2, some { f2 with data := List.replicate f2.data.length 0 })
  else
    let start : Int := ((digits1 : Int) - f1.attr.scale) - ((digits2 : Int) - f2.attr.scale)
    let digit (k : Nat) : Option Nat :=
      let p := start + k
      if p < 0 ∨ (digits1 : Int) ≤ p then some 0
      else (d1[p.toNat]?).map fun b => if b = 32 then 0 else (b + 256 - 48) % 256
    let out := (List.range digits2).mapM digit
    let nib := if !f2.attr.haveSign then 15 else if g.1 < 0 then 13 else 12
    (g.2.putSign ebc g.1, out.map fun ns => ⟨f2.attr,
      setSignNibble (packNibLoop ns (1 - digits2 % 2) (List.replicate f2.data.length 0)) nib⟩)

/-- libcob/move.c:624-632: the accumulation loop of `cob_move_display_to_binary` in `long long`;
`none`: signed overflow (undefined behaviour).  `k` digits or trailing zeros remain. -/
def accLL (ds : List Nat) : (k : Nat) → (val : Int) → Option Int
  | 0, val => some val
  | k + 1, val =>
    let v := match ds with
      | d :: _ => val * 10 + ((d : Int) - 48)
      | [] => val * 10
    if v < 2 ^ 63 ∧ -2 ^ 63 ≤ v then accLL ds.tail k v else none

/-- Outcome of a move that can go wrong. -/
inductive MoveOut where
  | done (f : Field)
  /-- signed overflow of the accumulator: undefined behaviour -/
  | overflow
  /-- the loop bound `size1 - scale1 + scale2`, computed in `size_t`, wrapped around -/
  | runaway
deriving DecidableEq, Repr

/-- libcob/move.c:600-645 `cob_move_display_to_binary`; `cut` is
`flag_binary_truncate && !COB_FIELD_REAL_BINARY (f2)`. -/
def moveDispBin (ebc cut : Bool) (f1 f2 : Field) : Field × MoveOut :=
  let g := f1.getSign ebc
  let d1 := g.2.digitBytes
  if (g.2.data.take f1.dsize).all (· == 0) then
    (g.2, .done { f2 with data := List.replicate f2.data.length 0 })
  else
    let size : Int := (f1.dsize : Int) - f1.attr.scale + f2.attr.scale
    if size < 0 then (g.2, .runaway)
    else
      match accLL d1 size.toNat 0 with
      | none => (g.2, .overflow)
      | some val =>
        let val := if g.1 < 0 ∧ f2.attr.haveSign then -val else val
        let val := if cut then val.tmod (10 ^ f2.attr.digits) else val
        (g.2.putSign ebc g.1, .done (binSet f2 val))

/-- libcob/move.c:647-681 `cob_move_binary_to_display`.  `val = -val2` is formed in
`unsigned long long`; an unsigned item is read through `long long` and converted back. -/
def moveBinDisp (ebc : Bool) (f1 f2 : Field) : Field :=
  let v := binGetInt64 f1
  let neg : Bool := f1.attr.haveSign && decide (v < 0)
  let val : Nat := if neg then v.natAbs else (v % 2 ^ 64).toNat
  let s := if val = 0 then [] else decStr val
  (storeCommonRegion f2 s f1.attr.scale).putSign ebc (if neg then -1 else 1)

/-- libcob/move.c:1350-1365 `indirect_move`: the temporary signed zoned item of `size` digits (its
initial bytes are irrelevant, `store_common_region` overwrites them). -/
def tempItem (size : Nat) (scale : Int) : Field :=
  ⟨{ digits := size, scale := scale, haveSign := true }, List.replicate size 48⟩

/-- Outcome of a numeric MOVE: the receiver afterwards, or what went wrong. -/
inductive MoveRes where
  | done (it : Item)
  | overflow
  | runaway
  | outside
deriving DecidableEq, Repr

/-- The part of `cob_move` reached from a zoned sender: libcob/move.c:1549-1566. -/
def moveFromDisp (ebc cut : Bool) (f1 : Field) (dst : Item) : MoveRes :=
  match dst.usage with
  | .display => .done { dst with field := (moveDispDisp ebc f1 dst.field).2 }
  | .packed =>
    match (moveDispPacked ebc f1 dst.field).2 with
    | some f => .done { dst with field := f }
    | none => .outside
  | .binary =>
    match (moveDispBin ebc cut f1 dst.field).2 with
    | .done f => .done { dst with field := f }
    | .overflow => .overflow
    | .runaway => .runaway

/-- libcob/move.c:1548-1619: `cob_move` between numeric items (elementary, non-empty). -/
def cobMoveNum (ebc cut : Bool) (src dst : Item) : MoveRes :=
  match src.usage with
  | .display => moveFromDisp ebc cut src.field dst
  | .packed =>
    match dst.usage with
    | .display => .done { dst with field := movePackedDisp ebc src.field dst.field }
    | _ => moveFromDisp ebc cut
        (movePackedDisp ebc src.field (tempItem src.field.attr.digits src.field.attr.scale)) dst
  | .binary =>
    match dst.usage with
    | .display => .done { dst with field := moveBinDisp ebc src.field dst.field }
    | _ => moveFromDisp ebc cut
        (moveBinDisp ebc src.field (tempItem 20 src.field.attr.scale)) dst

end Cob
