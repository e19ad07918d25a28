import Verif.Move.Numeric
import Verif.Move.Alnum
/-
Model of comparison and of class conditions (libcob/common.c).  NATIONAL items are modelled only as
far as `national_cmps` of the SJIS build.  The generated code may replace a comparison of two
fields of equal size by `memcmp`; that is not modelled.
-/
namespace Cob

/-- A byte's place in the collating sequence: libcob/common.c:512-527 (`s[c]`, or `c` itself when
the module has no collating sequence). -/
def weight (col : Option (Nat → Nat)) (b : Nat) : Int :=
  match col with
  | some t => (t b : Int)
  | none => (b : Int)

/-- libcob/common.c:505-528 `common_cmpc`. -/
def cmpC (col : Option (Nat → Nat)) : List Nat → Nat → Int
  | [], _ => 0
  | b :: bs, c =>
    let ret := weight col b - weight col c
    if ret ≠ 0 then ret else cmpC col bs c

/-- libcob/common.c:549-570 `alnum_cmps`, and libcob/fileio.c:5605-5626 `sort_cmps` (the same
code).  Reading past the end of a string is modelled by stopping. -/
def alnumCmps (col : Option (Nat → Nat)) : List Nat → List Nat → Nat → Int
  | _, _, 0 => 0
  | a :: as, b :: bs, n + 1 =>
    let ret := weight col a - weight col b
    if ret ≠ 0 then ret else alnumCmps col as bs n
  | _, _, _ + 1 => 0

/-- libcob/common.c:572-597 `national_cmps`, SJIS build: two bytes at a time, comparing only for
"greater". -/
def nationalCmps : List Nat → List Nat → Int
  | a1 :: a2 :: as, b1 :: b2 :: bs =>
    let ret : Int := if b1 * 256 + b2 < a1 * 256 + a2 then 1 else 0
    if ret ≠ 0 then ret else nationalCmps as bs
  | _, _ => 0

/-- An operand of a comparison: an elementary alphanumeric item or literal, a group, an ALL literal
or figurative constant, the constant ZERO, or a numeric item. -/
inductive Opnd where
  | text (bs : List Nat)
  | group (bs : List Nat)
  | all (lit : List Nat)
  | zero
  | num (it : Item)
deriving DecidableEq, Repr

/-- The bytes `f->data` after `cob_get_sign (f)`: only a signed zoned item is changed. -/
def stripped (ebc : Bool) : Opnd → List Nat
  | .text bs => bs
  | .group bs => bs
  | .all lit => lit
  | .zero => [48]
  | .num it => if it.usage = .display then (it.field.getSign ebc).2.data else it.field.data

/-- The bytes of an operand as stored. -/
def rawBytes : Opnd → List Nat
  | .text bs => bs
  | .group bs => bs
  | .all lit => lit
  | .zero => [48]
  | .num it => it.field.data

/-- libcob/common.c:629-642 and 643-659: the loops of `cob_cmp_all`, comparing `data` piecewise
with the literal (`litFirst`: the literal is the left operand). -/
def cmpRepeat (col : Option (Nat → Nat)) (litFirst : Bool) (lit : List Nat) : (fuel : Nat) → List Nat → Int
  | 0, _ => 0
  | fuel + 1, data =>
    let n := min lit.length data.length
    let ret := if litFirst then alnumCmps col lit data n else alnumCmps col data lit n
    if lit.length ≤ data.length then
      if ret ≠ 0 then ret else cmpRepeat col litFirst lit fuel (data.drop lit.length)
    else ret

/-- Field type COB_TYPE_ALPHANUMERIC_ALL (libcob/common.c:624). -/
def isAll : Opnd → Bool
  | .all _ => true
  | .zero => true
  | _ => false

/-- libcob/common.c:613-665 `cob_cmp_all`; the second operand is an ALL literal. -/
def cmpAll (ebc : Bool) (col : Option (Nat → Nat)) (f1 : Opnd) (lit2 : List Nat) : Int :=
  let d := stripped ebc f1
  if isAll f1 && decide (d.length < lit2.length) then cmpRepeat col true d (lit2.length + 1) lit2
  else cmpRepeat col false lit2 (d.length + 1) d

/-- libcob/common.c:667-699 `cob_cmp_simple_str` for items that are not NATIONAL. -/
def cmpSimple (col : Option (Nat → Nat)) (a b : List Nat) : Int :=
  let n := min a.length b.length
  let ret := alnumCmps col a b n
  if ret = 0 then
    if a.length < b.length then -(cmpC col (b.drop n) 32)
    else if b.length < a.length then cmpC col (a.drop n) 32
    else 0
  else ret

/-- libcob/common.c:1361-1404 and the `cob_get_sign` of `cob_cmp_alnum` (701-720): the characters
of an elementary operand in an alphanumeric comparison.  A numeric item that is not zoned, or
has a separate sign, is first moved to a zoned temporary with its digits. -/
def cmpText (ebc : Bool) : Opnd → List Nat
  | .num it =>
    let a := it.field.attr
    match it.usage with
    | .display =>
      if a.separate then
        let temp : Field := ⟨{ digits := a.digits, scale := a.scale, haveSign := true }, List.replicate a.digits 48⟩
        ((moveDispDisp ebc it.field temp).2.getSign ebc).2.data
      else (it.field.getSign ebc).2.data
    | .packed => (movePackedDisp ebc it.field ⟨{ a with haveSign := false }, List.replicate a.digits 48⟩).data
    | .binary => (moveBinDisp ebc it.field ⟨{ a with haveSign := false }, List.replicate a.digits 48⟩).data
  | o => rawBytes o

/-- The result of a numeric comparison as an `int`. -/
def ordInt : Ordering → Int
  | .lt => -1
  | .eq => 0
  | .gt => 1

/-- Comparison with an ALL literal or figurative constant as second operand:
libcob/common.c:1316-1323. -/
def cmpWithAll (ebc : Bool) (col : Option (Nat → Nat)) (f1 : Opnd) (lit : List Nat) : Int :=
  if lit.length = 1 then cmpC col (stripped ebc f1) (lit.getD 0 0) else cmpAll ebc col f1 lit

/-- libcob/common.c:1257-1406 `cob_cmp` (no NATIONAL operands).  `none`: a numeric item of ten or
more characters that are not digits, see `decSetDisplay`. -/
def cobCmp (ebc : Bool) (col : Option (Nat → Nat)) : Opnd → Opnd → Option Int
  | .num x, .num y => (numericCmp ebc x y).map ordInt
  | .num x, .zero => (cmpInt ebc x 0).map ordInt
  | f1, .zero => some (cmpWithAll ebc col f1 [48])
  | f1, .all lit => some (cmpWithAll ebc col f1 lit)
  | .zero, .num y => (cmpInt ebc y 0).map fun o => -ordInt o
  | .zero, f2 => some (-cmpWithAll ebc col f2 [48])
  | .all lit, f2 => some (-cmpWithAll ebc col f2 lit)
  | .group a, f2 => some (cmpSimple col a (rawBytes f2))
  | f1, .group b => some (cmpSimple col (rawBytes f1) b)
  | f1, f2 => some (cmpSimple col (cmpText ebc f1) (cmpText ebc f2))

/-- What the comparison leaves in a zoned operand: the sign is taken off and put back
(libcob/common.c:707-719, 605-609). -/
def afterCmp (ebc : Bool) (f : Field) : Field := (f.getSign ebc).2.putSign ebc (f.getSign ebc).1

/-! ### Class conditions -/

/-- libcob/common.c:1430-1453: the packed branch of `cob_is_numeric`; `nibC` is
`cob_nibble_c_for_unsigned`. -/
def isNumericPacked (nibC : Bool) (f : Field) : Bool :=
  let body := f.data.take (f.data.length - 1)
  let last := f.data.getD (f.data.length - 1) 0
  if body.any (fun b => decide (9 < b / 16) || decide (9 < b % 16)) then false
  else if 9 < last / 16 then false
  else
    let sign := last % 16
    if sign = 15 then true
    else if f.attr.haveSign then decide (sign = 12 ∨ sign = 13)
    else if nibC then decide (sign = 12)
    else false

/-- libcob/common.c:1417-1475 `cob_is_numeric`: the answer, and the item afterwards. -/
def isNumeric (ebc nibC : Bool) : Opnd → Bool × Opnd
  | .num it =>
    match it.usage with
    | .binary => (true, .num it)
    | .packed => (isNumericPacked nibC it.field, .num it)
    | .display =>
      let g := it.field.getSign ebc
      (g.2.digitBytes.all isDigit, .num { it with field := g.2.putSign ebc g.1 })
  | o => ((rawBytes o).all isDigit, o)

/-- `isupper`, `islower`, `isalpha` of <ctype.h> (ASCII letters: "C" locale). -/
def isUpperB (b : Nat) : Bool := decide (65 ≤ b ∧ b ≤ 90)
def isLowerB (b : Nat) : Bool := decide (97 ≤ b ∧ b ≤ 122)
def isAlphaB (b : Nat) : Bool := isUpperB b || isLowerB b

/-- libcob/common.c:1477-1488 `cob_is_alpha`. -/
def isAlphabetic : List Nat → Bool
  | [] => true
  | b :: bs => if !isSpace b && !isAlphaB b then false else isAlphabetic bs

/-- libcob/common.c:1490-1501 `cob_is_upper`. -/
def isAlphabeticUpper : List Nat → Bool
  | [] => true
  | b :: bs => if !isSpace b && !isUpperB b then false else isAlphabeticUpper bs

/-- libcob/common.c:1503-1514 `cob_is_lower`. -/
def isAlphabeticLower : List Nat → Bool
  | [] => true
  | b :: bs => if !isSpace b && !isLowerB b then false else isAlphabeticLower bs

/-! ### Comparison of SORT keys -/

/-- A SORT key: numeric (storage type and attributes) or alphanumeric; offset and size in the
record, ASCENDING or DESCENDING (libcob/common.h `cob_file_key`). -/
structure SortKey where
  numeric : Option (Usage × Attr)
  offset : Nat
  size : Nat
  asc : Bool

/-- The key's bytes in a record. -/
def keyBytes (k : SortKey) (r : List Nat) : List Nat := (r.drop k.offset).take k.size

/-- libcob/common.c:731-745, libcob/fileio.c:5654-5662: comparison of one key.  `none`: see
`cobCmp`. -/
def keyCmp (ebc : Bool) (col : Option (Nat → Nat)) (k : SortKey) (r1 r2 : List Nat) : Option Int :=
  match k.numeric with
  | some (u, a) => (numericCmp ebc ⟨u, ⟨a, keyBytes k r1⟩⟩ ⟨u, ⟨a, keyBytes k r2⟩⟩).map ordInt
  | none => some (alnumCmps col (keyBytes k r1) (keyBytes k r2) k.size)

/-- libcob/common.c:722-748 `sort_compare` (keys that are not NATIONAL). -/
def sortCompare (ebc : Bool) (col : Option (Nat → Nat)) : List SortKey → List Nat → List Nat → Option Int
  | [], _, _ => some 0
  | k :: ks, r1, r2 =>
    match keyCmp ebc col k r1 r2 with
    | none => none
    | some cmp =>
      if cmp ≠ 0 then some (if k.asc then cmp else -cmp) else sortCompare ebc col ks r1 r2

/-- libcob/fileio.c:5638-5669 `cob_file_sort_compare`: as `sort_compare`, ties broken by the number
given to the record when it was released. -/
def fileSortCompare (ebc : Bool) (col : Option (Nat → Nat)) (ks : List SortKey) (k1 k2 : Nat × List Nat) : Option Int :=
  match sortCompare ebc col ks k1.2 k2.2 with
  | none => none
  | some cmp => if cmp ≠ 0 then some cmp else if k1.1 < k2.1 then some (-1) else some 1

end Cob
