import Verif.Move.Edited
import Verif.Intr.Text
/-
Analysis of PICTURE strings (cobc/tree.c `cb_build_picture`) and the storage size of elementary
items (cobc/field.c `compute_size`).

Characters are their codes: 'A' 65, 'X' 88, '9' 57, 'N' 78, 'S' 83, 'V' 86, 'P' 80, '0' 48, 'B' 66, '/' 47, ',' 44,
'.' 46, '*' 42, 'Z' 90, '+' 43, '-' 45, 'C' 67, 'R' 82, 'D' 68, '(' 40, ')' 41.  A string ends where the list ends.  The
arithmetic of `int` wraps around (what the compilers in use do where C leaves it undefined).

Not modelled: the scanner (upper case, level-78 names), the text of the messages: `none` is any error.
-/
namespace Cob

/-- The bits of `category` (cobc/tree.c:32-40): PIC_ALPHABETIC, PIC_NUMERIC, PIC_NATIONAL, PIC_EDITED. -/
structure PicBits where
  a : Bool := false
  n : Bool := false
  nat : Bool := false
  e : Bool := false
deriving DecidableEq, Repr

/-- `category |= …`. -/
def PicBits.or (x y : PicBits) : PicBits := ⟨x.a || y.a, x.n || y.n, x.nat || y.nat, x.e || y.e⟩

/-- cobc/tree.c:1196-1246: what one character, followed by `rest`, adds to the category. -/
def guessSym (env : EditEnv) (c : Nat) (rest : List Nat) : PicBits :=
  if c = 65 then { a := true }
  else if c = 88 then { a := true, n := true }
  else if c = 57 then { n := true }
  else if c = 78 then { nat := true }
  else if c = 83 then { n := true }
  else if c = 86 ∨ c = 80 then { n := true }
  else if c = 48 ∨ c = 66 ∨ c = 47 then { e := true }
  else if c = 44 ∨ c = 46 ∨ c = 42 ∨ c = 90 ∨ c = 43 ∨ c = 45 then { n := true, e := true }
  else if c = 67 then if rest = [82] then { n := true, e := true } else {}
  else if c = 68 then if rest = [66] then { n := true, e := true } else {}
  else if c = env.cur then { n := true, e := true }
  else {}

/-- cobc/tree.c:1182-1250 `guess_pic_category`. -/
def guessCat (env : EditEnv) : (skip : Int) → (cat : PicBits) → List Nat → PicBits
  | _, cat, [] => cat
  | skip, cat, c :: rest =>
    let skip := if c = 40 then skip + 1 else if c = 41 then skip - 1 else skip
    guessCat env skip (if skip = 0 then cat.or (guessSym env c rest) else cat) rest

/-- The local variables of `cb_build_picture`; `buff` holds the symbols with their counts. -/
structure PicSt where
  pSeen : Bool := false
  sSeen : Bool := false
  curSeen : Bool := false
  cat : PicBits
  size : Int := 0
  digits : Int := 0
  scale : Int := 0
  sCount : Int := 0
  vCount : Int := 0
  charLen : Int := 0
  national : Bool := false
  buff : List (Nat × Int) := []
deriving DecidableEq, Repr

/-- cobc/tree.c:1293-1295: `while (p[1] == c) p++, n++;`. -/
def picSame (c : Nat) : (n : Int) → List Nat → Int × List Nat
  | n, [] => (n, [])
  | n, d :: rest => if d = c then picSame c (wrap32 (n + 1)) rest else (n, d :: rest)

/-- cobc/tree.c:1302-1304: the zeros after the parenthesis. -/
def picZeros : List Nat → List Nat
  | [] => []
  | d :: rest => if d = 48 then picZeros rest else d :: rest

/-- cobc/tree.c:1305-1323: the digits up to the parenthesis; -1 is CHARACTER_LENGTH_OVERFLOW. -/
def picCount : (v : Int) → List Nat → Option (Int × List Nat)
  | _, [] => none
  | v, d :: rest =>
    if d = 41 then some (v, rest)
    else if isDigit d = true then
      if v > 214748364 then picCount (-1) rest
      else
        let v := wrap32 (v * 10)
        if wrap32 (2147483647 - v) < (d : Int) - 48 then picCount (-1) rest
        else picCount (v + ((d : Int) - 48)) rest
    else none

/-- cobc/tree.c:1292-1338: a symbol with all its repetitions, `rest` being what follows; `fuel`
bounds the number of parentheses. -/
def picRepeat : (fuel : Nat) → (c : Nat) → (n : Int) → (rest : List Nat) → Option (Int × List Nat)
  | 0, _, _, _ => none
  | fuel + 1, c, n, rest =>
    let (n, rest) := picSame c n rest
    match rest with
    | [] => some (n, rest)
    | d :: rest' =>
      if d = 40 then
        (picCount 0 (picZeros rest')).bind fun (v, rest) =>
          if v = 0 then none
          else if v = -1 then picRepeat fuel c (-1) rest
          else if n ≠ -1 then
            if wrap32 (2147483647 - n) < v - 1 then picRepeat fuel c (-1) rest
            else picRepeat fuel c (n + (v - 1)) rest
          else picRepeat fuel c n rest
      else some (n, rest)

/-- cobc/tree.c:180-196 `increase_character_length` (the comparison is unsigned). -/
def incLen (len inc : Int) : Int :=
  if len = -1 then -1
  else if inc = -1 then -1
  else if (2147483647 - len) % 4294967296 < inc % 4294967296 then -1
  else len + inc

/-- cobc/tree.c:1411-1433: may 'P' stand here? `rest` is what follows. -/
def picPPlace (st : PicSt) (rest : List Nat) : Bool × Bool :=
  let last := (st.buff.getLast?.map (·.1)).getD 0
  let lastTwo := (st.buff.dropLast.getLast?.map (·.1)).getD 0
  let atBeginning : Bool :=
    match st.buff.length with
    | 0 => true
    | 1 => last == 86 || last == 83
    | 2 => lastTwo == 83 && last == 86
    | _ => false
  let atEnd : Bool := rest == [] || rest == [86]
  (atBeginning, atEnd)

/-- cobc/tree.c:1342-1529: the check of one symbol with count `n`; the result is the state and what
is left of the string.  'S' is in `picStep`. -/
def picSym (env : EditEnv) (st : PicSt) (c : Nat) (n : Int) (rest : List Nat) : Option (PicSt × List Nat) :=
  let sp : Bool := st.sSeen || st.pSeen
  if c = 65 ∨ c = 88 then
    if sp = true then none else some ({ st with charLen := incLen st.charLen n }, rest)
  else if c = 57 then
    some ({ st with
      digits := wrap32 (st.digits + n), charLen := incLen st.charLen n
      scale := if st.vCount ≠ 0 then wrap32 (st.scale + n) else st.scale }, rest)
  else if c = 78 then
    if sp = true then none else some ({ st with national := true, charLen := incLen st.charLen n }, rest)
  else if c = 44 ∨ c = 46 ∨ c = 86 then
    if c ≠ 86 ∧ sp = true then none
    else if c ≠ 86 ∧ c ≠ env.dp then some (st, rest)
    else if st.cat.a = true then none
    else if wrap32 (st.vCount + n) > 1 then none
    else some ({ st with vCount := wrap32 (st.vCount + n) }, rest)
  else if c = 80 then
    if st.cat.a = true then none
    else if st.pSeen = true then none
    else
      let pl := picPPlace st rest
      if pl.1 = false ∧ pl.2 = false then none
      else
        let vCount := if pl.1 then st.vCount + 1 else st.vCount
        some ({ st with
          pSeen := true, vCount := vCount
          digits := wrap32 (st.digits + n), charLen := incLen st.charLen n
          scale := if vCount ≠ 0 then wrap32 (st.scale + n) else wrap32 (st.scale - n) }, rest)
  else if c = 48 ∨ c = 66 ∨ c = 47 then
    if sp = true then none else some ({ st with charLen := incLen st.charLen n }, rest)
  else if c = 42 ∨ c = 90 then
    if st.cat.a = true then none
    else if sp = true then none
    else some ({ st with
      digits := wrap32 (st.digits + n), charLen := incLen st.charLen n
      scale := if st.vCount ≠ 0 then wrap32 (st.scale + n) else st.scale }, rest)
  else if c = 43 ∨ c = 45 then
    if st.cat.a = true then none
    else if sp = true then none
    else
      let st := { st with digits := wrap32 (st.digits + (n - 1)), charLen := incLen st.charLen (wrap32 (n - 1)) }
      let st := if st.sCount > 0 then { st with digits := wrap32 (st.digits + 1), charLen := incLen st.charLen 1 } else st
      some ({ st with sCount := st.sCount + 1 }, rest)
  else if c = 67 then
    if rest ≠ [82] then none
    else if sp = true then none
    else some ({ st with cat := st.cat.or { n := true, e := true }, sCount := st.sCount + 1 }, [])
  else if c = 68 then
    if rest ≠ [66] then none
    else if sp = true then none
    else some ({ st with sCount := st.sCount + 1 }, [])
  else if c = env.cur then
    if st.curSeen = false then
      some ({ st with
        digits := wrap32 (st.digits + (n - 1)), charLen := incLen st.charLen (wrap32 (n - 1)), curSeen := true }, rest)
    else some ({ st with digits := wrap32 (st.digits + n), charLen := incLen st.charLen n }, rest)
  else none

/-- PIC_NATIONAL_EDITED. -/
def picNE : PicBits := { nat := true, e := true }

/-- cobc/tree.c:1531-1556: the size, and the symbol is stored. -/
def picStore (st : PicSt) (c : Nat) (n : Int) : PicSt :=
  let s1 := if c ≠ 86 ∧ c ≠ 80 then wrap32 (st.size + n) else st.size
  let s2 :=
    if c = 67 ∨ c = 68 then wrap32 (s1 + n)
    else if c = 78 ∨ (st.cat = picNE ∧ (c = 48 ∨ c = 66 ∨ c = 47)) then wrap32 (s1 + n)
    else s1
  { st with
    size := s2, buff := st.buff ++ [(c, n)] }

/-- cobc/tree.c:1340-1556: one turn of the loop, after the repetitions are counted. -/
def picStep (env : EditEnv) (st : PicSt) (c : Nat) (n : Int) (rest : List Nat) : Option (PicSt × List Nat) :=
  if c = 83 then
    if st.cat.a = true then none
    else if wrap32 (st.sCount + n) > 1 ∨ st.buff ≠ [] then none
    else some ({ st with sCount := wrap32 (st.sCount + n), sSeen := true }, rest)
  else (picSym env st c n rest).map fun r => (picStore r.1 c n, r.2)

/-- cobc/tree.c:1288-1557: the loop over the string; `fuel` bounds the number of turns. -/
def picLoop (env : EditEnv) : (fuel : Nat) → PicSt → List Nat → Option PicSt
  | _, st, [] => some st
  | 0, _, _ :: _ => none
  | fuel + 1, st, c :: rest =>
    (picRepeat (rest.length + 1) c 1 rest).bind fun (n, rest) =>
      (picStep env st c n rest).bind fun (st, rest) => picLoop env fuel st rest

/-- `enum cb_category` as far as a PICTURE gives it. -/
inductive PicCat where
  | alphabetic | numeric | alphanumeric | national | numericEdited | alphanumericEdited | nationalEdited
deriving DecidableEq, Repr

/-- `struct cb_picture`: `str` is the list that goes to the runtime as `attr->pic`. -/
structure Picture where
  size : Int
  digits : Nat
  scale : Int
  haveSign : Nat
  cat : PicCat
  str : List (Nat × Int)
deriving DecidableEq, Repr

/-- The configured limits: `cb_max_alpha_character_data_size`, `cb_max_sjis_character_data_size`. -/
structure PicLimits where
  alpha : Int := 2147483647
  sjis : Int := 1073741823

/-- cobc/tree.c:1569-1624: the category and the limit on the number of characters (36 digits for a
numeric item). -/
def picCategory (lim : PicLimits) (st : PicSt) : Option PicCat :=
  let short (limit : Int) (r : PicCat) : Option PicCat :=
    if st.charLen = -1 ∨ st.charLen > limit then none else some r
  match st.cat with
  | ⟨true, false, false, false⟩ => short lim.alpha .alphabetic
  | ⟨false, true, false, false⟩ => if st.digits > 36 then none else some .numeric
  | ⟨true, true, false, false⟩ => short lim.alpha .alphanumeric
  | ⟨false, false, true, false⟩ => short lim.sjis .national
  | ⟨false, true, false, true⟩ => short 160 .numericEdited
  | ⟨false, false, false, true⟩ => short lim.alpha .alphanumericEdited
  | ⟨true, false, false, true⟩ => short lim.alpha .alphanumericEdited
  | ⟨true, true, false, true⟩ => short lim.alpha .alphanumericEdited
  | ⟨false, false, true, true⟩ => short lim.sjis .nationalEdited
  | _ => none

/-- cobc/tree.c:1252-1632 `cb_build_picture`: `none` if a message is given. -/
def buildPicture (env : EditEnv) (lim : PicLimits) (str : List Nat) : Option Picture :=
  if 50 < str.length then none
  else
    (picLoop env str.length { cat := guessCat env 0 {} str } str).bind fun st =>
      if st.size = 0 ∧ st.vCount ≠ 0 then none
      else (picCategory lim st).map fun cat =>
        { size := st.size
          digits := (st.digits % 256).toNat
          scale := (st.scale + 128) % 256 - 128
          haveSign := (st.sCount % 256).toNat
          cat := cat
          str := st.buff }

/-! ### Storage size of elementary items -/

/-- The usages whose size depends on the PICTURE. -/
inductive StoreUsage where
  | display | packed | compX
  /-- BINARY and COMP-5 -/
  | binary
deriving DecidableEq, Repr

/-- The configuration `binary-size`. -/
inductive BinarySize where
  | s248 | s1248 | s1to8
deriving DecidableEq, Repr

/-- cobc/field.c:869-923: the size of an elementary item; `real` is `flag_real_binary`, `sepSign` is
`flag_sign_separate`.  (COMP-X with PIC X keeps the size set before; not modelled.)  A binary item of more
than 18 digits is an error: `none`. -/
def elemSize (cfg : BinarySize) (real sepSign : Bool) (u : StoreUsage) (size : Nat) (numeric haveSign : Bool) : Option Nat :=
  match u with
  | .compX => some (
      if size ≤ 2 then 1 else if size ≤ 4 then 2 else if size ≤ 7 then 3 else if size ≤ 9 then 4
      else if size ≤ 12 then 5 else if size ≤ 14 then 6 else if size ≤ 16 then 7 else if size ≤ 18 then 8 else 16)
  | .binary =>
    if size > 18 then none
    else match cfg with
    | .s248 => some (
        if real = true ∧ size ≤ 2 then 1 else if size ≤ 4 then 2 else if size ≤ 9 then 4 else if size ≤ 18 then 8 else 16)
    | .s1248 => some (
        if size ≤ 2 then 1 else if size ≤ 4 then 2 else if size ≤ 9 then 4 else if size ≤ 18 then 8 else 16)
    | .s1to8 => some (
        if haveSign then
          if size ≤ 2 then 1 else if size ≤ 4 then 2 else if size ≤ 6 then 3 else if size ≤ 9 then 4
          else if size ≤ 11 then 5 else if size ≤ 14 then 6 else if size ≤ 16 then 7 else if size ≤ 18 then 8 else 16
        else
          if size ≤ 2 then 1 else if size ≤ 4 then 2 else if size ≤ 7 then 3 else if size ≤ 9 then 4
          else if size ≤ 12 then 5 else if size ≤ 14 then 6 else if size ≤ 16 then 7 else if size ≤ 18 then 8 else 16)
  | .display => some (if numeric = true ∧ haveSign = true ∧ sepSign = true then size + 1 else size)
  | .packed => some (size / 2 + 1)

end Cob
