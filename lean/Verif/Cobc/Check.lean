import Verif.Cobc.Move
import Verif.Cobc.Literal
/-
Model of the checks the compiler makes on a MOVE statement and on a VALUE clause (cobc/typeck.c `validate_move`): which
messages it gives.  A message here is one the code reaches; whether a warning is printed also depends on the options
-Wconstant, -Wtruncate and -Wstrict-typing (/repo/cobc/typeck.c:4665-4689 `move_error`).
Not modelled: receivers that are pointers, files, alphabet names or condition names, reference modification, items of variable
size, senders that are expressions, functions or registers (accepted without a check).
-/
namespace Cob

/-- `enum cb_category` as far as items and literals are concerned. -/
inductive MvCat where
  | alphabetic
  | alphanumeric
  | alphanumericEdited
  | numeric
  | numericEdited
  | national
  | nationalEdited
deriving DecidableEq, Repr

/-- The messages of `validate_move` (/repo/cobc/typeck.c:5369-5425). -/
inductive MvMsg where
  | invalid
  | notSigned
  | ignoringSign
  | literalExceeds
  | expectNumeric
  | expectAlphanumeric
  | expectNational
  | mismatch
  | sizeOver
  | sendingLarger
  | digitsLost
  | nonInteger
deriving DecidableEq, Repr

/-- An item as the checks see it: `group` is `children`, `size` the number of bytes, `digits`, `scale`, `picSize`, `haveSign`
those of the picture, `bin` tells whether the usage is COMP-5, COMP-X or BINARY, `real` is `flag_real_binary`, `str` the
picture in runs. -/
structure MvItem where
  cat : MvCat
  group : Bool := false
  size : Nat := 0
  digits : Int := 0
  scale : Int := 0
  picSize : Int := 0
  haveSign : Bool := false
  bin : Bool := false
  real : Bool := false
  str : List (Nat × Nat) := []
deriving DecidableEq, Repr

/-- /repo/cobc/typeck.c:4742-4758 `count_pic_alphanumeric_edited`. -/
def countPlaces (f : MvItem) : Nat :=
  f.str.foldl (fun n p => if p.1 = 57 ∨ p.1 = 65 ∨ p.1 = 88 then n + p.2 else n) 0

/-- /repo/cobc/typeck.c:4854-4858: the number of zeros in front. -/
def zerosAt (d : List Nat) : Nat := (d.takeWhile (· == 48)).length

/-- /repo/cobc/typeck.c:4853-4861: the place of the first figure that is not zero. -/
def litMost (l : NumLit) : Int :=
  if zerosAt l.data = l.data.length then -999 else (l.data.length : Int) - l.scale - zerosAt l.data - 1

/-- /repo/cobc/typeck.c:4863-4871: the place of the last figure that is not zero. -/
def litLeast (l : NumLit) : Int :=
  if zerosAt l.data.reverse = l.data.length then 999 else -l.scale + zerosAt l.data.reverse

/-- `memcmp (p, q, n) > 0` for `p` and `q` of `n` bytes. -/
def memGreater : List Nat → List Nat → Bool
  | a :: p, b :: q => if a = b then memGreater p q else decide (b < a)
  | _, _ => false

/-- /repo/cobc/tree.c:766-791 `cb_get_long_long`, for at most 18 figures. -/
def NumLit.getLong (l : NumLit) : Int :=
  let v : Int := (l.data.dropWhile (· == 48)).foldl (fun (v : Int) (b : Nat) => v * 10 + ((b : Int) - 48)) 0
  if l.sign < 0 then -v else v

/-- The limits in /repo/cobc/typeck.c:4948-5060 for 1 to 7 bytes: least and greatest with sign, greatest without sign. -/
def binLimits : List (Int × Int × Int) :=
  [(-128, 127, 255), (-32768, 32767, 65535), (-8388608, 8388607, 16777215), (-2147483648, 2147483647, 4294967295),
   (-549755813888, 549755813887, 1099511627775), (-140737488355328, 140737488355327, 281474976710655),
   (-36028797018963968, 36028797018963967, 72057594037927935)]

/-- /repo/cobc/typeck.c:4935-5086: the size check for binary items. -/
def binCheck (l : NumLit) (dst : MvItem) : List MvMsg :=
  let sig := l.data.length - zerosAt l.data
  let p := if zerosAt l.data = l.data.length then l.data else l.data.drop (zerosAt l.data)
  if 1 ≤ dst.size ∧ dst.size ≤ 7 then
    let b := binLimits.getD (dst.size - 1) (0, 0, 0)
    if 18 < sig then [.literalExceeds]
    else if dst.haveSign then
      (if l.getLong < b.1 ∨ b.2.1 < l.getLong then [.literalExceeds] else [])
    else (if b.2.2 < l.getLong then [.literalExceeds] else [])
  else if dst.haveSign then
    if sig < 19 then []
    else if 19 < sig then [.literalExceeds]
    else if memGreater p [57, 50, 50, 51, 51, 55, 50, 48, 51, 54, 56, 53, 52, 55, 55, 53, 56, 48, 55] then [.literalExceeds]
    else []
  else
    if sig < 20 then []
    else if 20 < sig then [.literalExceeds]
    else if memGreater p [49, 56, 52, 52, 54, 55, 52, 52, 48, 55, 51, 55, 48, 57, 53, 53, 49, 54, 49, 53] then [.literalExceeds]
    else []

/-- /repo/cobc/typeck.c:4935-5098: the size check. -/
def sizeCheck (l : NumLit) (dst : MvItem) : List MvMsg :=
  if dst.real ∨ (dst.bin ∧ dst.scale = 0) then binCheck l dst
  else if litLeast l < -dst.scale then [.sizeOver]
  else if (if dst.scale > 0 then dst.digits - dst.scale else dst.digits) ≤ litMost l then [.sizeOver]
  else []

/-- /repo/cobc/typeck.c:4924-5098: sign check and size check. -/
def signSizeCheck (isValue : Bool) (l : NumLit) (dst : MvItem) : List MvMsg :=
  if l.sign ≠ 0 ∧ dst.haveSign = false then
    if isValue then [.notSigned] else .ignoringSign :: sizeCheck l dst
  else sizeCheck l dst

/-- /repo/cobc/typeck.c:4844-5098: a numeric literal. -/
def checkNumLit (isValue : Bool) (l : NumLit) (all : Bool) (dst : MvItem) : List MvMsg :=
  if all then [.invalid]
  else match dst.cat with
    | .national | .nationalEdited => if isValue ∨ l.scale = 0 then [.expectNational] else [.invalid]
    | .alphanumeric | .alphanumericEdited => if isValue ∨ l.scale = 0 then [.expectAlphanumeric] else [.invalid]
    | .numeric =>
      if dst.scale < 0 then
        if litLeast l < -dst.scale then [.mismatch] else signSizeCheck isValue l dst
      else if dst.picSize < dst.scale then
        if dst.picSize - dst.scale ≤ litMost l then [.mismatch] else signSizeCheck isValue l dst
      else signSizeCheck isValue l dst
    | .numericEdited => if isValue then [.expectAlphanumeric] else signSizeCheck isValue l dst
    | .alphabetic => if isValue then [.expectAlphanumeric] else [.invalid]

/-- isalpha and isspace. -/
def letterOrSpace (c : Nat) : Bool := (65 ≤ c && c ≤ 90) || (97 ≤ c && c ≤ 122) || c == 32 || (9 ≤ c && c ≤ 13)

/-- /repo/cobc/typeck.c:5099-5156: any other literal. -/
def checkTextLit (isValue : Bool) (l : TextLit) (dst : MvItem) : List MvMsg :=
  if l.national ∧ (dst.cat = .alphabetic ∨ dst.cat = .numeric ∨ dst.cat = .numericEdited) then [.invalid]
  else if dst.cat = .alphabetic ∧ l.data.any (fun c => !letterOrSpace c) then [.mismatch]
  else if dst.cat = .numeric then [.expectNumeric]
  else if dst.cat = .numericEdited ∧ isValue = false then [.expectNumeric]
  else if dst.size < l.data.length then [.sizeOver] else []

/-- /repo/cobc/typeck.c:4828-4840: SPACE and ZERO. -/
def checkFig (isValue space : Bool) (dst : MvItem) : List MvMsg :=
  if space then
    if dst.cat = .numeric ∨ (dst.cat = .numericEdited ∧ isValue = false) then [.invalid] else []
  else if dst.cat = .alphabetic then [.invalid] else []

/-- /repo/cobc/typeck.c:5297-5306, 5340-5349: digits in front of and behind the decimal point. -/
def digitsCheck (src dst : MvItem) : List MvMsg :=
  let s := if src.scale < 0 then 0 else src.scale
  let d := if dst.scale < 0 then 0 else dst.scale
  if dst.digits - d < src.digits - s ∨ d < s then [.digitsLost] else []

/-- The size of a sender against that of a receiver. -/
def lengthCheck (n room : Nat) : List MvMsg := if room < n then [.sendingLarger] else []

/-- /repo/cobc/typeck.c:5158-5357: an item to an item; `strict` is `move-non-integer-to-alphanumeric: error`. -/
def checkItem (strict : Bool) (src dst : MvItem) : List MvMsg :=
  if src.group ∨ dst.group then lengthCheck src.size dst.size
  else match src.cat with
    | .alphanumeric =>
      match dst.cat with
      | .numeric | .numericEdited => if dst.digits < src.size then [.digitsLost] else []
      | .alphanumericEdited | .nationalEdited => lengthCheck src.size (countPlaces dst)
      | _ => lengthCheck src.size dst.size
    | .national =>
      match dst.cat with
      | .alphabetic | .numeric | .numericEdited => [.invalid]
      | .alphanumericEdited | .nationalEdited => lengthCheck src.size (countPlaces dst)
      | _ => lengthCheck src.size dst.size
    | .alphabetic | .alphanumericEdited =>
      match dst.cat with
      | .numeric | .numericEdited => [.invalid]
      | .alphanumericEdited => lengthCheck src.size (countPlaces dst)
      | _ => lengthCheck src.size dst.size
    | .nationalEdited =>
      match dst.cat with
      | .alphabetic | .numeric | .numericEdited => [.invalid]
      | .alphanumericEdited => lengthCheck src.size (countPlaces dst)
      | _ => lengthCheck src.size dst.size
    | .numeric =>
      match dst.cat with
      | .alphabetic => [.invalid]
      | .alphanumericEdited | .alphanumeric =>
        if 0 < src.scale then (if strict then [.invalid] else [.nonInteger])
        else if ((if dst.cat = .alphanumericEdited then countPlaces dst else dst.size : Nat) : Int) < src.digits then [.digitsLost]
        else []
      | .nationalEdited | .national => if 0 < src.scale then [.invalid] else digitsCheck src dst
      | _ => digitsCheck src dst
    | .numericEdited =>
      match dst.cat with
      | .alphabetic => [.invalid]
      | .alphanumericEdited | .alphanumeric =>
        lengthCheck src.size (if dst.cat = .alphanumericEdited then countPlaces dst else dst.size)
      | _ => digitsCheck src dst

end Cob
