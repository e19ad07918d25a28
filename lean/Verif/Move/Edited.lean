import Verif.Move.Numeric
/-
MOVE to and from numeric-edited items (libcob/move.c).

The PICTURE of an edited item is the list of its symbols with repetition counts, as the compiler
stores it (`attr->pic`, five bytes per symbol).  Characters are their codes: '9' 57, 'Z' 90, '*' 42,
'0' 48, '/' 47, 'B' 66, '.' 46, ',' 44, '+' 43, '-' 45, 'C' 67, 'D' 68, 'P' 80, 'V' 86, ' ' 32.
-/
namespace Cob

/-- `cob_current_module->decimal_point` and `currency_symbol` (libcob/common.h:348-349). -/
structure EditEnv where
  dp : Nat := 46
  cur : Nat := 36
deriving DecidableEq, Repr

/-- The symbols of a PICTURE one by one: the loops over `*p` with an inner loop over the count visit
these. -/
def expandPic (pic : List (Nat × Nat)) : List Nat := pic.flatMap fun p => List.replicate p.2 p.1

/-- libcob/move.c:715-739: the number of digit places before the decimal point, and `p_is_left`;
`cs`, `cc` are `count_sign`, `count_curr`. -/
def editCount (env : EditEnv) : List Nat → (cs cc : Bool) → (count : Nat) → Nat × Bool
  | [], _, _, count => (count, false)
  | c :: rest, cs, cc, count =>
    if c = 57 ∨ c = 90 ∨ c = 42 then editCount env rest false false (count + 1)
    else if cc = true ∧ c = env.cur then editCount env rest cs cc (count + 1)
    else if cs = true ∧ (c = 43 ∨ c = 45) then editCount env rest cs cc (count + 1)
    else if c = 80 then
      if count = 0 then (count, true) else editCount env rest false false (count + 1)
    else if c = 86 ∨ c = env.dp then (count, false)
    else editCount env rest cs cc count

/-- The local variables of `cob_move_display_to_edited` (libcob/move.c:690-710).  `out` are the bytes
of the item before `dst`; `src`, `endp` are offsets from `min` and from `f2->data`; `frac` is the
offset of `decimal_point + 1`; a symbol not yet seen is 0. -/
structure Ed where
  out : List Nat := []
  src : Int
  endp : Int
  frac : Option Nat := none
  trailSign : Bool := false
  trailCurr : Bool := false
  isZero : Bool := true
  supp : Bool := true
  signFirst : Bool := false
  pad : Nat := 32
  signSym : Nat := 0
  currSym : Nat := 0
deriving DecidableEq, Repr

/-- `x = (min <= src && src < max) ? *src++ : (src++, '0')`, and a nonzero `x` ends the suppression. -/
def Ed.fetch (ds : List Nat) (e : Ed) : Nat × Ed :=
  let x := if 0 ≤ e.src ∧ e.src < ds.length then ds.getD e.src.toNat 48 else 48
  (x, if x ≠ 48 then { e with src := e.src + 1, isZero := false, supp := false }
      else { e with src := e.src + 1 })

/-- `*dst = b; ++dst`; `none`: outside the item. -/
def Ed.emit (size : Nat) (e : Ed) (b : Nat) : Option Ed :=
  if e.out.length < size then some { e with out := e.out ++ [b] } else none

/-- `neg ? '-' : (c == '+') ? '+' : ' '`. -/
def signText (neg : Bool) (c : Nat) : Nat := if neg then 45 else if c = 43 then 43 else 32

/-- libcob/move.c:750-851: one turn of the inner loop of `cob_move_display_to_edited`: `c` the PICTURE symbol, `ds` the
sending digits, `old` the bytes of the item before the MOVE. -/
def edStep (env : EditEnv) (neg pLeft : Bool) (ds old : List Nat) (e : Ed) (c : Nat) : Option Ed :=
  let size := old.length
  if c = 48 ∨ c = 47 then e.emit size c
  else if c = 66 then e.emit size (if e.supp then e.pad else 66)
  else if c = 80 then
    if pLeft then some { e with src := e.src + 1 }
    else e.emit size (old.getD e.out.length 0)
  else if c = 57 then
    let r := e.fetch ds
    { r.2 with
      supp := false, trailSign := true, trailCurr := true }.emit size r.1
  else if c = 86 then some { e with frac := some e.out.length }
  else if c = 46 ∨ c = 44 then
    if c = env.dp then { e with frac := some (e.out.length + 1) }.emit size env.dp
    else e.emit size (if e.supp then e.pad else c)
  else if c = 67 ∨ c = 68 then
    let e := { e with endp := (e.out.length : Int) }
    (e.emit size (if neg then c else 32)).bind fun e =>
      e.emit size (if neg then (if c = 67 then 82 else 66) else 32)
  else if c = 90 ∨ c = 42 then
    let r := e.fetch ds
    let e := { r.2 with
      pad := if c = 42 then 42 else 32, trailSign := true, trailCurr := true }
    e.emit size (if e.supp then e.pad else r.1)
  else if c = 43 ∨ c = 45 then
    let r := e.fetch ds
    let e := r.2
    if e.trailSign then { e with endp := e.endp - 1 }.emit size (signText neg c)
    else if e.out.length = 0 ∨ e.supp = true then
      { e with
        signSym := signText neg c
        signFirst := if e.currSym = 0 then true else e.signFirst }.emit size e.pad
    else e.emit size r.1
  else if c = env.cur then
    let r := e.fetch ds
    let e := r.2
    if e.trailCurr then { e with endp := e.endp - 1 }.emit size env.cur
    else if e.out.length = 0 ∨ e.supp = true then { e with currSym := env.cur }.emit size e.pad
    else e.emit size r.1
  else e.emit size 63

/-- The loop over the PICTURE, libcob/move.c:746-852. -/
def edLoop (env : EditEnv) (neg pLeft : Bool) (ds old : List Nat) : Ed → List Nat → Option Ed
  | e, [] => some e
  | e, c :: cs => (edStep env neg pLeft ds old e c).bind fun e => edLoop env neg pLeft ds old e cs

/-- libcob/move.c:866-873: zeros after the decimal point (`strchr` also finds the NUL byte). -/
def edZeros (frac : Nat) (endp : Int) (mem : List Nat) : List Nat :=
  mem.mapIdx fun i b =>
    if frac ≤ i ∧ (i : Int) < endp ∧ ¬ (isDigit b = true ∨ b ∈ [44, 43, 45, 47, 66, 0]) then 48 else b

/-- libcob/move.c:877-881: `for (dst = end - 1; dst > f2->data; --dst) if (*dst == ' ') break;`, where
`n` is `end - 1`. -/
def edLastBlank (mem : List Nat) : (n : Nat) → Nat
  | 0 => 0
  | n + 1 => if mem.getD (n + 1) 0 = 32 then n + 1 else edLastBlank mem n

/-- libcob/move.c:875-901: the sign and the currency symbol. -/
def edSymbols (e : Ed) (mem : List Nat) : Option (List Nat) :=
  if e.signSym ≠ 0 ∨ e.currSym ≠ 0 then
    if e.endp - 1 < 0 ∨ (mem.length : Int) < e.endp then none   -- `*dst` outside the item
    else
      let k := edLastBlank mem (e.endp - 1).toNat
      if e.signSym ≠ 0 ∧ e.currSym ≠ 0 then
        let first := if e.signFirst then e.currSym else e.signSym
        let second := if e.signFirst then e.signSym else e.currSym
        let mem := mem.set k first
        some (if 1 ≤ k then mem.set (k - 1) second else mem)
      else if e.signSym ≠ 0 then some (mem.set k e.signSym)
      else some (mem.set k e.currSym)
  else some mem

/-- libcob/move.c:903-915: 'B' stands for a blank that is not to be taken by the sign; `seen` is
`count != 0`, `n` the number of bytes before `end`. -/
def edBlanks (pad : Nat) : (seen : Bool) → (n : Nat) → List Nat → List Nat
  | _, 0, mem => mem
  | _, _ + 1, [] => []
  | seen, n + 1, b :: mem =>
    if b = 66 then (if seen then 32 else pad) :: edBlanks pad seen n mem
    else b :: edBlanks pad true n mem

/-- libcob/move.c:854-916: what happens after the loop. -/
def edFinish (env : EditEnv) (blankZero : Bool) (e : Ed) (mem : List Nat) : Option (List Nat) :=
  if e.supp = true ∨ (e.isZero = true ∧ blankZero = true) then
    if e.pad = 32 ∨ blankZero = true then some (List.replicate mem.length 32)
    else some (mem.map fun b => if b ≠ env.dp then e.pad else b)
  else
    let mem := match e.frac with
      | some fr => edZeros fr e.endp mem
      | none => mem
    (edSymbols e mem).map (edBlanks e.pad false e.endp.toNat)

/-- libcob/move.c:687-919 `cob_move_display_to_edited`: the bytes of the edited item afterwards.  `ds` are the digit
bytes of the sender after `cob_get_sign`, `scale` its scale, `old` the bytes of the item before.
`none`: a byte outside the item is written. -/
def editDigits (env : EditEnv) (blankZero neg : Bool) (pic : List (Nat × Nat)) (ds : List Nat) (scale : Int)
    (old : List Nat) : Option (List Nat) :=
  let cs := expandPic pic
  let cnt := editCount env cs true true 0
  let e0 : Ed := { src := (ds.length : Int) - scale - cnt.1, endp := old.length }
  (edLoop env neg cnt.2 ds old e0 cs).bind fun e =>
    edFinish env blankZero e (e.out ++ old.drop e.out.length)

/-- libcob/move.c:687-919 `cob_move_display_to_edited` on fields. -/
def moveDispEdited (ebc : Bool) (env : EditEnv) (blankZero : Bool) (pic : List (Nat × Nat)) (f1 : Field)
    (old : List Nat) : Option (List Nat) :=
  let g := f1.getSign ebc
  editDigits env blankZero (decide (g.1 < 0)) pic g.2.digitBytes f1.attr.scale old

/-- libcob/move.c:1548-1612: `cob_move` from a numeric item to a numeric-edited one. -/
def cobMoveEdited (ebc : Bool) (env : EditEnv) (blankZero : Bool) (pic : List (Nat × Nat)) (src : Item)
    (old : List Nat) : Option (List Nat) :=
  match src.usage with
  | .display => moveDispEdited ebc env blankZero pic src.field old
  | .packed => moveDispEdited ebc env blankZero pic
      (movePackedDisp ebc src.field (tempItem src.field.attr.digits src.field.attr.scale)) old
  | .binary => moveDispEdited ebc env blankZero pic
      (moveBinDisp ebc src.field (tempItem 20 src.field.attr.scale)) old

/-! ### De-editing -/

/-- The variables of the first loop of `cob_move_edited_to_display`. -/
structure DeEd where
  buff : List Nat := []
  sign : Int := 0
  scale : Int := 0
  point : Bool := false
deriving DecidableEq, Repr

/-- libcob/move.c:937-967: one character. -/
def deEditStep (env : EditEnv) (d : DeEd) (c : Nat) : DeEd :=
  if isDigit c then
    { d with
      buff := d.buff ++ [c], scale := if d.point then d.scale + 1 else d.scale }
  else if c = 46 ∨ c = 44 then if c = env.dp then { d with point := true } else d
  else if c = 45 ∨ c = 67 then { d with sign := -1 }
  else d

/-- libcob/move.c:968-990: the scale from the PICTURE (`V`, `P`). -/
def deEditScale : List (Nat × Nat) → (point : Bool) → (count : Nat) → (scale : Int) → Int
  | [], _, _, scale => scale
  | (c, n) :: rest, point, count, scale =>
    if c = 57 ∨ c = 48 ∨ c = 90 ∨ c = 42 then
      if point then deEditScale rest point count (scale + n) else deEditScale rest point (count + n) scale
    else if c = 80 then
      if count = 0 then deEditScale rest true count (scale + n) else deEditScale rest point count (scale - n)
    else if c = 86 then deEditScale rest true count scale
    else deEditScale rest point count scale

/-- libcob/move.c:921-996 `cob_move_edited_to_display`: `data` are the bytes of the edited item.  `none`: more than 64
digits, written beyond `buff`. -/
def moveEditedDisp (ebc : Bool) (env : EditEnv) (pic : List (Nat × Nat)) (data : List Nat) (f2 : Field) :
    Option Field :=
  let d := data.foldl (deEditStep env) {}
  if 64 < d.buff.length then none
  else
    let scale := if d.scale = 0 then deEditScale pic d.point 0 0 else d.scale
    some ((storeCommonRegion f2 d.buff scale).putSign ebc d.sign)

end Cob
