import Verif.Num.FastPath
import Verif.Move.Alnum
/-
Model of the code cobc generates for a MOVE statement (cobc/typeck.c `cb_build_move` and below):
many MOVEs do not call `cob_move` but are done in line with memset, memcpy, an assignment to a C
object or a special routine.  Items have fixed size and are not subscripted / reference modified
(with run-time checks on, those always call `cob_move`).  NATIONAL items are not modelled.
-/
namespace Cob

/-- cobc/tree.h:417-425 `cb_literal` for a numeric literal: digit characters, sign -1/0/1 as
written, and the number of decimals. -/
structure NumLit where
  data : List Nat
  sign : Int
  scale : Int
deriving DecidableEq, Repr

/-- cobc/codegen.c:599-606 `output_attr` and 439-443 `output_data`: the constant item the
generated program uses for a numeric literal: the digits, followed by the sign if one is
written. -/
def NumLit.item (l : NumLit) : Item :=
  ⟨.display, ⟨{ digits := l.data.length, scale := l.scale, haveSign := decide (l.sign ≠ 0),
                separate := decide (l.sign ≠ 0) },
    l.data ++ (if l.sign < 0 then [45] else if l.sign > 0 then [43] else [])⟩⟩

/-- cobc/tree.c:737-764 `cb_get_int` (only called on literals of at most nine digits, so the
`int` does not overflow). -/
def NumLit.getInt (l : NumLit) : Int :=
  let v : Int := l.data.foldl (fun (v : Int) (b : Nat) => v * 10 + ((b : Int) - 48)) 0
  if l.sign < 0 then -v else v

/-- cobc/tree.c:634-639 `cb_fits_int` for a literal. -/
def NumLit.fitsInt (l : NumLit) : Bool := decide (l.scale ≤ 0 ∧ l.data.length < 10)

/-- The general library routine for MOVE of a numeric literal to a numeric item. -/
def NumLit.call (ebc cut : Bool) (l : NumLit) (dst : Item) : MoveRes := cobMoveNum ebc cut l.item dst

/-- libcob/numeric.c:890-899 `cob_set_packed_zero`. -/
def setPackedZero (f : Field) : Field :=
  { f with data := (List.replicate f.data.length 0).set (f.data.length - 1) (if f.attr.haveSign then 12 else 15) }

/-- libcob/move.c:1412-1457 (`cob_move_all` with `cob_zero`): eighteen zero digits are moved. -/
def moveZeroCall (ebc cut : Bool) (dst : Item) : MoveRes :=
  cobMoveNum ebc cut ⟨.display, ⟨{ digits := 18 }, List.replicate 18 48⟩⟩ dst

/-- cobc/typeck.c:5466-5517 `cb_build_move_num_zero` (assigning 0 to a C object and memset to 0
are the same). -/
def moveNumZero (ebc cut : Bool) (dst : Item) : MoveRes :=
  let f := dst.field
  match dst.usage with
  | .binary => .done { dst with field := { f with data := List.replicate f.data.length 0 } }
  | .display =>
    if f.attr.separate then moveZeroCall ebc cut dst
    else if ebc ∧ f.attr.haveSign then moveZeroCall ebc cut dst
    else .done { dst with field := { f with data := List.replicate f.data.length 48 } }
  | .packed => .done { dst with field := setPackedZero f }

/-- libcob/numeric.c:923-927: the loop of `cob_set_packed_int` over the `k` bytes left of the sign
byte, right to left (result reversed); bytes not reached stay zero. -/
def setPackedLoop : (k n : Nat) → List Nat
  | 0, _ => []
  | k + 1, n =>
    if n = 0 then List.replicate (k + 1) 0
    else (n % 100 / 10 * 16 + n % 100 % 10) :: setPackedLoop k (n / 100)

/-- libcob/numeric.c:901-932 `cob_set_packed_int`. -/
def setPackedInt (f : Field) (val : Int) : Field :=
  let n := val.natAbs
  let nib := if !f.attr.haveSign then 15 else if val < 0 then 13 else 12
  let data := (setPackedLoop (f.data.length - 1) (n / 10)).reverse ++ [n % 10 * 16 + nib]
  { f with data := if f.attr.digits % 2 = 0 then data.set 0 (data.getD 0 0 % 16) else data }

/-- cobc/typeck.c:5795-5818: the bytes for a literal moved to a zoned item of the same scale
whose sign, if any, is trailing and not separate; `sign` is the literal's sign.  The routine
`cob_put_sign_ebcdic` of typeck.c (5644-5731) is the same as the one of libcob/common.c. -/
def litZoned (ebc : Bool) (data : List Nat) (sign : Int) (f : Field) : Field :=
  let size := f.data.length
  let buff :=
    if size ≤ data.length then (data.drop (data.length - size)).take size
    else List.replicate (size - data.length) 48 ++ data
  let b := buff.getD (size - 1) 0
  { f with data :=
      if f.attr.haveSign then
        if ebc then buff.set (size - 1) (putSignEbcdic b sign)
        else if sign < 0 then buff.set (size - 1) ((b + 64) % 256)
        else buff
      else buff }

/-- cobc/typeck.c:5860-5865: `for (; n < 0; n++) val /= 10`. -/
def divTens : Nat → Int → Int
  | 0, v => v
  | k + 1, v => divTens k (v.tdiv 10)

/-- cobc/typeck.c:5857-5862 and 5911-5916: the literal's value in units of the receiver. -/
def alignVal (val n : Int) : Int := if n ≥ 0 then val * 10 ^ n.toNat else divTens (-n).toNat val

/-- cobc/typeck.c:5733-5928 `cb_build_move_literal` for a numeric literal and a numeric receiver
(not COMP-1/2).  `(l->size + n) > 9` is computed in `size_t`, so a negative sum counts as large. -/
def moveLit (ebc cut : Bool) (l : NumLit) (dst : Item) : MoveRes :=
  let f := dst.field
  let n := f.attr.scale - l.scale
  let tooLong : Prop := (l.data.length : Int) + n > 9 ∨ (l.data.length : Int) + n < 0
  let val := alignVal l.getInt n
  if dst.usage = .display ∧ f.attr.scale = l.scale ∧ f.attr.leading = false ∧ f.attr.separate = false then
    .done { dst with field := litZoned ebc l.data l.sign f }
  else if l.fitsInt ∧ f.data.length ≤ 8 ∧ dst.usage = .binary then
    if tooLong then l.call ebc cut dst
    else if val = 0 then moveNumZero ebc cut dst
    else if f.data.length = 1 then
      .done { dst with field := { f with data := regStore false 1 val } }
    else if f.attr.swap then
      .done { dst with field := { f with data := setSwpBinary f.data.length val } }
    else if f.data.length = 2 ∨ f.data.length = 4 ∨ f.data.length = 8 then
      .done { dst with field := { f with data := regStore false f.data.length val } }
    else l.call ebc cut dst
  else if l.fitsInt ∧ dst.usage = .packed then
    if f.attr.scale < 0 then l.call ebc cut dst
    else if tooLong then l.call ebc cut dst
    else if val = 0 then moveNumZero ebc cut dst
    else .done { dst with field := setPackedInt f val }
  else l.call ebc cut dst

/-- cobc/typeck.c:5930-5985 `cb_build_move_field` between numeric items: an item of the same
description is copied.  The number of bytes stands for `pic->size` (for equal usage, digits and
sign flags one determines the other); `same` is `src_f->usage == dst_f->usage`, which
distinguishes more than `Usage` (BINARY, COMP-5, COMP-X). -/
def moveNumField (ebc cut same : Bool) (src dst : Item) : MoveRes :=
  if same ∧ src.usage = dst.usage ∧ src.field.data.length = dst.field.data.length ∧
      src.field.attr = dst.field.attr then
    .done { dst with field := { dst.field with data := src.field.data.take dst.field.data.length } }
  else cobMoveNum ebc cut src dst

/-! ### receivers with text -/

/-- A receiver of category ALPHABETIC or ALPHANUMERIC. -/
structure TextRecv where
  alphabetic : Bool
  just : Bool
  size : Nat
deriving DecidableEq, Repr

/-- The senders of a MOVE to text. -/
inductive TextSender where
  /-- a figurative constant, as its character -/
  | figurative (c : Nat)
  /-- an alphanumeric literal -/
  | text (data : List Nat)
  /-- an ALL literal -/
  | all (data : List Nat)
  /-- a numeric literal -/
  | num (l : NumLit)
  /-- an alphabetic or alphanumeric item (or group) with its contents -/
  | item (alphabetic : Bool) (data : List Nat)
  /-- a zoned item -/
  | zoned (f : Field)
deriving DecidableEq, Repr

/-- libcob/move.c:1481-1680 `cob_move` to an alphabetic or alphanumeric item. -/
def textCall (ebc : Bool) (s : TextSender) (r : TextRecv) : List Nat :=
  match s with
  | .figurative c => moveAllAlnum r.just [c] r.size
  | .text d => moveAlnum r.just d r.size
  | .all d => moveAllAlnum r.just d r.size
  | .num l => (moveDispAlnum ebc l.item.field r.size).2
  | .item _ d => moveAlnum r.just d r.size
  | .zoned f => (moveDispAlnum ebc f r.size).2

/-- cobc/typeck.c:5820-5834: the bytes for a literal moved to text. -/
def litText (just : Bool) (data : List Nat) (size : Nat) : List Nat :=
  if just then
    if size ≤ data.length then (data.drop (data.length - size)).take size
    else List.replicate (size - data.length) 32 ++ data
  else
    if size ≤ data.length then data.take size
    else data ++ List.replicate (size - data.length) 32

/-- cobc/typeck.c:5753-5790: ALL literal to an ALPHABETIC item (others call `cob_move`). -/
def litAll (ebc : Bool) (d : List Nat) (r : TextRecv) : List Nat :=
  if !r.alphabetic then textCall ebc (.all d) r
  else if d.length = 1 then List.replicate r.size (d.getD 0 0)
  else if d.all (· == d.getD 0 0) then List.replicate r.size (d.getD 0 0)
  else if r.size > 128 then textCall ebc (.all d) r
  else
    let l := (List.range r.size).map fun i => d.getD (i % d.length) 0
    let z := l.getD (r.size - 1) 0
    if (0x81 ≤ z ∧ z ≤ 0x9F) ∨ (0xE0 ≤ z ∧ z ≤ 0xFC) then l.set (r.size - 1) 32 else l

/-- cobc/typeck.c:5987-6062 `cb_build_move`, 5430-5444 `cb_build_memset`, 5519-5628
`cb_build_move_space` ... `cb_build_move_quote`, 5733-5928 `cb_build_move_literal`, 5930-5985
`cb_build_move_field`: the bytes of a text receiver after the MOVE.  No PROGRAM COLLATING
SEQUENCE (HIGH-VALUE is 0xFF, LOW-VALUE 0). -/
def moveText (ebc : Bool) (s : TextSender) (r : TextRecv) : List Nat :=
  match s with
  | .figurative c => List.replicate r.size c
  | .all d => litAll ebc d r
  | .text d => if r.size < d.length + 16 then litText r.just d r.size else textCall ebc s r
  | .num l => if r.size < l.data.length + 16 then litText r.just l.data r.size else textCall ebc s r
  | .item alph d =>
    if r.size ≤ d.length ∧ r.just = false ∧ (alph = true ∨ r.alphabetic = false) then d.take r.size
    else textCall ebc s r
  | .zoned f =>
    if r.size ≤ f.data.length ∧ r.alphabetic = false ∧ f.attr.haveSign = false ∧
        f.attr.leading = false ∧ f.attr.separate = false then f.data.take r.size
    else textCall ebc s r

end Cob
