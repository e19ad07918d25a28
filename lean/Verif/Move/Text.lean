import Verif.Move.Alnum
import Verif.Move.Edited
/-
Model of the MOVE to an alphanumeric-edited item, and of the MOVE of a numeric item of any usage
to a text item (libcob/move.c).
-/
namespace Cob

/-- libcob/move.c:1014-1030: `n` copies of the symbol `c` of the PICTURE; `src` is what is left of
the sender.  The bytes written and the rest of the sender. -/
def editRun (c : Nat) : (n : Nat) → (src : List Nat) → List Nat × List Nat
  | 0, src => ([], src)
  | n + 1, src =>
    if c = 65 ∨ c = 88 ∨ c = 57 then
      match src with
      | b :: src => let r := editRun c n src; (b :: r.1, r.2)
      | [] => let r := editRun c n []; (32 :: r.1, r.2)
    else
      let r := editRun c n src
      ((if c = 48 ∨ c = 47 then c else if c = 66 then 32 else 63) :: r.1, r.2)

/-- libcob/move.c:1010-1031: the loop over the PICTURE of the receiver. -/
def editText : List (Nat × Nat) → List Nat → List Nat
  | [], _ => []
  | (c, n) :: pic, src => let r := editRun c n src; r.1 ++ editText pic r.2

/-- libcob/move.c:998-1033 `cob_move_alphanum_to_edited` from a text item: no sign to take off. -/
def moveAlnumEdited (pic : List (Nat × Nat)) (src : List Nat) : List Nat := editText pic src

/-- libcob/move.c:998-1033 `cob_move_alphanum_to_edited` from a zoned item: the sender afterwards
and the bytes written. -/
def moveDispAlnumEdited (ebc : Bool) (pic : List (Nat × Nat)) (f1 : Field) : Field × List Nat :=
  let g := f1.getSign ebc
  (g.2.putSign ebc g.1, editText pic g.2.digitBytes)

/-- A text item that receives: its size, or the PICTURE of an alphanumeric-edited one. -/
inductive TextDst where
  | alnum (size : Nat)
  | edited (pic : List (Nat × Nat))

/-- libcob/move.c:1549, 1567-1590: `cob_move` from a zoned item to a text item.  The temporary
item of `indirect_move` has a scale between zero and its digits and so is edited directly. -/
def moveDispText (ebc : Bool) (f1 : Field) : TextDst → Field × List Nat
  | .alnum n => moveDispAlnum ebc f1 n
  | .edited pic =>
    if f1.attr.scale < 0 ∨ f1.attr.scale > f1.attr.digits then
      let t := moveDispDisp ebc f1
        (tempItem (max (f1.attr.digits : Int) f1.attr.scale).toNat (max 0 f1.attr.scale))
      (t.1, (moveDispAlnumEdited ebc pic t.2).2)
    else moveDispAlnumEdited ebc pic f1

/-- libcob/move.c:1548-1619: `cob_move` from a numeric item (not floating point) to a text item. -/
def moveNumText (ebc : Bool) (src : Item) (dst : TextDst) : Item × List Nat :=
  match src.usage with
  | .display => let r := moveDispText ebc src.field dst; ({ src with field := r.1 }, r.2)
  | .packed => (src, (moveDispText ebc
      (movePackedDisp ebc src.field (tempItem src.field.attr.digits src.field.attr.scale)) dst).2)
  | .binary => (src, (moveDispText ebc
      (moveBinDisp ebc src.field (tempItem src.field.attr.digits src.field.attr.scale)) dst).2)

end Cob
