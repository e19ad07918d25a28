import Verif.Cobc.Layout
import Verif.Num.Item
/-
Model of level 66, RENAMES (C96): what is accepted, which bytes of the record the new name stands for, and how their contents are described.

Not modelled: the lookup of the names (C71), and pointers and floating-point items, which a 66 item without THRU describes by their pictures.
-/
namespace Cob.Renames

/-- The item at the end of a path of child numbers in a record. -/
def item : Lay → List Nat → Option Lay
  | l, [] => some l
  | l, k :: ks => match l.children[k]? with
    | some c => item c ks
    | none => none

/-- /repo/cobc/parser.y:3156-3158, 3167-3172: the level numbers that may be renamed. -/
def levelOk (level : Nat) : Bool := !(level = 1 || level > 50)

/-- /repo/cobc/field.c:778-788 of `compute_size`: the size of a 66 item. -/
def sizeOf (b : Lay) (c : Option Lay) : Int :=
  match c with
  | some c => (c.offset : Int) + c.size - b.offset
  | none => b.size

/-- /repo/cobc/parser.y:3152-3179 with /repo/cobc/field.c:376-385 and 797-799: the first byte and the size of a 66 item that renames `b`, or `b` THRU
`c` (each with its level number); `none` where the program is refused. -/
def renames (b : Nat × Lay) (c : Option (Nat × Lay)) : Option (Nat × Int) :=
  if !levelOk b.1 then none
  else match c with
    | none => some (b.2.offset, sizeOf b.2 none)
    | some c => if !levelOk c.1 then none else some (b.2.offset, sizeOf b.2 (some c.2))

/-- What the USAGE and SIGN clauses of an entry, or of the group above, say. -/
structure Clauses where
  usage : Usage := .display
  separate : Bool := false
  leading : Bool := false
  swap : Bool := false
deriving DecidableEq, Repr

/-- An elementary numeric item with the bytes `data`: its PICTURE and its clauses (/repo/cobc/codegen.c:589-640 `output_attr`). -/
def described (digits : Nat) (scale : Int) (signed : Bool) (cl : Clauses) (data : List Nat) : Item :=
  ⟨cl.usage, ⟨{ digits := digits, scale := scale, haveSign := signed, separate := signed && cl.separate, leading := signed && cl.leading,
                swap := cl.swap }, data⟩⟩

/-- /repo/cobc/parser.y:3161 (the PICTURE of the renamed item), /repo/cobc/field.c:175-182 and 221-227 (the clauses of the 01 entry),
/repo/cobc/tree.c:539-546 and 571-610: the 66 item without THRU.  `itsClauses` are those of the renamed item: they are not used. -/
def renamedItem (recClauses _itsClauses : Clauses) (digits : Nat) (scale : Int) (signed : Bool) (data : List Nat) : Item :=
  described digits scale signed recClauses data

end Cob.Renames
