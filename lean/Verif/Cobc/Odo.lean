import Verif.Cobc.Renames
/-
Model of OCCURS DEPENDING ON (C98): which records are accepted, the size of a group with such a table at run time, and, for `complex-odo: yes`, sizes and
addresses in a group of elementary items.

Not modelled: GLOBAL records; the check that the counter is not itself behind the table; OCCURS of an ancestor written with one occurrence, which is
refused as any other (here an item without OCCURS has one occurrence); reference modification (C35).
-/
namespace Cob.Odo

/-- /repo/cobc/field.c:399-432 and 461-470 (complex-odo: no) for the table at the end of the path `p`: no group above it has OCCURS, behind it and behind
the groups above it there are only redefinitions, and neither it nor a group above it is one. -/
def odoOk : Dd → List Nat → Bool
  | _, [] => true
  | .elem _ _ _ _, _ :: _ => false
  | .group occurs _ _ cs, k :: ks =>
    decide (occurs = 1) && (cs.drop (k + 1)).all (·.redef) &&
      (match cs[k]? with
       | some c => !c.redef && odoOk c ks
       | none => false)

/-- /repo/cobc/codegen.c:525-533 of `output_size`: the size of the group `f` up to the element `n` of the table `t`; `n` is the value of the counter. -/
def sizeTo (f t : Lay) (n : Int) : Int := ((t.offset : Int) - f.offset) + t.size * n

/-- /repo/cobc/codegen.c:518-545 of `output_size` for a group with a table that ends it: the size of the group as a sending item or where the counter is
not in the group; otherwise the largest size. -/
def groupSize (sending counterInside : Bool) (f t : Lay) (n : Int) : Int :=
  if sending || !counterInside then sizeTo f t n else f.size

/-- An elementary item of a group, for complex-odo: size, (largest) number of occurrences, the value of the counter if it has OCCURS DEPENDING. -/
structure Col where
  size : Nat
  occurs : Nat := 1
  odo : Option Nat := none
  redef : Bool := false
deriving DecidableEq, Repr

/-- /repo/cobc/codegen.c:536-545: the sum from the item `q` on that stands behind a variable table: an item that is not variable counts with
`q->size`, and a redefinition ends it. -/
def sumFrom : List Col → Nat
  | [] => 0
  | q :: rest =>
    (match q.odo with
     | some n => q.size * n
     | none => q.size) +
    (match rest with
     | [] => 0
     | r :: _ => if r.redef then 0 else sumFrom rest)

/-- /repo/cobc/codegen.c:518-545: the size of a group of elementary items as a sending item (the first variable table and what is behind it). -/
def flatSize (off : Nat) : List Col → Nat
  | [] => off
  | q :: rest => match q.odo with
    | some _ => off + sumFrom (q :: rest)
    | none => flatSize (off + q.size * q.occurs) rest

/-- /repo/cobc/codegen.c:409-422 of `output_base`: the address of the item `i` of such a group.  `cb_field_variable_size` (/repo/cobc/tree.c:1752-1765)
looks at subordinate items only, so an elementary table in front counts with all its occurrences. -/
def flatAddr (cs : List Col) (i : Nat) : Nat := ((cs.take i).map fun q => q.size * q.occurs).sum

end Cob.Odo
