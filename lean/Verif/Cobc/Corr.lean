import Verif.Cobc.NamesMore
/-
Model of MOVE, ADD and SUBTRACT CORRESPONDING (/repo/cobc/typeck.c) on the tree
of data items.
-/
namespace Cob

/-- The data items of one operand: the tree of its section and for each item
whether it has a REDEFINES (or RENAMES: /repo/cobc/parser.y:2795, 3160, 3175)
and an OCCURS clause. `name` is the spelling of the word table: the name as
it was first written in the program (`CB_NAME`, /repo/cobc/tree.c:143-170). -/
structure CItems where
  nodes : List DNode
  redefines : Nat → Bool
  occurs : Nat → Bool

/-- `!f->redefines && !f->flag_occurs`. -/
def CItems.plainItem (T : CItems) (i : Nat) : Bool := !T.redefines i && !T.occurs i

/-- `f->children` is not null. -/
def CItems.hasChildren (T : CItems) (i : Nat) : Bool := ((T.nodes[i]?).bind (·.children)).isSome

/-- `f->name`. -/
def CItems.nameOf (T : CItems) (i : Nat) : List Nat := ((T.nodes[i]?).map (·.name)).getD []

/-- `emit_corresponding` (/repo/cobc/typeck.c:3046-3071) and
`emit_move_corresponding` (/repo/cobc/typeck.c:3090-3114), which are the same
but for the statement they emit: the pairs of items for which a statement is
emitted, in order. The number bounds the depth of the recursion. -/
def emitCorr (T1 T2 : CItems) : Nat → Nat → Nat → List (Nat × Nat)
  | 0, _, _ => []
  | fuel + 1, x1, x2 =>
    (kidsWalk T1.nodes x1).flatMap fun f1 =>
      if T1.plainItem f1 then
        (kidsWalk T2.nodes x2).flatMap fun f2 =>
          if T2.plainItem f2 then
            if T1.nameOf f1 = T2.nameOf f2 then
              if T1.hasChildren f1 && T2.hasChildren f2 then emitCorr T1 T2 fuel f1 f2
              else [(f1, f2)]
            else []
          else []
      else []

/-- `cb_check_group_name` (/repo/cobc/typeck.c:385-407) of an item without
reference modification. -/
def isGroupName (T : CItems) (x : Nat) : Bool := T.hasChildren x

/-- `cb_emit_move_corresponding` (/repo/cobc/typeck.c:3116-3132): the pairs of
source and target of the MOVE statements emitted, and whether there was an
error. The statements for the targets before a wrong one have been emitted. -/
def moveCorr (T1 T2 : CItems) (x1 : Nat) (xs : List Nat) : List (Nat × Nat) × Bool :=
  if isGroupName T1 x1 then
    let good := xs.takeWhile (isGroupName T2)
    (good.flatMap (emitCorr T1 T2 T1.nodes.length x1), decide (good.length < xs.length))
  else ([], true)

/-- `cb_emit_corresponding` (/repo/cobc/typeck.c:3073-3088) as ADD and SUBTRACT
call it, with the target first (/repo/cobc/parser.y:4277-4280, 6114-6117):
`cb_build_add (t1, t2, opt)` adds `t2` to `t1`. The pairs here are again of
source and target. -/
def addCorr (T1 T2 : CItems) (source target : Nat) : List (Nat × Nat) × Bool :=
  if isGroupName T2 target && isGroupName T1 source then
    ((emitCorr T2 T1 T2.nodes.length target source).map (fun p => (p.2, p.1)), false)
  else ([], true)

/-! ### What the statements do -/

/-- The bytes of an area. -/
def readArea (m : Nat → Nat) (a : Nat × Nat) : List Nat := (List.range a.2).map (fun k => m (a.1 + k))

/-- Bytes put at an address. -/
def writeArea (m : Nat → Nat) (at_ : Nat) (l : List Nat) : Nat → Nat :=
  fun p => if at_ ≤ p ∧ p < at_ + l.length then l.getD (p - at_) 0 else m p

/-- The statements executed one after the other: `op s t src old` are the
bytes the target `t` gets from the bytes of the source `s` and its own. The
MOVE, ADD and SUBTRACT themselves are modelled elsewhere (C13, C20). -/
def runCorr (op : Nat → Nat → List Nat → List Nat → List Nat) (area1 area2 : Nat → Nat × Nat) :
    List (Nat × Nat) → (Nat → Nat) → (Nat → Nat)
  | [], m => m
  | (s, t) :: r, m =>
    runCorr op area1 area2 r
      (writeArea m (area2 t).1 (op s t (readArea m (area1 s)) (readArea m (area2 t))))

end Cob
