import Verif.Cobc.Move
import Verif.Cmp.Compare
/-
Model of the code cobc generates for a relation between two operands that are not expressions
(cobc/typeck.c `cb_build_cond`), for condition-names (level 88) and for SET condition-name TO TRUE.
NATIONAL items, index names and pointers are not modelled.
-/
namespace Cob

/-- An operand of a relation.
* `numItem`: a numeric item; `numLit`: a numeric literal; `zero`: the constant ZERO
* `text`: an item of category ALPHABETIC or ALPHANUMERIC, or a group; `size` is its size as far as the
  compiler knows it (`cb_field_size`, cobc/tree.c; nothing when a reference modification has a variable
  length), `odo` whether its size depends on an OCCURS DEPENDING ON (`cb_field_variable_size`).  Items of
  other categories that compare as text (edited items) are covered with `size` unknown, for which the code is
  the same.
* `lit`: a text literal; `all`: ALL literal; `fig`: SPACE, LOW-VALUE, HIGH-VALUE, QUOTE, as the character. -/
inductive COpnd where
  | numItem (it : Item)
  | numLit (l : NumLit)
  | zero
  | text (group : Bool) (size : Option Nat) (odo : Bool) (bytes : List Nat)
  | lit (bytes : List Nat)
  | all (bytes : List Nat)
  | fig (c : Nat)
deriving DecidableEq, Repr

/-- What the compiler knows of the program: `alphabets`: an ALPHABET is declared; `subscripts`: the check of
subscripts at run time is on (`CB_EXCEPTION_ENABLE (COB_EC_BOUND_SUBSCRIPT)`).  `col` is the collating sequence of
the module, `ebc` its sign convention. -/
structure CondEnv where
  ebc : Bool := false
  alphabets : Bool := false
  subscripts : Bool := false
  col : Option (Nat → Nat) := none

/-- The operand as `cob_cmp` sees it. -/
def COpnd.opnd : COpnd → Opnd
  | .numItem it => .num it
  | .numLit l => .num l.item
  | .zero => .zero
  | .text true _ _ b => .group b
  | .text false _ _ b => .text b
  | .lit b => .text b
  | .all b => .all b
  | .fig c => .all [c]

/-- `CB_TREE_CLASS (x) == CB_CLASS_NUMERIC`. -/
def COpnd.isNumeric : COpnd → Bool
  | .numItem _ => true
  | .numLit _ => true
  | .zero => true
  | _ => false

/-- `x == cb_zero`. -/
def COpnd.isZero : COpnd → Bool
  | .zero => true
  | _ => false

/-- The operand of a numeric comparison (a literal that `cb_fits_int` accepts is an integer). -/
def COpnd.operand : COpnd → Option Operand
  | .numItem it => some (.item it)
  | .numLit l => if l.fitsInt then some (.lit l.getInt) else none
  | _ => none

/-- cobc/tree.c:629-674 `cb_fits_int`. -/
def COpnd.fits : COpnd → Bool
  | .numItem it => Cob.fitsInt (.item it)
  | .numLit l => l.fitsInt
  | _ => false

/-- cobc/typeck.c:2669-2692 `cb_chk_alpha_cond` and the size of the operand (`cb_field_size`). -/
def COpnd.alphaSize (alphabets : Bool) : COpnd → Option Nat
  | .text _ (some n) false _ => if alphabets then none else some n
  | .numLit l => if alphabets then none else some l.data.length
  | .lit b => if alphabets then none else some b.length
  | .all b => if alphabets then none else some b.length
  | _ => none

/-- The bytes at the address of the operand (cobc/codegen.c:420-476 `output_data`). -/
def COpnd.storage : COpnd → List Nat
  | .numItem it => it.field.data
  | .numLit l => l.item.field.data
  | .zero => [48]
  | .text _ _ _ b => b
  | .lit b => b
  | .all b => b
  | .fig c => [c]

/-- The item `cob_cmp_int` reads for an operand on the left that is a literal or ZERO (`cob_zero` is an
alphanumeric constant of one character; libcob/numeric.c `cob_decimal_set_field` reads it as a zoned item). -/
def COpnd.leftItem : COpnd → Option Item
  | .numItem it => some it
  | .numLit l => some l.item
  | .zero => some ⟨.display, ⟨{ digits := 1 }, [48]⟩⟩
  | _ => none

/-- cobc/typeck.c:2529-2623 `cb_build_optim_cond`, for any left operand of class numeric: the special routines
are for items. -/
def optimCondAny (ebc : Bool) (c : CmpCache) (x : COpnd) (y : Operand) : Option Int × CmpCache :=
  match x with
  | .numItem it => ((optimCond ebc c it y).1.map ordInt, (optimCond ebc c it y).2)
  | x =>
    match x.leftItem with
    | some it =>
      if isUnsignedBinary y then ((cmpInt ebc it (operandInt ebc y % 4294967296)).map ordInt, c)
      else ((cmpInt ebc it (toCInt (operandInt ebc y))).map ordInt, c)
    | none => (none, c)

/-- cobc/typeck.c:2625-2667 `cb_chk_num_cond`. -/
def COpnd.numCond : COpnd → COpnd → Bool
  | .numItem x, .numItem y => chkNumCond x (.item y)
  | _, _ => false

/-- cobc/typeck.c:2805-2813: an item of one character and SPACE, LOW-VALUE, HIGH-VALUE or ZERO: the character
it is compared with. -/
def COpnd.oneChar (alphabets : Bool) : COpnd → COpnd → Option Nat
  | .text _ (some 1) _ _, .fig c => if !alphabets && (c == 32 || c == 0 || c == 255) then some c else none
  | .text _ (some 1) _ _, .zero => if alphabets then none else some 48
  | _, _ => none

/-- cobc/typeck.c:2782-2838: the comparison selected by `cb_build_cond`; its result is tested against 0 with the
relational operator.  `$G` (cobc/codegen.c:1345-1364) is the difference of two bytes; of memcmp the sign. -/
def condRun (env : CondEnv) (c : CmpCache) (x y : COpnd) : Option Int × CmpCache :=
  if env.subscripts then (cobCmp env.ebc env.col x.opnd y.opnd, c)
  else if x.numCond y then (some (ordInt (byteCmp x.storage y.storage)), c)
  else if x.isNumeric && y.isNumeric && y.fits then
    match y.operand with
    | some o => optimCondAny env.ebc c x o
    | none => (none, c)
  else
    match x.oneChar env.alphabets y with
    | some ch => (some ((x.storage.getD 0 0 : Int) - ch), c)
    | none =>
      match x.alphaSize env.alphabets, y.alphaSize env.alphabets with
      | some 1, some 1 => (some ((x.storage.getD 0 0 : Int) - y.storage.getD 0 0), c)
      | some n, some m =>
        if n ≠ 0 ∧ n = m then (some (ordInt (byteCmp (x.storage.take n) (y.storage.take n))), c)
        else (cobCmp env.ebc env.col x.opnd y.opnd, c)
      | _, _ =>
        if x.isNumeric && y.isZero then optimCondAny env.ebc c x (.lit 0)
        else (cobCmp env.ebc env.col x.opnd y.opnd, c)

/-- A value of a condition-name. -/
inductive Val88 where
  | one (v : COpnd)
  | thru (lo hi : COpnd)
deriving DecidableEq, Repr

/-- One value: cobc/typeck.c:2513-2521: `x = v`, or `lo <= x && x <= hi`. -/
def val88 (env : CondEnv) (c : CmpCache) (x : COpnd) : Val88 → Option Bool × CmpCache
  | .one v => let r := condRun env c x v; (r.1.map (· == 0), r.2)
  | .thru lo hi =>
    let r := condRun env c lo x
    match r.1 with
    | none => (none, r.2)
    | some z =>
      if z ≤ 0 then
        let s := condRun env r.2 x hi
        (s.1.map (fun w => decide (w ≤ 0)), s.2)
      else (some false, r.2)

/-- cobc/typeck.c:2494-2527 `build_cond_88`: the values joined by `||`. -/
def cond88 (env : CondEnv) (c : CmpCache) (x : COpnd) : List Val88 → Option Bool × CmpCache
  | [] => (some false, c)
  | v :: vs =>
    let r := val88 env c x v
    match r.1 with
    | none => (none, r.2)
    | some true => (some true, r.2)
    | some false => cond88 env r.2 x vs

/-- cobc/typeck.c:6675-6705 `cb_emit_set_true`: the value moved to the item. -/
def set88 : List Val88 → Option COpnd
  | [] => none
  | .one v :: _ => some v
  | .thru lo _ :: _ => some lo

/-- The MOVE of the value to a numeric item (cobc/typeck.c:5987-6062 `cb_build_move`). -/
def set88Num (ebc cut : Bool) (vals : List Val88) (it : Item) : MoveRes :=
  match set88 vals with
  | some (.numLit l) => moveLit ebc cut l it
  | some .zero => moveNumZero ebc cut it
  | _ => .outside

/-- The sender of the MOVE to a text item. -/
def COpnd.sender : COpnd → Option TextSender
  | .numLit l => some (.num l)
  | .zero => some (.figurative 48)
  | .lit b => some (.text b)
  | .all b => some (.all b)
  | .fig c => some (.figurative c)
  | _ => none

/-- The MOVE of the value to a text item. -/
def set88Text (ebc : Bool) (vals : List Val88) (r : TextRecv) : Option (List Nat) :=
  ((set88 vals).bind COpnd.sender).map fun s => moveText ebc s r

end Cob
