import Verif.Cobc.Expr
/-
Model of the EVALUATE statement in the compiler (cobc/parser.y:4755-4945, cobc/typeck.c:3943-4087): a chain of IFs.

Not modelled: subjects and objects with errors of their own (`check_error_node`); omitted ALSO (an extension of the
grammar); the order of evaluation (conditions have no side effects).  `none` is a reported error.
-/
namespace Cob

variable {L : Type}

/-- The conditions EVALUATE builds: the constants cb_true and cb_false, an expression, `!`, `&`, `|`. -/
inductive VTree (L : Type) where
  | tru
  | fls
  | ex (t : ETree L)
  | not (a : VTree L)
  | and (a b : VTree L)
  | or (a b : VTree L)
  deriving DecidableEq

/-- cobc/tree.c:493-569: of class boolean. -/
def VTree.isBool : VTree L → Bool
  | .ex t => t.isBool
  | _ => true

/-- cobc/tree.c:2273-2283 `cb_build_binary_op` with `!`. -/
def vNot (a : VTree L) : Option (VTree L) := if a.isBool then some (.not a) else none

/-- cobc/tree.c:2273-2283 `cb_build_binary_op` with `&`. -/
def vAnd (a b : VTree L) : Option (VTree L) := if a.isBool && b.isBool then some (.and a b) else none

/-- cobc/tree.c:2273-2283 `cb_build_binary_op` with `|`. -/
def vOr (a b : VTree L) : Option (VTree L) := if a.isBool && b.isBool then some (.or a b) else none

/-- An object of a WHEN (cobc/parser.y:4898-4935): ANY, TRUE, FALSE, or `[NOT] x [THRU y]`. -/
inductive VObj (L : Type) where
  | any
  | tru
  | fls
  | pair (neg : Bool) (x : ETree L) (y : Option (ETree L))

/-- cobc/typeck.c:3946-4001 `evaluate_test`: the subject (TRUE, FALSE or an expression) against an object. -/
def evaluateTest (s : VTree L) : VObj L → Option (VTree L)
  | .any => some .tru
  | .tru => some s
  | .fls => vNot s
  | .pair neg x y =>
    match s with
    | .tru => if neg then vNot (.ex x) else some (.ex x)
    | .fls => if neg then some (.ex x) else vNot (.ex x)
    | .ex t =>
      match y with
      | some y =>
        (vAnd (.ex (.rel .le x t)) (.ex (.rel .le t y))).bind fun c => if neg then vNot c else some c
      | none =>
        match x with
        | .cond _ => none
        | x => some (.ex (.rel (if neg then .ne else .eq) t x))
    | _ => none

/-- cobc/typeck.c:4045-4066: one WHEN: the tests connected by `&`; the numbers of subjects and objects must agree. -/
def whenLoop : Option (VTree L) → List (VTree L) → List (VObj L) → Option (Option (VTree L))
  | c2, [], [] => some c2
  | c2, s :: ss, o :: os =>
    (evaluateTest s o).bind fun c3 =>
      match c2 with
      | none => whenLoop (some c3) ss os
      | some c => (vAnd c c3).bind fun d => whenLoop (some d) ss os
  | _, _, _ => none

/-- cobc/typeck.c:4041-4078: the WHENs in front of the same statements, connected by `|`. -/
def whensLoop (subs : List (VTree L)) : Option (VTree L) → List (List (VObj L)) → Option (Option (VTree L))
  | c1, [] => some c1
  | c1, w :: ws =>
    (whenLoop none subs w).bind fun c2 =>
      match c2, c1 with
      | none, _ => none
      | some c, none => whensLoop subs (some c) ws
      | some c, some d => (vOr d c).bind fun e => whensLoop subs (some e) ws

/-- The statement generated.  Statement lists are numbers; `none` is an empty list. -/
inductive VStmt (L : Type) where
  | nothing
  | body (k : Option Nat)
  | ite (c : VTree L) (th : Option Nat) (el : VStmt L)
  deriving DecidableEq

/-- cobc/typeck.c:4023-4087 `build_evaluate`.  A case without WHENs is WHEN OTHER.  `cb_build_cond` rejects what is not a
condition (cobc/typeck.c:2711-2780). -/
def buildEvaluate (subs : List (VTree L)) : List (List (List (VObj L)) × Option Nat) → Option (VStmt L)
  | [] => some .nothing
  | (ws, st) :: rest =>
    (whensLoop subs none ws).bind fun c1 =>
      match c1 with
      | none => some (.body st)
      | some c => if c.isBool then (buildEvaluate subs rest).map (.ite c st) else none

/-! ### The parser -/

/-- A subject as written (cobc/parser.y:4793-4812): TRUE, FALSE, or the tokens of an expression. -/
inductive SIn (L : Type) where
  | tru
  | fls
  | ex (l : List (EIn L))

/-- An object as written (cobc/parser.y:4898-4938): the tokens of the expression may begin with NOT. -/
inductive OIn (L : Type) where
  | any
  | tru
  | fls
  | ex (l : List (EIn L)) (thru : Option (List (EIn L)))

/-- cobc/parser.y:4793-4812: the subject. -/
def parseSubj : SIn L → Option (VTree L)
  | .tru => some .tru
  | .fls => some .fls
  | .ex l => (buildExpr l).map .ex

/-- cobc/parser.y:4793-4812: what is kept in `eval_check` for a subject (0 for a reference and 1 for another expression
are not told apart). -/
def subjCheck : SIn L → Nat
  | .tru => 2
  | .fls => 3
  | .ex _ => 1

/-- `eval_check[eval_level][i]` (cobc/parser.y:121, 4765-4770): the entries behind the subjects are 0; behind the 64 entries
lie those of the next level, `beyond`. -/
def evalCheck (subs : List (SIn L)) (beyond : Nat → Nat) (i : Nat) : Nat :=
  if i < 64 then (subs.map subjCheck).getD i 0 else beyond i

/-- The tokens behind a first token NOT. -/
def stripNot : List (EIn L) → Option (List (EIn L))
  | .tok .not :: l => some l
  | _ => none

/-- cobc/parser.y:4898-4935 `evaluate_object`, with the entry of `eval_check`. -/
def parseObj (check : Nat) : OIn L → Option (VObj L)
  | .any => some .any
  | .tru => some .tru
  | .fls => some .fls
  | .ex l thru =>
    let r := match stripNot l with
      | some l' => if check < 2 then (true, l') else (false, l)
      | none => (false, l)
    (buildExpr r.2).bind fun e1 =>
      match thru with
      | none => some (.pair r.1 e1 none)
      | some l2 => (buildExpr l2).map fun e2 => .pair r.1 e1 (some e2)

/-- cobc/parser.y:4884-4896 `evaluate_object_list`: `n` is `eval_inc2`, counted up with every object. -/
def parseObjs (check : Nat → Nat) (n : Nat) : List (OIn L) → Option (List (VObj L))
  | [] => some []
  | o :: os => (parseObj (check n) o).bind fun v => (parseObjs check (n + 1) os).map (v :: ·)

/-- cobc/parser.y:4878-4882 `evaluate_when_list`: `eval_inc2` goes on from one WHEN to the next. -/
def parseWhens (check : Nat → Nat) (n : Nat) : List (List (OIn L)) → Option (List (List (VObj L)))
  | [] => some []
  | w :: ws => (parseObjs check n w).bind fun v => (parseWhens check (n + w.length) ws).map (v :: ·)

/-- cobc/parser.y:4840-4857 `evaluate_case`: `eval_inc2` is set to 0 behind it; an empty statement list is an error unless
it is allowed by the configuration. -/
def parseCases (allowEmpty : Bool) (check : Nat → Nat) :
    List (List (List (OIn L)) × Option Nat) → Option (List (List (List (VObj L)) × Option Nat))
  | [] => some []
  | (ws, st) :: rest =>
    if !allowEmpty && st.isNone then none
    else (parseWhens check 0 ws).bind fun v => (parseCases allowEmpty check rest).map ((v, st) :: ·)

/-- cobc/parser.y:4814-4838 `evaluate_condition_list`: if the last case has no statements and WHEN OTHER follows, it gets the
statements of WHEN OTHER. -/
def fillLast (other : Option Nat) : List (List (List (VObj L)) × Option Nat) → List (List (List (VObj L)) × Option Nat)
  | [] => []
  | [(v, st)] => [(v, if st.isNone then other else st)]
  | c :: cs => c :: fillLast other cs

/-- cobc/parser.y:4861-4876 `evaluate_other` and 4814-4838. -/
def addOther (allowEmpty : Bool) (cs : List (List (List (VObj L)) × Option Nat)) :
    Option (Option Nat) → Option (List (List (List (VObj L)) × Option Nat))
  | none => some cs
  | some other =>
    if !allowEmpty && other.isNone then none
    else some ((if allowEmpty then fillLast other cs else cs) ++ [([], other)])

/-- cobc/parser.y:4755-4778: the statement.  `other`: WHEN OTHER with its statements. -/
def compileEvaluate (allowEmpty : Bool) (beyond : Nat → Nat) (subs : List (SIn L)) (cases : List (List (List (OIn L)) × Option Nat))
    (other : Option (Option Nat)) : Option (VStmt L) :=
  (subs.mapM parseSubj).bind fun ss =>
    (parseCases allowEmpty (evalCheck subs beyond) cases).bind fun cs =>
      (addOther allowEmpty cs other).bind (buildEvaluate ss)

end Cob
