/-
Model of the compiler's parser for expressions and conditions (cobc/typeck.c:1738-2211
`cb_build_expr`): an operator-precedence parser with a stack of tokens and values, and two registers
for abbreviated relation conditions.

`L` is the type of operands (data items and literals).  Not modelled: items used as class names
(CLASS ... IS in SPECIAL-NAMES) as separate tokens - they act as the class tests do; warnings; the
check for constant divisors; operands with errors of their own.
-/
namespace Cob

/-- Arithmetic operators. -/
inductive AOp where
  | add | sub | mul | div | pow
  deriving DecidableEq

/-- Relational operators: `=`, `~` (not equal), `<`, `>`, `[` (not greater), `]` (not less). -/
inductive ROp where
  | eq | ne | lt | gt | le | ge
  deriving DecidableEq

/-- The tokens on the stack.  `bottom` is the token 0 of the three unused entries below the stack. -/
inductive ETok where
  | x | ar (o : AOp) | rel (o : ROp) | not | and | or | lpar | rpar | bottom
  deriving DecidableEq

/-- The trees the parser builds.  `zero` is the figurative constant ZERO, `cond` a condition-name
(level 88), `cls` a class test (a function call), `paren` an expression in parentheses, `err` the
error node. -/
inductive ETree (L : Type) where
  | leaf (num : Bool) (v : L)
  | zero
  | cond (c : Nat)
  | cls (n : Nat) (a : ETree L)
  | bin (o : AOp) (a b : ETree L)
  | rel (o : ROp) (a b : ETree L)
  | not (a : ETree L)
  | and (a b : ETree L)
  | or (a b : ETree L)
  | paren (a : ETree L)
  | err
  deriving DecidableEq

variable {L : Type}

/-- cobc/tree.c:493-569 `cb_tree_category`: is it of class boolean? -/
def ETree.isBool : ETree L → Bool
  | .cond _ => true
  | .cls _ _ => true
  | .rel _ _ _ => true
  | .not _ => true
  | .and _ _ => true
  | .or _ _ => true
  | .paren a => a.isBool
  | _ => false

/-- cobc/typeck.c:444-457 `cb_check_numeric_value`: is it numeric? -/
def ETree.isNum : ETree L → Bool
  | .leaf num _ => num
  | .zero => true
  | .bin _ _ _ => true
  | .paren a => a.isNum
  | _ => false

/-- The state of the parser: the stack (`expr_stack`, the top first), `expr_lh`, `expr_op`, and
whether an error was reported. -/
structure ESt (L : Type) where
  stack : List (ETok × ETree L)
  lh : Option (ETree L)
  op : ROp
  failed : Bool
  deriving DecidableEq

/-- The input: a token with its value, a class test, a sign test. -/
inductive EIn (L : Type) where
  | tok (t : ETok)
  | val (v : ETree L)
  | cls (n : Nat)
  | sign (o : ROp)

namespace ESt

/-- `TOKEN (-1 - i)` and `VALUE (-1 - i)`. -/
def at_ (s : ESt L) (i : Nat) : ETok × ETree L := s.stack.getD i (.bottom, .err)

def tok (s : ESt L) (i : Nat) : ETok := (s.at_ i).1
def val (s : ESt L) (i : Nat) : ETree L := (s.at_ i).2

/-- `n` entries are taken off, one is put on. -/
def repl (s : ESt L) (n : Nat) (t : ETok) (v : ETree L) : ESt L :=
  { s with stack := (t, v) :: s.stack.drop n }

end ESt

/-- cobc/tree.c:2237-2261 `cb_build_binary_op` with an arithmetic operator.  The result and whether
an error is reported. -/
def mkArith (a : ETree L) (o : AOp) (b : ETree L) : ETree L × Bool :=
  if a.isNum && b.isNum then (.bin o a b, false) else (.err, true)

/-- cobc/tree.c:2273-2283, with `!`. -/
def mkNot (a : ETree L) : ETree L × Bool := if a.isBool then (.not a, false) else (.err, true)

/-- cobc/tree.c:2273-2283, with `&` and `|`. -/
def mkAnd (a b : ETree L) : ETree L × Bool :=
  if a.isBool && b.isBool then (.and a b, false) else (.err, true)

def mkOr (a b : ETree L) : ETree L × Bool :=
  if a.isBool && b.isBool then (.or a b, false) else (.err, true)

/-- cobc/typeck.c:1744-1762: the priorities. -/
def prio : ETok → Nat
  | .x => 0
  | .ar .pow => 1
  | .ar .mul => 2
  | .ar .div => 2
  | .ar .add => 3
  | .ar .sub => 3
  | .rel _ => 4
  | .not => 5
  | .and => 6
  | .or => 7
  | .rpar => 8
  | .lpar => 9
  | .bottom => 10

/-- An object without subject and operator: cobc/typeck.c:1814-1838. -/
def complete (lh : Option (ETree L)) (op : ROp) (v : ETree L) : ETree L :=
  match lh with
  | some a => if v.isBool then v else .rel op a v
  | none => v

/-- What one turn of the loop does: the loop ends, the function returns, the stack is reduced. -/
inductive RStep (L : Type) where
  | done
  | quit (s : ESt L)
  | next (s : ESt L)

/-- cobc/typeck.c:1787-1911: one turn of the loop of `expr_reduce`. -/
def redStep (t : ETok) (s : ESt L) : RStep L :=
  if prio (s.tok 1) ≤ prio t then
    match s.tok 1 with
    | .x => .quit s
    | .ar o =>
      if s.tok 0 ≠ .x ∨ s.tok 2 ≠ .x then .quit s
      else
        let r := mkArith (s.val 2) o (s.val 0)
        .next { s.repl 3 .x r.1 with failed := s.failed || r.2 }
    | .not =>
      if s.tok 0 ≠ .x then .quit s
      else
        let r := mkNot (complete s.lh s.op (s.val 0))
        .next { s.repl 2 .x r.1 with failed := s.failed || r.2 }
    | .and =>
      if s.tok 0 ≠ .x ∨ s.tok 2 ≠ .x then .quit s
      else
        let r := mkAnd (complete s.lh s.op (s.val 2)) (complete s.lh s.op (s.val 0))
        .next { s.repl 3 .x r.1 with failed := s.failed || r.2 }
    | .or =>
      if s.tok 0 ≠ .x ∨ s.tok 2 ≠ .x then .quit s
      else
        let r := mkOr (complete s.lh s.op (s.val 2)) (complete s.lh s.op (s.val 0))
        .next { s.repl 3 .x r.1 with failed := s.failed || r.2 }
    | .lpar => .quit s
    | .rpar => .quit s
    | .bottom => .quit s
    | .rel o =>
      if s.tok 0 ≠ .x then .quit s
      else
        match s.tok 2 with
        | .x =>
          match s.val 2, s.val 0 with
          | .err, _ => .next (s.repl 3 .x .err)
          | _, .err => .next (s.repl 3 .x .err)
          | .cond c, _ => .quit { s with lh := some (.cond c), failed := true }
          | l, .cond _ => .quit { s with lh := some l, failed := true }
          | l, r =>
            .next { s.repl 3 .x (if r.isBool then r else .rel o l r) with
              lh := some l
              op := o }
        | .and | .or =>
          match s.val 0 with
          | .err => .next (s.repl 2 .x .err)
          | r =>
            match s.lh with
            | none => .quit { s with failed := true }
            | some l =>
              .next { s.repl 2 .x (if r.isBool then r else .rel o l r) with
                op := o }
        | _ => .quit s
  else .done

/-- The loop.  Every turn takes something off the stack, so that its height bounds their number. -/
def redLoop : Nat → ETok → ESt L → ESt L × Bool
  | 0, _, s => (s, false)
  | n + 1, t, s =>
    match redStep t s with
    | .done => (s, true)
    | .quit s' => (s', false)
    | .next s' => redLoop n t s'

/-- cobc/typeck.c:1777-1921 `expr_reduce`; behind the loop the case `op OR x AND`. -/
def exprReduce (t : ETok) (s : ESt L) : ESt L :=
  match redLoop (s.stack.length + 1) t s with
  | (s', true) =>
    if t = .and ∧ s'.tok 1 = .or ∧ (s'.val 0).isBool = false then
      match s'.lh with
      | some l => s'.repl 1 .x (.rel s'.op l (s'.val 0))
      | none => { s' with failed := true }
    else s'
  | (s', false) => s'

/-- `expr_index--`. -/
def ESt.pop (s : ESt L) : ESt L := { s with stack := s.stack.drop 1 }

/-- `TOKEN (0) = token; VALUE (0) = value; expr_index++`. -/
def ESt.push (s : ESt L) (t : ETok) (v : ETree L) : ESt L := { s with stack := (t, v) :: s.stack }

/-- cobc/typeck.c:1924-1940 `cb_expr_shift_sign` and 1942-1958 `cb_expr_shift_class`: `f` makes the
condition of the operand. -/
def shiftTest (f : ETree L → ETree L) (s : ESt L) : ESt L :=
  let haveNot := s.tok 0 = .not
  let s := if s.tok 0 = .not then s.pop else s
  let s := exprReduce (.rel .eq) s
  if s.tok 0 = .x then
    let v := f (s.val 0)
    if haveNot then
      let r := mkNot v
      { s.repl 1 .x r.1 with failed := s.failed || r.2 }
    else s.repl 1 .x v
  else s

/-- cobc/typeck.c:1964-1987, 2055-2068: `cb_expr_shift` with an operand. -/
def shiftVal (v : ETree L) (s : ESt L) : ESt L :=
  if (match v with | .zero => true | _ => false) = true ∧ (s.tok 0 = .x ∨ s.tok 0 = .not) then
    shiftTest (fun a => .rel .eq a .zero) s
  else if (s.tok 0 = .ar .add ∨ s.tok 0 = .ar .sub) ∧ s.tok 1 ≠ .x then
    let r := if s.tok 0 = .ar .sub then mkArith .zero .sub v else (v, false)
    (exprReduce .x { s.pop with failed := s.failed || r.2 }).push .x r.1
  else (exprReduce .x s).push .x v

/-- cobc/typeck.c:2018-2022: `'<' '|' '='` is `'['`, `'>' '|' '='` is `']'`. -/
def joinOr (t : ETok) (s : ESt L) : ETok × ESt L :=
  if t = .rel .eq ∧ s.tok 0 = .or ∧ (s.tok 1 = .rel .lt ∨ s.tok 1 = .rel .gt) then
    (if s.tok 1 = .rel .lt then .rel .le else .rel .ge, s.pop.pop)
  else (t, s)

/-- The opposite relation. -/
def ROp.opp : ROp → ROp
  | .eq => .ne
  | .ne => .eq
  | .lt => .ge
  | .gt => .le
  | .le => .gt
  | .ge => .lt

/-- cobc/typeck.c:2024-2052: `'!' '='` is `'~'` and so on. -/
def joinNot (t : ETok) (s : ESt L) : ETok × ESt L :=
  if s.tok 0 = .not then
    match t with
    | .rel o => (.rel o.opp, s.pop)
    | t => (t, s)
  else (t, s)

/-- cobc/typeck.c:1989-2003: in front of `(` the operator and its subject are kept. -/
def keepRel (s : ESt L) : ESt L :=
  match s.tok 0 with
  | .rel o => { s with op := o, lh := if s.tok 1 = .x then some (s.val 1) else s.lh }
  | _ => s

/-- cobc/typeck.c:1960-2069 `cb_expr_shift`. -/
def exprShift (t : ETok) (s : ESt L) : ESt L :=
  match t with
  | .lpar => (exprReduce .lpar (keepRel s)).push .lpar .err
  | .rpar =>
    let s := exprReduce .rpar s
    if s.tok 1 = .lpar then shiftVal (.paren (s.val 0)) s.pop.pop
    else (exprReduce .rpar s).push .rpar .err
  | t =>
    let (t, s) := joinOr t s
    let (t, s) := joinNot t s
    (exprReduce t s).push t .err

/-- cobc/typeck.c:2159-2208: one element of the list. -/
def exprStep (s : ESt L) : EIn L → ESt L
  | .tok t => exprShift t s
  | .val v => shiftVal v s
  | .cls n => shiftTest (.cls n) s
  | .sign o => shiftTest (fun a => .rel o a .zero) s

/-- cobc/typeck.c:2071-2089 `expr_expand`: parentheses are removed - but not those in the argument
of a class test, which is a function call. -/
def ETree.expand : ETree L → ETree L
  | .paren a => a.expand
  | .bin o a b => .bin o a.expand b.expand
  | .rel o a b => .rel o a.expand b.expand
  | .not a => .not a.expand
  | .and a b => .and a.expand b.expand
  | .or a b => .or a.expand b.expand
  | t => t

/-- cobc/typeck.c:2091-2113 `cb_expr_finish` and cobc/typeck.c:2148-2211 `cb_build_expr`: nothing
when an error is reported. -/
def buildExpr (l : List (EIn L)) : Option (ETree L) :=
  let s := exprReduce .bottom (l.foldl exprStep ⟨[], none, .eq, false⟩)
  match s.stack with
  | [(.x, v)] => if s.failed then none else some v.expand
  | _ => none

end Cob
