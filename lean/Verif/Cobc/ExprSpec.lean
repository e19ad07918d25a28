import Verif.Cobc.Expr
/-
Expressions and conditions as the COBOL standard writes them: their syntax, the tokens they are
written with, and their meaning.  Nothing here refers to the parser.
-/
namespace Cob

variable {L : Type}

/-- Arithmetic expressions.  `sgn true a` is `- a`, `sgn false a` is `+ a`. -/
inductive AExp (L : Type) where
  | leaf (num : Bool) (v : L)
  | zero
  | sgn (minus : Bool) (a : AExp L)
  | bin (o : AOp) (a b : AExp L)
  | paren (a : AExp L)

/-- Conditions.
* `rel l neg o r`: `l [NOT] o r`
* `relop neg o r`: `[NOT] o r`, the subject is omitted
* `obj r`: `r`, the subject and the operator are omitted
* `cls a neg n`, `sign a neg o`: `a IS [NOT] NUMERIC ...`, `a IS [NOT] POSITIVE / NEGATIVE / ZERO`
  (o is `>`, `<`, `=`)
* `cond c`: a condition-name. -/
inductive CExp (L : Type) where
  | rel (l : AExp L) (neg : Bool) (o : ROp) (r : AExp L)
  | relop (neg : Bool) (o : ROp) (r : AExp L)
  | obj (r : AExp L)
  | cls (a : AExp L) (neg : Bool) (n : Nat)
  | sign (a : AExp L) (neg : Bool) (o : ROp)
  | cond (c : Nat)
  | not (c : CExp L)
  | and (a b : CExp L)
  | or (a b : CExp L)
  | paren (c : CExp L)

/-! ### The tokens -/

def AExp.toks : AExp L → List (EIn L)
  | .leaf num v => [.val (.leaf num v)]
  | .zero => [.val .zero]
  | .sgn minus a => .tok (.ar (if minus then .sub else .add)) :: a.toks
  | .bin o a b => a.toks ++ .tok (.ar o) :: b.toks
  | .paren a => .tok .lpar :: a.toks ++ [.tok .rpar]

/-- An optional NOT. -/
def notToks (neg : Bool) : List (EIn L) := if neg then [.tok .not] else []

/-- A sign test; ZERO is written as an operand. -/
def signTok : ROp → EIn L
  | .eq => .val .zero
  | o => .sign o

def CExp.toks : CExp L → List (EIn L)
  | .rel l neg o r => l.toks ++ notToks neg ++ .tok (.rel o) :: r.toks
  | .relop neg o r => notToks neg ++ .tok (.rel o) :: r.toks
  | .obj r => r.toks
  | .cls a neg n => a.toks ++ notToks neg ++ [.cls n]
  | .sign a neg o => a.toks ++ notToks neg ++ [signTok o]
  | .cond c => [.val (.cond c)]
  | .not c => .tok .not :: c.toks
  | .and a b => a.toks ++ .tok .and :: b.toks
  | .or a b => a.toks ++ .tok .or :: b.toks
  | .paren c => .tok .lpar :: c.toks ++ [.tok .rpar]

/-! ### What may be written without parentheses -/

/-- `**` binds strongest, then `*` and `/`, then `+` and `-`. -/
def AOp.prec : AOp → Nat
  | .pow => 1
  | .mul => 2
  | .div => 2
  | .add => 3
  | .sub => 3

def AExp.prec : AExp L → Nat
  | .bin o _ _ => o.prec
  | _ => 0

/-- Is it a numeric expression (and not an alphanumeric item or literal)? -/
def AExp.isNum : AExp L → Bool
  | .leaf num _ => num
  | .paren a => a.isNum
  | _ => true

/-- Operators of equal strength associate to the left; a sign stands in front of an operand or of
parentheses. -/
def AExp.WF : AExp L → Prop
  | .leaf _ _ => True
  | .zero => True
  | .sgn _ a => a.WF ∧ a.isNum = true ∧ (match a with | .sgn _ _ => False | .bin _ _ _ => False | _ => True)
  | .bin o a b => a.WF ∧ b.WF ∧ a.prec ≤ o.prec ∧ b.prec < o.prec ∧ a.isNum = true ∧ b.isNum = true
  | .paren a => a.WF

/-- Does it begin with the word ZERO? -/
def AExp.startsZero : AExp L → Bool
  | .zero => true
  | .bin _ a _ => a.startsZero
  | _ => false

/-- NOT binds stronger than AND, AND stronger than OR. -/
def CExp.prec : CExp L → Nat
  | .not _ => 5
  | .and _ _ => 6
  | .or _ _ => 7
  | _ => 4

/-- Does it begin with a condition that is not abbreviated? -/
def CExp.full : CExp L → Bool
  | .relop _ _ _ => false
  | .obj _ => false
  | .not c => c.full
  | .and a _ => a.full
  | .or a _ => a.full
  | _ => true

/-- What may follow NOT: a condition in parentheses, a condition-name, a relation, class or sign
condition without a NOT of its own, an object; and none of them begins with ZERO. -/
def CExp.afterNot : CExp L → Bool
  | .rel l neg _ _ => !neg && !l.startsZero
  | .obj r => !r.startsZero
  | .cls _ neg _ => !neg
  | .sign a neg _ => !neg && !a.startsZero
  | .cond _ => true
  | .paren _ => true
  | _ => false

def CExp.WF : CExp L → Prop
  | .rel l _ _ r => l.WF ∧ r.WF
  | .relop _ _ r => r.WF
  | .obj r => r.WF
  | .cls a _ _ => ∃ num v, a = .leaf num v
  | .sign a _ o => a.WF ∧ (o = .eq ∨ o = .lt ∨ o = .gt)
  | .cond _ => True
  | .not c => c.WF ∧ c.afterNot = true
  | .and a b => a.WF ∧ b.WF ∧ a.prec ≤ 6 ∧ b.prec < 6
  | .or a b => a.WF ∧ b.WF ∧ a.prec ≤ 7 ∧ b.prec < 7
  | .paren c => c.WF ∧ c.full = true

/-! ### The meaning -/

/-- What operands, operations and tests are at run time.  `cmp` is negative, zero or positive. -/
structure Meaning (L : Type) where
  V : Type
  leaf : L → V
  zero : V
  ar : AOp → V → V → V
  cmp : V → V → Int
  cls : Nat → V → Bool
  cond : Nat → Bool

/-- Does the relation hold for operands that compare like this? -/
def ROp.holds : ROp → Int → Bool
  | .eq, c => c == 0
  | .ne, c => c != 0
  | .lt, c => decide (c < 0)
  | .gt, c => decide (0 < c)
  | .le, c => decide (c ≤ 0)
  | .ge, c => decide (0 ≤ c)

/-- The value of an arithmetic expression; `- a` is 0 - a. -/
def AExp.value (m : Meaning L) : AExp L → m.V
  | .leaf _ v => m.leaf v
  | .zero => m.zero
  | .sgn minus a => if minus then m.ar .sub m.zero (a.value m) else a.value m
  | .bin o a b => m.ar o (a.value m) (b.value m)
  | .paren a => a.value m

/-- A relation, with or without NOT. -/
def relHolds (m : Meaning L) (neg : Bool) (o : ROp) (l r : m.V) : Bool :=
  xor neg (o.holds (m.cmp l r))

/-- Is the condition true?  `last` is the subject and the operator (with its NOT) of the relation
written last in front of it: they replace those that are omitted.  Nothing when there is none. -/
def CExp.truth (m : Meaning L) : CExp L → Option (m.V × Bool × ROp) → Option (Bool × Option (m.V × Bool × ROp))
  | .rel l neg o r, _ => some (relHolds m neg o (l.value m) (r.value m), some (l.value m, neg, o))
  | .relop neg o r, some (l, _, _) => some (relHolds m neg o l (r.value m), some (l, neg, o))
  | .relop _ _ _, none => none
  | .obj r, some (l, neg, o) => some (relHolds m neg o l (r.value m), some (l, neg, o))
  | .obj _, none => none
  | .cls a neg n, last => some (xor neg (m.cls n (a.value m)), last)
  | .sign a neg o, last => some (xor neg (o.holds (m.cmp (a.value m) m.zero)), last)
  | .cond c, last => some (m.cond c, last)
  | .not c, last => (c.truth m last).map fun p => (!p.1, p.2)
  | .and a b, last => (a.truth m last).bind fun p => (b.truth m p.2).map fun q => (p.1 && q.1, q.2)
  | .or a b, last => (a.truth m last).bind fun p => (b.truth m p.2).map fun q => (p.1 || q.1, q.2)
  | .paren c, last => c.truth m last

/-- Every omitted subject has a relation in front of it (`have_` at the beginning). -/
def CExp.known : CExp L → Bool → Option Bool
  | .rel _ _ _ _, _ => some true
  | .relop _ _ _, h => if h then some true else none
  | .obj _, h => if h then some true else none
  | .cls _ _ _, h => some h
  | .sign _ _ _, h => some h
  | .cond _, h => some h
  | .not c, h => c.known h
  | .and a b, h => (a.known h).bind b.known
  | .or a b, h => (a.known h).bind b.known
  | .paren c, h => c.known h

/-! ### The meaning of the trees the compiler generates code from -/

/-- cobc/typeck.c `decimal_expand`, cobc/codegen.c:1406-1510 `output_cond`: operands. -/
def ETree.value (m : Meaning L) : ETree L → Option m.V
  | .leaf _ v => some (m.leaf v)
  | .zero => some m.zero
  | .bin o a b => (a.value m).bind fun x => (b.value m).map fun y => m.ar o x y
  | _ => none

/-- cobc/codegen.c:1406-1510 `output_cond`: a relation compares and tests the result against 0; `&&`,
`||` and `!` are those of C. -/
def ETree.truth (m : Meaning L) : ETree L → Option Bool
  | .cond c => some (m.cond c)
  | .cls n a => (a.value m).map (m.cls n)
  | .rel o a b => (a.value m).bind fun x => (b.value m).map fun y => o.holds (m.cmp x y)
  | .not a => (a.truth m).map fun b => !b
  | .and a b => (a.truth m).bind fun x => (b.truth m).map fun y => x && y
  | .or a b => (a.truth m).bind fun x => (b.truth m).map fun y => x || y
  | _ => none

end Cob
