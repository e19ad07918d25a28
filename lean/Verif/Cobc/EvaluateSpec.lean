import Verif.Cobc.Evaluate
import Verif.Cobc.ExprSpec
/-
EVALUATE as the COBOL standard writes it, and what it selects.  Nothing here refers to the compiler's trees, except for
the last section: what the generated statement does.
-/
namespace Cob

variable {L : Type}

/-- A selection subject. -/
inductive EvSubj (L : Type) where
  | tru
  | fls
  | val (a : AExp L)
  | cond (c : CExp L)

/-- A selection object: ANY, TRUE, FALSE, `[NOT] b`, `[NOT] b THRU c`, a condition. -/
inductive EvObj (L : Type) where
  | any
  | tru
  | fls
  | val (neg : Bool) (b : AExp L)
  | range (neg : Bool) (b c : AExp L)
  | cond (c : CExp L)

/-- A case: its WHENs, each a list of objects, and its statements. -/
structure EvCase (L : Type) where
  whens : List (List (EvObj L))
  body : Option Nat

def EvSubj.written : EvSubj L → SIn L
  | .tru => .tru
  | .fls => .fls
  | .val a => .ex a.toks
  | .cond c => .ex c.toks

def EvObj.written : EvObj L → OIn L
  | .any => .any
  | .tru => .tru
  | .fls => .fls
  | .val neg b => .ex (notToks neg ++ b.toks) none
  | .range neg b c => .ex (notToks neg ++ b.toks) (some c.toks)
  | .cond c => .ex c.toks none

def EvCase.written (c : EvCase L) : List (List (OIn L)) × Option Nat := (c.whens.map (·.map EvObj.written), c.body)

/-! ### What may be written -/

def CExp.Good (c : CExp L) : Prop := c.WF ∧ (c.known false).isSome = true

def EvSubj.WF : EvSubj L → Prop
  | .val a => a.WF
  | .cond c => c.Good
  | _ => True

/-- The object can stand for the subject: a value for a value, a truth value for a condition, a condition for a truth
value. -/
def EvObj.For : EvObj L → EvSubj L → Prop
  | .any, _ => True
  | .tru, .val _ => False
  | .tru, _ => True
  | .fls, .val _ => False
  | .fls, _ => True
  | .val _ b, .val _ => b.WF
  | .range _ b c, .val _ => b.WF ∧ c.WF
  | .cond c, .tru => c.Good
  | .cond c, .fls => c.Good
  | _, _ => False

/-- The text begins with NOT. -/
def CExp.startsNot : CExp L → Bool
  | .not _ => true
  | .relop neg _ _ => neg
  | .and a _ => a.startsNot
  | .or a _ => a.startsNot
  | _ => false

/-- A condition that does not begin with NOT, or is `NOT condition` as a whole (not `NOT a AND b`). -/
def EvObj.PlainNot : EvObj L → Prop
  | .cond c => c.startsNot = true → ∃ d, c = .not d
  | _ => True

/-- A case: at least one WHEN; every WHEN has an object for every subject. -/
def EvCase.WF (subs : List (EvSubj L)) (c : EvCase L) : Prop :=
  c.whens ≠ [] ∧ ∀ w ∈ c.whens, w.length = subs.length ∧
    ∀ (i : Nat) s o, subs[i]? = some s → w[i]? = some o → o.For s

/-- In the second and later WHENs in front of the same statements, a condition that begins with NOT is `NOT condition` as a
whole. -/
def EvCase.NotsPlain (c : EvCase L) : Prop := ∀ w ∈ c.whens.drop 1, ∀ o ∈ w, o.PlainNot

/-! ### What is selected -/

def CExp.True (m : Meaning L) (c : CExp L) : Prop := ∃ last, c.truth m none = some (true, last)

/-- The subject and the object match. -/
def Matches (m : Meaning L) : EvSubj L → EvObj L → Prop
  | _, .any => _root_.True
  | .tru, .tru => _root_.True
  | .fls, .fls => _root_.True
  | .cond c, .tru => c.True m
  | .cond c, .fls => ¬ c.True m
  | .tru, .cond c => c.True m
  | .fls, .cond c => ¬ c.True m
  | .val a, .val neg b => m.cmp (a.value m) (b.value m) = 0 ↔ neg = false
  | .val a, .range neg b c => (m.cmp (b.value m) (a.value m) ≤ 0 ∧ m.cmp (a.value m) (c.value m) ≤ 0) ↔ neg = false
  | _, _ => _root_.False

/-- One of the WHENs of the case matches: all its objects match the subjects in the same positions. -/
def EvCase.Selected (m : Meaning L) (subs : List (EvSubj L)) (c : EvCase L) : Prop :=
  ∃ w ∈ c.whens, ∀ (i : Nat) s o, subs[i]? = some s → w[i]? = some o → Matches m s o

/-- What is executed: the statements of the first case that is selected; those of WHEN OTHER, if none is and there is one;
otherwise nothing. -/
inductive Chosen (m : Meaning L) (subs : List (EvSubj L)) (cases : List (EvCase L)) (other : Option (Option Nat)) :
    Option Nat → Prop
  | case (k : Nat) (c : EvCase L) (hc : cases[k]? = some c) (hs : c.Selected m subs)
      (hfirst : ∀ i d, i < k → cases[i]? = some d → ¬ d.Selected m subs) : Chosen m subs cases other c.body
  | other (h : ∀ c ∈ cases, ¬ c.Selected m subs) : Chosen m subs cases other (other.getD none)

/-- The extension of empty statement lists: a last case without statements in front of WHEN OTHER has those of WHEN OTHER. -/
def lastFilled (other : Option (Option Nat)) : List (EvCase L) → List (EvCase L)
  | [] => []
  | [c] => [{ c with body := if c.body = none then other.getD none else c.body }]
  | c :: d :: cs => c :: lastFilled other (d :: cs)

/-! ### The generated statement -/

/-- cobc/codegen.c:1406-1510 `output_cond`. -/
def VTree.truth (m : Meaning L) : VTree L → Option Bool
  | .tru => some true
  | .fls => some false
  | .ex t => t.truth m
  | .not a => (a.truth m).map fun b => !b
  | .and a b => (a.truth m).bind fun x => (b.truth m).map fun y => x && y
  | .or a b => (a.truth m).bind fun x => (b.truth m).map fun y => x || y

/-- cobc/codegen.c `output_stmt`, CB_TAG_IF: which statements are executed. -/
def VStmt.run (m : Meaning L) : VStmt L → Option (Option Nat)
  | .nothing => some none
  | .body k => some k
  | .ite c th el => (c.truth m).bind fun b => if b then some th else el.run m

end Cob
