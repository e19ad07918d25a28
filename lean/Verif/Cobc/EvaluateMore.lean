import Verif.Cobc.EvaluateProps
/-
C63: examples and findings.
-/
namespace Cob

/-- Numbers by name. -/
def evEnv (f : String → Int) : Meaning String where
  V := Int
  leaf := f
  zero := 0
  ar := fun _ a _ => a
  cmp := fun a b => a - b
  cls := fun _ _ => false
  cond := fun _ => false

def evLeaf (s : String) : AExp String := .leaf true s

def evEq (a b : String) : CExp String := .rel (evLeaf a) false .eq (evLeaf b)

/-- `EVALUATE A ALSO TRUE WHEN 1 THRU 5 ALSO B = C WHEN NOT 7 ALSO ANY statements 1 WHEN 7 ALSO NOT B = C statements 2
WHEN OTHER statements 3`. -/
def evSubs : List (EvSubj String) := [.val (evLeaf "A"), .tru]

def evCases : List (EvCase String) :=
  [⟨[[.range false (evLeaf "1") (evLeaf "5"), .cond (evEq "B" "C")], [.val true (evLeaf "7"), .any]], some 1⟩,
   ⟨[[.val false (evLeaf "7"), .cond (.not (evEq "B" "C"))]], some 2⟩]

/-- The hypotheses of `C63_evaluate` and `C63_first_match`. -/
example : evSubs ≠ [] ∧ (∀ s ∈ evSubs, s.WF) ∧ (∀ c ∈ evCases, c.NotsPlain) ∧
    (∀ c ∈ evCases, c.whens.length * evSubs.length ≤ 64) ∧ (∀ c ∈ evCases, c.body ≠ none) := by
  simp [evSubs, evCases, EvSubj.WF, AExp.WF, evLeaf, EvCase.NotsPlain, EvObj.PlainNot]

example : ∀ c ∈ evCases, c.WF evSubs := by
  intro c hc
  simp only [evCases, List.mem_cons, List.not_mem_nil, or_false] at hc
  rcases hc with rfl | rfl <;> refine ⟨by simp, fun w hw => ?_⟩ <;>
    simp only [List.mem_cons, List.not_mem_nil, or_false] at hw
  · rcases hw with rfl | rfl <;> refine ⟨rfl, fun i s o hs ho => ?_⟩ <;>
      (match i with
        | 0 =>
          simp only [evSubs, List.getElem?_cons_zero, Option.some.injEq] at hs ho
          subst hs; subst ho
          simp [EvObj.For, AExp.WF, evLeaf, evEq, CExp.Good, CExp.WF, AExp.isNum, CExp.known]
        | 1 =>
          simp only [evSubs, List.getElem?_cons_zero, List.getElem?_cons_succ, Option.some.injEq] at hs ho
          subst hs; subst ho
          simp [EvObj.For, AExp.WF, evLeaf, evEq, CExp.Good, CExp.WF, AExp.isNum, CExp.known]
        | i + 2 => simp [evSubs] at hs)
  · subst hw
    refine ⟨rfl, fun i s o hs ho => ?_⟩
    match i with
    | 0 =>
      simp only [evSubs, List.getElem?_cons_zero, Option.some.injEq] at hs ho
      subst hs; subst ho
      simp [EvObj.For, AExp.WF, evLeaf]
    | 1 =>
      simp only [evSubs, List.getElem?_cons_zero, List.getElem?_cons_succ, Option.some.injEq] at hs ho
      subst hs; subst ho
      simp [EvObj.For, AExp.WF, evLeaf, evEq, CExp.Good, CExp.WF, AExp.isNum, CExp.known, CExp.prec, CExp.afterNot,
        AExp.startsZero]
    | i + 2 => simp [evSubs] at hs

def evVals (a b c : Int) (s : String) : Int :=
  if s = "A" then a else if s = "B" then b else if s = "C" then c else if s = "1" then 1 else if s = "2" then 2
  else if s = "3" then 3 else if s = "5" then 5 else 7

def evRun (subs : List (EvSubj String)) (cases : List (EvCase String)) (other : Option (Option Nat)) (a b c : Int) :
    Option (Option Nat) :=
  (compileEvaluate true (fun _ => 0) (subs.map EvSubj.written) (cases.map EvCase.written) other).bind (VStmt.run (evEnv (evVals a b c)))

example : evRun evSubs evCases (some (some 3)) 4 1 2 = some (some 1) := by decide +kernel
example : evRun evSubs evCases (some (some 3)) 7 1 2 = some (some 2) := by decide +kernel
example : evRun evSubs evCases (some (some 3)) 7 2 2 = some (some 3) := by decide +kernel
example : evRun evSubs evCases none 7 2 2 = some none := by decide +kernel

/-- The hypotheses of `C63_count`: one object for two subjects. -/
example : (evCases.map EvCase.written ++ [([[OIn.any]], some 3)]).any (fun c => c.1.any (fun w => w.length != 2)) = true := by
  decide +kernel

/-! ### Findings -/

/-- `NOT A = 1 AND B = 2`. -/
def evNotAnd : CExp String := .and (.not (evEq "A" "1")) (evEq "B" "2")

/-- With `A = 3, B = 3` the condition `NOT A = 1 AND B = 2` is false (B is not 2).  In the first WHEN in front of statements
it is not selected; in the second WHEN in front of the same statements it is read as `NOT (A = 1 AND B = 2)` and the
statements are executed. -/
theorem C63_finding_second_not :
    ¬ evNotAnd.True (evEnv (evVals 3 3 0)) ∧
    evRun [.tru] [⟨[[.cond evNotAnd]], some 1⟩] none 3 3 0 = some none ∧
    evRun [.tru] [⟨[[.cond (evEq "C" "3")], [.cond evNotAnd]], some 1⟩] none 3 3 0 = some (some 1) := by
  refine ⟨?_, by decide +kernel, by decide +kernel⟩
  rintro ⟨last, h⟩
  simp [evNotAnd, evEq, evLeaf, CExp.truth, AExp.value, evEnv, evVals] at h
  simp [relHolds, ROp.holds] at h
  exact absurd (congrArg Prod.fst h) (by simp)

/-- With more than 64 objects in front of the same statements, an entry left by a nested EVALUATE TRUE decides how `NOT 7` is
read: the statement is rejected. -/
theorem C63_finding_many_objects :
    (compileEvaluate true (fun _ => 0) [SIn.ex (evLeaf "A").toks]
      [((List.replicate 64 [EvObj.val false (evLeaf "1")] ++ [[EvObj.val true (evLeaf "7")]]).map (·.map EvObj.written), some 1)]
      none).isSome = true ∧
    compileEvaluate true (fun _ => 2) [SIn.ex (evLeaf "A").toks]
      [((List.replicate 64 [EvObj.val false (evLeaf "1")] ++ [[EvObj.val true (evLeaf "7")]]).map (·.map EvObj.written), some 1)]
      none = none := by
  decide +kernel

/-- The extension for empty lists: `WHEN 1 WHEN OTHER statements 3` with `A = 1` executes the statements of WHEN OTHER. -/
theorem C63_finding_empty_before_other :
    evRun [.val (evLeaf "A")] [⟨[[.val false (evLeaf "1")]], none⟩] (some (some 3)) 1 0 0 = some (some 3) := by
  decide +kernel

/-- A condition-name as the object of a value is rejected. -/
theorem C63_condition_for_value :
    compileEvaluate true (fun _ => 0) [SIn.ex (evLeaf "A").toks] [([[OIn.ex (CExp.cond (L := String) 1).toks none]], some 1)] none = none := by
  decide +kernel

end Cob
