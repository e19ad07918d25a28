import Verif.Cobc.Perform
/-
What a procedure division means, without addresses and frames: an interpreter that executes the
statements by recursion.  `PERFORM b THRU e` executes from the label `b` on until the end of the
procedure `e` is reached, wherever GO TO statements lead in between, and then goes on behind the
PERFORM.

The first argument bounds the depth of the recursion (`more` is the answer when it is used up); the
result of an execution that ends does not depend on it (`C55_bound`).
-/
namespace Cob

variable {σ : Type}

/-- How a statement ends: it goes on with the next one, goes to a label, leaves the inline PERFORM
around it, ends the pass through it, ends the program.  `bad`: the program does something whose
effect is not defined - a label that does not exist, EXIT PERFORM outside an inline PERFORM, more
than 254 PERFORMs active at a time, a PERFORM TIMES statement that is entered while it is active. -/
inductive POut (σ : Type) where
  | normal (s : σ)
  | goto (l : Nat) (s : σ)
  | brk (s : σ)
  | cyc (s : σ)
  | stop (s : σ)
  | bad
  | more

/-- One pass: EXIT PERFORM CYCLE ends the pass. -/
def POut.pass : POut σ → POut σ
  | .cyc s => .normal s
  | o => o

/-- The whole PERFORM: EXIT PERFORM ends it. -/
def POut.caught : POut σ → POut σ
  | .brk s => .normal s
  | o => o

/-- Going on with `f` behind a normal end. -/
def POut.andThen (o : POut σ) (f : σ → POut σ) : POut σ :=
  match o with
  | .normal s => f s
  | o => o

/-- `n` passes. -/
def passes (body : σ → POut σ) : Nat → σ → POut σ
  | 0, s => .normal s
  | n + 1, s => (body s).andThen (passes body n)

/-- Passes without end. -/
def endless (body : σ → POut σ) : Nat → σ → POut σ
  | 0, _ => .more
  | n + 1, s => (body s).andThen (endless body n)

/-- Passes with a test before or after each, a preparation before each and a step behind each. -/
def untilLoop (testAfter : Bool) (pre : σ → σ) (v : Vary σ) (inner : σ → POut σ) : Nat → σ → POut σ
  | 0, _ => .more
  | n + 1, s =>
    if testAfter = false ∧ v.stopIf (pre s) = true then .normal (pre s)
    else
      (inner (pre s)).andThen fun s' =>
        if testAfter = true ∧ v.stopIf s' = true then .normal s'
        else untilLoop testAfter pre v inner n (v.step s')

/-- VARYING with its AFTER phrases: the loop of each phrase is the pass of the one in front of it,
which begins by setting the item of the phrase to its FROM value. -/
def varying (testAfter : Bool) (n : Nat) (body : σ → POut σ) : List (Vary σ) → σ → POut σ
  | [] => body
  | v :: vs => untilLoop testAfter (initOf vs) v (varying testAfter n body vs) n

/-- A PERFORM; `body` is one execution of its range, given the TIMES loops that are active. -/
def How.exec (n : Nat) (body : List Nat → σ → POut σ) (active : List Nat) (s : σ) : How σ → POut σ
  | .once => (body active s).pass.caught
  | .times k c =>
    if k ∈ active then .bad
    else (passes (fun s => (body (k :: active) s).pass) (c s).toNat s).caught
  | .vary testAfter v vs =>
    (varying testAfter n (fun s => (body active s).pass) (v :: vs) (v.init s)).caught
  | .forever => (endless (fun s => (body active s).pass) (n + 1) s).caught

/-- A statement.  `run active depth e b` executes from the label `b` to the end of `e`. -/
def PStmt.exec (run : List Nat → Nat → Nat → Nat → σ → POut σ) (n : Nat) :
    PStmt σ → List Nat → Nat → σ → POut σ
  | .skip, _, _, s => .normal s
  | .act f, _, _, s => .normal (f s)
  | .seq a b, active, depth, s =>
    (a.exec run n active depth s).andThen (b.exec run n active depth)
  | .ite c a b, active, depth, s =>
    if c s then a.exec run n active depth s else b.exec run n active depth s
  | .goto l, _, _, s => .goto l s
  | .gotoDep f ls, _, _, s =>
    if 1 ≤ f s ∧ f s ≤ ls.length then .goto (ls.getD ((f s).toNat - 1) 0) s else .normal s
  | .perform b e h, active, depth, s =>
    h.exec n (fun active s => if depth < maxFrames then run active (depth + 1) e b s else .bad) active s
  | .inline h body, active, depth, s => h.exec n (fun active s => body.exec run n active depth s) active s
  | .exitPerform, _, _, s => .brk s
  | .cycle, _, _, s => .cyc s
  | .stop, _, _, s => .stop s

/-- Execution from the element number `pos` on.  `e` is the procedure whose end ends it, if any. -/
def runFrom (es : List (PElem σ)) : Nat → List Nat → Nat → Option Nat → Nat → σ → POut σ
  | 0, _, _, _, _, _ => .more
  | n + 1, active, depth, e, pos, s =>
    match es[pos]? with
    | none => .stop s
    | some (.label _) => runFrom es n active depth e (pos + 1) s
    | some (.finish l) => if e = some l then .normal s else runFrom es n active depth e (pos + 1) s
    | some (.code st) =>
      match st.exec (fun active depth e b s =>
          match posOf es b with
          | none => .bad
          | some p => runFrom es n active depth (some e) p s) n active depth s with
      | .normal s' => runFrom es n active depth e (pos + 1) s'
      | .goto l s' =>
        match posOf es l with
        | none => .bad
        | some p => runFrom es n active depth e p s'
      | .stop s' => .stop s'
      | .more => .more
      | _ => .bad

/-- A whole program: from the first element on, to the end of the program. -/
def runProgram (es : List (PElem σ)) (n : Nat) (s : σ) : POut σ := runFrom es n [] 0 none 0 s

end Cob
