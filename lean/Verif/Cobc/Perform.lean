/-
Model of the control flow of a compiled procedure division: sections, paragraphs, GO TO, IF, and
PERFORM with its frame stack (cobc/codegen.c `output_perform`, `output_perform_call`,
`output_perform_exit`, `output_goto`; cobc/parser.y for the order in which labels and returns are
emitted).

The data of the program is any type `σ`; a statement that does not transfer control is a function on
it.  The generated C text is modelled as a list of instructions with addresses: a C label is an empty
statement (`l_5:;`), the loops `for (;;) { ... }` are the jumps a C compiler makes of them.

Not modelled: the alternative `perform-osvs`, SORT and MERGE procedures (which push the same frames),
USE procedures, ENTRY points, the variants of the generated code for compilers without computed goto.
-/
namespace Cob

variable {σ : Type}

/-! ### The procedure division -/

/-- One VARYING or AFTER phrase (cobc/tree.c:2497-2508 `cb_build_perform_varying`): `init` is the
MOVE of the FROM value (nothing for a plain UNTIL), `step` the addition of the BY value. -/
structure Vary (σ : Type) where
  init : σ → σ
  stopIf : σ → Bool
  step : σ → σ

/-- How often a PERFORM executes its range (cobc/parser.y:5493-5519 `perform_option`).  `k` is the
number of the loop counter `n<k>` the compiler allots to a TIMES phrase. -/
inductive How (σ : Type) where
  | once
  | times (k : Nat) (count : σ → Int)
  | vary (testAfter : Bool) (v : Vary σ) (vs : List (Vary σ))
  | forever

/-- Statements.  `goto l` is also EXIT PARAGRAPH and EXIT SECTION, which go to a label the compiler
puts at the end of the paragraph or section (cobc/parser.y:4999-5034); `exitPerform` and `cycle` are
EXIT PERFORM and EXIT PERFORM CYCLE; `stop` is STOP RUN, GOBACK or EXIT PROGRAM. -/
inductive PStmt (σ : Type) where
  | skip
  | act (f : σ → σ)
  | seq (a b : PStmt σ)
  | ite (c : σ → Bool) (a b : PStmt σ)
  | goto (l : Nat)
  | gotoDep (f : σ → Int) (ls : List Nat)
  | perform (b e : Nat) (h : How σ)
  | inline (h : How σ) (body : PStmt σ)
  | exitPerform
  | cycle
  | stop

/-- What the parser emits one after the other: the label of a section or paragraph, its statements,
and the return at its end (cobc/parser.y:3849-3862, 3916-3933, 3951-3971). -/
inductive PElem (σ : Type) where
  | label (l : Nat)
  | code (s : PStmt σ)
  | finish (l : Nat)

/-- A paragraph: its label, the label EXIT PARAGRAPH goes to, its statements. -/
structure Para (σ : Type) where
  id : Nat
  exitId : Nat
  body : PStmt σ

/-- A section: its label, the label EXIT SECTION goes to, the statements in front of the first
paragraph, the paragraphs. -/
structure Sect (σ : Type) where
  id : Nat
  exitId : Nat
  body : PStmt σ
  paras : List (Para σ)

/-- cobc/parser.y:3940-3971 `paragraph_header` and the end of the paragraph. -/
def Para.elems (p : Para σ) : List (PElem σ) := [.label p.id, .code p.body, .label p.exitId, .finish p.id]

/-- cobc/parser.y:3905-3933 `section_header` and the end of the section: the last paragraph is ended
first, then the section. -/
def Sect.elems (s : Sect σ) : List (PElem σ) :=
  [.label s.id, .code s.body] ++ s.paras.flatMap Para.elems ++ [.label s.exitId, .finish s.id]

/-- cobc/parser.y:3658-3687: the procedure division. -/
def procElems (ss : List (Sect σ)) : List (PElem σ) := ss.flatMap Sect.elems

/-! ### The generated code -/

/-- The instructions. -/
inductive PIns (σ : Type) where
  /-- an empty statement, or a label -/
  | nop
  /-- a statement that goes on with the next one -/
  | act (f : σ → σ)
  /-- `goto` -/
  | jmp (a : Nat)
  /-- `if (c) goto` -/
  | jif (c : σ → Bool) (a : Nat)
  /-- `switch` with one `goto` in each case 1, 2, ... -/
  | switch (f : σ → Int) (as : List Nat)
  /-- `frame_ptr++; perform_through = through; return_address = &&next; goto target; next:` -/
  | call (through target : Nat)
  /-- `frame_ptr--` -/
  | pop
  /-- `if (frame_ptr->perform_through == l) goto *frame_ptr->return_address` -/
  | ret (l : Nat)
  /-- `n<k> = ...` -/
  | setc (k : Nat) (f : σ → Int)
  /-- leave the loop unless `n<k> > 0` -/
  | jdone (k : Nat) (a : Nat)
  /-- `n<k>--` -/
  | dec (k : Nat)
  /-- `goto exit_program` or `cob_stop_run` -/
  | halt

/-- The number of instructions of the AFTER loops around a body of `b` instructions. -/
def nestSize (b : Nat) (vs : List (Vary σ)) : Nat := b + 4 * vs.length

/-- The number of instructions of a PERFORM whose body has `b` instructions. -/
def howSize (b : Nat) : How σ → Nat
  | .once => b
  | .times _ _ => b + 4
  | .vary _ _ vs => nestSize b vs + 5
  | .forever => b + 1

def PStmt.size : PStmt σ → Nat
  | .skip => 1
  | .act _ => 1
  | .seq a b => a.size + b.size
  | .ite _ a b => a.size + b.size + 2
  | .goto _ => 1
  | .gotoDep _ _ => 1
  | .perform _ _ h => howSize 2 h
  | .inline h body => howSize body.size h
  | .exitPerform => 1
  | .cycle => 1
  | .stop => 1

/-- The MOVE of the FROM value of the next AFTER phrase. -/
def initOf : List (Vary σ) → σ → σ
  | [] => id
  | w :: _ => w.init

/-- cobc/codegen.c:2891-2933 `output_perform_until`, at address `p`.  `body p c` is the code of the
body at `p` with the label of EXIT PERFORM CYCLE at `c` (behind the body). -/
def nestCode (testAfter : Bool) (b : Nat) (body : Nat → Nat → List (PIns σ)) (p : Nat) :
    List (Vary σ) → List (PIns σ)
  | [] => body p (p + b)
  | v :: vs =>
    let q := p + nestSize b vs + 4
    if testAfter then
      [.act (initOf vs)] ++ nestCode testAfter b body (p + 1) vs ++ [.jif v.stopIf q, .act v.step, .jmp p]
    else
      [.act (initOf vs), .jif v.stopIf q] ++ nestCode testAfter b body (p + 2) vs ++ [.act v.step, .jmp p]

/-- cobc/codegen.c:2935-2978 `output_perform`. -/
def howCode (b : Nat) (body : Nat → Nat → List (PIns σ)) (p : Nat) : How σ → List (PIns σ)
  | .once => body p (p + b)
  | .times k c => [.setc k c, .jdone k (p + b + 4)] ++ body (p + 2) (p + 2 + b) ++ [.dec k, .jmp (p + 1)]
  | .vary testAfter v vs => [.act v.init] ++ nestCode testAfter b body (p + 1) (v :: vs)
  | .forever => body p (p + b) ++ [.jmp p]

/-- cobc/codegen.c:3166-3560 `output_stmt`: the code of a statement at address `p`; `lab` gives the
addresses of the labels, `brk` and `cyc` those of EXIT PERFORM and EXIT PERFORM CYCLE. -/
def PStmt.comp (lab : Nat → Nat) (brk cyc : Nat) (p : Nat) : PStmt σ → List (PIns σ)
  | .skip => [.nop]
  | .act f => [.act f]
  | .seq a b => a.comp lab brk cyc p ++ b.comp lab brk cyc (p + a.size)
  | .ite c a b =>
    [.jif (fun s => !c s) (p + a.size + 2)] ++ a.comp lab brk cyc (p + 1) ++
      [.jmp (p + a.size + b.size + 2)] ++ b.comp lab brk cyc (p + a.size + 2)
  | .goto l => [.jmp (lab l)]
  | .gotoDep f ls => [.switch f (ls.map lab)]
  | .perform b e h => howCode 2 (fun _ _ => [.call e (lab b), .pop]) p h
  | .inline h body => howCode body.size (fun q c => body.comp lab (p + howSize body.size h) c q) p h
  | .exitPerform => [.jmp brk]
  | .cycle => [.jmp cyc]
  | .stop => [.halt]

def PElem.size : PElem σ → Nat
  | .label _ => 1
  | .code s => s.size
  | .finish _ => 1

def PElem.comp (lab : Nat → Nat) (p : Nat) : PElem σ → List (PIns σ)
  | .label _ => [.nop]
  | .code s => s.comp lab 0 0 p
  | .finish l => [.ret l]

/-- The address of the `i`-th element. -/
def addrAt (es : List (PElem σ)) (i : Nat) : Nat := ((es.take i).map PElem.size).sum

/-- The number of the element that is the label `l`. -/
def posOf (es : List (PElem σ)) (l : Nat) : Option Nat :=
  es.findIdx? fun | .label m => m == l | _ => false

/-- The address of a label. -/
def labAddr (es : List (PElem σ)) (l : Nat) : Nat := addrAt es ((posOf es l).getD 0)

def compElems (lab : Nat → Nat) (p : Nat) : List (PElem σ) → List (PIns σ)
  | [] => []
  | e :: es => e.comp lab p ++ compElems lab (p + e.size) es

/-- cobc/codegen.c:4589-4592: the code of the procedure division.  Behind it the program returns. -/
def progCode (es : List (PElem σ)) : List (PIns σ) := compElems (labAddr es) 0 es

/-! ### Its execution -/

/-- The state of the running program: the address, the frames (`perform_through` and
`return_address`, the top first; the base frame is not in the list), the loop counters, the data. -/
structure PMach (σ : Type) where
  pc : Nat
  frames : List (Nat × Nat)
  cnt : Nat → Int
  st : σ

/-- libcob/common.h:190: `frame_stack` has 255 entries, one of which is the base frame. -/
def maxFrames : Nat := 254

/-- One instruction; nothing when the program has ended or the frame stack is full (the C program
then writes behind the array). -/
def PMach.step (code : List (PIns σ)) (m : PMach σ) : Option (PMach σ) :=
  match code[m.pc]? with
  | none => none
  | some .nop => some { m with pc := m.pc + 1 }
  | some (.act f) => some { m with pc := m.pc + 1, st := f m.st }
  | some (.jmp a) => some { m with pc := a }
  | some (.jif c a) => some { m with pc := if c m.st then a else m.pc + 1 }
  | some (.switch f as) =>
    let i := f m.st
    some { m with pc := if 1 ≤ i ∧ i ≤ as.length then as.getD (i.toNat - 1) 0 else m.pc + 1 }
  | some (.call e t) =>
    if m.frames.length < maxFrames then
      some { m with pc := t, frames := (e, m.pc + 1) :: m.frames }
    else none
  | some .pop => some { m with pc := m.pc + 1, frames := m.frames.tail }
  | some (.ret l) =>
    match m.frames with
    | (e, r) :: _ => some { m with pc := if e = l then r else m.pc + 1 }
    | [] => some { m with pc := m.pc + 1 }
  | some (.setc k f) =>
    some { m with pc := m.pc + 1, cnt := fun j => if j = k then f m.st else m.cnt j }
  | some (.jdone k a) => some { m with pc := if 0 < m.cnt k then m.pc + 1 else a }
  | some (.dec k) =>
    some { m with pc := m.pc + 1, cnt := fun j => if j = k then m.cnt k - 1 else m.cnt j }
  | some .halt => none

/-- Any number of instructions. -/
def PMach.steps (code : List (PIns σ)) : Nat → PMach σ → Option (PMach σ)
  | 0, m => some m
  | n + 1, m => (m.step code).bind (PMach.steps code n)

/-- The program has ended: it is behind its last statement or at a STOP RUN. -/
def PMach.Ended (code : List (PIns σ)) (m : PMach σ) : Prop :=
  code[m.pc]? = none ∨ code[m.pc]? = some .halt

end Cob
