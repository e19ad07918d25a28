import Verif.Rt.Life
/-
C81: what a user relies on for programs that call and cancel each other.  Specification: an ideal machine with a stack of
activations and, for each program, either storage in its last-used state or none (initial state).
-/
namespace Cob.Life

/-- Storage of a program in its last-used state. -/
structure Data where
  ws : List Nat
  rc : Int
  opened : List Nat
deriving DecidableEq, Repr

/-- The initial state of a program: VALUEs, RETURN-CODE 0, no file open. -/
def Data.initial (p : Prog) : Data := ⟨p.ws0, 0, []⟩

/-- The ideal run: `none` means the program is in its initial state. -/
structure Ideal where
  data : Nat → Option Data
  stack : List (Nat × List Nat)

/-- Program `q` now has storage `d`. -/
def Ideal.put (s : Ideal) (q : Nat) (d : Option Data) : Ideal :=
  { s with data := fun x => if x = q then d else s.data x }

/-- The storage of a program. -/
def Ideal.get (P : Nat → Prog) (s : Ideal) (q : Nat) : Data := (s.data q).getD (.initial (P q))

/-- CALL: an INITIAL program starts in its initial state, another one in its last-used state; LOCAL-STORAGE is new. -/
def Ideal.enter (P : Nat → Prog) (s : Ideal) (q : Nat) : Ideal :=
  { s.put q (some (if (P q).initial then .initial (P q) else s.get P q)) with stack := (q, (P q).ls0) :: s.stack }

/-- Return: the calling program gets the RETURN-CODE. -/
def Ideal.leave (P : Nat → Prog) (s : Ideal) : Ideal :=
  match s.stack with
  | [] => s
  | (_, _) :: [] => { s with stack := [] }
  | (p, _) :: (c, l) :: rest =>
    { s.put c (some { s.get P c with rc := (s.get P p).rc }) with stack := (c, l) :: rest }

/-- One event in the ideal run. EXIT PROGRAM does nothing in the program that was not called. -/
def Ideal.step (P : Nat → Prog) (s : Ideal) (e : Ev) : Ideal :=
  match s.stack with
  | [] => s
  | (p, _) :: rest =>
    match e with
    | .setWs d => s.put p (some { s.get P p with ws := d })
    | .setLs d => { s with stack := (p, d) :: rest }
    | .setRc n => s.put p (some { s.get P p with rc := n })
    | .openF i =>
      if i ∈ (s.get P p).opened then s else s.put p (some { s.get P p with opened := i :: (s.get P p).opened })
    | .closeF i => s.put p (some { s.get P p with opened := (s.get P p).opened.filter (· != i) })
    | .call q => s.enter P q
    | .cancel q => s.put q none
    | .exitProgram => if (P p).implicit = true ∨ rest ≠ [] then s.leave P else s
    | .goback => s.leave P

/-- The ideal run from program `m` on. -/
def ideal (P : Nat → Prog) (m : Nat) (es : List Ev) : Ideal :=
  es.foldl (Ideal.step P) (Ideal.enter P ⟨fun _ => none, []⟩ m)

/-- Program `q` is active: called and not left. -/
def Ideal.Active (s : Ideal) (q : Nat) : Prop := ∃ l, (q, l) ∈ s.stack

/-- Every event of the history meets the condition in the state in which it happens. -/
def Always (P : Nat → Prog) (ok : Ideal → Ev → Prop) : Ideal → List Ev → Prop
  | _, [] => True
  | s, e :: es => ok s e ∧ Always P ok (s.step P e) es

/-- Active programs are not cancelled. -/
def CancelsIdle (s : Ideal) (e : Ev) : Prop := ∀ q, e = .cancel q → ¬ s.Active q

/-- Active programs are not called. -/
def NotRecursive (s : Ideal) (e : Ev) : Prop := ∀ q, e = .call q → ¬ s.Active q

end Cob.Life
