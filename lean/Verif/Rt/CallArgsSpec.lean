import Verif.Rt.CallArgs
import Verif.Num.ItemProps
/-
What a programmer expects of the arguments of a CALL, said without the generated code: which bytes
of the caller are lent to the called program, what it sees of an argument, which number it gets.
-/
namespace Cob.Args

/-- The offsets of the caller's storage that the call lends to the called program: the bytes of the
items passed BY REFERENCE. -/
def Lent (args : List Arg) (j : Nat) : Prop :=
  ∃ a ∈ args, a.mode = .reference ∧
    ∃ off size decl k, a.x = .item off size decl k ∧ off ≤ j ∧ j < off + size

/-- The called program describes no parameter longer than the item it is given. -/
def SizesFit (args : List Arg) (ps : List PDecl) : Prop :=
  ∀ (i : Nat) (a : Arg) (p : PDecl), args[i]? = some a → ps[i]? = some p →
    ∀ off size decl k, a.x = .item off size decl k → p.size ≤ size

/-- What the called program sees of its parameter `i` in memory `m`, when it was entered with
`slots`. -/
def Sees (slots : List Slot) (ps : List PDecl) (m : Mem) (i : Nat) (bs : List Nat) : Prop :=
  ∃ s p, slots[i]? = some s ∧ ps[i]? = some p ∧ view m s p.size = bs

/-- A parameter not taken BY VALUE as a number: the linkage item is where the address points. -/
def PDecl.byAddress (p : PDecl) : Prop := (p.byValue && p.numeric) = false

instance (p : PDecl) : Decidable p.byAddress := inferInstanceAs (Decidable (_ = _))

/-- A native binary item of these bytes holds the number `v`. -/
def NativeHolds (signed : Bool) (bs : List Nat) (v : Int) : Prop :=
  binaryHolds ⟨{ haveSign := signed }, bs⟩ v

/-- The numbers a native binary item of `w` bytes can hold. -/
def NativeRange (signed : Bool) (w : Nat) (v : Int) : Prop :=
  if signed then -(2 ^ (8 * w - 1)) ≤ v ∧ v < 2 ^ (8 * w - 1) else 0 ≤ v ∧ v < 2 ^ (8 * w)

/-- The numeric items the generated code can read as a C integer: no decimals and no scaling, and at
most nine digits, or a binary item of 1, 2, 4 or 8 bytes. -/
def Readable (u : Usage) (a : Attr) (size : Nat) : Prop :=
  a.scale = 0 ∧
    match u with
    | .display => size < 10
    | .packed => a.digits < 10
    | .binary => size = 1 ∨ size = 2 ∨ size = 4 ∨ size = 8

instance (u : Usage) (a : Attr) (size : Nat) : Decidable (Readable u a size) := by
  unfold Readable; cases u <;> infer_instance

/-- The most recent argument actually given at position `i` in the calls so far (`hist`, latest
first). -/
def lastGiven {α : Type} (i : Nat) : List (List (Option α)) → Option α
  | [] => none
  | l :: rest =>
    match l[i]? with
    | some (some a) => some a
    | _ => lastGiven i rest

/-- The length of an argument: of an item the size it has at the call, of a literal or the result of a
FUNCTION the number of its characters. -/
def argLength : ArgX → Option Nat
  | .item _ size _ _ => some size
  | .numLit _ len => some len
  | .alnumLit bs => some bs.length
  | .func bs => some bs.length
  | .omitted => none

/-- The size of the most recent argument that has one at position `i`, else `d`. -/
def lastSize (i d : Nat) (hist : List (List (Option Nat))) : Nat := (lastGiven i hist).getD d

end Cob.Args
