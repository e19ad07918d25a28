import Verif.Cobc.Refs
import Mathlib.Data.List.Forall2
/-
What a reference means, in terms of the definitions of a program.
-/
namespace Cob

/-- Two words as they are written are the same name: words of ASCII
characters when they differ at most in the case of letters, others when they
are equal. -/
def SameName (a b : List Nat) : Prop :=
  if (∀ c ∈ a, c < 128) ∧ (∀ c ∈ b, c < 128) then
    List.Forall₂ (fun x y => x = y ∨ (65 ≤ x ∧ x ≤ 90 ∧ y = x + 32) ∨ (65 ≤ y ∧ y ≤ 90 ∧ x = y + 32)) a b
  else a = b

/-- The qualifiers name items that surround the item, from the inside
outward; items in between may be left out. -/
inductive Surrounded : List (List Nat) → List (List Nat) → Prop
  | nil {outer} : Surrounded [] outer
  | skip {quals o outer} : Surrounded quals outer → Surrounded quals (o :: outer)
  | take {q quals o outer} : sameWord q o = true → Surrounded quals outer →
      Surrounded (q :: quals) (o :: outer)

/-- The names of the items around a definition: for a data item its groups
from the inside outward, for an index its table and the groups of it. -/
def groupNames (P : NProg) : NDef → List (List Nat)
  | .data pos => (parentsOf P.nodes P.nodes.length pos).map (nodeName P.nodes)
  | .index t => nodeName P.nodes t :: (parentsOf P.nodes P.nodes.length t).map (nodeName P.nodes)
  | _ => []

/-- The word is the only definition of its name, a file, and the record of
the item is of this file. -/
def FileWord (P : NProg) (pos : Nat) (q : List Nat) : Prop :=
  ∃ f, itemsOf P q = [f] ∧ defAt P f = .file ∧ P.fileOf (founderOf P.nodes pos) = some f

/-- A definition fits the qualifiers of a reference in the same program. -/
def FitsQuals (P : NProg) (quals : List (List Nat)) (i : Nat) : Prop :=
  match defAt P i with
  | .data pos => Surrounded quals (groupNames P (.data pos)) ∨
      ∃ qs q, quals = qs ++ [q] ∧ Surrounded qs (groupNames P (.data pos)) ∧ FileWord P pos q
  | .index t => Surrounded quals (groupNames P (.index t))
  | .label (some s) => quals = [] ∨ ∃ q, quals = [q] ∧ sameWord q (wordAt P s) = true
  | _ => quals = []

/-- The definition `i` of the program is a definition of the name that fits
the qualifiers. -/
def Meant (P : NProg) (name : List Nat) (quals : List (List Nat)) (i : Nat) : Prop :=
  i ∈ itemsOf P name ∧ FitsQuals P quals i

/-- The definition of an outer program is visible in the programs it contains
and fits the qualifiers. -/
def MeantGlobal (P : NProg) (name : List Nat) (quals : List (List Nat)) (i : Nat) : Prop :=
  i ∈ itemsOf P name ∧
  match defAt P i with
  | .data pos => P.isGlobal i = true ∧ Surrounded quals (groupNames P (.data pos))
  | .index t => P.isGlobal i = true ∧ Surrounded quals (groupNames P (.index t))
  | _ => quals = []

/-- The programs (with their numbers) that contain a program of nesting level
`lv`, from the inside outward, when the programs before it are given, the
latest first: the nearest of a smaller level, and so on. -/
def containing (lv : Nat) : Nat → List NProg → List (Nat × NProg)
  | _, [] => []
  | k, P :: r => if P.level < lv then (k, P) :: containing P.level (k + 1) r else containing lv (k + 1) r

/-- No paragraph of the section in which the reference stands has the name. -/
def NotLocal (P : NProg) (name : List Nat) (quals : List (List Nat)) (offset : Option Nat) : Prop :=
  quals = [] → ∀ s, offset = some s → ∀ i ∈ itemsOf P name, defAt P i ≠ .label (some s)

/-- What a reference comes to when it is looked for in a list of containing
programs: the definition of the first program that has one, ambiguous when
this program has several, undefined when no program has one. -/
def firstMeant (name : List Nat) (quals : List (List Nat)) : List (Nat × NProg) → RefRes → Prop
  | [], r => r = .undefined
  | (k, P) :: rest, r =>
    (∃ i, MeantGlobal P name quals i ∧ (∀ j, MeantGlobal P name quals j → j = i) ∧ r = .found k i) ∨
    (∃ i j, MeantGlobal P name quals i ∧ MeantGlobal P name quals j ∧ i ≠ j ∧ r = .ambiguous) ∨
    ((∀ i, ¬ MeantGlobal P name quals i) ∧ firstMeant name quals rest r)

end Cob
