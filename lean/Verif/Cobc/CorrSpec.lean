import Verif.Cobc.Corr
/-
What CORRESPONDING means, in terms of the level numbers and names of the
entries.
-/
namespace Cob

/-- The entries of an operand: level numbers, names, and which are plain:
without REDEFINES, RENAMES and OCCURS. -/
structure GText where
  levels : List Nat
  name : Nat → List Nat
  plain : Nat → Bool

namespace GText

/-- The item is directly part of the group (no condition name, no RENAMES)
and plain. -/
def PartOf (X : GText) (g i : Nat) : Prop :=
  i < X.levels.length ∧ ownerOf X.levels i = some g ∧ lvlAt X.levels i ≠ 88 ∧
    lvlAt X.levels i ≠ 66 ∧ X.plain i = true

/-- The item is a group: some item is directly part of it. -/
def IsGroup (X : GText) (g : Nat) : Prop := ∃ i, i < X.levels.length ∧ ownerOf X.levels i = some g ∧
  lvlAt X.levels i ≠ 88 ∧ lvlAt X.levels i ≠ 66

/-- From a group to an item in it through plain items with these names. -/
inductive Reach (X : GText) : Nat → List (List Nat) → Nat → Prop
  | one {g i} : X.PartOf g i → Reach X g [X.name i] i
  | more {g h ns i} : X.PartOf g h → Reach X h ns i → Reach X g (X.name h :: ns) i

/-- The plain parts of a group have different names. -/
def NamesDiffer (X : GText) : Prop :=
  ∀ g i j, X.PartOf g i → X.PartOf g j → X.name i = X.name j → i = j

/-- Where the items are: parts lie in their group, plain parts of one group
apart from each other. -/
structure LaidOut (X : GText) (area : Nat → Nat × Nat) : Prop where
  inside : ∀ g i, X.PartOf g i → (area g).1 ≤ (area i).1 ∧
    (area i).1 + (area i).2 ≤ (area g).1 + (area g).2
  apart : ∀ g i j, X.PartOf g i → X.PartOf g j → i ≠ j →
    (area i).1 + (area i).2 ≤ (area j).1 ∨ (area j).1 + (area j).2 ≤ (area i).1

end GText

/-- Two items correspond: the same names lead to them, and they are not both
groups. -/
def Corresponds (X Y : GText) (g h i j : Nat) : Prop :=
  ∃ ns, X.Reach g ns i ∧ Y.Reach h ns j ∧ ¬ (X.IsGroup i ∧ Y.IsGroup j)

/-- Two areas have no byte in common. -/
def Apart (a b : Nat × Nat) : Prop := a.1 + a.2 ≤ b.1 ∨ b.1 + b.2 ≤ a.1

/-- The items are those the compiler made of the entries of the text. Names
are those written (`C70_hierarchy`); a FILLER has the name `WORK$n` with a
number that no other item has. -/
structure ItemsOf (T : CItems) (X : GText) : Prop where
  tree : ∃ es ns st, Entries es X.levels ns ∧ buildTree false dstart es = .ok st ∧ T.nodes = st.nodes
  name : ∀ i, X.name i = T.nameOf i
  flags : ∀ i, X.plain i = T.plainItem i
  renames : ∀ i, lvlAt X.levels i = 66 → X.plain i = false

end Cob
