import Verif.Cobc.Names
/-
What the level numbers of the DATA DIVISION mean, said about the list of
level numbers alone (level 78 entries left out).
-/
namespace Cob

/-- The last position before `j` with a property. -/
def lastBefore (p : Nat → Bool) : Nat → Option Nat
  | 0 => none
  | j + 1 => if p j = true then some j else lastBefore p j

/-- The level number of the entry at a position. -/
def lvlAt (ls : List Nat) (k : Nat) : Nat := ls.getD k 0

/-- 01 and 77 start a new record. -/
def isTop (lv : Nat) : Bool := lv == 1 || lv == 77

/-- The item an entry belongs to. An 01 or 77 item belongs to none; a
condition name (88) to the entry before it that is no condition name; a
RENAMES entry (66) to the record; any other to the last entry before it with
a smaller level number. -/
def ownerOf (ls : List Nat) (j : Nat) : Option Nat :=
  if isTop (lvlAt ls j) then none
  else if lvlAt ls j = 88 then lastBefore (fun k => lvlAt ls k != 88) j
  else if lvlAt ls j = 66 then lastBefore (fun k => isTop (lvlAt ls k)) j
  else lastBefore (fun k => decide (lvlAt ls k < lvlAt ls j)) j

/-- An entry is in its place. 01 and 77 always are; 66 and 88 are when some
entry comes before. Levels 02-49 are when the nearest entry before that is no
condition name has a level of 01-49, and either this level is smaller, or the
nearest entry before with a level not greater has the same level. -/
def LevelOk (ls : List Nat) (j : Nat) : Prop :=
  let lv := lvlAt ls j
  lv = 1 ∨ lv = 77 ∨ ((lv = 66 ∨ lv = 88) ∧ 0 < j) ∨
  (2 ≤ lv ∧ lv ≤ 49 ∧ ∃ k, lastBefore (fun q => lvlAt ls q != 88) j = some k ∧ lvlAt ls k ≤ 49 ∧
    (lvlAt ls k < lv ∨
      ∃ m, lastBefore (fun q => decide (lvlAt ls q ≤ lv)) j = some m ∧ lvlAt ls m = lv))

/-- An entry of level 01-49 (or 77) that belongs to item `i`. -/
def isPart (ls : List Nat) (i j : Nat) : Bool :=
  ownerOf ls j == some i && lvlAt ls j != 88 && lvlAt ls j != 66

/-- What a group contains, in the order of the source text: its parts, and
after them the RENAMES entries of a record that has parts. -/
def contents (ls : List Nat) (i : Nat) : List Nat :=
  (List.range ls.length).filter (fun j =>
    isPart ls i j ||
    (ownerOf ls j == some i && lvlAt ls j == 66 && (List.range j).any (isPart ls i)))

/-- The records, in order. -/
def records (ls : List Nat) : List Nat :=
  (List.range ls.length).filter (fun j => isTop (lvlAt ls j))

/-- The level number a text stands for: digits only, 01-49, 66, 77, 78 or 88. -/
def IsLevel (digits : List Nat) (lv : Nat) : Prop :=
  (∀ c ∈ digits, 48 ≤ c ∧ c ≤ 57) ∧ digits.foldl (fun v c => v * 10 + (c - 48)) 0 = lv ∧
  ((1 ≤ lv ∧ lv ≤ 49) ∨ lv = 66 ∨ lv = 77 ∨ lv = 78 ∨ lv = 88)

/-- Entries with their levels: those of level 78 leave no item. -/
inductive Entries : List DEntry → List Nat → List (Option (List Nat)) → Prop
  | nil : Entries [] [] []
  | const78 {d name es ls ns} : IsLevel d 78 → Entries es ls ns →
      Entries (.item d name :: es) ls ns
  | item {d name es lv ls ns} : IsLevel d lv → lv ≠ 78 → Entries es ls ns →
      Entries (.item d name :: es) (lv :: ls) (name :: ns)

end Cob
