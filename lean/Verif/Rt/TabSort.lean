import Verif.Cmp.Compare
/-
Model of SORT of a table (C94).
-/
namespace Cob.TabSort

/-- A table: `base` is the offset of its first element in the record (`cb_field.offset`, /repo/cobc/field.c:798-819: counted from the level 01 item),
`esz` the size of an element, `max` the greatest number of elements (OCCURS), `dep` the value of the item of the DEPENDING phrase, if there is one. -/
structure Table where
  base : Nat
  esz : Nat
  max : Nat
  dep : Option Nat
deriving Repr

/-- A key of the SORT statement as the compiler knows it: `offset` is the offset of the item in the record (/repo/cobc/field.c:798-819), not in the
element. -/
structure KeyRef where
  numeric : Option (Usage × Attr)
  offset : Nat
  size : Nat
  asc : Bool

/-- /repo/cobc/typeck.c:6783-6788 with /repo/libcob/common.c:1532-1539 `cob_table_sort_init_key`: the key the runtime works with. -/
def initKey (k : KeyRef) : SortKey := ⟨k.numeric, k.offset, k.size, k.asc⟩

/-- The COLLATING SEQUENCE phrase of the statement: absent, an alphabet that is NATIVE, or another one. -/
inductive Phrase where
  | absent
  | native
  | table (f : Nat → Nat)

/-- /repo/cobc/parser.y:5925-5928 `sort_collating` and /repo/cobc/codegen.c:1033-1036: the pointer that is passed. -/
def Phrase.pointer : Phrase → Option (Nat → Nat)
  | .absent => none
  | .native => none
  | .table f => some f

/-- /repo/libcob/common.c:1525-1529 of `cob_table_sort_init`: the collating sequence: the one that was passed, or that of the program. -/
def sequenceOf (stmt : Option (Nat → Nat)) (prog : Option (Nat → Nat)) : Option (Nat → Nat) :=
  match stmt with
  | some f => some f
  | none => prog

/-- /repo/cobc/typeck.c:6789-6792: the number of elements to sort. -/
def Table.count (t : Table) : Nat :=
  match t.dep with
  | some n => n
  | none => t.max

/-- The memory from the start of the table as `n` elements of size `esz`, as `qsort` takes it (/repo/libcob/common.c:1544). -/
def chunks (esz : Nat) : Nat → List Nat → List (List Nat)
  | 0, _ => []
  | n + 1, l => l.take esz :: chunks esz n (l.drop esz)

/-- `cmp` is what the C standard asks of a comparison function for the elements `l`: it depends on nothing but the elements, is reflexive,
antisymmetric in its sign, and transitive. -/
def Consistent (cmp : List Nat → List Nat → Option Int) (l : List (List Nat)) : Prop :=
  (∀ a ∈ l, cmp a a = some 0) ∧
  (∀ a ∈ l, ∀ b ∈ l, ∃ x y, cmp a b = some x ∧ cmp b a = some y ∧ (x < 0 ↔ 0 < y) ∧ (x = 0 ↔ y = 0)) ∧
  (∀ a ∈ l, ∀ b ∈ l, ∀ c ∈ l, ∀ x y z, cmp a b = some x → cmp b c = some y → cmp a c = some z → x ≤ 0 → y ≤ 0 → z ≤ 0)

/-- What the C standard promises of `qsort`: with a consistent comparison the result has the same elements, none of which is greater than a later
one.  Nothing is promised for elements that compare equal, and nothing at all for an inconsistent comparison. -/
def Qsort (cmp : List Nat → List Nat → Option Int) (l l' : List (List Nat)) : Prop :=
  Consistent cmp l → l'.Perm l ∧ l'.Pairwise fun a b => ∃ x, cmp a b = some x ∧ x ≤ 0

/-- /repo/cobc/typeck.c:6778-6792 and /repo/libcob/common.c:1520-1546 `cob_table_sort_init`, `cob_table_sort`: SORT of the table `t` of the record
`r` may lead to the record `r'`.  Holds of keys inside the element as the runtime sees it (`initKey`): otherwise `sort_compare` reads behind the
element, which is outside this model. -/
def SortTable (ebc : Bool) (ph : Phrase) (prog : Option (Nat → Nat)) (ks : List KeyRef) (t : Table) (r r' : List Nat) : Prop :=
  ∃ l', Qsort (sortCompare ebc (sequenceOf ph.pointer prog) (ks.map initKey)) (chunks t.esz t.count (r.drop t.base)) l' ∧
    r' = r.take t.base ++ l'.flatten ++ r.drop (t.base + t.count * t.esz)

end Cob.TabSort
