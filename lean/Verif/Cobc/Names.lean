/-
Model of how the compiler turns the level numbers of the DATA DIVISION into
a tree of items: `cb_get_level` and `cb_build_field_tree`,
/repo/cobc/field.c:41-228.

The tree is a set of nodes with three pointers each, as in the C code; a
pointer is the position of the item it points at in the list of items.
-/
namespace Cob

/-- A data item as the compiler keeps it: the fields `level`, `name`,
`parent`, `children` and `sister` of `struct cb_field`
(/repo/cobc/tree.h:481-500), pointers as positions. -/
structure DNode where
  level : Nat
  name : List Nat
  parent : Option Nat
  children : Option Nat
  sister : Option Nat
deriving DecidableEq, Repr

/-- What `cb_build_field_tree` works on: the items so far, the item of the
previous entry (`current_field` of the grammar, /repo/cobc/parser.y:2607-2617),
`cb_needs_01` (/repo/cobc/field.c:34) and the number for the next FILLER
(`filler_id`, /repo/cobc/tree.c:2005-2015). -/
structure DSt where
  nodes : List DNode
  last : Option Nat
  needs01 : Bool
  filler : Nat
deriving DecidableEq, Repr

/-- The state at the start of a section of the DATA DIVISION. -/
def dstart : DSt := { nodes := [], last := none, needs01 := false, filler := 1 }

/-- An entry of the DATA DIVISION: the digits of its level number and its
name (none: FILLER or no name), or a `01 name CONSTANT` entry
(/repo/cobc/parser.y:2603-2660, 2729-2746). -/
inductive DEntry where
  | item (digits : List Nat) (name : Option (List Nat))
  | constant
deriving DecidableEq, Repr

/-- What happens to an entry: accepted with a new state, an error message, or
the compiler runs through a null pointer. -/
inductive DRes where
  | ok (st : DSt)
  | error
  | crash
deriving DecidableEq, Repr

/-- The loop of `cb_get_level` that reads the digits
(/repo/cobc/field.c:48-56). -/
def levelNum : List Nat → Nat → Option Nat
  | [], v => some v
  | c :: r, v => if 48 ≤ c ∧ c ≤ 57 then levelNum r (v * 10 + (c - 48)) else none

/-- `cb_get_level` (/repo/cobc/field.c:41-76): 0 is an invalid level. -/
def getLevel (digits : List Nat) : Nat :=
  match levelNum digits 0 with
  | none => 0
  | some v =>
    if v = 66 ∨ v = 77 ∨ v = 78 ∨ v = 88 then v
    else if v < 1 ∨ v > 49 then 0
    else v

/-- The decimal digits of a number, as `%d` prints them. -/
def fillerDigits : Nat → Nat → List Nat
  | 0, _ => []
  | fuel + 1, n => if n < 10 then [48 + n] else fillerDigits fuel (n / 10) ++ [48 + n % 10]

/-- `cb_build_filler` (/repo/cobc/tree.c:2005-2015): the name `WORK$n`. -/
def fillerName (n : Nat) : List Nat := [87, 79, 82, 75, 36] ++ fillerDigits (n + 1) n

/-- The parents of an item from the inside outward, following `parent`
(the loops `for (p = f->parent; p; p = p->parent)`, /repo/cobc/field.c:187,
/repo/cobc/tree.c:2111); the number bounds the steps. -/
def parentsOf (nodes : List DNode) : Nat → Nat → List Nat
  | 0, _ => []
  | fuel + 1, i =>
    match (nodes[i]?).bind (·.parent) with
    | none => []
    | some p => p :: parentsOf nodes fuel p

/-- `cb_field_founder` (/repo/cobc/tree.c:1743-1750). -/
def founderOf (nodes : List DNode) (i : Nat) : Nat :=
  (parentsOf nodes nodes.length i).getLast?.getD i

/-- The items met by following `sister` from an item
(`for (f = x->children; f; f = f->sister)`). -/
def sistersFrom (nodes : List DNode) : Nat → Option Nat → List Nat
  | 0, _ => []
  | _, none => []
  | fuel + 1, some i => i :: sistersFrom nodes fuel ((nodes[i]?).bind (·.sister))

/-- The items directly inside an item: `children` and then `sister`. -/
def kidsWalk (nodes : List DNode) (i : Nat) : List Nat :=
  sistersFrom nodes nodes.length ((nodes[i]?).bind (·.children))

/-- `nodes[i]->level`. -/
def nodeLevel (nodes : List DNode) (i : Nat) : Nat := ((nodes[i]?).map (·.level)).getD 0

/-- `nodes[i]->parent`. -/
def nodeParent (nodes : List DNode) (i : Nat) : Option Nat := (nodes[i]?).bind (·.parent)

/-- `nodes[i]->sister = v`. -/
def setSister (nodes : List DNode) (i v : Nat) : List DNode :=
  nodes.modify i (fun d => { d with sister := some v })

/-- `nodes[i]->children = v`. -/
def setChildren (nodes : List DNode) (i v : Nat) : List DNode :=
  nodes.modify i (fun d => { d with children := some v })

/-- `nodes[i]->parent = v`. -/
def setParent (nodes : List DNode) (i v : Nat) : List DNode :=
  nodes.modify i (fun d => { d with parent := some v })

/-- A new item without links (`cb_build_field`, /repo/cobc/field.c:102). -/
def newNode (level : Nat) (name : List Nat) (parent : Option Nat) : DNode :=
  { level := level, name := name, parent := parent, children := none, sister := none }

/-- `same_level:` (/repo/cobc/field.c:181-184): the new item follows `q`. -/
def linkSame (st : DSt) (lv : Nat) (name : List Nat) (q : Nat) : DSt :=
  { st with
    nodes := setSister st.nodes q st.nodes.length ++ [newNode lv name (nodeParent st.nodes q)]
    last := some st.nodes.length }

/-- The loop of the upper level case (/repo/cobc/field.c:187-195) over the
parents of the last item: the item found with the same level, and the item
at which the loop stopped. -/
def upperLoop (nodes : List DNode) (relax : Bool) (lv : Nat) : List Nat → Option Nat × Option Nat
  | [] => (none, none)
  | p :: r =>
    if nodeLevel nodes p = lv then (some p, some p)
    else if relax = true ∧ nodeLevel nodes p < lv then (none, some p)
    else upperLoop nodes relax lv r

/-- The FILLER group that is put in with `relax-level-hierarchy`
(/repo/cobc/field.c:196-211): it takes over all the items inside `p`, and the
new item follows it. -/
def linkFiller (st : DSt) (lv : Nat) (name : List Nat) (p : Nat) : DSt :=
  let n := st.nodes.length
  let nodes1 := (kidsWalk st.nodes p).foldl (fun ns k => setParent ns k n) st.nodes
  let fill : DNode :=
    { level := lv, name := fillerName st.filler, parent := some p,
      children := (st.nodes[p]?).bind (·.children), sister := some (n + 1) }
  { st with
    nodes := setChildren nodes1 p n ++ [fill, newNode lv name (some p)]
    last := some (n + 1)
    filler := st.filler + 1 }

/-- `cb_build_field_tree` after the level and the name are known
(/repo/cobc/field.c:102-216), for levels other than 78. `relax` is
`relax-level-hierarchy` of the configuration (`no` in
/repo/config/default.conf:94). What is left out: the storage section, the
warning for redefinitions and the properties inherited from the parent. -/
def linkItem (relax : Bool) (st : DSt) (lv : Nat) (name : List Nat) : DRes :=
  let n := st.nodes.length
  let lastLevel := (st.last.map (nodeLevel st.nodes)).getD 0
  -- 121-127
  if st.last.isSome ∧ lastLevel = 77 ∧ lv ≠ 1 ∧ lv ≠ 77 ∧ lv ≠ 66 ∧ lv ≠ 88 then .error
  else
    -- 150-152
    let last := if lastLevel = 88 then st.last.bind (nodeParent st.nodes) else st.last
    if lv = 1 ∨ lv = 77 then
      -- 155-164
      let nodes1 := match last with
        | some l => setSister st.nodes (founderOf st.nodes l) n
        | none => st.nodes
      .ok { st with nodes := nodes1 ++ [newNode lv name none], last := some n, needs01 := false }
    else match last with
      | none => .error
      | some l =>
        -- 165-168
        if st.needs01 = true then .error
        else if lv = 66 then
          -- 169-175
          let fnd := founderOf st.nodes l
          let nodes1 := match (kidsWalk st.nodes fnd).getLast? with
            | some k => setSister st.nodes k n
            | none => st.nodes
          .ok { st with nodes := nodes1 ++ [newNode lv name (some fnd)], last := some n }
        else if lv = 88 then
          -- 176-178
          .ok { st with nodes := st.nodes ++ [newNode lv name (some l)], last := some n }
        else if lv > nodeLevel st.nodes l then
          -- 179-182
          .ok { st with
            nodes := setChildren st.nodes l n ++ [newNode lv name (some l)], last := some n }
        else if lv = nodeLevel st.nodes l then .ok (linkSame st lv name l)
        else
          -- 188-216
          match upperLoop st.nodes relax lv (parentsOf st.nodes st.nodes.length l) with
          | (some q, _) => .ok (linkSame st lv name q)
          | (none, stop) =>
            if relax = true then
              match stop with
              | some p => .ok (linkFiller st lv name p)
              | none => .crash
            else .error

/-- One entry of the DATA DIVISION (/repo/cobc/parser.y:2603-2660,
/repo/cobc/field.c:78-228). A level 78 entry leaves the tree and the current
item as they are (/repo/cobc/field.c:105-110, 1041-1055, parser.y:2624-2627);
a constant entry sets `cb_needs_01` (/repo/cobc/parser.y:2742). -/
def buildEntry (relax : Bool) (st : DSt) (e : DEntry) : DRes :=
  match e with
  | .constant => .ok { st with needs01 := true }
  | .item digits name =>
    let lv := getLevel digits
    if lv = 0 then .error
    else
      let nm := name.getD (fillerName st.filler)
      let st1 := match name with
        | some _ => st
        | none => { st with filler := st.filler + 1 }
      if lv = 78 then .ok st1
      else linkItem relax st1 lv nm

/-- All entries of a section in their order, up to the first that is not
accepted (the compiler goes on after an error, but then makes no program:
/repo/cobc/parser.y:805-807). -/
def buildTree (relax : Bool) : DSt → List DEntry → DRes
  | st, [] => .ok st
  | st, e :: r =>
    match buildEntry relax st e with
    | .ok st1 => buildTree relax st1 r
    | .error => .error
    | .crash => .crash

end Cob
