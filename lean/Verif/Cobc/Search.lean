/-
SEARCH and SEARCH ALL: the condition the compiler builds and the loop it generates
(cobc/typeck.c 6447–6556, cobc/codegen.c 2115–2251).
-/
namespace Cob

/-- An operand of a WHEN condition as `search_set_keys` sees it: the data item it names, if any
(`cb_field (p->x)`, cobc/typeck.c 6464, which ignores subscripts), its value while the table's
index holds a given occurrence number, and whether it is an index or a pointer
(`CB_INDEX_P`/`CB_CLASS_POINTER`, cobc/typeck.c 2746–2749).
Simplification: a value is an element of an abstract type, so reading cannot fail. -/
structure SOp (α : Type) where
  fld : Option Nat := none
  read : Int → α
  raw : Bool := false

/-- The condition after WHEN in SEARCH ALL (cobc/typeck.c 6447–6493): equalities joined by AND, a
condition-name with its values (`build_cond_88`, cobc/typeck.c 2494–2527; a value is one literal
or a THRU pair), or anything else. -/
inductive SCond (α : Type) where
  | eq (x y : SOp α)
  | and (a b : SCond α)
  | name88 (parent : SOp α) (values : List (SOp α × Option (SOp α)))
  | other

/-- One ASCENDING/DESCENDING KEY of the table (`struct cb_key`, cobc/parser.y 2997–3003). -/
structure KeyDecl where
  desc : Bool
  fld : Nat

/-- The loop `for (i = 0; i < f->nkeys; i++) if (cb_field (p->x) == cb_field (f->keys[i].key))`
(cobc/typeck.c 6463–6469): the first key naming this item. -/
def findKey (ks : List KeyDecl) (x : Option Nat) : Option Nat :=
  match ks with
  | [] => none
  | k :: ks => if x = some k.fld then some 0 else (findKey ks x).map (· + 1)

/-- The `'='` case of `search_set_keys` (cobc/typeck.c 6462–6487): the pair (ref, val) recorded for
a key; `rhs` is the option allow-search-key-in-rhs; `none` is the error "Undeclared key". -/
def setKey {α} (rhs : Bool) (ks : List KeyDecl) (x y : SOp α) (s : List (Option (SOp α × SOp α))) :
    Option (List (Option (SOp α × SOp α))) :=
  match findKey ks x.fld with
  | some i => some (s.set i (some (x, y)))
  | none =>
    if rhs then
      match findKey ks y.fld with
      | some i => some (s.set i (some (y, x)))
      | none => none
    else none

/-- `search_set_keys` (cobc/typeck.c 6447–6493). A condition-name with one plain value becomes an
equality (`build_cond_88`, cobc/typeck.c 2510–2518); with several values it is an OR, with THRU it
contains `'['`, and both end in "Invalid SEARCH ALL condition" (6488–6490). `none` is a compile
error. -/
def setKeys {α} (rhs : Bool) (ks : List KeyDecl) : SCond α → List (Option (SOp α × SOp α)) →
    Option (List (Option (SOp α × SOp α)))
  | .eq x y, s => setKey rhs ks x y s
  | .and a b, s => (setKeys rhs ks a s).bind (setKeys rhs ks b)
  | .name88 p [(v, none)], s => setKey rhs ks p v s
  | .name88 _ _, _ => none
  | .other, _ => none

/-- One comparison of the generated condition: does it assign to `ret` (`output_cond` with
`save_flag`: only function calls and decimal lists do, cobc/codegen.c 1469–1506; the difference
built for an index or a pointer does not, cobc/codegen.c 1465–1467), and its value. -/
structure SCmp where
  saved : Bool
  cmp : Int → Int

/-- The comparisons `cb_build_search_all` joins with `'&'` (cobc/typeck.c 6509–6524): the keys in
the order they were declared, those not mentioned left out, the operands exchanged for a
DESCENDING key. -/
def buildCmps {α} (cmp : α → α → Int) : List KeyDecl → List (Option (SOp α × SOp α)) → List SCmp
  | k :: ks, some (ref, val) :: ss =>
    ⟨!(ref.raw || val.raw),
      if k.desc then fun i => cmp (val.read i) (ref.read i)
      else fun i => cmp (ref.read i) (val.read i)⟩ :: buildCmps cmp ks ss
  | _ :: ks, none :: ss => buildCmps cmp ks ss
  | _, _ => []

/-- The generated test `((int)(ret = c1) == 0 && (int)(ret = c2) == 0 …)` (`output_cond`,
cobc/codegen.c 1428–1462): its truth and the value left in `ret`. -/
def evalConj : List SCmp → Int → Int → Bool × Int
  | [], _, r => (true, r)
  | c :: cs, i, r =>
    let v := c.cmp i
    let r := if c.saved then v else r
    if v = 0 then evalConj cs i r else (false, r)

/-- What a SEARCH ALL did: whether the WHEN branch was taken, the index afterwards and the
occurrence numbers whose elements were looked at, latest first. -/
structure SRes where
  found : Bool
  idx : Int
  probes : List Int
deriving DecidableEq

/-- The loop of `output_search_all` (cobc/codegen.c 2196–2237); the first argument bounds the
number of turns and `none` means it was used up. Simplification: `head + tail` does not overflow
an int (a table has fewer than 2^30 elements). -/
def allLoop (cs : List SCmp) : Nat → Int → Int → Int → Int → List Int → Option SRes
  | 0, _, _, _, _, _ => none
  | n + 1, head, tail, idx, ret, ps =>
    if head ≥ tail - 1 then some ⟨false, idx, ps⟩
    else
      let i := (head + tail).tdiv 2
      let e := evalConj cs i ret
      if e.1 then some ⟨true, i, i :: ps⟩
      else if e.2 < 0 then allLoop cs n i tail i e.2 (i :: ps)
      else allLoop cs n head i i e.2 (i :: ps)

/-- A table as SEARCH sees it (`struct cb_field`, cobc/tree.h; OCCURS clause, cobc/parser.y
2960–2978): `min` is 1 unless TO is written, `odo` the value of the DEPENDING ON item. -/
structure STable where
  min : Int := 1
  max : Int
  odo : Option Int := none
  keys : List KeyDecl

/-- `output_occurs` (cobc/codegen.c 2115–2123): the number of elements in use. -/
def STable.occurs (t : STable) : Int :=
  match t.odo with
  | some n => n
  | none => t.max

/-- `SEARCH ALL table WHEN cond` (`cb_emit_search_all`, `cb_build_search_all`,
cobc/typeck.c 6495–6556, `output_search_all`, cobc/codegen.c 2179–2239), with `turns` the bound of
`allLoop`, `idx` the index before the statement and `ret` the uninitialised C variable
(2188). `none` is a compile error or a loop longer than `turns`. -/
def searchAll {α} (cmp : α → α → Int) (rhs : Bool) (t : STable) (c : SCond α) (turns : Nat)
    (idx ret : Int) : Option SRes :=
  (setKeys rhs t.keys c (t.keys.map fun _ => none)).bind fun s =>
    allLoop (buildCmps cmp t.keys s) turns (t.min - 1) (t.occurs + 1) idx ret []

/-! ### Serial SEARCH -/

/-- The indexes and data items a serial SEARCH can touch, by number. -/
abbrev SEnv := Nat → Int

/-- Give `v` the value `x`. -/
def SEnv.set (e : SEnv) (v : Nat) (x : Int) : SEnv := fun w => if w = v then x else e w

/-- The index a serial SEARCH moves (`output_search_whens`, cobc/codegen.c 2133–2143): the VARYING
operand when it is an index of this table, else the table's first index. -/
def pickIndex (indexes : List Nat) (var : Option Nat) : Option Nat :=
  match var with
  | some v => if v ∈ indexes then some v else indexes.head?
  | none => indexes.head?

/-- The `else` part of the loop (cobc/codegen.c 2161–2169): add one to the index and, when VARYING
names something else, `MOVE` the index to it; `store` is what that MOVE leaves in the item. -/
def serialStep (store : Int → Int) (i : Nat) (var : Option Nat) (e : SEnv) : SEnv :=
  let e := e.set i (e i + 1)
  match var with
  | some v => if v = i then e else e.set v (store (e i))
  | none => e

/-- The chain `if (w1) … else if (w2) …` (`search_whens`, cobc/parser.y 5758–5761): the number of
the first WHEN whose condition is true. -/
def firstWhen (ws : List (SEnv → Bool)) (e : SEnv) : Option Nat :=
  match ws with
  | [] => none
  | w :: ws => if w e then some 0 else (firstWhen ws e).map (· + 1)

/-- The loop of `output_search_whens` (cobc/codegen.c 2145–2176): the WHEN taken, or `none` for AT
END, and the variables. Simplification: `occurs` does not change during the search. -/
def serialLoop (occurs : Int) (store : Int → Int) (i : Nat) (var : Option Nat)
    (ws : List (SEnv → Bool)) : Nat → SEnv → Option (Option Nat × SEnv)
  | 0, _ => none
  | n + 1, e =>
    if e i > occurs then some (none, e)
    else
      match firstWhen ws e with
      | some k => some (some k, e)
      | none => serialLoop occurs store i var ws n (serialStep store i var e)

/-- `SEARCH table VARYING var AT END … WHEN …` (`cb_emit_search`, cobc/typeck.c 6529–6542); the
table has an index (`table_name`, cobc/parser.y 6911). -/
def searchSerial (t : STable) (indexes : List Nat) (store : Int → Int) (var : Option Nat)
    (ws : List (SEnv → Bool)) (turns : Nat) (e : SEnv) : Option (Option Nat × SEnv) :=
  (pickIndex indexes var).bind fun i => serialLoop t.occurs store i var ws turns e

end Cob
