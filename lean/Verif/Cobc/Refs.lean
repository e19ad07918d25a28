import Verif.Cobc.Names
/-
Model of how the compiler finds what a name refers to: `cb_ref` and
`global_check` of /repo/cobc/tree.c, with the words of the scanner
(`cb_get_hexword`, `cobc_casecmp`) and the labels of the grammar.
-/
namespace Cob

/-! ### Words -/

/-- `%02X`. -/
def hex2 (c : Nat) : List Nat :=
  let h := fun (d : Nat) => if d < 10 then 48 + d else 55 + d
  [h (c / 16 % 16), h (c % 16)]

/-- `cb_get_hexword` (/repo/cobc/tree.c:2798-2828): a word with bytes from
128 on is replaced by `___`, its bytes in hexadecimal, `___`. -/
def hexWord (name : List Nat) : List Nat :=
  if name.any (fun c => decide (128 ≤ c)) then [95, 95, 95] ++ name.flatMap hex2 ++ [95, 95, 95]
  else name

/-- `tolower` of a byte in the C locale. -/
def lowW (c : Nat) : Nat := if 65 ≤ c ∧ c ≤ 90 then c + 32 else c

/-- `cobc_casecmp (a, b) == 0` (`sjis_casecmp`, /repo/cobc/cobc.c:593-608) of
words of the scanner. These have no bytes from 128 on (`hexWord`), so that
`sjis_pick` finds nothing and `strcasecmp` decides. -/
def sameWord (a b : List Nat) : Bool := a.length == b.length && a.map lowW == b.map lowW

/-! ### What words stand for -/

/-- What a word is defined as: a data item (with its position in the tree), an
index (`INDEXED BY`, with the position of the table item: `index_qual`,
/repo/cobc/typeck.c:808-824), a label (with the section it is in; a section
is in none: /repo/cobc/parser.y:3929, 3965), a file, anything else. -/
inductive NDef where
  | data (pos : Nat)
  | index (table : Nat)
  | label (section_ : Option Nat)
  | file
  | other
deriving DecidableEq, Repr

/-- A program with the words it defines, in the order of their definition
(`cb_define` appends to the items of the word, /repo/cobc/tree.c:2046-2058).
The word table of the C code (/repo/cobc/tree.c:144-170) is the list of these
words, found by `cobc_casecmp`. `fileOf` is the file of a record
(`cb_field_founder (f)->file`), as the position of its definition; `isGlobal`
is `flag_is_global` of an item. -/
structure NProg where
  level : Nat
  nodes : List DNode
  fileOf : Nat → Option Nat
  isGlobal : Nat → Bool
  defs : List (List Nat × NDef)

/-- The items of a word: positions of its definitions, in order. -/
def itemsOf (P : NProg) (name : List Nat) : List Nat :=
  (List.range P.defs.length).filter (fun i =>
    match P.defs[i]? with
    | some (w, _) => sameWord name w
    | none => false)

/-- The definition at a position. -/
def defAt (P : NProg) (i : Nat) : NDef := ((P.defs[i]?).map (·.2)).getD .other

/-- The word at a position. -/
def wordAt (P : NProg) (i : Nat) : List Nat := ((P.defs[i]?).map (·.1)).getD []

/-- The name of an item of the tree. -/
def nodeName (nodes : List DNode) (i : Nat) : List Nat := ((nodes[i]?).map (·.name)).getD []

/-- The items `p` the loop goes through to match qualifiers: the parents, for
an index the table and its parents (/repo/cobc/tree.c:2105-2115). -/
def outerItems (P : NProg) : NDef → List Nat
  | .data pos => parentsOf P.nodes P.nodes.length pos
  | .index t => t :: parentsOf P.nodes P.nodes.length t
  | _ => []

/-- The loop that resolves by parents (/repo/cobc/tree.c:2111-2115): what is
left of the qualifiers. -/
def matchOuter : List (List Nat) → List (List Nat) → List (List Nat)
  | c, [] => c
  | [], _ :: r => matchOuter [] r
  | q :: c, p :: r => if sameWord q p then matchOuter c r else matchOuter (q :: c) r

/-- The record of an item (`cb_field_founder`); an index has no parent and no
file (`cb_build_index`). -/
def recordOf (P : NProg) : NDef → Option Nat
  | .data pos => some (founderOf P.nodes pos)
  | _ => none

/-- `CB_REFERENCE (c)->word->count == 1 && CB_FILE_P (cb_ref (c)) &&
CB_FILE (cb_ref (c)) == cb_field_founder (v)->file` (/repo/cobc/tree.c:2118-2124):
the last qualifier is a word of the program `cur` in which the reference
stands, with one definition, which is the file of the record. `same` says
that the item is of this program as well: files of two programs are
different. -/
def isFileQual (cur P : NProg) (same : Bool) (d : NDef) (q : List Nat) : Bool :=
  match itemsOf cur q with
  | [f] => same && defAt cur f == .file && (recordOf P d).bind P.fileOf == some f
  | _ => false

/-- What is left of the qualifiers for a field (/repo/cobc/tree.c:2101-2126,
417-443). -/
def fieldRest (cur P : NProg) (same : Bool) (d : NDef) (chain : List (List Nat)) : List (List Nat) :=
  match matchOuter chain ((outerItems P d).map (nodeName P.nodes)) with
  | [q] => if isFileQual cur P same d q then [] else [q]
  | c => c

/-- What is left of the qualifiers of a definition of the own program
(/repo/cobc/tree.c:2098-2153). -/
def ownRest (P : NProg) (chain : List (List Nat)) (i : Nat) : List (List Nat) :=
  match defAt P i with
  | .data pos => fieldRest P P true (.data pos) chain
  | .index t => fieldRest P P true (.index t) chain
  | .label s =>
    match chain, s with
    | q :: c, some sec => if sameWord q (wordAt P sec) then c else q :: c
    | c, _ => c
  | .file => chain
  | .other => chain

/-- What a reference comes to: the definition at a position of a program
(0: the own one, then in the order of `next_program`), or an error. -/
inductive RefRes where
  | found (prog : Nat) (pos : Nat)
  | ambiguous
  | undefined
deriving DecidableEq, Repr

/-- `CB_LABEL (cb2)->section == s` (/repo/cobc/tree.c:2137-2142). -/
def inSection (P : NProg) (s : Nat) (i : Nat) : Bool := defAt P i == .label (some s)

/-- The loop over the items of the word (/repo/cobc/tree.c:2094-2168): either
the result of `goto end` or `goto error`, or the first candidate and whether
there was another. `offset` is the section in which a procedure name is
written (/repo/cobc/parser.y:6975-6981). -/
def refLoop (P : NProg) (chain : List (List Nat)) (offset : Option Nat) :
    List Nat → Option Nat → Bool → RefRes ⊕ (Option Nat × Bool)
  | [], cand, amb => .inr (cand, amb)
  | i :: r, cand, amb =>
    if chain.isEmpty ∧ (match offset with
        | some s => inSection P s i
        | none => false) = true then
      match offset with
      | some s => if r.any (inSection P s) then .inl .ambiguous else .inl (.found 0 i)
      | none => .inl .undefined
    else if (ownRest P chain i).isEmpty then
      match cand with
      | none => refLoop P chain offset r (some i) amb
      | some c => refLoop P chain offset r (some c) true
    else refLoop P chain offset r cand amb

/-- What is left of the qualifiers of a definition of an outer program; none
when the item is a field that is not GLOBAL (/repo/cobc/tree.c:414-444). Labels
are not matched with a section here. -/
def globalRest (cur P : NProg) (chain : List (List Nat)) (i : Nat) : Option (List (List Nat)) :=
  match defAt P i with
  | .data pos => if P.isGlobal i then some (fieldRest cur P false (.data pos) chain) else none
  | .index t => if P.isGlobal i then some (fieldRest cur P false (.index t) chain) else none
  | .label _ => some chain
  | .file => some chain
  | .other => some chain

/-- `global_check` (/repo/cobc/tree.c:405-456): the first candidate and
whether there is another. -/
def globalCheck (cur P : NProg) (chain : List (List Nat)) : List Nat → Option Nat → Bool →
    Option Nat × Bool
  | [], cand, amb => (cand, amb)
  | i :: r, cand, amb =>
    if globalRest cur P chain i = some [] then
      match cand with
      | none => globalCheck cur P chain r (some i) amb
      | some c => globalCheck cur P chain r (some c) true
    else globalCheck cur P chain r cand amb

/-- The loop over the programs before (/repo/cobc/tree.c:2177-2206). `k` is the
number of the first of them. -/
def globalSearch (cur : NProg) (name : List Nat) (chain : List (List Nat)) :
    Nat → List NProg → RefRes
  | _, [] => .undefined
  | k, P :: r =>
    if P.level ≥ cur.level then globalSearch cur name chain (k + 1) r
    else
      match globalCheck cur P chain (itemsOf P name) none false with
      | (some _, true) => .ambiguous
      | (some i, false) => .found k i
      | (none, _) => if P.level = 0 then .undefined else globalSearch cur name chain (k + 1) r

/-- `cb_ref` (/repo/cobc/tree.c:2071-2222) of a reference that is not yet
resolved, in the program `cur` with the programs before it in the source
file (`next_program`: the latest first, /repo/cobc/tree.c:907-917). Left out:
`flag_invalid` and the reference counts. -/
def cbRef (cur : NProg) (before : List NProg) (name : List Nat) (chain : List (List Nat))
    (offset : Option Nat) : RefRes :=
  match refLoop cur chain offset (itemsOf cur name) none false with
  | .inl r => r
  | .inr (some i, amb) => if amb = true then .ambiguous else .found 0 i
  | .inr (none, _) => if cur.level > 0 then globalSearch cur name chain 1 before else .undefined

/-! ### Procedure names of the grammar -/

/-- A procedure name as it is written: a word with qualifiers, an integer, or
an integer with an integer as its qualifier (`label`,
/repo/cobc/parser.y:6984-6997). -/
inductive LabelText where
  | words (name : List Nat) (quals : List (List Nat))
  | integer (digits : List Nat)
  | integerIn (digits section_ : List Nat)
deriving DecidableEq, Repr

/-- The name and the qualifiers of the reference that the grammar builds: the
rule for two integers has no action, so that its value is the first
(/repo/cobc/parser.y:6984-6988, 7149-7152). -/
def labelRef : LabelText → List Nat × List (List Nat)
  | .words n qs => (n, qs)
  | .integer d => (d, [])
  | .integerIn d _ => (d, [])

end Cob
