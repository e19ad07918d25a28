import Verif.Cobc.Layout
import Verif.Cobc.Move
/-
Model of the code cobc generates for INITIALIZE and for the initial values of WORKING-STORAGE
(cobc/codegen.c `output_initialize` and below).  Memory is a function from addresses to bytes.

Not modelled: NATIONAL items, CHAINING, EXTERNAL items, items that are reference modified, a level 01
item with OCCURS, sources of REPLACING that lie in the record being initialized.
-/
namespace Cob

/-- The category of an elementary item (cobc/tree.c `cb_tree_category`), for numeric items with the
usage. -/
inductive ICat where
  | alphabetic
  | alnum
  | numeric (u : Usage) (a : Attr)
  | float
  | numEdited
  | alnumEdited
  | pointer
deriving DecidableEq, Repr

/-- The category as the REPLACING phrase names it (cobc/parser.y:5184-5196, `CB_PURPOSE_INT`). -/
inductive IClass where
  | alphabetic | alnum | numeric | numEdited | alnumEdited | other
deriving DecidableEq, Repr

/-- `CB_TREE_CATEGORY` as it is compared in cobc/codegen.c:1573 and 1955. -/
def ICat.cls : ICat → IClass
  | .alphabetic => .alphabetic
  | .alnum => .alnum
  | .numeric _ _ => .numeric
  | .float => .numeric
  | .numEdited => .numEdited
  | .alnumEdited => .alnumEdited
  | .pointer => .other

/-- `f->usage == CB_USAGE_DISPLAY` (cobc/codegen.c:1861, 1870). -/
def ICat.isDisplay : ICat → Bool
  | .numeric .display _ => true
  | .numeric _ _ => false
  | .float => false
  | .pointer => false
  | _ => true

/-- The sources of the moves in cobc/codegen.c:1862-1980: ZERO, BLANK (spaces without editing), NULL, or another literal or item. -/
inductive ISrc where
  | zero | blank | null | src (k : Nat)
deriving DecidableEq, Repr

/-- A VALUE clause (`f->values`, told apart in cobc/codegen.c:1847-1887): SPACE, LOW-VALUE, HIGH-VALUE, QUOTE (`fig` with the byte); ZERO; NULL; ALL
literal; a numeric literal; a text literal. -/
inductive IVal where
  | fig (c : Nat)
  | zero
  | null
  | all (s : List Nat)
  | num (k : Nat)
  | text (s : List Nat)
deriving DecidableEq, Repr

/-- A data item: `struct cb_field` as far as it is looked at.  `filler`: it has no name. -/
structure IInfo where
  offset : Nat
  size : Nat
  occurs : Nat := 1
  redef : Bool := false
  filler : Bool := false
  cat : ICat := .alnum
  value : Option IVal := none
deriving Repr

/-- An item with its subordinate items (cobc/tree.h `struct cb_field`, `children` and `sister`). -/
inductive IFld where
  | mk (i : IInfo) (cs : List IFld)

/-- The item itself (cobc/tree.h `struct cb_field`). -/
def IFld.info : IFld → IInfo | .mk i _ => i
/-- `f->children`. -/
def IFld.children : IFld → List IFld | .mk _ cs => cs
/-- A group is alphanumeric (cobc/tree.c:493-570 `cb_tree_category`). -/
def IFld.cat : IFld → ICat
  | .mk i [] => i.cat
  | .mk _ (_ :: _) => .alnum

/-- `struct cb_initialize`: the phrases of the statement.  `val`: TO VALUE; `rep`: REPLACING; `dflt`: DEFAULT, or no other phrase;
`statement`: `flag_statement`, which is 1 for a statement without WITH FILLER (cobc/typeck.c:4185-4202) and 0 with
it and for the initial values (cobc/codegen.c:4033). -/
structure IOpt where
  val : Bool := false
  rep : List (IClass × ISrc) := []
  dflt : Bool := false
  statement : Bool := true

/-- What the program is compiled with (EBCDIC signs; -fbinary-truncate), and `mv`: the bytes a MOVE of a source leaves in an item of a category and size. -/
structure IEnv where
  ebc : Bool := false
  cut : Bool := true
  mv : ISrc → ICat → Nat → List Nat

/-- cobc/codegen.c `INITIALIZE_NONE`, `INITIALIZE_ONE`, `INITIALIZE_DEFAULT`, `INITIALIZE_COMPOUND`. -/
inductive IType where
  | none | one | dflt | compound
deriving DecidableEq, Repr

/-- cobc/codegen.c:1572-1607, an elementary item. -/
def leafType (E : IEnv) (p : IOpt) (c : ICat) : IType :=
  if p.rep.any (fun r => r.1 = c.cls) then .one
  else if p.dflt then
    match c with
    | .float => .one
    | .numEdited => .one
    | .alnumEdited => .one
    | .numeric .packed _ => .one
    | .numeric .display a => if a.separate then .one else if E.ebc && a.haveSign then .one else .dflt
    | _ => .dflt
  else .none

mutual
/-- cobc/codegen.c:1529-1610 `initialize_type`. -/
def initType (E : IEnv) (p : IOpt) (top : Bool) : IFld → IType
  | .mk i cs =>
    if i.redef && (!top || !p.statement) then .none
    else if p.val && i.value.isSome then .one
    else if p.statement && cs.isEmpty && i.filler then .none
    else
      match initTypes E p cs with
      | [] => leafType E p i.cat
      | t :: ts => if t = .one then .compound else if ts.all (fun u => u = t) then t else .compound

/-- cobc/codegen.c:1561-1570: the types of the subordinate items. -/
def initTypes (E : IEnv) (p : IOpt) : List IFld → List IType
  | [] => []
  | c :: cs => initType E p false c :: initTypes E p cs
end

/-- cobc/codegen.c:1628-1639: the byte an elementary item is filled with, if it is the same for all its bytes. -/
def leafChar : ICat → Option Nat
  | .numeric .binary _ => some 0
  | .pointer => some 0
  | .numeric .display _ => some 48
  | .alphabetic => some 32
  | .alnum => some 32
  | _ => none

mutual
/-- cobc/codegen.c:1612-1641 `initialize_uniform_char`; `none` is -1. -/
def uniformChar : IFld → Option Nat
  | .mk i cs =>
    match uniformChars cs with
    | [] => leafChar i.cat
    | c :: rest => if rest.all (fun r => r.1 || r.2 = c.2) then c.2 else none

/-- cobc/codegen.c:1617-1625, for the subordinate items: REDEFINES, and the byte. -/
def uniformChars : List IFld → List (Bool × Option Nat)
  | [] => []
  | c :: cs => (c.info.redef, uniformChar c) :: uniformChars cs
end

/-- cobc/codegen.c:1664-1711 `output_initialize_literal`: the bytes for VALUE ALL. -/
def allBytes (s : List Nat) (n : Nat) : List Nat :=
  if s.length = 1 then List.replicate n (s.getD 0 0)
  else if n ≤ s.length then s.take n
  else (List.replicate (n / s.length) s).flatten ++ s.take (n % s.length)

/-- cobc/codegen.c:1878-1948: the bytes for a text literal: one memset, or a memcpy and a memset for three or more equal bytes at the
end, or one memcpy. -/
def textBytes (s : List Nat) (n : Nat) : List Nat :=
  let buff := if n ≤ s.length then s.take n else s ++ List.replicate (n - s.length) 32
  if n = 1 then [buff.getD 0 0]
  else if buff.all (fun b => b = buff.getD 0 0) then List.replicate n (buff.getD 0 0)
  else
    let c := buff.getD (n - 1) 0
    let k := (buff.reverse.takeWhile (fun b => b = c)).length
    if 8 ≤ n ∧ 2 < k then buff.take (n - k) ++ List.replicate k c
    else buff

/-- cobc/codegen.c:1815-1950: the bytes for a VALUE clause. -/
def valueBytes (E : IEnv) (v : IVal) (c : ICat) (n : Nat) : List Nat :=
  match v with
  | .fig b => List.replicate n b
  | .zero =>
    match c with
    | .numeric .display a =>
      if a.separate then E.mv .zero c n
      else if E.ebc && a.haveSign then E.mv .zero c n
      else List.replicate n 48
    | _ => if c.isDisplay then List.replicate n 48 else E.mv .zero c n
  | .null => if c.isDisplay then List.replicate n 0 else E.mv .null c n
  | .all s => allBytes s n
  | .num k => E.mv (.src k) c n
  | .text s => textBytes s n

/-- cobc/codegen.c:1790-1987 `output_initialize_one`: the bytes written, if any.  (The DEFAULT branch is not reached for other categories.) -/
def initOne (E : IEnv) (p : IOpt) (f : IFld) : Option (List Nat) :=
  match p.val, f.info.value with
  | true, some v => some (valueBytes E v f.cat f.info.size)
  | _, _ =>
    match (if f.children.isEmpty then p.rep.find? (fun r => r.1 = f.cat.cls) else none) with
    | some r => some (E.mv r.2 f.cat f.info.size)
    | none =>
      if p.dflt then
        match f.cat with
        | .float => some (List.replicate f.info.size 0)
        | .numeric _ _ => some (E.mv .zero f.cat f.info.size)
        | .numEdited => some (E.mv .zero f.cat f.info.size)
        | .alnumEdited => some (E.mv .blank f.cat f.info.size)
        | _ => none
      else none

/-- The memcpy or memset of cobc/codegen.c:1643-1790: bytes to an address. -/
def putAt (m : Nat → Nat) (a : Nat) (bs : List Nat) : Nat → Nat :=
  fun x => if a ≤ x ∧ x < a + bs.length then bs.getD (x - a) 0 else m x

/-- cobc/codegen.c:2027-2036: how many of the items that follow are included in one memset. -/
def absorb (E : IEnv) (p : IOpt) (c : Nat) (k : IClass) : List IFld → Nat
  | [] => 0
  | s :: fs =>
    if !s.info.redef && !(initType E p false s = .dflt && uniformChar s = some c && s.cat.cls = k) then 0
    else absorb E p c k fs + 1

/-- cobc/codegen.c:2038-2042: where the memset ends: at the next item, or at the end of the group. -/
def fillEnd (stop : Nat) : List IFld → Nat
  | s :: _ => s.info.offset
  | [] => stop

mutual
/-- cobc/codegen.c:2045-2070: one item, in a loop over its occurrences. -/
def initFld (E : IEnv) (p : IOpt) (sh : Nat) (t : IType) : IFld → (Nat → Nat) → (Nat → Nat)
  | .mk i cs, m =>
    (List.range i.occurs).foldl (fun m k =>
      if t = .one then
        match initOne E p (.mk i cs) with
        | some bs => putAt m (i.offset + (sh + i.size * k)) bs
        | none => m
      else initList E p (i.offset + i.size) (sh + i.size * k) 0 cs m) m

/-- cobc/codegen.c:1989-2076 `output_initialize_compound`: the items of a group that ends at `stop`; `sh` is added to the offsets for the
subscripts; the next `n` items have been done. -/
def initList (E : IEnv) (p : IOpt) (stop sh : Nat) : Nat → List IFld → (Nat → Nat) → (Nat → Nat)
  | _, [], m => m
  | n + 1, _ :: fs, m => initList E p stop sh n fs m
  | 0, f :: fs, m =>
    if initType E p false f = .none then initList E p stop sh 0 fs m
    else
      match (if initType E p false f = .dflt then uniformChar f else none) with
      | some c =>
        let n := absorb E p c f.cat.cls fs
        initList E p stop sh n fs
          (putAt m (f.info.offset + sh) (List.replicate (fillEnd stop (fs.drop n) - f.info.offset) c))
      | none => initList E p stop sh 0 fs (initFld E p sh (initType E p false f) f m)
end

/-- cobc/codegen.c:2078-2109 `output_initialize`: `sh` stands for the subscripts of the item named. -/
def initStmt (E : IEnv) (p : IOpt) (sh : Nat) (f : IFld) (m : Nat → Nat) : Nat → Nat :=
  let stop := f.info.offset + f.info.size
  match initType E p true f with
  | .none => m
  | .one =>
    match initOne E p f with
    | some bs => putAt m (f.info.offset + sh) bs
    | none => m
  | .dflt =>
    match uniformChar f with
    | some c => putAt m (f.info.offset + sh) (List.replicate f.info.size c)
    | none => initList E p stop sh 0 f.children m
  | .compound => initList E p stop sh 0 f.children m

/-- cobc/typeck.c:4184-4203 `cb_emit_initialize`: the phrases of the statement.  `value`: `some none` is ALL TO VALUE, `some (some c)` is
category TO VALUE (cobc/parser.y:5164-5168); only whether there is a phrase is looked at later (cobc/codegen.c:1548). -/
def emitInit (filler : Bool) (value : Option (Option IClass)) (rep : List (IClass × ISrc)) (dflt : Bool) : IOpt :=
  { val := value.isSome, rep := rep, dflt := if value.isNone && rep.isEmpty then true else dflt, statement := !filler }

/-- cobc/codegen.c:4017-4035 `output_initial_values`: `auto` is -fauto-initialize (the default). -/
def initialOpt (auto : Bool) : IOpt := { val := true, dflt := auto, statement := false }

end Cob
