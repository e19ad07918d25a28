import Verif.Cobc.Layout
/-
Model of REDEFINES inside a group (C95): which item is redefined, what is accepted, and where the item is stored.

Not modelled: REDEFINES at level 01 and 77, where the name is looked up as any other (C71); qualified and subscripted names, which are refused;
OCCURS DEPENDING in redefinitions, which is refused; SYNCHRONIZED; level 66.
-/
namespace Cob.Redef

/-- An entry of a group: `name` (that of a FILLER is one the compiler makes up), level number, the name in its REDEFINES clause, and the bytes of all
its occurrences. -/
structure Entry where
  name : List Nat
  level : Nat
  redef : Option (List Nat)
  total : Nat
deriving DecidableEq, Repr

/-- An ASCII letter as a small letter (`tolower` in the C locale). -/
def low (c : Nat) : Nat := if 65 ≤ c ∧ c ≤ 90 then c + 32 else c

/-- /repo/cobc/cobc.c:593-608 `sjis_casecmp` gives 0, for names of single-byte characters. -/
def sameName (a b : List Nat) : Bool := a.map low = b.map low

/-- What the compiler does with the entries: an error, an endless loop, or the redefined entry (its number in the group). -/
inductive Out where
  | err
  | loop
  | ok (k : Nat)
deriving DecidableEq, Repr

/-- /repo/cobc/field.c:289-292: `while (f->redefines) f = f->redefines`, where `res` has the redefined entries found so far; after more steps than
there are entries it goes round for ever. -/
def follow (res : List (Option Nat)) : Nat → Nat → Out
  | 0, _ => .loop
  | fuel + 1, j => match res[j]? with
    | some (some k) => follow res fuel k
    | _ => .ok j

/-- /repo/cobc/field.c:256-261: the first entry of the group with the name.  The entry that is being read is already the last one of the group
(/repo/cobc/field.c:160-200). -/
def lookup (nm : List Nat) (es : List Entry) : Option Nat := es.findIdx? fun e => sameName e.name nm

/-- /repo/cobc/field.c:231-294 `cb_resolve_redefines` for the entry `e` behind the entries `done`; `ind`: indirect-redefines of the configuration. -/
def resolve (ind : Bool) (done : List Entry) (res : List (Option Nat)) (e : Entry) (nm : List Nat) : Out :=
  match lookup nm (done ++ [e]) with
  | none => .err
  | some j =>
    match (done ++ [e])[j]? with
    | none => .err
    | some f =>
      if f.level ≠ e.level then .err
      else if f.level = 66 ∨ f.level = 88 then .err
      else if !ind ∧ (res[j]?.getD none).isSome then .err
      else follow res (done.length + 1) j

/-- The entries of a group one after the other; /repo/cobc/parser.y:2795-2798: an entry whose name is not resolved is an error. -/
def readAll (ind : Bool) : List Entry → List (Option Nat) → List Entry → Except Out (List (Option Nat))
  | _, res, [] => .ok res
  | done, res, e :: rest =>
    match e.redef with
    | none => readAll ind (done ++ [e]) (res ++ [none]) rest
    | some nm => match resolve ind done res e nm with
      | .ok k => readAll ind (done ++ [e]) (res ++ [some k]) rest
      | x => .error x

/-- /repo/cobc/field.c:454-461 of `validate_field_1`: between the redefined entry `k` and the entry `i` (or up to the end of the group) there are only
redefinitions. -/
def followsOriginal (res : List (Option Nat)) (i k : Nat) : Bool :=
  (List.range res.length).all fun p => p ≤ k || (k < i && i ≤ p) || (res[p]?.getD none).isSome

/-- `validate_field_1` for all entries of the group. -/
def validate (res : List (Option Nat)) : Bool :=
  (List.range res.length).all fun i => match res[i]?.getD none with
    | some k => followsOriginal res i k
    | none => true

/-- The group as the compiler accepts it: the redefined entries. -/
def accept (ind : Bool) (es : List Entry) : Option (List (Option Nat)) :=
  match readAll ind [] [] es with
  | .ok res => if validate res then some res else none
  | .error _ => none

/-- /repo/cobc/field.c:795-822: the offsets of the entries of a group at `foff`; `offs`, `tots`: offsets and sizes of the entries before; `size`:
the size of the group so far.  Sizes are as `larger-redefines-ok` allows them. -/
def offsets (foff : Nat) (offs tots : List Nat) (size : Nat) : List (Entry × Option Nat) → List Nat
  | [] => offs
  | (e, none) :: rest => offsets foff (offs ++ [foff + size]) (tots ++ [e.total]) (size + e.total) rest
  | (e, some k) :: rest =>
    let t := (tots ++ [e.total]).getD k 0
    offsets foff (offs ++ [offs.getD k 0]) (tots ++ [e.total]) (if e.total > t then size + (e.total - t) else size) rest

end Cob.Redef
