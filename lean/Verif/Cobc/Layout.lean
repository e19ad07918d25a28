import Verif.Rt.Storage
/-
Model of the storage layout computed by the compiler (cobc/field.c `compute_size`) and of the
addresses it generates for subscripted items (cobc/codegen.c `output_base`, `output_data`).

Not modelled: level 66, ANY LENGTH, variable addresses behind an OCCURS DEPENDING ON item in the
middle of a record (an extension), EXTERNAL records with a larger redefinition, the error of an
oversized record.
-/
namespace Cob

/-- The SYNCHRONIZED clause with the usage of the item (cobc/field.c:826-848). -/
inductive Sync where
  /-- no clause, or a usage that is not aligned -/
  | none
  /-- BINARY, COMP-5, COMP-X, FLOAT, DOUBLE -/
  | bySize
  /-- INDEX, LENGTH (4 bytes), pointers (8 bytes) -/
  | fixed (n : Nat)
deriving DecidableEq, Repr

/-- A data description entry with its subordinate entries.  `size` of an elementary item is that of
one occurrence; `redef` says whether it redefines the entry in front of it at the same level (the
last one that is not itself a redefinition, cobc/field.c:289-292 and 454-461). -/
inductive Dd where
  | elem (size occurs : Nat) (sync : Sync) (redef : Bool)
  | group (occurs : Nat) (sync : Sync) (redef : Bool) (children : List Dd)

/-- `f->redefines`. -/
def Dd.redef : Dd → Bool
  | .elem _ _ _ r => r
  | .group _ _ r _ => r

/-- `f->flag_synchronized` and the usage. -/
def Dd.sync : Dd → Sync
  | .elem _ _ s _ => s
  | .group _ s _ _ => s

/-- `struct cb_field` after `compute_size`: the offset of the first occurrence in the record, the
size of one occurrence, OCCURS, REDEFINES, the subordinate items. -/
inductive Lay where
  | mk (offset size occurs : Nat) (redef : Bool) (children : List Lay)

def Lay.offset : Lay → Nat | .mk o _ _ _ _ => o
def Lay.size : Lay → Nat | .mk _ s _ _ _ => s
def Lay.occurs : Lay → Nat | .mk _ _ n _ _ => n
def Lay.redef : Lay → Bool | .mk _ _ _ r _ => r
def Lay.children : Lay → List Lay | .mk _ _ _ _ c => c

/-- The bytes of all occurrences. -/
def Lay.total (l : Lay) : Nat := l.size * l.occurs

/-- cobc/field.c:855-856: `c->offset += pad` (the subordinate items keep their offsets). -/
def Lay.move (l : Lay) (pad : Nat) : Lay :=
  .mk (l.offset + pad) l.size l.occurs l.redef l.children

/-- cobc/field.c:825-848: the alignment of an item of the given size. -/
def alignOf (s : Sync) (size : Nat) : Nat :=
  match s with
  | .none => 1
  | .bySize => if size = 2 ∨ size = 4 ∨ size = 8 then size else 1
  | .fixed n => n

/-- cobc/field.c:849-853: the slack bytes in front of an item. -/
def padOf (off align : Nat) : Nat := if off % align ≠ 0 then align - off % align else 0

mutual
/-- cobc/field.c:775-962 `compute_size` for an entry whose offset has been set.  `w` is the
truncation of the 32-bit arithmetic. -/
def place (w : Nat → Nat) (off : Nat) : Dd → Lay
  | .elem size occurs _ redef => .mk off size occurs redef []
  | .group occurs _ redef cs =>
    let r := placeList w off 0 0 0 cs
    .mk off r.2 occurs redef r.1

/-- cobc/field.c:795-860: the loop over the subordinate entries of a group at `foff`.  `size` is the
size so far, `poff` and `ptotal` the offset and total size of the last entry that is not a
redefinition. -/
def placeList (w : Nat → Nat) (foff size poff ptotal : Nat) : List Dd → List Lay × Nat
  | [] => ([], size)
  | c :: cs =>
    if c.redef then
      let l := place w poff c
      let total := w l.total
      let size' := if total > ptotal then w (size + (total - ptotal)) else size
      let r := placeList w foff size' poff ptotal cs
      (l :: r.1, r.2)
    else
      let off := w (foff + size)
      let l := place w off c
      let pad := padOf off (alignOf c.sync l.size)
      let size' := w (w (size + w l.total) + pad)
      let r := placeList w foff size' (off + pad) (w l.total) cs
      (l.move pad :: r.1, r.2)
end

/-- The layout with exact arithmetic. -/
def layout (off : Nat) (d : Dd) : Lay := place id off d

/-- The layout with 32-bit arithmetic, as computed. -/
def layout32 (off : Nat) (d : Dd) : Lay := place (· % 4294967296) off d

/-- The run-time checks emitted for a reference (cobc/typeck.c:958-1020 `cb_build_identifier`):
the path goes down by child numbers, with one subscript for every entry on the way (1 for an entry
without OCCURS). -/
def subsAccepted : Lay → List Nat → List Int → Bool
  | l, [], [s] => checkRange s 1 l.occurs
  | l, k :: ks, s :: ss =>
    checkRange s 1 l.occurs &&
      (match l.children[k]? with
       | some c => subsAccepted c ks ss
       | none => false)
  | _, _, _ => false

/-- cobc/codegen.c:429-471 `output_data`: the offset of the item plus, for every entry with OCCURS
on the way, its size times (subscript - 1).  Gives the item found and the address. -/
def refAddr : Lay → List Nat → List Int → Int → Option (Lay × Int)
  | l, [], [s], sh => some (l, l.offset + (sh + l.size * (s - 1)))
  | l, k :: ks, s :: ss, sh =>
    match l.children[k]? with
    | some c => refAddr c ks ss (sh + l.size * (s - 1))
    | none => none
  | _, _, _, _ => none

end Cob
