import Verif.Str.Inspect
import Verif.Move.Alnum
/-
Model of STRING and UNSTRING (libcob/strings.c), items that are not NATIONAL.  `int` values are
modelled by `Int` without overflow; sources and receivers are different storage.
-/
namespace Cob

/-- libcob/strings.c:59-65: the static state of STRING: the receiver's bytes, `string_offset`, and
whether an exception is set. -/
structure StrSt where
  dst : List Nat
  off : Int
  exc : Bool
deriving DecidableEq, Repr

/-- libcob/strings.c:540-568 `cob_string_init`; `ptr` is the value of the POINTER item, if there
is one. -/
def stringInit (dst : List Nat) (ptr : Option Int) : StrSt :=
  match ptr with
  | none => ⟨dst, 0, false⟩
  | some p => ⟨dst, p - 1, decide (p - 1 < 0 ∨ (dst.length : Int) ≤ p - 1)⟩

/-- libcob/strings.c:602-611: the number of bytes sent: up to the delimiter, if it occurs. -/
def sentSize (dlm : Option (List Nat)) (src : List Nat) : Nat :=
  match dlm with
  | none => src.length
  | some d =>
    match findFrom src d src.length (src.length + 1) 0 with
    | some i => i
    | none => src.length

/-- libcob/strings.c:570-622 `cob_string_delimited` followed by `cob_string_append`. -/
def stringAppend (s : StrSt) (dlm : Option (List Nat)) (src : List Nat) : StrSt :=
  if s.exc then s
  else
    let n := sentSize dlm src
    let o := s.off.toNat
    if (n : Int) ≤ (s.dst.length : Int) - s.off then
      { s with dst := s.dst.take o ++ src.take n ++ s.dst.drop (o + n), off := s.off + n }
    else
      let k := ((s.dst.length : Int) - s.off).toNat
      { dst := s.dst.take o ++ src.take k ++ s.dst.drop (o + k), off := s.off + k, exc := true }

/-- The STRING statement (cobc generates init, delimited/append for each source, finish):
the receiver, the POINTER item's new value (libcob/strings.c:624-639 `cob_string_finish`), and whether
COB_EC_OVERFLOW_STRING was raised. -/
def stringStmt (dst : List Nat) (ptr : Option Int) (srcs : List (Option (List Nat) × List Nat)) :
    List Nat × Option Int × Bool :=
  let s := srcs.foldl (fun s x => stringAppend s x.1 x.2) (stringInit dst ptr)
  (s.dst, ptr.map (fun _ => s.off + 1), s.exc)

/-! ### UNSTRING -/

/-- libcob/strings.c:67-74: the static state of UNSTRING. -/
structure UnSt where
  src : List Nat
  off : Int
  count : Nat
  exc : Bool
deriving DecidableEq, Repr

/-- libcob/strings.c:645-693 `cob_unstring_init`. -/
def unstringInit (src : List Nat) (ptr : Option Int) : UnSt :=
  match ptr with
  | none => ⟨src, 0, 0, false⟩
  | some p => ⟨src, p - 1, 0, decide (p - 1 < 0 ∨ (src.length : Int) ≤ p - 1)⟩

/-- libcob/strings.c:758-783: the first delimiter of the list that occurs at position `p`. -/
def delimAt (src : List Nat) (p : Nat) : List (List Nat × Bool) → Option (List Nat × Bool)
  | [] => none
  | d :: ds =>
    if p + d.1.length ≤ src.length then
      if slice src p d.1.length = d.1 then some d else delimAt src p ds
    else delimAt src p ds

/-- libcob/strings.c:757-796: the first position from `p` where a delimiter occurs. -/
def scanDelim (src : List Nat) (ds : List (List Nat × Bool)) : (fuel : Nat) → (p : Nat) → Option (Nat × List Nat × Bool)
  | 0, _ => none
  | fuel + 1, p =>
    if p < src.length then
      match delimAt src p ds with
      | some d => some (p, d)
      | none => scanDelim src ds fuel (p + 1)
    else none

/-- libcob/strings.c:770-780: with ALL, the number of bytes of the further occurrences of the
delimiter from position `p`. -/
def skipAllDelim (src d : List Nat) : (fuel : Nat) → (p : Nat) → Nat
  | 0, _ => 0
  | fuel + 1, p =>
    if p < src.length then
      if p + d.length ≤ src.length then
        if slice src p d.length = d then d.length + skipAllDelim src d fuel (p + d.length) else 0
      else 0
    else 0

/-- What one INTO phrase receives: the bytes examined (moved to the receiver), the delimiter
found, if any; COUNT IN is the number of bytes. -/
structure Piece where
  text : List Nat
  delim : Option (List Nat)
deriving DecidableEq, Repr

/-- libcob/strings.c:723-829 `cob_unstring_into`; `size` is the receiver's size.  No piece:
the receivers are left alone. -/
def unstringInto (ds : List (List Nat × Bool)) (s : UnSt) (size : Nat) : UnSt × Option Piece :=
  if s.exc then (s, none)
  else if (s.src.length : Int) ≤ s.off then (s, none)
  else
    let o := s.off.toNat
    if ds.isEmpty then
      let k := min size (s.src.length - o)
      ({ s with off := s.off + k, count := s.count + 1 }, some ⟨slice s.src o k, none⟩)
    else
      match scanDelim s.src ds (s.src.length + 1) o with
      | some (p, d, all) =>
        let extra := if all then skipAllDelim s.src d (s.src.length + 1) (p + d.length) else 0
        ({ s with off := s.off + ((p - o : Nat) + d.length : Nat) + extra, count := s.count + 1 },
          some ⟨slice s.src o (p - o), some d⟩)
      | none =>
        ({ s with off := s.src.length, count := s.count + 1 }, some ⟨slice s.src o (s.src.length - o), none⟩)

/-- A sequence of INTO phrases. -/
def unstringGo (ds : List (List Nat × Bool)) : UnSt → List Nat → UnSt × List (Option Piece)
  | s, [] => (s, [])
  | s, n :: ns =>
    let r := unstringInto ds s n
    let q := unstringGo ds r.1 ns
    (q.1, r.2 :: q.2)

/-- Result of an UNSTRING statement. -/
structure UnRes where
  pieces : List (Option Piece)
  pointer : Option Int
  tally : Nat
  overflow : Bool
deriving DecidableEq, Repr

/-- The UNSTRING statement: init, delimiters, INTO phrases with receivers of the given sizes, tallying
(libcob/strings.c:831-835) and finish (837-856). -/
def unstringStmt (src : List Nat) (ptr : Option Int) (ds : List (List Nat × Bool)) (sizes : List Nat) : UnRes :=
  let r := unstringGo ds (unstringInit src ptr) sizes
  ⟨r.2, ptr.map (fun _ => r.1.off + 1), r.1.count, r.1.exc || decide (r.1.off < r.1.src.length)⟩

/-- libcob/strings.c:765, 800, 751 (`cob_memcpy`) and 807-815: an alphanumeric receiver of `size`
bytes after receiving the piece, and an alphanumeric DELIMITER IN item. -/
def pieceInto (p : Piece) (size : Nat) : List Nat := moveAlnum false p.text size
def delimInto (p : Piece) (size : Nat) : List Nat := moveAlnum false (p.delim.getD []) size

end Cob
