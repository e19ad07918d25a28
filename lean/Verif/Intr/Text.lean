import Verif.Intr.Date
/-
Model of the character functions of libcob/intrinsic.c (UPPER-CASE, LOWER-CASE, REVERSE,
CONCATENATE, SUBSTITUTE, SUBSTITUTE-CASE, TRIM, CHAR, ORD) and of the century window functions
YEAR-TO-YYYY, DATE-TO-YYYYMMDD, DAY-TO-YYYYDDD.

A character item is the list of its bytes (numbers below 256).  `toupper` and `tolower` are those
of the "C" locale: only the 26 letters change.  The integer arguments are the C `int`s delivered
by `cob_get_int`.
-/
namespace Cob

/-- C library `toupper` ("C" locale), used at libcob/intrinsic.c:597. -/
def toUpperB (c : Nat) : Nat := if 97 ≤ c ∧ c ≤ 122 then c - 32 else c

/-- C library `tolower` ("C" locale), used at libcob/intrinsic.c:615. -/
def toLowerB (c : Nat) : Nat := if 65 ≤ c ∧ c ≤ 90 then c + 32 else c

/-- libcob/intrinsic.c:411-428 `calc_ref_mod`, for an offset above 0. -/
def calcRefMod (d : List Nat) (offset length : Int) : List Nat :=
  if offset.toNat ≤ d.length then
    let calcoff := offset.toNat - 1
    let size := d.length - calcoff
    let size := if length > 0 ∧ length.toNat < size then length.toNat else size
    (d.drop calcoff).take size
  else d

/-- `if (offset > 0) calc_ref_mod (...)`, the end of every character function
(libcob/intrinsic.c:599-601). -/
def withRefMod (offset length : Int) (d : List Nat) : List Nat :=
  if offset > 0 then calcRefMod d offset length else d

/-- libcob/intrinsic.c:588-603 `cob_intr_upper_case`. -/
def intrUpper (offset length : Int) (d : List Nat) : List Nat :=
  withRefMod offset length (d.map toUpperB)

/-- libcob/intrinsic.c:606-621 `cob_intr_lower_case`. -/
def intrLower (offset length : Int) (d : List Nat) : List Nat :=
  withRefMod offset length (d.map toLowerB)

/-- libcob/intrinsic.c:632-634: the loop `data[i] = src[size - i - 1]`. -/
def reverseLoop (d : List Nat) : Nat → List Nat → List Nat
  | 0, acc => acc
  | n + 1, acc => reverseLoop d n (acc ++ [d.getD (d.length - (d.length - (n + 1)) - 1) 0])

/-- libcob/intrinsic.c:624-639 `cob_intr_reverse`. -/
def intrReverse (offset length : Int) (d : List Nat) : List Nat :=
  withRefMod offset length (reverseLoop d d.length [])

/-- libcob/intrinsic.c:642-678 `cob_intr_concatenate`. -/
def intrConcatenate (offset length : Int) (args : List (List Nat)) : List Nat :=
  withRefMod offset length (args.foldl (fun p f => p ++ f) [])

/-- libcob/intrinsic.c:721-731 (and 748-758): the search for a pair at position `n`; `eq` is the
comparison of the text with the operand (memcmp or strncasecmp). -/
def substFind (eq : List Nat → List Nat → Bool) (var : List Nat) (n : Nat) :
    List (List Nat × List Nat) → Option (List Nat × List Nat)
  | [] => none
  | (a, b) :: ps =>
    if n + a.length ≤ var.length then
      if eq ((var.drop n).take a.length) a then some (a, b) else substFind eq var n ps
    else substFind eq var n ps

/-- libcob/intrinsic.c:715-740: the size pass.  `none`: the loop does not come to an end (a pair
whose first operand is empty is found without advancing). -/
def substSize (eq : List Nat → List Nat → Bool) (pairs : List (List Nat × List Nat))
    (var : List Nat) : Nat → Nat → Nat → Option Nat
  | 0, n, calcsize => if n < var.length then none else some calcsize
  | fuel + 1, n, calcsize =>
    if n < var.length then
      match substFind eq var n pairs with
      | some (a, b) => substSize eq pairs var fuel (n + a.length) (calcsize + b.length)
      | none => substSize eq pairs var fuel (n + 1) (calcsize + 1)
    else some calcsize

/-- libcob/intrinsic.c:747-768: the pass that writes the result at `p2`. -/
def substWrite (eq : List Nat → List Nat → Bool) (pairs : List (List Nat × List Nat))
    (var : List Nat) : Nat → Nat → List Nat → Option (List Nat)
  | 0, n, out => if n < var.length then none else some out
  | fuel + 1, n, out =>
    if n < var.length then
      match substFind eq var n pairs with
      | some (a, b) => substWrite eq pairs var fuel (n + a.length) (out ++ b)
      | none => substWrite eq pairs var fuel (n + 1) (out ++ [var.getD n 0])
    else some out

/-- What SUBSTITUTE leaves. -/
inductive SubstRes where
  /-- the result field -/
  | done (d : List Nat)
  /-- the size pass never ends -/
  | endless
  /-- the second pass wrote more than the `calcsize` bytes of the result field -/
  | overflow
deriving DecidableEq, Repr

/-- libcob/intrinsic.c:678-773 `cob_intr_substitute` (with `eq` = memcmp) and
libcob/intrinsic.c:775-873 `cob_intr_substitute_case` (with `eq` = strncasecmp). -/
def substituteWith (eq : List Nat → List Nat → Bool) (offset length : Int) (var : List Nat)
    (pairs : List (List Nat × List Nat)) : SubstRes :=
  match substSize eq pairs var var.length 0 0, substWrite eq pairs var var.length 0 [] with
  | some calcsize, some out =>
    if out.length ≤ calcsize then
      .done (withRefMod offset length (out ++ List.replicate (calcsize - out.length) 0))
    else .overflow
  | _, _ => .endless

/-- libcob/intrinsic.c:678-773 `cob_intr_substitute`. -/
def intrSubstitute (offset length : Int) (var : List Nat) (pairs : List (List Nat × List Nat)) :
    SubstRes :=
  substituteWith (fun s a => s == a) offset length var pairs

/-- C library `strncasecmp (s, a, size) == 0` for two texts of the same size: the comparison also
ends, with equality, behind a NUL byte found in both. -/
def strncaseEq : List Nat → List Nat → Bool
  | c :: cs, d :: ds =>
    if toLowerB c = toLowerB d then (if c = 0 then true else strncaseEq cs ds) else false
  | _, _ => true

/-- libcob/intrinsic.c:775-873 `cob_intr_substitute_case`. -/
def intrSubstituteCase (offset length : Int) (var : List Nat)
    (pairs : List (List Nat × List Nat)) : SubstRes :=
  substituteWith strncaseEq offset length var pairs

/-- libcob/intrinsic.c:900-903: `for (; *end == ' '; end--)`; the number of bytes up to `end`. -/
def trimEnd (d : List Nat) : Nat → Nat
  | 0 => 0
  | n + 1 => if d.getD n 0 = 32 then trimEnd d n else n + 1

/-- libcob/intrinsic.c:896-898: `for (; *begin == ' '; ++begin)`; `fuel` bounds the recursion. -/
def trimBegin (d : List Nat) : Nat → Nat → Nat
  | 0, i => i
  | fuel + 1, i => if d.getD i 0 = 32 then trimBegin d fuel (i + 1) else i

/-- libcob/intrinsic.c:875-914 `cob_intr_trim`.  `direction`: 1 is LEADING, 2 is TRAILING. -/
def intrTrim (offset length : Int) (d : List Nat) (direction : Nat) : List Nat :=
  if d.all (· == 32) then [32]
  else
    let b := if direction ≠ 2 then trimBegin d d.length 0 else 0
    let e := if direction ≠ 1 then trimEnd d d.length else d.length
    withRefMod offset length ((d.drop b).take (e - b))

/-- libcob/intrinsic.c:1121-1139 `cob_intr_char`. -/
def intrChar (i : Int) : Nat := if i < 1 ∨ i > 256 then 0 else (i - 1).toNat

/-- libcob/intrinsic.c:1141-1153 `cob_intr_ord`. -/
def intrOrd (d : List Nat) : Int := (d.getD 0 0 : Nat) + 1

/-- The 32-bit `int` that `z` wraps to (signed overflow as the machine does it). -/
def wrap32 (z : Int) : Int := (z + 2147483648) % 4294967296 - 2147483648

/-- libcob/intrinsic.c:2659-2683 (2725-2749, 2793-2817): the checks and the window, with the upper
bound on the year that the caller uses. -/
def yearWindow (upper year interval xqtyear : Int) : Option Int :=
  if year < 0 ∨ year > upper then none
  else if xqtyear < 1601 ∨ xqtyear > 9999 then none
  else
    let maxyear := wrap32 (xqtyear + interval)
    if maxyear < 1700 ∨ maxyear > 9999 then none
    else if maxyear.tmod 100 ≥ year then some (year + 100 * maxyear.tdiv 100)
    else some (year + 100 * (maxyear.tdiv 100 - 1))

/-- libcob/intrinsic.c:2626-2687 `cob_intr_year_to_yyyy`, with its two optional arguments filled
in (50 and the current year when they are left out). -/
def yearToYyyy (year interval xqtyear : Int) : FnRes Int :=
  match yearWindow 99 year interval xqtyear with
  | none => ⟨0, true⟩
  | some y => ⟨y, false⟩

/-- libcob/intrinsic.c:2689-2755 `cob_intr_date_to_yyyymmdd`. -/
def dateToYyyymmdd (date interval xqtyear : Int) : FnRes Int :=
  match yearWindow 999999 (date.tdiv 10000) interval xqtyear with
  | none => ⟨0, true⟩
  | some y => ⟨wrap32 (wrap32 (y * 10000) + date.tmod 10000), false⟩

/-- libcob/intrinsic.c:2757-2823 `cob_intr_day_to_yyyyddd`. -/
def dayToYyyyddd (day interval xqtyear : Int) : FnRes Int :=
  match yearWindow 999999 (day.tdiv 1000) interval xqtyear with
  | none => ⟨0, true⟩
  | some y => ⟨wrap32 (wrap32 (y * 1000) + day.tmod 1000), false⟩

end Cob
