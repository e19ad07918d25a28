import Verif.Intr.Numeric
/-
FUNCTION NUMVAL and FUNCTION NUMVAL-C (libcob/intrinsic.c).
-/
namespace Cob

/-- C `tolower`, in the C locale. -/
def lowerC (c : Nat) : Nat := if 65 ≤ c ∧ c ≤ 90 then c + 32 else c

/-- libcob/intrinsic.c:1850-1851, 1929-1930: `strcasecmp (p, "CR") == 0 || strcasecmp (p, "DB") == 0`,
where `p` points into the argument: the comparison goes on, past the end of the argument, up to the
first NUL in storage. `mem` is the storage from `p` on; its end counts as a NUL. -/
def crdb (mem : List Nat) : Bool :=
  let s := (mem.takeWhile (· ≠ 0)).map lowerC
  s == [99, 114] || s == [100, 98]

/-- The variables of the loop: `llval`, the digits in `integer_buff` and `decimal_buff`, `sign` and
`decimal_seen`.  `llval` is unbounded here: it is only used when there are at most 18 digits. -/
structure NV where
  ll : Nat := 0
  whole : List Nat := []
  frac : List Nat := []
  neg : Bool := false
  seen : Bool := false
deriving Repr, DecidableEq

/-- libcob/intrinsic.c:1856-1877 and 1944-1968: one character. `sym` is the currency symbol of the
module, tested by NUMVAL-C only (1958). -/
def nvChar (dp : Nat) (sym : Option Nat) (c : Nat) (s : NV) : NV :=
  if c = 32 then s
  else if c = 43 then s
  else if c = 45 then { s with neg := true }
  else if c = dp then { s with seen := true }
  else if some c = sym then s
  else if 48 ≤ c ∧ c ≤ 57 then
    if s.seen then { s with ll := s.ll * 10 + (c - 48), frac := s.frac ++ [c] }
    else { s with ll := s.ll * 10 + (c - 48), whole := s.whole ++ [c] }
  else s

/-- libcob/intrinsic.c:1848-1881: the loop of `cob_intr_numval` over the characters left; `after` is
the storage behind the argument. The test for more than 30 digits is made here after every
character; the `continue`s of the code pass over it when the number of digits has not changed, so it
is the same. -/
def nvLoop (dp : Nat) (sym : Option Nat) (after : List Nat) : List Nat → NV → NV
  | [], s => s
  | c :: r, s =>
    if r ≠ [] ∧ crdb (c :: r ++ after) = true then { s with neg := true }
    else if (nvChar dp sym c s).whole.length + (nvChar dp sym c s).frac.length > 30 then nvChar dp sym c s
    else nvLoop dp sym after r (nvChar dp sym c s)

/-- libcob/intrinsic.c:1927-1972: the loop of `cob_intr_numval_c`. `cur` is the currency string,
`none` when there is none or it is not shorter than the argument (1921-1926); `skip` is the number of
characters of a currency string still to be passed over (1939: `i += currency->size - 1`). -/
def nvcLoop (dp : Nat) (sym : Option Nat) (cur : Option (List Nat)) (after : List Nat) : List Nat → Nat → NV → NV
  | [], _, s => s
  | _ :: r, k + 1, s => nvcLoop dp sym cur after r k s
  | c :: r, 0, s =>
    if r ≠ [] ∧ crdb (c :: r ++ after) = true then { s with neg := true }
    else match cur with
    | some cs =>
      if cs.length < (c :: r).length ∧ (c :: r).take cs.length = cs then nvcLoop dp sym cur after r (cs.length - 1) s
      else if (nvChar dp sym c s).whole.length + (nvChar dp sym c s).frac.length > 30 then nvChar dp sym c s
      else nvcLoop dp sym cur after r 0 (nvChar dp sym c s)
    | none =>
      if (nvChar dp sym c s).whole.length + (nvChar dp sym c s).frac.length > 30 then nvChar dp sym c s
      else nvcLoop dp sym cur after r 0 (nvChar dp sym c s)

/-- The result: an exact item, or the text that `sscanf` turns into a floating-point number. -/
inductive NVRes
  | exact (it : Item)
  | float (text : List Nat)
deriving Repr, DecidableEq

/-- libcob/intrinsic.c:1882-1903, 1973-1994: the result item. With at most 18 digits it is a signed
8-byte binary item with the decimals seen; with more, the number is printed and read back as a
`double` (not modelled further: only the text is given). -/
def nvResult (s : NV) : NVRes :=
  let v : Int := if s.neg then -(s.ll : Int) else s.ll
  if s.whole.length + s.frac.length ≤ 18 then
    let it := newBinary 18 s.frac.length true 8
    .exact { it with field := { it.field with data := leBytes 8 (v % 2 ^ 64).toNat } }
  else
    .float ((if s.neg then [45] else []) ++ (if s.whole = [] then [48] else s.whole) ++ [46] ++
      (if s.frac = [] then [48] else s.frac))

/-- libcob/intrinsic.c:1826-1905 `cob_intr_numval`. -/
def intrNumval (dp : Nat) (after x : List Nat) : NVRes := nvResult (nvLoop dp none after x {})

/-- libcob/intrinsic.c:1907-1996 `cob_intr_numval_c`. `cur` is the second argument. -/
def intrNumvalC (dp sym : Nat) (cur : Option (List Nat)) (after x : List Nat) : NVRes :=
  let cur := match cur with
    | some cs => if cs.length < x.length then some cs else none
    | none => none
  nvResult (nvcLoop dp (some sym) cur after x 0 {})

end Cob
