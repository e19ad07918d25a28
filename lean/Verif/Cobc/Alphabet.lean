/-
The ALPHABET clause (a collating sequence listed by the program) and the CLASS clause.

Numbers are what `cb_get_int` gives for a numeric literal; non-numeric literals have one character at least.
-/
namespace Cob.Alpha

/-- /repo/cobc/parser.y:1421-1428 `alphabet_lits`, 7237-7245 `basic_value`: a non-numeric literal (its first character and the rest), a numeric one,
and the figurative constants. -/
inductive Lit where
  | text (c : Nat) (more : List Nat)
  | num (n : Int)
  | space | zero | quote | low | high | null
deriving DecidableEq, Repr

/-- /repo/cobc/parser.y:1402-1419 `alphabet_literal`: a literal, `x THRU y`, `x ALSO y ...`. -/
inductive Entry where
  | one (x : Lit)
  | thru (x y : Lit)
  | also (x : Lit) (more : List Lit)
deriving DecidableEq, Repr

/-- /repo/cobc/typeck.c:1256-1276 `get_value` and /repo/cobc/codegen.c:3846-3866 `literal_value` (the same text). -/
def value : Lit → Int
  | .text c _ => c
  | .num n => n - 1
  | .space => 32
  | .zero => 48
  | .quote => 34
  | .low => 0
  | .high => 255
  | .null => 0

/-- The variables of the check: `values`, `count`, `lastval`, `low_val_char`, `dupls`, `unvals`. -/
structure St where
  used : Nat → Bool := fun _ => false
  count : Nat := 0
  lastval : Int := 0
  low : Int := 0
  dupls : Bool := false
  unvals : Bool := false

/-- /repo/cobc/typeck.c:1336-1340 (and the same lines elsewhere): a character is noted. -/
def mark (s : St) (n : Nat) : St :=
  { s with dupls := s.dupls || s.used n, used := fun k => k = n || s.used k, count := s.count + 1 }

/-- /repo/cobc/typeck.c:1361-1369, 1379-1387, 1409-1417: a value is noted if it is one of a character. -/
def markValue (s : St) (v : Int) : St :=
  if v < 0 ∨ v > 255 then { s with unvals := true } else mark s v.toNat

/-- The numbers from `lo` to `up`, up or down. -/
def span (lo up : Nat) : List Nat :=
  if lo ≤ up then (List.range (up - lo + 1)).map (lo + ·) else (List.range (lo - up + 1)).map (lo - ·)

/-- /repo/cobc/typeck.c:1318-1420: one entry is checked. -/
def checkEntry (s : St) : Entry → St
  | .thru x y =>
    let lower := value x
    let upper := value y
    let s := { s with lastval := upper, low := if s.count = 0 then lower else s.low }
    if lower < 0 ∨ lower > 255 then { s with unvals := true }
    else if upper < 0 ∨ upper > 255 then { s with unvals := true }
    else (span lower.toNat upper.toNat).foldl mark s
  | .also x more =>
    let s := { s with low := if s.count = 0 then value x else s.low }
    let s := ((x :: more).map value).foldl markValue s
    { s with lastval := ((x :: more).map value).getLast (by simp) }
  | .one (.text c more) =>
    let s := { s with lastval := (((c :: more).getLast (by simp) : Nat) : Int), low := if s.count = 0 then (c : Int) else s.low }
    (c :: more).foldl mark s
  | .one x =>
    let s := { s with lastval := value x, low := if s.count = 0 then value x else s.low }
    markValue s (value x)

/-- /repo/cobc/typeck.c:1312-1421: all entries; an entry behind 256 characters is an error. -/
def checkAll (s : St) : List Entry → St
  | [] => s
  | e :: es => if s.count > 255 then { s with unvals := true } else checkAll (checkEntry s e) es

/-- /repo/cobc/typeck.c:1438-1446: the highest character: the last one if all are listed; the highest one not listed if 255 is. -/
def highChar (s : St) : Int :=
  if s.count = 256 then s.lastval
  else if s.used 255 then
    match (List.range 255).reverse.find? (fun n => !s.used n) with
    | some n => n
    | none => 255
  else 255

/-- The outcome for an alphabet: accepted or not, and the characters of LOW-VALUE and HIGH-VALUE. -/
structure Outcome where
  ok : Bool
  low : Int
  high : Int
deriving DecidableEq, Repr

/-- /repo/cobc/typeck.c:1303-1447 `cb_validate_program_environment`, for one alphabet. -/
def check (es : List Entry) : Outcome :=
  let s := checkAll {} es
  if s.dupls || s.unvals then ⟨false, 0, 255⟩ else ⟨true, s.low, highChar s⟩

/-- The table in the making: `n` and `table` (`none` is -1). -/
structure Tab where
  n : Nat := 0
  at_ : Nat → Option Nat := fun _ => none

/-- `table[i] = n`. -/
def Tab.put (t : Tab) (i : Nat) : Tab := { t with at_ := fun k => if k = i then some t.n else t.at_ k }

/-- `n++`. -/
def Tab.next (t : Tab) : Tab := { t with n := t.n + 1 }

/-- /repo/cobc/codegen.c:3889-3922 `output_alphabet_name_definition`: one entry.  The loop for a range that goes down begins at its end and does nothing. -/
def tabEntry (t : Tab) : Entry → Tab
  | .thru x y =>
    if value x ≤ value y then (span (value x).toNat (value y).toNat).foldl (fun t i => (t.put i).next) t else t
  | .also x more => (((x :: more).map value).foldl (fun t v => t.put v.toNat) t).next
  | .one (.text c more) => (c :: more).foldl (fun t i => (t.put i).next) t
  | .one x => (t.put (value x).toNat).next

/-- /repo/cobc/codegen.c:3925-3929: the rest of the characters. -/
def fillOne (t : Tab) (i : Nat) : Tab := if (t.at_ i).isNone then (t.put i).next else t

/-- /repo/cobc/codegen.c:3868-3951: the table of an alphabet; each entry is written as an `unsigned char`. -/
def table (es : List Entry) (c : Nat) : Nat :=
  ((((List.range 256).foldl fillOne (es.foldl tabEntry {})).at_ c).getD 0) % 256

/-- An item of a CLASS clause. -/
inductive ClassItem where
  | one (x : Lit)
  | thru (x y : Lit)
deriving DecidableEq, Repr

/-- /repo/cobc/parser.y:263-279 `literal_value` of the parser: a number is not made a character position.  (For LOW-VALUE and HIGH-VALUE the
program reads a field of another structure; the items are left out below.) -/
def parserValue : Lit → Int
  | .num n => n
  | x => value x

/-- /repo/cobc/parser.y:1492-1502 `class_item` and /repo/cobc/codegen.c:3972-3979: the pair, and the test of a byte. -/
def thruTest (x y : Lit) (b : Nat) : Bool :=
  let p := if parserValue x < parserValue y then (x, y) else (y, x)
  let lower := value p.1
  let upper := value p.2
  if lower = 0 then (b : Int) ≤ upper else lower ≤ b && (b : Int) ≤ upper

/-- /repo/cobc/codegen.c:3971-4003: the test of a byte. -/
def itemTest (b : Nat) : ClassItem → Bool
  | .thru x y => thruTest x y b
  | .one (.text c more) => (c :: more).any fun d => b = d
  | .one x => (b : Int) = value x

/-- /repo/cobc/codegen.c:3954-4015 `output_class_name_definition`: the class condition for an item with these bytes. -/
def classTest (items : List ClassItem) (data : List Nat) : Bool := data.all fun b => items.any (itemTest b)

end Cob.Alpha
