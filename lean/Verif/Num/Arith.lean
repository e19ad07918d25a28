import Verif.Num.Compute
import Verif.Num.FastPath
/-
Model of the arithmetic statements ADD, SUBTRACT, MULTIPLY, DIVIDE and COMPUTE as a whole: what
the parser makes of each format, the calls cobc emits for the receivers one after the other, and
the branch taken by the ON SIZE ERROR and NOT ON SIZE ERROR phrases.

Not modelled: ADD/SUBTRACT CORRESPONDING (see `Cobc/Corr.lean`), DIVIDE ... REMAINDER (see C07),
numeric-edited and floating-point receivers, index and pointer receivers, exponentiation, the
`cob_check_numeric` calls of a debugging build.
-/
namespace Cob.Arith

/-- The items of the program, by number; different numbers are different storage. -/
abbrev State := Nat → Item

/-- Assignment of one item. -/
def put (σ : State) (v : Nat) (it : Item) : State := fun w => if w = v then it else σ w

/-- cobc/parser.y:6875-6877 `arithmetic_x`: a receiver and its ROUNDED phrase. -/
structure Recv where
  v : Nat
  rounded : Bool := false
deriving DecidableEq, Repr

/-- An operand: a numeric literal (the number it denotes) or an item. -/
inductive Opnd where
  | lit (d : Dec)
  | var (v : Nat)
deriving DecidableEq, Repr

/-- The tree of an arithmetic expression (cobc/tree.c:2231-2304 `cb_build_binary_op`; the
compile-time check of a literal divisor is not modelled). -/
inductive Tree where
  | leaf (x : Opnd)
  | bin (o : Op) (x y : Tree)
deriving Repr

/-- The formats of the arithmetic statements (cobc/parser.y:4268-4276, 4513-4517, 4709-4727,
5384-5393, 6108-6116). -/
inductive Stmt where
  /-- `ADD x xs TO rs` -/
  | addTo (x : Opnd) (xs : List Opnd) (rs : List Recv)
  /-- `ADD x xs GIVING rs`; `ADD x xs TO y GIVING rs` when `y` is the last of `xs` -/
  | addGiving (x : Opnd) (xs : List Opnd) (y : Option Opnd) (rs : List Recv)
  /-- `SUBTRACT x xs FROM rs` -/
  | subFrom (x : Opnd) (xs : List Opnd) (rs : List Recv)
  /-- `SUBTRACT x xs FROM y GIVING rs` -/
  | subGiving (x : Opnd) (xs : List Opnd) (y : Opnd) (rs : List Recv)
  /-- `MULTIPLY x BY rs` -/
  | mulBy (x : Opnd) (rs : List Recv)
  /-- `MULTIPLY x BY y GIVING rs` -/
  | mulGiving (x y : Opnd) (rs : List Recv)
  /-- `DIVIDE x INTO rs` -/
  | divInto (x : Opnd) (rs : List Recv)
  /-- `DIVIDE x INTO y GIVING rs` -/
  | divIntoGiving (x y : Opnd) (rs : List Recv)
  /-- `DIVIDE x BY y GIVING rs` -/
  | divByGiving (x y : Opnd) (rs : List Recv)
  /-- `COMPUTE rs = e` -/
  | compute (rs : List Recv) (e : Tree)
deriving Repr

/-- Which of the two phrases the statement carries (cobc/parser.y:6492-6519). -/
structure Phrases where
  onSize : Bool := false
  notOnSize : Bool := false
deriving DecidableEq, Repr

/-- What the program is compiled for: EBCDIC signs, `binary-truncate`, and which items have
USAGE COMP-5 or COMP-X. -/
structure Prog where
  ebc : Bool := false
  binTrunc : Bool := true
  native : Nat → Bool

/-- cobc/tree.c:2307-2317 `cb_build_binary_list`. -/
def binaryList (o : Op) (x : Opnd) (xs : List Opnd) : Tree :=
  xs.foldl (fun e y => .bin o e (.leaf y)) (.leaf x)

/-- cobc/parser.y:4268-4276, 4513-4517, 4709-4720, 5384-5393, 6108-6116: the arguments of
`cb_emit_arithmetic`: receivers, operator (`none` for 0) and value.  `add_to` appends the operand
after TO to the list (4283-4285); for SUBTRACT ... GIVING the operand after FROM is put in
front. -/
def emit : Stmt → List Recv × Option Op × Tree
  | .addTo x xs rs => (rs, some .add, binaryList .add x xs)
  | .addGiving x xs y rs => (rs, none, binaryList .add x (xs ++ y.toList))
  | .subFrom x xs rs => (rs, some .sub, binaryList .add x xs)
  | .subGiving x xs y rs => (rs, none, binaryList .sub y (x :: xs))
  | .mulBy x rs => (rs, some .mul, .leaf x)
  | .mulGiving x y rs => (rs, none, .bin .mul (.leaf x) (.leaf y))
  | .divInto x rs => (rs, some .div, .leaf x)
  | .divIntoGiving x y rs => (rs, none, .bin .div (.leaf y) (.leaf x))
  | .divByGiving x y rs => (rs, none, .bin .div (.leaf x) (.leaf y))
  | .compute rs e => (rs, none, e)

/-- cobc/typeck.c:2217-2256 `build_store_option`; `handler1` is the ON SIZE ERROR phrase,
`handler_id` is set by either phrase.  The last component is the module flag the run-time system
looks at itself (libcob/numeric.c:546). -/
def storeOption (P : Prog) (ph : Phrases) (r : Recv) : StoreOpt :=
  if P.native r.v then ⟨r.rounded, ph.onSize, false, P.binTrunc⟩
  else if P.binTrunc = false then ⟨r.rounded, ph.onSize, false, P.binTrunc⟩
  else if ph.onSize || ph.notOnSize then ⟨r.rounded, true, false, P.binTrunc⟩
  else ⟨r.rounded, false, true, P.binTrunc⟩

/-- `opt == cb_int0` (cobc/typeck.c:3005, 3041). -/
def StoreOpt.isZero (o : StoreOpt) : Bool := !o.round && !o.keep && !o.trunc

/-- cobc/typeck.c:2313-2358, the operand cases of `decimal_expand`: an item that fits a C `int` is
loaded by `cob_decimal_set_int` or `cob_decimal_set_uint` from the C expression for it, any other
by `cob_decimal_set_field`.  `none`: the characters are not digits.  Reading takes a sign off and
puts it back; the model leaves the item as it is.  A literal is loaded as its number by either
routine. -/
def load (ebc : Bool) (σ : State) : Opnd → Option Dec
  | .lit d => some d
  | .var v =>
    let it := σ v
    if fitsInt (.item it) then
      some ⟨if it.field.attr.haveSign then toCInt (outputInteger ebc it)
            else outputInteger ebc it % 4294967296, 0⟩
    else (readItem ebc it).1

/-- The expression with its operands loaded (cobc/typeck.c:2359-2370; no store takes place between
the loads). -/
def resolve (ebc : Bool) (σ : State) : Tree → Option Expr
  | .leaf x => (load ebc σ x).map .leaf
  | .bin o x y =>
    match resolve ebc σ x, resolve ebc σ y with
    | some a, some b => some (.bin o a b)
    | _, _ => none

/-- The loops over the receivers: each step reads and changes the state the previous ones left. -/
def each {D : Type} (step : D → State → Recv → Option (ItemRes × D)) :
    List Recv → D → State → Option (State × Bool)
  | [], _, σ => some (σ, false)
  | r :: rs, d, σ =>
    match step d σ r with
    | none => none
    | some (res, d') => (each step rs d' (put σ r.v res.item)).map fun q => (q.1, res.raised || q.2)

/-- cobc/typeck.c:2400-2406, 2382-2385: `cob_decimal_get_field (d, VAR, opt)`. -/
def stepStore (P : Prog) (ph : Phrases) (d : Dec) (σ : State) (r : Recv) : Option (ItemRes × Dec) :=
  some (storeItem P.ebc d (σ r.v) (storeOption P ph r), d)

/-- cobc/typeck.c:2407-2422: set t, VAR; OP t, d; set VAR, t. -/
def stepOp (P : Prog) (ph : Phrases) (o : Op) (d : Dec) (σ : State) (r : Recv) :
    Option (ItemRes × Dec) :=
  match load P.ebc σ (.var r.v) with
  | none => none
  | some t =>
    let p := opEffect o t d
    some (storeItem P.ebc p.1 (σ r.v) (storeOption P ph r), p.2)

/-- The operand as the second argument of `cob_add` (libcob/numeric.c:1283): a literal is a
constant field. -/
def readOpnd (ebc : Bool) (σ : State) : Opnd → Option Dec
  | .lit d => some d
  | .var v => (readItem ebc (σ v)).1

/-- cobc/tree.c:629-641 `cb_fits_int` for an operand.  A literal is taken by its value: fewer than
ten significant digits instead of fewer than ten digits. -/
def fits (σ : State) : Opnd → Bool
  | .lit d => decide (d.scale = 0) && fitsInt (.lit d.value)
  | .var v => fitsInt (.item (σ v))

/-- `cb_build_cast_integer (n)`: the C integer expression for the operand. -/
def intOf (ebc : Bool) (σ : State) : Opnd → Int
  | .lit d => d.value
  | .var v => outputInteger ebc (σ v)

/-- cobc/typeck.c:2851-2967 `cb_build_optim_add`, `cb_build_optim_sub`; for a binary item with
decimals `cob_add_int` (libcob/numeric.c:1309-1322; `cob_sub_int` negates) adds in a decimal and
stores with option 0. -/
def fast (P : Prog) (o : Op) (it : Item) (n : Int) : Option Item :=
  if it.usage = .binary ∧ it.field.attr.scale ≠ 0 then
    let m := if o = .sub then toCInt (-toCInt n) else toCInt n
    if m = 0 then some it
    else
      match readItem P.ebc it with
      | (some d, _) =>
        some (storeItem P.ebc ⟨d.value + m * 10 ^ d.scale.toNat, d.scale⟩ it
          ⟨false, false, false, P.binTrunc⟩).item
      | (none, _) => none
  else if o = .sub then optimSub P.ebc P.binTrunc it n
  else optimAdd P.ebc P.binTrunc it n

/-- cobc/typeck.c:2969-3045 `cb_build_add`, `cb_build_sub`, and libcob/numeric.c:1279-1295
`cob_add`, `cob_sub`.  The operand is read anew for every receiver.  The specialised routines are
used only without options: for a zoned item that means `binary-truncate: no`, and then they raise
nothing (libcob/numeric.c:1127, 1154). -/
def stepOne (P : Prog) (ph : Phrases) (o : Op) (x : Opnd) (_ : Unit) (σ : State) (r : Recv) :
    Option (ItemRes × Unit) :=
  let opt := storeOption P ph r
  if StoreOpt.isZero opt && fits σ x then
    (fast P o (σ r.v) (intOf P.ebc σ x)).map fun it => (⟨it, false, false⟩, ())
  else
    match (readItem P.ebc (σ r.v)).1, readOpnd P.ebc σ x with
    | some d1, some d2 =>
      some (storeItem P.ebc (if o = .sub then d1.sub d2 else d1.add d2) (σ r.v) opt, ())
    | _, _ => none

/-- cobc/typeck.c:2430-2489 `cb_emit_arithmetic` and 2387-2428 `build_decimal_assign`, executed
with decimal registers `R`: the items afterwards and whether a size error was raised.  `none`:
an item read does not hold a number. -/
def body (P : Prog) (ph : Phrases) (R : Regs) (s : Stmt) (σ : State) : Option (State × Bool) :=
  let rs := (emit s).1
  let val := (emit s).2.2
  match (emit s).2.1, val with
  | some .add, .leaf x => each (stepOne P ph .add x) rs () σ
  | some .sub, .leaf x => each (stepOne P ph .sub x) rs () σ
  | op, val =>
    match resolve P.ebc σ val with
    | none => none
    | some e =>
      let d := exec (compile e 0 1) R 0
      match op with
      | none => each (stepStore P ph) rs d σ
      | some o => each (stepOp P ph o) rs d σ

/-- Which imperative statement is executed after the arithmetic. -/
inductive Branch where
  | onSize | notOnSize | neither
deriving DecidableEq, Repr

/-- cobc/codegen.c:3265-3309: the exception code is cleared before the statement when there is a
phrase, and tested after it.  A size error of any kind has the class `COB_EC_SIZE`. -/
def branch (ph : Phrases) (raised : Bool) : Branch :=
  if ph.onSize then
    if raised then .onSize else if ph.notOnSize then .notOnSize else .neither
  else if ph.notOnSize then
    if raised then .neither else .notOnSize
  else .neither

/-- The statement: the items afterwards and the phrase taken. -/
def run (P : Prog) (ph : Phrases) (R : Regs) (s : Stmt) (σ : State) : Option (State × Branch) :=
  (body P ph R s σ).map fun q => (q.1, branch ph q.2)

end Cob.Arith
