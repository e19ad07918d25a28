import Verif.Num.Item
/-
Model of the code generated for COMPUTE and the multi-receiver arithmetic statements
(cobc/typeck.c) and of its execution by libcob/numeric.c.
-/
namespace Cob

/-- The operators of an arithmetic expression (cobc/typeck.c:2283-2299; '^' is not modelled). -/
inductive Op where
  | add | sub | mul | div
deriving DecidableEq, Repr

/-- An arithmetic expression: leaves are the decimals the operands read as. -/
inductive Expr where
  | leaf (d : Dec)
  | bin (op : Op) (x y : Expr)
deriving Repr

/-- The calls emitted: `cob_decimal_set_field (d[r], x)` and `cob_decimal_OP (d[r], d[t])`. -/
inductive Instr where
  | set (r : Nat) (d : Dec)
  | op (o : Op) (r t : Nat)
deriving Repr

/-- cobc/typeck.c:2306-2379 `decimal_expand`, with `decimal_alloc`/`decimal_free` (2258-2275):
`r` is the register of the result, `n` the next free register (`decimal_index`).  Literals and
items that fit an int are loaded by `cob_decimal_set_int`, which denotes the same number; the
model does not distinguish them. -/
def compile : Expr → (r n : Nat) → List Instr
  | .leaf d, r, _ => [.set r d]
  | .bin o x y, r, n => compile x r (n + 1) ++ compile y n (n + 1) ++ [.op o r n]

/-- The decimal registers `d0, d1, ...` of the running program. -/
abbrev Regs := Nat → Dec

/-- Assignment of one register. -/
def Regs.put (R : Regs) (r : Nat) (d : Dec) : Regs := fun i => if i = r then d else R i

/-- Effect of one operation on the registers, including the in-place rescaling of both operands
by `align_decimal` (libcob/numeric.c:314-322, 1036-1082). -/
def opEffect (o : Op) (a b : Dec) : Dec × Dec :=
  match o with
  | .add => (a.add b, if a.isNaN || b.isNaN then b else (Dec.align a b).2)
  | .sub => (a.sub b, if a.isNaN || b.isNaN then b else (Dec.align a b).2)
  | .mul => (a.mul b, b)
  | .div => ((a.div b).1, b)

/-- Execution of the emitted calls. -/
def exec : List Instr → Regs → Regs
  | [], R => R
  | .set r d :: is, R => exec is (R.put r d)
  | .op o r t :: is, R =>
    let p := opEffect o (R r) (R t)
    exec is ((R.put t p.2).put r p.1)

/-- cobc/typeck.c:2387-2428 `build_decimal_assign` with `op = 0` (COMPUTE): expand the
expression into `d0`, then one `cob_decimal_get_field (d0, VAR, opt)` per receiver.
`cob_decimal_get_field` works on a copy (libcob/numeric.c:979-983). -/
def runCompute (ebc : Bool) (e : Expr) (vars : List (Item × StoreOpt)) (R : Regs) : List ItemRes :=
  let R' := exec (compile e 0 1) R
  vars.map fun v => storeItem ebc (R' 0) v.1 v.2

/-- cobc/typeck.c:2404-2420 with `op ≠ 0` (MULTIPLY x BY a b c, ADD x + y TO a b c, ...): for each
receiver: set t, VAR; OP t, d; store t.  `d` is register 0 and `t` register 1; `d` may be
rescaled by the operation before it is used for the next receiver.  The result is `none` when
a receiver's characters are not numeric. -/
def runMulti (ebc : Bool) (o : Op) : List (Item × StoreOpt) → Dec → Option (List ItemRes)
  | [], _ => some []
  | v :: vs, d =>
    match readItem ebc v.1 with
    | (some t, it) =>
      let p := opEffect o t d
      (runMulti ebc o vs p.2).map fun rs => storeItem ebc p.1 it v.2 :: rs
    | (none, _) => none

end Cob
