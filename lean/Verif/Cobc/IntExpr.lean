import Verif.Num.FastPath
/-
Arithmetic the compiler emits as C integer expressions: subscripts, reference modification, TIMES
and other integer operands (cobc/codegen.c `output_integer`).
-/
namespace Cob

/-- The C types that occur. -/
inductive CTy
  | int | uint | llong | ullong
deriving DecidableEq, Repr

/-- A number converted to a C type. -/
def CTy.conv : CTy → Int → Int
  | .int, z => toCInt z
  | .uint, z => z % 2 ^ 32
  | .llong, z => (z + 2 ^ 63) % 2 ^ 64 - 2 ^ 63
  | .ullong, z => z % 2 ^ 64

/-- The type of the result of an operation (C: the usual arithmetic conversions). -/
def CTy.join (a b : CTy) : CTy :=
  if a = .ullong ∨ b = .ullong then .ullong
  else if a = .llong ∨ b = .llong then .llong
  else if a = .uint ∨ b = .uint then .uint
  else .int

/-- cobc/codegen.c:832-946: the C type of the expression emitted for a numeric item. `char` and
`short` are promoted to `int`. -/
def itemTy (it : Item) : CTy :=
  match it.usage with
  | .binary =>
    let n := it.field.data.length
    if n = 1 ∨ n = 2 then .int
    else if n = 8 then if it.field.attr.haveSign then .llong else .ullong
    else if it.field.attr.haveSign then .int else .uint
  | _ => .int

inductive IOp
  | add | sub | mul | div
deriving DecidableEq, Repr

/-- An arithmetic expression in an integer context (exponentiation, which goes through `pow`, is left
out). -/
inductive IExp
  | lit (n : Int)
  | item (it : Item)
  | op (o : IOp) (a b : IExp)

/-- The C operation. -/
def IOp.run (o : IOp) (a b : Int) : Int :=
  match o with
  | .add => a + b
  | .sub => a - b
  | .mul => a * b
  | .div => a.tdiv b

/-- cobc/codegen.c:752-958 `output_integer`: type and value of the emitted C expression. Signed
overflow, undefined in C, is taken to wrap around. -/
def IExp.run (ebc : Bool) : IExp → CTy × Int
  | .lit n => (.int, toCInt n)
  | .item it => (itemTy it, outputInteger ebc it)
  | .op o a b =>
    let t := (a.run ebc).1.join (b.run ebc).1
    (t, t.conv (o.run (t.conv (a.run ebc).2) (t.conv (b.run ebc).2)))

end Cob
