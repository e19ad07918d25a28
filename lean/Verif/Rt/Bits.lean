/-
Model of the bit routines of libcob/common.c: CBL_AND, CBL_OR, CBL_NOR, CBL_XOR, CBL_IMP,
CBL_NIMP, CBL_EQ, CBL_NOT, CBL_XF4, CBL_XF5, and of CBL_X91.

The storage of the program is a map from addresses to bytes, so that the two operands of a routine
may overlap.  `COB_CHK_PARMS` (the check of the number of parameters) is not modelled.
-/
namespace Cob

abbrev Byte := BitVec 8

/-- Storage: the byte at every address. -/
abbrev Mem := Nat → Byte

/-- One assignment `*(p) = b`. -/
def Mem.set (m : Mem) (p : Nat) (b : Byte) : Mem := fun a => if a = p then b else m a

/-- The loop `for (n = 0; n < length; ++n) data_2[n] = op (data_1[n], data_2[n])` shared by the
routines below (libcob/common.c:2302-2304); `k` steps remain, the next one is number `n`. -/
def bitLoop (op : Byte → Byte → Byte) (p1 p2 : Nat) : Nat → Nat → Mem → Mem
  | 0, _, m => m
  | k + 1, n, m => bitLoop op p1 p2 k (n + 1) (m.set (p2 + n) (op (m (p1 + n)) (m (p2 + n))))

/-- libcob/common.c:2299-2305: `if (length <= 0) return 0;` and the loop. -/
def cblBitOp (op : Byte → Byte → Byte) (p1 p2 : Nat) (length : Int) (m : Mem) : Mem :=
  if length ≤ 0 then m else bitLoop op p1 p2 length.toNat 0 m

/-- libcob/common.c:2293-2306 `CBL_AND`. -/
def cblAnd := cblBitOp (fun a b => b &&& a)
/-- libcob/common.c:2309-2322 `CBL_OR`. -/
def cblOr := cblBitOp (fun a b => b ||| a)
/-- libcob/common.c:2325-2338 `CBL_NOR`. -/
def cblNor := cblBitOp (fun a b => ~~~ (a ||| b))
/-- libcob/common.c:2341-2354 `CBL_XOR`. -/
def cblXor := cblBitOp (fun a b => b ^^^ a)
/-- libcob/common.c:2357-2370 `CBL_IMP`. -/
def cblImp := cblBitOp (fun a b => (~~~ a) ||| b)
/-- libcob/common.c:2373-2386 `CBL_NIMP`. -/
def cblNimp := cblBitOp (fun a b => a &&& (~~~ b))
/-- libcob/common.c:2389-2402 `CBL_EQ`. -/
def cblEq := cblBitOp (fun a b => ~~~ (a ^^^ b))
/-- libcob/common.c:2405-2418 `CBL_NOT` (one operand). -/
def cblNot (p : Nat) := cblBitOp (fun a _ => ~~~ a) p p

/-- libcob/common.c:2427-2430: the loop of CBL_XF4, from `n` on. -/
def xf4Loop (p1 p2 : Nat) : Nat → Nat → Mem → Mem
  | 0, _, m => m
  | k + 1, n, m =>
    xf4Loop p1 p2 k (n + 1) (m.set p1 (m p1 ||| ((m (p2 + n) &&& 1#8) <<< (7 - n))))

/-- libcob/common.c:2421-2432 `CBL_XF4`: packs eight bytes into one. -/
def cblXf4 (p1 p2 : Nat) (m : Mem) : Mem := xf4Loop p1 p2 8 0 (m.set p1 0#8)

/-- libcob/common.c:2441-2443: the loop of CBL_XF5, from `n` on. -/
def xf5Loop (p1 p2 : Nat) : Nat → Nat → Mem → Mem
  | 0, _, m => m
  | k + 1, n, m =>
    xf5Loop p1 p2 k (n + 1)
      (m.set (p2 + n) (if m p1 &&& (1#8 <<< (7 - n)) ≠ 0#8 then 1#8 else 0#8))

/-- libcob/common.c:2435-2445 `CBL_XF5`: unpacks one byte into eight. -/
def cblXf5 (p1 p2 : Nat) (m : Mem) : Mem := xf5Loop p1 p2 8 0 m

/-- libcob/common.c:2453-2463: the loop of CBL_X91 function 11 over the eight bytes of `parm`. -/
def setSwitches : List Byte → List Nat → List Byte
  | b :: bs, p :: ps => (if p = 0 then 0#8 else if p = 1 then 1#8 else b) :: setSwitches bs ps
  | bs, _ => bs

/-- libcob/common.c:2448-2484 `CBL_X91`: switches and parameter area before, and the switches, the
parameter area and the result byte after.  `params` is `cob_save_call_params` (an `int`, kept as
its low byte). -/
def cblX91 (func : Nat) (switches : List Byte) (parm : List Nat) (params : Nat) :
    List Byte × List Nat × Nat :=
  if func = 11 then (setSwitches switches parm, parm, 0)
  else if func = 12 then (switches, switches.map (·.toNat) ++ parm.drop 8, 0)
  else if func = 16 then (switches, params % 256 :: parm.drop 1, 0)
  else (switches, parm, 1)

end Cob
