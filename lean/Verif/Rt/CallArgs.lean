import Verif.Num.FastPath
/-
Model of the arguments of a CALL: the code `output_call` generates on the side of the caller
(cobc/codegen.c:2257-2740), the entry functions of the called program
(cobc/codegen.c:4738-4891), its saved linkage addresses (cobc/codegen.c:4312-4330) and the sizes
of its ANY LENGTH items (cobc/codegen.c:4534-4552).

Machine: the little-endian 64-bit machine of the default build.  Every C object is a separate list
of bytes: an address is an object and an offset.  What the called program does is left open: it
may look at all its parameters and change one byte of one of them at a time, as often as it likes.

Not modelled: ADDRESS OF and program pointers as arguments (`CB_CAST_P`), files as arguments, the
name resolution (`Verif/Rt/Call.lean`), RETURNING, reference-modified items BY VALUE.
-/
namespace Cob.Args

/-- The C objects the arguments live in: the storage of the caller, the union `content_n` of
argument `n` (cobc/codegen.c:2313-2341), the string constant of argument `n` (`output_data`,
cobc/codegen.c:438-447), the result field of a FUNCTION (cobc/codegen.c:480-482) and the parameter
variable `i_n` of the entry function (cobc/codegen.c:4778-4806). -/
inductive Obj where
  | store
  | content (n : Nat)
  | lit (n : Nat)
  | result (n : Nat)
  | value (n : Nat)
deriving DecidableEq, Repr

/-- An address: an object and an offset in it. -/
structure Addr where
  obj : Obj
  off : Nat
deriving DecidableEq, Repr

/-- The contents of the objects. -/
abbrev Mem := Obj → List Nat

/-- The `n` bytes at an address. -/
def Mem.read (m : Mem) (a : Addr) (n : Nat) : List Nat := ((m a.obj).drop a.off).take n

/-- Change one byte. -/
def Mem.put (m : Mem) (a : Addr) (b : Nat) : Mem :=
  fun o => if o = a.obj then (m o).set a.off b else m o

/-- Give an object new contents. -/
def Mem.fill (m : Mem) (o : Obj) (bs : List Nat) : Mem := fun p => if p = o then bs else m p

/-- cobc/tree.h:1006-1008. -/
inductive Mode where
  | reference | content | value
deriving DecidableEq, Repr

/-- cobc/tree.h:1219-1227: the SIZE phrase; `width` is 0 for AUTO, else the bytes (1, 2, 4, 8). -/
structure SizeSpec where
  width : Nat
  unsigned : Bool
deriving DecidableEq, Repr

/-- What the compiler knows of an argument item: a zoned, packed or binary number, an INDEX or
LENGTH item, or anything else. -/
inductive IKind where
  | num (u : Usage) (a : Attr)
  | index
  | alnum
deriving DecidableEq, Repr

/-- An argument: an item (offset in the caller's storage, current size `output_size`, declared
size `cb_field (x)->size`), an integer numeric literal (its value and the
characters of it, with the sign), an alphanumeric literal, a FUNCTION with its
result, or OMITTED. -/
inductive ArgX where
  | item (off size decl : Nat) (k : IKind)
  | numLit (v : Int) (len : Nat)
  | alnumLit (bs : List Nat)
  | func (bs : List Nat)
  | omitted
deriving DecidableEq, Repr

/-- One entry of the USING list (cobc/parser.y:4369-4382). -/
structure Arg where
  mode : Mode
  sizes : SizeSpec
  x : ArgX
deriving DecidableEq, Repr

/-- What the C call passes: an address, a null pointer, or an integer in `w` bytes (after the
default argument promotions: the function pointer has no prototype). -/
inductive Passed where
  | ptr (a : Addr)
  | null
  | int (w : Nat) (v : Int)
deriving DecidableEq, Repr

/-- The little-endian bytes of an integer in `w` bytes. -/
def intBytes (w : Nat) (v : Int) : List Nat := leBytes w (v % 2 ^ (8 * w)).toNat

/-- The bytes of the union after the bytes set: never set (`junk`). -/
def padTo (junk : Nat → Nat) (n : Nat) (bs : List Nat) : List Nat :=
  bs ++ (List.range (n - bs.length)).map fun i => junk (bs.length + i)

/-- cobc/codegen.c:2350-2359, 2380-2389: a numeric literal goes into the `int` or into the
`long long` of the union. -/
def litBytes (junk : Nat → Nat) (v : Int) : List Nat :=
  if fitsInt (.lit v) then padTo junk 8 (intBytes 4 v) else intBytes 8 v

/-- cobc/codegen.c:2308-2408: the contents of the union `content_n`, when there is one. -/
def contentOf (junk : Nat → Nat) (m : Mem) (a : Arg) : Option (List Nat) :=
  match a.mode, a.x with
  | .reference, .numLit v _ => some (litBytes junk v)
  | .content, .numLit v _ => some (litBytes junk v)
  | .content, .item off size decl _ => some (padTo junk (max decl 8) (m.read ⟨.store, off⟩ size))
  | .content, .alnumLit bs => some (padTo junk (max bs.length 8) bs)
  | _, _ => none

/-- cobc/codegen.c:2622-2652: the width chosen by SIZE AUTO. -/
def autoWidth (n : Int) : Nat :=
  if n = 0 then 4 else if n = 1 then 1 else if n = 2 then 2 else if n = 3 then 4 else if n = 4 then 4
  else 8

/-- A C conversion of an integer to a type of `w` bytes. -/
def castInt (unsigned : Bool) (w : Nat) (v : Int) : Int :=
  if unsigned then v % 2 ^ (8 * w) else (v + 2 ^ (8 * w - 1)) % 2 ^ (8 * w) - 2 ^ (8 * w - 1)

/-- cobc/codegen.c:2603-2681: a numeric item BY VALUE.  With SIZE AUTO the cast is `unsigned` when
the item is signed (2615-2619). -/
def valueOf (ebc : Bool) (s : SizeSpec) (u : Usage) (a : Attr) (data : List Nat) : Passed :=
  let v := outputInteger ebc ⟨u, ⟨a, data⟩⟩
  if s.width = 0 then
    let n : Int := if u = .packed ∨ u = .display then (a.digits : Int) - a.scale else data.length
    let w := autoWidth n
    .int (max w 4) (castInt a.haveSign w v)
  else .int (max s.width 4) (castInt s.unsigned s.width v)

/-- cobc/codegen.c:2554-2704: argument `n` of the C call. -/
def passArg (ebc : Bool) (m : Mem) (n : Nat) (a : Arg) : Passed :=
  match a.mode, a.x with
  | _, .func _ => .ptr ⟨.result n, 0⟩
  | .reference, .numLit _ _ => .ptr ⟨.content n, 0⟩
  | .reference, .item off _ _ _ => .ptr ⟨.store, off⟩
  | .reference, .alnumLit _ => .ptr ⟨.lit n, 0⟩
  | .content, .numLit _ _ => .ptr ⟨.content n, 0⟩
  | .content, .item _ _ _ _ => .ptr ⟨.content n, 0⟩
  | .content, .alnumLit _ => .ptr ⟨.content n, 0⟩
  | .value, .numLit v _ => .int 4 (toCInt v)
  | .value, .alnumLit bs => .int 4 (bs.headD 0)
  | .value, .item off _ decl k =>
    match k with
    | .num u at_ => valueOf ebc a.sizes u at_ (m.read ⟨.store, off⟩ decl)
    | .index => .int 4 (castInt false 4 (leVal (m.read ⟨.store, off⟩ 4)))
    | .alnum => .int 4 ((m.read ⟨.store, off⟩ 1).headD 0)
  | _, .omitted => .null

/-- The objects when the call is made: the unions are filled (cobc/codegen.c:2344-2408), constants
and FUNCTION results are there. -/
def setupFrom (junk : Nat → Nat → Nat) (m0 : Mem) : Nat → List Arg → Mem → Mem
  | _, [], m => m
  | n, a :: l, m =>
    let m1 := match contentOf (junk n) m0 a with
      | some bs => m.fill (.content n) bs
      | none => m
    let m2 := match a.x with
      | .alnumLit bs => m1.fill (.lit n) (bs ++ [0])
      | .func bs => m1.fill (.result n) bs
      | _ => m1
    setupFrom junk m0 (n + 1) l m2

/-- cobc/codegen.c:2410-2448: the size of the field in `cob_procedure_parameters` for an argument
(`none`: a null pointer). -/
def fieldSize (a : Arg) : Option Nat :=
  match a.x with
  | .item _ size _ _ => some size
  | .numLit _ len => some len
  | .alnumLit bs => some bs.length
  | .func bs => some bs.length
  | .omitted => none

/-! ### the called program -/

/-- A parameter of an entry (cobc/parser.y:3712-3717): its name, whether BY VALUE, whether of class
numeric, the SIZE and the declared size of the linkage item. -/
structure PDecl where
  name : Nat
  byValue : Bool
  numeric : Bool
  sizes : SizeSpec
  size : Nat
deriving DecidableEq, Repr

/-- What a parameter is in the entry function: an address, a null pointer, or undefined. -/
inductive Slot where
  | at (a : Addr)
  | null
  | bad
deriving DecidableEq, Repr

/-- cobc/codegen.c:4771-4834, 4860-4891: parameter `n` of the entry function and the bytes of its
variable `i_n` when it has one.  A parameter narrower than what was passed takes the low bytes; a
wider one, and an integer taken for an address, is undefined. -/
def receive (p : PDecl) (n : Nat) (a : Passed) : Slot × Option (List Nat) :=
  if p.byValue && p.numeric then
    match a with
    | .int w v =>
      if 0 < p.sizes.width ∧ p.sizes.width ≤ w then
        (.at ⟨.value n, 0⟩, some (intBytes p.sizes.width v))
      else (.bad, none)
    | _ => (.bad, none)
  else
    match a with
    | .ptr q => (.at q, none)
    | .null => (.null, none)
    | .int _ _ => (.bad, none)

/-- All parameters of the entry, from number `n` on: missing arguments are undefined. -/
def receiveAll : Nat → List PDecl → List Passed → Mem → List Slot × Mem
  | _, [], _, m => ([], m)
  | n, p :: ps, l, m =>
    let r := match l with
      | a :: _ => receive p n a
      | [] => (.bad, none)
    let m' := match r.2 with
      | some bs => m.fill (.value n) bs
      | none => m
    let rest := receiveAll (n + 1) ps l.tail m'
    (r.1 :: rest.1, rest.2)

/-- The call: what the called program's parameters are and the memory it starts with. -/
def enter (ebc : Bool) (junk : Nat → Nat → Nat) (m : Mem) (args : List Arg) (ps : List PDecl) :
    List Slot × Mem :=
  receiveAll 1 ps
    (args.zipIdx.map fun x => passArg ebc m (x.2 + 1) x.1)
    (setupFrom junk m 1 args m)

/-- The bytes of a parameter as the called program sees them. -/
def view (m : Mem) (s : Slot) (size : Nat) : List Nat :=
  match s with
  | .at a => m.read a size
  | _ => []

/-- What a called program can do: from its own state and all its parameters it decides to stop or
to change byte `off` of parameter `i`. -/
structure Body (σ : Type) where
  start : σ
  next : σ → List (List Nat) → Option (σ × Nat × Nat × Nat)

/-- One step of the called program: a change outside the parameter does not happen. -/
def bodyStep {σ : Type} (b : Body σ) (ps : List PDecl) (slots : List Slot) (st : σ × Mem) : σ × Mem :=
  match b.next st.1 ((slots.zip ps).map fun x => view st.2 x.1 x.2.size) with
  | none => st
  | some (s', i, off, v) =>
    match slots[i]?, ps[i]? with
    | some (.at a), some p =>
      if off < p.size then (s', st.2.put ⟨a.obj, a.off + off⟩ v) else (s', st.2)
    | _, _ => (s', st.2)

/-- `k` steps. -/
def bodyRun {σ : Type} (b : Body σ) (ps : List PDecl) (slots : List Slot) : Nat → σ × Mem → σ × Mem
  | 0, st => st
  | k + 1, st => bodyRun b ps slots k (bodyStep b ps slots st)

/-- The memory after the called program took `k` steps of a CALL. -/
def callRun {σ : Type} (ebc : Bool) (junk : Nat → Nat → Nat) (b : Body σ) (m : Mem) (args : List Arg)
    (ps : List PDecl) (k : Nat) : Mem :=
  let e := enter ebc junk m args ps
  (bodyRun b ps e.1 k (b.start, e.2)).2

/-! ### several entries, saved addresses -/

/-- cobc/codegen.c:5169-5182: the parameters of all entries, each name once. -/
def paramList (entries : List (List Nat)) : List Nat :=
  entries.flatten.foldl (fun l x => if x ∈ l then l else l ++ [x]) []

/-- cobc/codegen.c:4859-4889: what an entry passes on for the parameters of the program: its own
parameter of that name, else a null pointer. -/
def passOn {α : Type} (params using_ : List Nat) (vals : List α) : List (Option α) :=
  params.map fun p => ((using_.zip vals).find? fun x => x.1 == p).map (·.2)

/-- cobc/codegen.c:4312-4328: the addresses of the parameters and the saved ones, after
`cob_call_params` arguments were passed. -/
def stickyStep {α : Type} (nargs : Nat) (saved base : List (Option α)) : List (Option α) × List (Option α) :=
  let base' := (base.zip saved).zipIdx.map fun x =>
    if nargs < base.length ∧ nargs ≤ x.2 ∧ x.1.2.isSome then x.1.2 else x.1.1
  let saved' := (base'.zip saved).map fun x => if x.1.isSome then x.1 else x.2
  (base', saved')

/-- cobc/codegen.c:2706-2714: the arguments a program with `sticky-linkage` passes, and four null
pointers. -/
def stickyArgs {α : Type} (l : List (Option α)) : List (Option α) := l ++ List.replicate 4 none

/-- Successive calls of a program with one entry of `n` parameters (at most four arguments are
missing): the addresses of each call. -/
def stickyRun {α : Type} (n : Nat) : List (Option α) → List (List (Option α)) → List (List (Option α))
  | _, [] => []
  | saved, l :: rest =>
    let r := stickyStep l.length saved ((stickyArgs l).take n)
    r.1 :: stickyRun n r.2 rest

/-- cobc/codegen.c:4534-4550: the sizes of the ANY LENGTH parameters after a call. -/
def anyStep (params : List (Option Nat)) (sizes : List Nat) : List Nat :=
  sizes.zipIdx.map fun x =>
    match params[x.2]? with
    | some (some n) => n
    | _ => x.1

end Cob.Args
