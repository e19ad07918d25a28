import Verif.Intr.Text
/-
Model of libcob/call.c: the table of resolved programs (CALL, CANCEL), the encoding of program names
into symbols, and the call tree used by CANCEL ALL.

The dynamic loader is an oracle: for every CALL it says which entry point the encoded symbol has, if
any.  Program names are C strings (bytes other than 0).  The fixed size of the name buffers
(COB_SMALL_BUFF) is not modelled.
-/
namespace Cob

/-! ### The table -/

/-- libcob/call.c:134-140 `struct call_hash`.  `func` and `cancel` are entry points, 0 for NULL. -/
structure CallRec where
  name : List Nat
  func : Nat
  cancel : Nat
deriving DecidableEq, Repr

/-- libcob/call.c:145 `call_table`: the list of every bucket. -/
abbrev CallTable := Nat → List CallRec

/-- libcob/call.c:233-242 `hash`. -/
def callHash (name : List Nat) : Nat := name.foldl (· + ·) 0 % 131

/-- `call_table[val] = l`. -/
def CallTable.set (t : CallTable) (val : Nat) (l : List CallRec) : CallTable :=
  fun v => if v = val then l else t v

/-- libcob/call.c:245-264 `insert`. -/
def callInsert (t : CallTable) (name : List Nat) (func cancel : Nat) : CallTable :=
  t.set (callHash name) (⟨name, func, cancel⟩ :: t (callHash name))

/-- libcob/call.c:272-276: the search along a bucket. -/
def findCall (name : List Nat) : List CallRec → Option CallRec
  | [] => none
  | p :: ps => if p.name = name then some p else findCall name ps

/-- libcob/call.c:267-281 `lookup` (0 for NULL). -/
def callLookup (t : CallTable) (name : List Nat) : Nat :=
  match findCall name (t (callHash name)) with
  | some p => p.func
  | none => 0

/-- libcob/call.c:357-362: the first entry of that name gets the cancel function. -/
def setCancelIn (name : List Nat) (cancel : Nat) : List CallRec → Option (List CallRec)
  | [] => none
  | p :: ps =>
    if p.name = name then some ({ p with cancel := cancel } :: ps)
    else (setCancelIn name cancel ps).map (p :: ·)

/-- libcob/call.c:347-364 `cob_set_cancel`: called by every program when it starts. -/
def setCancel (t : CallTable) (name : List Nat) (entry cancel : Nat) : CallTable :=
  match setCancelIn name cancel (t (callHash name)) with
  | some l => t.set (callHash name) l
  | none => callInsert t name entry cancel

/-- libcob/call.c:529-552 `cobcancel`: the cancel functions called, in order (`flag_is_active` is
never set and always 0). -/
def cobcancel (t : CallTable) (name : List Nat) : List Nat :=
  ((t (callHash name)).filter (fun p => p.name = name && p.cancel ≠ 0)).map (·.cancel)

/-! ### Name encoding -/

/-- One upper case hexadecimal digit. -/
def hexDigit (n : Nat) : Nat := if n < 10 then 48 + n else 55 + n

/-- `sprintf (p, "_%02X", c)`. -/
def escByte (c : Nat) : List Nat := [95, hexDigit (c / 16), hexDigit (c % 16)]

/-- C library `isalnum` ("C" locale). -/
def isAlnumC (c : Nat) : Bool :=
  (48 ≤ c && c ≤ 57) || (65 ≤ c && c ≤ 90) || (97 ≤ c && c ≤ 122)

/-- libcob/call.c:396-405: one character. -/
def encChar (c : Nat) : List Nat :=
  if isAlnumC c || c = 95 then [c] else if c = 45 then [95, 95] else escByte c

/-- libcob/call.c:390-406 (in `cob_resolve`) and cobc/typeck.c:582-607 `cb_encode_program_id`: the
symbol of a program name. -/
def encodeName (name : List Nat) : List Nat :=
  match name with
  | [] => []
  | c :: cs =>
    if 48 ≤ c ∧ c ≤ 57 then escByte c ++ cs.flatMap encChar else (c :: cs).flatMap encChar

/-- libcob/common.c:1229-1233: the last character that is neither space nor NUL, `n` characters
being left. -/
def stringEnd (d : List Nat) : Nat → Nat
  | 0 => 0
  | n + 1 => if d.getD n 0 ≠ 32 ∧ d.getD n 0 ≠ 0 then n + 1 else stringEnd d n

/-- libcob/common.c:1224-1235 `cob_field_to_string`; the C string ends at the first NUL. -/
def fieldToString (d : List Nat) : List Nat :=
  (d.take (stringEnd d d.length)).takeWhile (· ≠ 0)

/-! ### Resolution -/

/-- libcob/call.c:367-497 `cob_resolve`.  `dl` is the loader at this moment: the entry point of a
symbol in the main program, the preloaded modules or the module file found in the library path,
0 when there is none. -/
def cobResolve (t : CallTable) (dl : List Nat → Nat) (name : List Nat) : Nat × CallTable :=
  let func := callLookup t name
  if func ≠ 0 then (func, t)
  else
    let func := dl (encodeName name)
    if func ≠ 0 then (func, callInsert t name func 0) else (0, t)

/-- What happens to the table: CALL (with the loader of that moment), the start of a program, and
CANCEL. -/
inductive CallEvent where
  | call (name : List Nat) (dl : List Nat → Nat)
  | start (name : List Nat) (entry cancel : Nat)
  | cancel (name : List Nat)

/-- What an event answers: the entry point (0: not found) or the cancel functions called. -/
inductive CallOut where
  | entry (func : Nat)
  | started
  | cancelled (fs : List Nat)
deriving DecidableEq, Repr

/-- One event. -/
def callStep (t : CallTable) : CallEvent → CallOut × CallTable
  | .call name dl => let r := cobResolve t dl name; (.entry r.1, r.2)
  | .start name entry cancel => (.started, setCancel t name entry cancel)
  | .cancel name => (.cancelled (cobcancel t name), t)

/-- The answers to a run of events. -/
def callRun : CallTable → List CallEvent → List CallOut
  | _, [] => []
  | t, e :: es => (callStep t e).1 :: callRun (callStep t e).2 es

/-! ### The call tree -/

/-- `struct call_stack_list`: nodes are numbered in the order of their creation, 0 is
`call_stack_list_head`. -/
structure CallNode where
  name : List Nat
  parent : Option Nat
  children : Option Nat
  sister : Option Nat
deriving DecidableEq, Repr

/-- The nodes and `current_call_stack_list`. -/
structure CallTree where
  nodes : List CallNode
  current : Option Nat
deriving DecidableEq, Repr

/-- libcob/call.c:284-292 `init_call_stack_list`: the state after the first initialisation. -/
def callTreeInit : CallTree := ⟨[⟨[], none, none, none⟩], some 0⟩

/-- The children pointer of a node. -/
def CallTree.kid (t : CallTree) (i : Nat) : Option Nat := (t.nodes[i]?).bind (·.children)
/-- The sister pointer of a node. -/
def CallTree.sis (t : CallTree) (i : Nat) : Option Nat := (t.nodes[i]?).bind (·.sister)
/-- The name of a node. -/
def CallTree.nm (t : CallTree) (i : Nat) : List Nat := ((t.nodes[i]?).map (·.name)).getD []

/-- libcob/call.c:294-304 `cob_create_call_stack_list`: a node with the current node as parent
becomes current. -/
def createNode (t : CallTree) (name : List Nat) : Nat × CallTree :=
  (t.nodes.length, ⟨t.nodes ++ [⟨name, t.current, none, none⟩], some t.nodes.length⟩)

/-- libcob/call.c:760-769: the search among the further sisters.  `fuel` bounds the recursion. -/
def findSister (t : CallTree) (name : List Nat) : Nat → Nat → Option Nat
  | 0, _ => none
  | fuel + 1, p =>
    if t.nm p = name then some p
    else
      match t.sis p with
      | none => none
      | some q => findSister t name fuel q

/-- `t.nodes[i]` with another children pointer. -/
def setKid (ns : List CallNode) (i k : Nat) : List CallNode :=
  ns.modify i fun n => { n with children := some k }

/-- `t.nodes[i]` with another sister pointer. -/
def setSis (ns : List CallNode) (i k : Nat) : List CallNode :=
  ns.modify i fun n => { n with sister := some k }

/-- libcob/call.c:739-773 `cob_push_call_stack_list`, for a program that is called.  In the
assignments `current_call_stack_list->x = cob_create_call_stack_list (name)` the left side is
evaluated first, as GCC does in C (the function called changes `current_call_stack_list`). -/
def pushCall (t : CallTree) (name : List Nat) : CallTree :=
  let t := if t.current = none then { t with current := some 0 } else t
  match t.current with
  | none => t
  | some cur =>
    match t.kid cur with
    | none =>
      let r := createNode t name
      ⟨setKid r.2.nodes cur r.1, r.2.current⟩
    | some p =>
      if t.nm p = name then { t with current := some p }
      else
        match t.sis p with
        | none =>
          let r := createNode t name
          ⟨setSis r.2.nodes p r.1, r.2.current⟩
        | some q =>
          match findSister t name t.nodes.length q with
          | some s => { t with current := some s }
          | none =>
            let r := createNode t name
            ⟨setSis r.2.nodes cur r.1, r.2.current⟩

/-- libcob/call.c:775-779 `cob_pop_call_stack_list`. -/
def popCall (t : CallTree) : CallTree :=
  match t.current with
  | none => t
  | some cur => { t with current := (t.nodes[cur]?).bind (·.parent) }

/-- libcob/call.c:306-324 `cob_cancel_call_stack_list`: the nodes whose program is cancelled, in
order; the loop over the sisters is the second function.  `fuel` bounds the recursion. -/
def cancelNodes (t : CallTree) : Nat → Nat → List Nat
  | 0, _ => []
  | fuel + 1, p =>
    p :: ((match t.kid p with
           | some c => cancelNodes t fuel c
           | none => []) ++ sisters fuel (t.sis p))
where
  /-- `for (s = p->sister; s; s = s->sister) cob_cancel_call_stack_list (s)` -/
  sisters : Nat → Option Nat → List Nat
  | 0, _ => []
  | _ + 1, none => []
  | fuel + 1, some s => cancelNodes t fuel s ++ sisters fuel (t.sis s)

/-- libcob/call.c:781-790 `cob_cancel_all`: the names given to `cobcancel`. -/
def cancelAll (t : CallTree) (fuel : Nat) : List (List Nat) :=
  match t.current with
  | none => []
  | some cur =>
    match t.kid cur with
    | none => []
    | some c => (cancelNodes t fuel c).map t.nm

/-- libcob/call.c:306-324 and 554-566 `cob_field_cancel`: the cancel functions run by CANCEL ALL (the
names in the call tree have no trailing spaces). -/
def cancelAllRun (table : CallTable) (t : CallTree) (fuel : Nat) : List Nat :=
  (cancelAll t fuel).flatMap (cobcancel table)

/-- A call or a return of a program.  The name is the program's symbol: cobc/codegen.c:4343 gives
`cob_push_call_stack_list` the encoded name, while `cob_set_cancel` (line 4361) gets the name as
written in the source. -/
inductive TreeEvent where
  | enter (name : List Nat)
  | leave
deriving DecidableEq, Repr

/-- One event. -/
def treeStep (t : CallTree) : TreeEvent → CallTree
  | .enter name => pushCall t name
  | .leave => popCall t

end Cob
