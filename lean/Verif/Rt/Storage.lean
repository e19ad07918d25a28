import Verif.Intr.Text
/-
Model of the run-time storage services of libcob/common.c: EXTERNAL items, ALLOCATE and FREE,
the exit and error procedures, and the bound checks.
-/
namespace Cob

/-! ### EXTERNAL items -/

/-- libcob/common.c `struct cob_external`: one entry of the list.  `area` names the storage area
obtained from `cob_malloc` (areas are numbered in the order they are obtained). -/
structure ExtRec where
  name : List Nat
  size : Int
  area : Nat
deriving DecidableEq, Repr

/-- The static variable `basext` and the number of areas obtained so far. -/
structure ExtState where
  list : List ExtRec
  areas : Nat
deriving DecidableEq, Repr

/-- The answer to a request: the area and the flag `cob_initial_external`, or the end of the run
with an error. -/
inductive ExtOut where
  | area (id : Nat) (initial : Bool)
  | fatal
deriving DecidableEq, Repr

/-- libcob/common.c:1732-1743: the search along the list. -/
def extFind (name : List Nat) : List ExtRec → Option ExtRec
  | [] => none
  | e :: es => if e.name = name then some e else extFind name es

/-- libcob/common.c:1725-1753 `cob_external_addr`. -/
def externalAddr (st : ExtState) (name : List Nat) (len : Int) : ExtOut × ExtState :=
  match extFind name st.list with
  | some e => if len > e.size then (.fatal, st) else (.area e.area false, st)
  | none =>
    (.area st.areas true, ⟨⟨name, len, st.areas⟩ :: st.list, st.areas + 1⟩)

/-- The answers to a run of requests; a fatal one ends the program. -/
def extRun : ExtState → List (List Nat × Int) → List ExtOut
  | _, [] => []
  | st, (n, l) :: rs =>
    match externalAddr st n l with
    | (.fatal, _) => [.fatal]
    | (o, st') => o :: extRun st' rs

/-! ### ALLOCATE and FREE -/

/-- The state ALLOCATE and FREE work on.  `cache` is the list `cob_alloc_base` (the field
`cob_pointer` of each entry, 0 for NULL), `live` the areas that `malloc` considers in use, `vars`
the pointers of the program (0 for NULL), `exc` whether the last statement set an exception, and
`bad` whether `free` was ever called for an area not in use. -/
structure AllocState where
  cache : List Nat
  live : List Nat
  vars : Nat → Nat
  exc : Bool
  bad : Bool

/-- libcob/common.c:2035-2063 `cob_allocate`.  `mptr` is what `malloc` returns (0: no storage).
`v` is the pointer variable that receives the address. -/
def allocate (st : AllocState) (v : Nat) (fsize : Int) (mptr : Nat) : AllocState :=
  if fsize > 0 then
    if mptr = 0 then
      { st with vars := fun w => if w = v then 0 else st.vars w, exc := true }
    else
      { st with cache := mptr :: st.cache, live := mptr :: st.live,
                vars := fun w => if w = v then mptr else st.vars w, exc := false }
  else { st with vars := fun w => if w = v then 0 else st.vars w, exc := false }

/-- libcob/common.c:2072-2079 (and 2084-2091): the search for the pointer; the entry found is set
to NULL. -/
def clearEntry (p : Nat) : List Nat → Option (List Nat)
  | [] => none
  | c :: cs => if p = c then some (0 :: cs) else (clearEntry p cs).map (c :: ·)

/-- libcob/common.c:2066-2095 `cob_free_alloc`, for the pointer variable `v` (FREE of a pointer and
FREE of the address of a BASED item run the same code for two ways of passing the pointer). -/
def freeAlloc (st : AllocState) (v : Nat) : AllocState :=
  let p := st.vars v
  if p = 0 then { st with exc := false }
  else
    match clearEntry p st.cache with
    | some cache' =>
      { cache := cache', live := st.live.erase p,
        vars := fun w => if w = v then 0 else st.vars w, exc := false,
        bad := st.bad || !(st.live.contains p) }
    | none => { st with exc := true }

/-- The statements that touch pointers: ALLOCATE, FREE, and SET of a pointer to any address (of a
data item, of another pointer, or a wild value). -/
inductive PtrStmt where
  | allocate (v : Nat) (size : Int) (mptr : Nat)
  | free (v : Nat)
  | set (v : Nat) (addr : Nat)

/-- One statement. -/
def ptrStep (st : AllocState) : PtrStmt → AllocState
  | .allocate v size mptr => allocate st v size mptr
  | .free v => freeAlloc st v
  | .set v addr => { st with vars := fun w => if w = v then addr else st.vars w }

/-- A run of statements. -/
def ptrRun (st : AllocState) (ss : List PtrStmt) : AllocState := ss.foldl ptrStep st

/-- Before the first statement. -/
def ptrInit : AllocState := ⟨[], [], fun _ => 0, false, false⟩

/-! ### Exit and error procedures -/

/-- A node of the list `exit_hdlrs` or `hdlrs` (libcob/common.c:150-159): the procedure, and
whether the node still belongs to the program (`free` has not been called for it). -/
structure HNode where
  proc : Nat
  alive : Bool
deriving DecidableEq, Repr

/-- libcob/common.c:2190-2207: the search for the handler and its removal.  `none`: a node that
was freed is read.  When the handler is found behind another node, it is the node in front of it
(`hp`) that is freed, while it stays in the list. -/
def removeHandler (p : Nat) : List HNode → Option (List HNode)
  | [] => some []
  | h :: hs =>
    if h.alive then
      if h.proc = p then some hs
      else
        match hs with
        | [] => some [h]
        | k :: ks =>
          if k.alive then
            if k.proc = p then some ({ h with alive := false } :: ks)
            else (removeHandler p (k :: ks)).map (h :: ·)
          else none
    else none

/-- libcob/common.c:2178-2214 `CBL_EXIT_PROC`, libcob/common.c:2217-2253 `CBL_ERROR_PROC` for a
procedure pointer that is not NULL: `install` is whether the first parameter asks for
installation. -/
def cblProc (install : Bool) (p : Nat) (l : List HNode) : Option (List HNode) :=
  (removeHandler p l).map fun l' => if install then ⟨p, true⟩ :: l' else l'

/-- libcob/common.c:2207: the codes of CBL_EXIT_PROC that install. -/
def exitInstalls (x : Nat) : Bool := x == 0 || x == 2 || x == 3

/-- libcob/common.c:2246: the code of CBL_ERROR_PROC that installs. -/
def errorInstalls (x : Nat) : Bool := x == 0

/-- A run of calls. -/
def procRun : List (Bool × Nat) → List HNode → Option (List HNode)
  | [], l => some l
  | (i, p) :: cs, l => (cblProc i p l).bind (procRun cs)

/-- libcob/common.c:1036-1042 (`cob_stop_run`), 1069-1076 (`cob_runtime_error`): the procedures
called one after the other. -/
def callHandlers : List HNode → Option (List Nat)
  | [] => some []
  | h :: hs => if h.alive then (callHandlers hs).map (h.proc :: ·) else none

/-! ### Bound checks -/

/-- libcob/common.c:1592-1603 `cob_check_odo` and libcob/common.c:1606-1617 `cob_check_subscript`:
whether the value is accepted. -/
def checkRange (i min max : Int) : Bool := !(i < min || max < i)

/-- libcob/common.c:1671-1695 `cob_check_ref_mod`: whether the reference is accepted.  `off` is
whether the check is switched off by the environment variable.  Sums wrap around at 32 bits. -/
def checkRefMod (off : Bool) (offset length size : Int) : Bool :=
  off ||
  (!(offset < 1 || offset > size) &&
    !(length < 1 || wrap32 (wrap32 (offset + length) - 1) > size))

/-- libcob/common.c:1636-1668 `cob_check_ref_mod_national` (Shift-JIS build: the arguments count
bytes). -/
def checkRefModNational (off : Bool) (offset length size : Int) : Bool :=
  off ||
  (let offset := (wrap32 (offset + 1)).tdiv 2
   let length := length.tdiv 2
   let size := size.tdiv 2
   !(offset < 1 || offset > size) &&
     !(length < 1 || wrap32 (wrap32 (offset + length) - 1) > size))

end Cob
