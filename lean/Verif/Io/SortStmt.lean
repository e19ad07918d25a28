import Verif.Io.Sort
import Verif.Io.Line
/-
Model of the statements SORT and MERGE with USING and GIVING (libcob/fileio.c `cob_file_sort_using`,
`cob_file_sort_giving`, `cob_copy_check`).  MERGE is compiled as SORT is (cobc/parser.y:5346-5349, 5870-5889).

The files are SEQUENTIAL or LINE SEQUENTIAL.  Not modelled: RELATIVE and INDEXED files, PRINTER and other
special files, LINAGE, files that cannot be opened although they exist, errors of the temporary files, a
record area shared between files.
-/
namespace Cob

/-- A file connector between two statements: `cob_file` with its record (`f->record`: size and area, which
OPEN leaves alone), the value of the RECORD DEPENDING item, and the file on the disk (`none`: there is no
such file). -/
structure SConn where
  line : Bool
  nulls : Bool
  fixedLen : Bool
  recMin : Nat
  recMax : Nat
  size : Nat
  area : List Nat
  depending : Option Nat
  disk : Option (List Nat)
deriving DecidableEq, Repr

/-- The connector while the file is open. -/
inductive OConn where
  | seq (f : SeqFile)
  | ls (f : LsFile)
deriving DecidableEq, Repr

/-- libcob/fileio.c:3852-3875 `cob_ex_open`: the flags are cleared; the position is the first byte. -/
def SConn.opened (c : SConn) (data : List Nat) : OConn :=
  if c.line then .ls ⟨c.nulls, c.fixedLen, c.recMin, c.recMax, ⟨data, 0⟩, c.size, c.area, c.depending, false, false, none⟩
  else .seq ⟨c.recMin, c.recMax, ⟨data, 0⟩, c.size, c.area, c.depending, false, false⟩

/-- libcob/fileio.c:4302-4374 `cob_ex_read`. -/
def OConn.read : OConn → Nat × OConn
  | .seq f => let r := seqExRead f; (r.1, .seq r.2)
  | .ls f => let r := lsExRead f; (r.1, .ls r.2)

/-- `f->record->size`. -/
def OConn.size : OConn → Nat
  | .seq f => f.size
  | .ls f => f.size

/-- `f->record->data`. -/
def OConn.area : OConn → List Nat
  | .seq f => f.area
  | .ls f => f.area

/-- The bytes of the file. -/
def OConn.data : OConn → List Nat
  | .seq f => f.stream.data
  | .ls f => f.stream.data

/-- The RECORD DEPENDING item. -/
def OConn.depending : OConn → Option Nat
  | .seq f => f.depending
  | .ls f => f.depending

/-- CLOSE: what is left in the connector and on the disk. -/
def SConn.closed (c : SConn) (o : OConn) : SConn :=
  { c with size := o.size, area := o.area, depending := o.depending, disk := some o.data }

/-- libcob/fileio.c:5874-5892 `cob_copy_check`: the area of the receiver afterwards. -/
def copyCheck (toSize : Nat) (toArea : List Nat) (fromSize : Nat) (fromArea : List Nat) : List Nat :=
  if fromSize < toSize then overlay (fromArea.take fromSize ++ List.replicate (toSize - fromSize) 32) toArea
  else overlay (fromArea.take toSize) toArea

/-- libcob/fileio.c:6130-6140: the loop of `cob_file_sort_using`.  `dep` is the value of the RECORD DEPENDING
item of the sort file, `area` its record area. -/
def usingLoop (lt : SItem → SItem → Bool) (fs : Nat) (dep : Option Nat) :
    Nat → OConn → List Nat → Sorter → Option (OConn × List Nat × Sorter)
  | 0, _, _, _ => none
  | n + 1, o, area, h =>
    let r := o.read
    if 10 ≤ r.1 then some (r.2, area, h)
    else
      let area := copyCheck h.size area r.2.size r.2.area
      match sortSubmit lt fs h (dep.getD h.size) area with
      | none => none
      | some (c, h) => if c ≠ 0 then some (r.2, area, h) else usingLoop lt fs dep n r.2 area h

/-- libcob/fileio.c:6124-6142 `cob_file_sort_using`.  A file that is not there: OPEN answers 35 or, for an
OPTIONAL file, 05; READ then answers 47 or 10 and the loop ends. -/
def sortUsing (lt : SItem → SItem → Bool) (fs fuel : Nat) (dep : Option Nat) (c : SConn) (area : List Nat) (h : Sorter) :
    Option (SConn × List Nat × Sorter) :=
  match c.disk with
  | none => some (c, area, h)
  | some data =>
    match usingLoop lt fs dep fuel (c.opened data) area h with
    | none => none
    | some (o, area, h) => some (c.closed o, area, h)

/-- libcob/fileio.c:6258-6282 `cob_file_release`: the RELEASE statements of an INPUT PROCEDURE; RELEASE that is refused changes
nothing. -/
def releaseAll (lt : SItem → SItem → Bool) (fs : Nat) : List (Nat × List Nat) → Sorter → Option Sorter
  | [], h => some h
  | r :: rs, h =>
    match sortSubmit lt fs h r.1 r.2 with
    | none => none
    | some (_, h) => releaseAll lt fs rs h

/-- The files of the program. -/
abbrev SFiles := Nat → SConn

def SFiles.set (f : SFiles) (k : Nat) (c : SConn) : SFiles := fun i => if i = k then c else f i

/-- cobc/typeck.c:6796-6808 `cb_emit_sort_using`: one call for each file of the list. -/
def sortUsings (lt : SItem → SItem → Bool) (fs fuel : Nat) (dep : Option Nat) :
    List Nat → SFiles → List Nat → Sorter → Option (SFiles × List Nat × Sorter)
  | [], f, area, h => some (f, area, h)
  | k :: ks, f, area, h =>
    match sortUsing lt fs fuel dep (f k) area h with
    | none => none
    | some (c, area, h) => sortUsings lt fs fuel dep ks (f.set k c) area h

/-- libcob/fileio.c:6178-6186: one record to one file; the status of the WRITE is not looked at. -/
def OConn.give (size : Nat) (area : List Nat) : OConn → OConn
  | .seq f => .seq (seqExWrite f false (copyCheck f.size f.area size area) f.size).2
  | .ls f => .ls (lsExWrite false f (copyCheck f.size f.area size area) f.size plainWrite).2.2

/-- libcob/fileio.c:6163-6188: the loop of `cob_file_sort_giving`; the number is SORT-RETURN. -/
def givingLoop (lt : SItem → SItem → Bool) (fs : Nat) : Nat → List OConn → List Nat → Sorter → Option (Nat × List OConn)
  | 0, _, _, _ => none
  | n + 1, os, area, h =>
    match sortRetrieve lt fs h with
    | none => none
    | some (c, r, h) =>
      if c ≠ 0 then some (if c = 1 then 0 else 16, os)
      else
        let area := overlay ((r.map Prod.fst).getD []) area
        givingLoop lt fs n (os.map (OConn.give h.size area)) area h

/-- libcob/fileio.c:6189-6192: the files are closed. -/
def closeAll : List Nat → List OConn → SFiles → SFiles
  | k :: ks, o :: os, f => closeAll ks os (f.set k ((f k).closed o))
  | _, _, f => f

/-- libcob/fileio.c:6144-6194 `cob_file_sort_giving`: OPEN OUTPUT makes the files empty. -/
def sortGiving (lt : SItem → SItem → Bool) (fs fuel : Nat) (gs : List Nat) (f : SFiles) (area : List Nat) (h : Sorter) :
    Option (Nat × SFiles) :=
  match givingLoop lt fs fuel (gs.map fun g => (f g).opened []) area h with
  | none => none
  | some (ret, os) => some (ret, closeAll gs os f)

/-- cobc/parser.y:5875-5889: SORT or MERGE with USING and GIVING.  `size` is the size of the sort record,
`memory` the number of records that fit into the memory; the result is SORT-RETURN and the files. -/
def sortStmt (lt : SItem → SItem → Bool) (fs fuel size memory : Nat) (dep : Option Nat) (us gs : List Nat) (f : SFiles)
    (area : List Nat) : Option (Nat × SFiles) :=
  match sortUsings lt fs fuel dep us f area (.init size memory) with
  | none => none
  | some (f, area, h) => sortGiving lt fs fuel gs f area h

end Cob
