import Verif.Io.Seq
import Verif.Num.Field
/-
Model of libcob/fileio.c for ORGANIZATION RELATIVE (default build, 64 bit, little-endian, no external
file handler): relative_start, relative_read, relative_read_next, relative_write, relative_rewrite,
relative_delete, and the part of cob_ex_start, cob_ex_read, cob_ex_write, cob_ex_rewrite and
cob_ex_delete that surrounds them.

The file is a sequence of slots: a `size_t` with the record length (0: no record) and `record_max`
bytes.

Simplifications: the checks of the open mode are not repeated here (they decide whether these
functions are reached at all; see the connector model); the RELATIVE KEY item is present, unsigned
and wide enough for every record number (status 14 is not modelled); file offsets do not overflow;
I/O errors of the stream are not modelled; `SEEK_INIT` is empty on Unix (line 149).
-/
namespace Cob

/-- A relative file connector that is open.  `size` is `f->record->size`, `key` the value of the
RELATIVE KEY item, `firstRead` whether `flag_first_read` is not 0. -/
structure RelFile where
  seqAccess : Bool
  recMin : Nat
  recMax : Nat
  stream : Stream
  size : Nat
  area : List Nat
  key : Nat
  readDone : Bool
  endOfFile : Bool
  firstRead : Bool
deriving DecidableEq, Repr

/-- `relsize = f->record_max + sizeof (f->record->size)`. -/
def RelFile.relsize (f : RelFile) : Nat := f.recMax + 8

/-- `fread (&size, sizeof (size), 1, fp)`: `none` when the 8 bytes are not there. -/
def readHdr (s : Stream) : Option Nat × Stream :=
  let r := s.fread 8
  (if r.1.length = 8 then some (leVal r.1) else none, r.2)

/-- `fseek (fp, off, SEEK_SET) != 0 || fread (&size, ...) != 1`. -/
def seekHdr (s : Stream) (off : Int) : Option Nat × Stream :=
  match s.seekSet off with
  | none => (none, s)
  | some s => readHdr s

/-- `fseek (fp, -sizeof (size), SEEK_CUR)`. -/
def back8 (s : Stream) : Stream := (s.seekCur (-8)).getD s

/-- The comparison of START. -/
inductive StartCond where
  | eq
  | lt
  | le
  | gt
  | ge
deriving DecidableEq, Repr

/-- libcob/fileio.c:1386-1412, the loop of `relative_start` going up (and the single turn of EQ): the
slot found.  `fuel` bounds the turns; the file length is enough. -/
def startUp (relsize : Nat) (once : Bool) : Nat → Stream → Int → Option Int × Stream
  | 0, s, _ => (none, s)
  | fuel + 1, s, kindex =>
    match seekHdr s (kindex * relsize) with
    | (none, s) => (none, s)
    | (some n, s) =>
      if 0 < n then (some kindex, back8 s)
      else if once then (none, s)
      else startUp relsize once fuel s (kindex + 1)

/-- The same loop going down. -/
def startDown (relsize : Nat) : Nat → Stream → Int → Option Int × Stream
  | 0, s, _ => (none, s)
  | fuel + 1, s, kindex =>
    match seekHdr s (kindex * relsize) with
    | (none, s) => (none, s)
    | (some n, s) =>
      if 0 < n then (some kindex, back8 s)
      else startDown relsize fuel s (kindex - 1)

/-- libcob/fileio.c:1361-1414 `relative_start`.  (Going down takes at most `kindex + 2` turns.) -/
def relativeStart (f : RelFile) (cond : StartCond) : Nat × RelFile :=
  let kindex : Int := f.key - 1
  let fuel := f.stream.data.length + 1
  let r := match cond with
    | .eq => startUp f.relsize true fuel f.stream kindex
    | .gt => startUp f.relsize false fuel f.stream (kindex + 1)
    | .ge => startUp f.relsize false fuel f.stream kindex
    | .lt => startDown f.relsize (f.key + 2) f.stream (kindex - 1)
    | .le => startDown f.relsize (f.key + 2) f.stream kindex
  match r with
  | (none, s) => (23, { f with stream := s })
  | (some k, s) => (0, { f with stream := s, key := (k + 1).toNat })

/-- `fread (f->record->data, f->record_max, 1, fp)`. -/
def readData (f : RelFile) : Nat × RelFile :=
  let r := f.stream.fread f.recMax
  let f := { f with stream := r.2, area := overlay r.1 f.area }
  if r.1.length ≠ f.recMax then (30, f) else (0, f)

/-- libcob/fileio.c:1416-1451 `relative_read`. -/
def relativeRead (f : RelFile) : Nat × RelFile :=
  let relnum : Int := f.key - 1
  match seekHdr f.stream (relnum * f.relsize) with
  | (none, s) => (23, { f with stream := s })
  | (some n, s) =>
    if n = 0 then (23, { f with stream := back8 s, size := 0 })
    else readData { f with stream := s, size := n }

/-- libcob/fileio.c:1453-1505 `relative_read_next`.  `fuel` bounds the turns. -/
def relativeReadNext : Nat → RelFile → Nat × RelFile
  | 0, f => (30, f)
  | fuel + 1, f =>
    match readHdr f.stream with
    | (none, s) => (10, { f with stream := s })
    | (some n, s) =>
      let f := { f with stream := s, size := n,
                        key := if f.firstRead then 1 else s.pos / f.relsize + 1,
                        firstRead := false }
      if 0 < n then readData f
      else relativeReadNext fuel { f with stream := { s with pos := s.pos + f.recMax } }

/-- libcob/fileio.c:1507-1569 `relative_write`. -/
def relativeWrite (f : RelFile) : Nat × RelFile :=
  let kindex : Int := f.key - 1
  if ¬ f.seqAccess ∧ kindex < 0 then (21, f)
  else
    let s := if f.seqAccess then f.stream else { f.stream with pos := (kindex * f.relsize).toNat }
    let off := s.pos
    let put (s : Stream) : Nat × RelFile :=
      let s := (s.fwrite (leBytes 8 f.size)).fwrite (f.area.take f.recMax)
      (0, { f with stream := s,
                   key := if f.seqAccess then (off + f.relsize) / f.relsize else f.key })
    match readHdr s with
    | (some n, s) => if 0 < n then (22, { f with stream := back8 s }) else put (back8 s)
    | (none, s) => put { s with pos := off }

/-- libcob/fileio.c:1571-1604 `relative_rewrite`. -/
def relativeRewrite (f : RelFile) : Nat × RelFile :=
  if f.seqAccess then
    let s := (f.stream.seekCur (-(f.recMax : Int))).getD f.stream
    (0, { f with stream := s.fwrite (f.area.take f.recMax) })
  else
    let relnum : Int := f.key - 1
    match seekHdr f.stream (relnum * f.relsize) with
    | (none, s) => (23, { f with stream := s })
    | (some n, s) => (0, { f with stream := s.fwrite (f.area.take f.recMax), size := n })

/-- libcob/fileio.c:1606-1638 `relative_delete`. -/
def relativeDelete (f : RelFile) : Nat × RelFile :=
  let relnum : Int := f.key - 1
  match seekHdr f.stream (relnum * f.relsize) with
  | (none, s) => (23, { f with stream := s })
  | (some _, s) =>
    let s := (back8 s).fwrite (leBytes 8 0)
    (0, { f with stream := { s with pos := s.pos + f.recMax }, size := 0 })

/-- libcob/fileio.c:4257-4285 `cob_ex_start`. -/
def relExStart (f : RelFile) (cond : StartCond) : Nat × RelFile :=
  let f := { f with readDone := false, firstRead := false }
  let r := relativeStart f cond
  if r.1 = 0 then (0, { r.2 with endOfFile := false, firstRead := true }) else r

/-- libcob/fileio.c:4302-4374 `cob_ex_read`: `random` is READ with a key, else READ NEXT. -/
def relExRead (f : RelFile) (random : Bool) : Nat × RelFile :=
  let f := { f with readDone := false }
  if !random && f.endOfFile then (46, f)
  else
    let r := if random then relativeRead f else relativeReadNext (f.stream.data.length + 1) f
    if r.1 = 0 then (0, { r.2 with firstRead := false, readDone := true, endOfFile := false })
    else if r.1 = 10 then (10, { r.2 with endOfFile := true })
    else r

/-- libcob/fileio.c:4398-4444 `cob_ex_write`: the record area as the program filled it and the length
of the record (the DEPENDING item or the length of the record named). -/
def relExWrite (f : RelFile) (area : List Nat) (len : Nat) : Nat × RelFile :=
  let tmpsize := f.size
  let f := { f with readDone := false, area := area, size := len }
  if f.size < f.recMin ∨ f.recMax < f.size then (44, f)
  else
    let r := relativeWrite f
    (r.1, { r.2 with size := tmpsize })

/-- libcob/fileio.c:4468-4511 `cob_ex_rewrite`. -/
def relExRewrite (f : RelFile) (area : List Nat) : Nat × RelFile :=
  let readDone := f.readDone
  let f := { f with readDone := false, area := area }
  if f.seqAccess && !readDone then (43, f) else relativeRewrite f

/-- libcob/fileio.c:4527-4552 `cob_ex_delete`. -/
def relExDelete (f : RelFile) : Nat × RelFile :=
  let readDone := f.readDone
  let f := { f with readDone := false }
  if f.seqAccess && !readDone then (43, f) else relativeDelete f

end Cob
