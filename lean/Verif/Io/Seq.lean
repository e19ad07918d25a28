import Verif.Io.Stream
/-
Model of libcob/fileio.c for ORGANIZATION SEQUENTIAL (default build: WITH_VARSEQ 0, no external file
handler): sequential_read, sequential_write, sequential_rewrite and the part of cob_ex_read,
cob_ex_write and cob_ex_rewrite that surrounds them.
-/
namespace Cob

/-- A sequential file connector that is open: the record limits, the stream, `f->record` (size and
area), the flags of the connector.  The RECORD DEPENDING item is `depending` when there is one. -/
structure SeqFile where
  recMin : Nat
  recMax : Nat
  stream : Stream
  size : Nat
  area : List Nat
  depending : Option Nat
  readDone : Bool
  endOfFile : Bool
deriving DecidableEq, Repr

/-- `memcpy` of the bytes read to the start of the record area. -/
def overlay (bs area : List Nat) : List Nat := bs ++ area.drop bs.length

theorem overlay_take (r area : List Nat) : (overlay r area).take r.length = r := by
  unfold overlay
  simp

/-- libcob/fileio.c:1125-1140: the length field of a variable record: two bytes, most significant
first (the size is cut to 16 bits), and two bytes of zero. -/
def seqHeader (size : Nat) : List Nat := [size / 256 % 256, size % 256, 0, 0]

/-- libcob/fileio.c:1035-1100 `sequential_read`. -/
def sequentialRead (f : SeqFile) : Nat × SeqFile :=
  let body (f : SeqFile) : Nat × SeqFile :=
    let r := f.stream.fread f.size
    let f := { f with stream := r.2, area := overlay r.1 f.area }
    if r.1.length ≠ f.size then
      if r.1.length = 0 then (10, f) else (4, f)
    else (0, f)
  if f.recMin ≠ f.recMax then
    let r := f.stream.fread 4
    let f := { f with stream := r.2 }
    if r.1.length ≠ 4 then (10, f)
    else body { f with size := r.1.getD 0 0 * 256 + r.1.getD 1 0 }
  else body f

/-- libcob/fileio.c:1102-1179 `sequential_write`, without ADVANCING.  `fwrite` of a record of size 0
counts no item, so the code takes it for an error.  In append mode (OPEN EXTEND) the stream writes
at the end. -/
def sequentialWrite (f : SeqFile) (extend : Bool) : Nat × SeqFile :=
  let put (s : Stream) (bs : List Nat) : Stream := if extend then s.append bs else s.fwrite bs
  let f :=
    if f.recMin ≠ f.recMax then { f with stream := put f.stream (seqHeader f.size) } else f
  if f.size = 0 then (30, f)
  else (0, { f with stream := put f.stream (f.area.take f.size) })

/-- libcob/fileio.c:1181-1198 `sequential_rewrite`. -/
def sequentialRewrite (f : SeqFile) : Nat × SeqFile :=
  match f.stream.seekCur (-(f.size : Int)) with
  | none => (30, f)
  | some s =>
    if f.size = 0 then (30, { f with stream := s })
    else (0, { f with stream := s.fwrite (f.area.take f.size) })

/-- libcob/fileio.c:4302-4374 `cob_ex_read` (sequential READ of a file open for INPUT or I-O). -/
def seqExRead (f : SeqFile) : Nat × SeqFile :=
  let f := { f with readDone := false }
  if f.endOfFile then (46, f)
  else
    let r := sequentialRead f
    if r.1 = 0 then
      (0, { r.2 with readDone := true, endOfFile := false,
                     depending := r.2.depending.map fun _ => r.2.size })
    else if r.1 = 10 then (10, { r.2 with endOfFile := true })
    else r

/-- libcob/fileio.c:4398-4444 `cob_ex_write` (file open for OUTPUT or EXTEND).  `area` is the record
area as the program filled it, `recLen` the length of the record named in the statement. -/
def seqExWrite (f : SeqFile) (extend : Bool) (area : List Nat) (recLen : Nat) : Nat × SeqFile :=
  let f := { f with readDone := false, area := area }
  let tmpsize := f.size
  let f := { f with size := f.depending.getD recLen }
  if f.size < f.recMin ∨ f.recMax < f.size then (44, f)
  else
    let r := sequentialWrite f extend
    (r.1, { r.2 with size := tmpsize })

/-- libcob/fileio.c:4468-4511 `cob_ex_rewrite` (file open I-O, ACCESS SEQUENTIAL). -/
def seqExRewrite (f : SeqFile) (area : List Nat) (recLen : Nat) : Nat × SeqFile :=
  let readDone := f.readDone
  let f := { f with readDone := false, area := area }
  if !readDone then (43, f)
  else if f.size ≠ recLen then (44, f)
  else if f.depending ≠ none ∧ f.depending ≠ some f.size then (44, f)
  else sequentialRewrite f

end Cob
