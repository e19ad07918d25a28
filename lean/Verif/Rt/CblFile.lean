import Verif.Num.Field
/-
Model of the library routines for byte-stream files (libcob/fileio.c:4914-5266): CBL_OPEN_FILE, CBL_CREATE_FILE,
CBL_READ_FILE, CBL_WRITE_FILE, CBL_CLOSE_FILE, CBL_DELETE_FILE, CBL_COPY_FILE, CBL_CHECK_FILE_EXIST, CBL_RENAME_FILE, on a
model of the file system of the operating system.

The file system is the usual one of POSIX, with a single directory: names stand for files, files are byte strings, a
descriptor stands for a file with the right to read or to write.  What the operating system may answer as it likes -
refusals, the number of a new descriptor, how many bytes a write takes - is part of the event, so a theorem about all events
is one about all answers.

Not modelled: directories and special files, locks (the routines ignore their parameters for them), the position of a
descriptor (the routines set it before they use it; `CBL_COPY_FILE` starts at 0 with descriptors of its own), reads that
return less than there is, the descriptors that libcob and the program have open otherwise, the check of the number of
parameters, parameters that are OMITTED.
-/
namespace Cob.Cbl

/-- An open descriptor: the file, and whether it may be read and written. -/
structure Fd where
  ino : Nat
  rd : Bool
  wr : Bool
deriving DecidableEq, Repr

/-- The operating system: names, contents of the files, descriptors, and the number of the next new file. -/
structure Sys where
  dir : List Nat → Option Nat
  data : Nat → List Nat
  fds : Nat → Option Fd
  next : Nat

/-- Sets the contents of a file. -/
def Sys.setData (s : Sys) (i : Nat) (d : List Nat) : Sys := { s with data := fun x => if x = i then d else s.data x }

/-- Sets what a name stands for. -/
def Sys.setDir (s : Sys) (p : List Nat) (i : Option Nat) : Sys := { s with dir := fun x => if x = p then i else s.dir x }

/-- Sets a descriptor. -/
def Sys.setFd (s : Sys) (n : Nat) (f : Option Fd) : Sys := { s with fds := fun x => if x = n then f else s.fds x }

/-- The contents after the bytes `b` were written at position `o`: a gap is filled with zero bytes; writing nothing does not
make the file longer (POSIX `write`). -/
def pwrite (d : List Nat) (o : Nat) (b : List Nat) : List Nat :=
  if b = [] then d else d.take o ++ List.replicate (o - d.length) 0 ++ b ++ d.drop (o + b.length)

/-- The bytes that reading at most `n` bytes at position `o` gives (POSIX `read`). -/
def pread (d : List Nat) (o n : Nat) : List Nat := (d.drop o).take n

/-- `open` without the descriptor: the file that is opened.  The empty name stands for nothing and cannot be created. -/
def openIno (s : Sys) (p : List Nat) (creat trunc : Bool) : Option (Sys × Nat) :=
  match s.dir p with
  | some i => some (if trunc then s.setData i [] else s, i)
  | none =>
    if creat = true ∧ p ≠ [] then some ({ (s.setDir p (some s.next)).setData s.next [] with next := s.next + 1 }, s.next)
    else none

/-- /repo/libcob/fileio.c:4927-4932: the length without the spaces and NULs at the end. -/
def nameLen (d : List Nat) : Nat :=
  (d.reverse.dropWhile (fun c => c == 32 || c == 0)).length

/-- /repo/libcob/fileio.c:4935-4951: the loop that copies the name; what is not stored stays zero (`cob_malloc` clears).  A
quotation mark is not stored but keeps its place. -/
def nameLoop : Bool → List Nat → List Nat
  | _, [] => []
  | q, c :: r =>
    if c = 34 then 0 :: nameLoop (!q) r
    else if q = true then c :: nameLoop q r
    else if c = 32 ∨ c = 0 then [0]
    else c :: nameLoop q r

/-- /repo/libcob/fileio.c:4916-4953 `cob_str_from_fld`, read as C reads a string: up to the first NUL. -/
def nameOf (d : List Nat) : List Nat := (nameLoop false (d.take (nameLen d))).takeWhile (fun c => c != 0)

/-- A 4-byte number of the machine, negative ones as numbers from 2^31 up: the descriptor a handle stands for. -/
def lookup (s : Sys) (h : List Nat) : Option Fd := if leVal h < 2 ^ 31 then s.fds (leVal h) else none

/-- /repo/libcob/fileio.c:5035-5041: the 8-byte offset, stored with the most significant byte first. -/
def offsetOf (o : List Nat) : Int := toInt64 (leVal o.reverse)

/-- /repo/libcob/fileio.c:5035-5041: the 4-byte length, stored with the most significant byte first. -/
def lengthOf (l : List Nat) : Int := if leVal l.reverse < 2 ^ 31 then leVal l.reverse else leVal l.reverse - 2 ^ 32

/-- What a routine gives back: RETURN-CODE and the parameters it may change, as they are afterwards. -/
structure Res where
  rc : Int
  out : List (List Nat) := []
deriving DecidableEq, Repr

/-- A point in time as `localtime` gives it. -/
structure Tm where
  year : Nat
  mon : Nat
  day : Nat
  hour : Nat
  min : Nat
  sec : Nat
deriving DecidableEq, Repr

/-- The events: the calls of the routines with the contents of their parameters, and what the operating system answers.
`ans` of OPEN and CREATE: `none` if it refuses, otherwise the number of the descriptor; of WRITE: `none` if it refuses,
otherwise the greatest number of bytes it takes; `ok`: whether it allows the operation; of COPY: whether the files can be
opened, and how many bytes each `write` takes at most. -/
inductive Op
  | openFile (name : List Nat) (access : Nat) (ans : Option Nat)
  | createFile (name : List Nat) (access : Nat) (ans : Option Nat)
  | read (handle offset len : List Nat) (flags : Nat) (buf : List Nat) (ok : Bool)
  | write (handle offset len : List Nat) (buf : List Nat) (ans : Option Nat)
  | close (handle : List Nat)
  | delete (name : List Nat) (ok : Bool)
  | rename (name1 name2 : List Nat) (ok : Bool)
  | copy (name1 name2 : List Nat) (ok1 ok2 : Bool) (ans : Nat → Option Nat)
  | exist (name info : List Nat) (tm : Tm)

/-- /repo/libcob/fileio.c:4985-4994: what `open` answered: the handle, or 35 and a handle of four bytes 255. -/
def openEnd (s : Sys) (ans : Option Nat) (opened : Option (Sys × Nat)) (rd wr : Bool) : Sys × Res :=
  match ans, opened with
  | some n, some (s', i) => (s'.setFd n (some ⟨i, rd, wr⟩), ⟨0, [leBytes 4 n]⟩)
  | _, _ => (s, ⟨35, [List.replicate 4 255]⟩)

/-- /repo/libcob/fileio.c:4955-4995 `open_cbl_file`; `extra` is `O_CREAT | O_TRUNC` of CBL_CREATE_FILE. -/
def openCbl (s : Sys) (name : List Nat) (access : Nat) (extra : Bool) (ans : Option Nat) : Sys × Res :=
  match access % 64 with
  | 1 => openEnd s ans (openIno s (nameOf name) extra extra) true false
  | 2 => openEnd s ans (openIno s (nameOf name) true true) false true
  | 3 => openEnd s ans (openIno s (nameOf name) extra extra) true true
  | _ => (s, ⟨-1, [List.replicate 4 255]⟩)

/-- /repo/libcob/fileio.c:5043-5066: reading when `lseek` succeeded: the bytes read are stored at the start of the buffer, the rest of
which stays.  With the bit 128 of `flags` the offset parameter receives the size of the file.  The value is RETURN-CODE, the
offset and the buffer afterwards. -/
def readAt (d : List Nat) (rd ok : Bool) (o : Nat) (offset : List Nat) (len : Int) (flags : Nat) (buf : List Nat) : Res :=
  let r : Int × List Nat :=
    if len > 0 then
      (if rd = false ∨ ok = false then (-1, buf)
       else
        let c := pread d o len.toNat
        (if c = [] then 10 else 0, c ++ buf.drop c.length))
    else (0, buf)
  let off := if flags / 128 % 2 = 1 then (leBytes 8 d.length).reverse else offset
  ⟨r.1, [off, r.2]⟩

/-- /repo/libcob/fileio.c:5023-5067 `CBL_READ_FILE`. -/
def readCbl (s : Sys) (handle offset len : List Nat) (flags : Nat) (buf : List Nat) (ok : Bool) : Res :=
  match lookup s handle with
  | none => ⟨-1, [offset, buf]⟩
  | some f =>
    if offsetOf offset < 0 then ⟨-1, [offset, buf]⟩
    else readAt (s.data f.ino) f.rd ok (offsetOf offset).toNat offset (lengthOf len) flags buf

/-- /repo/libcob/fileio.c:5069-5097 `CBL_WRITE_FILE`.  A negative length is a number beyond what `write` accepts. -/
def writeCbl (s : Sys) (handle offset len : List Nat) (buf : List Nat) (ans : Option Nat) : Sys × Res :=
  match lookup s handle with
  | none => (s, ⟨-1, []⟩)
  | some f =>
    if offsetOf offset < 0 then (s, ⟨-1, []⟩)
    else if f.wr = false ∨ lengthOf len < 0 then (s, ⟨30, []⟩)
    else match ans with
      | none => (s, ⟨30, []⟩)
      | some k =>
        (s.setData f.ino (pwrite (s.data f.ino) (offsetOf offset).toNat ((buf.take (lengthOf len).toNat).take k)), ⟨0, []⟩)

/-- /repo/libcob/fileio.c:5099-5108 `CBL_CLOSE_FILE`. -/
def closeCbl (s : Sys) (handle : List Nat) : Sys × Res :=
  match lookup s handle with
  | none => (s, ⟨-1, []⟩)
  | some _ => (s.setFd (leVal handle) none, ⟨0, []⟩)

/-- /repo/libcob/fileio.c:5120-5140 `CBL_DELETE_FILE`. -/
def deleteCbl (s : Sys) (name : List Nat) (ok : Bool) : Sys × Res :=
  if ok = true ∧ (s.dir (nameOf name)).isSome = true then (s.setDir (nameOf name) none, ⟨0, []⟩) else (s, ⟨128, []⟩)

/-- /repo/libcob/fileio.c:5241-5265 `CBL_RENAME_FILE`; `rename` does nothing when both names stand for the same file. -/
def renameCbl (s : Sys) (n1 n2 : List Nat) (ok : Bool) : Sys × Res :=
  match s.dir (nameOf n1) with
  | none => (s, ⟨128, []⟩)
  | some i =>
    if ok = false ∨ nameOf n2 = [] then (s, ⟨128, []⟩)
    else if s.dir (nameOf n2) = some i then (s, ⟨0, []⟩)
    else ((s.setDir (nameOf n2) (some i)).setDir (nameOf n1) none, ⟨0, []⟩)

/-- /repo/libcob/fileio.c:5183-5188: the loop of `CBL_COPY_FILE`, `p1` and `p2` being the positions of the descriptors.  The bound on
the number of rounds is given by the caller; `none` stands for a bound that was too small. -/
def copyLoop (i1 i2 : Nat) (ans : Nat → Option Nat) : Nat → Nat → Nat → Nat → Sys → Option (Sys × Int)
  | 0, _, _, _, _ => none
  | fuel + 1, j, p1, p2, s =>
    let c := pread (s.data i1) p1 1024
    if c = [] then some (s, 0)
    else match ans j with
      | none => some (s, -1)
      | some k =>
        copyLoop i1 i2 ans fuel (j + 1) (p1 + c.length) (p2 + (c.take k).length)
          (s.setData i2 (pwrite (s.data i2) p2 (c.take k)))

/-- /repo/libcob/fileio.c:5142-5192 `CBL_COPY_FILE`. -/
def copyCbl (s : Sys) (n1 n2 : List Nat) (ok1 ok2 : Bool) (ans : Nat → Option Nat) : Sys × Res :=
  match s.dir (nameOf n1) with
  | none => (s, ⟨-1, []⟩)
  | some i1 =>
    if ok1 = false ∨ ok2 = false then (s, ⟨-1, []⟩)
    else match openIno s (nameOf n2) true true with
      | none => (s, ⟨-1, []⟩)
      | some (s1, i2) =>
        match copyLoop i1 i2 ans ((s1.data i1).length + 1) 0 0 0 s1 with
        | some (s2, rc) => (s2, ⟨rc, []⟩)
        | none => (s1, ⟨-1, []⟩)

/-- /repo/libcob/fileio.c:5194-5239 `CBL_CHECK_FILE_EXIST`: size (8 bytes), day, month, year (2 bytes), hour, minute, second and a zero,
numbers with the most significant byte first. -/
def existCbl (s : Sys) (name info : List Nat) (tm : Tm) : Res :=
  match s.dir (nameOf name) with
  | none => ⟨35, [info]⟩
  | some i =>
    ⟨0, [((leBytes 8 (s.data i).length).reverse ++ [tm.day, tm.mon] ++ (leBytes 2 tm.year).reverse ++ [tm.hour, tm.min, tm.sec, 0])
          ++ info.drop 16]⟩

/-- One call: /repo/libcob/fileio.c:4997-5266. -/
def step (s : Sys) : Op → Sys × Res
  | .openFile n a ans => openCbl s n a false ans
  | .createFile n a ans => openCbl s n a true ans
  | .read h o l f b ok => (s, readCbl s h o l f b ok)
  | .write h o l b ans => writeCbl s h o l b ans
  | .close h => closeCbl s h
  | .delete n ok => deleteCbl s n ok
  | .rename n1 n2 ok => renameCbl s n1 n2 ok
  | .copy n1 n2 ok1 ok2 ans => copyCbl s n1 n2 ok1 ok2 ans
  | .exist n i tm => (s, existCbl s n i tm)

/-- A history of calls, with what each gave back. -/
def run (s : Sys) : List Op → Sys × List Res
  | [] => (s, [])
  | o :: r => let a := step s o; let b := run a.1 r; (b.1, a.2 :: b.2)

end Cob.Cbl
