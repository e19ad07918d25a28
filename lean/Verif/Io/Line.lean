import Verif.Io.Seq
/-
Model of libcob/fileio.c for ORGANIZATION LINE SEQUENTIAL (default build, no external file handler):
lineseq_read, lineseq_write, cob_file_write_opt, cob_linage_write_opt, file_linage_check, and the part
of cob_ex_read and cob_ex_write that surrounds them.

I/O errors of the stream are not modelled.
-/
namespace Cob

/-- The ADVANCING phrase: how far. -/
inductive Adv where
  | lines (n : Nat)
  | page
deriving DecidableEq, Repr

/-- The options of WRITE: AFTER or BEFORE, how far, and whether there is an AT END-OF-PAGE phrase
(cobc/typeck.c:7711-7771; `n` is less than 65536, COB_WRITE_MASK).  A WRITE without ADVANCING is
BEFORE ADVANCING 1 LINE. -/
structure WOpt where
  after : Bool
  adv : Adv
  eop : Bool
deriving DecidableEq, Repr

/-- `WRITE` without ADVANCING to a line sequential file. -/
def plainWrite : WOpt := ⟨false, .lines 1, false⟩

/-- The values of the items of the LINAGE clause. -/
structure LinItems where
  lines : Int
  foot : Option Int
  top : Option Int
  bot : Option Int
deriving DecidableEq, Repr

/-- libcob/common.h `struct linage_struct`: the items, the values taken from them, LINAGE-COUNTER,
and `flag_needs_top` of the file. -/
structure Linage where
  items : LinItems
  lines : Nat
  foot : Nat
  top : Nat
  bot : Nat
  ctr : Nat
  needsTop : Bool
deriving DecidableEq, Repr

/-- libcob/fileio.c:757-796 `file_linage_check`: `none` when the items are out of range (then the
counter is set to 0).  The values read before the error are kept by the C code; they are not used
any more, as the counter is 0. -/
def linageCheck (l : Linage) : Option Linage :=
  if l.items.lines < 1 then none
  else if l.items.foot.any (fun x => x < 1 || l.items.lines < x) then none
  else if l.items.top.getD 0 < 0 then none
  else if l.items.bot.getD 0 < 0 then none
  else some { l with lines := l.items.lines.toNat, foot := (l.items.foot.getD 0).toNat,
                     top := (l.items.top.getD 0).toNat, bot := (l.items.bot.getD 0).toNat }

/-- `putc ('\n', fp)`, `n` times. -/
def newlines (n : Nat) : List Nat := List.replicate n 10

/-- libcob/fileio.c:952-1015 `cob_linage_write_opt`: the status, the bytes written, whether
`eop_status` is set, the LINAGE state. -/
def linageWriteOpt (l : Linage) (opt : WOpt) : Nat × List Nat × Bool × Linage :=
  match opt.adv with
  | .page =>
    if l.ctr = 0 then (57, [], false, l)
    else
      let out := newlines (l.lines - l.ctr) ++ newlines l.bot
      match linageCheck l with
      | none => (57, out, false, { l with ctr := 0 })
      | some l => (0, out ++ newlines l.top, false, { l with ctr := 1 })
  | .lines n =>
    if l.ctr = 0 then (57, [], false, l)
    else
      let i := l.ctr + n
      let eop := (opt.eop && l.foot ≠ 0 && l.foot ≤ i) || (l.lines < i && opt.eop)
      if l.lines < i then
        let out := newlines (l.lines - l.ctr) ++ newlines l.bot
        match linageCheck l with
        | none => (57, out, eop, { l with ctr := 0 })
        | some l => (0, out ++ newlines l.top, eop, { l with ctr := 1 })
      else (0, newlines (n - 1), eop, { l with ctr := i })

/-- A line sequential connector that is open: COB_LS_NULLS and COB_LS_FIXED, the record limits, the
stream, `f->record`, the DEPENDING item, the flags, LINAGE. -/
structure LsFile where
  nulls : Bool
  fixedLen : Bool
  recMin : Nat
  recMax : Nat
  stream : Stream
  size : Nat
  area : List Nat
  depending : Option Nat
  endOfFile : Bool
  needsNl : Bool
  linage : Option Linage
deriving DecidableEq, Repr

/-- libcob/fileio.c:1017-1033 `cob_file_write_opt`. -/
def fileWriteOpt (f : LsFile) (opt : WOpt) : Nat × List Nat × Bool × LsFile :=
  match f.linage with
  | some l =>
    let r := linageWriteOpt l opt
    (r.1, r.2.1, r.2.2.1, { f with linage := some r.2.2.2 })
  | none =>
    match opt.adv with
    | .lines n => (0, newlines n, false, f)
    | .page => (0, [12], false, f)

/-- libcob/fileio.c:1287-1292: the length without trailing spaces, `n` characters being left. -/
def lsTrim (d : List Nat) : Nat → Nat
  | 0 => 0
  | n + 1 => if d.getD n 0 ≠ 32 then n + 1 else lsTrim d n

/-- libcob/fileio.c:1315-1327: the bytes of the record; with COB_LS_NULLS a NUL is put before every
byte below space. -/
def lsBytes (nulls : Bool) (d : List Nat) : List Nat :=
  if nulls then d.flatMap fun b => if b < 32 then [0, b] else [b] else d

/-- libcob/fileio.c:1257-1354 `lineseq_write`: `eop` is the global `eop_status`. -/
def lineseqWrite (eop : Bool) (f : LsFile) (opt : WOpt) : Nat × List Nat × Bool × LsFile :=
  let size := if f.fixedLen then f.size else lsTrim f.area f.size
  -- the top margin of the first page
  let top := match f.linage with
    | some l => if l.needsTop then (newlines l.top, { f with linage := some { l with needsTop := false } })
                else ([], f)
    | none => ([], f)
  let f := top.2
  let aft := if opt.after then fileWriteOpt f opt else (0, [], false, f)
  let eop := eop || aft.2.2.1
  if aft.1 ≠ 0 then (aft.1, top.1 ++ aft.2.1, eop, aft.2.2.2)
  else
    let f := aft.2.2.2
    let f := if opt.after then { f with needsNl := true } else f
    let rec' := lsBytes f.nulls (f.area.take size)
    let nl := match f.linage with
      | some _ => newlines 1
      | none => []
    let bef := if opt.after then (0, [], false, f) else fileWriteOpt f opt
    let eop := eop || bef.2.2.1
    let out := top.1 ++ aft.2.1 ++ rec' ++ nl ++ bef.2.1
    if bef.1 ≠ 0 then (bef.1, out, eop, bef.2.2.2)
    else
      let f := bef.2.2.2
      let f := if opt.after then f else { f with needsNl := false }
      let q := if f.needsNl && f.linage.isNone then (newlines 1, { f with needsNl := false })
               else ([], f)
      if eop then (52, out ++ q.1, false, q.2) else (0, out ++ q.1, false, q.2)

/-- libcob/fileio.c:4398-4444 `cob_ex_write` (file open for OUTPUT or EXTEND: the stream is at its
end). -/
def lsExWrite (eop : Bool) (f : LsFile) (area : List Nat) (recLen : Nat) (opt : WOpt) :
    Nat × Bool × LsFile :=
  let f := { f with area := area }
  let tmpsize := f.size
  let f := { f with size := f.depending.getD recLen }
  if f.size < f.recMin ∨ f.recMax < f.size then (44, eop, f)
  else
    let r := lineseqWrite eop f opt
    (r.1, r.2.2.1, { r.2.2.2 with size := tmpsize, stream := f.stream.append r.2.1 })

/-- The outcome of reading one line. -/
inductive LsLine where
  | eof
  | err
  | line (stored rest : List Nat)
deriving DecidableEq, Repr

/-- libcob/fileio.c:1219-1247: the loop of `lineseq_read` over the bytes that are left; `acc` is what
has been stored in the record area (at most `size` bytes). -/
def lsScan (nulls : Bool) (size : Nat) : List Nat → List Nat → LsLine
  | [], acc => if acc.length = 0 then .eof else .line acc []
  | n :: rest, acc =>
    if n = 0 ∧ nulls = true then
      match rest with
      | [] => .err
      | m :: rest' => lsScan nulls size rest' (if acc.length < size then acc ++ [m] else acc)
    else if n = 13 then lsScan nulls size rest acc
    else if n = 10 then .line acc rest
    else lsScan nulls size rest (if acc.length < size then acc ++ [n] else acc)

/-- libcob/fileio.c:1204-1255 `lineseq_read`. -/
def lineseqRead (f : LsFile) : Nat × LsFile :=
  let s := f.stream
  match lsScan f.nulls f.size (s.data.drop s.pos) [] with
  | .eof => (10, { f with stream := { s with pos := s.data.length } })
  | .err => (30, { f with stream := { s with pos := s.data.length } })
  | .line st rest =>
    (0, { f with stream := { s with pos := s.data.length - rest.length },
                 area := overlay (st ++ List.replicate (f.size - st.length) 32) f.area,
                 depending := f.depending.map fun _ => st.length })

/-- libcob/fileio.c:4302-4374 `cob_ex_read` (file open for INPUT). -/
def lsExRead (f : LsFile) : Nat × LsFile :=
  if f.endOfFile then (46, f)
  else
    let r := lineseqRead f
    if r.1 = 0 then (0, { r.2 with endOfFile := false })
    else if r.1 = 10 then (10, { r.2 with endOfFile := true })
    else r

/-- libcob/fileio.c:895-907 (in `cob_file_open`): LINAGE at OPEN. -/
def linageOpen (items : LinItems) : Option Linage :=
  (linageCheck ⟨items, 0, 0, 0, 0, 0, true⟩).map fun l => { l with ctr := 1, needsTop := true }

end Cob
