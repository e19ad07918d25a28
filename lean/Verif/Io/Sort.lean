import Verif.Io.Stream
import Verif.Cmp.Compare
/-
SORT: RELEASE, RETURN and the merge sort behind them (libcob/fileio.c 5777-6122, 6259-6313).

The order of two records is a parameter `lt` (`cob_file_sort_compare (..) < 0`); `sortLt` is the
actual one.  Every loop that is not bounded by the length of a list has a `fuel`; `none` stands for a
null dereference or for running out of fuel.
Not modelled: failure of reading or writing the temporary files, failure of creating them, the
pointer structure of the queues (a queue is the list of its items, `count` its length).
-/
namespace Cob

/-- `struct cobitem` (libcob/fileio.c:166-173); `block_byte` is always 0. -/
structure SItem where
  uniq : Nat
  recSize : Nat
  data : List Nat
  eob : Bool
deriving DecidableEq, Repr

/-- `cob_file_sort_compare (k1, k2) < 0`, libcob/fileio.c:5638-5669 (false where the comparison of the
keys is outside the model, see `fileSortCompare`). -/
def sortLt (ebc : Bool) (col : Option (Nat → Nat)) (ks : List SortKey) (k1 k2 : SItem) : Bool :=
  (fileSortCompare ebc col ks (k1.uniq, k1.data) (k2.uniq, k2.data)).any (· < 0)

/-! ### In memory -/

/-- libcob/fileio.c:5797-5823, the inner `while` of `cob_sort_queues`: `e0`, `e1` are
`end_of_block[]`, `a`, `b` the source queues, `acc` what has been moved to the destination. -/
def mergeBlock (lt : SItem → SItem → Bool) : (e0 e1 : Bool) → (a b acc : List SItem) →
    Option (List SItem × List SItem × List SItem)
  | true, true, a, b, acc => some (a, b, acc)
  | true, false, _, [], _ => none
  | true, false, a, y :: b, acc => mergeBlock lt true y.eob a b (acc ++ [{ y with eob := false }])
  | false, true, [], _, _ => none
  | false, true, x :: a, b, acc => mergeBlock lt x.eob true a b (acc ++ [{ x with eob := false }])
  | false, false, x :: a, y :: b, acc =>
    if lt x y then mergeBlock lt x.eob false a (y :: b) (acc ++ [{ x with eob := false }])
    else mergeBlock lt false y.eob (x :: a) b (acc ++ [{ y with eob := false }])
  | false, false, _, _, _ => none
termination_by _ _ a b _ => a.length + b.length

/-- `hp->queue[destination].last->end_of_block = 1`, libcob/fileio.c:5824. -/
def markLast : List SItem → List SItem
  | [] => []
  | [x] => [{ x with eob := true }]
  | x :: y :: l => x :: markLast (y :: l)

/-- libcob/fileio.c:5791-5826, the `for (;;)` of `cob_sort_queues`: one pass from the queues `a`, `b`
to the queues `d` (the current destination) and `d'` (the other); gives the destinations as
`queue[destination & 2]`, `queue[(destination & 2) + 1]`; `odd` says that the current one is the
latter. -/
def sortPass (lt : SItem → SItem → Bool) : (fuel : Nat) → (a b d d' : List SItem) → (odd : Bool) →
    Option (List SItem × List SItem)
  | 0, _, _, _, _, _ => none
  | fuel + 1, a, b, d, d', odd =>
    if a.isEmpty && b.isEmpty then some (if odd then (d', d) else (d, d'))
    else
      match mergeBlock lt a.isEmpty b.isEmpty a b [] with
      | none => none
      | some (a, b, moved) => sortPass lt fuel a b d' (d ++ markLast moved) (!odd)

/-- libcob/fileio.c:5776-5830 `cob_sort_queues`: the queues `source` and `source + 1` are `a` and `b`;
the result is the queue `source` at the end, the others are empty. -/
def sortQueues (lt : SItem → SItem → Bool) : (fuel : Nat) → (a b : List SItem) → Option (List SItem)
  | 0, _, _ => none
  | fuel + 1, a, b =>
    if b.length = 0 then some a
    else
      match sortPass lt fuel a b [] [] false with
      | none => none
      | some (a, b) => sortQueues lt fuel a b

/-! ### Temporary files -/

/-- `struct file_struct`: a temporary file and its count. -/
structure SFile where
  st : Stream
  count : Nat
deriving DecidableEq, Repr

/-- `count--` of a `size_t`. -/
def decCount (n : Nat) : Nat := if n = 0 then 2 ^ 64 - 1 else n - 1

/-- The `w_size` bytes at `&q->block_byte`: the block byte, the number (8 bytes, little endian), the
record. -/
def itemImage (q : SItem) : List Nat := 0 :: leBytes 8 q.uniq ++ q.data

/-- The bytes written for an item. -/
def SFile.put (f : SFile) (q : SItem) : SFile := { f with st := f.st.fwrite (itemImage q) }

/-- `putc (1, fp)` and `count++`. -/
def SFile.endBlock (f : SFile) : SFile := { st := f.st.fwrite [1], count := f.count + 1 }

/-- `rewind (fp)`. -/
def SFile.rewind (f : SFile) : SFile := { f with st := { f.st with pos := 0 } }

/-- libcob/fileio.c:5832-5846 `cob_read_item`: `cur` is `queue[n].first`.  `none`: short read (`COBSORTFILEERR`). -/
def readItemFile (size : Nat) (f : SFile) (cur : SItem) : Option (SFile × SItem) :=
  let r := f.st.fread 1
  let f := { f with st := r.2 }
  if r.1 ≠ [0] then some (f, { cur with eob := true })
  else
    let u := f.st.fread (8 + size)
    if u.1.length < 8 + size then none
    else some ({ f with st := u.2 },
      { cur with eob := false, uniq := leVal (u.1.take 8), data := u.1.drop 8 })

/-- libcob/fileio.c:5848-5872 `cob_write_block`: the items of the queue and the end mark. -/
def writeBlock (f : SFile) (q : List SItem) : SFile := (q.foldl SFile.put f).endBlock

/-- Which of the two current items is taken (`move`), libcob/fileio.c:5947-5957 and 6088-6100; `none`
when both blocks are at their end. -/
def chooseItem (lt : SItem → SItem → Bool) (x y : SItem) : Option Bool :=
  if x.eob then (if y.eob then none else some true)
  else if y.eob then some false
  else some (!lt x y)

/-- libcob/fileio.c:5945-5967, the inner `while` of `cob_file_sort_process`: source files `s0`, `s1` with
their current items `x`, `y`, destination `d`. -/
def fileMerge (lt : SItem → SItem → Bool) (size : Nat) : (fuel : Nat) → (s0 s1 d : SFile) → (x y : SItem) →
    Option (SFile × SFile × SFile × SItem × SItem)
  | 0, _, _, _, _, _ => none
  | fuel + 1, s0, s1, d, x, y =>
    match chooseItem lt x y with
    | none => some (s0, s1, d, x, y)
    | some false =>
      match readItemFile size s0 x with
      | none => none
      | some (s0, x') => fileMerge lt size fuel s0 s1 (d.put x) x' y
    | some true =>
      match readItemFile size s1 y with
      | none => none
      | some (s1, y') => fileMerge lt size fuel s0 s1 (d.put y) x y'

/-- libcob/fileio.c:5935-5976, the middle `while` of `cob_file_sort_process`: pairs of blocks are merged to
the destinations alternately (`d` the current one; `odd` it is `destination + 1`). -/
def filePass (lt : SItem → SItem → Bool) (size : Nat) : (fuel : Nat) → (s0 s1 d d' : SFile) → (odd : Bool) →
    (x y : SItem) → Option (SFile × SFile × SFile × SFile × SItem × SItem)
  | 0, _, _, _, _, _, _, _ => none
  | fuel + 1, s0, s1, d, d', odd, x, y =>
    if s0.count = 0 then
      some (s0, s1, if odd then d' else d, if odd then d else d', x, y)
    else
      match readItemFile size s0 x,
          (if s1.count > 0 then readItemFile size s1 y else some (s1, { y with eob := true })) with
      | some (s0, x), some (s1, y) =>
        match fileMerge lt size fuel s0 s1 d x y with
        | none => none
        | some (s0, s1, d, x, y) =>
          filePass lt size fuel { s0 with count := decCount s0.count }
            { s1 with count := decCount s1.count } d' d.endBlock (!odd) x y
      | _, _ => none

/-- libcob/fileio.c:5931-5982, the outer `while` of `cob_file_sort_process`: source files `s0`, `s1`, the other
two `d0`, `d1`, the current items of the four queues. -/
def fileSort (lt : SItem → SItem → Bool) (size : Nat) : (fuel : Nat) → (s0 s1 d0 d1 : SFile) →
    (x y z w : SItem) → Option (SFile × SFile × SItem × SItem)
  | 0, _, _, _, _, _, _, _, _ => none
  | fuel + 1, s0, s1, d0, d1, x, y, z, w =>
    if s0.count ≤ 1 then some (s0, s1, x, y)
    else
      match filePass lt size fuel s0 s1 { d0 with count := 0 } { d1 with count := 0 } false x y with
      | none => none
      | some (s0, s1, d0, d1, x, y) =>
        fileSort lt size fuel d0.rewind d1.rewind s0.rewind s1.rewind z w x y

/-! ### RELEASE and RETURN -/

/-- `struct cobsort` (libcob/fileio.c:186-201).  `ret` is the retrieval queue when no file is used,
otherwise `s0`, `s1`, `x`, `y` are the two files being merged and their current items; `free` is the
length of the list `empty`. -/
structure Sorter where
  size : Nat
  memory : Nat
  unique : Nat
  retrieving : Bool
  filesUsed : Bool
  dest : Nat
  free : Nat
  q0 : List SItem
  q1 : List SItem
  ret : List SItem
  s0 : SFile
  s1 : SFile
  x : SItem
  y : SItem
deriving DecidableEq, Repr

/-- An item of the free list, whatever it contains. -/
def oldItem : SItem := ⟨0, 0, [], true⟩

/-- A file just created. -/
def SFile.empty : SFile := ⟨⟨[], 0⟩, 0⟩

/-- libcob/fileio.c:6197-6221 `cob_file_sort_init`; `memory` is the number of records that fit. -/
def Sorter.init (size memory : Nat) : Sorter :=
  { size := size, memory := memory, unique := 0, retrieving := false, filesUsed := false, dest := 0,
    free := 0, q0 := [], q1 := [], ret := [], s0 := .empty, s1 := .empty, x := oldItem, y := oldItem }

/-- `cob_write_block` to the current destination file; the items go to the free list. -/
def Sorter.writeQueue (h : Sorter) (q : List SItem) : Sorter :=
  let h := { h with free := h.free + q.length }
  if h.dest = 0 then { h with s0 := writeBlock h.s0 q } else { h with s1 := writeBlock h.s1 q }

/-- libcob/fileio.c:5994-6066 `cob_file_sort_submit`; the result is 0 or `COBSORTABORT` (2).  `rec` is the
record area, `recSize` what goes to `q->record_size`. -/
def sortSubmit (lt : SItem → SItem → Bool) (fuel : Nat) (h : Sorter) (recSize : Nat) (rec : List Nat) :
    Option (Nat × Sorter) :=
  if h.retrieving then some (2, h)
  else
    let flushed : Option Sorter :=
      if h.q0.length + h.q1.length ≥ h.memory then
        let h := if h.filesUsed then h else
          { h with s0 := .empty, s1 := .empty, filesUsed := true, dest := 0 }
        match sortQueues lt fuel h.q0 h.q1 with
        | none => none
        | some q =>
          let h := { h with q0 := [], q1 := [] }.writeQueue q
          some { h with dest := if h.dest = 0 then 1 else 0 }
      else some h
    match flushed with
    | none => none
    | some h =>
      let q : SItem := { uniq := h.unique, recSize := recSize, data := rec.take h.size, eob := true }
      let h := { h with free := h.free - 1, unique := (h.unique + 1) % 2 ^ 64 }
      if h.q0.length ≤ h.q1.length then some (0, { h with q0 := q :: h.q0 })
      else some (0, { h with q1 := q :: h.q1 })

/-- libcob/fileio.c:5894-5991 `cob_file_sort_process`.  Four items are taken from the free list for the four
queues; `none` if there are fewer. -/
def sortProcess (lt : SItem → SItem → Bool) (fuel : Nat) (h : Sorter) : Option Sorter :=
  let h := { h with retrieving := true }
  match sortQueues lt fuel h.q0 h.q1 with
  | none => none
  | some q =>
    if h.filesUsed = false then some { h with q0 := [], q1 := [], ret := q }
    else
      let h := { h with q0 := [], q1 := [] }.writeQueue q
      if h.free < 4 then none
      else
        match fileSort lt h.size fuel h.s0.rewind h.s1.rewind .empty .empty oldItem oldItem oldItem oldItem with
        | none => none
        | some (s0, s1, x, y) =>
          match readItemFile h.size s0 x, readItemFile h.size s1 y with
          | some (s0, x), some (s1, y) =>
            some { h with free := h.free - 4, s0 := s0, s1 := s1, x := x, y := y }
          | _, _ => none

/-- libcob/fileio.c:6068-6122 `cob_file_sort_retrieve`: 0 and the record, or `COBSORTEND` (1).  With the record
comes the size put into the RECORD DEPENDING ON item (`none`: the item is left as it is). -/
def sortRetrieve (lt : SItem → SItem → Bool) (fuel : Nat) (h : Sorter) :
    Option (Nat × Option (List Nat × Option Nat) × Sorter) :=
  match (if h.retrieving then some h else sortProcess lt fuel h) with
  | none => none
  | some h =>
    if h.filesUsed then
      match chooseItem lt h.x h.y with
      | none => some (1, none, h)
      | some false =>
        match readItemFile h.size h.s0 h.x with
        | none => none
        | some (s0, x) => some (0, some (h.x.data, none), { h with s0 := s0, x := x })
      | some true =>
        match readItemFile h.size h.s1 h.y with
        | none => none
        | some (s1, y) => some (0, some (h.y.data, none), { h with s1 := s1, y := y })
    else
      match h.ret with
      | [] => some (1, none, h)
      | q :: rest => some (0, some (q.data, some q.recSize), { h with ret := rest, free := h.free + 1 })

/-- RELEASE and RETURN. -/
inductive SortOp where
  | release (recSize : Nat) (rec : List Nat)
  | ret
deriving DecidableEq, Repr

/-- What the program sees: the file status and, for a successful RETURN, the record and the size put
into the RECORD DEPENDING ON item. -/
structure SortObs where
  status : Nat
  record : Option (List Nat)
  size : Option Nat
deriving DecidableEq, Repr

/-- libcob/fileio.c:6258-6313 `cob_file_release`, `cob_file_return`: the status. -/
def sortStatus : Nat → Nat
  | 0 => 0
  | 1 => 10
  | _ => 30

def sortRun (lt : SItem → SItem → Bool) (fuel : Nat) : Sorter → List SortOp → Option (List SortObs)
  | _, [] => some []
  | h, .release n r :: rest =>
    match sortSubmit lt fuel h n r with
    | none => none
    | some (c, h) =>
      (sortRun lt fuel h rest).map (⟨if c = 0 then 0 else 30, none, none⟩ :: ·)
  | h, .ret :: rest =>
    match sortRetrieve lt fuel h with
    | none => none
    | some (c, r, h) =>
      (sortRun lt fuel h rest).map (⟨sortStatus c, r.map Prod.fst, r.bind Prod.snd⟩ :: ·)

end Cob
