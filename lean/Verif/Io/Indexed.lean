import Verif.Io.Rel
import Verif.Io.Status
/-
Model of libcob/fileio.c for ORGANIZATION INDEXED in the default build (Berkeley DB 4.1 or later, no
environment DB_HOME, so no locks): indexed_open, indexed_start_internal, indexed_read, indexed_read_next, get_dupno,
check_alt_keys, indexed_write, indexed_write_internal, indexed_delete_internal, indexed_rewrite, and the part of cob_ex_start,
cob_ex_read, cob_ex_write, cob_ex_rewrite and cob_ex_delete that surrounds them.

Berkeley DB is trusted.  A B-tree is the list of its entries in key order (`memcmp`, the shorter first), entries with the same
key (DB_DUP) in the order they were put; a cursor is a position in the list.  An entry of an alternate index is the key, the primary
key of the record and the number behind it; in the index of the primary key the entry leads to itself.

Simplifications: the checks of the open mode are not repeated here (see the connector model); the numbers of duplicates do not
reach 2^32; the number that may be stored in an index without duplicates is never read and is 0 here; I/O errors
are not modelled; another process does not change the file.
-/
namespace Cob

/-- A key of the record: `offset`, `size` of `struct cob_file_key` and its `flag` (WITH DUPLICATES). -/
structure IxKey where
  off : Nat
  len : Nat
  dups : Bool
deriving DecidableEq, Repr

/-- The SELECT clause: the record key first, then the alternate record keys; the record lengths. -/
structure IxCfg where
  keys : List IxKey
  access : Access
  recMin : Nat
  recMax : Nat
deriving DecidableEq, Repr

/-- The key number `i`. -/
def IxCfg.key (cfg : IxCfg) (i : Nat) : IxKey := cfg.keys.getD i ⟨0, 0, false⟩

/-- The bytes of key `i` in a record. -/
def IxCfg.keyOf (cfg : IxCfg) (i : Nat) (r : List Nat) : List Nat := (r.drop (cfg.key i).off).take (cfg.key i).len

/-- An entry of an index. -/
structure IxEnt where
  key : List Nat
  pk : List Nat
  dup : Nat
deriving DecidableEq, Repr

/-- An open indexed file.  `db0` are the records, `alts i` the index of key `i`; `lastRead`, `lastPrim`, `lastDup` are
`last_readkey[i]`, `last_readkey[nkeys + i]`, `last_dupno[i]`; `lastKey` is `last_key`; `dataNull` is `data.data == NULL`;
`curKey` are the bytes `p->key` points to after a READ; `size` is `f->record->size`. -/
structure IxFile where
  db0 : List (List Nat × List Nat)
  alts : Nat → List IxEnt
  keyIndex : Nat
  lastRead : Nat → List Nat
  lastPrim : Nat → List Nat
  lastDup : Nat → Nat
  lastKey : Option (List Nat)
  dataNull : Bool
  curKey : List Nat
  size : Nat
  readDone : Bool
  eof : Bool
  bof : Bool
  firstRead : Nat

/-- `p[i] = x`. -/
def setAt {α : Type} (g : Nat → α) (i : Nat) (x : α) : Nat → α := fun j => if j = i then x else g j

/-! ### Berkeley DB -/

/-- DB_GET of the record with this primary key. -/
def getRec (db0 : List (List Nat × List Nat)) (k : List Nat) : Option (List Nat) :=
  (db0.find? fun p => p.1 == k).map (·.2)

/-- DB_SET_RANGE: the first entry whose key is not less. -/
def seekRange (L : List IxEnt) (k : List Nat) : Option Nat := L.findIdx? fun e => !decide (e.key < k)

/-- DB_SET: the first entry with this key. -/
def seekKey (L : List IxEnt) (k : List Nat) : Option Nat := L.findIdx? fun e => e.key == k

/-- DB_FIRST. -/
def seekFirst (L : List IxEnt) : Option Nat := if L = [] then none else some 0

/-- DB_LAST. -/
def seekLast (L : List IxEnt) : Option Nat := if L = [] then none else some (L.length - 1)

/-- DB_NEXT. -/
def seekNext (L : List IxEnt) (j : Nat) : Option Nat := if j + 1 < L.length then some (j + 1) else none

/-- DB_PREV. -/
def seekPrev (j : Nat) : Option Nat := if j = 0 then none else some (j - 1)

/-- `while (ret == 0 && c) ret = DB_NEXT`: `j` is the position of the first entry of the list given. -/
def skipWhile (c : IxEnt → Bool) : Nat → List IxEnt → Option Nat
  | _, [] => none
  | j, e :: es => if c e then skipWhile c (j + 1) es else some j

/-- DB_PUT into a B-tree that has no such key, or with DB_DUP: behind all entries with a key not greater. -/
def putEnt (L : List IxEnt) (e : IxEnt) : List IxEnt :=
  L.takeWhile (fun x => !decide (e.key < x.key)) ++ e :: L.dropWhile (fun x => !decide (e.key < x.key))

/-- The same in the tree of records. -/
def putRec (db0 : List (List Nat × List Nat)) (k r : List Nat) : List (List Nat × List Nat) :=
  db0.takeWhile (fun x => !decide (k < x.1)) ++ (k, r) :: db0.dropWhile (fun x => !decide (k < x.1))

/-! ### The functions -/

/-- The index of key `i`; the tree of records is the index of the primary key. -/
def IxFile.index (f : IxFile) (i : Nat) : List IxEnt :=
  if i = 0 then f.db0.map fun p => ⟨p.1, p.1, 0⟩ else f.alts i

/-- libcob/fileio.c:1961-2147 `indexed_open`, with the flags set by `cob_ex_open` (3859, 3871-3875): the trees as they are in
the file; `size` is the length of the record area as it was left (the longest record at first). -/
def ixOpen (cfg : IxCfg) (db0 : List (List Nat × List Nat)) (alts : Nat → List IxEnt) (size : Nat) : IxFile :=
  let zeros := fun i => List.replicate (cfg.key i).len 0
  { db0 := db0, alts := alts, keyIndex := 0
    lastRead := match db0 with
      | [] => zeros
      | p :: _ => setAt zeros 0 p.1
    lastPrim := zeros, lastDup := fun _ => 0, lastKey := none, dataNull := decide (db0 = []), curKey := [], size := size
    readDone := false, eof := false, bof := false, firstRead := 2 }

/-- libcob/fileio.c:2229-2233: the key with the address of the field named. -/
def ixFindKey (cfg : IxCfg) (off : Nat) : Nat := cfg.keys.findIdx fun k => k.off == off

/-- libcob/fileio.c:2241-2324: the entry START finds; `dups` is the flag of the key, `arg` the bytes of the field
named (it may be shorter than the key). -/
def ixSearch (dups : Bool) (L : List IxEnt) (cond : StartCond) (arg : List Nat) : Option Nat :=
  let s := seekRange L arg
  let same := fun (e : IxEnt) => e.key.take arg.length == arg
  match cond with
  | .eq => s.bind fun j => if (L[j]?).any same then some j else none
  | .lt =>
    match s with
    | none => seekLast L
    | some j => seekPrev j
  | .le =>
    match s with
    | none => seekLast L
    | some j =>
      if !(L[j]?).any same then seekPrev j
      else if dups then
        match skipWhile (fun e => (L[j]?).any fun x => e.key == x.key) j (L.drop j) with
        | none => seekLast L
        | some j' => seekPrev j'
      else some j
  | .gt => s.bind fun j => skipWhile same j (L.drop j)
  | .ge => s

/-- libcob/fileio.c:2326-2334, 2365-2377: from the entry to the record; the position is noted. -/
def ixArrive (cfg : IxCfg) (f : IxFile) (i : Nat) (e : IxEnt) : IxFile :=
  let f := { f with lastRead := setAt f.lastRead i e.key, curKey := e.pk, dataNull := false }
  if i = 0 then f
  else
    { f with
      lastPrim := setAt f.lastPrim i e.pk
      lastDup := if (cfg.key i).dups then setAt f.lastDup i e.dup else f.lastDup }

/-- libcob/fileio.c:2220-2388 `indexed_start_internal`: the status, the file and the record. -/
def ixStartInt (cfg : IxCfg) (f : IxFile) (cond : StartCond) (off : Nat) (arg : List Nat) : Nat × IxFile × List Nat :=
  let i := ixFindKey cfg off
  let f := { f with keyIndex := i }
  match ixSearch (cfg.key i).dups (f.index i) cond arg with
  | none => (23, f, [])
  | some j =>
    match (f.index i)[j]? with
    | none => (23, f, [])
    | some e =>
      match getRec f.db0 e.pk with
      | none => (23, f, [])
      | some r => (0, ixArrive cfg f i e, r)

/-- How READ NEXT moves: `nextprev`. -/
inductive IxMove where
  | first | last | next | prev
deriving DecidableEq, Repr

/-- libcob/fileio.c:2899-2907: `nextprev`. -/
def ixMove (f : IxFile) (prev : Bool) : IxMove :=
  if prev then (if f.eof then .last else .prev) else if f.bof then .first else .next

/-- libcob/fileio.c:2932-2970: is the entry OPEN or START found still there? -/
def ixSame (cfg : IxCfg) (f : IxFile) : Option IxEnt :=
  let i := f.keyIndex
  let L := f.index i
  (seekKey L (f.lastRead i)).bind fun j =>
    if i = 0 then L[j]?
    else if (cfg.key i).dups then
      (skipWhile (fun e => e.key == f.lastRead i && decide (e.dup < f.lastDup i)) j (L.drop j)).bind fun j =>
        (L[j]?).filter fun e => e.key == f.lastRead i && e.dup == f.lastDup i && e.pk == f.lastPrim i
    else (L[j]?).filter fun e => e.pk == f.lastPrim i

/-- libcob/fileio.c:2991-3087: the entry a READ NEXT or PREVIOUS goes to. -/
def ixStepTo (cfg : IxCfg) (f : IxFile) (m : IxMove) : Option Nat :=
  let i := f.keyIndex
  let L := f.index i
  match m with
  | .first => seekFirst L
  | .last => seekLast L
  | .next =>
    (seekRange L (f.lastRead i)).bind fun j =>
      if (L[j]?).any fun e => e.key == f.lastRead i then
        if i ≠ 0 ∧ (cfg.key i).dups = true then
          (skipWhile (fun e => e.key == f.lastRead i && decide (e.dup < f.lastDup i)) j (L.drop j)).bind fun j =>
            if (L[j]?).any fun e => e.key == f.lastRead i && e.dup == f.lastDup i then seekNext L j else some j
        else seekNext L j
      else some j
  | .prev =>
    match seekRange L (f.lastRead i) with
    | none => seekLast L
    | some j =>
      if (L[j]?).any fun e => e.key == f.lastRead i then
        if i ≠ 0 ∧ (cfg.key i).dups = true then
          match skipWhile (fun e => e.key == f.lastRead i && decide (e.dup < f.lastDup i)) j (L.drop j) with
          | none => seekLast L
          | some j => seekPrev j
        else seekPrev j
      else seekPrev j

/-- libcob/fileio.c:2882-3161 `indexed_read_next`. -/
def ixReadNext (cfg : IxCfg) (f : IxFile) (prev : Bool) : Nat × IxFile × List Nat :=
  let m := ixMove f prev
  let i := f.keyIndex
  if f.firstRead ≠ 0 ∧ (f.dataNull = true ∨ (f.firstRead = 2 ∧ m = .prev)) then (10, f, [])
  else
    let same := if f.firstRead ≠ 0 then (ixSame cfg f).bind fun e => (getRec f.db0 e.pk).map fun r => (e, r) else none
    match same with
    | some (e, r) => (0, { f with curKey := e.pk, dataNull := false }, r)
    | none =>
      match (ixStepTo cfg f m).bind fun j => (f.index i)[j]? with
      | none => (10, f, [])
      | some e =>
        match getRec f.db0 e.pk with
        | none => (23, f, [])
        | some r => (0, ixArrive cfg f i e, r)

/-- libcob/fileio.c:3167-3194 `get_dupno`. -/
def ixDupno (L : List IxEnt) (k : List Nat) : Nat :=
  (((L.dropWhile fun e => decide (e.key < k)).takeWhile fun e => e.key == k).getLast?.map (·.dup)).getD 0 + 1

/-- libcob/fileio.c:3197-3219 `check_alt_keys`: is there another record with a key that has to be unique? -/
def ixAltTaken (cfg : IxCfg) (f : IxFile) (rewrite : Bool) (area : List Nat) : Bool :=
  (List.range cfg.keys.length).any fun i =>
    i != 0 && !(cfg.key i).dups &&
      match (seekKey (f.alts i) (cfg.keyOf i area)).bind fun j => (f.alts i)[j]? with
      | none => false
      | some e => !(rewrite && e.pk == cfg.keyOf 0 area)

/-- libcob/fileio.c:3269-3307: the entries for the keys `i` … of the record; `skip` is `rewrite && !rewrite_sec_key[i]`.
False is the status 22. -/
def ixPutAlts (cfg : IxCfg) (skip : Nat → Bool) (area : List Nat) : List Nat → (Nat → List IxEnt) → (Nat → List IxEnt) × Bool
  | [], alts => (alts, true)
  | i :: is, alts =>
    if i = 0 ∨ skip i = true then ixPutAlts cfg skip area is alts
    else
      let k := cfg.keyOf i area
      let pk := cfg.keyOf 0 area
      if (cfg.key i).dups then
        ixPutAlts cfg skip area is (setAt alts i (putEnt (alts i) ⟨k, pk, ixDupno (alts i) k⟩))
      else if (seekKey (alts i) k).isSome then (alts, false)
      else ixPutAlts cfg skip area is (setAt alts i (putEnt (alts i) ⟨k, pk, 0⟩))

/-- libcob/fileio.c:3221-3337 `indexed_write_internal`. -/
def ixWriteInt (cfg : IxCfg) (f : IxFile) (rewrite : Bool) (skip : Nat → Bool) (area : List Nat) : Nat × IxFile :=
  let f := { f with dataNull := false }
  if rewrite = false ∧ ixAltTaken cfg f false area = true then (22, f)
  else if (getRec f.db0 (cfg.keyOf 0 area)).isSome then (22, f)
  else
    let f := { f with db0 := putRec f.db0 (cfg.keyOf 0 area) (area.take f.size) }
    let r := ixPutAlts cfg skip area (List.range cfg.keys.length) f.alts
    (if r.2 then 0 else 22, { f with alts := r.1 })

/-- libcob/fileio.c:3374-3390 `indexed_write`. -/
def ixWrite (cfg : IxCfg) (f : IxFile) (area : List Nat) : Nat × IxFile :=
  let k := cfg.keyOf 0 area
  if cfg.access = .sequential ∧ (f.lastKey.any fun l => decide (k < l)) = true then (21, f)
  else ixWriteInt cfg { f with lastKey := some k } false (fun _ => false) area

/-- libcob/fileio.c:3469-3496: the entries of the record with this primary key among those with this key. -/
def ixDelRun (k pk : List Nat) : List IxEnt → List IxEnt
  | [] => []
  | e :: es =>
    if e.key < k then e :: ixDelRun k pk es
    else if e.key == k then (if e.pk == pk then ixDelRun k pk es else e :: ixDelRun k pk es)
    else e :: es

/-- libcob/fileio.c:3455-3496: the alternate indexes after the deletion of the record `old`; with REWRITE (`area` is the
new record) an index whose key does not change is left alone. -/
def ixDelAlts (cfg : IxCfg) (rewrite : Bool) (pk old area : List Nat) (alts : Nat → List IxEnt) : Nat → List IxEnt := fun i =>
  if i = 0 ∨ cfg.keys.length ≤ i then alts i
  else
    let k := cfg.keyOf i old
    if rewrite = true ∧ k = cfg.keyOf i area then alts i
    else if (cfg.key i).dups then ixDelRun k pk (alts i)
    else (alts i).filter fun e => e.key != k

/-- libcob/fileio.c:3394-3521 `indexed_delete_internal`; `curKey` is what `p->key` points to.  `none`: in sequential
access the record is not looked for again if it is not found, and the keys to delete are taken from memory that has nothing to do with
it. -/
def ixDeleteInt (cfg : IxCfg) (f : IxFile) (rewrite : Bool) (curKey area : List Nat) : Option (Nat × IxFile × List Nat) :=
  let pk := if cfg.access = .sequential then curKey else cfg.keyOf 0 area
  match getRec f.db0 pk with
  | none => if cfg.access = .sequential then none else some (23, f, [])
  | some old =>
    some (0, { f with
      dataNull := false
      db0 := f.db0.filter fun p => p.1 != pk
      alts := ixDelAlts cfg rewrite pk old area f.alts }, old)

/-- libcob/fileio.c:3197-3219, 3666: what `p->key` points to after `check_alt_keys`: the last key without duplicates, if
there is one. -/
def ixAfterCheck (cfg : IxCfg) (cur area : List Nat) : List Nat :=
  (List.range cfg.keys.length).foldl (fun c i => if i != 0 && !(cfg.key i).dups then cfg.keyOf i area else c) cur

/-- libcob/fileio.c:3647-3696 `indexed_rewrite`. -/
def ixRewrite (cfg : IxCfg) (f : IxFile) (area : List Nat) : Option (Nat × IxFile) :=
  if ixAltTaken cfg f true area = true then some (22, f)
  else
    (ixDeleteInt cfg f true (ixAfterCheck cfg f.curKey area) area).map fun d =>
      if d.1 ≠ 0 then (d.1, d.2.1)
      else ixWriteInt cfg d.2.1 true (fun i => cfg.keyOf i d.2.2 == cfg.keyOf i area) area

/-- A statement, with the record area as the program left it; START and READ name the field by its offset and length;
`reopen` is CLOSE and OPEN I-O. -/
inductive IxOp where
  | write (area : List Nat) (len : Nat)
  | rewrite (area : List Nat)
  | delete (area : List Nat)
  | start (cond : StartCond) (off len : Nat) (area : List Nat)
  | read (off len : Nat) (area : List Nat)
  | next
  | prev
  | reopen
deriving DecidableEq, Repr

/-- What the program sees: the status, and the record if one is read. -/
structure IxOut where
  status : Nat
  data : Option (List Nat)
deriving DecidableEq, Repr

/-- The end of `cob_ex_read`, libcob/fileio.c:4352-4370. -/
def ixExReadEnd (prev : Bool) (r : Nat × IxFile × List Nat) : IxOut × IxFile :=
  if r.1 = 0 then
    (⟨0, some r.2.2⟩, { r.2.1 with
      firstRead := 0, readDone := true, eof := false, bof := false, size := r.2.2.length })
  else if r.1 = 10 then
    (⟨10, none⟩, if prev then { r.2.1 with bof := true } else { r.2.1 with eof := true })
  else (⟨r.1, none⟩, r.2.1)

/-- libcob/fileio.c:4257-4552 `cob_ex_start`, `cob_ex_read`, `cob_ex_write`, `cob_ex_rewrite`, `cob_ex_delete`, and
`indexed_read` (2600-2619).  `none` is undefined behaviour. -/
def ixStep (cfg : IxCfg) (f : IxFile) : IxOp → Option (IxOut × IxFile)
  | .write area len =>
    let tmpsize := f.size
    let f := { f with readDone := false, size := len }
    if len < cfg.recMin ∨ cfg.recMax < len then some (⟨44, none⟩, f)
    else
      let r := ixWrite cfg f area
      some (⟨r.1, none⟩, { r.2 with size := tmpsize })
  | .rewrite area =>
    let readDone := f.readDone
    let f := { f with readDone := false }
    if cfg.access = .sequential ∧ readDone = false then some (⟨43, none⟩, f)
    else (ixRewrite cfg f area).map fun r => (⟨r.1, none⟩, r.2)
  | .delete area =>
    let readDone := f.readDone
    let f := { f with readDone := false }
    if cfg.access = .sequential ∧ readDone = false then some (⟨43, none⟩, f)
    else (ixDeleteInt cfg f false f.curKey area).map fun r => (⟨r.1, none⟩, r.2.1)
  | .start cond off len area =>
    let f := { f with readDone := false, firstRead := 0 }
    let r := ixStartInt cfg f cond off ((area.drop off).take len)
    if r.1 = 0 then some (⟨0, none⟩, { r.2.1 with eof := false, bof := false, firstRead := 1 })
    else some (⟨r.1, none⟩, r.2.1)
  | .read off len area =>
    some (ixExReadEnd false (ixStartInt cfg { f with readDone := false } .eq off ((area.drop off).take len)))
  | .next =>
    let f := { f with readDone := false }
    if f.eof then some (⟨46, none⟩, f) else some (ixExReadEnd false (ixReadNext cfg f false))
  | .prev =>
    let f := { f with readDone := false }
    if f.bof then some (⟨46, none⟩, f) else some (ixExReadEnd true (ixReadNext cfg f true))
  | .reopen => some (⟨0, none⟩, ixOpen cfg f.db0 f.alts f.size)

/-- The statements in order: what the program sees, and the file afterwards; `none` if the behaviour is undefined. -/
def ixRun (cfg : IxCfg) (f : IxFile) : List IxOp → Option (List IxOut × IxFile)
  | [] => some ([], f)
  | op :: ops => (ixStep cfg f op).bind fun r => (ixRun cfg r.2 ops).map fun q => (r.1 :: q.1, q.2)

end Cob
