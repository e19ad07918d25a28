import Verif.Io.Indexed
/-
What a program sees of an INDEXED file, without trees, cursors or saved keys: the records by their primary key, their order in
each key, the position of sequential reading.
-/
namespace Cob

/-- Where sequential reading stands: `found`, the record OPEN (`opened`) or START found, which is still to be delivered;
`read`, the record read last.  `k` is its key number `i`, `n` its number among the records with this key. -/
inductive IxPos where
  | undef
  | found (opened : Bool) (i : Nat) (k : List Nat) (n : Nat) (pk : List Nat)
  | read (i : Nat) (k : List Nat) (n : Nat)

/-- The file as the program knows it.  `recs`: the record with a primary key; `num i pk`: its number among the records with the
same key `i`; `eof`, `bof`: the end (the beginning) was reported by a READ and nothing was found since; `lastW`: the primary key
of the last WRITE; `size`: the length of the record in the record area; `cur`: the primary key of the record read by the
statement before. -/
structure IxAbs where
  recs : List Nat → Option (List Nat)
  num : Nat → List Nat → Nat
  pos : IxPos
  eof : Bool
  bof : Bool
  lastW : Option (List Nat)
  size : Nat
  cur : Option (List Nat)

/-- There is a record with primary key `pk`, whose key `i` is `k`, with number `n`. -/
def IxAbs.Has (cfg : IxCfg) (A : IxAbs) (i : Nat) (k : List Nat) (n : Nat) (pk : List Nat) : Prop :=
  ∃ r, A.recs pk = some r ∧ cfg.keyOf i r = k ∧ A.num i pk = n

/-- The order of the records in a key: by the bytes of the key, then by the number. -/
def IxBefore (k : List Nat) (n : Nat) (k' : List Nat) (n' : Nat) : Prop := k < k' ∨ (k = k' ∧ n < n')

/-- The first record, in the order of key `i`, that satisfies `P`; or there is none. -/
def IxAbs.First (cfg : IxCfg) (A : IxAbs) (i : Nat) (P : List Nat → Nat → Prop) : Option (List Nat × Nat × List Nat) → Prop
  | none => ∀ k n pk, A.Has cfg i k n pk → ¬ P k n
  | some (k, n, pk) =>
    A.Has cfg i k n pk ∧ P k n ∧ ∀ k' n' pk', A.Has cfg i k' n' pk' → P k' n' → ¬ IxBefore k' n' k n

/-- The last one. -/
def IxAbs.Last (cfg : IxCfg) (A : IxAbs) (i : Nat) (P : List Nat → Nat → Prop) : Option (List Nat × Nat × List Nat) → Prop
  | none => ∀ k n pk, A.Has cfg i k n pk → ¬ P k n
  | some (k, n, pk) =>
    A.Has cfg i k n pk ∧ P k n ∧ ∀ k' n' pk', A.Has cfg i k' n' pk' → P k' n' → ¬ IxBefore k n k' n'

/-- The record beyond (before) the position `k`, `n`; after the beginning (the end) was reported, the first (the last). -/
def IxAbs.Beyond (cfg : IxCfg) (A : IxAbs) (prev : Bool) (i : Nat) (k : List Nat) (n : Nat)
    (o : Option (List Nat × Nat × List Nat)) : Prop :=
  if prev then A.Last cfg i (fun k' n' => A.eof = true ∨ IxBefore k' n' k n) o
  else A.First cfg i (fun k' n' => A.bof = true ∨ IxBefore k n k' n') o

/-- The record a READ NEXT (or PREVIOUS) delivers.  Right after OPEN there is nothing before the first record; what OPEN or START found is
delivered if it is still there. -/
def IxAbs.Delivers (cfg : IxCfg) (A : IxAbs) (prev : Bool) (i : Nat) (o : Option (List Nat × Nat × List Nat)) : Prop :=
  match A.pos with
  | .undef => False
  | .found opened i' k n pk =>
    i = i' ∧
      if opened = true ∧ prev = true ∧ A.eof = false then o = none
      else (A.Has cfg i k n pk ∧ o = some (k, n, pk)) ∨ (¬ A.Has cfg i k n pk ∧ A.Beyond cfg prev i k n o)
  | .read i' k n => i = i' ∧ A.Beyond cfg prev i k n o

/-- The record START (or READ with a key) finds: the leading bytes of key `i` are compared with `arg`.  READ, and START for `=`, `>`
and `>=`, find the first such record, START for `<` and `<=` the last. -/
def IxAbs.Finds (cfg : IxCfg) (A : IxAbs) (i : Nat) (cond : StartCond) (arg : List Nat)
    (o : Option (List Nat × Nat × List Nat)) : Prop :=
  match cond with
  | .eq => A.First cfg i (fun k _ => k.take arg.length = arg) o
  | .gt => A.First cfg i (fun k _ => arg < k.take arg.length) o
  | .ge => A.First cfg i (fun k _ => ¬ k.take arg.length < arg) o
  | .lt => A.Last cfg i (fun k _ => k.take arg.length < arg) o
  | .le => A.Last cfg i (fun k _ => ¬ arg < k.take arg.length) o

/-- A key `i` that has to be unique is in use: another record than `own` has the same as the record `area`. -/
def IxAbs.Taken (cfg : IxCfg) (A : IxAbs) (own : Option (List Nat)) (area : List Nat) : Prop :=
  ∃ i, 0 < i ∧ i < cfg.keys.length ∧ (cfg.key i).dups = false ∧
    ∃ pk r, A.recs pk = some r ∧ cfg.keyOf i r = cfg.keyOf i area ∧ own ≠ some pk

/-- The number of a new record with key `i` equal to `k`: one more than the largest (the record `own` does not count). -/
def IxAbs.NewNum (cfg : IxCfg) (A : IxAbs) (own : List Nat) (i : Nat) (k : List Nat) (n : Nat) : Prop :=
  (∀ pk r, pk ≠ own → A.recs pk = some r → cfg.keyOf i r = k → A.num i pk < n) ∧
    (n = 1 ∨ ∃ pk r, pk ≠ own ∧ A.recs pk = some r ∧ cfg.keyOf i r = k ∧ A.num i pk + 1 = n)

/-- The records after `r` was stored with primary key `pk`: `new` are its numbers. -/
def IxAbs.put (A : IxAbs) (pk : List Nat) (r : List Nat) (new : Nat → Nat) : IxAbs :=
  { A with
    recs := fun p => if p = pk then some r else A.recs p
    num := fun i p => if p = pk then new i else A.num i p }

/-- Without the record. -/
def IxAbs.del (A : IxAbs) (pk : List Nat) : IxAbs := { A with recs := fun p => if p = pk then none else A.recs p }

/-- After OPEN: the first record is the next one.  (Of an empty file OPEN stands at the key of all zero bytes.) -/
def IxAbs.Opened (cfg : IxCfg) (A : IxAbs) (p : IxPos) : Prop :=
  ∃ k, p = .found true 0 k 0 k ∧
    ((∀ pk, A.recs pk = none) ∧ k = List.replicate (cfg.key 0).len 0 ∨
      (∃ r, A.recs k = some r) ∧ ∀ pk r, A.recs pk = some r → ¬ pk < k)

/-- A statement: what the program is told and how the file changes. -/
inductive IxDoes (cfg : IxCfg) (A : IxAbs) : IxOp → IxOut → IxAbs → Prop
  /- A length outside the limits (it stays the length of the record area). -/
  | writeLength (area : List Nat) (len : Nat) : len < cfg.recMin ∨ cfg.recMax < len →
      IxDoes cfg A (.write area len) ⟨44, none⟩ { A with cur := none, size := len }
  /- ACCESS SEQUENTIAL: the keys have to be written in ascending order. -/
  | writeOrder (area : List Nat) (len : Nat) (l : List Nat) : cfg.recMin ≤ len ∧ len ≤ cfg.recMax → cfg.access = .sequential → A.lastW = some l → cfg.keyOf 0 area < l →
      IxDoes cfg A (.write area len) ⟨21, none⟩ { A with cur := none }
  | writeTaken (area : List Nat) (len : Nat) : cfg.recMin ≤ len ∧ len ≤ cfg.recMax →
      ¬ (cfg.access = .sequential ∧ ∃ l, A.lastW = some l ∧ cfg.keyOf 0 area < l) →
      (A.recs (cfg.keyOf 0 area) ≠ none ∨ A.Taken cfg none area) →
      IxDoes cfg A (.write area len) ⟨22, none⟩ { A with cur := none, lastW := some (cfg.keyOf 0 area) }
  | write (area : List Nat) (len : Nat) (new : Nat → Nat) : cfg.recMin ≤ len ∧ len ≤ cfg.recMax →
      ¬ (cfg.access = .sequential ∧ ∃ l, A.lastW = some l ∧ cfg.keyOf 0 area < l) →
      A.recs (cfg.keyOf 0 area) = none → ¬ A.Taken cfg none area →
      (∀ i, if 0 < i ∧ (cfg.key i).dups = true then A.NewNum cfg (cfg.keyOf 0 area) i (cfg.keyOf i area) (new i) else new i = 0) →
      IxDoes cfg A (.write area len) ⟨0, none⟩
        { A.put (cfg.keyOf 0 area) (area.take len) new with cur := none, lastW := some (cfg.keyOf 0 area) }
  /- ACCESS SEQUENTIAL: REWRITE and DELETE are for the record read before. -/
  | rewriteUnread (area : List Nat) : cfg.access = .sequential → A.cur = none →
      IxDoes cfg A (.rewrite area) ⟨43, none⟩ { A with cur := none }
  | rewriteTaken (area : List Nat) : ¬ (cfg.access = .sequential ∧ A.cur = none) → A.Taken cfg (some (cfg.keyOf 0 area)) area →
      IxDoes cfg A (.rewrite area) ⟨22, none⟩ { A with cur := none }
  | rewriteMissing (area : List Nat) : ¬ (cfg.access = .sequential ∧ A.cur = none) → ¬ A.Taken cfg (some (cfg.keyOf 0 area)) area →
      A.recs (cfg.keyOf 0 area) = none → IxDoes cfg A (.rewrite area) ⟨23, none⟩ { A with cur := none }
  /- A record whose key does not change keeps its number, otherwise it is the last one of its key. -/
  | rewrite (area old : List Nat) (new : Nat → Nat) :
      ¬ (cfg.access = .sequential ∧ A.cur = none) → ¬ A.Taken cfg (some (cfg.keyOf 0 area)) area →
      A.recs (cfg.keyOf 0 area) = some old →
      (∀ i, if cfg.keyOf i old = cfg.keyOf i area then new i = A.num i (cfg.keyOf 0 area)
        else if 0 < i ∧ (cfg.key i).dups = true then A.NewNum cfg (cfg.keyOf 0 area) i (cfg.keyOf i area) (new i)
        else new i = 0) →
      IxDoes cfg A (.rewrite area) ⟨0, none⟩ { A.put (cfg.keyOf 0 area) (area.take A.size) new with cur := none }
  | deleteUnread (area : List Nat) : cfg.access = .sequential → A.cur = none →
      IxDoes cfg A (.delete area) ⟨43, none⟩ { A with cur := none }
  | deleteCurrent (area pk : List Nat) : cfg.access = .sequential → A.cur = some pk →
      IxDoes cfg A (.delete area) ⟨0, none⟩ { A.del pk with cur := none }
  | deleteMissing (area : List Nat) : cfg.access ≠ .sequential → A.recs (cfg.keyOf 0 area) = none →
      IxDoes cfg A (.delete area) ⟨23, none⟩ { A with cur := none }
  | delete (area : List Nat) : cfg.access ≠ .sequential → A.recs (cfg.keyOf 0 area) ≠ none →
      IxDoes cfg A (.delete area) ⟨0, none⟩ { A.del (cfg.keyOf 0 area) with cur := none }
  | startMissing (cond : StartCond) (i len : Nat) (area : List Nat) : i < cfg.keys.length →
      A.Finds cfg i cond ((area.drop (cfg.key i).off).take len) none →
      IxDoes cfg A (.start cond (cfg.key i).off len area) ⟨23, none⟩ { A with cur := none, pos := .undef }
  | start (cond : StartCond) (i len : Nat) (area k : List Nat) (n : Nat) (pk : List Nat) : i < cfg.keys.length →
      A.Finds cfg i cond ((area.drop (cfg.key i).off).take len) (some (k, n, pk)) →
      IxDoes cfg A (.start cond (cfg.key i).off len area) ⟨0, none⟩
        { A with cur := none, pos := .found false i k n pk, eof := false, bof := false }
  | readMissing (i len : Nat) (area : List Nat) : i < cfg.keys.length →
      A.Finds cfg i .eq ((area.drop (cfg.key i).off).take len) none →
      IxDoes cfg A (.read (cfg.key i).off len area) ⟨23, none⟩ { A with cur := none, pos := .undef }
  | read (i len : Nat) (area k : List Nat) (n : Nat) (pk r : List Nat) : i < cfg.keys.length →
      A.Finds cfg i .eq ((area.drop (cfg.key i).off).take len) (some (k, n, pk)) → A.recs pk = some r →
      IxDoes cfg A (.read (cfg.key i).off len area) ⟨0, some r⟩
        { A with cur := some pk, pos := .read i k n, eof := false, bof := false, size := r.length }
  | nextAfterEnd : A.eof = true → IxDoes cfg A .next ⟨46, none⟩ { A with cur := none }
  | nextEnd (i : Nat) : A.eof = false → A.Delivers cfg false i none → IxDoes cfg A .next ⟨10, none⟩ { A with cur := none, eof := true }
  | next (i : Nat) (k : List Nat) (n : Nat) (pk r : List Nat) : A.eof = false → A.Delivers cfg false i (some (k, n, pk)) →
      A.recs pk = some r →
      IxDoes cfg A .next ⟨0, some r⟩
        { A with cur := some pk, pos := .read i k n, eof := false, bof := false, size := r.length }
  | prevAfterEnd : A.bof = true → IxDoes cfg A .prev ⟨46, none⟩ { A with cur := none }
  | prevEnd (i : Nat) : A.bof = false → A.Delivers cfg true i none → IxDoes cfg A .prev ⟨10, none⟩ { A with cur := none, bof := true }
  | prev (i : Nat) (k : List Nat) (n : Nat) (pk r : List Nat) : A.bof = false → A.Delivers cfg true i (some (k, n, pk)) →
      A.recs pk = some r →
      IxDoes cfg A .prev ⟨0, some r⟩
        { A with cur := some pk, pos := .read i k n, eof := false, bof := false, size := r.length }
  | reopen (p : IxPos) : A.Opened cfg p →
      IxDoes cfg A .reopen ⟨0, none⟩ { A with cur := none, pos := p, eof := false, bof := false, lastW := none }

/-- The statements one after the other. -/
inductive IxDo (cfg : IxCfg) : IxAbs → List IxOp → List IxOut → IxAbs → Prop
  | nil (A : IxAbs) : IxDo cfg A [] [] A
  | cons (A B C : IxAbs) (op : IxOp) (out : IxOut) (ops : List IxOp) (outs : List IxOut) :
      IxDoes cfg A op out B → IxDo cfg B ops outs C → IxDo cfg A (op :: ops) (out :: outs) C

/-- The SELECT clause and the record: the record key is unique, the keys lie in every record, at different places. -/
structure IxCfg.Ok (cfg : IxCfg) : Prop where
  nonempty : 0 < cfg.keys.length
  primary : (cfg.key 0).dups = false
  inside : ∀ i, i < cfg.keys.length → (cfg.key i).off + (cfg.key i).len ≤ cfg.recMin
  lengths : cfg.recMin ≤ cfg.recMax
  places : ∀ i j, i < cfg.keys.length → j < cfg.keys.length → (cfg.key i).off = (cfg.key j).off → i = j

/-- The statements within the rules of the language, as far as this is needed: REWRITE not after a WRITE that failed because of its
length, unless a record was read since; READ NEXT not after
a START or READ that failed; the field named begins one of the keys and is not longer; START for `<=` names the whole key; with ACCESS
SEQUENTIAL, REWRITE leaves the record key alone, and there is no other unique key (see the findings). -/
def IxAllowed (cfg : IxCfg) (A : IxAbs) : IxOp → Prop
  | .write area _ => area.length = cfg.recMax
  | .rewrite area => area.length = cfg.recMax ∧ (cfg.recMin ≤ A.size ∧ A.size ≤ cfg.recMax) ∧
      (cfg.access = .sequential → (∀ i, 0 < i → i < cfg.keys.length → (cfg.key i).dups = true) ∧
        ∀ pk, A.cur = some pk → cfg.keyOf 0 area = pk)
  | .delete area => area.length = cfg.recMax
  | .start cond off len area => area.length = cfg.recMax ∧
      ∃ i, i < cfg.keys.length ∧ off = (cfg.key i).off ∧ len ≤ (cfg.key i).len ∧ (cond = .le → len = (cfg.key i).len)
  | .read off len area => area.length = cfg.recMax ∧ ∃ i, i < cfg.keys.length ∧ off = (cfg.key i).off ∧ len ≤ (cfg.key i).len
  | .next => A.pos ≠ .undef
  | .prev => A.pos ≠ .undef
  | .reopen => True

/-- A program all of whose statements are allowed, whatever they do. -/
def IxLegal (cfg : IxCfg) : IxAbs → List IxOp → Prop
  | _, [] => True
  | A, op :: ops => IxAllowed cfg A op ∧ ∀ out B, IxDoes cfg A op out B → IxLegal cfg B ops

/-- The new file. -/
def IxAbs.empty (cfg : IxCfg) : IxAbs :=
  { recs := fun _ => none, num := fun _ _ => 0, pos := .found true 0 (List.replicate (cfg.key 0).len 0) 0 (List.replicate (cfg.key 0).len 0)
    eof := false, bof := false, lastW := none, size := cfg.recMax, cur := none }

/-- The new file, opened. -/
def ixNew (cfg : IxCfg) : IxFile := ixOpen cfg [] (fun _ => []) cfg.recMax

end Cob
