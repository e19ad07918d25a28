import Verif.Io.LockProps
/-
C91: locks of INDEXED files shared by processes.

`cfg` gives, for each file connector of each process, the process, the name of the file and its LOCK
MODE.  A run is any interleaving of single steps of any statements of any connectors.
-/
namespace Cob.Lock

/-! ### Specification -/

/-- Connector `c` holds the lock of the record with this key (of its file). -/
def Holds (s : Sys) (c : Nat) (key : List Nat) : Prop := (s.conns c).recLk = some key

/-- The names of files have no byte 0 (they are C strings). -/
def Names (cfg : Nat → Nat × List Nat × LockMode) : Prop := ∀ c, 0 ∉ (cfg c).2.1

/-- The two connectors are for the same file. -/
def SameFile (cfg : Nat → Nat × List Nat × LockMode) (c d : Nat) : Prop := (cfg c).2.1 = (cfg d).2.1

/-- The connector an event is about. -/
def Ev.who : Ev → Nat
  | .start c _ => c
  | .move c => c

/-- The lock a statement of a connector, open in mode `m`, is to leave behind when it goes well. -/
def keeps (m : OpenMode) (lm : LockMode) : Stmt → Option (List Nat)
  | .read key true o =>
    if m = .io ∧ lm ≠ .exclusive ∧ (o = .lock ∨ (lm = .automatic ∧ o ≠ .noLock)) then some key else none
  | .write key false true => some key
  | .rewrite key true false true => some key
  | _ => none

/-- A statement that reads or changes the record with this key, and does not say IGNORE LOCK. -/
def Uses (key : List Nat) : Stmt → Prop
  | .read k found o => k = key ∧ found = true ∧ o ≠ .ignoreLock
  | .rewrite k found dup _ => k = key ∧ found = true ∧ dup = false
  | .delete k found => k = key ∧ found = true
  | _ => False

/-- A way to open a file that leaves no room for others. -/
def Alone (m : OpenMode) (lm : LockMode) : Prop :=
  m = .output ∨ m = .extend ∨ lm = .exclusive ∨ (m = .io ∧ lm = .none)

/-! ### Lemmas -/

theorem recObj_inj (f g k l : List Nat) (hf : 0 ∉ f) (hg : 0 ∉ g) (h : recObj f k = recObj g l) : f = g ∧ k = l := by
  unfold recObj at h
  induction f generalizing g with
  | nil =>
    cases g with
    | nil => simpa using h
    | cons b g => simp at h; exact absurd h.1 (by intro e; apply hg; simp [e])
  | cons a f ih =>
    cases g with
    | nil => simp at h; exact absurd h.1 (by intro e; apply hf; simp [e])
    | cons b g =>
      simp only [List.cons_append, List.cons.injEq] at h
      obtain ⟨e1, e2⟩ := ih g (fun hm => hf (by simp [hm])) (fun hm => hg (by simp [hm])) h.2
      exact ⟨by rw [h.1, e1], e2⟩

theorem recObj_ne_name (f g k : List Nat) (hg : 0 ∉ g) : recObj f k ≠ g := by
  intro h
  apply hg
  rw [← h]
  simp [recObj]

theorem file_eq (cfg : Nat → Nat × List Nat × LockMode) (s : Sys) (h : Inv cfg s) (c : Nat) :
    (s.conns c).file = (cfg c).2.1 ∧ (s.conns c).proc = (cfg c).1 ∧ (s.conns c).lmode = (cfg c).2.2 := by
  have := (h.conn c).same
  rw [← this]
  exact ⟨rfl, rfl, rfl⟩

theorem not_granted (table : List Lk) (l : Lk) (h : granted table l = false) : ∃ a ∈ table, conflicts a l = true := by
  simpa [granted] using h

/-! ### Record locks -/

/-- C91: in every state that any run leads to, no two connectors, of whatever processes, hold the
lock of the same record of the same file. -/
theorem C91_exclusive (cfg : Nat → Nat × List Nat × LockMode) (s : Sys) (hs : Reachable cfg s) (c d : Nat)
    (hf : SameFile cfg c d) (key : List Nat) (hc : Holds s c key) (hd : Holds s d key) : c = d := by
  have h := inv_reachable cfg s hs
  have e : (s.conns c).file = (s.conns d).file := by
    rw [(file_eq cfg s h c).1, (file_eq cfg s h d).1]; exact hf
  have h1 : recL c (s.conns c).file key ∈ s.table := (h.tab _).2 (Or.inl ⟨key, hc, rfl⟩)
  have h2 : recL d (s.conns d).file key ∈ s.table := (h.tab _).2 (Or.inl ⟨key, hd, rfl⟩)
  rcases h.compat _ h1 _ h2 (by simp [recL, e]) with h3 | h3
  · simpa [recL] using h3
  · simp [recL] at h3

/-- C91: a lock once held is kept, whatever others do, until a statement of its own connector. -/
theorem C91_kept (s : Sys) (evs : List Ev) (c : Nat) (h : ∀ e ∈ evs, e.who ≠ c) :
    (run s evs).conns c = s.conns c := by
  induction evs generalizing s with
  | nil => rfl
  | cons e evs ih =>
    show (run (step s e) evs).conns c = _
    rw [ih (step s e) (fun x hx => h x (by simp [hx]))]
    have hne := h e (by simp)
    cases e with
    | start d x =>
      simp only [Ev.who] at hne
      simp only [step, start]
      split
      · simp [Sys.set, Ne.symm hne]
      · rfl
    | move d =>
      simp only [Ev.who] at hne
      simp only [step, move]
      repeat' split
      all_goals first | rfl | simp [Sys.set, Ne.symm hne]

/-- What one step of a connector does to its own lock and status. -/
def Ends : List Act → Option (List Nat) → Nat → Option (List Nat) → Nat → Prop
  | [], r, st, r', st' => r' = r ∧ st' = st
  | .unlock :: t, _, st, r', st' => Ends t none st r' st'
  | .testGet _ :: t, r, st, r', st' => Ends t r st r' st' ∨ (r' = r ∧ st' = 51)
  | .lockGet k :: t, r, st, r', st' => Ends t (some k) st r' st' ∨ (r' = r ∧ st' = 51)
  | .fileGet _ :: t, r, st, r', st' => Ends t r st r' st' ∨ (r' = r ∧ st' = 61)
  | .finish n :: t, r, _, r', st' => Ends t r n r' st'
  | .testPut :: t, r, st, r', st' => Ends t r st r' st'
  | .filePut :: t, r, st, r', st' => Ends t r st r' st'
  | .take _ :: t, r, st, r', st' => Ends t r st r' st'
  | .change _ :: t, r, st, r', st' => Ends t r st r' st'
  | .closed :: t, r, st, r', st' => Ends t r st r' st'

theorem ends_move (s : Sys) (c : Nat) (r' : Option (List Nat)) (st' : Nat)
    (h : Ends ((move s c).conns c).todo ((move s c).conns c).recLk ((move s c).conns c).status r' st') :
    Ends (s.conns c).todo (s.conns c).recLk (s.conns c).status r' st' := by
  unfold move at h
  dsimp only at h
  cases htd : (s.conns c).todo with
  | nil => rw [htd] at h; simp only [htd] at h; exact h
  | cons a rest =>
    rw [htd] at h
    cases a with
    | unlock =>
      dsimp only at h
      cases hr : (s.conns c).recLk with
      | none => rw [hr] at h; simpa [Sys.set, hr, Ends] using h
      | some k => rw [hr] at h; simpa [Sys.set, Ends] using h
    | testGet k =>
      dsimp only at h
      split at h
      · left; simpa [Sys.set] using h
      · right; simpa [Sys.set, Ends] using h
    | testPut =>
      dsimp only at h
      split at h <;> simpa [Sys.set, Ends] using h
    | lockGet k =>
      dsimp only at h
      split at h
      · left; simpa [Sys.set] using h
      · right; simpa [Sys.set, Ends] using h
    | fileGet m =>
      dsimp only at h
      split at h
      · left; simpa [Sys.set] using h
      · right; simpa [Sys.set, Ends] using h
    | filePut =>
      dsimp only at h
      split at h <;> simpa [Sys.set, Ends] using h
    | take k => simpa [Sys.set, Ends] using h
    | change k => simpa [Sys.set, Ends] using h
    | closed => simpa [Sys.set, Ends] using h
    | finish st => simpa [Sys.set, Ends] using h

theorem ends_run (s : Sys) (evs : List Ev) (c : Nat) (hm : ∀ e ∈ evs, e.who = c → e = .move c)
    (r' : Option (List Nat)) (st' : Nat)
    (h : Ends ((run s evs).conns c).todo ((run s evs).conns c).recLk ((run s evs).conns c).status r' st') :
    Ends (s.conns c).todo (s.conns c).recLk (s.conns c).status r' st' := by
  induction evs generalizing s with
  | nil => exact h
  | cons e evs ih =>
    have h1 := ih (step s e) (fun x hx => hm x (by simp [hx])) h
    by_cases hw : e.who = c
    · have := hm e (by simp) hw
      subst this
      exact ends_move s c r' st' h1
    · have := C91_kept s [e] c (by simpa using hw)
      rw [show run s [e] = step s e from rfl] at this
      rwa [this] at h1

/-- C91: when a statement of an open file has ended, whatever the others did meanwhile, the connector
holds at most the lock the statement was to leave behind, and holds it exactly if the status is 00:
the lock of the record just read or written.  All other locks it had are gone. -/
theorem C91_after (s : Sys) (c : Nat) (m : OpenMode) (x : Stmt) (evs : List Ev)
    (hidle : (s.conns c).todo = []) (hopen : (s.conns c).opened = some m) (hx : ∀ m', x ≠ .opn m')
    (hm : ∀ e ∈ evs, e.who = c → e = .move c)
    (hend : ((run (start s c x) evs).conns c).todo = []) :
    let cn := (run (start s c x) evs).conns c
    cn.recLk = if cn.status = 0 then keeps m (s.conns c).lmode x else none := by
  intro cn
  have h := ends_run (start s c x) evs c hm cn.recLk cn.status (by rw [hend]; exact ⟨rfl, rfl⟩)
  have e : (start s c x).conns c = { s.conns c with todo := steps (s.conns c) x, asked := (start s c x).conns c |>.asked } := by
    unfold start
    dsimp only
    rw [hidle]
    simp [Sys.set]
  rw [e] at h
  dsimp only at h
  clear e hend
  generalize cn.recLk = r at *
  generalize cn.status = st at *
  cases x with
  | opn m' => exact absurd rfl (hx m')
  | read key found o =>
    cases found
    · simp only [steps, hopen, Bool.false_eq_true, if_false, Ends] at h
      rw [h.1, h.2]; simp
    · simp only [steps, hopen, if_true] at h
      have hk : keeps m (s.conns c).lmode (.read key true o) =
          if wantsLock m (s.conns c).lmode o then some key else none := by
        simp only [keeps, wantsLock]
        generalize (s.conns c).lmode = lm
        cases m <;> cases lm <;> cases o <;> simp
      rw [hk]
      generalize wantsLock m (s.conns c).lmode o = w at *
      by_cases ho : o = .ignoreLock <;> cases w <;> simp only [ho, if_true, if_false, Bool.false_eq_true, List.cons_append, List.nil_append, Ends] at h
      · rw [h.1, h.2]; simp
      · rcases h with h | h <;> rw [h.1, h.2] <;> simp
      · rcases h with h | h <;> rw [h.1, h.2] <;> simp
      · rcases h with (h | h) | h <;> rw [h.1, h.2] <;> simp
  | write key dup lock =>
    cases dup <;> cases lock <;> simp only [steps, hopen, if_true, if_false, Bool.false_eq_true, List.cons_append, List.nil_append, Ends] at h
    · rw [h.1, h.2]; simp [keeps]
    · rcases h with h | h <;> rw [h.1, h.2] <;> simp [keeps]
    · rw [h.1, h.2]; simp
    · rw [h.1, h.2]; simp
  | rewrite key found dup lock =>
    cases dup <;> cases lock <;> cases found <;> simp only [steps, hopen, if_true, if_false, Bool.false_eq_true, List.cons_append, List.nil_append, Ends] at h
    · rw [h.1, h.2]; simp
    · rcases h with h | h <;> rw [h.1, h.2] <;> simp [keeps]
    · rw [h.1, h.2]; simp
    · rcases h with (h | h) | h <;> rw [h.1, h.2] <;> simp [keeps]
    · rw [h.1, h.2]; simp
    · rw [h.1, h.2]; simp
    · rw [h.1, h.2]; simp
    · rw [h.1, h.2]; simp
  | delete key found =>
    cases found <;> simp only [steps, hopen, if_true, if_false, Bool.false_eq_true, Ends] at h
    · rw [h.1, h.2]; simp
    · rcases h with h | h <;> rw [h.1, h.2] <;> simp [keeps]
  | unlock => simp only [steps, hopen, Ends] at h; rw [h.1, h.2]; simp [keeps]
  | close => simp only [steps, hopen, Ends] at h; rw [h.1, h.2]; simp [keeps]

/-- The statuses a statement of an open file may end with: 23 for a record that is not there, 22 for a duplicate key, and otherwise 00, or 51 where
a lock of another connector can stand in the way. -/
def mayEnd : Stmt → List Nat
  | .opn _ => []
  | .read _ found _ => if found then [0, 51] else [23]
  | .write _ dup lock => if dup then [22] else if lock then [0, 51] else [0]
  | .rewrite _ found dup _ => if dup then [22] else if found then [0, 51] else [23]
  | .delete _ found => if found then [0, 51] else [23]
  | .unlock => [0]
  | .close => [0]

/-- C91: when a statement of an open file has ended, whatever the others did meanwhile, its status is one of `mayEnd`: only the lock of another
connector (status 51, see `C91_granted` and `C91_refused`) makes a statement fail that would have succeeded alone. -/
theorem C91_status (s : Sys) (c : Nat) (m : OpenMode) (x : Stmt) (evs : List Ev)
    (hidle : (s.conns c).todo = []) (hopen : (s.conns c).opened = some m) (hx : ∀ m', x ≠ .opn m')
    (hm : ∀ e ∈ evs, e.who = c → e = .move c)
    (hend : ((run (start s c x) evs).conns c).todo = []) :
    ((run (start s c x) evs).conns c).status ∈ mayEnd x := by
  have h := ends_run (start s c x) evs c hm ((run (start s c x) evs).conns c).recLk ((run (start s c x) evs).conns c).status
    (by rw [hend]; exact ⟨rfl, rfl⟩)
  have e : (start s c x).conns c = { s.conns c with todo := steps (s.conns c) x, asked := (start s c x).conns c |>.asked } := by
    unfold start
    dsimp only
    rw [hidle]
    simp [Sys.set]
  rw [e] at h
  dsimp only at h
  clear e hend
  generalize ((run (start s c x) evs).conns c).recLk = r at *
  generalize ((run (start s c x) evs).conns c).status = st at *
  cases x with
  | opn m' => exact absurd rfl (hx m')
  | read key found o =>
    cases found
    · simp only [steps, hopen, Bool.false_eq_true, if_false, Ends] at h
      simp [mayEnd, h.2]
    · simp only [steps, hopen, if_true] at h
      generalize wantsLock m (s.conns c).lmode o = w at *
      by_cases ho : o = .ignoreLock <;> cases w <;> simp only [ho, if_true, if_false, Bool.false_eq_true, List.cons_append, List.nil_append, Ends] at h
      · simp [mayEnd, h.2]
      · rcases h with h | h <;> simp [mayEnd, h.2]
      · rcases h with h | h <;> simp [mayEnd, h.2]
      · rcases h with (h | h) | h <;> simp [mayEnd, h.2]
  | write key dup lock =>
    cases dup <;> cases lock <;> simp only [steps, hopen, if_true, if_false, Bool.false_eq_true, List.cons_append, List.nil_append, Ends] at h
    · simp [mayEnd, h.2]
    · rcases h with h | h <;> simp [mayEnd, h.2]
    · simp [mayEnd, h.2]
    · simp [mayEnd, h.2]
  | rewrite key found dup lock =>
    cases dup <;> cases lock <;> cases found <;> simp only [steps, hopen, if_true, if_false, Bool.false_eq_true, List.cons_append, List.nil_append, Ends] at h
    · simp [mayEnd, h.2]
    · rcases h with h | h <;> simp [mayEnd, h.2]
    · simp [mayEnd, h.2]
    · rcases h with (h | h) | h <;> simp [mayEnd, h.2]
    · simp [mayEnd, h.2]
    · simp [mayEnd, h.2]
    · simp [mayEnd, h.2]
    · simp [mayEnd, h.2]
  | delete key found =>
    cases found <;> simp only [steps, hopen, if_true, if_false, Bool.false_eq_true, Ends] at h
    · simp [mayEnd, h.2]
    · rcases h with h | h <;> simp [mayEnd, h.2]
  | unlock => simp only [steps, hopen, Ends] at h; simp [mayEnd, h.2]
  | close => simp only [steps, hopen, Ends] at h; simp [mayEnd, h.2]

/-- The statement of `d` has not come past the test for the lock of `key`. -/
def Before (key : List Nat) (cn : Conn) : Prop :=
  (∃ us rest, cn.todo = us ++ .testGet key :: rest ∧ ∀ a ∈ us, a = .unlock) ∨ (cn.todo = [] ∧ cn.status = 51)

theorem before_start (s : Sys) (d : Nat) (m : OpenMode) (x : Stmt) (key : List Nat) (hu : Uses key x)
    (hidle : (s.conns d).todo = []) (hopen : (s.conns d).opened = some m) : Before key ((start s d x).conns d) := by
  have e : ((start s d x).conns d).todo = steps (s.conns d) x := by
    unfold start
    dsimp only
    rw [hidle]
    simp [Sys.set]
  left
  rw [e]
  cases x with
  | read k found o =>
    obtain ⟨rfl, rfl, ho⟩ := hu
    simp only [steps, hopen, if_true, ho, if_false]
    exact ⟨[.unlock], _, rfl, by simp⟩
  | rewrite k found dup lock =>
    obtain ⟨rfl, rfl, rfl⟩ := hu
    simp only [steps, hopen, if_true, if_false, Bool.false_eq_true]
    exact ⟨[.unlock, .unlock], _, rfl, by simp⟩
  | delete k found =>
    obtain ⟨rfl, rfl⟩ := hu
    simp only [steps, hopen, if_true]
    exact ⟨[.unlock], _, rfl, by simp⟩
  | opn _ => exact hu.elim
  | write _ _ _ => exact hu.elim
  | unlock => exact hu.elim
  | close => exact hu.elim

theorem before_move (cfg : Nat → Nat × List Nat × LockMode) (s : Sys) (h : Inv cfg s) (c d : Nat) (hne : c ≠ d)
    (hf : SameFile cfg c d) (key : List Nat) (hc : Holds s c key) (hb : Before key (s.conns d)) :
    Before key ((move s d).conns d) ∧ (move s d).log = s.log := by
  have e : (s.conns d).file = (s.conns c).file := by
    rw [(file_eq cfg s h c).1, (file_eq cfg s h d).1]; exact hf.symm
  have h1 : recL c (s.conns c).file key ∈ s.table := (h.tab _).2 (Or.inl ⟨key, hc, rfl⟩)
  unfold move
  dsimp only
  rcases hb with ⟨us, rest, ht, hus⟩ | ⟨ht, hst⟩
  · cases us with
    | nil =>
      rw [ht]
      simp only [List.nil_append]
      have hg : granted s.table (testL d (s.conns d).file key) = false := by
        cases hgr : granted s.table (testL d (s.conns d).file key) with
        | false => rfl
        | true =>
          rcases (granted_compat _ _ hgr _ h1).1 (by simp [recL, testL, e]) with h3 | h3
          · simp only [recL, testL, Locker.conn.injEq] at h3; exact absurd h3 hne
          · simp [recL] at h3
      rw [hg]
      simp only [Bool.false_eq_true, if_false]
      exact ⟨Or.inr (by simp [Sys.set]), rfl⟩
    | cons a us =>
      have := hus a (by simp)
      subst this
      rw [ht]
      simp only [List.cons_append]
      split
      · exact ⟨Or.inl ⟨us, rest, by simp [Sys.set], fun b hb => hus b (by simp [hb])⟩, rfl⟩
      · exact ⟨Or.inl ⟨us, rest, by simp [Sys.set], fun b hb => hus b (by simp [hb])⟩, rfl⟩
  · rw [ht]; exact ⟨Or.inr ⟨ht, hst⟩, rfl⟩

theorem log_others (s : Sys) (e : Ev) (d : Nat) (h : e.who ≠ d) :
    (step s e).log.filter (fun x => x.1 = d) = s.log.filter (fun x => x.1 = d) := by
  cases e with
  | start c x =>
    simp only [step, start]
    split <;> rfl
  | move c =>
    simp only [Ev.who] at h
    simp only [step, move]
    repeat' split
    all_goals first | rfl | simp [Sys.set, h]

/-- C91: while a connector holds the lock of a record, no READ (without IGNORE LOCK), REWRITE or
DELETE that another connector, of whatever process, begins for that record gets as far as reading or
changing it; when it ends, it ends with status 51. -/
theorem C91_refused (cfg : Nat → Nat × List Nat × LockMode) (s : Sys) (hs : Reachable cfg s) (c d : Nat) (hne : c ≠ d)
    (hf : SameFile cfg c d) (key : List Nat) (hc : Holds s c key) (m : OpenMode) (x : Stmt) (hu : Uses key x)
    (hidle : (s.conns d).todo = []) (hopen : (s.conns d).opened = some m)
    (evs : List Ev) (hec : ∀ e ∈ evs, e.who ≠ c) (hed : ∀ e ∈ evs, e.who = d → e = .move d) :
    let s' := run (start s d x) evs
    s'.log.filter (fun e => e.1 = d) = s.log.filter (fun e => e.1 = d) ∧
    ((s'.conns d).todo = [] → (s'.conns d).status = 51) := by
  have key1 : ∀ (evs : List Ev) (s : Sys), Inv cfg s → Holds s c key → Before key (s.conns d) →
      (∀ e ∈ evs, e.who ≠ c) → (∀ e ∈ evs, e.who = d → e = .move d) →
      Before key ((run s evs).conns d) ∧ (run s evs).log.filter (fun e => e.1 = d) = s.log.filter (fun e => e.1 = d) := by
    intro evs
    induction evs with
    | nil => intro s _ _ hb _ _; exact ⟨hb, rfl⟩
    | cons e evs ih =>
      intro s h hc hb h1 h2
      have hst : (step s e).conns c = s.conns c := C91_kept s [e] c (by simpa using h1 e (by simp))
      have hinv : Inv cfg (step s e) := inv_run cfg s h [e]
      have : Before key ((step s e).conns d) ∧ (step s e).log.filter (fun e => e.1 = d) = s.log.filter (fun e => e.1 = d) := by
        by_cases hw : e.who = d
        · have := h2 e (by simp) hw
          subst this
          obtain ⟨a, b⟩ := before_move cfg s h c d hne hf key hc hb
          exact ⟨a, by rw [show step s (.move d) = move s d from rfl, b]⟩
        · have e1 : (step s e).conns d = s.conns d := C91_kept s [e] d (by simpa using hw)
          rw [e1]
          exact ⟨hb, log_others s e d hw⟩
      obtain ⟨a, b⟩ := ih (step s e) hinv (by unfold Holds; rw [hst]; exact hc) this.1
        (fun e he => h1 e (by simp [he])) (fun e he => h2 e (by simp [he]))
      exact ⟨a, by rw [show run s (e :: evs) = run (step s e) evs from rfl, b, this.2]⟩
  have h := inv_reachable cfg s hs
  have hk : (start s d x).conns c = s.conns c := C91_kept s [.start d x] c (by simpa [Ev.who] using (Ne.symm hne))
  obtain ⟨a, b⟩ := key1 evs (start s d x) (inv_start cfg s h d x) (by unfold Holds; rw [hk]; exact hc)
    (before_start s d m x key hu hidle hopen) hec hed
  refine ⟨?_, ?_⟩
  · rw [b]
    unfold start
    dsimp only
    split <;> rfl
  · intro ht
    rcases a with ⟨us, rest, h1, -⟩ | ⟨-, h1⟩
    · rw [ht] at h1; simp at h1
    · exact h1

/-- C91: a record lock is refused only because of the very same record: when the next step of a
connector asks for the lock of a record, and no other connector of the same file holds or is just
testing the lock of a record with the same key, it is granted.  (Names of files have no byte 0.) -/
theorem C91_granted (cfg : Nat → Nat × List Nat × LockMode) (hn : Names cfg) (s : Sys) (hs : Reachable cfg s) (c : Nat)
    (key : List Nat) (rest : List Act) (hnext : (s.conns c).todo = .lockGet key :: rest)
    (hfree : ∀ d, d ≠ c → SameFile cfg c d → (s.conns d).recLk ≠ some key ∧ (s.conns d).testLk ≠ some key) :
    Holds (move s c) c key ∧ ((move s c).conns c).todo = rest := by
  have h := inv_reachable cfg s hs
  have hg : granted s.table (recL c (s.conns c).file key) = true := by
    cases hgr : granted s.table (recL c (s.conns c).file key) with
    | true => rfl
    | false =>
      exfalso
      obtain ⟨a, ha, hc⟩ := not_granted _ _ hgr
      unfold conflicts at hc
      simp only [Bool.and_eq_true, decide_eq_true_eq] at hc
      obtain ⟨⟨ho, hl⟩, -⟩ := hc
      have hnc := hn c
      rw [← (file_eq cfg s h c).1] at hnc
      rcases (h.tab a).1 ha with ⟨k, hk, e⟩ | ⟨k, hk, e⟩ | ⟨m, hk, e⟩
      · have hnd := hn a.conn
        rw [← (file_eq cfg s h a.conn).1] at hnd
        rw [e] at ho hl
        obtain ⟨e1, e2⟩ := recObj_inj _ _ _ _ hnd hnc ho
        have hne : a.conn ≠ c := by intro hh; apply hl; simp [recL, hh]
        refine (hfree a.conn hne ?_).1 (by rw [hk, e2])
        unfold SameFile
        rw [← (file_eq cfg s h c).1, ← (file_eq cfg s h a.conn).1, e1]
      · have hnd := hn a.conn
        rw [← (file_eq cfg s h a.conn).1] at hnd
        rw [e] at ho hl
        obtain ⟨e1, e2⟩ := recObj_inj _ _ _ _ hnd hnc ho
        have hne : a.conn ≠ c := by intro hh; apply hl; simp [recL, testL, hh]
        refine (hfree a.conn hne ?_).2 (by rw [hk, e2])
        unfold SameFile
        rw [← (file_eq cfg s h c).1, ← (file_eq cfg s h a.conn).1, e1]
      · have hnd := hn a.conn
        rw [← (file_eq cfg s h a.conn).1] at hnd
        rw [e] at ho
        exact recObj_ne_name _ _ _ hnd ho.symm
  unfold Holds move
  dsimp only
  rw [hnext]
  dsimp only
  rw [if_pos hg]
  simp [Sys.set]

/-! ### Files -/

/-- C91: when two connectors of different processes have the same file open, and neither of them
has executed UNLOCK or begun to close it, neither was opened in a way that leaves no room for
others. -/
theorem C91_files (cfg : Nat → Nat × List Nat × LockMode) (s : Sys) (hs : Reachable cfg s) (c d : Nat)
    (hp : (cfg c).1 ≠ (cfg d).1) (hf : SameFile cfg c d) (m1 m2 : OpenMode)
    (ho1 : (s.conns c).opened = some m1) (ho2 : (s.conns d).opened = some m2)
    (hg1 : (s.conns c).gone = false) (hg2 : (s.conns d).gone = false) :
    ¬ Alone m1 (cfg c).2.2 ∧ ¬ Alone m2 (cfg d).2.2 := by
  have h := inv_reachable cfg s hs
  obtain ⟨fc, pc, lc⟩ := file_eq cfg s h c
  obtain ⟨fd, pd, ld⟩ := file_eq cfg s h d
  have l1 := (h.conn c).how m1 ho1 hg1
  have l2 := (h.conn d).how m2 ho2 hg2
  have t1 : fileL c (s.conns c).proc (s.conns c).file _ ∈ s.table := (h.tab _).2 (Or.inr (Or.inr ⟨_, l1, rfl⟩))
  have t2 : fileL d (s.conns d).proc (s.conns d).file _ ∈ s.table := (h.tab _).2 (Or.inr (Or.inr ⟨_, l2, rfl⟩))
  rcases h.compat _ t1 _ t2 (by simp only [fileL]; rw [fc, fd]; exact hf) with h3 | h3
  · simp only [fileL, Locker.proc.injEq] at h3
    rw [pc, pd] at h3
    exact absurd h3 hp
  · simp only [fileL] at h3
    constructor
    · intro ha; rw [← lc] at ha; unfold Alone at ha; have := h3.1; unfold fileMode at this; rw [if_pos ha] at this; cases this
    · intro ha; rw [← ld] at ha; unfold Alone at ha; have := h3.2; unfold fileMode at this; rw [if_pos ha] at this; cases this

/-- C91: an OPEN is refused only because of a connector of another process that has a lock on the same file,
and only if one of the two is to leave no room for others. -/
theorem C91_open (cfg : Nat → Nat × List Nat × LockMode) (hn : Names cfg) (s : Sys) (hs : Reachable cfg s) (c : Nat)
    (mode : Mode) (rest : List Act) (hnext : (s.conns c).todo = .fileGet mode :: rest)
    (hfree : ∀ d, (cfg d).1 ≠ (cfg c).1 → SameFile cfg c d →
      (s.conns d).fileLk = none ∨ ((s.conns d).fileLk = some .rd ∧ mode = .rd)) :
    ((move s c).conns c).opened = some (s.conns c).asked ∧ ((move s c).conns c).todo = rest := by
  have h := inv_reachable cfg s hs
  have hg : granted s.table (fileL c (s.conns c).proc (s.conns c).file mode) = true := by
    cases hgr : granted s.table (fileL c (s.conns c).proc (s.conns c).file mode) with
    | true => rfl
    | false =>
      exfalso
      obtain ⟨a, ha, hc⟩ := not_granted _ _ hgr
      unfold conflicts at hc
      simp only [Bool.and_eq_true, decide_eq_true_eq] at hc
      obtain ⟨⟨ho, hl⟩, hmm⟩ := hc
      have hnc := hn c
      rw [← (file_eq cfg s h c).1] at hnc
      rcases (h.tab a).1 ha with ⟨k, hk, e⟩ | ⟨k, hk, e⟩ | ⟨m, hk, e⟩
      · rw [e] at ho; exact recObj_ne_name _ _ _ hnc ho
      · rw [e] at ho; exact recObj_ne_name _ _ _ hnc ho
      · rw [e] at ho hl hmm
        simp only [fileL] at ho hl hmm
        have hp : (cfg a.conn).1 ≠ (cfg c).1 := by
          rw [← (file_eq cfg s h c).2.1, ← (file_eq cfg s h a.conn).2.1]
          intro hh; apply hl; rw [hh]
        have hsf : SameFile cfg c a.conn := by
          unfold SameFile
          rw [← (file_eq cfg s h c).1, ← (file_eq cfg s h a.conn).1, ho]
        rcases hfree a.conn hp hsf with h1 | ⟨h1, h2⟩
        · rw [hk] at h1; cases h1
        · rw [hk] at h1; cases h1; subst h2; simp at hmm
  unfold move
  dsimp only
  rw [hnext]
  dsimp only
  rw [if_pos hg]
  simp [Sys.set]

/-! ### Cases and findings -/

/-- Two processes, each with one connector for the file F (LOCK MODE MANUAL); connector 2 is a
second one of process 0, connector 3 one of process 1 with LOCK MODE AUTOMATIC. -/
def exCfg : Nat → Nat × List Nat × LockMode
  | 0 => (0, [70], .manual)
  | 1 => (1, [70], .manual)
  | 2 => (0, [70], .none)
  | _ => (1, [70], .automatic)

/-- Both processes open the file I-O. -/
def exOpen : List Ev := [.start 0 (.opn .io), .move 0, .move 0, .start 1 (.opn .io), .move 1, .move 1]

/-- READ WITH LOCK of the record with key 1, all steps, by connector `c`. -/
def exRead (c : Nat) : List Ev :=
  [.start c (.read [1] true .lock), .move c, .move c, .move c, .move c, .move c, .move c]

/-- non-vacuity: a lock held, another process idle with the file open; its READ ends with 51 -/
example : Names exCfg := by intro c; unfold exCfg; split <;> decide
example : let s := run (init exCfg) (exOpen ++ exRead 0)
    (s.conns 0).recLk = some [1] ∧ (s.conns 1).opened = some .io ∧ (s.conns 1).todo = [] ∧
    ((run s (exRead 1)).conns 1).status = 51 ∧ ((run s (exRead 1)).conns 1).recLk = none := by decide +kernel

/-- Finding: REWRITE gives up the lock of the record before it tests it: process 0 has read the
record WITH LOCK; while it executes REWRITE, process 1 reads the record WITH LOCK and gets it, and
the REWRITE ends with status 51: the lock did not protect the update. -/
theorem C91_finding_rewrite_gives_up :
    let s := run (init exCfg) (exOpen ++ exRead 0 ++
      [.start 0 (.rewrite [1] true false false), .move 0] ++ exRead 1 ++ [.move 0, .move 0])
    (s.conns 0).status = 51 ∧ (s.conns 0).todo = [] ∧ (s.conns 1).recLk = some [1] ∧ (s.conns 1).status = 0 := by
  decide +kernel

/-- Finding: REWRITE tests the lock and gives it back before it changes the record: process 1 can
read the record WITH LOCK in between, and the record is changed while it is locked: the update that
process 1 then makes is based on the old record. -/
theorem C91_finding_changed_while_locked :
    let s := run (init exCfg) (exOpen ++
      [.start 0 (.rewrite [1] true false false), .move 0, .move 0, .move 0, .move 0] ++ exRead 1 ++ [.move 0, .move 0])
    s.log = [(0, .change [1]), (1, .take [1])] ∧ (s.conns 0).status = 0 ∧ (s.conns 1).recLk = some [1] := by
  decide +kernel

/-- Finding: the test is itself a lock: a READ without lock in process 0 makes a READ without lock
in process 1 fail with status 51, although nobody locks the record. -/
theorem C91_finding_test_refuses :
    let s := run (init exCfg) (exOpen ++ [.start 0 (.read [1] true .plain), .move 0, .move 0,
      .start 1 (.read [1] true .plain), .move 1, .move 1])
    (s.conns 1).status = 51 ∧ (s.conns 1).todo = [] ∧ (s.conns 0).recLk = none ∧ (s.conns 1).recLk = none := by
  decide +kernel

/-- Finding: WRITE WITH LOCK writes the record first and locks it then: when another process is just
reading the new record, the status is 51, and the record is there. -/
theorem C91_finding_write_lock :
    let s := run (init exCfg) (exOpen ++ [.start 0 (.write [1] false true), .move 0, .move 0,
      .start 1 (.read [1] true .plain), .move 1, .move 1, .move 0])
    (s.conns 0).status = 51 ∧ (s.conns 0).todo = [] ∧ (0, .change [1]) ∈ s.log := by
  decide +kernel

/-- Finding: UNLOCK gives up the lock of the file too: while process 0 still has the file open, process
1 can open it OUTPUT. -/
theorem C91_finding_unlock_file :
    let s := run (init exCfg) [.start 0 (.opn .io), .move 0, .move 0, .start 0 .unlock, .move 0, .move 0, .move 0,
      .start 1 (.opn .output), .move 1, .move 1]
    (s.conns 0).opened = some .io ∧ (s.conns 1).opened = some .output ∧ (s.conns 1).status = 0 := by
  decide +kernel

/-- Finding: within one process files are not protected at all: it can have the same file open I-O
and open it OUTPUT through another connector. -/
theorem C91_finding_same_process :
    let s := run (init exCfg) [.start 0 (.opn .io), .move 0, .move 0, .start 2 (.opn .output), .move 2, .move 2]
    (s.conns 0).opened = some .io ∧ (s.conns 2).opened = some .output ∧ (s.conns 2).status = 0 := by
  decide +kernel

/-- Finding: READ WITH IGNORE LOCK of a file with LOCK MODE AUTOMATIC does not ignore the lock of
another process: it does not test it, but asks for it, and ends with status 51. -/
theorem C91_finding_ignore_lock :
    let s := run (init exCfg) ([.start 0 (.opn .io), .move 0, .move 0, .start 3 (.opn .io), .move 3, .move 3] ++ exRead 0 ++
      [.start 3 (.read [1] true .ignoreLock), .move 3, .move 3])
    (s.conns 3).status = 51 ∧ (s.conns 3).todo = [] := by
  decide +kernel

end Cob.Lock
