import Verif.Io.Status
/-
C36: FILE STATUS as a function of what has been observed at the connector.
-/
namespace Cob

/-! ### Specification -/

/-- What the program can know about a file from its statements and their statuses: the mode (from
the last successful OPEN or CLOSE), whether the OPEN found an OPTIONAL file absent and no READ or
START has followed, whether a READ (READ PREVIOUS) has reported the end (beginning) since the last
OPEN, successful START or successful READ, and whether the last statement was a successful READ. -/
structure Seen where
  mode : ConnMode
  absent : Bool
  untouched : Bool
  atEnd : Bool
  atBegin : Bool
  justRead : Bool
deriving DecidableEq, Repr

def Seen.init : Seen :=
  { mode := .closed, absent := false, untouched := false, atEnd := false, atBegin := false,
    justRead := false }

/-- Reading is allowed. -/
def Seen.readable (s : Seen) : Bool := s.mode = .opened .input ∨ s.mode = .opened .io

/-- WRITE is allowed. -/
def Seen.writable (cfg : ConnCfg) (s : Seen) : Bool :=
  s.mode = .opened .output ∨ s.mode = .opened (if cfg.access = .sequential then .extend else .io)

/-- What OPEN answers when the connector is closed: `missing` the file does not exist, `creates` the
environment asks for creation, `res` the answer of the system to the attempt (0 done, 2 no such file,
13/21/30 not permitted, 11/61 locked by another, 91 not available, 16384 invalid LINAGE). -/
def openStatus (cfg : ConnCfg) (m : UseMode) (missing creates : Bool) (res : Nat) : Nat :=
  if cfg.special ≠ 0 then
    if m = (if cfg.special = 1 then .input else .output) then 0 else 30
  else
    let mustExist := m = .input ∨ (m ≠ .output ∧ creates = false)
    if missing = true ∧ cfg.optional = false ∧ mustExist then 35
    else match res with
      | 0 => if cfg.optional && missing then 5 else 0
      | 2 => if m = .extend ∨ m = .output then 30 else if cfg.optional then 5 else 35
      | 13 | 21 | 30 => 37
      | 11 | 61 => 61
      | 91 => 91
      | 16384 => 57
      | _ => 30

/-- REWRITE and DELETE: 49 unless open I-O, 43 with sequential access unless a successful READ came
immediately before. -/
def Seen.update (cfg : ConnCfg) (s : Seen) (otherwise : Nat) : Nat :=
  if s.mode ≠ .opened .io then 49
  else if cfg.access = .sequential ∧ s.justRead = false then 43
  else otherwise

/-- The status of a statement. -/
def Seen.status (cfg : ConnCfg) (s : Seen) : FStmt → Nat
  | .openF m missing creates res =>
    if s.mode = .locked then 38
    else if s.mode ≠ .closed then 41
    else openStatus cfg m missing creates res
  | .close opt =>
    if cfg.special ≠ 0 then 0
    else if s.mode = .closed then 42
    else if s.absent then 0
    else if opt = .noRewind ∨ opt = .unit then 7 else 0
  | .start res =>
    if s.readable = false then 47
    else if s.absent then 23
    else if cfg.access = .random then 47
    else res
  | .read keyed previous res =>
    if s.readable = false then 47
    else if s.absent then (if s.untouched then 10 else 23)
    else if keyed = false ∧ (if previous then s.atBegin else s.atEnd) = true then 46
    else res
  | .write sizeOk res =>
    if cfg.access = .sequential ∧ s.mode = .opened .io ∧ cfg.rewriteAssumed = true then
      s.update cfg (if sizeOk then res else 44)
    else if s.writable cfg = false then 48
    else if sizeOk then res else 44
  | .rewrite sizeOk res => s.update cfg (if sizeOk then res else 44)
  | .delete res => s.update cfg res
  | .deleteFile res =>
    if s.mode = .locked then 38
    else if s.mode ≠ .closed then 41
    else if cfg.special ≠ 0 then 30
    else res

/-- What is known after a statement that answered `st`. -/
def Seen.after (cfg : ConnCfg) (s : Seen) (x : FStmt) (st : Nat) : Seen :=
  match x with
  | .openF m _ _ res =>
    if st = 0 ∨ st = 5 then
      { mode := .opened m, absent := decide (st = 5 ∧ res = 2), untouched := true, atEnd := false,
        atBegin := false, justRead := false }
    else if s.mode = .closed then
      { s with absent := false, atEnd := false, atBegin := false, justRead := false }
    else { s with justRead := false }
  | .close opt =>
    { s with
      justRead := false
      mode := if st = 0 then (if opt = .lock ∧ cfg.special = 0 then .locked else .closed)
        else if st = 7 ∧ opt = .noRewind then .closed else s.mode }
  | .start _ =>
    { s with
      justRead := false
      untouched := false
      atEnd := s.atEnd && !decide (st = 0)
      atBegin := s.atBegin && !decide (st = 0) }
  | .read _ previous _ =>
    { s with
      justRead := decide (st = 0)
      untouched := false
      atEnd := if st = 0 then false else s.atEnd || (decide (st = 10) && !previous)
      atBegin := if st = 0 then false else s.atBegin || (decide (st = 10) && previous) }
  | _ => { s with justRead := false }

/-- The uses outside the claim: after CLOSE WITH LOCK anything but OPEN, REWRITE, DELETE and DELETE
FILE; on a closed file READ or START if it was an absent OPTIONAL file, and READ if it was closed at
the end; WRITE, REWRITE and DELETE on an absent OPTIONAL file open I-O. -/
def Seen.proper (cfg : ConnCfg) (s : Seen) : FStmt → Prop
  | .openF _ _ _ _ => True
  | .close _ => s.mode = .locked → cfg.special ≠ 0
  | .start _ => s.mode ≠ .locked ∧ (s.mode = .closed → s.absent = false)
  | .read keyed previous _ => s.mode ≠ .locked ∧
      (s.mode = .closed → s.absent = false ∧
        (keyed = true ∨ (if previous then s.atBegin else s.atEnd) = false))
  | .write _ _ => s.mode ≠ .locked ∧
      (s.absent = true → s.mode = .opened .io → cfg.access = .sequential)
  | .rewrite _ _ => s.absent = true → s.mode = .opened .io → cfg.access = .sequential
  | .delete _ => s.absent = true → s.mode = .opened .io → cfg.access = .sequential
  | .deleteFile _ => True

/-- A history all of whose statements are proper. -/
def Seen.Proper (cfg : ConnCfg) (s : Seen) : List FStmt → Prop
  | [] => True
  | x :: rest => s.proper cfg x ∧ (s.after cfg x (s.status cfg x)).Proper cfg rest

instance (cfg : ConnCfg) (s : Seen) : (x : FStmt) → Decidable (s.proper cfg x)
  | .openF _ _ _ _ => by unfold Seen.proper; infer_instance
  | .close _ => by unfold Seen.proper; infer_instance
  | .start _ => by unfold Seen.proper; infer_instance
  | .read _ _ _ => by unfold Seen.proper; infer_instance
  | .write _ _ => by unfold Seen.proper; infer_instance
  | .rewrite _ _ => by unfold Seen.proper; infer_instance
  | .delete _ => by unfold Seen.proper; infer_instance
  | .deleteFile _ => by unfold Seen.proper; infer_instance

instance decProper (cfg : ConnCfg) : (s : Seen) → (xs : List FStmt) → Decidable (s.Proper cfg xs)
  | _, [] => isTrue trivial
  | s, x :: rest =>
    have := decProper cfg (s.after cfg x (s.status cfg x)) rest
    inferInstanceAs (Decidable (s.proper cfg x ∧ (s.after cfg x (s.status cfg x)).Proper cfg rest))

/-- The statuses of a history. -/
def Seen.run (cfg : ConnCfg) (s : Seen) : List FStmt → List Nat
  | [] => []
  | x :: rest => s.status cfg x :: (s.after cfg x (s.status cfg x)).run cfg rest

/-! ### The invariant -/

structure ConnIs (cfg : ConnCfg) (f : Conn) (s : Seen) : Prop where
  mode : f.mode = s.mode
  absent : f.nonexistent = s.absent
  done : f.readDone = s.justRead
  first : s.absent = true → (f.firstRead ≠ 0 ↔ s.untouched = true)
  fin : s.absent = false → f.eof = s.atEnd ∧ f.bof = s.atBegin
  stream : ∀ m, s.mode = .opened m → s.absent = false → f.file = .live
  out : s.mode = .opened .output ∨ s.mode = .opened .extend →
    s.absent = false ∧ s.atEnd = false ∧ s.atBegin = false
  noRead : s.absent = true → s.justRead = false
  noLock : s.mode = .locked → cfg.special = 0
  present : cfg.special ≠ 0 → s.absent = false

/-- One statement as the specification says. -/
def ConnOk (cfg : ConnCfg) (f : Conn) (s : Seen) (x : FStmt) : Prop :=
  (connStep cfg f x).status = s.status cfg x ∧
  ((connStep cfg f x).touch = none ∨ (connStep cfg f x).touch = some .live) ∧
  ConnIs cfg (connStep cfg f x).conn (s.after cfg x (s.status cfg x))

theorem connInit_is (cfg : ConnCfg) : ConnIs cfg .init .init := by
  constructor <;> simp [Conn.init, Seen.init]

theorem modeCases (m : ConnMode) : m = .closed ∨ m = .opened .input ∨ m = .opened .output ∨
    m = .opened .io ∨ m = .opened .extend ∨ m = .locked := by
  rcases m with _ | m | _
  · simp
  · cases m <;> simp
  · simp

theorem connOk_start (cfg : ConnCfg) (f : Conn) (s : Seen) (res : Nat) (h : ConnIs cfg f s)
    (hp : s.proper cfg (.start res)) : ConnOk cfg f s (.start res) := by
  obtain ⟨h1, h2, h3, h4, h5, h6, h7, h8, h9, h10⟩ := h
  have hm : s.mode = .closed ∨ s.mode = .opened .input ∨ s.mode = .opened .output ∨
      s.mode = .opened .io ∨ s.mode = .opened .extend ∨ s.mode = .locked := modeCases _
  simp only [Seen.proper] at hp
  refine ⟨?_, ?_, ?_⟩
  · simp only [connStep, connStart, Seen.status, Seen.readable]
    (rcases hm with hm | hm | hm | hm | hm | hm <;> grind)
  · simp only [connStep, connStart]
    (rcases hm with hm | hm | hm | hm | hm | hm <;> grind)
  · simp only [connStep, connStart, Seen.status, Seen.after, Seen.readable]
    constructor <;>
      (rcases hm with hm | hm | hm | hm | hm | hm <;> grind)

set_option maxHeartbeats 1000000 in
theorem connOk_read (cfg : ConnCfg) (f : Conn) (s : Seen) (k p : Bool) (res : Nat) (h : ConnIs cfg f s)
    (hp : s.proper cfg (.read k p res)) : ConnOk cfg f s (.read k p res) := by
  obtain ⟨fm, fn, fe, fb, ff, fr, fl⟩ := f
  obtain ⟨sm, sa, su, se, sb, sj⟩ := s
  obtain ⟨h1, h2, h3, h4, h5, h6, h7, h8, h9, h10⟩ := h
  simp only at h1 h2 h3 h4 h5 h6 h7 h8 h9 h10
  subst h1 h2 h3
  simp only [Seen.proper] at hp
  unfold ConnOk
  simp only [connStep, connRead, Seen.status, Seen.after, Seen.readable]
  cases fn
  · obtain ⟨h5, h5'⟩ := h5 rfl
    subst h5 h5'
    by_cases hr0 : res = 0
    · subst hr0
      rcases modeCases fm with hm | hm | hm | hm | hm | hm <;> subst hm <;> cases k <;> cases p <;>
        cases fe <;> cases fb <;> simp at hp h7 ⊢ <;> constructor <;> simp_all <;> (try (constructor <;> simp_all))
    · by_cases hr1 : res = 10
      · subst hr1
        rcases modeCases fm with hm | hm | hm | hm | hm | hm <;> subst hm <;> cases k <;> cases p <;>
          cases fe <;> cases fb <;> simp at hp h7 ⊢ <;> constructor <;> simp_all <;> (try (constructor <;> simp_all))
      · rcases modeCases fm with hm | hm | hm | hm | hm | hm <;> subst hm <;> cases k <;> cases p <;>
          cases fe <;> cases fb <;> simp [hr0, hr1] at hp h7 ⊢ <;> constructor <;> simp_all <;> (try (constructor <;> simp_all))
  · have h4 := h4 rfl
    by_cases hf : ff = 0
    · have hu : su = false := by cases su <;> simp_all
      subst hu hf
      rcases modeCases fm with hm | hm | hm | hm | hm | hm <;> subst hm <;> simp at hp h7 ⊢ <;>
        constructor <;> simp_all <;> (try (constructor <;> simp_all))
    · have hu : su = true := by cases su <;> simp_all
      subst hu
      rcases modeCases fm with hm | hm | hm | hm | hm | hm <;> subst hm <;> simp [hf] at hp h7 ⊢ <;>
        constructor <;> simp_all <;> (try (constructor <;> simp_all))

theorem connOk_close (cfg : ConnCfg) (f : Conn) (s : Seen) (o : CloseOpt) (h : ConnIs cfg f s)
    (hp : s.proper cfg (.close o)) : ConnOk cfg f s (.close o) := by
  obtain ⟨h1, h2, h3, h4, h5, h6, h7, h8, h9, h10⟩ := h
  have hm : s.mode = .closed ∨ s.mode = .opened .input ∨ s.mode = .opened .output ∨
      s.mode = .opened .io ∨ s.mode = .opened .extend ∨ s.mode = .locked := modeCases _
  simp only [Seen.proper] at hp
  refine ⟨?_, ?_, ?_⟩
  · cases o <;> simp only [connStep, connClose, fileClose, Seen.status] <;>
      (rcases hm with hm | hm | hm | hm | hm | hm <;> grind)
  · cases o <;> simp only [connStep, connClose, fileClose] <;>
      (rcases hm with hm | hm | hm | hm | hm | hm <;> grind)
  · cases o <;> simp only [connStep, connClose, fileClose, Seen.status, Seen.after] <;> constructor <;>
      (rcases hm with hm | hm | hm | hm | hm | hm <;> grind)

theorem connOk_write (cfg : ConnCfg) (f : Conn) (s : Seen) (z : Bool) (res : Nat) (h : ConnIs cfg f s)
    (hp : s.proper cfg (.write z res)) : ConnOk cfg f s (.write z res) := by
  obtain ⟨h1, h2, h3, h4, h5, h6, h7, h8, h9, h10⟩ := h
  have hm : s.mode = .closed ∨ s.mode = .opened .input ∨ s.mode = .opened .output ∨
      s.mode = .opened .io ∨ s.mode = .opened .extend ∨ s.mode = .locked := modeCases _
  simp only [Seen.proper] at hp
  refine ⟨?_, ?_, ?_⟩
  · simp only [connStep, connWrite, connExWrite, connRewrite, Seen.status, Seen.writable, Seen.update]
    (rcases hm with hm | hm | hm | hm | hm | hm <;> grind)
  · simp only [connStep, connWrite, connExWrite, connRewrite]
    (rcases hm with hm | hm | hm | hm | hm | hm <;> grind)
  · simp only [connStep, connWrite, connExWrite, connRewrite, Seen.after]
    constructor <;>
      (rcases hm with hm | hm | hm | hm | hm | hm <;> grind)

theorem connOk_rewrite (cfg : ConnCfg) (f : Conn) (s : Seen) (z : Bool) (res : Nat) (h : ConnIs cfg f s)
    (hp : s.proper cfg (.rewrite z res)) : ConnOk cfg f s (.rewrite z res) := by
  obtain ⟨h1, h2, h3, h4, h5, h6, h7, h8, h9, h10⟩ := h
  have hm : s.mode = .closed ∨ s.mode = .opened .input ∨ s.mode = .opened .output ∨
      s.mode = .opened .io ∨ s.mode = .opened .extend ∨ s.mode = .locked := modeCases _
  simp only [Seen.proper] at hp
  refine ⟨?_, ?_, ?_⟩
  · simp only [connStep, connRewrite, Seen.status, Seen.update]
    (rcases hm with hm | hm | hm | hm | hm | hm <;> grind)
  · simp only [connStep, connRewrite]
    (rcases hm with hm | hm | hm | hm | hm | hm <;> grind)
  · simp only [connStep, connRewrite, Seen.after]
    constructor <;>
      (rcases hm with hm | hm | hm | hm | hm | hm <;> grind)

theorem connOk_delete (cfg : ConnCfg) (f : Conn) (s : Seen) (res : Nat) (h : ConnIs cfg f s)
    (hp : s.proper cfg (.delete res)) : ConnOk cfg f s (.delete res) := by
  obtain ⟨h1, h2, h3, h4, h5, h6, h7, h8, h9, h10⟩ := h
  have hm : s.mode = .closed ∨ s.mode = .opened .input ∨ s.mode = .opened .output ∨
      s.mode = .opened .io ∨ s.mode = .opened .extend ∨ s.mode = .locked := modeCases _
  simp only [Seen.proper] at hp
  refine ⟨?_, ?_, ?_⟩
  · simp only [connStep, connDelete, Seen.status, Seen.update]
    (rcases hm with hm | hm | hm | hm | hm | hm <;> grind)
  · simp only [connStep, connDelete]
    (rcases hm with hm | hm | hm | hm | hm | hm <;> grind)
  · simp only [connStep, connDelete, Seen.after]
    constructor <;>
      (rcases hm with hm | hm | hm | hm | hm | hm <;> grind)

theorem connOk_deleteFile (cfg : ConnCfg) (f : Conn) (s : Seen) (res : Nat) (h : ConnIs cfg f s) :
    ConnOk cfg f s (.deleteFile res) := by
  obtain ⟨h1, h2, h3, h4, h5, h6, h7, h8, h9, h10⟩ := h
  have hm : s.mode = .closed ∨ s.mode = .opened .input ∨ s.mode = .opened .output ∨
      s.mode = .opened .io ∨ s.mode = .opened .extend ∨ s.mode = .locked := modeCases _
  refine ⟨?_, ?_, ?_⟩
  · simp only [connStep, connDeleteFile, Seen.status]
    (rcases hm with hm | hm | hm | hm | hm | hm <;> grind)
  · simp only [connStep, connDeleteFile]
    (rcases hm with hm | hm | hm | hm | hm | hm <;> grind)
  · simp only [connStep, connDeleteFile, Seen.after]
    constructor <;>
      (rcases hm with hm | hm | hm | hm | hm | hm <;> grind)

theorem openRes_cases (res : Nat) : res = 0 ∨ res = 2 ∨ (res = 13 ∨ res = 21 ∨ res = 30) ∨
    (res = 11 ∨ res = 61) ∨ res = 91 ∨ res = 16384 ∨
    (res ≠ 0 ∧ res ≠ 2 ∧ res ≠ 13 ∧ res ≠ 21 ∧ res ≠ 30 ∧ res ≠ 11 ∧ res ≠ 61 ∧ res ≠ 91 ∧ res ≠ 16384) := by
  omega

/-- The answer of an OPEN on a closed connector, and whether it opens. -/
theorem connOpen_closed (cfg : ConnCfg) (f : Conn) (m : UseMode) (mi cr : Bool) (res : Nat)
    (hm : f.mode = .closed) :
    (connOpen cfg f m mi cr res).status = openStatus cfg m mi cr res ∧
    (connOpen cfg f m mi cr res).touch = none ∧
    (connOpen cfg f m mi cr res).conn.readDone = false ∧
    (connOpen cfg f m mi cr res).conn.firstRead = 2 ∧
    ((openStatus cfg m mi cr res = 0 ∨ openStatus cfg m mi cr res = 5) →
      (connOpen cfg f m mi cr res).conn.mode = .opened m ∧
      (connOpen cfg f m mi cr res).conn.nonexistent = decide (openStatus cfg m mi cr res = 5 ∧ res = 2) ∧
      ((connOpen cfg f m mi cr res).conn.nonexistent = true → cfg.special = 0 ∧ (m = .input ∨ m = .io)) ∧
      ((connOpen cfg f m mi cr res).conn.nonexistent = false →
        (connOpen cfg f m mi cr res).conn.file = .live ∧ (connOpen cfg f m mi cr res).conn.eof = false ∧
        (connOpen cfg f m mi cr res).conn.bof = false)) ∧
    (¬ (openStatus cfg m mi cr res = 0 ∨ openStatus cfg m mi cr res = 5) →
      (connOpen cfg f m mi cr res).conn.mode = .closed ∧
      (connOpen cfg f m mi cr res).conn.nonexistent = false ∧
      (connOpen cfg f m mi cr res).conn.eof = false ∧ (connOpen cfg f m mi cr res).conn.bof = false) := by
  obtain ⟨acc, opt, sp, ra⟩ := cfg
  unfold connOpen openStatus
  simp only [hm]
  by_cases h1 : sp = 1
  · subst h1; cases m <;> simp
  by_cases h2 : sp = 0
  · subst h2
    rcases openRes_cases res with h | h | h | h | h | h | h
    · subst h; cases m <;> cases mi <;> cases cr <;> cases opt <;> simp
    · subst h; cases m <;> cases mi <;> cases cr <;> cases opt <;> simp
    · rcases h with h | h | h <;> subst h <;> cases m <;> cases mi <;> cases cr <;> cases opt <;> simp
    · rcases h with h | h <;> subst h <;> cases m <;> cases mi <;> cases cr <;> cases opt <;> simp
    · subst h; cases m <;> cases mi <;> cases cr <;> cases opt <;> simp
    · subst h; cases m <;> cases mi <;> cases cr <;> cases opt <;> simp
    · obtain ⟨a1, a2, a3, a4, a5, a6, a7, a8, a9⟩ := h
      cases m <;> cases mi <;> cases cr <;> cases opt <;> simp [a1, a2, a3, a4, a5, a6, a7, a8, a9]
  · cases m <;> simp [h1, h2]

theorem connOk_open (cfg : ConnCfg) (f : Conn) (s : Seen) (m : UseMode) (mi cr : Bool) (res : Nat)
    (h : ConnIs cfg f s) : ConnOk cfg f s (.openF m mi cr res) := by
  by_cases hm : s.mode = .closed
  · have hst : s.status cfg (.openF m mi cr res) = openStatus cfg m mi cr res := by
      simp only [Seen.status, hm]; simp
    obtain ⟨e1, e2, e3, e4, e5, e6⟩ := connOpen_closed cfg f m mi cr res (h.mode.trans hm)
    refine ⟨?_, ?_, ?_⟩
    · rw [hst]; exact e1
    · left; exact e2
    · rw [hst]
      by_cases hs : openStatus cfg m mi cr res = 0 ∨ openStatus cfg m mi cr res = 5
      · obtain ⟨g1, g2, g3, g4⟩ := e5 hs
        simp only [connStep, Seen.after]
        rw [if_pos hs]
        constructor
        · exact g1
        · exact g2
        · exact e3
        · intro _; simp [e4]
        · intro ha; exact (g4 (g2.trans ha)).2
        · intro _ _ ha; exact (g4 (g2.trans ha)).1
        · intro ho
          refine ⟨?_, rfl, rfl⟩
          rw [← g2]
          cases hn : (connOpen cfg f m mi cr res).conn.nonexistent with
          | false => rfl
          | true => rcases (g3 hn).2 with h | h <;> subst h <;> simp at ho
        · intro _; rfl
        · intro hc; cases hc
        · intro hsp
          rw [← g2]
          cases hn : (connOpen cfg f m mi cr res).conn.nonexistent with
          | false => rfl
          | true => exact absurd (g3 hn).1 hsp
      · obtain ⟨g1, g2, g3, g4⟩ := e6 hs
        simp only [connStep, Seen.after]
        rw [if_neg hs, if_pos hm]
        constructor <;> simp [g1, g2, g3, g4, e3, hm]
  · have hm' : f.mode ≠ .closed := by rw [h.mode]; exact hm
    have hst : s.status cfg (.openF m mi cr res) = 38 ∨ s.status cfg (.openF m mi cr res) = 41 := by
      simp only [Seen.status]
      by_cases hl : s.mode = .locked <;> simp [hl, hm]
    have hcs : connStep cfg f (.openF m mi cr res) =
        ⟨s.status cfg (.openF m mi cr res), none, { f with readDone := false }⟩ := by
      simp only [connStep, connOpen, Seen.status, h.mode]
      by_cases hl : s.mode = .locked <;> simp [hl, hm]
    have hne : ¬ (s.status cfg (.openF m mi cr res) = 0 ∨ s.status cfg (.openF m mi cr res) = 5) := by
      omega
    unfold ConnOk
    rw [hcs]
    refine ⟨rfl, Or.inl rfl, ?_⟩
    simp only [Seen.after]
    rw [if_neg hne, if_neg hm]
    obtain ⟨h1, h2, h3, h4, h5, h6, h7, h8, h9, h10⟩ := h
    constructor <;> first | assumption | rfl | (intro _; rfl)

theorem connOk_all (cfg : ConnCfg) (f : Conn) (s : Seen) (x : FStmt) (h : ConnIs cfg f s)
    (hp : s.proper cfg x) : ConnOk cfg f s x := by
  cases x with
  | openF m mi cr res => exact connOk_open cfg f s m mi cr res h
  | close o => exact connOk_close cfg f s o h hp
  | start r => exact connOk_start cfg f s r h hp
  | read k p r => exact connOk_read cfg f s k p r h hp
  | write z r => exact connOk_write cfg f s z r h hp
  | rewrite z r => exact connOk_rewrite cfg f s z r h hp
  | delete r => exact connOk_delete cfg f s r h hp
  | deleteFile r => exact connOk_deleteFile cfg f s r h

theorem connRun_ok (cfg : ConnCfg) : ∀ (xs : List FStmt) (f : Conn) (s : Seen), ConnIs cfg f s →
    s.Proper cfg xs →
    (connRun cfg f xs).map Prod.fst = s.run cfg xs ∧
    ∀ p ∈ connRun cfg f xs, p.2 = none ∨ p.2 = some .live
  | [], _, _, _, _ => ⟨rfl, by intro p hp; cases hp⟩
  | x :: xs, f, s, h, hp => by
    obtain ⟨h1, h2, h3⟩ := connOk_all cfg f s x h hp.1
    obtain ⟨g1, g2⟩ := connRun_ok cfg xs _ _ h3 hp.2
    refine ⟨?_, ?_⟩
    · simp only [connRun, List.map_cons, Seen.run, h1, g1]
    · intro p hm
      simp only [connRun, List.mem_cons] at hm
      rcases hm with hm | hm
      · subst hm; exact h2
      · exact g2 p hm

/-! ### The theorems -/

/-- Every proper history of statements on a file, whatever the file system and the organisation's
functions answer, gets the statuses that the observed history determines. -/
theorem C36_statuses (cfg : ConnCfg) (xs : List FStmt) (hp : Seen.init.Proper cfg xs) :
    (connRun cfg .init xs).map Prod.fst = Seen.init.run cfg xs :=
  (connRun_ok cfg xs _ _ (connInit_is cfg) hp).1

/-- ... and no statement touches a stream that is not open. -/
theorem C36_streams (cfg : ConnCfg) (xs : List FStmt) (hp : Seen.init.Proper cfg xs) :
    ∀ p ∈ connRun cfg .init xs, p.2 = none ∨ p.2 = some .live :=
  (connRun_ok cfg xs _ _ (connInit_is cfg) hp).2

/-- A sequential file: READ before OPEN, OPEN twice, READ to the end and beyond, REWRITE, CLOSE twice,
CLOSE WITH LOCK, OPEN. -/
def exStmts : List FStmt :=
  [.read false false 0, .close .normal, .openF .io false false 0, .openF .input false false 0,
   .rewrite true 0, .read false false 0, .rewrite true 0, .rewrite true 0, .write true 0,
   .read false false 10, .read false false 0, .start 0, .read false false 0, .delete 0, .close .lock,
   .openF .input false false 0, .delete 0, .deleteFile 0]

example : Seen.init.Proper ⟨.sequential, false, 0, false⟩ exStmts ∧
    Seen.init.run ⟨.sequential, false, 0, false⟩ exStmts =
      [47, 42, 0, 41, 43, 0, 0, 43, 48, 10, 46, 0, 0, 0, 0, 38, 49, 38] ∧
    connRun ⟨.sequential, false, 0, false⟩ .init exStmts =
      [(47, none), (42, none), (0, none), (41, none), (43, none), (0, some .live), (0, some .live),
       (43, none), (48, none), (10, some .live), (46, none), (0, some .live), (0, some .live),
       (0, some .live), (0, some .live), (38, none), (49, none), (38, none)] := by
  refine ⟨by decide +kernel, by decide +kernel, by decide +kernel⟩

/-- Finding: after CLOSE WITH LOCK, READ, WRITE, START and a second CLOSE are carried out on the stream
that has been released (for CLOSE: a second `fclose`). -/
theorem C36_finding_locked :
    connRun ⟨.sequential, false, 0, false⟩ .init
      [.openF .input false false 0, .close .lock, .read false false 0, .close .normal] =
        [(0, none), (0, some .live), (0, some .dead), (0, some .dead)] ∧
    connRun ⟨.sequential, false, 0, false⟩ .init
      [.openF .output false false 0, .close .lock, .write true 0] =
        [(0, none), (0, some .live), (0, some .dead)] ∧
    connRun ⟨.dynamic, false, 0, false⟩ .init
      [.openF .io false false 0, .close .lock, .start 0] =
        [(0, none), (0, some .live), (0, some .dead)] := by decide +kernel

/-- Finding: an absent OPTIONAL file opened I-O (status 05) with random or dynamic access: WRITE,
REWRITE and DELETE are carried out on a null stream. -/
theorem C36_finding_optional :
    connRun ⟨.random, true, 0, false⟩ .init [.openF .io true false 2, .write true 0] =
      [(5, none), (0, some .null)] ∧
    connRun ⟨.random, true, 0, false⟩ .init [.openF .io true false 2, .rewrite true 0] =
      [(5, none), (0, some .null)] ∧
    connRun ⟨.random, true, 0, false⟩ .init [.openF .io true false 2, .delete 0] =
      [(5, none), (0, some .null)] := by decide +kernel

/-- Finding: READ of a closed file answers 10 and then 23 if the file was an absent OPTIONAL one,
and 46 if it was closed at its end, instead of 47; START of the former answers 23. -/
theorem C36_finding_closed :
    connRun ⟨.sequential, true, 0, false⟩ .init
      [.openF .input true false 2, .close .normal, .read false false 0, .read false false 0, .start 0] =
        [(5, none), (0, none), (10, none), (23, none), (23, none)] ∧
    connRun ⟨.sequential, false, 0, false⟩ .init
      [.openF .input false false 0, .read false false 10, .close .normal, .read false false 0] =
        [(0, none), (10, some .live), (0, some .live), (46, none)] := by decide +kernel

/-- Finding: an OPEN refused with 57 (LINAGE) leaves the stream open on a closed connector; CLOSE
answers 42, so it is never closed. -/
theorem C36_finding_linage :
    (connOpen ⟨.sequential, false, 0, false⟩ .init .output false false 16384).status = 57 ∧
    (connOpen ⟨.sequential, false, 0, false⟩ .init .output false false 16384).conn.file = .live ∧
    (connClose ⟨.sequential, false, 0, false⟩
      (connOpen ⟨.sequential, false, 0, false⟩ .init .output false false 16384).conn .normal).status = 42 := by
  decide +kernel

end Cob
