import Verif.Io.Lock
/-
C91: locks of INDEXED files shared by processes.  Invariant and properties.
-/
namespace Cob.Lock

/-! ### Invariant -/

/-- The steps still to do fit the locks held: `r`, `t`, `f`, `o` say whether a record lock, a test lock, a
file lock are held and whether the file is open. -/
def Safe : Bool → Bool → Bool → Bool → List Act → Bool
  | r, t, f, o, [] => !t && (o || (!f && !r))
  | _, t, f, o, .unlock :: rest => Safe false t f o rest
  | r, t, f, o, .testGet _ :: rest => !t && o && Safe r true f o rest
  | r, t, f, o, .testPut :: rest => t && o && Safe r false f o rest
  | r, t, f, o, .lockGet _ :: rest => !r && !t && o && Safe true t f o rest
  | r, t, f, o, .fileGet _ :: rest => !f && !o && !r && !t && Safe r t true true rest
  | r, t, _, o, .filePut :: rest => Safe r t false o rest
  | r, t, f, _, .closed :: rest => !f && !r && !t && Safe r t f false rest
  | r, t, f, o, .take _ :: rest => Safe r t f o rest
  | r, t, f, o, .change _ :: rest => Safe r t f o rest
  | r, t, f, o, .finish _ :: rest => Safe r t f o rest

/-- `l` is a lock some handle of connector `c` stands for. -/
def own (cn : Conn) (c : Nat) (l : Lk) : Prop :=
  (∃ k, cn.recLk = some k ∧ l = recL c cn.file k) ∨ (∃ k, cn.testLk = some k ∧ l = testL c cn.file k) ∨
  (∃ m, cn.fileLk = some m ∧ l = fileL c cn.proc cn.file m)

theorem own_conn (cn : Conn) (c : Nat) (l : Lk) (h : own cn c l) : l.conn = c := by
  rcases h with ⟨_, _, rfl⟩ | ⟨_, _, rfl⟩ | ⟨_, _, rfl⟩ <;> rfl

/-- Two locks that may be held together. -/
def Compat (a b : Lk) : Prop := a.obj = b.obj → a.locker = b.locker ∨ (a.mode = .rd ∧ b.mode = .rd)

/-- What is true of one connector by itself. -/
structure ConnOk (cfg : Nat → Nat × List Nat × LockMode) (c : Nat) (cn : Conn) : Prop where
  safe : Safe cn.recLk.isSome cn.testLk.isSome cn.fileLk.isSome cn.opened.isSome cn.todo = true
  same : (cn.proc, cn.file, cn.lmode) = cfg c
  how : ∀ m, cn.opened = some m → cn.gone = false → cn.fileLk = some (fileMode m cn.lmode)
  asks : ∀ m, Act.fileGet m ∈ cn.todo → m = fileMode cn.asked cn.lmode

/-- The invariant of all runs. -/
structure Inv (cfg : Nat → Nat × List Nat × LockMode) (s : Sys) : Prop where
  tab : ∀ l, l ∈ s.table ↔ own (s.conns l.conn) l.conn l
  compat : ∀ a ∈ s.table, ∀ b ∈ s.table, Compat a b
  conn : ∀ c, ConnOk cfg c (s.conns c)

theorem granted_compat (table : List Lk) (l : Lk) (h : granted table l = true) (a : Lk) (ha : a ∈ table) :
    Compat a l ∧ Compat l a := by
  have : conflicts a l = false := by
    simp only [granted, Bool.not_eq_true', List.any_eq_false] at h
    simpa using h a ha
  unfold conflicts at this
  simp only [Bool.and_eq_false_iff, decide_eq_false_iff_not, Bool.not_eq_false', Bool.and_eq_true, decide_eq_true_eq, ne_eq, Decidable.not_not] at this
  constructor
  · intro ho
    rcases this with (h | h) | h
    · exact absurd ho h
    · exact Or.inl h
    · exact Or.inr h
  · intro ho
    rcases this with (h | h) | h
    · exact absurd ho.symm h
    · exact Or.inl h.symm
    · exact Or.inr ⟨h.2, h.1⟩

/-- A step that leaves the table as it is. -/
theorem inv_same (cfg : Nat → Nat × List Nat × LockMode) (s : Sys) (h : Inv cfg s) (c : Nat) (cn : Conn)
    (hown : ∀ l, own cn c l ↔ own (s.conns c) c l) (hok : ConnOk cfg c cn) : Inv cfg (s.set c cn) := by
  refine ⟨?_, h.compat, ?_⟩
  · intro l
    show l ∈ s.table ↔ _
    simp only [Sys.set]
    by_cases hl : l.conn = c
    · rw [if_pos hl, h.tab l, hl, hown]
    · rw [if_neg hl]; exact h.tab l
  · intro d
    simp only [Sys.set]
    by_cases hd : d = c
    · rw [if_pos hd, hd]; exact hok
    · rw [if_neg hd]; exact h.conn d

/-- A step that obtains a lock. -/
theorem inv_add (cfg : Nat → Nat × List Nat × LockMode) (s : Sys) (h : Inv cfg s) (c : Nat) (cn : Conn) (l0 : Lk)
    (hc0 : l0.conn = c) (hg : granted s.table l0 = true)
    (hown : ∀ l, own cn c l ↔ (l = l0 ∨ own (s.conns c) c l)) (hok : ConnOk cfg c cn) :
    Inv cfg { s.set c cn with table := l0 :: s.table } := by
  refine ⟨?_, ?_, ?_⟩
  · intro l
    simp only [Sys.set, List.mem_cons]
    by_cases hl : l.conn = c
    · rw [if_pos hl, h.tab l, hl, hown]
    · rw [if_neg hl]
      constructor
      · rintro (h1 | h1)
        · rw [h1] at hl; exact absurd hc0 hl
        · exact (h.tab l).1 h1
      · intro h1; exact Or.inr ((h.tab l).2 h1)
  · intro a ha b hb
    rcases List.mem_cons.1 ha with ha1 | ha1 <;> rcases List.mem_cons.1 hb with hb1 | hb1
    · rw [ha1, hb1]; intro _; exact Or.inl rfl
    · rw [ha1]; exact (granted_compat _ _ hg b hb1).2
    · rw [hb1]; exact (granted_compat _ _ hg a ha1).1
    · exact h.compat a ha1 b hb1
  · intro d
    simp only [Sys.set]
    by_cases hd : d = c
    · rw [if_pos hd, hd]; exact hok
    · rw [if_neg hd]; exact h.conn d

/-- A step that gives a lock back. -/
theorem inv_put (cfg : Nat → Nat × List Nat × LockMode) (s : Sys) (h : Inv cfg s) (c : Nat) (cn : Conn) (l0 : Lk)
    (hc0 : l0.conn = c) (hown : ∀ l, own cn c l ↔ (l ≠ l0 ∧ own (s.conns c) c l)) (hok : ConnOk cfg c cn) :
    Inv cfg { s.set c cn with table := put s.table l0 } := by
  refine ⟨?_, ?_, ?_⟩
  · intro l
    simp only [Sys.set, put, List.mem_filter, decide_eq_true_eq]
    by_cases hl : l.conn = c
    · rw [if_pos hl, h.tab l, hl, hown, and_comm]
    · rw [if_neg hl]
      constructor
      · intro h1; exact (h.tab l).1 h1.1
      · intro h1
        refine ⟨(h.tab l).2 h1, ?_⟩
        intro he; rw [he] at hl; exact hl hc0
  · intro a ha b hb
    simp only [put, List.mem_filter] at ha hb
    exact h.compat a ha.1 b hb.1
  · intro d
    simp only [Sys.set]
    by_cases hd : d = c
    · rw [if_pos hd, hd]; exact hok
    · rw [if_neg hd]; exact h.conn d

theorem inv_log (cfg : Nat → Nat × List Nat × LockMode) (s : Sys) (log : List (Nat × Act)) (h : Inv cfg s) :
    Inv cfg { s with log := log } := ⟨h.tab, h.compat, h.conn⟩

theorem inv_move (cfg : Nat → Nat × List Nat × LockMode) (s : Sys) (h : Inv cfg s) (c : Nat) : Inv cfg (move s c) := by
  obtain ⟨sf, sm, hw, as⟩ := h.conn c
  unfold move
  dsimp only
  cases htd : (s.conns c).todo with
  | nil => exact h
  | cons a rest =>
    rw [htd] at sf as
    have as' : ∀ m, Act.fileGet m ∈ rest → m = fileMode (s.conns c).asked (s.conns c).lmode :=
      fun m hm => as m (List.mem_cons_of_mem _ hm)
    cases a with
    | unlock =>
      simp only [Safe] at sf
      dsimp only
      cases hr : (s.conns c).recLk with
      | none =>
        refine inv_same cfg s h c _ ?_ ⟨?_, sm, hw, as'⟩
        · intro l; simp only [own, hr]
        · simpa [hr] using sf
      | some k =>
        refine inv_put cfg s h c _ _ rfl ?_ ⟨?_, sm, hw, as'⟩
        · intro l
          simp only [own, hr]
          constructor
          · rintro (⟨_, h1, _⟩ | ⟨k', h1, rfl⟩ | ⟨m, h1, rfl⟩)
            · cases h1
            · exact ⟨by simp [recL, testL], Or.inr (Or.inl ⟨k', h1, rfl⟩)⟩
            · exact ⟨by simp [recL, fileL], Or.inr (Or.inr ⟨m, h1, rfl⟩)⟩
          · rintro ⟨hn, ⟨_, h1, h2⟩ | h1 | h1⟩
            · cases h1; exact absurd h2 hn
            · exact Or.inr (Or.inl h1)
            · exact Or.inr (Or.inr h1)
        · simpa using sf
    | testGet k =>
      simp only [Safe, Bool.and_eq_true, Bool.not_eq_true'] at sf
      obtain ⟨⟨st, so⟩, sf⟩ := sf
      have ht : (s.conns c).testLk = none := by simpa using st
      dsimp only
      split
      · rename_i hg
        refine inv_add cfg s h c _ _ rfl hg ?_ ⟨sf, sm, hw, as'⟩
        intro l
        simp only [own, ht]
        constructor
        · rintro (h1 | ⟨k', h1, h2⟩ | h1)
          · exact Or.inr (Or.inl h1)
          · cases h1; exact Or.inl h2
          · exact Or.inr (Or.inr (Or.inr h1))
        · rintro (h1 | h1 | ⟨_, h1, _⟩ | h1)
          · exact Or.inr (Or.inl ⟨k, rfl, h1⟩)
          · exact Or.inl h1
          · cases h1
          · exact Or.inr (Or.inr h1)
      · refine inv_same cfg s h c _ (fun l => by simp only [own]) ⟨?_, sm, hw, by simp⟩
        simp [Safe, ht, so]
    | testPut =>
      simp only [Safe, Bool.and_eq_true] at sf
      obtain ⟨⟨st, so⟩, sf⟩ := sf
      obtain ⟨k, hk⟩ := Option.isSome_iff_exists.1 st
      dsimp only
      rw [hk]
      refine inv_put cfg s h c _ _ rfl ?_ ⟨by simpa using sf, sm, hw, as'⟩
      intro l
      simp only [own, hk]
      constructor
      · rintro (⟨k', h1, rfl⟩ | ⟨_, h1, _⟩ | ⟨m, h1, rfl⟩)
        · exact ⟨by simp [recL, testL], Or.inl ⟨k', h1, rfl⟩⟩
        · cases h1
        · exact ⟨by simp [testL, fileL], Or.inr (Or.inr ⟨m, h1, rfl⟩)⟩
      · rintro ⟨hn, h1 | ⟨_, h1, h2⟩ | h1⟩
        · exact Or.inl h1
        · cases h1; exact absurd h2 hn
        · exact Or.inr (Or.inr h1)
    | lockGet k =>
      simp only [Safe, Bool.and_eq_true, Bool.not_eq_true'] at sf
      obtain ⟨⟨⟨sr, st⟩, so⟩, sf⟩ := sf
      have hr : (s.conns c).recLk = none := by simpa using sr
      have ht : (s.conns c).testLk = none := by simpa using st
      dsimp only
      split
      · rename_i hg
        refine inv_add cfg s h c _ _ rfl hg ?_ ⟨sf, sm, hw, as'⟩
        intro l
        simp only [own, hr]
        constructor
        · rintro (⟨k', h1, h2⟩ | h1)
          · cases h1; exact Or.inl h2
          · exact Or.inr (Or.inr h1)
        · rintro (h1 | ⟨_, h1, _⟩ | h1)
          · exact Or.inl ⟨k, rfl, h1⟩
          · cases h1
          · exact Or.inr h1
      · refine inv_same cfg s h c _ (fun l => by simp only [own]) ⟨?_, sm, hw, by simp⟩
        simp [Safe, ht, so]
    | fileGet m =>
      simp only [Safe, Bool.and_eq_true, Bool.not_eq_true'] at sf
      obtain ⟨⟨⟨⟨sf1, so⟩, sr⟩, st⟩, sf⟩ := sf
      have hf : (s.conns c).fileLk = none := by simpa using sf1
      have hm := as m (by simp)
      dsimp only
      split
      · rename_i hg
        refine inv_add cfg s h c _ _ rfl hg ?_ ⟨sf, sm, ?_, as'⟩
        · intro l
          simp only [own, hf]
          constructor
          · rintro (h1 | h1 | ⟨m', h1, h2⟩)
            · exact Or.inr (Or.inl h1)
            · exact Or.inr (Or.inr (Or.inl h1))
            · cases h1; exact Or.inl h2
          · rintro (h1 | h1 | h1 | ⟨_, h1, _⟩)
            · exact Or.inr (Or.inr ⟨m, rfl, h1⟩)
            · exact Or.inl h1
            · exact Or.inr (Or.inl h1)
            · cases h1
        · intro m' hm' _
          cases hm'
          rw [hm]
      · refine inv_same cfg s h c _ (fun l => by simp only [own]) ⟨?_, sm, hw, by simp⟩
        simp only [Safe, st, sf1, sr]
        simp
    | filePut =>
      simp only [Safe] at sf
      dsimp only
      cases hf : (s.conns c).fileLk with
      | none =>
        refine inv_same cfg s h c _ (fun l => by simp only [own, hf]) ⟨?_, sm, by simp, as'⟩
        simpa [hf] using sf
      | some m =>
        refine inv_put cfg s h c _ _ rfl ?_ ⟨by simpa using sf, sm, by simp, as'⟩
        intro l
        simp only [own, hf]
        constructor
        · rintro (⟨k', h1, rfl⟩ | ⟨k', h1, rfl⟩ | ⟨_, h1, _⟩)
          · exact ⟨by simp [recL, fileL], Or.inl ⟨k', h1, rfl⟩⟩
          · exact ⟨by simp [testL, fileL], Or.inr (Or.inl ⟨k', h1, rfl⟩)⟩
          · cases h1
        · rintro ⟨hn, h1 | h1 | ⟨_, h1, h2⟩⟩
          · exact Or.inl h1
          · exact Or.inr (Or.inl h1)
          · cases h1; exact absurd h2 hn
    | take k =>
      exact inv_log cfg _ _ (inv_same cfg s h c _ (fun l => by simp only [own]) ⟨by simpa [Safe] using sf, sm, hw, as'⟩)
    | change k =>
      exact inv_log cfg _ _ (inv_same cfg s h c _ (fun l => by simp only [own]) ⟨by simpa [Safe] using sf, sm, hw, as'⟩)
    | closed =>
      simp only [Safe, Bool.and_eq_true, Bool.not_eq_true'] at sf
      exact inv_same cfg s h c _ (fun l => by simp only [own]) ⟨by simpa using sf.2, sm, by simp, as'⟩
    | finish st =>
      exact inv_same cfg s h c _ (fun l => by simp only [own]) ⟨by simpa [Safe] using sf, sm, hw, as'⟩

theorem safe_steps (cn : Conn) (x : Stmt) (ht : cn.testLk = none)
    (hc : cn.opened = none → cn.fileLk = none ∧ cn.recLk = none) :
    Safe cn.recLk.isSome cn.testLk.isSome cn.fileLk.isSome cn.opened.isSome (steps cn x) = true := by
  cases ho : cn.opened with
  | none =>
    obtain ⟨hf, hr⟩ := hc ho
    cases x <;> simp [steps, ho, Safe, ht, hf, hr]
  | some m =>
    cases x with
    | opn m' => simp [steps, ho, Safe, ht]
    | read key found o =>
      cases found <;> simp only [steps, ho, if_true, Bool.false_eq_true, if_false]
      · simp [Safe, ht]
      · split <;> split <;> simp [Safe, ht]
    | write key dup lock => cases dup <;> cases lock <;> simp [steps, ho, Safe, ht]
    | rewrite key found dup lock => cases dup <;> cases lock <;> cases found <;> simp [steps, ho, Safe, ht]
    | delete key found => cases found <;> simp [steps, ho, Safe, ht]
    | unlock => simp [steps, ho, Safe, ht]
    | close => simp [steps, ho, Safe, ht]

theorem steps_asks (cn : Conn) (x : Stmt) (m : Mode) (h : Act.fileGet m ∈ steps cn x) :
    ∃ m', x = .opn m' ∧ cn.opened = none ∧ m = fileMode m' cn.lmode := by
  cases ho : cn.opened with
  | none =>
    cases x <;> simp [steps, ho] at h
    exact ⟨_, rfl, rfl, h⟩
  | some m =>
    exfalso
    cases x with
    | opn m' => simp [steps, ho] at h
    | read key found o =>
      cases found <;> simp only [steps, ho, if_true, Bool.false_eq_true, if_false] at h
      · simp at h
      · revert h; split <;> split <;> simp
    | write key dup lock => cases dup <;> cases lock <;> simp [steps, ho] at h
    | rewrite key found dup lock => cases dup <;> cases lock <;> cases found <;> simp [steps, ho] at h
    | delete key found => cases found <;> simp [steps, ho] at h
    | unlock => simp [steps, ho] at h
    | close => simp [steps, ho] at h

theorem inv_start (cfg : Nat → Nat × List Nat × LockMode) (s : Sys) (h : Inv cfg s) (c : Nat) (x : Stmt) :
    Inv cfg (start s c x) := by
  obtain ⟨sf, sm, hw, as⟩ := h.conn c
  unfold start
  dsimp only
  cases htd : (s.conns c).todo with
  | cons a rest => exact h
  | nil =>
    rw [htd] at sf
    simp only [Safe, Bool.and_eq_true, Bool.not_eq_true', Bool.or_eq_true] at sf
    obtain ⟨st, so⟩ := sf
    refine inv_same cfg s h c _ (fun l => by simp only [own]) ⟨?_, sm, hw, ?_⟩
    · apply safe_steps
      · simpa using st
      · intro ho
        rw [ho] at so
        simpa using so
    · intro m hm
      dsimp only at hm ⊢
      obtain ⟨m', rfl, ho, e⟩ := steps_asks _ _ _ hm
      rw [ho]
      exact e

theorem inv_init (cfg : Nat → Nat × List Nat × LockMode) : Inv cfg (init cfg) := by
  refine ⟨?_, by simp [init], ?_⟩
  · intro l; simp [init, own]
  · intro c
    exact ⟨rfl, rfl, by simp [init], by simp [init]⟩

/-- The states that runs from the beginning lead to. -/
def Reachable (cfg : Nat → Nat × List Nat × LockMode) (s : Sys) : Prop := ∃ evs, s = run (init cfg) evs

theorem inv_run (cfg : Nat → Nat × List Nat × LockMode) (s : Sys) (h : Inv cfg s) (evs : List Ev) : Inv cfg (run s evs) := by
  induction evs generalizing s with
  | nil => exact h
  | cons e evs ih =>
    apply ih
    cases e with
    | start c x => exact inv_start cfg s h c x
    | move c => exact inv_move cfg s h c

theorem inv_reachable (cfg : Nat → Nat × List Nat × LockMode) (s : Sys) (h : Reachable cfg s) : Inv cfg s := by
  obtain ⟨evs, rfl⟩ := h
  exact inv_run cfg _ (inv_init cfg) evs

end Cob.Lock
