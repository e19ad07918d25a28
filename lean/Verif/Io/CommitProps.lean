import Verif.Io.Commit
import Verif.Io.StopRunProps
import Verif.Io.FLockProps
/-
C100: COMMIT and ROLLBACK.
-/
namespace Cob.Commit

/-! ### Lemmas -/

theorem mem_fileUnlock (ex : Bool) (c : Nat) (f : Conn) (x : Unlocked) :
    x ∈ fileUnlock ex c f ↔ StopRun.IsOpen f ∧ x = ⟨c, f.file, !ex⟩ := by
  unfold fileUnlock
  by_cases h : StopRun.IsOpen f
  · rw [if_pos ((StopRun.mode_open f).2 h)]
    simp [h]
  · rw [if_neg fun g => h ((StopRun.mode_open f).1 g)]
    simp [h]

theorem walk_nodup (ex : Nat → Bool) (conns : Nat → Conn) : ∀ l : List Nat, l.Nodup →
    ((l.flatMap fun c => fileUnlock (ex c) c (conns c)).map (·.conn)).Nodup
  | [], _ => List.nodup_nil
  | c :: rest, h => by
    obtain ⟨h1, h2⟩ := List.nodup_cons.1 h
    have ih := walk_nodup ex conns rest h2
    rw [List.flatMap_cons, List.map_append]
    by_cases ho : (conns c).mode ≠ .closed ∧ (conns c).mode ≠ .locked
    · have e : fileUnlock (ex c) c (conns c) = [⟨c, (conns c).file, !ex c⟩] := by unfold fileUnlock; rw [if_pos ho]
      rw [e]
      simp only [List.map_cons, List.map_nil, List.singleton_append]
      refine List.nodup_cons.2 ⟨fun g => ?_, ih⟩
      obtain ⟨x, hx, rfl⟩ := List.mem_map.1 g
      obtain ⟨d, hd, hxd⟩ := List.mem_flatMap.1 hx
      rw [((mem_fileUnlock _ _ _ _).1 hxd).2] at h1
      exact h1 hd
    · have e : fileUnlock (ex c) c (conns c) = [] := by unfold fileUnlock; rw [if_neg ho]
      rw [e]
      simpa using ih

open Classical in
theorem release_facts (k : FLock.Cfg) (s : FLock.Sys) (c : Nat) :
    (∀ d, (release k s c).conns d = if d = c ∧ ∃ m, FLock.IsOpen s c m then { s.conns d with buffer := [] } else s.conns d) ∧
    (∀ f p t, (f, p, t) ∈ (release k s c).locks ↔
      (f, p, t) ∈ s.locks ∧ ¬ ((∃ m, FLock.IsOpen s c m) ∧ k.exclusive = false ∧ f = k.file ∧ p = k.proc)) ∧
    (release k s c).log = (if (∃ m, FLock.IsOpen s c m) ∧ (s.conns c).buffer ≠ [] then [(c, FLock.Change.written (s.conns c).buffer)] else []) ++ s.log := by
  by_cases ho : ∃ m, FLock.IsOpen s c m
  · have ho' := ho
    obtain ⟨m, sh, hm⟩ := ho
    have hlog : (s.flush c).log = (if (∃ m, FLock.IsOpen s c m) ∧ (s.conns c).buffer ≠ [] then [(c, FLock.Change.written (s.conns c).buffer)] else []) ++ s.log := by
      unfold FLock.Sys.flush
      by_cases hb : (s.conns c).buffer = []
      · rw [if_pos hb, if_neg (by simp [hb])]; rfl
      · rw [if_neg hb, if_pos ⟨ho', hb⟩]; rfl
    have hconn : ∀ d, (s.flush c).conns d = if d = c ∧ ∃ m, FLock.IsOpen s c m then { s.conns d with buffer := [] } else s.conns d := by
      intro d
      rw [FLock.flush_conns]
      by_cases h : d = c
      · subst h; rw [if_pos rfl, if_pos ⟨rfl, ho'⟩]
      · rw [if_neg h, if_neg fun g => h g.1]
    cases hx : k.exclusive with
    | true =>
      have e : release k s c = s.flush c := by simp [release, hm, hx]
      rw [e]
      refine ⟨hconn, fun f p t => ?_, hlog⟩
      rw [FLock.flush_locks]
      simp
    | false =>
      have e : release k s c = (s.flush c).lockIs k.file k.proc none := by simp [release, hm, hx]
      rw [e]
      refine ⟨hconn, fun f p t => ?_, hlog⟩
      rw [FLock.mem_lockIs, FLock.flush_locks]
      constructor
      · rintro (⟨_, _, h⟩ | ⟨h1, h2⟩)
        · cases h
        · exact ⟨h2, fun g => h1 g.2.2⟩
      · exact fun h => Or.inr ⟨fun g => h.2 ⟨ho', rfl, g⟩, h.1⟩
  · have e : release k s c = s := by
      unfold release
      split
      · rename_i m sh h; exact absurd ⟨m, sh, h⟩ ho
      · rfl
    rw [e]
    exact ⟨fun d => by rw [if_neg fun g => ho g.2], fun f p t => by simp [ho], by rw [if_neg fun g => ho g.1]; rfl⟩

theorem release_open (k : FLock.Cfg) (s : FLock.Sys) (c d : Nat) (m : FLock.OpenMode) :
    FLock.IsOpen (release k s c) d m ↔ FLock.IsOpen s d m := by
  unfold FLock.IsOpen
  rw [(release_facts k s c).1 d]
  split <;> rfl

/-! ### Properties -/

/-- C100: after any statements on any files, COMMIT deals with every file that is open, once, and with no other: what was written is brought to the file
and the lock is given up, unless LOCK MODE is EXCLUSIVE; and it uses the stream of the file. -/
theorem C100_commit (cfg : Nat → ConnCfg) (exclusive : Nat → Bool) (evs : List (Nat × FStmt)) :
    let r := commit exclusive (StopRun.run cfg StopRun.start evs)
    let f := fun c => StopRun.after (cfg c) .init (StopRun.on c evs)
    (r.map (·.conn)).Nodup ∧
    (∀ x : Unlocked, x ∈ r ↔ (cfg x.conn).special = 0 ∧ StopRun.IsOpen (f x.conn) ∧ x.stream = (f x.conn).file ∧
      (x.lockGone = true ↔ exclusive x.conn = false)) ∧
    (∀ x : Unlocked, x ∈ r → (f x.conn).nonexistent = false → x.stream = .live) := by
  have hi := StopRun.run_inv cfg evs StopRun.start (StopRun.start_inv cfg)
  have hc : ∀ c, (StopRun.run cfg StopRun.start evs).conns c = StopRun.after (cfg c) .init (StopRun.on c evs) :=
    fun c => StopRun.run_conns cfg evs StopRun.start c
  have hm : ∀ x : Unlocked, x ∈ commit exclusive (StopRun.run cfg StopRun.start evs) ↔ (cfg x.conn).special = 0 ∧
      StopRun.IsOpen (StopRun.after (cfg x.conn) .init (StopRun.on x.conn evs)) ∧
      x.stream = (StopRun.after (cfg x.conn) .init (StopRun.on x.conn evs)).file ∧ (x.lockGone = true ↔ exclusive x.conn = false) := by
    intro x
    unfold commit
    rw [List.mem_flatMap]
    constructor
    · rintro ⟨c, h1, h2⟩
      obtain ⟨h3, rfl⟩ := (mem_fileUnlock _ _ _ _).1 h2
      rw [hc] at h3 ⊢
      refine ⟨hi.files c h1, h3, rfl, ?_⟩
      simp
    · rintro ⟨h1, h2, h3, h4⟩
      rw [← hc] at h2 h3
      refine ⟨x.conn, hi.opened _ h1 h2, (mem_fileUnlock _ _ _ _).2 ⟨h2, ?_⟩⟩
      obtain ⟨c, s, b⟩ := x
      simp only at h3 h4 ⊢
      rw [h3]
      cases b <;> cases he : exclusive c <;> simp_all
  refine ⟨walk_nodup exclusive _ _ hi.nodup, hm, fun x hx hn => ?_⟩
  obtain ⟨_, ⟨m, h2⟩, h3, _⟩ := (hm x).1 hx
  rw [h3]
  have := hi.ok x.conn
  rw [hc] at this
  exact this m h2 hn

/-- C100: UNLOCK of a file does what COMMIT does with that file, always gives 00, and does nothing to a file that is not open. -/
theorem C100_unlock (cfg : Nat → ConnCfg) (exclusive : Nat → Bool) (evs : List (Nat × FStmt)) (c : Nat) (hs : (cfg c).special = 0) :
    let u := StopRun.run cfg StopRun.start evs
    (unlock exclusive u c).2 = 0 ∧ (∀ x, x ∈ (unlock exclusive u c).1 ↔ x ∈ commit exclusive u ∧ x.conn = c) ∧
    (¬ StopRun.IsOpen (u.conns c) → (unlock exclusive u c).1 = []) := by
  have hi := StopRun.run_inv cfg evs StopRun.start (StopRun.start_inv cfg)
  refine ⟨rfl, fun x => ?_, fun h => ?_⟩
  · unfold unlock commit
    rw [List.mem_flatMap]
    constructor
    · intro h
      obtain ⟨h1, h2⟩ := (mem_fileUnlock _ _ _ _).1 h
      exact ⟨⟨c, hi.opened c hs h1, h⟩, by rw [h2]⟩
    · rintro ⟨⟨d, _, h2⟩, h3⟩
      obtain ⟨_, h5⟩ := (mem_fileUnlock _ _ _ _).1 h2
      rw [h5] at h3
      simp only at h3
      subst h3
      exact h2
  · unfold unlock fileUnlock
    exact if_neg fun g => h ((StopRun.mode_open _).1 g)

/-- C100: what COMMIT of a process does to a system of processes, whose connectors may share files: every one of its files that is open stays open, and
what its statements wrote is now in the file, in order, once; the process has no lock for a file it has open without LOCK MODE EXCLUSIVE; every other
lock, and the data and states of all other connectors, are as they were. -/
theorem C100_system (cfg : Nat → FLock.Cfg) (l : List Nat) (s : FLock.Sys) :
    let r := releaseAll cfg s l
    (∀ c m, FLock.IsOpen r c m ↔ FLock.IsOpen s c m) ∧
    (∀ c, c ∈ l → (∃ m, FLock.IsOpen s c m) → (r.conns c).buffer = [] ∧
      FLock.writtenBy c r.log = FLock.writtenBy c s.log ++ (s.conns c).buffer) ∧
    (∀ c, ¬ (c ∈ l ∧ ∃ m, FLock.IsOpen s c m) → r.conns c = s.conns c ∧ FLock.writtenBy c r.log = FLock.writtenBy c s.log) ∧
    (∀ f p t, (f, p, t) ∈ r.locks ↔ (f, p, t) ∈ s.locks ∧
      ¬ ∃ c, c ∈ l ∧ (∃ m, FLock.IsOpen s c m) ∧ (cfg c).exclusive = false ∧ (cfg c).file = f ∧ (cfg c).proc = p) := by
  induction l generalizing s with
  | nil => exact ⟨fun c m => Iff.rfl, fun c h => by simp at h, fun c _ => ⟨rfl, rfl⟩, fun f p t => by simp [releaseAll]⟩
  | cons k rest ih =>
    obtain ⟨f1, f2, f3⟩ := release_facts (cfg k) s k
    have hop : ∀ c m, FLock.IsOpen (release (cfg k) s k) c m ↔ FLock.IsOpen s c m := fun c m => release_open (cfg k) s k c m
    obtain ⟨i1, i2, i3, i4⟩ := ih (release (cfg k) s k)
    simp only [hop] at i1 i2 i3 i4
    have hlogk : (∃ m, FLock.IsOpen s k m) →
        FLock.writtenBy k (release (cfg k) s k).log = FLock.writtenBy k s.log ++ (s.conns k).buffer := by
      intro ho
      rw [f3]
      by_cases hb : (s.conns k).buffer = []
      · rw [if_neg (by simp [hb]), hb]; simp
      · rw [if_pos ⟨ho, hb⟩]; simp [FLock.writtenBy]
    have hlogo : ∀ c, ¬ (c = k ∧ ∃ m, FLock.IsOpen s k m) → FLock.writtenBy c (release (cfg k) s k).log = FLock.writtenBy c s.log := by
      intro c h
      rw [f3]
      by_cases hb : (∃ m, FLock.IsOpen s k m) ∧ (s.conns k).buffer ≠ []
      · rw [if_pos hb]
        have : k ≠ c := fun g => h ⟨g.symm, hb.1⟩
        simp [FLock.writtenBy, this]
      · rw [if_neg hb]; rfl
    refine ⟨i1, fun c hc ho => ?_, fun c hc => ?_, fun f p t => ?_⟩
    · by_cases hk : c = k
      · subst hk
        have e := f1 c
        rw [if_pos ⟨rfl, ho⟩] at e
        by_cases hr : c ∈ rest
        · obtain ⟨a, b⟩ := i2 c hr ho
          refine ⟨a, ?_⟩
          show FLock.writtenBy c (releaseAll cfg (release (cfg c) s c) rest).log = _
          rw [b, e, hlogk ho]; simp
        · obtain ⟨a, b⟩ := i3 c fun g => hr g.1
          show ((releaseAll cfg (release (cfg c) s c) rest).conns c).buffer = [] ∧ _ = _
          refine ⟨by rw [a, e], ?_⟩
          show FLock.writtenBy c (releaseAll cfg (release (cfg c) s c) rest).log = _
          rw [b, hlogk ho]
      · have hr : c ∈ rest := (List.mem_cons.1 hc).resolve_left hk
        obtain ⟨a, b⟩ := i2 c hr ho
        refine ⟨a, ?_⟩
        show FLock.writtenBy c (releaseAll cfg (release (cfg k) s k) rest).log = _
        rw [b, hlogo c fun g => hk g.1, f1, if_neg fun g => hk g.1]
    · have h1 : ¬ (c ∈ rest ∧ ∃ m, FLock.IsOpen s c m) := fun g => hc ⟨List.mem_cons_of_mem _ g.1, g.2⟩
      have h2 : ¬ (c = k ∧ ∃ m, FLock.IsOpen s k m) := fun g => hc ⟨g.1 ▸ List.mem_cons_self, g.1 ▸ g.2⟩
      obtain ⟨a, b⟩ := i3 c h1
      exact ⟨a.trans (by rw [f1, if_neg h2]), b.trans (hlogo c h2)⟩
    · show (f, p, t) ∈ (releaseAll cfg (release (cfg k) s k) rest).locks ↔ _
      rw [i4, f2]
      constructor
      · rintro ⟨⟨h1, h2⟩, h3⟩
        refine ⟨h1, ?_⟩
        rintro ⟨c, hc, ho, he, rfl, rfl⟩
        rcases List.mem_cons.1 hc with rfl | hr
        · exact h2 ⟨ho, he, rfl, rfl⟩
        · exact h3 ⟨c, hr, ho, he, rfl, rfl⟩
      · rintro ⟨h1, h2⟩
        exact ⟨⟨h1, fun ⟨ho, he, hf, hp⟩ => h2 ⟨k, List.mem_cons_self, ho, he, hf.symm, hp.symm⟩⟩,
          fun ⟨c, hc, g⟩ => h2 ⟨c, List.mem_cons_of_mem _ hc, g⟩⟩

/-! ### Cases and findings -/

/-- File 0 is OPTIONAL. -/
def exCfg (c : Nat) : ConnCfg := { access := .sequential, optional := c == 0, special := 0, rewriteAssumed := false }

example : commit (fun c => c == 2) (StopRun.run exCfg StopRun.start
    [(1, .openF .output true false 0), (2, .openF .input false false 0), (4, .openF .input false false 13), (5, .openF .output true false 0),
     (5, .close .normal), (1, .write true 0)]) = [⟨2, .live, false⟩, ⟨1, .live, true⟩] := by decide +kernel

/-- Finding: ROLLBACK does what COMMIT does: records written since the last COMMIT are brought to the file, not taken back. -/
theorem C100_finding_rollback (exclusive : Nat → Bool) (u : StopRun.Unit) : rollback exclusive u = commit exclusive u := rfl

/-- Finding: with an OPTIONAL file that is missing and open INPUT, COMMIT (also ROLLBACK, and UNLOCK of the file) hands a null stream to `fflush` and
`fileno`; if the file had been open before, it hands them the stream that its CLOSE released. -/
theorem C100_finding_missing :
    commit (fun _ => false) (StopRun.run exCfg StopRun.start [(0, .openF .input true false 2)]) = [⟨0, .null, true⟩] ∧
    commit (fun _ => false) (StopRun.run exCfg StopRun.start
      [(0, .openF .output true false 0), (0, .close .normal), (0, .openF .input true false 2)]) = [⟨0, .dead, true⟩] := by decide +kernel

/-- Connectors 0 and 1 of process 0 for the files 7 and 8, the second one LOCK MODE EXCLUSIVE; connector 2 of process 1 for file 7. -/
def exProc : Nat → FLock.Cfg
  | 0 => ⟨0, 7, false, false⟩
  | 1 => ⟨0, 8, false, true⟩
  | _ => ⟨1, 7, false, false⟩

/-- OPEN of connector `c`, both steps. -/
def exOpen (c : Nat) (m : FLock.OpenMode) : List FLock.Ev := [.opn c m none none, .lock c]

example : let s := FLock.run exProc FLock.init (exOpen 0 .io ++ exOpen 1 .io ++ [.put 0 [5], .put 1 [6]])
    (s.conns 0).buffer = [5] ∧ s.log = [] ∧ s.locks = [(8, 0, .wr), (7, 0, .wr)] ∧
    (releaseAll exProc s [1, 0]).locks = [(8, 0, .wr)] ∧ (releaseAll exProc s [1, 0]).log = [(0, .written [5]), (1, .written [6])] := by decide +kernel

/-- Finding: COMMIT gives up the lock while the file stays open: another process can empty and write the file, and what the first one writes then goes
into it as well, with status 00. -/
theorem C100_finding_unprotected :
    let s := releaseAll exProc (FLock.run exProc FLock.init (exOpen 0 .io ++ [.put 0 [5]])) [0]
    let s' := FLock.run exProc s (exOpen 2 .output ++ [.put 2 [9], .flush 2, .put 0 [6], .flush 0])
    (s'.conns 2).status = 0 ∧ (s'.conns 0).status = 0 ∧
    s'.log = [(0, .written [6]), (2, .written [9]), (2, .emptied), (0, .written [5])] := by decide +kernel

end Cob.Commit
