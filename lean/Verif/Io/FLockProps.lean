import Verif.Io.FLock
/-
C92: files of the organizations SEQUENTIAL, LINE SEQUENTIAL and RELATIVE shared by processes.
-/
namespace Cob.FLock

/-! ### Specification -/

/-- The connector a step is about. -/
def Ev.who : Ev → Nat
  | .opn c _ _ _ | .lock c | .put c _ | .flush c | .close c | .fclose c | .unlock c => c

/-- Every process has at most one connector for a file, and no name begins with `/dev/`. -/
def OneEach (cfg : Nat → Cfg) : Prop :=
  (∀ c d, c ≠ d → (cfg c).proc = (cfg d).proc → (cfg c).file ≠ (cfg d).file) ∧ ∀ c, (cfg c).dev = false

/-- The step is no UNLOCK (or one of a file with LOCK MODE EXCLUSIVE). -/
def NoUnlock (cfg : Nat → Cfg) (e : Ev) : Prop := ∀ c, e = .unlock c → (cfg c).exclusive = true

/-- A state that some run without UNLOCK leads to. -/
def Reachable (cfg : Nat → Cfg) (s : Sys) : Prop := ∃ evs, (∀ e ∈ evs, NoUnlock cfg e) ∧ s = run cfg init evs

/-- The connector has the file open in this mode (OPEN has ended with 00, and CLOSE has not begun). -/
def IsOpen (s : Sys) (c : Nat) (m : OpenMode) : Prop := ∃ sh, (s.conns c).phase = .opened m sh

/-- Connectors of different processes, for the same file. -/
def Rivals (cfg : Nat → Cfg) (c d : Nat) : Prop := (cfg c).proc ≠ (cfg d).proc ∧ (cfg c).file = (cfg d).file

/-- SHARING WITH NO OTHER holds for the OPEN: it says so, or it says nothing (or ALL) and the file description does. -/
def NoOther (phrase clause : Option Sharing) : Prop :=
  phrase = some .noOther ∨ ((phrase = none ∨ phrase = some .all) ∧ clause = some .noOther)

/-- What a connector has written to its file, in order. -/
def writtenBy (c : Nat) : List (Nat × Change) → List Nat
  | [] => []
  | (d, .written x) :: r => if d = c then writtenBy c r ++ x else writtenBy c r
  | _ :: r => writtenBy c r

/-- What the statements of a connector wrote. -/
def putBy (c : Nat) : List Ev → List Nat
  | [] => []
  | .put d x :: r => if d = c then x ++ putBy c r else putBy c r
  | _ :: r => putBy c r

/-! ### The invariant -/

structure Inv (cfg : Nat → Cfg) (s : Sys) : Prop where
  tab : ∀ f p t, (f, p, t) ∈ s.locks ↔
    ∃ c m sh, (cfg c).proc = p ∧ (cfg c).file = f ∧ (s.conns c).phase = .opened m sh ∧ t = lockType sh m
  compat : ∀ f p q t u, (f, p, t) ∈ s.locks → (f, q, u) ∈ s.locks → p ≠ q → t = .rd ∧ u = .rd
  asks : ∀ c m sh, (s.conns c).phase = .asking m sh → sh = false → m = .input
  opens : ∀ c m sh, (s.conns c).phase = .opened m sh → (sh = false ↔ m = .input)
  buf : ∀ c, (s.conns c).buffer = [] ∨ (s.conns c).phase = .closing ∨ ∃ m sh, m ≠ .input ∧ (s.conns c).phase = .opened m sh

theorem mem_lockIs (s : Sys) (f p g q : Nat) (t : Option Ty) (u : Ty) :
    (g, q, u) ∈ (s.lockIs f p t).locks ↔ (g = f ∧ q = p ∧ t = some u) ∨ (¬ (g = f ∧ q = p) ∧ (g, q, u) ∈ s.locks) := by
  unfold Sys.lockIs
  simp only [List.mem_append, List.mem_map, Option.mem_toList, Prod.mk.injEq, List.mem_filter, Bool.not_eq_true',
    decide_eq_false_iff_not]
  constructor
  · rintro (⟨x, hx, h1, h2, h3⟩ | ⟨h1, h2⟩)
    · exact Or.inl ⟨h1.symm, h2.symm, by rw [← h3]; exact hx⟩
    · exact Or.inr ⟨h2, h1⟩
  · rintro (⟨h1, h2, h3⟩ | ⟨h1, h2⟩)
    · exact Or.inl ⟨u, h3, h1.symm, h2.symm, rfl⟩
    · exact Or.inr ⟨h2, h1⟩

@[simp] theorem set_locks (s : Sys) (c : Nat) (x : Conn) : (s.set c x).locks = s.locks := rfl
@[simp] theorem set_log (s : Sys) (c : Nat) (x : Conn) : (s.set c x).log = s.log := rfl
@[simp] theorem lockIs_conns (s : Sys) (f p : Nat) (t : Option Ty) : (s.lockIs f p t).conns = s.conns := rfl
@[simp] theorem lockIs_log (s : Sys) (f p : Nat) (t : Option Ty) : (s.lockIs f p t).log = s.log := rfl
theorem set_conns (s : Sys) (c d : Nat) (x : Conn) : (s.set c x).conns d = if d = c then x else s.conns d := rfl

theorem flush_locks (s : Sys) (c : Nat) : (s.flush c).locks = s.locks := by
  unfold Sys.flush
  split <;> rfl

theorem flush_conns (s : Sys) (c d : Nat) :
    (s.flush c).conns d = if d = c then { s.conns c with buffer := [] } else s.conns d := by
  unfold Sys.flush
  split
  · rename_i h
    split
    · rename_i he; subst he; rw [← h]
    · rfl
  · rfl

/-- A change that leaves phases and locks alone, and does not fill buffers where they must be empty. -/
theorem inv_same (cfg : Nat → Cfg) (s s' : Sys) (h : Inv cfg s) (hl : s'.locks = s.locks)
    (hp : ∀ d, (s'.conns d).phase = (s.conns d).phase)
    (hb : ∀ d, (s'.conns d).buffer = [] ∨ (s'.conns d).buffer = (s.conns d).buffer ∨ ∃ m sh, m ≠ .input ∧ (s.conns d).phase = .opened m sh) :
    Inv cfg s' where
  tab f p t := by rw [hl]; simp only [hp]; exact h.tab f p t
  compat := by rw [hl]; exact h.compat
  asks c m sh := by rw [hp]; exact h.asks c m sh
  opens c m sh := by rw [hp]; exact h.opens c m sh
  buf c := by
    rw [hp]
    rcases hb c with hb | hb | hb
    · exact Or.inl hb
    · rw [hb]; exact h.buf c
    · exact Or.inr (Or.inr hb)

/-- A connector that is not open becomes another one that is not open, and its process has no lock of the file any more. -/
theorem inv_drop (cfg : Nat → Cfg) (hD : OneEach cfg) (s s' : Sys) (h : Inv cfg s) (c : Nat)
    (hl : s'.locks = (s.lockIs (cfg c).file (cfg c).proc none).locks)
    (hc : ∀ d, d ≠ c → s'.conns d = s.conns d) (hph : (s'.conns c).phase = .closed ∨ (s'.conns c).phase = .closing)
    (hb : (s'.conns c).buffer = [] ∨ (s'.conns c).phase = .closing) : Inv cfg s' where
  tab f p t := by
    rw [hl, mem_lockIs, h.tab]
    constructor
    · rintro (⟨_, _, h3⟩ | ⟨h1, d, m, sh, h2, h3, h4, h5⟩)
      · cases h3
      · have : d ≠ c := by rintro rfl; exact h1 ⟨h3.symm, h2.symm⟩
        exact ⟨d, m, sh, h2, h3, by rw [hc d this]; exact h4, h5⟩
    · rintro ⟨d, m, sh, h2, h3, h4, h5⟩
      have hne : d ≠ c := by
        rintro rfl
        rcases hph with e | e <;> (rw [e] at h4; cases h4)
      refine Or.inr ⟨?_, d, m, sh, h2, h3, by rw [← hc d hne]; exact h4, h5⟩
      rintro ⟨e1, e2⟩
      exact hD.1 d c hne (by rw [h2, e2]) (by rw [h3, e1])
  compat f p q t u h1 h2 hne := by
    rw [hl, mem_lockIs] at h1 h2
    rcases h1 with ⟨_, _, h1⟩ | ⟨_, h1⟩
    · cases h1
    rcases h2 with ⟨_, _, h2⟩ | ⟨_, h2⟩
    · cases h2
    exact h.compat f p q t u h1 h2 hne
  asks d m sh hd := by
    by_cases e : d = c
    · subst e; rcases hph with e | e <;> (rw [e] at hd; cases hd)
    · rw [hc d e] at hd; exact h.asks d m sh hd
  opens d m sh hd := by
    by_cases e : d = c
    · subst e; rcases hph with e | e <;> (rw [e] at hd; cases hd)
    · rw [hc d e] at hd; exact h.opens d m sh hd
  buf d := by
    by_cases e : d = c
    · subst e
      rcases hb with hb | hb
      · exact Or.inl hb
      · exact Or.inr (Or.inl hb)
    · rw [hc d e]; exact h.buf d

theorem sharing_false (phrase clause : Option Sharing) (m : OpenMode) (h : sharingArg phrase clause m = false) : m = .input := by
  revert h
  rcases phrase with _ | _ | _ | _ <;> rcases clause with _ | _ | _ | _ <;> cases m <;> decide

theorem refused_iff (s : Sys) (f p : Nat) (t : Ty) :
    refused s f p t = true ↔ ∃ q u, (f, q, u) ∈ s.locks ∧ q ≠ p ∧ (u = .wr ∨ t = .wr) := by
  unfold refused clash
  simp only [List.any_eq_true, Bool.and_eq_true, Bool.or_eq_true, decide_eq_true_eq]
  constructor
  · rintro ⟨⟨g, q, u⟩, h1, ⟨h2, h3⟩, h4⟩
    dsimp only at h2 h3 h4
    subst h2
    exact ⟨q, u, h1, h3, h4⟩
  · rintro ⟨q, u, h1, h2, h3⟩
    exact ⟨(f, q, u), h1, ⟨rfl, h2⟩, h3⟩

theorem lockType_rd (sh : Bool) (m : OpenMode) : lockType sh m = .rd ↔ sh = false ∧ m ≠ .output := by
  unfold lockType
  cases sh <;> cases m <;> simp

/-- Every step keeps the invariant. -/
theorem inv_step (cfg : Nat → Cfg) (hD : OneEach cfg) (s : Sys) (h : Inv cfg s) (e : Ev) (hu : NoUnlock cfg e) : Inv cfg (step cfg s e) := by
  cases e with
  | opn c m ph cl =>
    simp only [step]
    unfold openStep
    split
    · rename_i hp
      have hbuf : (s.conns c).buffer = [] := by
        rcases h.buf c with hb | hb | ⟨_, _, _, hb⟩
        · exact hb
        · rw [hp] at hb; cases hb
        · rw [hp] at hb; cases hb
      have key : ∀ log, Inv cfg { s.set c { s.conns c with phase := .asking m (sharingArg ph cl m), buffer := [] } with log := log } := by
        intro log
        constructor
        · intro f p t
          show (f, p, t) ∈ s.locks ↔ _
          rw [h.tab]
          constructor
          · rintro ⟨d, m', sh, h2, h3, h4, h5⟩
            have : d ≠ c := by rintro rfl; rw [hp] at h4; cases h4
            exact ⟨d, m', sh, h2, h3, by simp [Sys.set, this, h4], h5⟩
          · rintro ⟨d, m', sh, h2, h3, h4, h5⟩
            have : d ≠ c := by rintro rfl; simp [Sys.set] at h4
            exact ⟨d, m', sh, h2, h3, by simpa [Sys.set, this] using h4, h5⟩
        · exact h.compat
        · intro d m' sh hd hsh
          by_cases e : d = c
          · subst e
            simp only [Sys.set, if_true, Phase.asking.injEq] at hd
            obtain ⟨rfl, h2⟩ := hd
            exact sharing_false ph cl m (by rw [h2]; exact hsh)
          · simp only [Sys.set, e, if_false] at hd
            exact h.asks d m' sh hd hsh
        · intro d m' sh hd
          by_cases e : d = c
          · subst e
            simp [Sys.set] at hd
          · simp only [Sys.set, e, if_false] at hd
            exact h.opens d m' sh hd
        · intro d
          by_cases e : d = c
          · subst e
            left
            simp [Sys.set]
          · simp only [Sys.set, e, if_false]
            exact h.buf d
      dsimp only
      split
      · exact key _
      · exact key s.log
    · refine inv_same cfg s _ h rfl ?_ ?_ <;> intro d <;> rw [set_conns] <;> split
      · rename_i e; subst e; rfl
      · rfl
      · rename_i e; subst e; exact Or.inr (Or.inl rfl)
      · exact Or.inr (Or.inl rfl)
    · exact h
  | lock c =>
    simp only [step]
    unfold lockStep
    split
    · rename_i m sh hp
      have hbuf : (s.conns c).buffer = [] := by
        rcases h.buf c with hb | hb | ⟨_, _, _, hb⟩
        · exact hb
        · rw [hp] at hb; cases hb
        · rw [hp] at hb; cases hb
      rw [if_neg (by rw [hD.2 c]; decide)]
      split
      · exact inv_drop cfg hD s _ h c rfl (fun d hd => by rw [set_conns, if_neg hd]; rfl) (Or.inl (by rw [set_conns, if_pos rfl]))
          (Or.inl (by rw [set_conns, if_pos rfl]; exact hbuf))
      rename_i hin
      split
      · exact inv_drop cfg hD s _ h c rfl (fun d hd => by rw [set_conns, if_neg hd]; rfl) (Or.inl (by rw [set_conns, if_pos rfl]))
          (Or.inl (by rw [set_conns, if_pos rfl]; exact hbuf))
      rename_i hr
      have hfree : ∀ q u, ((cfg c).file, q, u) ∈ s.locks → q ≠ (cfg c).proc → u = .rd ∧ lockType sh m = .rd := by
        intro q u hq hne
        have hn := mt (refused_iff s (cfg c).file (cfg c).proc (lockType sh m)).2 hr
        constructor
        · cases u with
          | rd => rfl
          | wr => exact absurd ⟨q, _, hq, hne, Or.inl rfl⟩ hn
        · cases hlt : lockType sh m with
          | rd => rfl
          | wr => exact absurd ⟨q, u, hq, hne, Or.inr hlt⟩ hn
      constructor
      · intro f p t
        rw [set_locks, mem_lockIs, h.tab]
        constructor
        · rintro (⟨h1, h2, h3⟩ | ⟨h1, d, m', sh', h2, h3, h4, h5⟩)
          · refine ⟨c, m, sh, h2.symm, h1.symm, by rw [set_conns, if_pos rfl], ?_⟩
            exact (Option.some.inj h3).symm
          · have : d ≠ c := by rintro rfl; rw [hp] at h4; cases h4
            exact ⟨d, m', sh', h2, h3, by rw [set_conns, if_neg this]; exact h4, h5⟩
        · rintro ⟨d, m', sh', h2, h3, h4, h5⟩
          by_cases e : d = c
          · subst e
            rw [set_conns, if_pos rfl] at h4
            simp only [Phase.opened.injEq] at h4
            obtain ⟨rfl, rfl⟩ := h4
            exact Or.inl ⟨h3.symm, h2.symm, by rw [h5]⟩
          · rw [set_conns, if_neg e] at h4
            refine Or.inr ⟨?_, d, m', sh', h2, h3, h4, h5⟩
            rintro ⟨e1, e2⟩
            exact hD.1 d c e (by rw [h2, e2]) (by rw [h3, e1])
      · intro f p q t u h1 h2 hne
        rw [set_locks, mem_lockIs] at h1 h2
        rcases h1 with ⟨rfl, rfl, h1⟩ | ⟨h1', h1⟩
        · cases h1
          rcases h2 with ⟨_, e, h2⟩ | ⟨_, h2⟩
          · exact absurd e.symm hne
          · exact ⟨(hfree q u h2 (Ne.symm hne)).2, (hfree q u h2 (Ne.symm hne)).1⟩
        · rcases h2 with ⟨rfl, rfl, h2⟩ | ⟨_, h2⟩
          · cases h2
            exact hfree p t h1 hne
          · exact h.compat f p q t u h1 h2 hne
      · intro d m' sh' hd
        by_cases e : d = c
        · subst e; rw [set_conns, if_pos rfl] at hd; cases hd
        · rw [set_conns, if_neg e] at hd; exact h.asks d m' sh' hd
      · intro d m' sh' hd
        by_cases e : d = c
        · subst e
          rw [set_conns, if_pos rfl] at hd
          simp only [Phase.opened.injEq] at hd
          obtain ⟨rfl, rfl⟩ := hd
          constructor
          · exact h.asks d m sh hp
          · intro hm
            cases sh with
            | false => rfl
            | true => exact absurd ⟨hm, by unfold lockType; simp⟩ hin
        · rw [set_conns, if_neg e] at hd; exact h.opens d m' sh' hd
      · intro d
        by_cases e : d = c
        · subst e; left; rw [set_conns, if_pos rfl]; exact hbuf
        · rw [set_conns, if_neg e]; exact h.buf d
    · exact h
  | put c data =>
    simp only [step]
    unfold putStep
    split
    · rename_i m sh hp
      split
      · refine inv_same cfg s _ h rfl ?_ ?_ <;> intro d <;> rw [set_conns] <;> split
        · rename_i e; subst e; rfl
        · rfl
        · rename_i e; subst e; exact Or.inr (Or.inl rfl)
        · exact Or.inr (Or.inl rfl)
      · rename_i hm
        refine inv_same cfg s _ h rfl ?_ ?_ <;> intro d <;> rw [set_conns] <;> split
        · rename_i e; subst e; rfl
        · rfl
        · rename_i e; subst e; exact Or.inr (Or.inr ⟨m, sh, hm, hp⟩)
        · exact Or.inr (Or.inl rfl)
    · exact h
  | flush c =>
    simp only [step]
    unfold flushStep
    split
    · refine inv_same cfg s _ h (flush_locks s c) ?_ ?_ <;> intro d <;> rw [flush_conns] <;> split
      · rename_i e; subst e; rfl
      · rfl
      · exact Or.inl rfl
      · exact Or.inr (Or.inl rfl)
    · exact h
  | close c =>
    simp only [step]
    unfold closeStep
    split
    · exact inv_drop cfg hD s _ h c rfl (fun d hd => by rw [set_conns, if_neg hd]; rfl) (Or.inr (by rw [set_conns, if_pos rfl]))
        (Or.inr (by rw [set_conns, if_pos rfl]))
    · refine inv_same cfg s _ h rfl ?_ ?_ <;> intro d <;> rw [set_conns] <;> split
      · rename_i e; subst e; rfl
      · rfl
      · rename_i e; subst e; exact Or.inr (Or.inl rfl)
      · exact Or.inr (Or.inl rfl)
    · exact h
  | fclose c =>
    simp only [step]
    unfold fcloseStep
    split
    · dsimp only
      refine inv_drop cfg hD s _ h c ?_ ?_ (Or.inl (by rw [set_conns, if_pos rfl])) (Or.inl ?_)
      · rw [set_locks]
        unfold Sys.lockIs
        rw [flush_locks]
      · intro d hd
        rw [set_conns, if_neg hd, lockIs_conns, flush_conns, if_neg hd]
      · rw [set_conns, if_pos rfl, lockIs_conns, flush_conns, if_pos rfl]
    · exact h
  | unlock c =>
    simp only [step]
    unfold unlockStep
    have hx := hu c rfl
    split
    · dsimp only
      rw [if_pos hx]
      refine inv_same cfg s _ h ?_ ?_ ?_
      · rw [set_locks, flush_locks]
      · intro d
        rw [set_conns, flush_conns, flush_conns, if_pos rfl]
        split
        · rename_i e; subst e; rfl
        · rfl
      · intro d
        rw [set_conns, flush_conns, flush_conns, if_pos rfl]
        split
        · exact Or.inl rfl
        · exact Or.inr (Or.inl rfl)
    · exact h

theorem inv_init (cfg : Nat → Cfg) : Inv cfg init where
  tab f p t := by
    constructor
    · intro h; cases h
    · rintro ⟨c, m, sh, _, _, h, _⟩; cases h
  compat f p q t u h := by cases h
  asks c m sh h := by cases h
  opens c m sh h := by cases h
  buf c := Or.inl rfl

theorem inv_run (cfg : Nat → Cfg) (hD : OneEach cfg) (evs : List Ev) (hu : ∀ e ∈ evs, NoUnlock cfg e) (s : Sys) (h : Inv cfg s) :
    Inv cfg (run cfg s evs) := by
  induction evs generalizing s with
  | nil => exact h
  | cons e evs ih => exact ih (fun x hx => hu x (by simp [hx])) _ (inv_step cfg hD s h e (hu e (by simp)))

theorem inv_reachable (cfg : Nat → Cfg) (hD : OneEach cfg) (s : Sys) (hs : Reachable cfg s) : Inv cfg s := by
  obtain ⟨evs, hu, rfl⟩ := hs
  exact inv_run cfg hD evs hu _ (inv_init cfg)

end Cob.FLock
