import Verif.Io.FLockProps
/-
C92: the theorems and the findings.
-/
namespace Cob.FLock

/-- What the steps of others do to a connector: nothing. -/
theorem C92_kept (cfg : Nat → Cfg) (s : Sys) (evs : List Ev) (c : Nat) (h : ∀ e ∈ evs, e.who ≠ c) :
    (run cfg s evs).conns c = s.conns c := by
  induction evs generalizing s with
  | nil => rfl
  | cons e evs ih =>
    show (run cfg (step cfg s e) evs).conns c = _
    rw [ih _ (fun x hx => h x (by simp [hx]))]
    have hne := h e (by simp)
    cases e with
    | opn d m ph cl =>
      simp only [Ev.who] at hne
      simp only [step]; unfold openStep
      repeat' split
      all_goals first | rfl | simp [Sys.set, Ne.symm hne]
    | lock d =>
      simp only [Ev.who] at hne
      simp only [step]; unfold lockStep
      repeat' split
      all_goals first | rfl | simp [Sys.set, Ne.symm hne, Sys.lockIs]
    | put d x =>
      simp only [Ev.who] at hne
      simp only [step]; unfold putStep
      repeat' split
      all_goals first | rfl | simp [Sys.set, Ne.symm hne]
    | flush d =>
      simp only [Ev.who] at hne
      simp only [step]; unfold flushStep
      split
      · rw [flush_conns, if_neg (Ne.symm hne)]
      · rfl
    | close d =>
      simp only [Ev.who] at hne
      simp only [step]; unfold closeStep
      repeat' split
      all_goals first | rfl | simp [Sys.set, Ne.symm hne, Sys.lockIs]
    | fclose d =>
      simp only [Ev.who] at hne
      simp only [step]; unfold fcloseStep
      split
      · dsimp only; rw [set_conns, if_neg (Ne.symm hne), lockIs_conns, flush_conns, if_neg (Ne.symm hne)]
      · rfl
    | unlock d =>
      simp only [Ev.who] at hne
      simp only [step]; unfold unlockStep
      split
      · dsimp only
        rw [set_conns, if_neg (Ne.symm hne)]
        split
        · rw [flush_conns, if_neg (Ne.symm hne)]
        · rw [lockIs_conns, flush_conns, if_neg (Ne.symm hne)]
      · rfl

theorem open_pair (cfg : Nat → Cfg) (s : Sys) (h : Inv cfg s) (c d : Nat)
    (hr : Rivals cfg c d) (m m' : OpenMode) (hc : IsOpen s c m) (hd : IsOpen s d m') : m = .input ∧ m' = .input := by
  obtain ⟨sh, hc⟩ := hc
  obtain ⟨sh', hd⟩ := hd
  have h1 : ((cfg c).file, (cfg c).proc, lockType sh m) ∈ s.locks := (h.tab _ _ _).2 ⟨c, m, sh, rfl, rfl, hc, rfl⟩
  have h2 : ((cfg c).file, (cfg d).proc, lockType sh' m') ∈ s.locks := (h.tab _ _ _).2 ⟨d, m', sh', rfl, hr.2.symm, hd, rfl⟩
  obtain ⟨e1, e2⟩ := h.compat _ _ _ _ _ h1 h2 hr.1
  exact ⟨(h.opens c m sh hc).1 ((lockType_rd sh m).1 e1).1, (h.opens d m' sh' hd).1 ((lockType_rd sh' m').1 e2).1⟩

/-- **C92**: two processes have a file open together only if both have it open INPUT. -/
theorem C92_together (cfg : Nat → Cfg) (hD : OneEach cfg) (s : Sys) (hs : Reachable cfg s) (c d : Nat)
    (hr : Rivals cfg c d) (m m' : OpenMode) (hc : IsOpen s c m) (hd : IsOpen s d m') : m = .input ∧ m' = .input :=
  open_pair cfg s (inv_reachable cfg hD s hs) c d hr m m' hc hd

theorem sharing_input (ph cl : Option Sharing) : sharingArg ph cl .input = true ↔ NoOther ph cl := by
  unfold NoOther
  rcases ph with _ | _ | _ | _ <;> rcases cl with _ | _ | _ | _ <;> decide

theorem sharing_others (ph cl : Option Sharing) (m : OpenMode) (h : m ≠ .input) : sharingArg ph cl m = true := by
  cases hs : sharingArg ph cl m with
  | true => rfl
  | false => exact absurd (sharing_false ph cl m hs) h

/-- What `fopen` leaves. -/
theorem open_asks (cfg : Nat → Cfg) (s : Sys) (c : Nat) (m : OpenMode) (ph cl : Option Sharing) (h : (s.conns c).phase = .closed) :
    ((step cfg s (.opn c m ph cl)).conns c).phase = .asking m (sharingArg ph cl m) := by
  simp only [step]; unfold openStep
  rw [h]
  dsimp only
  split <;> simp [Sys.set]

/-- **C92, OPEN**: whatever the others do between its steps, an OPEN of a closed file ends with status 00 and the file open exactly if at the moment of
the lock no other process has the file open, or this OPEN and all others are INPUT; otherwise it ends with status 61 and the file stays closed.  But
OPEN INPUT with SHARING WITH NO OTHER always ends with status 30. -/
theorem C92_open (cfg : Nat → Cfg) (hD : OneEach cfg) (s : Sys) (hs : Reachable cfg s) (c : Nat) (m : OpenMode) (ph cl : Option Sharing)
    (hclosed : (s.conns c).phase = .closed) (evs : List Ev) (hev : ∀ e ∈ evs, e.who ≠ c) (hu : ∀ e ∈ evs, NoUnlock cfg e) :
    let s1 := run cfg s (.opn c m ph cl :: evs)
    let s2 := step cfg s1 (.lock c)
    (m = .input ∧ NoOther ph cl → (s2.conns c).status = 30 ∧ (s2.conns c).phase = .closed) ∧
    (¬ (m = .input ∧ NoOther ph cl) → (∃ d m', Rivals cfg c d ∧ IsOpen s1 d m' ∧ ¬ (m = .input ∧ m' = .input)) →
      (s2.conns c).status = 61 ∧ (s2.conns c).phase = .closed) ∧
    (¬ (m = .input ∧ NoOther ph cl) → (∀ d m', Rivals cfg c d → IsOpen s1 d m' → m = .input ∧ m' = .input) →
      (s2.conns c).status = 0 ∧ IsOpen s2 c m) := by
  intro s1 s2
  have hi : Inv cfg s1 := by
    refine inv_run cfg hD _ ?_ _ (inv_reachable cfg hD s hs)
    intro e he
    simp only [List.mem_cons] at he
    rcases he with rfl | he
    · intro c' h; cases h
    · exact hu e he
  have hp : (s1.conns c).phase = .asking m (sharingArg ph cl m) := by
    show ((run cfg (step cfg s (.opn c m ph cl)) evs).conns c).phase = _
    rw [C92_kept cfg _ evs c hev, open_asks cfg s c m ph cl hclosed]
  have hs2 : s2 = lockStep (cfg c) s1 c := rfl
  unfold lockStep at hs2
  rw [hp] at hs2
  dsimp only at hs2
  rw [if_neg (by rw [hD.2 c]; decide)] at hs2
  have hwr : ¬ (m = .input ∧ NoOther ph cl) → (lockType (sharingArg ph cl m) m = .rd ↔ m = .input) := by
    intro hn
    rw [lockType_rd]
    constructor
    · rintro ⟨h1, _⟩; exact sharing_false ph cl m h1
    · rintro rfl
      refine ⟨?_, by decide⟩
      cases hsh : sharingArg ph cl .input with
      | false => rfl
      | true => exact absurd ⟨rfl, (sharing_input ph cl).1 hsh⟩ hn
  have hin : ¬ (m = .input ∧ NoOther ph cl) → ¬ (m = .input ∧ lockType (sharingArg ph cl m) m = .wr) := by
    rintro hn ⟨h1, h2⟩
    rw [(hwr hn).2 h1] at h2
    cases h2
  refine ⟨?_, ?_, ?_⟩
  · rintro ⟨rfl, h2⟩
    rw [if_pos ⟨rfl, by unfold lockType; rw [(sharing_input ph cl).2 h2]; simp⟩] at hs2
    rw [hs2, set_conns, if_pos rfl]
    exact ⟨rfl, rfl⟩
  · rintro hn ⟨d, m', hr, ⟨sh', hd⟩, hm⟩
    rw [if_neg (hin hn), if_pos] at hs2
    · rw [hs2, set_conns, if_pos rfl]
      exact ⟨rfl, rfl⟩
    · rw [refused_iff]
      refine ⟨(cfg d).proc, lockType sh' m', (hi.tab _ _ _).2 ⟨d, m', sh', rfl, hr.2.symm, hd, rfl⟩, Ne.symm hr.1, ?_⟩
      by_cases h1 : m = .input
      · left
        have h2 : m' ≠ .input := fun h => hm ⟨h1, h⟩
        cases ht : lockType sh' m' with
        | wr => rfl
        | rd => exact absurd ((hi.opens d m' sh' hd).1 ((lockType_rd _ _).1 ht).1) h2
      · right
        cases ht : lockType (sharingArg ph cl m) m with
        | wr => rfl
        | rd => exact absurd ((hwr hn).1 ht) h1
  · intro hn hfree
    rw [if_neg (hin hn), if_neg] at hs2
    · rw [hs2, set_conns, if_pos rfl]
      exact ⟨rfl, _, by rw [set_conns, if_pos rfl]⟩
    · rw [refused_iff]
      rintro ⟨q, u, h1, h2, h3⟩
      obtain ⟨d, m', sh', e1, e2, e3, e4⟩ := (hi.tab _ _ _).1 h1
      obtain ⟨rfl, rfl⟩ := hfree d m' ⟨by rw [e1]; exact Ne.symm h2, e2.symm⟩ ⟨sh', e3⟩
      rcases h3 with h3 | h3
      · rw [e4] at h3
        have := (lockType_rd sh' .input).2 ⟨(hi.opens d _ sh' e3).2 rfl, by decide⟩
        rw [this] at h3; cases h3
      · rw [(hwr hn).2 rfl] at h3; cases h3

/-- One step of another process while a connector has the file open. -/
theorem step_log (cfg : Nat → Cfg) (s : Sys) (h : Inv cfg s) (c : Nat) (m : OpenMode) (hc : IsOpen s c m)
    (hcl : ∀ d, d ≠ c → (cfg d).file = (cfg c).file → (s.conns d).phase = .closing → (s.conns d).buffer = [])
    (hD : OneEach cfg) (e : Ev) (he : e.who ≠ c) :
    ((step cfg s e).log = s.log ∨ ∃ x, (step cfg s e).log = (e.who, x) :: s.log ∧
      ((cfg e.who).file = (cfg c).file → x = .emptied ∧ ∃ m' ph cl, e = .opn e.who m' ph cl ∧ m' = .output)) ∧
    (∀ d, d ≠ c → (cfg d).file = (cfg c).file → ((step cfg s e).conns d).phase = .closing → ((step cfg s e).conns d).buffer = []) := by
  have hbufnil : ∀ d, d ≠ c → (cfg d).file = (cfg c).file → (s.conns d).buffer = [] := by
    intro d hd hf
    have hp : (cfg c).proc ≠ (cfg d).proc := fun h => hD.1 c d (Ne.symm hd) h hf.symm
    rcases h.buf d with hb | hb | ⟨m', sh, hm, hb⟩
    · exact hb
    · exact hcl d hd hf hb
    · exact absurd (open_pair cfg s h c d ⟨hp, hf.symm⟩ m m' hc ⟨sh, hb⟩).2 hm
  constructor
  · cases e with
    | opn d m' ph cl =>
      simp only [step, Ev.who]; unfold openStep
      split
      · dsimp only
        split
        · rename_i ho
          exact Or.inr ⟨.emptied, rfl, fun _ => ⟨rfl, m', ph, cl, rfl, ho⟩⟩
        · exact Or.inl rfl
      · exact Or.inl rfl
      · exact Or.inl rfl
    | lock d =>
      left
      simp only [step]; unfold lockStep
      repeat' split
      all_goals rfl
    | put d x =>
      left
      simp only [step]; unfold putStep
      repeat' split
      all_goals rfl
    | flush d =>
      simp only [Ev.who] at he ⊢
      simp only [step]; unfold flushStep
      split
      · unfold Sys.flush
        split
        · exact Or.inl rfl
        · rename_i hb
          exact Or.inr ⟨_, rfl, fun hf => absurd (hbufnil d he hf) hb⟩
      · exact Or.inl rfl
    | close d =>
      left
      simp only [step]; unfold closeStep
      repeat' split
      all_goals rfl
    | fclose d =>
      simp only [Ev.who] at he ⊢
      simp only [step]; unfold fcloseStep
      split
      · dsimp only
        rw [set_log, lockIs_log]
        unfold Sys.flush
        split
        · exact Or.inl rfl
        · rename_i hb
          exact Or.inr ⟨_, rfl, fun hf => absurd (hbufnil d he hf) hb⟩
      · exact Or.inl rfl
    | unlock d =>
      simp only [Ev.who] at he ⊢
      simp only [step]; unfold unlockStep
      split
      · dsimp only
        rw [set_log]
        have : (if (cfg d).exclusive = true then s.flush d else (s.flush d).lockIs (cfg d).file (cfg d).proc none).log = (s.flush d).log := by
          split <;> rfl
        rw [this]
        unfold Sys.flush
        split
        · exact Or.inl rfl
        · rename_i hb
          exact Or.inr ⟨_, rfl, fun hf => absurd (hbufnil d he hf) hb⟩
      · exact Or.inl rfl
  · intro d hd hf hph
    have hb := hbufnil d hd hf
    by_cases hw : e.who = d
    · cases e with
      | opn d' m' ph cl =>
        simp only [Ev.who] at hw; subst hw
        revert hph
        simp only [step]; unfold openStep
        repeat' split
        all_goals simp_all [Sys.set]
      | lock d' =>
        simp only [Ev.who] at hw; subst hw
        revert hph
        simp only [step]; unfold lockStep
        repeat' split
        all_goals simp_all [Sys.set, Sys.lockIs]
      | put d' x =>
        simp only [Ev.who] at hw; subst hw
        revert hph
        simp only [step]; unfold putStep
        repeat' split
        all_goals simp_all [Sys.set]
      | flush d' =>
        simp only [Ev.who] at hw; subst hw
        simp only [step]; unfold flushStep
        split
        · rw [flush_conns, if_pos rfl]
        · exact hb
      | close d' =>
        simp only [Ev.who] at hw; subst hw
        simp only [step]; unfold closeStep
        repeat' split
        all_goals simp_all [Sys.set, Sys.lockIs]
      | fclose d' =>
        simp only [Ev.who] at hw; subst hw
        simp only [step]; unfold fcloseStep
        split
        · dsimp only
          rw [set_conns, if_pos rfl, lockIs_conns, flush_conns, if_pos rfl]
        · exact hb
      | unlock d' =>
        simp only [Ev.who] at hw; subst hw
        simp only [step]; unfold unlockStep
        split
        · dsimp only
          rw [set_conns, if_pos rfl]
          split
          · rw [flush_conns, if_pos rfl]
          · rw [lockIs_conns, flush_conns, if_pos rfl]
        · exact hb
    · have := C92_kept cfg s [e] d (by intro x hx; simp only [List.mem_singleton] at hx; rw [hx]; exact hw)
      change (step cfg s e).conns d = s.conns d at this
      rw [this]
      exact hb

/-- **C92, contents**: while a process has a file open (and no other is still in the middle of a CLOSE of it), nothing that others do writes to the file;
all that can happen to its contents is that an OPEN OUTPUT empties it, and if there is none, nothing at all. -/
theorem C92_contents (cfg : Nat → Cfg) (hD : OneEach cfg) (s : Sys) (hs : Reachable cfg s) (c : Nat) (m : OpenMode) (hc : IsOpen s c m)
    (hcl : ∀ d, d ≠ c → (cfg d).file = (cfg c).file → (s.conns d).phase = .closing → (s.conns d).buffer = [])
    (evs : List Ev) (hev : ∀ e ∈ evs, e.who ≠ c) (hu : ∀ e ∈ evs, NoUnlock cfg e) :
    ∃ new, (run cfg s evs).log = new ++ s.log ∧
      (∀ d x, (d, x) ∈ new → (cfg d).file = (cfg c).file → x = .emptied) ∧
      ((∀ d m' ph cl, .opn d m' ph cl ∈ evs → (cfg d).file = (cfg c).file → m' ≠ .output) →
        ∀ d x, (d, x) ∈ new → (cfg d).file ≠ (cfg c).file) := by
  have hi := inv_reachable cfg hD s hs
  clear hs
  induction evs generalizing s with
  | nil => exact ⟨[], rfl, fun d x h => (by simp at h), fun _ d x h => (by simp at h)⟩
  | cons e evs ih =>
    obtain ⟨h1, h2⟩ := step_log cfg s hi c m hc hcl hD e (hev e (by simp))
    have hc' : IsOpen (step cfg s e) c m := by
      obtain ⟨sh, hc⟩ := hc
      have := C92_kept cfg s [e] c (by intro x hx; simp only [List.mem_singleton] at hx; rw [hx]; exact hev e (by simp))
      change (step cfg s e).conns c = s.conns c at this
      exact ⟨sh, by rw [this]; exact hc⟩
    obtain ⟨new, h3, h4, h5⟩ := ih (step cfg s e) hc' h2 (fun x hx => hev x (by simp [hx])) (fun x hx => hu x (by simp [hx]))
      (inv_step cfg hD s hi e (hu e (by simp)))
    have hrun : run cfg s (e :: evs) = run cfg (step cfg s e) evs := rfl
    rcases h1 with h1 | ⟨x, h1, h6⟩
    · refine ⟨new, by rw [hrun, h3, h1], h4, fun ho => h5 fun d m' ph cl hm => ho d m' ph cl (by simp [hm])⟩
    · refine ⟨new ++ [(e.who, x)], by rw [hrun, h3, h1]; simp, ?_, ?_⟩
      · intro d y hy hf
        rw [List.mem_append] at hy
        rcases hy with hy | hy
        · exact h4 d y hy hf
        · simp only [List.mem_singleton, Prod.mk.injEq] at hy
          obtain ⟨rfl, rfl⟩ := hy
          exact (h6 hf).1
      · intro ho d y hy hf
        rw [List.mem_append] at hy
        rcases hy with hy | hy
        · exact h5 (fun d m' ph cl hm => ho d m' ph cl (by simp [hm])) d y hy hf
        · simp only [List.mem_singleton, Prod.mk.injEq] at hy
          obtain ⟨rfl, rfl⟩ := hy
          obtain ⟨_, m', ph, cl, he, hm⟩ := h6 hf
          exact ho e.who m' ph cl (by rw [← he]; simp) hf hm

/-! ### Nothing is lost -/

theorem writtenBy_others (cfg : Nat → Cfg) (s : Sys) (e : Ev) (c : Nat) (h : e.who ≠ c) : writtenBy c (step cfg s e).log = writtenBy c s.log := by
  have hfl : ∀ d, d ≠ c → writtenBy c (s.flush d).log = writtenBy c s.log := by
    intro d hd
    unfold Sys.flush
    split
    · rfl
    · simp [writtenBy, hd]
  cases e with
  | opn d m ph cl =>
    simp only [step]; unfold openStep
    repeat' split
    all_goals first | rfl | (dsimp only; split <;> rfl)
  | lock d =>
    simp only [step]; unfold lockStep
    repeat' split
    all_goals rfl
  | put d x =>
    simp only [step]; unfold putStep
    repeat' split
    all_goals rfl
  | flush d =>
    simp only [step]; unfold flushStep
    split
    · exact hfl d h
    · rfl
  | close d =>
    simp only [step]; unfold closeStep
    repeat' split
    all_goals rfl
  | fclose d =>
    simp only [step]; unfold fcloseStep
    split
    · dsimp only; rw [set_log, lockIs_log]; exact hfl d h
    · rfl
  | unlock d =>
    simp only [step]; unfold unlockStep
    split
    · dsimp only
      rw [set_log]
      split
      · exact hfl d h
      · rw [lockIs_log]; exact hfl d h
    · rfl

theorem flush_total (s : Sys) (c : Nat) :
    writtenBy c (s.flush c).log ++ ((s.flush c).conns c).buffer = writtenBy c s.log ++ (s.conns c).buffer := by
  rw [flush_conns, if_pos rfl]
  unfold Sys.flush
  split
  · rename_i h; rw [h]
  · simp [writtenBy]

/-- **C92, nothing is lost**: from a state in which a file is open for writing, through any statements that write, and any steps of others, to the end of
the CLOSE: the connector has then written to the file what it still had to write and all that the statements wrote, in this order, once. -/
theorem C92_all_written (cfg : Nat → Cfg) (s : Sys) (c : Nat) (m : OpenMode) (hm : m ≠ .input) (hc : IsOpen s c m)
    (evs others : List Ev) (hev : ∀ e ∈ evs, e.who = c → (∃ x, e = .put c x) ∨ e = .flush c ∨ e = .unlock c)
    (ho : ∀ e ∈ others, e.who ≠ c) :
    let s' := run cfg s (evs ++ [.close c] ++ others ++ [.fclose c])
    writtenBy c s'.log = writtenBy c s.log ++ (s.conns c).buffer ++ putBy c evs ∧
      (s'.conns c).phase = .closed ∧ (s'.conns c).status = 0 := by
  have hoth : ∀ (l : List Ev) (s : Sys), (∀ e ∈ l, e.who ≠ c) → writtenBy c (run cfg s l).log = writtenBy c s.log := by
    intro l
    induction l with
    | nil => intro s _; rfl
    | cons e l ih =>
      intro s h
      show writtenBy c (run cfg (step cfg s e) l).log = _
      rw [ih _ (fun x hx => h x (by simp [hx])), writtenBy_others cfg s e c (h e (by simp))]
  have h1 : ∀ (evs : List Ev) (s : Sys), IsOpen s c m →
      (∀ e ∈ evs, e.who = c → (∃ x, e = .put c x) ∨ e = .flush c ∨ e = .unlock c) →
      writtenBy c (run cfg s evs).log ++ ((run cfg s evs).conns c).buffer = writtenBy c s.log ++ (s.conns c).buffer ++ putBy c evs ∧
      IsOpen (run cfg s evs) c m := by
    intro evs
    induction evs with
    | nil => intro s h _; exact ⟨by simp [run, putBy], h⟩
    | cons e evs ih =>
      intro s hc hev
      have hrun : run cfg s (e :: evs) = run cfg (step cfg s e) evs := rfl
      rw [hrun]
      have key : writtenBy c (step cfg s e).log ++ ((step cfg s e).conns c).buffer ++ putBy c evs =
          writtenBy c s.log ++ (s.conns c).buffer ++ putBy c (e :: evs) ∧ IsOpen (step cfg s e) c m := by
        obtain ⟨sh, hc⟩ := hc
        by_cases hw : e.who = c
        · rcases hev e (by simp) hw with ⟨x, rfl⟩ | rfl | rfl
          · simp only [step]; unfold putStep
            rw [hc]
            dsimp only
            rw [if_neg hm, set_log]
            refine ⟨?_, sh, by rw [set_conns, if_pos rfl]; exact hc⟩
            rw [set_conns, if_pos rfl]
            simp [putBy]
          · simp only [step]; unfold flushStep
            rw [hc]
            dsimp only
            rw [flush_total]
            exact ⟨rfl, sh, by rw [flush_conns, if_pos rfl]; exact hc⟩
          · simp only [step]; unfold unlockStep
            rw [hc]
            dsimp only
            rw [set_log, set_conns, if_pos rfl]
            have h1 : (if (cfg c).exclusive = true then s.flush c else (s.flush c).lockIs (cfg c).file (cfg c).proc none).log = (s.flush c).log := by
              split <;> rfl
            have h2 : (if (cfg c).exclusive = true then s.flush c else (s.flush c).lockIs (cfg c).file (cfg c).proc none).conns = (s.flush c).conns := by
              split <;> rfl
            rw [h1, h2]
            dsimp only
            rw [flush_total]
            exact ⟨rfl, sh, by rw [set_conns, if_pos rfl, flush_conns, if_pos rfl]; exact hc⟩
        · rw [writtenBy_others cfg s e c hw]
          have := C92_kept cfg s [e] c (by intro x hx; simp only [List.mem_singleton] at hx; rw [hx]; exact hw)
          change (step cfg s e).conns c = s.conns c at this
          rw [this]
          refine ⟨?_, sh, by rw [this]; exact hc⟩
          cases e with
          | put d x => simp only [Ev.who] at hw; simp [putBy, hw]
          | _ => rfl
      obtain ⟨k1, k2⟩ := ih (step cfg s e) key.2 (fun x hx => hev x (by simp [hx]))
      exact ⟨k1.trans key.1, k2⟩
  intro s'
  obtain ⟨k1, sh, k2⟩ := h1 evs s hc hev
  have hs' : s' = step cfg (run cfg (step cfg (run cfg s evs) (.close c)) others) (.fclose c) := by
    show run cfg s _ = _
    unfold run
    simp only [List.foldl_append, List.foldl_cons, List.foldl_nil]
  generalize hs1 : run cfg s evs = s1 at k1 k2 hs'
  have hcl : (step cfg s1 (.close c)).conns c = { s1.conns c with phase := .closing } ∧ (step cfg s1 (.close c)).log = s1.log := by
    simp only [step]; unfold closeStep
    rw [k2]
    dsimp only
    rw [set_conns, if_pos rfl]
    exact ⟨rfl, rfl⟩
  have hk := C92_kept cfg (step cfg s1 (.close c)) others c ho
  have hl := hoth others (step cfg s1 (.close c)) ho
  rw [hcl.2] at hl
  rw [hcl.1] at hk
  generalize run cfg (step cfg s1 (.close c)) others = s2 at hs' hk hl
  have hs3 : s' = fcloseStep (cfg c) s2 c := hs'
  unfold fcloseStep at hs3
  rw [hk] at hs3
  dsimp only at hs3
  refine ⟨?_, ?_, ?_⟩
  · rw [hs3, set_log, lockIs_log]
    have := flush_total s2 c
    rw [flush_conns, if_pos rfl, hl, hk] at this
    simp only [List.append_nil] at this
    rw [this, k1]
  · rw [hs3, set_conns, if_pos rfl]
  · rw [hs3, set_conns, if_pos rfl]

/-! ### Cases and findings -/

/-- Connector 0 of process 0, 1 of process 1, both for file 7; connector 2 is a second one of process 0 for the same file. -/
def exCfg : Nat → Cfg
  | 0 => ⟨0, 7, false, false⟩
  | 1 => ⟨1, 7, false, false⟩
  | 2 => ⟨0, 7, false, false⟩
  | c => ⟨c, c + 100, false, false⟩

/-- The same without the second connector. -/
def exOne : Nat → Cfg
  | 0 => ⟨0, 7, false, false⟩
  | 1 => ⟨1, 7, false, true⟩
  | c => ⟨c, c + 100, false, false⟩

/-- OPEN of connector `c`, both steps. -/
def exOpen (c : Nat) (m : OpenMode) : List Ev := [.opn c m none none, .lock c]

/-- non-vacuity -/
example : OneEach exOne := by
  constructor
  · intro c d hne
    rcases c with _ | _ | c <;> rcases d with _ | _ | d <;> simp [exOne] <;> omega
  · intro c
    rcases c with _ | _ | c <;> rfl

example : let s := run exOne init (exOpen 0 .io ++ [.put 0 [5], .flush 0] ++ exOpen 1 .io)
    IsOpen s 0 .io ∧ (s.conns 1).status = 61 ∧ (s.conns 1).phase = .closed ∧ s.log = [(0, .written [5])] :=
  ⟨⟨true, by decide +kernel⟩, by decide +kernel⟩

example : let s := run exOne init (exOpen 0 .input ++ exOpen 1 .input)
    IsOpen s 0 .input ∧ IsOpen s 1 .input := ⟨⟨false, by decide +kernel⟩, ⟨false, by decide +kernel⟩⟩

/-- C92: statements that do not fit the state of the connector change nothing but its status: OPEN of an open file gives 41, CLOSE of a closed one 42,
and a writing statement on a file open INPUT 48; one that fits, and UNLOCK of an open file, gives 00. -/
theorem C92_status (cfg : Nat → Cfg) (s : Sys) (c : Nat) (m m' : OpenMode) (ph cl : Option Sharing) (data : List Nat) :
    (IsOpen s c m → let s' := step cfg s (.opn c m' ph cl)
      (s'.conns c).status = 41 ∧ IsOpen s' c m ∧ s'.locks = s.locks ∧ s'.log = s.log) ∧
    ((s.conns c).phase = .closed → let s' := step cfg s (.close c)
      (s'.conns c).status = 42 ∧ (s'.conns c).phase = .closed ∧ s'.locks = s.locks ∧ s'.log = s.log) ∧
    (IsOpen s c .input → let s' := step cfg s (.put c data)
      (s'.conns c).status = 48 ∧ (s'.conns c).buffer = (s.conns c).buffer ∧ s'.log = s.log) ∧
    (IsOpen s c m → m ≠ .input → ((step cfg s (.put c data)).conns c).status = 0) ∧
    (IsOpen s c m → ((step cfg s (.unlock c)).conns c).status = 0) := by
  refine ⟨?_, ?_, ?_, ?_, ?_⟩
  · rintro ⟨sh, h⟩
    simp only [step, openStep, h, Sys.set, if_true]
    exact ⟨trivial, ⟨sh, by simpa using h⟩, trivial, trivial⟩
  · intro h
    simp only [step, closeStep, h, Sys.set, if_true]
    exact ⟨trivial, by simpa using h, trivial, trivial⟩
  · rintro ⟨sh, h⟩
    simp only [step, putStep, h, Sys.set, if_true]
    exact ⟨trivial, trivial, trivial⟩
  · rintro ⟨sh, h⟩ hm
    simp only [step, putStep, h, if_neg hm, Sys.set, if_true]
  · rintro ⟨sh, h⟩
    simp only [step, unlockStep, h, Sys.set, if_true]

/-- C92: a device (a name below /dev/) is opened whatever locks there are, and gets none. -/
theorem C92_device (cfg : Nat → Cfg) (s : Sys) (c : Nat) (m : OpenMode) (ph cl : Option Sharing) (hd : (cfg c).dev = true)
    (hclosed : (s.conns c).phase = .closed) :
    let s' := run cfg s [.opn c m ph cl, .lock c]
    (s'.conns c).status = 0 ∧ IsOpen s' c m ∧ s'.locks = s.locks := by
  intro s'
  have e : s' = lockStep (cfg c) (step cfg s (.opn c m ph cl)) c := rfl
  by_cases ho : m = .output
  · subst ho
    simp only [step, openStep, hclosed, if_true] at e
    rw [e]
    simp only [lockStep, Sys.set, if_true, hd]
    exact ⟨trivial, ⟨sharingArg ph cl .output, by simp⟩, trivial⟩
  · simp only [step, openStep, hclosed, if_neg ho] at e
    rw [e]
    simp only [lockStep, Sys.set, if_true, hd]
    exact ⟨trivial, ⟨sharingArg ph cl m, by simp⟩, trivial⟩

/-- Finding: an OPEN OUTPUT that is refused with status 61, because another process has the file open, has emptied the file: `fopen` comes before the lock. -/
theorem C92_finding_emptied :
    let s := run exCfg init (exOpen 0 .output ++ [.put 0 [5], .flush 0] ++ exOpen 1 .output)
    (s.conns 1).status = 61 ∧ (s.conns 1).phase = .closed ∧ (s.conns 0).phase = .opened .output true ∧
    s.log = [(1, .emptied), (0, .written [5]), (0, .emptied)] := by decide +kernel

/-- Finding: CLOSE gives up the lock before the buffer is written: another process can open the file, write it anew, and then gets the rest of the
first one's records into it. -/
theorem C92_finding_close :
    let s := run exCfg init (exOpen 0 .output ++ [.put 0 [5], .close 0] ++ exOpen 1 .output ++ [.put 1 [6], .flush 1, .fclose 0])
    (s.conns 0).status = 0 ∧ (s.conns 1).phase = .opened .output true ∧
    s.log = [(0, .written [5]), (1, .written [6]), (1, .emptied), (0, .emptied)] := by decide +kernel

/-- Finding: a reader can get the file, with status 00, before the records written are in it. -/
theorem C92_finding_close_reader :
    let s := run exCfg init (exOpen 0 .output ++ [.put 0 [5], .close 0] ++ exOpen 1 .input)
    (s.conns 1).status = 0 ∧ (s.conns 1).phase = .opened .input false ∧ s.log = [(0, .emptied)] := by decide +kernel

/-- Finding: OPEN INPUT with SHARING WITH NO OTHER fails with status 30, even if nobody uses the file. -/
theorem C92_finding_input_alone :
    let s := run exCfg init [.opn 0 .input (some .noOther) none, .lock 0]
    (s.conns 0).status = 30 ∧ (s.conns 0).phase = .closed := by decide +kernel

/-- Finding: when a process opens the file INPUT through a second connector, its lock becomes one for reading: others can open the file INPUT while it writes. -/
theorem C92_finding_second_connector :
    let s := run exCfg init (exOpen 0 .io ++ exOpen 2 .input ++ exOpen 1 .input)
    (s.conns 0).phase = .opened .io true ∧ (s.conns 1).phase = .opened .input false ∧ (s.conns 1).status = 0 := by decide +kernel

/-- Finding: when it closes the second connector, its lock is gone: another process can open the file I-O while it has it open I-O. -/
theorem C92_finding_second_close :
    let s := run exCfg init (exOpen 0 .io ++ exOpen 2 .io ++ [.close 2, .fclose 2] ++ exOpen 1 .io)
    (s.conns 0).phase = .opened .io true ∧ (s.conns 1).phase = .opened .io true ∧ (s.conns 1).status = 0 := by decide +kernel

/-- Finding: even an OPEN that is refused takes away the lock that the process has for the file through another connector. -/
theorem C92_finding_refused_open :
    let s := run exCfg init (exOpen 0 .input ++ exOpen 1 .input ++ exOpen 2 .io ++ [.close 1, .fclose 1] ++ exOpen 1 .output)
    (s.conns 2).status = 61 ∧ (s.conns 0).phase = .opened .input false ∧ (s.conns 1).phase = .opened .output true ∧
    (s.conns 1).status = 0 := by decide +kernel

/-- Finding: UNLOCK gives up the lock of the file, which stays open. -/
theorem C92_finding_unlock :
    let s := run exCfg init (exOpen 0 .io ++ [.unlock 0] ++ exOpen 1 .io)
    (s.conns 0).phase = .opened .io true ∧ (s.conns 1).phase = .opened .io true ∧ (s.conns 1).status = 0 := by decide +kernel

/-- Finding: LOCK MODE EXCLUSIVE does not matter for OPEN: connector 1 has it, and both have the file open. -/
theorem C92_finding_lock_mode :
    (exOne 1).exclusive = true ∧
    let s := run exOne init (exOpen 1 .input ++ exOpen 0 .input)
    (s.conns 0).status = 0 ∧ (s.conns 1).phase = .opened .input false ∧ (s.conns 0).phase = .opened .input false := by decide +kernel

end Cob.FLock
