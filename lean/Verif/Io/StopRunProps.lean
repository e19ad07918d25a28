import Verif.Io.StopRun
import Verif.Io.StatusProps
import Mathlib.Tactic.SplitIfs
/-
C99: STOP RUN closes the files that are open.
-/
namespace Cob.StopRun

/-! ### Specification vocabulary -/

/-- The connector is open. -/
def IsOpen (f : Conn) : Prop := ∃ m, f.mode = .opened m

/-- The statements that were executed on the connector `c`, in order. -/
def on (c : Nat) (evs : List (Nat × FStmt)) : List FStmt := (evs.filter fun e => e.1 = c).map (·.2)

/-- The state of a connector after statements (as in C36). -/
def after (cfg : ConnCfg) : Conn → List FStmt → Conn
  | f, [] => f
  | f, s :: rest => after cfg (connStep cfg f s).conn rest

/-! ### Lemmas -/

/-- What holds of every connector: an open file that exists has a stream that is not released. -/
def Ok (f : Conn) : Prop := ∀ m, f.mode = .opened m → f.nonexistent = false → f.file = .live

theorem open_opens (cfg : ConnCfg) (f : Conn) (m : UseMode) (mi cr : Bool) (res : Nat) (hs : cfg.special = 0) (hn : ¬ IsOpen f)
    (h : IsOpen (connOpen cfg f m mi cr res).conn) : reaches cfg f m mi cr = true := by
  by_cases hr : reaches cfg f m mi cr = true
  · exact hr
  · exfalso
    apply hn
    unfold connOpen at h
    unfold reaches at hr
    simp only [hs] at h hr
    by_cases h1 : f.mode = .locked
    · obtain ⟨m', h⟩ := h
      rw [if_pos h1] at h
      exact ⟨m', h⟩
    · by_cases h2 : f.mode = .closed
      · simp only [h2] at hr h
        simp only [decide_true, Bool.true_and, Bool.not_eq_true', Bool.not_eq_false, ne_eq] at hr
        rw [if_neg (by decide), if_neg (by decide), if_neg (by decide), if_neg (by decide), if_pos (by simpa using hr)] at h
        simpa [IsOpen, h2] using h
      · rw [if_neg h1, if_pos h2] at h
        exact h

theorem other_opens (cfg : ConnCfg) (f : Conn) (s : FStmt) (hs : ∀ m mi cr res, s ≠ .openF m mi cr res) (h : IsOpen (connStep cfg f s).conn) :
    IsOpen f := by
  cases s with
  | openF m mi cr res => exact absurd rfl (hs m mi cr res)
  | close opt =>
    simp only [connStep, connClose] at h
    split_ifs at h
    all_goals first
      | exact h
      | (obtain ⟨m, hm⟩ := h; cases opt <;> simp_all [fileClose, IsOpen])
  | start res =>
    simp only [connStep, connStart] at h
    split_ifs at h <;> exact h
  | read k p res =>
    simp only [connStep, connRead] at h
    split_ifs at h <;> exact h
  | write z res =>
    simp only [connStep, connWrite, connExWrite, connRewrite] at h
    split_ifs at h <;> exact h
  | rewrite z res =>
    simp only [connStep, connRewrite] at h
    split_ifs at h <;> exact h
  | delete res =>
    simp only [connStep, connDelete] at h
    split_ifs at h <;> exact h
  | deleteFile res =>
    simp only [connStep, connDeleteFile] at h
    split_ifs at h <;> exact h

theorem open_ok (cfg : ConnCfg) (f : Conn) (m : UseMode) (mi cr : Bool) (res : Nat) (hf : Ok f) : Ok (connOpen cfg f m mi cr res).conn := by
  by_cases hc : f.mode = .closed
  · obtain ⟨_, _, _, _, ho, hn⟩ := connOpen_closed cfg f m mi cr res hc
    intro m' h1 h2
    by_cases h : openStatus cfg m mi cr res = 0 ∨ openStatus cfg m mi cr res = 5
    · exact ((ho h).2.2.2 h2).1
    · rw [(hn h).1] at h1
      cases h1
  · have : (connOpen cfg f m mi cr res).conn = { f with readDone := false } := by
      unfold connOpen
      by_cases hl : f.mode = .locked
      · rw [if_pos hl]
      · rw [if_neg hl, if_pos hc]
    rw [this]
    exact hf

theorem close_ok (cfg : ConnCfg) (f : Conn) (opt : CloseOpt) (hf : Ok f) : Ok (connClose cfg f opt).conn := by
  unfold connClose
  by_cases hs : cfg.special ≠ 0
  · simp only [if_pos hs]
    intro m' h1
    simp only at h1
    cases h1
  · by_cases hc : f.mode = .closed
    · simp only [if_neg hs, if_pos hc]
      exact hf
    · simp only [if_neg hs, if_neg hc]
      cases hn : f.nonexistent with
      | true =>
        simp only [if_true]
        intro m' h1
        cases opt <;> simp only [if_true, reduceCtorEq, if_false] at h1
      | false =>
        simp only [Bool.false_eq_true, if_false]
        cases opt with
        | unit => simpa [fileClose, Ok, hn] using fun m' h1 => hf m' h1 hn
        | normal => intro m' h1; simp [fileClose] at h1
        | lock => intro m' h1; simp [fileClose] at h1
        | noRewind => intro m' h1; simp [fileClose] at h1

theorem step_ok (cfg : ConnCfg) (f : Conn) (s : FStmt) (hf : Ok f) : Ok (connStep cfg f s).conn := by
  cases s with
  | openF m mi cr res => exact open_ok cfg f m mi cr res hf
  | close opt => exact close_ok cfg f opt hf
  | start res =>
    simp only [connStep, connStart]
    split_ifs <;> exact hf
  | read k p res =>
    simp only [connStep, connRead]
    split_ifs <;> exact hf
  | write z res =>
    simp only [connStep, connWrite, connExWrite, connRewrite]
    split_ifs <;> exact hf
  | rewrite z res =>
    simp only [connStep, connRewrite]
    split_ifs <;> exact hf
  | delete res =>
    simp only [connStep, connDelete]
    split_ifs <;> exact hf
  | deleteFile res =>
    simp only [connStep, connDeleteFile]
    split_ifs <;> exact hf

/-- What holds of the run unit. -/
structure Inv (cfg : Nat → ConnCfg) (u : Unit) : Prop where
  nodup : u.cache.Nodup
  files : ∀ c, c ∈ u.cache → (cfg c).special = 0
  opened : ∀ c, (cfg c).special = 0 → IsOpen (u.conns c) → c ∈ u.cache
  ok : ∀ c, Ok (u.conns c)

theorem mem_cacheFile (cache : List Nat) (c i : Nat) : i ∈ cacheFile cache c ↔ i = c ∨ i ∈ cache := by
  unfold cacheFile
  split_ifs with h
  · constructor
    · exact Or.inr
    · rintro (rfl | g)
      · exact h
      · exact g
  · simp

theorem step_inv (cfg : Nat → ConnCfg) (u : Unit) (hi : Inv cfg u) (c : Nat) (s : FStmt) : Inv cfg (step cfg u c s) := by
  have hsub : ∀ i, i ∈ u.cache → i ∈ (step cfg u c s).cache := by
    intro i h
    cases s with
    | openF m mi cr res =>
      simp only [step]
      split_ifs
      · exact (mem_cacheFile _ _ _).2 (Or.inr h)
      · exact h
    | _ => exact h
  refine ⟨?_, fun i hm => ?_, fun i hs ho => ?_, fun i => ?_⟩
  · cases s with
    | openF m mi cr res =>
      simp only [step]
      split_ifs
      · unfold cacheFile
        split_ifs with hc
        · exact hi.nodup
        · exact List.nodup_cons.2 ⟨hc, hi.nodup⟩
      · exact hi.nodup
    | _ => exact hi.nodup
  · cases s with
    | openF m mi cr res =>
      simp only [step] at hm
      split_ifs at hm with hr
      · rcases (mem_cacheFile _ _ _).1 hm with rfl | g
        · simp only [reaches, Bool.and_eq_true, decide_eq_true_eq] at hr
          exact hr.1.2
        · exact hi.files i g
      · exact hi.files i hm
    | _ => exact hi.files i hm
  · by_cases hic : i = c
    · subst hic
      have e : (step cfg u i s).conns i = (connStep (cfg i) (u.conns i) s).conn := by simp [step]
      rw [e] at ho
      by_cases hb : IsOpen (u.conns i)
      · exact hsub i (hi.opened i hs hb)
      · cases s with
        | openF m mi cr res =>
          have hr := open_opens (cfg i) (u.conns i) m mi cr res hs hb ho
          simp only [step]
          rw [if_pos hr]
          exact (mem_cacheFile _ _ _).2 (Or.inl rfl)
        | _ => exact absurd (other_opens (cfg i) (u.conns i) _ (by simp) ho) hb
    · have e : (step cfg u c s).conns i = u.conns i := by simp [step, hic]
      rw [e] at ho
      exact hsub i (hi.opened i hs ho)
  · by_cases hic : i = c
    · subst hic
      have e : (step cfg u i s).conns i = (connStep (cfg i) (u.conns i) s).conn := by simp [step]
      rw [e]
      exact step_ok _ _ _ (hi.ok i)
    · have e : (step cfg u c s).conns i = u.conns i := by simp [step, hic]
      rw [e]
      exact hi.ok i

theorem run_inv (cfg : Nat → ConnCfg) (evs : List (Nat × FStmt)) (u : Unit) (hi : Inv cfg u) : Inv cfg (run cfg u evs) := by
  induction evs generalizing u with
  | nil => exact hi
  | cons e rest ih => exact ih _ (step_inv cfg u hi e.1 e.2)

theorem start_inv (cfg : Nat → ConnCfg) : Inv cfg start :=
  ⟨List.nodup_nil, fun c h => by simp [start] at h, fun c _ h => by obtain ⟨m, h⟩ := h; simp [start, Conn.init] at h,
    fun c m h => by simp [start, Conn.init] at h⟩

theorem run_conns (cfg : Nat → ConnCfg) (evs : List (Nat × FStmt)) (u : Unit) (c : Nat) :
    (run cfg u evs).conns c = after (cfg c) (u.conns c) (on c evs) := by
  induction evs generalizing u with
  | nil => rfl
  | cons e rest ih =>
    simp only [run]
    rw [ih]
    by_cases h : e.1 = c
    · have e1 : on c (e :: rest) = e.2 :: on c rest := by simp [on, h]
      rw [e1]
      subst h
      simp [step, after]
    · have e1 : on c (e :: rest) = on c rest := by simp [on, h]
      rw [e1]
      have : c ≠ e.1 := fun g => h g.symm
      simp [step, this]

theorem close_open (cfg : ConnCfg) (f : Conn) (hs : cfg.special = 0) (ho : IsOpen f) (hok : Ok f) :
    (connClose cfg f .normal).conn.mode = .closed ∧ (connClose cfg f .normal).touch = (if f.nonexistent then none else some .live) := by
  obtain ⟨m, hm⟩ := ho
  unfold connClose
  rw [if_neg (by simp [hs]), if_neg (by simp [hm])]
  cases hne : f.nonexistent with
  | true => simp
  | false =>
    have := hok m hm hne
    simp [fileClose, this]

theorem mode_open (f : Conn) : (f.mode ≠ .closed ∧ f.mode ≠ .locked) ↔ IsOpen f := by
  unfold IsOpen
  cases f.mode <;> simp

theorem closeAll_spec (cfg : Nat → ConnCfg) : ∀ (cache : List Nat) (conns : Nat → Conn), cache.Nodup → (∀ c, c ∈ cache → (cfg c).special = 0) →
    (∀ c, Ok (conns c)) →
    (∀ c, c ∈ cache ∧ IsOpen (conns c) → ((closeAll cfg cache conns).1 c).mode = .closed) ∧
    (∀ c, ¬ (c ∈ cache ∧ IsOpen (conns c)) → (closeAll cfg cache conns).1 c = conns c) ∧
    ((closeAll cfg cache conns).2.map (·.1)).Nodup ∧
    (∀ c h, (c, h) ∈ (closeAll cfg cache conns).2 ↔ (c ∈ cache ∧ IsOpen (conns c)) ∧ h = (if (conns c).nonexistent then none else some .live))
  | [], conns, _, _, _ => ⟨fun c h => by simp at h, fun _ _ => rfl, List.nodup_nil, fun c h => by simp [closeAll]⟩
  | k :: rest, conns, hn, hf, hok => by
    obtain ⟨hk, hn'⟩ := List.nodup_cons.1 hn
    have hf' : ∀ c, c ∈ rest → (cfg c).special = 0 := fun c h => hf c (List.mem_cons_of_mem _ h)
    unfold closeAll
    by_cases ho : IsOpen (conns k)
    · rw [if_pos ((mode_open _).2 ho)]
      simp only
      obtain ⟨hc, ht⟩ := close_open (cfg k) (conns k) (hf k List.mem_cons_self) ho (hok k)
      have hok' : ∀ c, Ok ((fun i => if i = k then (connClose (cfg k) (conns k) .normal).conn else conns i) c) := by
        intro c
        by_cases h : c = k
        · subst h
          simp only [if_true]
          exact step_ok (cfg c) (conns c) (.close .normal) (hok c)
        · simp only [if_neg h]; exact hok c
      obtain ⟨a1, a2, a3, a4⟩ := closeAll_spec cfg rest _ hn' hf' hok'
      have hself : ∀ c, c ∈ rest → c ≠ k := fun c h g => hk (g ▸ h)
      refine ⟨fun c ⟨hm, hop⟩ => ?_, fun c h => ?_, ?_, fun c h => ?_⟩
      · by_cases h : c = k
        · subst h
          rw [a2 c (fun g => hk g.1)]
          simp only [if_true]
          exact hc
        · refine a1 c ⟨(List.mem_cons.1 hm).resolve_left h, ?_⟩
          simp only [if_neg h]
          exact hop
      · have hck : c ≠ k := fun g => h ⟨g ▸ List.mem_cons_self, g ▸ ho⟩
        rw [a2 c]
        · simp only [if_neg hck]
        · simp only [if_neg hck]
          exact fun g => h ⟨List.mem_cons_of_mem _ g.1, g.2⟩
      · rw [List.map_cons, List.nodup_cons]
        refine ⟨fun hm => ?_, a3⟩
        obtain ⟨⟨c, x⟩, hx, rfl⟩ := List.mem_map.1 hm
        exact hk ((a4 c x).1 hx).1.1
      · rw [List.mem_cons, Prod.mk.injEq]
        constructor
        · rintro (⟨rfl, rfl⟩ | g)
          · exact ⟨⟨List.mem_cons_self, ho⟩, ht⟩
          · obtain ⟨⟨g1, g2⟩, g3⟩ := (a4 c h).1 g
            simp only [if_neg (hself c g1)] at g2 g3
            exact ⟨⟨List.mem_cons_of_mem _ g1, g2⟩, g3⟩
        · rintro ⟨⟨g1, g2⟩, g3⟩
          by_cases hck : c = k
          · subst hck
            exact Or.inl ⟨rfl, by rw [ht]; exact g3⟩
          · refine Or.inr ((a4 c h).2 ⟨⟨(List.mem_cons.1 g1).resolve_left hck, ?_⟩, ?_⟩)
            · simp only [if_neg hck]; exact g2
            · simp only [if_neg hck]; exact g3
    · rw [if_neg (fun h => ho ((mode_open _).1 h))]
      obtain ⟨a1, a2, a3, a4⟩ := closeAll_spec cfg rest conns hn' hf' hok
      have hne : ∀ c, c ∈ k :: rest ∧ IsOpen (conns c) ↔ c ∈ rest ∧ IsOpen (conns c) := by
        intro c
        constructor
        · rintro ⟨h1, h2⟩
          rcases List.mem_cons.1 h1 with rfl | g
          · exact absurd h2 ho
          · exact ⟨g, h2⟩
        · exact fun h => ⟨List.mem_cons_of_mem _ h.1, h.2⟩
      exact ⟨fun c h => a1 c ((hne c).1 h), fun c h => a2 c (fun g => h ((hne c).2 g)), a3, fun c h => by rw [a4, hne]⟩

/-! ### Properties -/

/-- C99: after any statements on any files, STOP RUN closes every file that is open and leaves every other one as it is; it reports each file it closes
once, and no other; the stream it closes is one that is open (none, if the file is an OPTIONAL one that does not exist).  (`after` is the state of the
file from its own statements alone, as in C36; files assigned to the keyboard or the display are left alone.) -/
theorem C99_stop_run (cfg : Nat → ConnCfg) (evs : List (Nat × FStmt)) :
    let r := stopRun cfg (run cfg start evs)
    let f := fun c => after (cfg c) .init (on c evs)
    (∀ c, (cfg c).special = 0 → IsOpen (f c) → (r.1.conns c).mode = .closed) ∧
    (∀ c, ¬ ((cfg c).special = 0 ∧ IsOpen (f c)) → r.1.conns c = f c) ∧
    (r.2.map (·.1)).Nodup ∧
    (∀ c h, (c, h) ∈ r.2 ↔ ((cfg c).special = 0 ∧ IsOpen (f c)) ∧ h = (if (f c).nonexistent then none else some .live)) := by
  have hi := run_inv cfg evs start (start_inv cfg)
  have hc : ∀ c, (run cfg start evs).conns c = after (cfg c) .init (on c evs) := fun c => run_conns cfg evs start c
  obtain ⟨a1, a2, a3, a4⟩ := closeAll_spec cfg _ _ hi.nodup hi.files hi.ok
  have hiff : ∀ c, (c ∈ (run cfg start evs).cache ∧ IsOpen ((run cfg start evs).conns c)) ↔
      ((cfg c).special = 0 ∧ IsOpen (after (cfg c) .init (on c evs))) := by
    intro c
    rw [← hc]
    exact ⟨fun h => ⟨hi.files c h.1, h.2⟩, fun h => ⟨hi.opened c h.1 h.2, h.2⟩⟩
  refine ⟨fun c h1 h2 => a1 c ((hiff c).2 ⟨h1, h2⟩), fun c h => ?_, a3, fun c h => ?_⟩
  · simp only [← hc]
    exact a2 c fun g => h ((hiff c).1 g)
  · simp only [← hc]
    simp only [← hc] at hiff
    rw [← hiff]
    exact a4 c h

/-- C99: afterwards no file is open, so that a second end (an error or a signal during STOP RUN) closes and reports nothing. -/
theorem C99_again (cfg : Nat → ConnCfg) (evs : List (Nat × FStmt)) :
    let r := stopRun cfg (run cfg start evs)
    (∀ c, (cfg c).special = 0 → ¬ IsOpen (r.1.conns c)) ∧ (stopRun cfg r.1).2 = [] ∧ (stopRun cfg r.1).1.conns = r.1.conns := by
  have hi := run_inv cfg evs start (start_inv cfg)
  obtain ⟨a1, a2, _, _⟩ := C99_stop_run cfg evs
  have hno : ∀ c, (cfg c).special = 0 → ¬ IsOpen ((stopRun cfg (run cfg start evs)).1.conns c) := by
    intro c hs ho
    by_cases h : IsOpen (after (cfg c) .init (on c evs))
    · obtain ⟨m, hm⟩ := ho
      rw [a1 c hs h] at hm
      cases hm
    · rw [a2 c fun g => h g.2] at ho
      exact h ho
  refine ⟨hno, ?_⟩
  have : ∀ (l : List Nat) (conns : Nat → Conn), (∀ c, c ∈ l → ¬ IsOpen (conns c)) → closeAll cfg l conns = (conns, []) := by
    intro l
    induction l with
    | nil => intros; rfl
    | cons k rest ih =>
      intro conns h
      unfold closeAll
      rw [if_neg (fun g => h k List.mem_cons_self ((mode_open _).1 g))]
      exact ih conns fun c hc => h c (List.mem_cons_of_mem _ hc)
  have e := this (run cfg start evs).cache (stopRun cfg (run cfg start evs)).1.conns fun c hc => hno c (hi.files c hc)
  constructor
  · show (closeAll cfg (run cfg start evs).cache (stopRun cfg (run cfg start evs)).1.conns).2 = []
    rw [e]
  · show (closeAll cfg (run cfg start evs).cache (stopRun cfg (run cfg start evs)).1.conns).1 = _
    rw [e]

/-! ### Cases that meet the hypotheses -/

/-- File 0 is OPTIONAL, file 3 the display. -/
def exCfg (c : Nat) : ConnCfg := { access := .sequential, optional := c == 0, special := if c = 3 then 2 else 0, rewriteAssumed := false }

/-- File 1 is open, 2 is closed with lock, 0 is open without being there, 4 could not be opened, 5 is closed and open again. -/
example : (stopRun exCfg (run exCfg start
    [(1, .openF .output true false 0), (2, .openF .input false false 0), (0, .openF .input true false 2), (3, .openF .output false false 0),
     (2, .close .lock), (4, .openF .input false false 13), (5, .openF .output true false 0), (5, .close .normal),
     (5, .openF .extend false false 0), (1, .write true 0)])).2 = [(5, some .live), (0, none), (1, some .live)] := by decide +kernel

/-- A file closed WITH NO REWIND is not closed again, although its released stream is still noted (see C36). -/
example : (stopRun exCfg (run exCfg start [(1, .openF .output true false 0), (1, .close .noRewind)])).2 = [] ∧
    ((run exCfg start [(1, .openF .output true false 0), (1, .close .noRewind)]).conns 1).file = .dead := by decide +kernel

end Cob.StopRun
