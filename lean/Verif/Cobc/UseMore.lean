import Verif.Cobc.UseProps
/-
C74: USE procedures of nested programs.
-/
namespace Cob

/-! ### Values in the lists -/

theorem uSetChain_fst (h : UHeap) (i : Nat) (c : Option Nat) : (uSetChain h i c).map (·.1) = h.map (·.1) := by
  unfold uSetChain
  apply List.ext_getElem?
  intro k
  rw [List.getElem?_map, List.getElem?_map, List.getElem?_modify]
  cases h[k]? with
  | none => simp
  | some v => by_cases hk : i = k <;> simp [hk]

theorem uAdd_fst (h : UHeap) (p : Option Nat) (e : UEntry) : (uAdd h p e).1.map (·.1) = h.map (·.1) ++ [e] := by
  unfold uAdd
  cases p with
  | none => simp
  | some i => simp [uSetChain_fst]

theorem addAll_fst : ∀ (es : List UEntry) (h : UHeap) (p : Option Nat), (addAll h p es).1.map (·.1) = h.map (·.1) ++ es := by
  intro es
  induction es with
  | nil => intro h p; simp [addAll]
  | cons e es ih => intro h p; simp only [addAll]; rw [ih, uAdd_fst]; simp

theorem uReverse_fst : ∀ (fuel : Nat) (h : UHeap) (l last : Option Nat), (uReverse fuel h l last).1.map (·.1) = h.map (·.1) := by
  intro fuel
  induction fuel with
  | zero => intro h l last; rfl
  | succ fuel ih =>
    intro h l last
    cases l with
    | none => rfl
    | some i => rw [uReverse, ih, uSetChain_fst]

theorem globalUses_cons (i : Nat) (p : UseProg) (ps : List UseProg) :
    globalUses i (p :: ps) = p.uses.flatMap (stmtGlobals i) ++ globalUses (i + 1) ps := rfl

theorem useBuild_fst : ∀ (ps : List UseProg) (i : Nat) (h : UHeap) (prev : Option Nat),
    (useBuild i h prev ps).1.map (·.1) = h.map (·.1) ++ globalUses i ps := by
  intro ps
  induction ps with
  | nil => intro i h prev; simp [useBuild, globalUses]
  | cons p ps ih =>
    intro i h prev
    rw [useBuild]
    dsimp only
    rw [ih, useProg_eq, globalUses_cons]
    dsimp only
    rw [addAll_fst]
    simp

theorem useReverse_fst : ∀ (sts : List UseSt) (h : UHeap), (useReverse h sts).1.map (·.1) = h.map (·.1) := by
  intro sts
  induction sts with
  | nil => intro h; rfl
  | cons s sts ih => intro h; rw [useReverse]; dsimp only; rw [uReverse_fst, ih]

theorem useAll_fst (ps : List UseProg) : (useAll ps).1.map (·.1) = globalUses 0 ps := by
  unfold useAll
  rw [useReverse_fst, useBuild_fst]
  simp

theorem uCells_mem (h : UHeap) : ∀ (fuel : Nat) (p : Option Nat), ∀ e ∈ uCells h fuel p, e ∈ h.map (·.1) := by
  intro fuel
  induction fuel with
  | zero => intro p e he; simp [uCells] at he
  | succ fuel ih =>
    intro p e he
    cases p with
    | none => simp [uCells] at he
    | some i =>
      rw [uCells] at he
      cases hc : h[i]? with
      | none => simp [hc] at he
      | some c =>
        rw [hc] at he
        dsimp only at he
        rcases List.mem_cons.mp he with r | r
        · subst r; exact List.mem_map_of_mem (List.mem_of_getElem? hc)
        · exact ih _ _ r

theorem locals_none (prog n : Nat) (us : List UseStmt) (h : ∀ u ∈ us, u.glob = false → ¬ u.NamesFile n true) :
    (us.flatMap (stmtLocals prog)).find? (fun e => e.name == n) = none := by
  rw [List.find?_eq_none]
  intro e he
  rw [List.mem_flatMap] at he
  obtain ⟨u, hu, hm⟩ := he
  unfold stmtLocals at hm
  cases ht : u.target with
  | mode m => rw [ht] at hm; simp at hm
  | files l =>
    rw [ht] at hm
    dsimp only at hm
    cases hg : u.glob with
    | true => rw [hg] at hm; simp at hm
    | false =>
      rw [hg] at hm
      simp only [Bool.false_eq_true, if_false, List.mem_map, List.mem_filter] at hm
      obtain ⟨⟨a, b⟩, ⟨hf, hb⟩, rfl⟩ := hm
      dsimp only at hb ⊢
      subst hb
      intro hn
      have : a = n := by simpa using hn
      subst this
      exact h u hu hg ⟨l, ht, hf⟩

/-- What is said by "no USE GLOBAL statement names the GLOBAL file". -/
theorem cells_none (ps : List UseProg) (n : Nat) (fuel : Nat) (g : Option Nat)
    (h : ∀ e ∈ globalUses 0 ps, e.name ≠ n) :
    (uCells (useAll ps).1 fuel g).find? (fun e => e.name == n) = none := by
  rw [List.find?_eq_none]
  intro e he
  have := uCells_mem _ _ _ e he
  rw [useAll_fst] at this
  simpa using h e this

/-- **C74.** A file of its own: the last USE statement of the program that names the file counts, and none when there is no
such statement. -/
theorem C74_own_file (ps : List UseProg) (q n : Nat) (p : UseProg) (hp : ps[q]? = some p)
    (hg : ∀ e ∈ globalUses 0 ps, e.name ≠ n) (hl : ∀ u ∈ p.uses, ¬ u.NamesFile n true) :
    (∃ u, LastSuch p.uses (·.NamesFile n false) u ∧ fileHandler (useAll ps) q (n, false) = some (q, u.sect)) ∨
    ((∀ u ∈ p.uses, ¬ u.NamesFile n false) ∧ fileHandler (useAll ps) q (n, false) = none) := by
  obtain ⟨g, hs⟩ := useAll_get ps q p hp
  have e : fileHandler (useAll ps) q (n, false) = ((p.uses.reverse.flatMap stmtOwn).lookup n).map fun s => (q, s) := by
    unfold fileHandler
    rw [hs]
    dsimp only [plainSt]
    rw [locals_none q n p.uses (fun u hu _ => hl u hu), cells_none ps n _ g hg]
    rfl
  rw [e]
  rcases own_lookup p.uses n with ⟨a, b⟩ | ⟨u, a, b⟩
  · right; exact ⟨b, by rw [a]; rfl⟩
  · left; exact ⟨u, a, by rw [b]; rfl⟩

theorem find_locals (prog n : Nat) : ∀ (us : List UseStmt) (u : UseStmt),
    FirstSuch us (fun u => u.glob = false ∧ u.NamesFile n true) u →
    (us.flatMap (stmtLocals prog)).find? (fun e => e.name == n) = some ⟨n, prog, u.sect⟩ := by
  rintro us u ⟨a, b, rfl, ⟨hg, l, ht, hm⟩, hn⟩
  rw [List.flatMap_append, List.flatMap_cons, List.find?_append, List.find?_append,
    locals_none prog n a (fun y hy h1 h2 => hn y hy ⟨h1, h2⟩)]
  have : (stmtLocals prog u).find? (fun e => e.name == n) = some ⟨n, prog, u.sect⟩ := by
    unfold stmtLocals
    rw [ht]
    dsimp only
    rw [hg]
    simp only [Bool.false_eq_true, if_false]
    clear ht hn
    induction l with
    | nil => simp at hm
    | cons f l ih =>
      obtain ⟨f1, f2⟩ := f
      cases f2 with
      | false =>
        rw [List.filter_cons_of_neg (by simp)]
        refine ih ?_
        simpa using hm
      | true =>
        rw [List.filter_cons_of_pos (by simp), List.map_cons, List.find?_cons]
        by_cases hf : f1 = n
        · subst hf; simp
        · have hb : (f1 == n) = false := by simp [hf]
          simp only [hb]
          refine ih ?_
          rcases List.mem_cons.mp hm with h | h
          · exact absurd (congrArg Prod.fst h).symm hf
          · exact h
  rw [this]
  rfl

/-- **C74.** A GLOBAL file named in USE statements of the program that are not GLOBAL: the first of them counts. -/
theorem C74_local_procedure (ps : List UseProg) (q n : Nat) (p : UseProg) (hp : ps[q]? = some p) (u : UseStmt)
    (hu : FirstSuch p.uses (fun u => u.glob = false ∧ u.NamesFile n true) u) :
    fileHandler (useAll ps) q (n, true) = some (q, u.sect) := by
  obtain ⟨g, hs⟩ := useAll_get ps q p hp
  unfold fileHandler
  rw [hs]
  dsimp only [plainSt]
  rw [find_locals q n p.uses u hu]

/-! ### Open modes -/

/-- **C74.** No procedure for the file, and the program has a USE statement for the open mode: the last one is performed. -/
theorem C74_mode (ps : List UseProg) (cfg : IoAbort) (q m status : Nat) (f : Nat × Bool) (fs : Bool) (p : UseProg) (u : UseStmt)
    (hp : ps[q]? = some p) (hm : 1 ≤ m ∧ m ≤ 4) (hf : fileHandler (useAll ps) q f = none) (hu : LastSuch p.uses (·.ForMode m) u) :
    ioError (useAll ps) cfg q f m fs status = .perform q u.sect := by
  obtain ⟨g, hs⟩ := useAll_get ps q p hp
  unfold ioError
  rw [hf]
  dsimp only
  unfold standardError
  rw [if_pos hm]
  have : modeHandler (useAll ps).2 q m = some (q, u.sect) := by
    unfold modeHandler
    rw [hs]
    dsimp only [plainSt]
    rcases modes_lookup p.uses m with ⟨a, b⟩ | ⟨v, ⟨a, b, h1, h2, h3⟩, hv⟩
    · obtain ⟨x, y, e, h, _⟩ := hu
      exact absurd h (b u (by rw [e]; simp))
    · obtain ⟨x, y, e, h, h4⟩ := hu
      have : u = v := by
        rw [h1] at e
        rcases List.append_eq_append_iff.mp e with ⟨c, c1, c2⟩ | ⟨c, c1, c2⟩
        · cases c with
          | nil => simp at c2; exact c2.1.symm
          | cons z c => simp at c2; exact absurd h (h3 u (by rw [c2.2]; simp))
        · cases c with
          | nil => simp at c2; exact c2.1
          | cons z c => simp at c2; exact absurd h2 (h4 v (by rw [c2.2]; simp))
      subst this
      rw [hv]
  rw [this]

/-- **C74.** No procedure for the file nor for the open mode: with a FILE STATUS clause the program carries on; otherwise it is
stopped as the configuration says. -/
theorem C74_no_procedure (ps : List UseProg) (cfg : IoAbort) (q m status : Nat) (f : Nat × Bool) (fs : Bool)
    (hf : fileHandler (useAll ps) q f = none) (hm : m = 0 ∨ 4 < m ∨ modeHandler (useAll ps).2 q m = none) :
    ioError (useAll ps) cfg q f m fs status = .stopRun ↔
      fs = false ∧ (cfg = .any ∨ (cfg = .fatal ∧ (status / 10 = 3 ∨ status / 10 = 4 ∨ status / 10 = 9))) := by
  unfold ioError
  rw [hf]
  dsimp only
  unfold standardError
  have e : (if 1 ≤ m ∧ m ≤ 4 then modeHandler (useAll ps).2 q m else none) = none := by
    split
    · rcases hm with h | h | h
      · omega
      · omega
      · exact h
    · rfl
  rw [e]
  dsimp only
  cases fs with
  | true => simp
  | false =>
    cases cfg with
    | any => simp
    | never => simp
    | fatal =>
      simp only [Bool.false_eq_true, if_false, true_and]
      by_cases h : status / 10 = 3 ∨ status / 10 = 4 ∨ status / 10 = 9
      · rw [if_pos h]; simpa using h
      · rw [if_neg h]
        simp
        omega

theorem outerMode_take (sts : List UseSt) (m L q : Nat) (st : UseSt) (h : sts[q]? = some st) :
    outerMode m L (sts.take (q + 1)).reverse q =
      (if L ≤ st.level then outerMode m L (sts.take q).reverse (q - 1)
       else match st.modes.lookup m with
        | some (s, true) => some (q, s)
        | _ => if st.level = 0 then none else outerMode m L (sts.take q).reverse (q - 1)) := by
  have : (sts.take (q + 1)).reverse = st :: (sts.take q).reverse := by
    rw [List.take_add_one, h]
    simp
  rw [this]
  rfl

theorem outerMode_step (ps : List UseProg) (m L q : Nat) (p : UseProg) (h : ps[q]? = some p) :
    outerMode m L ((useAll ps).2.take (q + 1)).reverse (q + 1 - 1) =
      (if L ≤ p.level then outerMode m L ((useAll ps).2.take q).reverse (q - 1)
       else match (p.uses.reverse.flatMap stmtModes).lookup m with
        | some (s, true) => some (q, s)
        | _ => if p.level = 0 then none else outerMode m L ((useAll ps).2.take q).reverse (q - 1)) := by
  obtain ⟨g, hs⟩ := useAll_get ps q p h
  exact outerMode_take _ m L q _ hs

/-- The handler of a program for a mode. -/
theorem modes_glob (p : UseProg) (m s : Nat) : (p.uses.reverse.flatMap stmtModes).lookup m = some (s, true) ↔ GlobalFor p m s := by
  constructor
  · intro h
    rcases modes_lookup p.uses m with ⟨a, _⟩ | ⟨u, hu, e⟩
    · rw [a] at h; cases h
    · rw [e] at h
      simp only [Option.some.injEq, Prod.mk.injEq] at h
      exact ⟨u, hu, h.2, h.1⟩
  · rintro ⟨u, hu, h1, h2⟩
    rcases modes_lookup p.uses m with ⟨_, b⟩ | ⟨v, ⟨a, b, h3, h4, h5⟩, e⟩
    · obtain ⟨x, y, e, h, _⟩ := hu
      exact absurd h (b u (by rw [e]; simp))
    · obtain ⟨x, y, e', h, h6⟩ := hu
      have : u = v := by
        rw [h3] at e'
        rcases List.append_eq_append_iff.mp e' with ⟨c, c1, c2⟩ | ⟨c, c1, c2⟩
        · cases c with
          | nil => simp at c2; exact c2.1.symm
          | cons z c => simp at c2; exact absurd h (h5 u (by rw [c2.2]; simp))
        · cases c with
          | nil => simp at c2; exact c2.1
          | cons z c => simp at c2; exact absurd h4 (h6 v (by rw [c2.2]; simp))
      subst this
      rw [e, h1, h2]

/-- The search among the programs in front. -/
theorem outerMode_none (ps : List UseProg) (m L : Nat) : ∀ (q : Nat), q ≤ ps.length →
    (∀ (k : Nat) (r : UseProg), k < q → ps[k]? = some r → r.level < L → ∀ s, ¬ GlobalFor r m s) →
    outerMode m L ((useAll ps).2.take q).reverse (q - 1) = none := by
  intro q
  induction q with
  | zero => intro _ _; simp [outerMode]
  | succ q ih =>
    intro hq h
    have hp : ps[q]? = some ps[q] := List.getElem?_eq_getElem (by omega)
    rw [outerMode_step ps m L q _ hp]
    have ih' := ih (by omega) (fun k r hk hr => h k r (by omega) hr)
    by_cases hl : L ≤ ps[q].level
    · rw [if_pos hl, ih']
    · rw [if_neg hl]
      split
      · rename_i s he
        exact absurd ((modes_glob _ m s).1 he) (h q _ (by omega) hp (by omega) s)
      · split
        · rfl
        · exact ih'

theorem outerMode_some (ps : List UseProg) (m L i s : Nat) (p : UseProg) (hi : ps[i]? = some p) (hL : p.level < L)
    (hg : GlobalFor p m s) : ∀ (q : Nat), i < q → q ≤ ps.length →
    (∀ (k : Nat) (r : UseProg), i < k → k < q → ps[k]? = some r → 0 < r.level ∧ (r.level < L → ∀ s, ¬ GlobalFor r m s)) →
    outerMode m L ((useAll ps).2.take q).reverse (q - 1) = some (i, s) := by
  intro q
  induction q with
  | zero => intro h; omega
  | succ q ih =>
    intro hiq hq h
    by_cases hqi : q = i
    · subst hqi
      rw [outerMode_step ps m L q _ hi]
      rw [if_neg (by omega), (modes_glob p m s).2 hg]
    · have hp : ps[q]? = some ps[q] := List.getElem?_eq_getElem (by omega)
      rw [outerMode_step ps m L q _ hp]
      have ih' := ih (by omega) (by omega) (fun k r h1 h2 hr => h k r h1 (by omega) hr)
      obtain ⟨h0, h1⟩ := h q _ (by omega) (by omega) hp
      by_cases hl : L ≤ ps[q].level
      · rw [if_pos hl, ih']
      · rw [if_neg hl]
        split
        · rename_i s' he
          exact absurd ((modes_glob _ m s').1 he) (h1 (by omega) s')
        · rw [if_neg (by omega)]
          exact ih'

theorem modeHandler_outer (ps : List UseProg) (q m : Nat) (p : UseProg) (hp : ps[q]? = some p)
    (hn : ∀ u ∈ p.uses, ¬ u.ForMode m) (hl : 0 < p.level) :
    modeHandler (useAll ps).2 q m = outerMode m p.level ((useAll ps).2.take q).reverse (q - 1) := by
  obtain ⟨g, hs⟩ := useAll_get ps q p hp
  unfold modeHandler
  rw [hs]
  dsimp only [plainSt]
  rcases modes_lookup p.uses m with ⟨a, _⟩ | ⟨u, ⟨a, b, h1, h2, _⟩, _⟩
  · rw [a]
    dsimp only
    rw [if_neg (by omega)]
  · exact absurd h2 (hn u (by rw [h1]; simp))

/-- **C74.** A nested program without a USE statement for the open mode takes the USE GLOBAL procedure of the innermost program
around it that has one, provided no program in front of it that is less deep and not around it has one. -/
theorem C74_mode_global (ps : List UseProg) (q m i s : Nat) (p pi : UseProg) (hp : ps[q]? = some p) (hi : ps[i]? = some pi)
    (hn : ∀ u ∈ p.uses, ¬ u.ForMode m) (hc : Contains ps i q) (hg : GlobalFor pi m s)
    (hin : ∀ (j : Nat) (r : UseProg), i < j → ps[j]? = some r → Contains ps j q → ∀ s, ¬ GlobalFor r m s)
    (hout : ∀ (j : Nat) (r : UseProg), j < q → ps[j]? = some r → r.level < p.level → ¬ Contains ps j q → ∀ s, ¬ GlobalFor r m s) :
    modeHandler (useAll ps).2 q m = some (i, s) := by
  obtain ⟨pi', hi', hiq, hql, hd⟩ := hc
  rw [hi] at hi'
  cases hi'
  have hlev : pi.level < p.level := hd q p hiq (Nat.le_refl _) hp
  rw [modeHandler_outer ps q m p hp hn (by omega)]
  refine outerMode_some ps m p.level i s pi hi hlev hg q hiq (by omega) ?_
  intro k r hk hkq hr
  refine ⟨by have := hd k r hk (by omega) hr; omega, fun hrl s' hgs => ?_⟩
  by_cases hck : Contains ps k q
  · exact hin k r hk hr hck s' hgs
  · exact hout k r hkq hr hrl hck s' hgs

/-- **C74.** No program in front of it that is less deep has a USE GLOBAL procedure for the mode: there is none for a program
without a USE statement for the mode. -/
theorem C74_mode_none (ps : List UseProg) (q m : Nat) (p : UseProg) (hp : ps[q]? = some p)
    (hn : ∀ u ∈ p.uses, ¬ u.ForMode m)
    (ho : ∀ (j : Nat) (r : UseProg), j < q → ps[j]? = some r → r.level < p.level → ∀ s, ¬ GlobalFor r m s) :
    modeHandler (useAll ps).2 q m = none := by
  by_cases hl : 0 < p.level
  · rw [modeHandler_outer ps q m p hp hn hl]
    have hq : q < ps.length := by
      rcases Nat.lt_or_ge q ps.length with h | h
      · exact h
      · rw [List.getElem?_eq_none h] at hp; cases hp
    exact outerMode_none ps m p.level q (by omega) ho
  · obtain ⟨g, hs⟩ := useAll_get ps q p hp
    unfold modeHandler
    rw [hs]
    dsimp only [plainSt]
    rcases modes_lookup p.uses m with ⟨a, _⟩ | ⟨u, ⟨a, b, h1, h2, _⟩, _⟩
    · rw [a]
      dsimp only
      rw [if_pos (by omega)]
    · exact absurd h2 (hn u (by rw [h1]; simp))

/-- Program 0 has USE GLOBAL for mode 1, program 1 within it USE GLOBAL for mode 2, program 2 within that none. -/
def useSample : List UseProg :=
  [⟨0, [⟨10, true, .mode 1⟩, ⟨11, false, .files [(7, false)]⟩]⟩, ⟨1, [⟨20, true, .mode 2⟩]⟩, ⟨2, []⟩]

example : modeHandler (useAll useSample).2 2 1 = some (0, 10) ∧ modeHandler (useAll useSample).2 2 2 = some (1, 20) ∧
    modeHandler (useAll useSample).2 2 3 = none ∧ fileHandler (useAll useSample) 0 (7, false) = some (0, 11) := by decide +kernel

example : Contains useSample 0 2 ∧ GlobalFor ⟨0, [⟨10, true, .mode 1⟩, ⟨11, false, .files [(7, false)]⟩]⟩ 1 10 := by
  refine ⟨⟨_, rfl, by decide, by decide, ?_⟩, ?_⟩
  · intro k r h1 h2 hr
    match k, h1, h2, hr with
    | 1, _, _, hr => simp [useSample] at hr; subst hr; decide
    | 2, _, _, hr => simp [useSample] at hr; subst hr; decide
  · refine ⟨⟨10, true, .mode 1⟩, ⟨[], _, rfl, rfl, ?_⟩, rfl, rfl⟩
    intro y hy
    simp at hy
    subst hy
    simp [UseStmt.ForMode]

/-- **C74, finding.** A program takes the USE GLOBAL procedure of a program that does not contain it: C (level 1) and D (in C)
follow A (level 1), whose procedure D takes, though neither C nor the outermost program has one. -/
theorem C74_finding_mode : ∃ ps : List UseProg, ¬ Contains ps 1 4 ∧ modeHandler (useAll ps).2 4 1 = some (1, 10) ∧
    modeHandler (useAll ps).2 3 1 = none := by
  refine ⟨[⟨0, []⟩, ⟨1, [⟨10, true, .mode 1⟩]⟩, ⟨2, []⟩, ⟨1, []⟩, ⟨2, []⟩], ?_, by decide +kernel, by decide +kernel⟩
  rintro ⟨p, h1, _, _, h2⟩
  simp at h1
  subst h1
  have := h2 3 ⟨1, []⟩ (by decide) (by decide) rfl
  simp at this

end Cob
