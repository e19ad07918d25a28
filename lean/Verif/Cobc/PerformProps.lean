import Verif.Cobc.PerformSim
import Mathlib.Logic.Function.Iterate
/-
C55: PERFORM, GO TO and the paragraphs of a program.
-/
namespace Cob

variable {σ : Type}

/-! ### The result does not depend on the bound -/

/-- `o'` is the same outcome, or `o` was cut off. -/
def POut.Le (o o' : POut σ) : Prop := o = .more ∨ o = o'

theorem POut.Le.refl (o : POut σ) : o.Le o := Or.inr rfl

theorem le_andThen {o o' : POut σ} {f f' : σ → POut σ} (h : o.Le o') (hf : ∀ s, (f s).Le (f' s)) :
    (o.andThen f).Le (o'.andThen f') := by
  rcases h with rfl | rfl
  · exact Or.inl rfl
  · cases o with
    | normal s => exact hf s
    | _ => exact .refl _

theorem le_pass {o o' : POut σ} (h : o.Le o') : o.pass.Le o'.pass := by
  rcases h with rfl | rfl
  · exact Or.inl rfl
  · exact .refl _

theorem le_caught {o o' : POut σ} (h : o.Le o') : o.caught.Le o'.caught := by
  rcases h with rfl | rfl
  · exact Or.inl rfl
  · exact .refl _

theorem le_passes {body body' : σ → POut σ} (h : ∀ s, (body s).Le (body' s)) :
    ∀ (n : Nat) (s : σ), (passes body n s).Le (passes body' n s)
  | 0, _ => .refl _
  | n + 1, s => le_andThen (h s) (le_passes h n)

theorem le_endless {body body' : σ → POut σ} (h : ∀ s, (body s).Le (body' s)) :
    ∀ (n n' : Nat) (s : σ), n ≤ n' → (endless body n s).Le (endless body' n' s)
  | 0, _, _, _ => Or.inl rfl
  | n + 1, 0, _, hn => by omega
  | n + 1, n' + 1, s, hn => le_andThen (h s) (fun s => le_endless h n n' s (by omega))

theorem le_until {t : Bool} {pre : σ → σ} {v : Vary σ} {inner inner' : σ → POut σ}
    (h : ∀ s, (inner s).Le (inner' s)) : ∀ (n n' : Nat) (s : σ), n ≤ n' →
    (untilLoop t pre v inner n s).Le (untilLoop t pre v inner' n' s)
  | 0, _, _, _ => Or.inl rfl
  | n + 1, 0, _, hn => by omega
  | n + 1, n' + 1, s, hn => by
    simp only [untilLoop]
    split
    · exact .refl _
    · refine le_andThen (h _) fun s' => ?_
      split
      · exact .refl _
      · exact le_until h n n' _ (by omega)

theorem le_varying {t : Bool} {n n' : Nat} (hn : n ≤ n') {body body' : σ → POut σ}
    (h : ∀ s, (body s).Le (body' s)) : ∀ (vs : List (Vary σ)) (s : σ),
    (varying t n body vs s).Le (varying t n' body' vs s)
  | [], s => h s
  | v :: vs, s => le_until (le_varying hn h vs) n n' s hn

theorem le_how {n n' : Nat} (hn : n ≤ n') {body body' : List Nat → σ → POut σ}
    (h : ∀ a s, (body a s).Le (body' a s)) (w : How σ) (active : List Nat) (s : σ) :
    (w.exec n body active s).Le (w.exec n' body' active s) := by
  cases w with
  | once => exact le_caught (le_pass (h _ _))
  | times k c =>
    simp only [How.exec]
    split
    · exact .refl _
    · exact le_caught (le_passes (fun s => le_pass (h _ s)) _ _)
  | vary t v vs => exact le_caught (le_varying hn (fun s => le_pass (h _ s)) _ _)
  | forever => exact le_caught (le_endless (fun s => le_pass (h _ s)) _ _ _ (by omega))

theorem le_exec {n n' : Nat} (hn : n ≤ n') {run run' : List Nat → Nat → Nat → Nat → σ → POut σ}
    (h : ∀ a d e b s, (run a d e b s).Le (run' a d e b s)) : ∀ (st : PStmt σ) (active : List Nat)
    (depth : Nat) (s : σ), (st.exec run n active depth s).Le (st.exec run' n' active depth s)
  | .skip, _, _, _ => .refl _
  | .act _, _, _, _ => .refl _
  | .seq a b, active, depth, s =>
    le_andThen (le_exec hn h a active depth s) (fun s => le_exec hn h b active depth s)
  | .ite c a b, active, depth, s => by
    simp only [PStmt.exec]
    split
    · exact le_exec hn h a active depth s
    · exact le_exec hn h b active depth s
  | .goto _, _, _, _ => .refl _
  | .gotoDep f ls, _, _, s => by simp only [PStmt.exec]; exact .refl _
  | .perform b e w, active, depth, s => by
    refine le_how hn (fun a s => ?_) w active s
    split
    · exact h _ _ _ _ _
    · exact .refl _
  | .inline w body, active, depth, s => le_how hn (fun a s => le_exec hn h body a depth s) w active s
  | .exitPerform, _, _, _ => .refl _
  | .cycle, _, _, _ => .refl _
  | .stop, _, _, _ => .refl _

theorem le_runFrom (es : List (PElem σ)) : ∀ (n n' : Nat) (active : List Nat) (depth : Nat)
    (e : Option Nat) (pos : Nat) (s : σ), n ≤ n' →
    (runFrom es n active depth e pos s).Le (runFrom es n' active depth e pos s)
  | 0, _, _, _, _, _, _, _ => Or.inl rfl
  | n + 1, 0, _, _, _, _, _, hn => by omega
  | n + 1, n' + 1, active, depth, e, pos, s, hn => by
    have hn' : n ≤ n' := by omega
    rw [runFrom, runFrom]
    cases es[pos]? with
    | none => exact .refl _
    | some el =>
      cases el with
      | label l => exact le_runFrom es n n' _ _ _ _ _ hn'
      | finish l =>
        simp only
        split
        · exact .refl _
        · exact le_runFrom es n n' _ _ _ _ _ hn'
      | code st =>
        simp only
        have hx := le_exec hn' (run := fun active depth e b s =>
            match posOf es b with
            | none => .bad
            | some p => runFrom es n active depth (some e) p s)
          (run' := fun active depth e b s =>
            match posOf es b with
            | none => .bad
            | some p => runFrom es n' active depth (some e) p s)
          (by
            intro a d e b s
            cases posOf es b with
            | none => exact .refl _
            | some p => exact le_runFrom es n n' _ _ _ _ _ hn') st active depth s
        generalize PStmt.exec _ n st active depth s = o at hx
        generalize PStmt.exec _ n' st active depth s = o' at hx
        rcases hx with rfl | rfl
        · exact Or.inl rfl
        · cases o with
          | normal s' => exact le_runFrom es n n' _ _ _ _ _ hn'
          | goto l s' =>
            simp only
            cases posOf es l with
            | none => exact .refl _
            | some p => exact le_runFrom es n n' _ _ _ _ _ hn'
          | _ => exact .refl _

/-- The bound on the depth only cuts executions off: an outcome other than `more` is the same for
every greater bound. -/
theorem C55_bound (es : List (PElem σ)) (n n' : Nat) (active : List Nat) (depth : Nat) (e : Option Nat)
    (pos : Nat) (s : σ) (hn : n ≤ n') (h : runFrom es n active depth e pos s ≠ .more) :
    runFrom es n' active depth e pos s = runFrom es n active depth e pos s := by
  rcases le_runFrom es n n' active depth e pos s hn with g | g
  · exact absurd g h
  · exact g.symm

/-! ### The generated code -/

theorem ended_stuck {code : List (PIns σ)} {m : PMach σ} (h : m.Ended code) : m.step code = none := by
  unfold PMach.step
  rcases h with h | h <;> simp [h]

theorem ended_steps {code : List (PIns σ)} {m : PMach σ} (h : m.Ended code) (k : Nat) (m' : PMach σ)
    (hk : m.steps code k = some m') : k = 0 := by
  cases k with
  | zero => rfl
  | succ k => simp [PMach.steps, ended_stuck h] at hk

/-- The generated code, with its frames, counters and jumps, does what the procedure division says:
for every program, starting with any data and counters,
* when the program ends with some data, the code ends with that data;
* when the program runs forever, the code does;
* and when the code ends, the program ends with the same data - provided the program does nothing
  undefined (`bad`). -/
theorem C55_compiled (es : List (PElem σ)) (c : Nat → Int) (s : σ) :
    (∀ n s', runProgram es n s = .stop s' →
      ∃ k m, PMach.steps (progCode es) k ⟨0, [], c, s⟩ = some m ∧ m.Ended (progCode es) ∧ m.st = s') ∧
    ((∀ n, runProgram es n s = .more) → ∀ k, ∃ m, PMach.steps (progCode es) k ⟨0, [], c, s⟩ = some m) ∧
    ((∀ n, runProgram es n s ≠ .bad) → ∀ k m, PMach.steps (progCode es) k ⟨0, [], c, s⟩ = some m →
      m.Ended (progCode es) → ∃ n, runProgram es n s = .stop m.st) := by
  have hsim : ∀ n, RunSim (progCode es) 0 0 [] [] n c s (runProgram es n s) := by
    intro n
    have := runFrom_sim es n [] none 0 s c 0 [] rfl
    simpa [addrAt, runProgram] using this
  have hnn : ∀ n s', runProgram es n s ≠ .normal s' := by
    have key : ∀ n active pos s s', runFrom es n active 0 none pos s ≠ .normal s' := by
      intro n
      induction n with
      | zero => intro _ _ _ _ h; simp [runFrom] at h
      | succ n ih =>
        intro active pos s s' h
        rw [runFrom] at h
        cases hp : es[pos]? with
        | none => rw [hp] at h; simp at h
        | some el =>
          rw [hp] at h
          cases el with
          | label l => exact ih _ _ _ _ h
          | finish l => simp at h; exact ih _ _ _ _ h
          | code st =>
            simp only at h
            generalize PStmt.exec _ n st active 0 s = o at h
            cases o with
            | normal s1 => exact ih _ _ _ _ h
            | goto l s1 =>
              simp only at h
              cases hl : posOf es l with
              | none => rw [hl] at h; simp at h
              | some p => rw [hl] at h; exact ih _ _ _ _ h
            | _ => simp at h
    exact fun n s' => key n [] 0 s s'
  refine ⟨?_, ?_, ?_⟩
  · intro n s' h
    have := hsim n
    rw [h] at this
    exact this
  · intro h k
    have := hsim k
    rw [h k] at this
    obtain ⟨k', m, hk, hm⟩ := this
    -- a prefix of the execution
    have : ∀ (a b : Nat) (m0 m : PMach σ), m0.steps (progCode es) (a + b) = some m →
        ∃ m', m0.steps (progCode es) a = some m' := by
      intro a
      induction a with
      | zero => intro b m0 m _; exact ⟨m0, rfl⟩
      | succ a ih =>
        intro b m0 m h
        rw [show a + 1 + b = (a + b) + 1 by omega, PMach.steps] at h
        rw [PMach.steps]
        cases hs : m0.step (progCode es) with
        | none => rw [hs] at h; simp at h
        | some m1 =>
          rw [hs] at h
          simp only [Option.bind_some] at h ⊢
          exact ih b m1 m h
    exact this k (k' - k) _ m (by rw [show k + (k' - k) = k' by omega]; exact hm)
  · intro hb k m hm he
    have hs := hsim (k + 1)
    cases ho : runProgram es (k + 1) s with
    | stop s' =>
      rw [ho] at hs
      obtain ⟨k', m', h1, h2, h3⟩ := hs
      have : m' = m := by
        rcases Nat.le_total k k' with hle | hle
        · have := steps_add _ k (k' - k) _ _ hm
          rw [show k + (k' - k) = k' by omega, h1] at this
          have h0 := ended_steps he _ _ this.symm
          rw [h0] at this
          simpa [PMach.steps] using this
        · have := steps_add _ k' (k - k') _ _ h1
          rw [show k' + (k - k') = k by omega, hm] at this
          have h0 := ended_steps h2 _ _ this.symm
          rw [h0] at this
          simpa [PMach.steps] using this.symm
      exact ⟨k + 1, by rw [ho, ← h3, this]⟩
    | more =>
      rw [ho] at hs
      obtain ⟨k', m', h1, h2⟩ := hs
      have := steps_add _ k (k' - k) _ _ hm
      rw [show k + (k' - k) = k' by omega, h2] at this
      have h0 := ended_steps he _ _ this.symm
      omega
    | normal s' => exact absurd ho (hnn _ _)
    | bad => exact absurd ho (hb _)
    | goto l s' => rw [ho] at hs; exact hs.elim
    | brk s' => rw [ho] at hs; exact hs.elim
    | cyc s' => rw [ho] at hs; exact hs.elim

/-! ### What PERFORM means -/

/-- The range `b` THRU `e`, as a statement sees it. -/
def performRange (es : List (PElem σ)) (n : Nat) (active : List Nat) (depth e b : Nat) (s : σ) : POut σ :=
  match posOf es b with
  | none => .bad
  | some p => runFrom es n active depth (some e) p s

/-- The statement, executed in the program `es` with data `s`, goes on with the next one, with data
`s'`. -/
def Does (es : List (PElem σ)) (active : List Nat) (depth : Nat) (st : PStmt σ) (s s' : σ) : Prop :=
  ∃ n, st.exec (performRange es n) n active depth s = .normal s'

/-- The range `b` THRU `e` of the program comes to the end of `e`, with data `s'`. -/
def Returns (es : List (PElem σ)) (active : List Nat) (depth b e : Nat) (s s' : σ) : Prop :=
  ∃ n, performRange es n active depth e b s = .normal s'

theorem le_performRange (es : List (PElem σ)) {n n' : Nat} (hn : n ≤ n') (active : List Nat)
    (depth e b : Nat) (s : σ) :
    (performRange es n active depth e b s).Le (performRange es n' active depth e b s) := by
  unfold performRange
  cases posOf es b with
  | none => exact .refl _
  | some p => exact le_runFrom es n n' _ _ _ _ _ hn

theorem le_normal {o o' : POut σ} {s : σ} (h : o.Le o') (ho : o = .normal s) : o' = .normal s := by
  rcases h with g | g
  · rw [ho] at g; cases g
  · rw [← g, ho]

theorem Does.later {es : List (PElem σ)} {active : List Nat} {depth : Nat} {st : PStmt σ} {s s' : σ}
    (h : Does es active depth st s s') :
    ∃ N, ∀ n, N ≤ n → st.exec (performRange es n) n active depth s = .normal s' := by
  obtain ⟨N, h⟩ := h
  exact ⟨N, fun n hn => le_normal (le_exec hn (fun a d e b s => le_performRange es hn a d e b s) st active depth s) h⟩

theorem Returns.later {es : List (PElem σ)} {active : List Nat} {depth b e : Nat} {s s' : σ}
    (h : Returns es active depth b e s s') :
    ∃ N, ∀ n, N ≤ n → performRange es n active depth e b s = .normal s' := by
  obtain ⟨N, h⟩ := h
  exact ⟨N, fun n hn => le_normal (le_performRange es hn _ _ _ _ _) h⟩

theorem runFrom_code {es : List (PElem σ)} {pos : Nat} {st : PStmt σ} (h : es[pos]? = some (.code st))
    (n : Nat) (active : List Nat) (depth : Nat) (e : Option Nat) (s s1 : σ)
    (hx : st.exec (performRange es n) n active depth s = .normal s1) :
    runFrom es (n + 1) active depth e pos s = runFrom es n active depth e (pos + 1) s1 := by
  have : runFrom es (n + 1) active depth e pos s =
      match st.exec (performRange es n) n active depth s with
      | .normal s' => runFrom es n active depth e (pos + 1) s'
      | .goto l s' =>
        match posOf es l with
        | none => .bad
        | some p => runFrom es n active depth e p s'
      | .stop s' => .stop s'
      | .more => .more
      | _ => .bad := by rw [runFrom, h]; rfl
  rw [this, hx]

/-! #### paragraphs in their order -/

/-- The elements are executed one after the other and none of them is the end of `e`. -/
def Straight (es : List (PElem σ)) (active : List Nat) (depth e : Nat) : List (PElem σ) → σ → σ → Prop
  | [], s, s' => s = s'
  | .label _ :: xs, s, s' => Straight es active depth e xs s s'
  | .finish l :: xs, s, s' => l ≠ e ∧ Straight es active depth e xs s s'
  | .code st :: xs, s, s' => ∃ s1, Does es active depth st s s1 ∧ Straight es active depth e xs s1 s'

theorem straight_run (es : List (PElem σ)) (active : List Nat) (depth e : Nat) (post : List (PElem σ)) :
    ∀ (xs pre : List (PElem σ)) (s s' : σ), es = pre ++ xs ++ .finish e :: post →
      Straight es active depth e xs s s' →
      ∃ n, runFrom es n active depth (some e) pre.length s = .normal s'
  | [], pre, s, s', hes, h => by
    refine ⟨1, ?_⟩
    have : es[pre.length]? = some (.finish e) := by rw [hes]; simp
    rw [runFrom, this]
    simp only [if_true]
    rw [show s = s' from h]
  | x :: xs, pre, s, s', hes, h => by
    have hx : es[pre.length]? = some x := by rw [hes]; simp
    have hes' : es = (pre ++ [x]) ++ xs ++ .finish e :: post := by rw [hes]; simp
    have hl : (pre ++ [x]).length = pre.length + 1 := by simp
    cases x with
    | label l =>
      obtain ⟨n, hn⟩ := straight_run es active depth e post xs _ s s' hes' h
      refine ⟨n + 1, ?_⟩
      rw [hl] at hn
      rw [runFrom, hx]
      exact hn
    | finish l =>
      obtain ⟨n, hn⟩ := straight_run es active depth e post xs _ s s' hes' h.2
      refine ⟨n + 1, ?_⟩
      rw [hl] at hn
      rw [runFrom, hx]
      simp only
      rw [if_neg (fun g => h.1 (Option.some.inj g).symm)]
      exact hn
    | code st =>
      obtain ⟨s1, h1, h2⟩ := h
      obtain ⟨n, hn⟩ := straight_run es active depth e post xs _ s1 s' hes' h2
      rw [hl] at hn
      obtain ⟨N, hN⟩ := h1.later
      refine ⟨max n N + 1, ?_⟩
      rw [runFrom_code hx _ _ _ _ _ _ (hN (max n N) (by omega))]
      exact le_normal (le_runFrom es n _ _ _ _ _ _ (by omega)) hn

/-- One after the other, the bodies of the paragraphs lead from `s` to `s'`. -/
def OneByOne (es : List (PElem σ)) (active : List Nat) (depth : Nat) : List (PStmt σ) → σ → σ → Prop
  | [], s, s' => s = s'
  | st :: sts, s, s' => ∃ s1, Does es active depth st s s1 ∧ OneByOne es active depth sts s1 s'

theorem straight_paras (es : List (PElem σ)) (active : List Nat) (depth e : Nat) :
    ∀ (ps : List (Para σ)) (xs : List (PElem σ)) (s s1 s' : σ), (∀ p ∈ ps, p.id ≠ e) →
      OneByOne es active depth (ps.map (·.body)) s s1 → Straight es active depth e xs s1 s' →
      Straight es active depth e (ps.flatMap Para.elems ++ xs) s s'
  | [], xs, s, s1, s', _, h1, h2 => by
    simp only [List.map_nil, OneByOne] at h1
    subst h1; simpa using h2
  | p :: ps, xs, s, s1, s', hp, ⟨s2, h1, h2⟩, h3 => by
    have := straight_paras es active depth e ps xs s2 s1 s' (fun q hq => hp q (List.mem_cons_of_mem _ hq)) h2 h3
    simp only [List.flatMap_cons, Para.elems, List.cons_append, List.nil_append, Straight]
    exact ⟨s2, h1, hp p List.mem_cons_self, this⟩

/-- PERFORM of a range of paragraphs: when each of the paragraphs `ps ++ [q]` goes on with the next
one (it may itself perform others), executing from the first to the end of the last one executes
their bodies one after the other, each once, and comes back. -/
theorem C55_paragraphs (es pre post : List (PElem σ)) (ps : List (Para σ)) (q : Para σ) (b : Nat)
    (active : List Nat) (depth : Nat) (s s' : σ)
    (hes : es = pre ++ (ps ++ [q]).flatMap Para.elems ++ post)
    (hb : ((ps ++ [q]).map (·.id)).head? = some b) (hpos : posOf es b = some pre.length)
    (hne : ∀ p ∈ ps, p.id ≠ q.id)
    (h : OneByOne es active depth ((ps ++ [q]).map (·.body)) s s') :
    Returns es active depth b q.id s s' := by
  have hsplit : ∃ s1, OneByOne es active depth (ps.map (·.body)) s s1 ∧ Does es active depth q.body s1 s' := by
    have gen : ∀ (l : List (PStmt σ)) (x : PStmt σ) (s : σ), OneByOne es active depth (l ++ [x]) s s' →
        ∃ s1, OneByOne es active depth l s s1 ∧ Does es active depth x s1 s' := by
      intro l
      induction l with
      | nil =>
        intro x s h
        obtain ⟨s1, h1, h2⟩ := h
        have h2 : s1 = s' := h2
        subst h2
        exact ⟨s, rfl, h1⟩
      | cons y l ih =>
        intro x s h
        obtain ⟨s1, h1, h2⟩ := h
        obtain ⟨s2, h3, h4⟩ := ih x s1 h2
        exact ⟨s2, ⟨s1, h1, h3⟩, h4⟩
    rw [List.map_append] at h
    exact gen _ _ _ h
  obtain ⟨s1, h1, h2⟩ := hsplit
  have hlast : Straight es active depth q.id [.label q.id, .code q.body, .label q.exitId] s1 s' := by
    simp only [Straight]
    exact ⟨s', h2, rfl⟩
  obtain ⟨n, hn⟩ := straight_run es active depth q.id post
    (ps.flatMap Para.elems ++ [.label q.id, .code q.body, .label q.exitId]) pre s s'
    (by rw [hes]; simp [Para.elems])
    (straight_paras es active depth q.id ps _ s s1 s' hne h1 hlast)
  exact ⟨n, by unfold performRange; rw [hpos]; exact hn⟩

/-- PERFORM of a section: the statements at its start, then its paragraphs, one after the other. -/
theorem C55_section (es pre post : List (PElem σ)) (sec : Sect σ) (active : List Nat) (depth : Nat)
    (s s' : σ) (hes : es = pre ++ sec.elems ++ post) (hpos : posOf es sec.id = some pre.length)
    (hne : ∀ p ∈ sec.paras, p.id ≠ sec.id)
    (h : OneByOne es active depth (sec.body :: sec.paras.map (·.body)) s s') :
    Returns es active depth sec.id sec.id s s' := by
  obtain ⟨s1, h1, h2⟩ := h
  have hlast : Straight es active depth sec.id [.label sec.exitId] s' s' := by
    simp only [Straight]
  obtain ⟨n, hn⟩ := straight_run es active depth sec.id post
    ([.label sec.id, .code sec.body] ++ (sec.paras.flatMap Para.elems ++ [.label sec.exitId])) pre s s'
    (by rw [hes]; simp [Sect.elems])
    (by
      simp only [List.cons_append, List.nil_append, Straight]
      exact ⟨s1, h1, straight_paras es active depth sec.id sec.paras _ s1 s' s' hne h2 hlast⟩)
  exact ⟨n, by unfold performRange; rw [hpos]; exact hn⟩

/-! #### how often -/

/-- One pass through the body of a PERFORM (out of line or in line) turns `s` into `f s`. -/
def PassIs (B : Nat → List Nat → σ → POut σ) (active : List Nat) (f : σ → σ) : Prop :=
  ∀ s, ∃ N, ∀ n, N ≤ n → (B n active s).pass = .normal (f s)

theorem passes_eq {B : Nat → List Nat → σ → POut σ} {active : List Nat} {f : σ → σ}
    (h : PassIs B active f) : ∀ (m : Nat) (s : σ), ∃ N, ∀ n, N ≤ n →
      passes (fun s => (B n active s).pass) m s = .normal (f^[m] s)
  | 0, s => ⟨0, fun _ _ => rfl⟩
  | m + 1, s => by
    obtain ⟨N1, h1⟩ := h s
    obtain ⟨N2, h2⟩ := passes_eq h m (f s)
    refine ⟨max N1 N2, fun n hn => ?_⟩
    rw [passes, h1 n (by omega)]
    exact h2 n (by omega)

/-- A loop with a test in front: it ends in front of the first pass for which the condition holds. -/
theorem until_before {t : Bool} (ht : t = false) {pre : σ → σ} {v : Vary σ}
    {inner : Nat → σ → POut σ} {f : σ → σ}
    (h : ∀ s, ∃ N, ∀ n, N ≤ n → inner n s = .normal (f s)) :
    ∀ (k : Nat) (s : σ), v.stopIf (pre ((fun s => v.step (f (pre s)))^[k] s)) = true →
      (∀ i < k, v.stopIf (pre ((fun s => v.step (f (pre s)))^[i] s)) = false) →
      ∃ N, ∀ n m, N ≤ n → k < m →
        untilLoop t pre v (inner n) m s = .normal (pre ((fun s => v.step (f (pre s)))^[k] s))
  | 0, s, hk, _ => by
    refine ⟨0, fun n m _ hm => ?_⟩
    obtain ⟨m, rfl⟩ : ∃ m', m = m' + 1 := ⟨m - 1, by omega⟩
    have hk' : v.stopIf (pre s) = true := hk
    rw [untilLoop, if_pos ⟨ht, hk'⟩]; rfl
  | k + 1, s, hk, hlt => by
    have h0 : v.stopIf (pre s) = false := hlt 0 (by omega)
    obtain ⟨N1, h1⟩ := h (pre s)
    obtain ⟨N2, h2⟩ := until_before ht h k (v.step (f (pre s))) hk
      (fun i hi => hlt (i + 1) (by omega))
    refine ⟨max N1 N2, fun n m hn hm => ?_⟩
    obtain ⟨m, rfl⟩ : ∃ m', m = m' + 1 := ⟨m - 1, by omega⟩
    rw [untilLoop, if_neg (by simp [h0]), h1 n (by omega)]
    simp only [POut.andThen]
    rw [if_neg (by simp [ht])]
    exact h2 n m (by omega) (by omega)

/-- A loop with a test behind: it ends behind the first pass after which the condition holds. -/
theorem until_after {t : Bool} (ht : t = true) {pre : σ → σ} {v : Vary σ}
    {inner : Nat → σ → POut σ} {f : σ → σ}
    (h : ∀ s, ∃ N, ∀ n, N ≤ n → inner n s = .normal (f s)) :
    ∀ (k : Nat) (s : σ), v.stopIf (f (pre ((fun s => v.step (f (pre s)))^[k] s))) = true →
      (∀ i < k, v.stopIf (f (pre ((fun s => v.step (f (pre s)))^[i] s))) = false) →
      ∃ N, ∀ n m, N ≤ n → k < m →
        untilLoop t pre v (inner n) m s = .normal (f (pre ((fun s => v.step (f (pre s)))^[k] s)))
  | 0, s, hk, _ => by
    obtain ⟨N1, h1⟩ := h (pre s)
    refine ⟨N1, fun n m hn hm => ?_⟩
    obtain ⟨m, rfl⟩ : ∃ m', m = m' + 1 := ⟨m - 1, by omega⟩
    have hk' : v.stopIf (f (pre s)) = true := hk
    rw [untilLoop, if_neg (by simp [ht]), h1 n hn]
    simp only [POut.andThen]
    rw [if_pos ⟨ht, hk'⟩]; rfl
  | k + 1, s, hk, hlt => by
    have h0 : v.stopIf (f (pre s)) = false := hlt 0 (by omega)
    obtain ⟨N1, h1⟩ := h (pre s)
    obtain ⟨N2, h2⟩ := until_after ht h k (v.step (f (pre s))) hk
      (fun i hi => hlt (i + 1) (by omega))
    refine ⟨max N1 N2, fun n m hn hm => ?_⟩
    obtain ⟨m, rfl⟩ : ∃ m', m = m' + 1 := ⟨m - 1, by omega⟩
    rw [untilLoop, if_neg (by simp [ht]), h1 n (by omega)]
    simp only [POut.andThen]
    rw [if_neg (by simp [h0])]
    exact h2 n m (by omega) (by omega)

/-- The body of an out-of-line PERFORM. -/
theorem pass_range {es : List (PElem σ)} {active : List Nat} {depth b e : Nat} {f : σ → σ}
    (hd : depth < maxFrames) (h : ∀ s, Returns es active (depth + 1) b e s (f s)) :
    PassIs (fun n active s => if depth < maxFrames then performRange es n active (depth + 1) e b s else .bad)
      active f := by
  intro s
  obtain ⟨N, hN⟩ := (h s).later
  refine ⟨N, fun n hn => ?_⟩
  simp only [if_pos hd]
  rw [hN n hn]; rfl

/-- The body of an inline PERFORM. -/
theorem pass_inline {es : List (PElem σ)} {active : List Nat} {depth : Nat} {body : PStmt σ} {f : σ → σ}
    (h : ∀ s, Does es active depth body s (f s)) :
    PassIs (fun n active s => body.exec (performRange es n) n active depth s) active f := by
  intro s
  obtain ⟨N, hN⟩ := (h s).later
  exact ⟨N, fun n hn => by simp only [hN n hn]; rfl⟩

/-- PERFORM b THRU e executes the range once and goes on behind the statement, with the effect of the
range. -/
theorem C55_once (es : List (PElem σ)) (active : List Nat) (depth b e : Nat) (s s' : σ)
    (hd : depth < maxFrames) (h : Returns es active (depth + 1) b e s s') :
    Does es active depth (.perform b e .once) s s' := by
  obtain ⟨n, hn⟩ := h
  refine ⟨n, ?_⟩
  simp only [PStmt.exec, How.exec, if_pos hd, hn]
  rfl

/-- PERFORM ... n TIMES executes the range exactly as often as the value of n says when the statement
is reached (not at all when it is zero or negative), whatever the range does to n. -/
theorem C55_times (es : List (PElem σ)) (active : List Nat) (depth b e k : Nat) (count : σ → Int)
    (f : σ → σ) (s : σ) (hk : k ∉ active) (hd : depth < maxFrames)
    (h : ∀ s, Returns es (k :: active) (depth + 1) b e s (f s)) :
    Does es active depth (.perform b e (.times k count)) s (f^[(count s).toNat] s) := by
  obtain ⟨N, hN⟩ := passes_eq (pass_range hd h) (count s).toNat s
  refine ⟨N, ?_⟩
  simp only [PStmt.exec, How.exec, if_neg hk]
  rw [hN N (Nat.le_refl _)]; rfl

/-- The same for an inline PERFORM. -/
theorem C55_times_inline (es : List (PElem σ)) (active : List Nat) (depth k : Nat) (count : σ → Int)
    (body : PStmt σ) (f : σ → σ) (s : σ) (hk : k ∉ active)
    (h : ∀ s, Does es (k :: active) depth body s (f s)) :
    Does es active depth (.inline (.times k count) body) s (f^[(count s).toNat] s) := by
  obtain ⟨N, hN⟩ := passes_eq (pass_inline h) (count s).toNat s
  refine ⟨N, ?_⟩
  simp only [PStmt.exec, How.exec, if_neg hk]
  rw [hN N (Nat.le_refl _)]; rfl

/-- PERFORM ... WITH TEST BEFORE (VARYING x FROM a BY d) UNTIL c, out of line: after `k` passes, each
followed by the step, when the condition holds then and did not hold before. -/
theorem C55_until_before (es : List (PElem σ)) (active : List Nat) (depth b e : Nat) (v : Vary σ)
    (f : σ → σ) (s : σ) (k : Nat) (hd : depth < maxFrames)
    (h : ∀ s, Returns es active (depth + 1) b e s (f s))
    (hk : v.stopIf ((fun s => v.step (f s))^[k] (v.init s)) = true)
    (hlt : ∀ i < k, v.stopIf ((fun s => v.step (f s))^[i] (v.init s)) = false) :
    Does es active depth (.perform b e (.vary false v [])) s ((fun s => v.step (f s))^[k] (v.init s)) := by
  obtain ⟨N, hN⟩ := until_before rfl (pre := id) (v := v)
    (inner := fun n s => (if depth < maxFrames then performRange es n active (depth + 1) e b s else .bad).pass)
    (pass_range hd h) k (v.init s) hk hlt
  refine ⟨max N (k + 1), ?_⟩
  simp only [PStmt.exec, How.exec]
  have := hN (max N (k + 1)) (max N (k + 1)) (by omega) (by omega)
  simp only [varying, initOf]
  rw [this]; rfl

/-- WITH TEST AFTER: the condition is tested behind each pass, so there is at least one. -/
theorem C55_until_after (es : List (PElem σ)) (active : List Nat) (depth b e : Nat) (v : Vary σ)
    (f : σ → σ) (s : σ) (k : Nat) (hd : depth < maxFrames)
    (h : ∀ s, Returns es active (depth + 1) b e s (f s))
    (hk : v.stopIf (f ((fun s => v.step (f s))^[k] (v.init s))) = true)
    (hlt : ∀ i < k, v.stopIf (f ((fun s => v.step (f s))^[i] (v.init s))) = false) :
    Does es active depth (.perform b e (.vary true v [])) s (f ((fun s => v.step (f s))^[k] (v.init s))) := by
  obtain ⟨N, hN⟩ := until_after rfl (pre := id) (v := v)
    (inner := fun n s => (if depth < maxFrames then performRange es n active (depth + 1) e b s else .bad).pass)
    (pass_range hd h) k (v.init s) hk hlt
  refine ⟨max N (k + 1), ?_⟩
  simp only [PStmt.exec, How.exec]
  have := hN (max N (k + 1)) (max N (k + 1)) (by omega) (by omega)
  simp only [varying, initOf]
  rw [this]; rfl

/-! #### counting -/

/-- Data with numeric items. -/
abbrev Vars (α : Type) := (Nat → Int) × α

/-- `MOVE a TO x`. -/
def setVar (ρ : Nat → Int) (x : Nat) (a : Int) : Nat → Int := fun y => if y = x then a else ρ y

/-- `VARYING x FROM a BY d UNTIL x > b`. -/
def countUp {α : Type} (x : Nat) (a d b : Int) : Vary (Vars α) where
  init s := (setVar s.1 x a, s.2)
  stopIf s := decide (b < s.1 x)
  step s := (setVar s.1 x (s.1 x + d), s.2)

/-- How many of the numbers a, a + d, a + 2d, ... are not greater than b. -/
def countOf (a d b : Int) : Nat := ((b - a) / d + 1).toNat

theorem setVar_same (ρ : Nat → Int) (x : Nat) (a : Int) : setVar ρ x a x = a := by simp [setVar]

theorem setVar_setVar (ρ : Nat → Int) (x : Nat) (a b : Int) : setVar (setVar ρ x a) x b = setVar ρ x b := by
  funext y; simp only [setVar]; split <;> rfl

theorem setVar_self (ρ : Nat → Int) (x : Nat) : setVar ρ x (ρ x) = ρ := by
  funext y; simp only [setVar]; split
  · rename_i h; rw [h]
  · rfl

theorem setVar_comm (ρ : Nat → Int) {x y : Nat} (h : x ≠ y) (a b : Int) :
    setVar (setVar ρ x a) y b = setVar (setVar ρ y b) x a := by
  funext z; simp only [setVar]; split <;> split <;> simp_all

theorem countOf_lt {a d b : Int} (hd : 0 < d) {i : Nat} (h : i < countOf a d b) : a + i * d ≤ b := by
  unfold countOf at h
  have h1 : (i : Int) ≤ (b - a) / d := by omega
  have h2 : (i : Int) * d ≤ (b - a) / d * d := Int.mul_le_mul_of_nonneg_right h1 (by omega)
  have h3 : (b - a) / d * d ≤ b - a := Int.ediv_mul_le _ (by omega)
  omega

theorem countOf_ge {a d b : Int} (hd : 0 < d) {i : Nat} (h : countOf a d b ≤ i) : b < a + i * d := by
  unfold countOf at h
  have h1 : (b - a) / d + 1 ≤ (i : Int) := by omega
  have h2 : ((b - a) / d + 1) * d ≤ (i : Int) * d := Int.mul_le_mul_of_nonneg_right h1 (by omega)
  have h3 : b - a < ((b - a) / d + 1) * d := Int.lt_ediv_add_one_mul_self _ hd
  omega

/-- What the passes do to the rest of the data: `g` with x = a, then with x = a + d, and so on. -/
def eachValue {α : Type} (g : (Nat → Int) → α → α) (ρ : Nat → Int) (x : Nat) (a d : Int) (k : Nat) (u : α) : α :=
  (List.range k).foldl (fun u (i : Nat) => g (setVar ρ x (a + i * d)) u) u

theorem eachValue_zero {α : Type} (g : (Nat → Int) → α → α) (ρ : Nat → Int) (x : Nat) (a d : Int) (u : α) :
    eachValue g ρ x a d 0 u = u := rfl

theorem eachValue_succ {α : Type} (g : (Nat → Int) → α → α) (ρ : Nat → Int) (x : Nat) (a d : Int) (k : Nat)
    (u : α) : eachValue g ρ x a d (k + 1) u = g (setVar ρ x (a + k * d)) (eachValue g ρ x a d k u) := by
  simp [eachValue, List.range_succ]

theorem countUp_iterate {α : Type} {x : Nat} {d : Int} (a b : Int) {h : Vars α → Vars α}
    {g : (Nat → Int) → α → α} {a' : Int} {ρ : Nat → Int}
    (hh : ∀ (i : Nat) u, h (setVar ρ x (a' + i * d), u) = (setVar ρ x (a' + i * d), g (setVar ρ x (a' + i * d)) u)) :
    ∀ (k : Nat) (u : α), (fun s => (countUp x a d b).step (h s))^[k] (setVar ρ x a', u) =
      (setVar ρ x (a' + k * d), eachValue g ρ x a' d k u)
  | 0, u => by simp [eachValue_zero]
  | k + 1, u => by
    rw [Function.iterate_succ_apply', countUp_iterate a b hh k u]
    simp only [hh]
    simp only [countUp, setVar_same, setVar_setVar, eachValue_succ]
    congr 2
    push_cast
    rw [Int.add_mul]; omega

/-- PERFORM ... VARYING x FROM a BY d UNTIL x > b (d > 0), where the range does not change x: the
range is executed for x = a, a + d, a + 2d, ... as long as that is not greater than b, in this order,
and x has the first value greater than b behind the statement. -/
theorem C55_varying {α : Type} (es : List (PElem (Vars α))) (active : List Nat) (depth b e : Nat)
    (x : Nat) (lo d hi : Int) (g : (Nat → Int) → α → α) (ρ : Nat → Int) (u : α)
    (hd : 0 < d) (hdep : depth < maxFrames)
    (h : ∀ ρ u, Returns es active (depth + 1) b e (ρ, u) (ρ, g ρ u)) :
    Does es active depth (.perform b e (.vary false (countUp x lo d hi) [])) (ρ, u)
      (setVar ρ x (lo + countOf lo d hi * d), eachValue g ρ x lo d (countOf lo d hi) u) := by
  have it := fun k => countUp_iterate (x := x) (d := d) lo hi (h := fun s : Vars α => (s.1, g s.1 s.2))
    (g := g) (a' := lo) (ρ := ρ) (fun _ _ => rfl) k u
  have := C55_until_before es active depth b e (countUp x lo d hi) (fun s => (s.1, g s.1 s.2)) (ρ, u)
    (countOf lo d hi) hdep (fun s => h s.1 s.2)
  rw [show (countUp x lo d hi).init (ρ, u) = (setVar ρ x lo, u) from rfl, it] at this
  refine this ?_ ?_
  · simp only [countUp, setVar_same, decide_eq_true_eq]
    exact countOf_ge hd (Nat.le_refl _)
  · intro i hi'
    rw [it]
    simp only [countUp, setVar_same, decide_eq_false_iff_not, Int.not_lt]
    exact countOf_lt hd hi'

/-- One loop over y inside. -/
def innerLoop {α : Type} (g : (Nat → Int) → α → α) (y : Nat) (d hi : Int) (s : Vars α) : Vars α :=
  (setVar s.1 y (s.1 y + countOf (s.1 y) d hi * d), eachValue g s.1 y (s.1 y) d (countOf (s.1 y) d hi) s.2)

theorem innerLoop_spec {α : Type} (g : (Nat → Int) → α → α) (y : Nat) (lo d hi : Int) (hd : 0 < d)
    {inner : Nat → Vars α → POut (Vars α)}
    (h : ∀ s, ∃ N, ∀ n, N ≤ n → inner n s = .normal (s.1, g s.1 s.2)) (s : Vars α) :
    ∃ N, ∀ n, N ≤ n → untilLoop false id (countUp y lo d hi) (inner n) n s = .normal (innerLoop g y d hi s) := by
  obtain ⟨ρ, u⟩ := s
  have it := fun k => countUp_iterate (x := y) (d := d) lo hi (h := fun s : Vars α => (s.1, g s.1 s.2))
    (g := g) (a' := ρ y) (ρ := ρ) (fun _ _ => rfl) k u
  rw [setVar_self] at it
  obtain ⟨N, hN⟩ := until_before rfl (pre := id) (v := countUp y lo d hi) (inner := inner)
    (f := fun s => (s.1, g s.1 s.2)) h (countOf (ρ y) d hi) (ρ, u)
    (by
      simp only [id]
      rw [it]
      simp only [countUp, setVar_same, decide_eq_true_eq]
      exact countOf_ge hd (Nat.le_refl _))
    (by
      intro i hi'
      simp only [id]
      rw [it]
      simp only [countUp, setVar_same, decide_eq_false_iff_not, Int.not_lt]
      exact countOf_lt hd hi')
  refine ⟨max N (countOf (ρ y) d hi + 1), fun n hn => ?_⟩
  rw [hN n n (by omega) (by omega)]
  simp only [id]
  rw [it]
  rfl

/-- PERFORM ... VARYING x FROM a BY d UNTIL x > b AFTER y FROM a2 BY d2 UNTIL y > b2: the range is
executed for every pair of values, y running faster.  Behind the statement x has the first value
greater than b, and y its FROM value. -/
theorem C55_varying_after {α : Type} (es : List (PElem (Vars α))) (active : List Nat) (depth b e : Nat)
    (x y : Nat) (lo d hi lo2 d2 hi2 : Int) (g : (Nat → Int) → α → α) (ρ : Nat → Int) (u : α)
    (hxy : x ≠ y) (hd : 0 < d) (hd2 : 0 < d2) (hdep : depth < maxFrames)
    (h : ∀ ρ u, Returns es active (depth + 1) b e (ρ, u) (ρ, g ρ u)) :
    Does es active depth (.perform b e (.vary false (countUp x lo d hi) [countUp y lo2 d2 hi2])) (ρ, u)
      (setVar (setVar ρ x (lo + countOf lo d hi * d)) y lo2,
        eachValue (fun ρ u => eachValue g ρ y lo2 d2 (countOf lo2 d2 hi2) u) ρ x lo d (countOf lo d hi) u) := by
  have hpass := innerLoop_spec g y lo2 d2 hi2 hd2
    (inner := fun n s => (if depth < maxFrames then performRange es n active (depth + 1) e b s else .bad).pass)
    (pass_range (f := fun s : Vars α => (s.1, g s.1 s.2)) hdep (fun s => h s.1 s.2))
  let G := fun (ρ : Nat → Int) (u : α) => eachValue g ρ y lo2 d2 (countOf lo2 d2 hi2) u
  let yend := lo2 + countOf lo2 d2 hi2 * d2
  -- one pass of the outer loop
  have hone : ∀ ρ' u', innerLoop g y d2 hi2 ((countUp y lo2 d2 hi2).init (ρ', u')) =
      (setVar ρ' y yend, G ρ' u') := by
    intro ρ' u'
    simp only [innerLoop, countUp, setVar_same, setVar_setVar, G, yend]
    congr 1
    unfold eachValue
    congr 1
    funext u i
    rw [setVar_setVar]
  have hGy : ∀ ρ' c u', G (setVar ρ' y c) u' = G ρ' u' := by
    intro ρ' c u'
    simp only [G]
    unfold eachValue
    congr 1
    funext u i
    rw [setVar_setVar]
  have it : ∀ k, ∃ c, (fun s => (countUp x lo d hi).step (innerLoop g y d2 hi2 ((countUp y lo2 d2 hi2).init s)))^[k]
        (setVar ρ x lo, u) = (setVar (setVar ρ x (lo + k * d)) y c, eachValue G ρ x lo d k u) := by
    intro k
    induction k with
    | zero => exact ⟨(setVar ρ x lo) y, by simp [eachValue_zero, setVar_self]⟩
    | succ k ih =>
      obtain ⟨c, ih⟩ := ih
      refine ⟨yend, ?_⟩
      rw [Function.iterate_succ_apply', ih]
      simp only [hone]
      simp only [countUp, hGy, setVar_setVar, eachValue_succ]
      have hx : setVar (setVar ρ x (lo + ↑k * d)) y yend x = lo + k * d := by
        rw [setVar_comm _ hxy, setVar_same]
      rw [hx]
      have hk : lo + ↑k * d + d = lo + ((k + 1 : Nat) : Int) * d := by
        push_cast
        rw [Int.add_mul]; omega
      rw [setVar_comm (setVar ρ x _) (Ne.symm hxy), setVar_setVar, hk]
  have hx : ∀ (k : Nat) c, setVar (setVar (setVar ρ x (lo + ↑k * d)) y c) y lo2 x = lo + k * d := by
    intro k c
    rw [setVar_setVar, setVar_comm _ hxy, setVar_same]
  obtain ⟨N, hN⟩ := until_before rfl (pre := (countUp y lo2 d2 hi2).init) (v := countUp x lo d hi)
    (inner := fun n => untilLoop false id (countUp y lo2 d2 hi2)
      (fun s => (if depth < maxFrames then performRange es n active (depth + 1) e b s else .bad).pass) n)
    hpass (countOf lo d hi) (setVar ρ x lo, u)
    (by
      obtain ⟨c, hc⟩ := it (countOf lo d hi)
      rw [hc]
      simp only [countUp, decide_eq_true_eq, hx]
      exact countOf_ge hd (Nat.le_refl _))
    (by
      intro i hi'
      obtain ⟨c, hc⟩ := it i
      rw [hc]
      simp only [countUp, decide_eq_false_iff_not, Int.not_lt, hx]
      exact countOf_lt hd hi')
  refine ⟨max N (countOf lo d hi + 1), ?_⟩
  have := hN (max N (countOf lo d hi + 1)) (max N (countOf lo d hi + 1)) (by omega) (by omega)
  obtain ⟨c, hc⟩ := it (countOf lo d hi)
  rw [hc] at this
  have hinit : (countUp x lo d hi).init (ρ, u) = (setVar ρ x lo, u) := rfl
  simp only [PStmt.exec, How.exec, varying, initOf]
  rw [hinit, this]
  simp only [POut.caught, countUp, setVar_setVar, G]

/-! ### Examples -/

/-- A program over one counter and one sum:
```
MAIN.  PERFORM ADD-IT VARYING I FROM 1 BY 1 UNTIL I > 4.
       PERFORM ADD-IT THRU TWICE 2 TIMES.
       STOP RUN.
ADD-IT. ADD I TO S.
TWICE.  ADD S TO S.
``` -/
def sampleProgram : List (PElem (Vars Int)) :=
  procElems [⟨10, 11, .skip, [
    ⟨1, 21, .seq (.perform 2 2 (.vary false (countUp 0 1 1 4) []))
      (.seq (.perform 2 3 (.times 0 fun _ => 2)) .stop)⟩,
    ⟨2, 22, .act fun s => (s.1, s.2 + s.1 0)⟩,
    ⟨3, 23, .act fun s => (s.1, s.2 + s.2)⟩]⟩]

/-- The sum of a final outcome. -/
def POut.stopped {α : Type} : POut (Vars α) → Option α
  | .stop s => some s.2
  | _ => none

-- 1 + 2 + 3 + 4 = 10, then twice: add 5, double
example : (runProgram sampleProgram 20 (fun _ => 0, 0)).stopped = some 70 := by decide +kernel

-- the generated code does the same
example : ∃ k m, PMach.steps (progCode sampleProgram) k ⟨0, [], fun _ => 0, (fun _ => 0, 0)⟩ = some m ∧
    m.Ended (progCode sampleProgram) ∧ m.st.2 = 70 := by
  have h : (runProgram sampleProgram 20 (fun _ => 0, 0)).stopped = some 70 := by decide +kernel
  cases ho : runProgram sampleProgram 20 (fun _ => 0, 0) with
  | stop s' =>
    obtain ⟨k, m, h1, h2, h3⟩ := (C55_compiled sampleProgram (fun _ => 0) (fun _ => 0, 0)).1 20 s' ho
    rw [ho] at h
    exact ⟨k, m, h1, h2, by rw [h3]; exact Option.some.inj h⟩
  | _ => rw [ho] at h; cases h

-- the paragraphs ADD-IT THRU TWICE of it
example (active : List Nat) (depth : Nat) (s : Vars Int) :
    Returns sampleProgram active depth 2 3 s (s.1, (s.2 + s.1 0) + (s.2 + s.1 0)) :=
  C55_paragraphs sampleProgram (sampleProgram.take 6) (sampleProgram.drop 14)
    [⟨2, 22, .act fun s => (s.1, s.2 + s.1 0)⟩] ⟨3, 23, .act fun s => (s.1, s.2 + s.2)⟩ 2 active depth s _
    rfl rfl (by decide +kernel) (by intro p hp; simp at hp; subst hp; decide)
    ⟨_, ⟨0, rfl⟩, _, ⟨0, rfl⟩, rfl⟩

-- 1, 3, 5, 7 are not greater than 8
example : countOf 1 2 8 = 4 ∧ countOf 5 1 4 = 0 := by decide

/-! ### Findings -/

/-- `A. PERFORM B.  B. GO TO A.`: leaving a performed range with GO TO leaves its frame on the stack.
After 254 times the stack is full and the next PERFORM writes behind it. -/
def leakProgram : List (PElem Unit) :=
  procElems [⟨10, 11, .skip, [⟨1, 21, .perform 2 2 .once⟩, ⟨2, 22, .goto 1⟩]⟩]

theorem C55_finding_frames_leak :
    (PMach.steps (progCode leakProgram) 1019 ⟨0, [], fun _ => 0, ()⟩).map
      (fun m => (m.frames.length, (m.step (progCode leakProgram)).isNone,
        (progCode leakProgram)[m.pc]?.isSome)) = some (254, true, true) := by decide +kernel

/-- A PERFORM ... TIMES that is entered again while it is active (`P1. PERFORM P2 3 TIMES.  P2. ADD 1
TO X. IF X = 1 PERFORM P1.`): both executions count down the same counter, and P2 is executed 4
times, not 6. -/
def reenterProgram : List (PElem Nat) :=
  procElems [⟨10, 11, .skip, [⟨1, 21, .seq (.perform 2 2 .once) .stop⟩,
    ⟨2, 22, .perform 3 3 (.times 0 fun _ => 3)⟩,
    ⟨3, 23, .seq (.act (· + 1)) (.ite (· == 1) (.perform 2 2 .once) .skip)⟩]⟩]

theorem C55_finding_times_reentered :
    ∃ k, (PMach.steps (progCode reenterProgram) k ⟨0, [], fun _ => 0, 0⟩).map
      (fun m => (m.st, m.frames.length, (m.step (progCode reenterProgram)).isNone)) = some (4, 0, true) :=
  ⟨61, by decide +kernel⟩

end Cob
