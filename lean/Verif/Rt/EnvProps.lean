import Verif.Rt.EnvSpec
import Verif.Rt.CallProps
import Verif.Move.NumericProps
/-
C77: environment variables, arguments, the command line.
-/
namespace Cob

/-! ### texts -/

theorem asString_take (d : List Nat) : ∀ n, n ≤ d.length →
    ((d.take n).reverse.dropWhile (fun c => c == 32 || c == 0)).reverse = d.take (stringEnd d n) := by
  intro n
  induction n with
  | zero => intro _; simp [stringEnd]
  | succ n ih =>
    intro h
    have hn : n < d.length := by omega
    have e : d.take (n + 1) = d.take n ++ [d[n]] := by
      rw [List.take_add_one, List.getElem?_eq_getElem hn]; rfl
    have g : d.getD n 0 = d[n] := by simp [List.getD_eq_getElem?_getD, hn]
    rw [stringEnd, g]
    by_cases hc : d[n] ≠ 32 ∧ d[n] ≠ 0
    · rw [if_pos hc, e, List.reverse_append, List.reverse_singleton, List.singleton_append,
        List.dropWhile_cons_of_neg (by simp [hc.1, hc.2])]
      simp
    · rw [if_neg hc, e, List.reverse_append, List.reverse_singleton, List.singleton_append,
        List.dropWhile_cons_of_pos (by simp; omega)]
      exact ih (by omega)

theorem fieldToString_eq (d : List Nat) : fieldToString d = asString d := by
  unfold fieldToString asString
  rw [← asString_take d d.length (Nat.le_refl _), List.take_length]
  congr 1
  funext c
  by_cases h : c = 0 <;> simp [h]

theorem moveAlnum_received (just : Bool) (src : List Nat) (size : Nat) : moveAlnum just src size = received just size src := by
  unfold moveAlnum received
  dsimp only
  cases just
  · simp only [Bool.false_eq_true, if_false]
    split
    · rw [List.take_append_of_le_length (by omega)]
    · rw [List.take_append, List.take_of_length_le (by omega), List.take_replicate]
      congr 2; omega
  · simp only [if_true]
    split
    · rw [List.take_of_length_le (by simp; omega), List.drop_append, List.drop_of_length_le (l := List.replicate _ _) (by simp; omega)]
      simp
    · rw [List.drop_append, List.drop_replicate, List.length_replicate,
        show src.length - size = 0 by omega, List.drop_zero]

theorem memToText_eq (just : Bool) (size : Nat) (src : List Nat) : memToText just size src = received just size src := by
  unfold memToText
  split
  · rename_i h; subst h; cases just <;> simp [received]
  · rename_i h
    rw [moveAlnum_received]
    split
    · rename_i e; subst e
      obtain ⟨k, rfl⟩ : ∃ k, size = k + 1 := ⟨size - 1, by omega⟩
      cases just
      · simp only [received, Bool.false_eq_true, if_false]
        rw [List.singleton_append, ← List.replicate_succ, List.take_replicate, List.nil_append, List.take_replicate]
        congr 1; omega
      · simp only [received, if_true]
        rw [List.append_nil, List.length_nil, List.drop_zero, ← List.replicate_succ', List.length_singleton,
          List.replicate_succ, List.drop_one, List.tail_cons]
    · rfl

/-! ### variables -/

theorem prefix_iff (a b v : List Nat) (ha : 61 ∉ a) (hb : 61 ∉ b) :
    (a ++ [61]).isPrefixOf (b ++ [61] ++ v) = true ↔ b = a := by
  rw [List.isPrefixOf_iff_prefix]
  constructor
  · rintro ⟨t, ht⟩
    induction a generalizing b with
    | nil =>
      cases b with
      | nil => rfl
      | cons c b => simp at ht; exact absurd ht.1.symm (fun h => hb (by simp [h]))
    | cons x a ih =>
      cases b with
      | nil => simp at ht; exact absurd ht.1 (fun h => ha (by simp [h]))
      | cons c b =>
        simp only [List.cons_append, List.cons.injEq] at ht
        rw [ht.1, ih b (fun h => ha (by simp [h])) (fun h => hb (by simp [h])) (by simpa using ht.2)]
  · rintro rfl; exact ⟨v, by simp⟩

/-- The variables' value for a name. -/
def lookupVar (vs : List (List Nat × List Nat)) (nm : List Nat) : Option (List Nat) :=
  (vs.find? fun p => p.1 = nm).map (·.2)

theorem cGetenv_of (vs : List (List Nat × List Nat)) (hv : Vars77 vs) (nm : List Nat) (h1 : nm ≠ []) (h2 : 61 ∉ nm) :
    cGetenv (environOf vs) nm = lookupVar vs nm := by
  unfold cGetenv
  rw [if_neg h1]
  unfold lookupVar environOf
  induction vs with
  | nil => rfl
  | cons p vs ih =>
    have hp := hv p (by simp)
    replace ih := ih (fun q hq => hv q (by simp [hq]))
    simp only [List.map_cons, List.find?_cons]
    by_cases e : p.1 = nm
    · rw [(prefix_iff nm p.1 p.2 h2 hp.2).2 e]
      simp only [e, decide_true, Option.map_some]
      simp [List.drop_append]
    · have : (nm ++ [61]).isPrefixOf (p.1 ++ [61] ++ p.2) = false := by
        rw [← Bool.not_eq_true, prefix_iff nm p.1 p.2 h2 hp.2]; exact e
      rw [this]
      simp only [e, decide_false]
      exact ih

theorem putVar_of (vs : List (List Nat × List Nat)) (hv : Vars77 vs) (nm v : List Nat) (h1 : nm ≠ []) (h2 : 61 ∉ nm) :
    ∃ vs', putVar nm v (environOf vs) = environOf vs' ∧ Vars77 vs' ∧
      ∀ x, lookupVar vs' x = if x = nm then some v else lookupVar vs x := by
  induction vs with
  | nil =>
    refine ⟨[(nm, v)], rfl, ?_, ?_⟩
    · intro p hp; rw [List.mem_singleton.1 hp]; exact ⟨h1, h2⟩
    · intro x
      by_cases e : x = nm
      · subst e; simp [lookupVar]
      · have e' : ¬ nm = x := fun h => e h.symm
        simp [lookupVar, e, e']
  | cons p vs ih =>
    have hp := hv p (by simp)
    obtain ⟨vs', i1, i2, i3⟩ := ih (fun q hq => hv q (by simp [hq]))
    by_cases e : p.1 = nm
    · refine ⟨(nm, v) :: vs, ?_, ?_, ?_⟩
      · simp only [environOf, List.map_cons, putVar]
        rw [if_pos ((prefix_iff nm p.1 p.2 h2 hp.2).2 e)]
      · intro q hq
        rcases List.mem_cons.1 hq with rfl | hq
        · exact ⟨h1, h2⟩
        · exact hv q (by simp [hq])
      · intro x
        by_cases ex : x = nm
        · subst ex; simp [lookupVar]
        · have e' : ¬ nm = x := fun h => ex h.symm
          simp [lookupVar, ex, e', e]
    · refine ⟨p :: vs', ?_, ?_, ?_⟩
      · simp only [environOf, List.map_cons, putVar]
        rw [if_neg (by rw [prefix_iff nm p.1 p.2 h2 hp.2]; exact e)]
        rw [← environOf, i1, environOf]
      · intro q hq
        rcases List.mem_cons.1 hq with rfl | hq
        · exact hp
        · exact i2 q hq
      · intro x
        have := i3 x
        by_cases ex : x = p.1
        · subst ex; simp [lookupVar, e]
        · have e' : ¬ p.1 = x := fun h => ex h.symm
          simp only [lookupVar, List.find?_cons, e', decide_false] at this ⊢
          exact this

/-- What the state is, after assignments `asg` to variables `vars`, the name `cur` being chosen. -/
def EnvInv (vars asg : List (List Nat × List Nat)) (cur : Option (List Nat)) (st : PEnv) : Prop :=
  (∃ vs, st.environ = environOf vs ∧ Vars77 vs ∧ ∀ x, lookupVar vs x = valueNow vars asg x) ∧
    st.name.getD [] = cur.getD []

theorem valueNow_add (vars asg : List (List Nat × List Nat)) (nm v x : List Nat) :
    valueNow vars (asg ++ [(nm, v)]) x = if x = nm then some v else valueNow vars asg x := by
  unfold valueNow
  rw [List.reverse_append, List.reverse_singleton, List.singleton_append, List.find?_cons]
  by_cases e : x = nm
  · subst e; simp
  · have e' : ¬ nm = x := fun h => e h.symm
    simp [e, e']

/-- The assignment to the chosen name. -/
theorem value_step (vars asg : List (List Nat × List Nat)) (cur : Option (List Nat)) (st : PEnv) (v : List Nat)
    (h : EnvInv vars asg cur st) :
    EnvInv vars (asg ++ (assigns cur (.value v)).toList) cur (displayEnvValue st v).1 ∧
      ((displayEnvValue st v).2 = true ↔ assigns cur (.value v) = none) := by
  obtain ⟨⟨vs, h1, h2, h3⟩, h4⟩ := h
  unfold displayEnvValue assigns
  rcases hn : st.name with _ | nm
  · rw [hn] at h4
    dsimp only
    have : cur = none ∨ cur = some [] := by
      rcases cur with _ | c
      · exact .inl rfl
      · right; simp at h4; rw [← h4]
    rcases this with rfl | rfl <;> exact ⟨⟨⟨vs, h1, h2, by simpa using h3⟩, by rw [hn]; try rfl⟩, by simp⟩
  · dsimp only
    rw [hn] at h4
    by_cases e : nm = []
    · subst e
      rw [if_pos rfl]
      have : cur = none ∨ cur = some [] := by
        rcases cur with _ | c
        · exact .inl rfl
        · right; simp at h4; rw [← h4]
      rcases this with rfl | rfl <;> exact ⟨⟨⟨vs, h1, h2, by simpa using h3⟩, by rw [hn]; try rfl⟩, by simp⟩
    · have hc : cur = some nm := by
        rcases cur with _ | c
        · simp at h4; exact absurd h4 e
        · simp at h4; rw [h4]
      subst hc
      rw [if_neg e]
      unfold cSetenv
      by_cases e2 : 61 ∈ nm
      · simp only [e2, or_true, if_true, Option.bind_some]
        exact ⟨⟨⟨vs, h1, h2, by simpa using h3⟩, by rw [hn]⟩, by simp⟩
      · have : ¬ (nm = [] ∨ 61 ∈ nm) := by simp [e, e2]
        simp only [if_neg this, Option.bind_some]
        obtain ⟨vs', i1, i2, i3⟩ := putVar_of vs h2 nm (fieldToString v) e e2
        refine ⟨⟨⟨vs', ?_, i2, ?_⟩, ?_⟩, by simp⟩
        · dsimp only; rw [h1, i1]
        · intro x
          rw [i3, Option.toList_some, valueNow_add, fieldToString_eq, h3]
        · rfl

theorem name_step (vars asg : List (List Nat × List Nat)) (cur : Option (List Nat)) (st : PEnv) (d : List Nat)
    (h : EnvInv vars asg cur st) :
    EnvInv vars asg (chosen cur (.name d)) (displayEnvironment st d).1 ∧
      ((displayEnvironment st d).2 = true ↔ 1023 < d.length) := by
  obtain ⟨⟨vs, h1, h2, h3⟩, h4⟩ := h
  unfold displayEnvironment chosen
  dsimp only
  by_cases hl : d.length > 1023
  · rw [if_pos hl, if_neg (by omega)]
    refine ⟨⟨⟨vs, ?_, h2, h3⟩, ?_⟩, by simp; omega⟩
    · dsimp only; split <;> exact h1
    · dsimp only
      split
      · rename_i hn; rw [hn] at h4; exact h4
      · exact h4
  · rw [if_neg hl, if_pos (by omega)]
    refine ⟨⟨⟨vs, ?_, h2, h3⟩, ?_⟩, by simp; omega⟩
    · dsimp only; split <;> exact h1
    · simp [fieldToString_eq]

theorem env_step (vars asg : List (List Nat × List Nat)) (cur : Option (List Nat)) (st : PEnv) (o : EnvOp)
    (h : EnvInv vars asg cur st) :
    EnvInv vars (asg ++ (assigns cur o).toList) (chosen cur o) (envStep st o).1 := by
  cases o with
  | name d => simpa [assigns, envStep] using (name_step vars asg cur st d h).1
  | value v => simpa [chosen, envStep] using (value_step vars asg cur st v h).1
  | set n v =>
    have a := (name_step vars asg cur st n h).1
    exact (value_step vars asg _ _ v a).1
  | getEnv n j s => simpa [assigns, chosen, envStep] using h
  | getValue j s => simpa [assigns, chosen, envStep] using h
  | argNo e c src =>
    simp only [assigns, chosen, envStep, Option.toList_none, List.append_nil]
    unfold displayArgNumber
    split
    · rename_i r hr
      split at hr
      · dsimp only at hr
        split at hr <;> (cases hr; exact h)
      · cases hr
    · exact h
  | argValue j s =>
    simp only [assigns, chosen, envStep, Option.toList_none, List.append_nil, acceptArgValue]
    split <;> exact h
  | putCmd d =>
    simp only [assigns, chosen, envStep, Option.toList_none, List.append_nil]
    exact h
  | getCmd j s => simpa [assigns, chosen, envStep] using h

theorem env_run (vars : List (List Nat × List Nat)) (ops : List EnvOp) :
    ∀ (asg : List (List Nat × List Nat)) (cur : Option (List Nat)) (st : PEnv), EnvInv vars asg cur st →
      EnvInv vars (asg ++ assignments cur ops) (ops.foldl chosen cur) (envRun st ops) := by
  induction ops with
  | nil => intro asg cur st h; simpa [assignments, envRun] using h
  | cons o os ih =>
    intro asg cur st h
    have := ih _ _ _ (env_step vars asg cur st o h)
    rw [List.append_assoc] at this
    exact this

theorem env_start (vars : List (List Nat × List Nat)) (hv : Vars77 vars) (argv : List (List Nat)) :
    EnvInv vars [] none { environ := environOf vars, argv := argv } :=
  ⟨⟨vars, rfl, hv, fun _ => rfl⟩, rfl⟩

theorem env_after (vars : List (List Nat × List Nat)) (hv : Vars77 vars) (argv : List (List Nat)) (ops : List EnvOp) :
    EnvInv vars (assignments none ops) (ops.foldl chosen none)
      (envRun { environ := environOf vars, argv := argv } ops) := by
  simpa using env_run vars ops [] none _ (env_start vars hv argv)

/-- What ACCEPT stores and signals for a variable with this value. -/
def acceptOf (just : Bool) (size : Nat) : Option (List Nat) → EnvOut
  | some v => ⟨false, some (received just size v)⟩
  | none => ⟨true, some (List.replicate size 32)⟩

theorem received_blank (just : Bool) (size : Nat) : received just size [32] = List.replicate size 32 := by
  cases just
  · simp only [received, Bool.false_eq_true, if_false]
    rw [List.singleton_append, ← List.replicate_succ, List.take_replicate]; congr 1; omega
  · simp only [received, if_true]
    rw [← List.replicate_succ', List.length_singleton, List.drop_replicate]; rfl

/-- **C77.** Whatever statements the program has executed before, ACCEPT FROM ENVIRONMENT gives the value last assigned to that
variable (by SET ENVIRONMENT or by DISPLAY UPON ENVIRONMENT-VALUE) without the spaces at its end, otherwise the value the
process was started with; a variable without value gives spaces and the exception. -/
theorem C77_variable (vars : List (List Nat × List Nat)) (hv : Vars77 vars) (argv : List (List Nat)) (ops : List EnvOp)
    (n : List Nat) (hn : n.length ≤ 1023) (h0 : asString n ≠ []) (h1 : 61 ∉ asString n) (just : Bool) (size : Nat) :
    (envStep (envRun { environ := environOf vars, argv := argv } ops) (.getEnv n just size)).2 =
      acceptOf just size (valueNow vars (assignments none ops) (asString n)) := by
  obtain ⟨⟨vs, a1, a2, a3⟩, _⟩ := env_after vars hv argv ops
  simp only [envStep, getEnvironment]
  rw [if_pos (by omega), a1, fieldToString_eq, cGetenv_of vs a2 _ h0 h1, a3]
  generalize valueNow vars (assignments none ops) (asString n) = w
  cases w <;> simp [acceptOf, memToText_eq, received_blank]

/-- **C77.** A name of 1024 bytes or more gives spaces and the exception. -/
theorem C77_long_name (st : PEnv) (n : List Nat) (hn : 1024 ≤ n.length) (just : Bool) (size : Nat) :
    (envStep st (.getEnv n just size)).2 = ⟨true, some (List.replicate size 32)⟩ := by
  simp only [envStep, getEnvironment]
  rw [if_neg (by omega), memToText_eq, received_blank]

example : 1024 ≤ (List.replicate 1024 65).length := by rw [List.length_replicate]

example : Vars77 [([72], [120]), ([80], [121, 61])] ∧ asString [72, 32, 32] = [72] ∧
    acceptOf false 3 (valueNow [([72], [120]), ([80], [121, 61])]
      (assignments none [.name [80], .value [49, 50, 32], .set [72, 61] [57]]) (asString [80])) =
        ⟨false, some [49, 50, 32]⟩ := by
  refine ⟨?_, by decide, by decide⟩
  intro p hp
  simp at hp
  rcases hp with rfl | rfl <;> decide

/-- **C77.** ACCEPT FROM ENVIRONMENT-VALUE gives the value of the variable whose name was chosen last, by DISPLAY UPON
ENVIRONMENT-NAME or by SET ENVIRONMENT. -/
theorem C77_chosen_variable (vars : List (List Nat × List Nat)) (hv : Vars77 vars) (argv : List (List Nat))
    (ops : List EnvOp) (just : Bool) (size : Nat)
    (h1 : ∀ nm, ops.foldl chosen none = some nm → 61 ∉ nm) :
    (envStep (envRun { environ := environOf vars, argv := argv } ops) (.getValue just size)).2 =
      acceptOf just size ((ops.foldl chosen none).bind (fun nm =>
        if nm = [] then none else valueNow vars (assignments none ops) nm)) := by
  obtain ⟨⟨vs, a1, a2, a3⟩, a4⟩ := env_after vars hv argv ops
  simp only [envStep, acceptEnvironment]
  have key : (envRun { environ := environOf vars, argv := argv } ops).name.bind
      (cGetenv (envRun { environ := environOf vars, argv := argv } ops).environ) =
      (ops.foldl chosen none).bind (fun nm => if nm = [] then none else valueNow vars (assignments none ops) nm) := by
    rw [a1]
    generalize (envRun { environ := environOf vars, argv := argv } ops).name = m at a4 ⊢
    generalize ops.foldl chosen none = c at a4 h1 ⊢
    rcases m with _ | m <;> rcases c with _ | c <;> simp only [Option.getD_none, Option.getD_some] at a4
    · rfl
    · subst a4; simp
    · subst a4; simp [cGetenv]
    · subst a4
      simp only [Option.bind_some]
      by_cases e : m = []
      · subst e; simp [cGetenv]
      · rw [if_neg e, cGetenv_of vs a2 m e (h1 m rfl), a3]
  rw [key]
  generalize (ops.foldl chosen none).bind _ = w
  cases w <;> simp [acceptOf, memToText_eq, received_blank]

theorem assignments_append (xs ys : List EnvOp) : ∀ cur,
    assignments cur (xs ++ ys) = assignments cur xs ++ assignments (xs.foldl chosen cur) ys := by
  induction xs with
  | nil => intro cur; rfl
  | cons x xs ih => intro cur; simp [assignments, ih, List.append_assoc]

/-- **C77.** After SET ENVIRONMENT name TO value, and any statements that do not assign to that variable, ACCEPT FROM ENVIRONMENT
name gives the value. -/
theorem C77_set_then_accept (vars : List (List Nat × List Nat)) (hv : Vars77 vars) (argv : List (List Nat))
    (before after : List EnvOp) (n v n2 : List Nat) (hn : n.length ≤ 1023) (h0 : asString n ≠ []) (h1 : 61 ∉ asString n)
    (hn2 : n2.length ≤ 1023) (he : asString n2 = asString n)
    (hk : ∀ p ∈ assignments (some (asString n)) after, p.1 ≠ asString n) (just : Bool) (size : Nat) :
    (envStep (envRun { environ := environOf vars, argv := argv } (before ++ .set n v :: after)) (.getEnv n2 just size)).2 =
      ⟨false, some (received just size (asString v))⟩ := by
  rw [C77_variable vars hv argv _ n2 hn2 (he ▸ h0) (he ▸ h1), he]
  have hc : chosen (before.foldl chosen none) (.set n v) = some (asString n) := by simp [chosen, hn]
  have hasg : assigns (before.foldl chosen none) (.set n v) = some (asString n, asString v) := by
    have : ¬ (asString n = [] ∨ 61 ∈ asString n) := by simp [h0, h1]
    simp only [assigns, hc, Option.bind_some, if_neg this]
  rw [assignments_append, assignments, hc, hasg]
  have : valueNow vars (assignments none before ++ ((some (asString n, asString v)).toList ++
      assignments (some (asString n)) after)) (asString n) = some (asString v) := by
    unfold valueNow
    simp only [Option.toList_some, List.reverse_append, List.find?_append, List.reverse_singleton]
    rw [List.find?_eq_none.2 (by intro p hp; simp [hk p (by simpa using hp)])]
    simp
  rw [this]
  rfl

example : assignments (some (asString [65, 32])) [.set [66] [49], .getEnv [65] false 3, .argValue true 5] = [([66], [49])] := by
  decide

/-- **C77.** Which statements raise the exception: a name too long; a value when no usable name is chosen; and then no variable
changes (see the assignments in `C77_variable`). -/
theorem C77_raised (vars : List (List Nat × List Nat)) (hv : Vars77 vars) (argv : List (List Nat)) (ops : List EnvOp)
    (n v : List Nat) :
    let st := envRun { environ := environOf vars, argv := argv } ops
    let cur := ops.foldl chosen none
    ((envStep st (.name n)).2.raised = true ↔ 1023 < n.length) ∧
    ((envStep st (.value v)).2.raised = true ↔ assigns cur (.value v) = none) ∧
    ((envStep st (.set n v)).2.raised = true ↔ 1023 < n.length ∨ assigns cur (.set n v) = none) := by
  dsimp only
  have h := env_after vars hv argv ops
  refine ⟨(name_step _ _ _ _ n h).2, (value_step _ _ _ _ v h).2, ?_⟩
  have a := name_step _ _ _ _ n h
  have b := value_step _ _ _ _ v a.1
  show ((displayEnvironment _ n).2 || (displayEnvValue (displayEnvironment _ n).1 v).2) = true ↔ _
  rw [Bool.or_eq_true, a.2, b.2]
  rfl

/-! ### arguments -/

theorem envRun_append (st : PEnv) (xs ys : List EnvOp) : envRun st (xs ++ ys) = envRun (envRun st xs) ys := by
  simp [envRun, List.foldl_append]

theorem argv_step (st : PEnv) (o : EnvOp) : (envStep st o).1.argv = st.argv := by
  cases o with
  | name d => simp only [envStep, displayEnvironment]; split <;> (try split) <;> rfl
  | value v => simp only [envStep, displayEnvValue]; split <;> (try split) <;> (try split) <;> rfl
  | set n v =>
    simp only [envStep, setEnvironment]
    have a : (displayEnvironment st n).1.argv = st.argv := by
      simp only [displayEnvironment]; split <;> (try split) <;> rfl
    rw [← a]
    simp only [displayEnvValue]; split <;> (try split) <;> (try split) <;> rfl
  | argNo e c src =>
    simp only [envStep]
    unfold displayArgNumber
    split
    · rename_i r hr
      split at hr
      · dsimp only at hr
        split at hr <;> (cases hr; rfl)
      · cases hr
    · rfl
  | argValue j s => simp only [envStep, acceptArgValue]; split <;> rfl
  | _ => rfl

theorem argv_run (ops : List EnvOp) : ∀ st, (envRun st ops).argv = st.argv := by
  induction ops with
  | nil => intro st; rfl
  | cons o os ih => intro st; exact (ih _).trans (argv_step st o)

theorem place_step (st : PEnv) (o : EnvOp) (h : KeepsPlace o) (hc : st.curArg ≤ st.argv.length) :
    (envStep st o).1.curArg = min (st.curArg + (if o.isArg then 1 else 0)) st.argv.length := by
  cases o with
  | name d => simp only [envStep, displayEnvironment, EnvOp.isArg]; split <;> (try split) <;> simp [Nat.min_eq_left hc]
  | value v =>
    simp only [envStep, displayEnvValue, EnvOp.isArg]; split <;> (try split) <;> (try split) <;> simp [Nat.min_eq_left hc]
  | set n v =>
    simp only [envStep, setEnvironment, EnvOp.isArg]
    have a : (displayEnvironment st n).1.curArg = st.curArg := by
      simp only [displayEnvironment]; split <;> (try split) <;> rfl
    have b : ∀ s : PEnv, (displayEnvValue s v).1.curArg = s.curArg := by
      intro s; simp only [displayEnvValue]; split <;> (try split) <;> (try split) <;> rfl
    rw [b, a]; simp [Nat.min_eq_left hc]
  | argNo e c src => exact absurd h (by simp [KeepsPlace])
  | argValue j s =>
    simp only [envStep, acceptArgValue, EnvOp.isArg]
    split
    · simp; omega
    · simp; omega
  | _ => simp [envStep, EnvOp.isArg, Nat.min_eq_left hc]

theorem place_run (ops : List EnvOp) : ∀ st : PEnv, (∀ o ∈ ops, KeepsPlace o) → st.curArg ≤ st.argv.length →
    (envRun st ops).curArg = min (st.curArg + ops.countP (fun o => o.isArg)) st.argv.length := by
  induction ops with
  | nil => intro st _ hc; simp [envRun, Nat.min_eq_left hc]
  | cons o os ih =>
    intro st h hc
    have e := place_step st o (h o (by simp)) hc
    have := ih (envStep st o).1 (fun x hx => h x (by simp [hx])) (by rw [e, argv_step]; exact Nat.min_le_right _ _)
    show (envRun (envStep st o).1 os).curArg = _
    rw [this, e, argv_step, List.countP_cons]
    split <;> omega

/-- **C77.** The arguments come in their order: of the ARGUMENT-VALUEs accepted from the start of the run (or from state `st`, at
argument `st.curArg`), with whatever statements between them that do not choose an argument, the next one gives the argument after
the last; after the last argument the exception is raised and the item keeps what it had. -/
theorem C77_arguments (st : PEnv) (hc : st.curArg ≤ st.argv.length) (ops : List EnvOp) (hk : ∀ o ∈ ops, KeepsPlace o)
    (just : Bool) (size : Nat) :
    (envStep (envRun st ops) (.argValue just size)).2 =
      match st.argv[st.curArg + ops.countP (fun o => o.isArg)]? with
      | some a => ⟨false, some (received just size a)⟩
      | none => ⟨true, none⟩ := by
  simp only [envStep, acceptArgValue]
  rw [argv_run, place_run ops st hk hc]
  generalize ops.countP (fun o => o.isArg) = k
  by_cases hl : st.curArg + k < st.argv.length
  · rw [if_neg (by omega), List.getElem?_eq_getElem hl, Nat.min_eq_left (by omega)]
    simp [List.getD_eq_getElem?_getD, hl, memToText_eq]
  · rw [if_pos (by omega), List.getElem?_eq_none (by omega)]

example : (envStep (envRun { environ := [], argv := [[112], [97], [98, 98]] } [.argValue false 1, .putCmd [120]])
    (.argValue false 3)).2 = ⟨false, some [98, 98, 32]⟩ := by
  rw [C77_arguments _ (by decide) _ (by simp [KeepsPlace])]; decide

theorem argItem_wf (n : Nat) : WFItem (argItem n) := by
  refine ⟨by simp [argItem, leBytes_length], by simp [argItem, leBytes_length], ?_⟩
  exact leBytes_lt _ _

theorem argItem_holds (ebc : Bool) (n : Nat) (h : n < 2 ^ 32) : HoldsUnits ebc (argItem n) n := by
  simp only [HoldsUnits, binaryHolds, argItem, Bool.false_eq_true, if_false]
  rw [← leVal_eq, leVal_leBytes, Nat.mod_eq_of_lt (by omega)]

/-- **C77.** ACCEPT FROM ARGUMENT-NUMBER stores the number of arguments (without the program's own name) like any number. -/
theorem C77_argument_count (ebc cut : Bool) (st : PEnv) (dst : Item) (hd : WFItem dst) (ha : st.argv.length < 2 ^ 31)
    (hb : dst.usage = .binary → cut = true ∧ BinaryHasRoom dst.field ∧ dst.field.attr.scale = 0) :
    ∃ it u, acceptArgNumber ebc cut st dst = .done it ∧
      it.usage = dst.usage ∧ it.field.attr = dst.field.attr ∧ WFItem it ∧ HoldsUnits ebc it u ∧
      MovedUnits dst ((st.argv.length - 1 : Nat) : ℚ) u := by
  refine C13_move ebc cut (argItem (st.argv.length - 1)) dst (argItem_wf _) hd _
    ⟨_, argItem_holds ebc _ (by omega), by simp [argItem]⟩ (by intro h; cases h) ?_
  intro h
  obtain ⟨b1, b2, b3⟩ := hb h
  refine ⟨b1, b2, ?_, ?_⟩
  · rw [b3]; simp [argItem, Item.sent]
  · intro t ht
    have := ht.1
    rw [b3, zpow_zero, mul_one, abs_of_nonneg (a := ((st.argv.length - 1 : Nat) : ℚ)) (by exact_mod_cast Nat.zero_le _)] at this
    have h2 : |t| ≤ ((st.argv.length - 1 : Nat) : Int) := by exact_mod_cast this
    have h3 : (t.natAbs : Int) ≤ ((st.argv.length - 1 : Nat) : Int) := by rw [Int.natCast_natAbs]; exact h2
    have : t.natAbs ≤ st.argv.length - 1 := by exact_mod_cast h3
    omega

/-- **C77.** DISPLAY n UPON ARGUMENT-NUMBER, `n` a whole number of up to nine digits: the argument with that number is the
next one accepted (0: the name of the program); the exception is raised, and the place kept, if there is no such argument. -/
theorem C77_choose_argument (ebc : Bool) (st : PEnv) (src : Item) (hs : WFItem src) (n : Nat) (hn : n < 10 ^ 9)
    (hx : Holds ebc src (n : ℚ)) (hsc : src.field.attr.scale = 0)
    (hP : src.usage = .display → src.field.attr.digits = src.field.dsize) :
    envStep st (.argNo ebc true src) =
      if n < st.argv.length then ({ st with curArg := n }, ⟨false, none⟩) else (st, ⟨true, none⟩) := by
  have hroom : BinaryHasRoom (argItem 0).field := by
    simp only [BinaryHasRoom, argItem, leBytes_length]; decide
  obtain ⟨it, u, e1, e2, e3, e4, e5, e6⟩ := C13_move ebc true src (argItem 0) hs (argItem_wf 0) _ hx hP (by
    intro _
    refine ⟨rfl, hroom, ?_, ?_⟩
    · rw [hsc]; simp [argItem]
    · intro t ht
      have := ht.1
      simp only [argItem, zpow_zero, mul_one] at this
      rw [abs_of_nonneg (a := (n : ℚ)) (by exact_mod_cast Nat.zero_le _)] at this
      have h2 : |t| ≤ (n : Int) := by exact_mod_cast this
      have h3 : (t.natAbs : Int) ≤ (n : Int) := by rw [Int.natCast_natAbs]; exact h2
      have : t.natAbs ≤ n := by exact_mod_cast h3
      omega)
  have hval : leVal it.field.data = n := by
    obtain ⟨t, t1, t2⟩ := e6
    have htn : t = (n : Int) := by
      have a := t1.1; have b := t1.2.1; have c := t1.2.2
      simp only [argItem, zpow_zero, mul_one] at a b c
      rw [abs_of_nonneg (a := (n : ℚ)) (by exact_mod_cast Nat.zero_le _)] at a b
      have a' : |t| ≤ (n : Int) := by exact_mod_cast a
      have b' : (n : Int) < |t| + 1 := by exact_mod_cast b
      have c' : 0 ≤ (n : Int) * t := by exact_mod_cast c
      have d : |t| = (n : Int) := by omega
      rcases abs_choice t with h | h
      · omega
      · by_cases hz : n = 0
        · omega
        · exfalso
          have hneg : t = -(n : Int) := by omega
          rw [hneg] at c'
          have : (0 : Int) < (n : Int) * n := by positivity
          have e : (n : Int) * -(n : Int) = -((n : Int) * n) := by ring
          omega
    have hu : u = (n : Int) := by
      rw [t2, htn]
      simp only [argItem, Bool.false_eq_true, if_false, Item.positions]
      rw [Int.natAbs_natCast, Nat.mod_eq_of_lt hn]
    have : binaryHolds it.field u := by
      unfold HoldsUnits at e5; rw [e2] at e5; exact e5
    unfold binaryHolds at this
    rw [e3] at this
    simp only [argItem, Bool.false_eq_true, if_false] at this
    rw [← leVal_eq] at this
    omega
  simp only [envStep, displayArgNumber, e1, hval]
  by_cases h : n < st.argv.length
  · rw [if_neg (by omega), if_pos h]
  · rw [if_pos (by omega), if_neg h]

example : WFItem (argItem 2) ∧ Holds false (argItem 2) ((2 : Nat) : ℚ) ∧
    envStep { environ := [], argv := [[112], [97], [98]] } (.argNo false true (argItem 2)) =
      ({ environ := [], argv := [[112], [97], [98]], curArg := 2 }, ⟨false, none⟩) :=
  ⟨argItem_wf 2, ⟨2, argItem_holds false 2 (by decide), by simp [argItem]⟩,
    C77_choose_argument false _ (argItem 2) (argItem_wf 2) 2 (by decide)
      ⟨2, argItem_holds false 2 (by decide), by simp [argItem]⟩ rfl (by intro h; cases h)⟩

/-! ### the command line -/

theorem cmd_step (st : PEnv) (o : EnvOp) : (envStep st o).1.cmd = (lastCmd [o]).getD st.cmd := by
  cases o with
  | name d => simp only [envStep, displayEnvironment, lastCmd]; split <;> (try split) <;> rfl
  | value v => simp only [envStep, displayEnvValue, lastCmd]; split <;> (try split) <;> (try split) <;> rfl
  | set n v =>
    simp only [envStep, setEnvironment, lastCmd]
    have a : (displayEnvironment st n).1.cmd = st.cmd := by
      simp only [displayEnvironment]; split <;> (try split) <;> rfl
    have b : ∀ s : PEnv, (displayEnvValue s v).1.cmd = s.cmd := by
      intro s; simp only [displayEnvValue]; split <;> (try split) <;> (try split) <;> rfl
    rw [b, a]; rfl
  | argNo e c src =>
    simp only [envStep, lastCmd]
    unfold displayArgNumber
    split
    · rename_i r hr
      split at hr
      · dsimp only at hr
        split at hr <;> (cases hr; rfl)
      · cases hr
    · rfl
  | argValue j s => simp only [envStep, acceptArgValue, lastCmd]; split <;> rfl
  | putCmd d => rfl
  | _ => rfl

theorem cmd_run (ops : List EnvOp) : ∀ st, (envRun st ops).cmd = (lastCmd ops).getD st.cmd := by
  induction ops with
  | nil => intro st; rfl
  | cons o os ih =>
    intro st
    have := ih (envStep st o).1
    rw [cmd_step] at this
    show (envRun (envStep st o).1 os).cmd = _
    rw [this]
    cases o <;> simp [lastCmd]

theorem joinArgs_all (as : List (List Nat)) : ∀ buff : List Nat,
    buff.length + (as.flatMap (fun a => a ++ [32])).length ≤ 8192 →
      joinArgs buff as = buff ++ as.flatMap (fun a => a ++ [32]) := by
  induction as with
  | nil => intro buff _; simp [joinArgs]
  | cons a as ih =>
    intro buff h
    simp only [List.flatMap_cons, List.length_append, List.length_singleton] at h
    rw [joinArgs, if_neg (by omega), ih _ (by simp only [List.length_append, List.length_singleton]; omega)]
    simp [List.append_assoc]

/-- **C77.** ACCEPT FROM COMMAND-LINE gives the text last displayed upon the command line; without one (or an empty one), the
arguments in their order with a space after each, if that is at most 8192 characters. -/
theorem C77_command_line (environ argv : List (List Nat)) (ops : List EnvOp) (just : Bool) (size : Nat) :
    (∀ d, lastCmd ops = some d → d ≠ [] →
      (envStep (envRun { environ := environ, argv := argv } ops) (.getCmd just size)).2 =
        ⟨false, some (received just size d)⟩) ∧
    (((argv.drop 1).flatMap (fun a => a ++ [32])).length ≤ 8192 → (lastCmd ops).getD [] = [] →
      (envStep (envRun { environ := environ, argv := argv } ops) (.getCmd just size)).2 =
        ⟨false, some (received just size ((argv.drop 1).flatMap (fun a => a ++ [32])))⟩) := by
  simp only [envStep, acceptCommandLine]
  rw [cmd_run, argv_run]
  constructor
  · intro d h hd
    rw [h, Option.getD_some, if_pos (by simpa using hd), memToText_eq]
  · intro h1 h2
    rw [if_neg (by simp [h2]), memToText_eq, joinArgs_all _ [] (by simpa using h1), List.nil_append]

theorem joinArgs_prefix (as : List (List Nat)) : ∀ buff : List Nat,
    joinArgs buff as = buff ++ (as.take (as.length)).flatMap (fun a => a ++ [32]) ∨
    ∃ k a, k < as.length ∧ as[k]? = some a ∧
      8192 ≤ buff.length + ((as.take k).flatMap (fun a => a ++ [32])).length + a.length ∧
      joinArgs buff as = buff ++ (as.take k).flatMap (fun a => a ++ [32]) := by
  induction as with
  | nil => intro buff; left; simp [joinArgs]
  | cons a as ih =>
    intro buff
    rw [joinArgs]
    by_cases h : buff.length + a.length ≥ 8192
    · rw [if_pos h]
      right
      exact ⟨0, a, by simp, rfl, by simpa using h, by simp⟩
    · rw [if_neg h]
      rcases ih (buff ++ a ++ [32]) with e | ⟨k, b, hk, hb, hl, e⟩
      · left; rw [e]; simp [List.append_assoc]
      · right
        refine ⟨k + 1, b, by simpa using hk, by simpa using hb, ?_, ?_⟩
        · simp only [List.take_succ_cons, List.flatMap_cons, List.length_append, List.length_singleton] at hl ⊢
          omega
        · rw [e]; simp [List.append_assoc]

/-- **C77.** A command line that is too long ends before the first argument that does not fit in 8191 characters: no argument is
cut. -/
theorem C77_long_command_line (environ argv : List (List Nat)) (just : Bool) (size : Nat)
    (h : 8192 < ((argv.drop 1).flatMap (fun a => a ++ [32])).length) :
    ∃ k a, (argv.drop 1)[k]? = some a ∧ 8192 ≤ (((argv.drop 1).take k).flatMap (fun a => a ++ [32])).length + a.length ∧
      (envStep { environ := environ, argv := argv } (.getCmd just size)).2 =
        ⟨false, some (received just size (((argv.drop 1).take k).flatMap (fun a => a ++ [32])))⟩ ∧
      (((argv.drop 1).take k).flatMap (fun a => a ++ [32])).length ≤ 8192 := by
  have hlen : ∀ (as : List (List Nat)) (buff : List Nat), buff.length ≤ 8192 → (joinArgs buff as).length ≤ 8192 := by
    intro as
    induction as with
    | nil => intro buff hb; exact hb
    | cons a as ih =>
      intro buff hb
      rw [joinArgs]
      split
      · exact hb
      · exact ih _ (by simp only [List.length_append, List.length_singleton]; omega)
  have hl := hlen (argv.drop 1) [] (by simp)
  rcases joinArgs_prefix (argv.drop 1) [] with e | ⟨k, a, hk, ha, h1, e⟩
  · rw [e, List.take_length, List.nil_append] at hl; omega
  · rw [List.nil_append] at e
    refine ⟨k, a, ha, by simpa using h1, ?_, by rw [← e]; exact hl⟩
    simp only [envStep, acceptCommandLine]
    rw [if_neg (by simp), memToText_eq, e]

/-- **C77.** The items of PROCEDURE DIVISION CHAINING hold the arguments of the command line by position, spaces where there is
none. -/
theorem C77_chaining (prog : List Nat) (args : List (List Nat)) (i size : Nat) :
    chainSetup (prog :: args) (i + 1) size = received false size ((args[i]?).getD []) := by
  unfold chainSetup received
  simp only [List.length_cons, Nat.add_sub_cancel, Bool.false_eq_true, if_false]
  by_cases h : i < args.length
  · rw [if_pos (by omega)]
    have e : (prog :: args).getD (i + 1) [] = args[i] := by simp [List.getD_eq_getElem?_getD, h]
    rw [e, List.getElem?_eq_getElem h, Option.getD_some]
    split
    · rw [List.take_append, List.take_of_length_le (by omega), List.take_replicate, List.drop_replicate]
      congr 2; omega
    · rw [List.take_append_of_le_length (by omega)]
  · rw [if_neg (by omega), List.getElem?_eq_none (by omega)]
    simp

/-- Finding: SET ENVIRONMENT with a name of 1024 or more bytes gives the exception but assigns the value all the same, to the variable
whose name was chosen before. -/
theorem C77_finding_long_name :
    (envStep (envRun { environ := [], argv := [[112]] } [.set [65] [49]]) (.set (List.replicate 1024 66) [50])) =
      ({ environ := [[65, 61, 50]], argv := [[112]], name := some [65] }, ⟨true, none⟩) := by decide +kernel

/-- Finding: DISPLAY -1 UPON ARGUMENT-NUMBER is not refused: the sign is lost and argument 1 is chosen. -/
theorem C77_finding_negative :
    (envStep { environ := [], argv := [[112], [97], [98]], curArg := 2 }
      (.argNo false true ⟨.display, ⟨{ digits := 1, haveSign := true }, [113]⟩⟩)) =
      ({ environ := [], argv := [[112], [97], [98]], curArg := 1 }, ⟨false, none⟩) := by decide +kernel

/-- Finding: a name with an equal sign is not refused by ACCEPT: `A=B` reads the end of the value of `A`. -/
theorem C77_finding_equal_sign :
    (envStep { environ := environOf [([65], [66, 61, 67])], argv := [[112]] } (.getEnv [65, 61, 66] false 2)).2 =
      ⟨false, some [67, 32]⟩ := by decide +kernel

end Cob
