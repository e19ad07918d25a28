import Verif.Cobc.PerformSpec
/-
The generated code simulates the meaning of the procedure division (lemmas for C55).
-/
namespace Cob

variable {σ : Type}

/-! ### Code at an address -/

/-- The instructions `xs` stand at address `p`. -/
def CodeAt (code : List (PIns σ)) (p : Nat) (xs : List (PIns σ)) : Prop :=
  ∀ i x, xs[i]? = some x → code[p + i]? = some x

theorem codeAt_append {code : List (PIns σ)} {p : Nat} {xs ys : List (PIns σ)} :
    CodeAt code p (xs ++ ys) ↔ CodeAt code p xs ∧ CodeAt code (p + xs.length) ys := by
  constructor
  · intro h
    constructor
    · intro i x hi
      refine h i x ?_
      rw [List.getElem?_append_left (List.getElem?_eq_some_iff.1 hi).1]; exact hi
    · intro i x hi
      have := h (xs.length + i) x (by rw [List.getElem?_append_right (by omega)]; simpa using hi)
      rw [← Nat.add_assoc] at this; exact this
  · rintro ⟨h1, h2⟩ i x hi
    by_cases hlt : i < xs.length
    · rw [List.getElem?_append_left hlt] at hi
      exact h1 i x hi
    · rw [List.getElem?_append_right (by omega)] at hi
      have := h2 _ _ hi
      rw [show p + xs.length + (i - xs.length) = p + i by omega] at this
      exact this

theorem codeAt_cons {code : List (PIns σ)} {p : Nat} {x : PIns σ} {xs : List (PIns σ)} :
    CodeAt code p (x :: xs) ↔ code[p]? = some x ∧ CodeAt code (p + 1) xs := by
  have := codeAt_append (code := code) (p := p) (xs := [x]) (ys := xs)
  simp only [List.singleton_append, List.length_singleton] at this
  rw [this]
  constructor
  · rintro ⟨h, h'⟩; exact ⟨h 0 x rfl, h'⟩
  · rintro ⟨h, h'⟩
    refine ⟨?_, h'⟩
    intro i y hi
    match i with
    | 0 => simp only [List.length_cons, List.length_nil, List.getElem?_cons_zero, Option.some.injEq] at hi; subst hi; exact h
    | i + 1 => simp at hi

theorem nestCode_length (t : Bool) (b : Nat) (bc : Nat → Nat → List (PIns σ)) (hb : ∀ p c, (bc p c).length = b) :
    ∀ (vs : List (Vary σ)) (p : Nat), (nestCode t b bc p vs).length = nestSize b vs
  | [], p => by simp [nestCode, nestSize, hb]
  | v :: vs, p => by
    have := nestCode_length t b bc hb vs
    cases t <;> simp [nestCode, nestSize, this] <;> omega

theorem howCode_length (b : Nat) (bc : Nat → Nat → List (PIns σ)) (hb : ∀ p c, (bc p c).length = b)
    (h : How σ) (p : Nat) : (howCode b bc p h).length = howSize b h := by
  cases h with
  | once => simp [howCode, howSize, hb]
  | times k c => simp [howCode, howSize, hb]
  | vary t v vs =>
    simp only [howCode, howSize, List.length_append, nestCode_length t b bc hb, nestSize,
      List.length_cons, List.length_nil]
    omega
  | forever => simp [howCode, howSize, hb]

theorem comp_length (lab : Nat → Nat) : ∀ (st : PStmt σ) (brk cyc p : Nat),
    (st.comp lab brk cyc p).length = st.size
  | .skip, _, _, _ => rfl
  | .act _, _, _, _ => rfl
  | .seq a b, brk, cyc, p => by simp [PStmt.comp, PStmt.size, comp_length lab a, comp_length lab b]
  | .ite c a b, brk, cyc, p => by
    simp [PStmt.comp, PStmt.size, comp_length lab a, comp_length lab b]; omega
  | .goto _, _, _, _ => rfl
  | .gotoDep _ _, _, _, _ => rfl
  | .perform b e h, brk, cyc, p => by
    simp only [PStmt.comp, PStmt.size]
    exact howCode_length 2 _ (fun _ _ => rfl) h p
  | .inline h body, brk, cyc, p => by
    simp only [PStmt.comp, PStmt.size]
    exact howCode_length body.size _ (fun q c => comp_length lab body _ c q) h p
  | .exitPerform, _, _, _ => rfl
  | .cycle, _, _, _ => rfl
  | .stop, _, _, _ => rfl

/-! ### Steps -/

theorem steps_add (code : List (PIns σ)) : ∀ (a b : Nat) (m m' : PMach σ), m.steps code a = some m' →
    m.steps code (a + b) = m'.steps code b
  | 0, b, m, m', h => by
    simp only [PMach.steps, Option.some.injEq] at h
    subst h; rw [Nat.zero_add]
  | a + 1, b, m, m', h => by
    rw [PMach.steps] at h
    cases hs : m.step code with
    | none => rw [hs] at h; simp at h
    | some m1 =>
      rw [hs] at h
      simp only [Option.bind_some] at h
      rw [show a + 1 + b = (a + b) + 1 by omega, PMach.steps, hs]
      simp only [Option.bind_some]
      exact steps_add code a b m1 m' h

theorem steps_trans {code : List (PIns σ)} {a b : Nat} {m m' m'' : PMach σ}
    (h1 : m.steps code a = some m') (h2 : m'.steps code b = some m'') :
    m.steps code (a + b) = some m'' := by rw [steps_add code a b m m' h1, h2]

theorem steps_one {code : List (PIns σ)} {m m' : PMach σ} (h : m.step code = some m') :
    m.steps code 1 = some m' := by simp [PMach.steps, h]

/-- The counters of the active loops are unchanged. -/
def Keeps (active : List Nat) (c c' : Nat → Int) : Prop := ∀ k ∈ active, c' k = c k

theorem Keeps.refl (active : List Nat) (c : Nat → Int) : Keeps active c c := fun _ _ => rfl

theorem Keeps.trans {active : List Nat} {c c' c'' : Nat → Int} (h : Keeps active c c')
    (h' : Keeps active c' c'') : Keeps active c c'' := fun k hk => by rw [h' k hk, h k hk]

/-! ### Simulation -/

/-- Started at `p`, the machine does what the outcome says: it arrives at `q` for a normal outcome,
at the label for GO TO, at `brk` or `cyc`, or ends; the frames are as before, the counters of the
active loops too.  When the interpreter needs more depth, at least `n` instructions are executed. -/
def Sim (code : List (PIns σ)) (lab : Nat → Nat) (p q brk cyc : Nat) (active : List Nat)
    (fs : List (Nat × Nat)) (n : Nat) (c : Nat → Int) (s : σ) (o : POut σ) : Prop :=
  let goes (a : Nat) (s' : σ) : Prop := ∃ k c', 1 ≤ k ∧
    PMach.steps code k ⟨p, fs, c, s⟩ = some ⟨a, fs, c', s'⟩ ∧ Keeps active c c'
  match o with
  | .normal s' => goes q s'
  | .goto l s' => goes (lab l) s'
  | .brk s' => goes brk s'
  | .cyc s' => goes cyc s'
  | .stop s' => ∃ k m, PMach.steps code k ⟨p, fs, c, s⟩ = some m ∧ m.Ended code ∧ m.st = s'
  | .bad => True
  | .more => ∃ k m, n ≤ k ∧ PMach.steps code k ⟨p, fs, c, s⟩ = some m

/-- Some instructions in front. -/
theorem Sim.after {code : List (PIns σ)} {lab : Nat → Nat} {p p1 q brk cyc : Nat} {active : List Nat}
    {fs : List (Nat × Nat)} {n n1 k : Nat} {c c1 : Nat → Int} {s s1 : σ} {o : POut σ}
    (h1 : PMach.steps code k ⟨p, fs, c, s⟩ = some ⟨p1, fs, c1, s1⟩) (hk : Keeps active c c1)
    (hn : n ≤ k + n1) (h : Sim code lab p1 q brk cyc active fs n1 c1 s1 o) :
    Sim code lab p q brk cyc active fs n c s o := by
  have go : ∀ (a : Nat) (s' : σ), (∃ k' c', 1 ≤ k' ∧
      PMach.steps code k' ⟨p1, fs, c1, s1⟩ = some ⟨a, fs, c', s'⟩ ∧ Keeps active c1 c') →
      ∃ k' c', 1 ≤ k' ∧ PMach.steps code k' ⟨p, fs, c, s⟩ = some ⟨a, fs, c', s'⟩ ∧ Keeps active c c' := by
    rintro a s' ⟨k', c', h2, h3, h4⟩
    exact ⟨k + k', c', by omega, steps_trans h1 h3, hk.trans h4⟩
  cases o with
  | normal s' => exact go _ _ h
  | goto l s' => exact go _ _ h
  | brk s' => exact go _ _ h
  | cyc s' => exact go _ _ h
  | stop s' =>
    obtain ⟨k', m, h2, h3, h4⟩ := h
    exact ⟨k + k', m, steps_trans h1 h2, h3, h4⟩
  | bad => trivial
  | more =>
    obtain ⟨k', m, h2, h3⟩ := h
    exact ⟨k + k', m, by omega, steps_trans h1 h3⟩

theorem Sim.mono {code : List (PIns σ)} {lab : Nat → Nat} {p q brk cyc : Nat} {active : List Nat}
    {fs : List (Nat × Nat)} {n n1 : Nat} {c : Nat → Int} {s : σ} {o : POut σ} (hn : n ≤ n1)
    (h : Sim code lab p q brk cyc active fs n1 c s o) : Sim code lab p q brk cyc active fs n c s o := by
  cases o with
  | more =>
    obtain ⟨k', m, h2, h3⟩ := h
    exact ⟨k', m, by omega, h3⟩
  | _ => exact h

theorem Sim.weaken {code : List (PIns σ)} {lab : Nat → Nat} {p q brk cyc : Nat} {active active' : List Nat}
    {fs : List (Nat × Nat)} {n : Nat} {c : Nat → Int} {s : σ} {o : POut σ} (ha : ∀ k ∈ active', k ∈ active)
    (h : Sim code lab p q brk cyc active fs n c s o) : Sim code lab p q brk cyc active' fs n c s o := by
  cases o with
  | more => exact h
  | bad => exact h
  | stop s' => exact h
  | _ =>
    obtain ⟨k', c', h2, h3, h4⟩ := h
    exact ⟨k', c', h2, h3, fun k hk => h4 k (ha k hk)⟩

theorem Sim.passed {code : List (PIns σ)} {lab : Nat → Nat} {p q brk : Nat} {active : List Nat}
    {fs : List (Nat × Nat)} {n : Nat} {c : Nat → Int} {s : σ} {o : POut σ} (cyc : Nat)
    (h : Sim code lab p q brk q active fs n c s o) : Sim code lab p q brk cyc active fs n c s o.pass := by
  cases o <;> exact h

theorem Sim.caught {code : List (PIns σ)} {lab : Nat → Nat} {p q cyc : Nat} {active : List Nat}
    {fs : List (Nat × Nat)} {n : Nat} {c : Nat → Int} {s : σ} {o : POut σ} (brk : Nat)
    (h : Sim code lab p q q cyc active fs n c s o) : Sim code lab p q brk cyc active fs n c s o.caught := by
  cases o <;> exact h

/-- A block that goes on with another one when it ends normally. -/
theorem Sim.bind {code : List (PIns σ)} {lab : Nat → Nat} {p q q' brk cyc : Nat} {active : List Nat}
    {fs : List (Nat × Nat)} {n n1 n2 : Nat} {c : Nat → Int} {s : σ} {o : POut σ} {f : σ → POut σ}
    (h : Sim code lab p q brk cyc active fs n1 c s o) (hn1 : n ≤ n1) (hn2 : n ≤ n2 + 1)
    (hf : ∀ c' s', Keeps active c c' → Sim code lab q q' brk cyc active fs n2 c' s' (f s')) :
    Sim code lab p q' brk cyc active fs n c s (o.andThen f) := by
  cases o with
  | normal s' =>
    obtain ⟨k', c', h2, h3, h4⟩ := h
    exact Sim.after h3 h4 (by omega) (hf c' s' h4)
  | more => exact h.mono hn1
  | _ => exact h

variable {code : List (PIns σ)} {lab : Nat → Nat} {fs : List (Nat × Nat)}

/-! #### the loops -/

theorem passes_sim {p b q cyc k n : Nat} {active : List Nat} {body : σ → POut σ} (hk : k ∉ active)
    (h1 : code[p + 1]? = some (.jdone k q)) (h2 : code[p + 2 + b]? = some (.dec k))
    (h3 : code[p + 2 + b + 1]? = some (.jmp (p + 1)))
    (hb : ∀ c s, Sim code lab (p + 2) (p + 2 + b) q cyc (k :: active) fs n c s (body s)) :
    ∀ (m : Nat) (c : Nat → Int) (s : σ), (c k).toNat = m →
      Sim code lab (p + 1) q q cyc active fs n c s (passes body m s)
  | 0, c, s, hm => by
    refine ⟨1, c, Nat.le_refl _, steps_one ?_, .refl _ _⟩
    simp only [PMach.step, h1]
    rw [if_neg (by omega)]
  | m + 1, c, s, hm => by
    rw [passes]
    have hst : PMach.steps code 1 ⟨p + 1, fs, c, s⟩ = some ⟨p + 2, fs, c, s⟩ := by
      refine steps_one ?_
      simp only [PMach.step, h1]
      rw [if_pos (by omega)]
    refine Sim.after hst (.refl _ _) (n1 := n) (by omega) ?_
    cases ho : body s with
    | normal s' =>
      have := hb c s
      rw [ho] at this
      obtain ⟨k', c', h5, h6, h7⟩ := this
      have h8 : PMach.steps code 1 ⟨p + 2 + b, fs, c', s'⟩ =
          some ⟨p + 2 + b + 1, fs, fun j => if j = k then c' k - 1 else c' j, s'⟩ := by
        refine steps_one ?_
        simp only [PMach.step, h2]
      have h9 : PMach.steps code 1 ⟨p + 2 + b + 1, fs, fun j => if j = k then c' k - 1 else c' j, s'⟩ =
          some ⟨p + 1, fs, fun j => if j = k then c' k - 1 else c' j, s'⟩ := by
        refine steps_one ?_
        simp only [PMach.step, h3]
      refine Sim.after (steps_trans h6 (steps_trans h8 h9)) (c1 := fun j => if j = k then c' k - 1 else c' j)
        ?_ (n1 := n) (by omega) ?_
      · intro j hj
        have : j ≠ k := fun e => hk (e ▸ hj)
        simp only [this, if_false]
        exact h7 j (List.mem_cons_of_mem _ hj)
      · refine passes_sim hk h1 h2 h3 hb m _ s' ?_
        simp only [if_true]
        rw [h7 k List.mem_cons_self]
        omega
    | _ =>
      have := (hb c s).weaken (active' := active) (fun j hj => List.mem_cons_of_mem _ hj)
      rw [ho] at this
      exact this

theorem endless_sim {p b q cyc n : Nat} {active : List Nat} {body : σ → POut σ}
    (h1 : code[p + b]? = some (.jmp p))
    (hb : ∀ c s, Sim code lab p (p + b) q cyc active fs n c s (body s)) :
    ∀ (m : Nat) (c : Nat → Int) (s : σ), m ≤ n →
      Sim code lab p q q cyc active fs m c s (endless body m s)
  | 0, c, s, _ => ⟨0, _, Nat.le_refl _, rfl⟩
  | m + 1, c, s, hm => by
    rw [endless]
    refine Sim.bind (n1 := n) (n2 := m) (hb c s) hm (Nat.le_refl _) ?_
    intro c' s' _
    have hst : PMach.steps code 1 ⟨p + b, fs, c', s'⟩ = some ⟨p, fs, c', s'⟩ := by
      refine steps_one ?_
      simp only [PMach.step, h1]
    exact Sim.after hst (.refl _ _) (n1 := m) (by omega) (endless_sim h1 hb m c' s' (by omega))

theorem varying_sim {b Q cyc n : Nat} {active : List Nat} {t : Bool} {bc : Nat → Nat → List (PIns σ)}
    (hlen : ∀ p c, (bc p c).length = b) {body : σ → POut σ}
    (hb : ∀ p, CodeAt code p (bc p (p + b)) → ∀ c s, Sim code lab p (p + b) Q cyc active fs n c s (body s)) :
    ∀ (vs : List (Vary σ)) (p : Nat), CodeAt code p (nestCode t b bc p vs) → ∀ c s,
      Sim code lab p (p + nestSize b vs) Q cyc active fs n c s (varying t n body vs s)
  | [], p, hat, c, s => hb p hat c s
  | v :: vs, p, hat, c, s => by
    have ih := varying_sim (t := t) hlen hb vs
    have hnl := nestCode_length t b bc hlen vs
    have hq : p + nestSize b vs + 4 = p + nestSize b (v :: vs) := by
      simp only [nestSize, List.length_cons]; omega
    rw [varying]
    generalize varying t n body vs = inner at ih
    cases t with
    | true =>
      simp only [nestCode, if_true, List.cons_append, List.nil_append] at hat
      obtain ⟨i1, hat⟩ := codeAt_cons.1 hat
      obtain ⟨i2, hat⟩ := codeAt_append.1 hat
      rw [hnl] at hat
      obtain ⟨i3, hat⟩ := codeAt_cons.1 hat
      obtain ⟨i4, hat⟩ := codeAt_cons.1 hat
      obtain ⟨i5, _⟩ := codeAt_cons.1 hat
      have key : ∀ (m : Nat) (c : Nat → Int) (s : σ), m ≤ n →
          Sim code lab p (p + nestSize b (v :: vs)) Q cyc active fs m c s
            (untilLoop true (initOf vs) v inner m s) := by
        intro m
        induction m with
        | zero => intro c s _; exact ⟨0, _, Nat.le_refl _, rfl⟩
        | succ m ihm =>
          intro c s hm
          rw [untilLoop, if_neg (by simp)]
          have h1 : PMach.steps code 1 ⟨p, fs, c, s⟩ = some ⟨p + 1, fs, c, initOf vs s⟩ := by
            refine steps_one ?_
            simp only [PMach.step, i1]
          refine Sim.after h1 (.refl _ _) (n1 := m) (by omega) ?_
          refine Sim.bind (n1 := n) (n2 := m) (ih (p + 1) i2 c (initOf vs s)) (by omega) (by omega) ?_
          intro c' s' _
          by_cases hs : v.stopIf s' = true
          · rw [if_pos ⟨rfl, hs⟩]
            refine ⟨1, c', Nat.le_refl _, steps_one ?_, .refl _ _⟩
            simp only [PMach.step, i3]
            rw [if_pos hs, hq]
          · rw [if_neg (fun h => hs h.2)]
            have h2 : PMach.steps code 1 ⟨p + 1 + nestSize b vs, fs, c', s'⟩ =
                some ⟨p + 1 + nestSize b vs + 1, fs, c', s'⟩ := by
              refine steps_one ?_
              simp only [PMach.step, i3]
              rw [if_neg hs]
            have h3 : PMach.steps code 1 ⟨p + 1 + nestSize b vs + 1, fs, c', s'⟩ =
                some ⟨p + 1 + nestSize b vs + 1 + 1, fs, c', v.step s'⟩ := by
              refine steps_one ?_
              simp only [PMach.step, i4]
            have h4 : PMach.steps code 1 ⟨p + 1 + nestSize b vs + 1 + 1, fs, c', v.step s'⟩ =
                some ⟨p, fs, c', v.step s'⟩ := by
              refine steps_one ?_
              simp only [PMach.step, i5]
            exact Sim.after (steps_trans h2 (steps_trans h3 h4)) (.refl _ _) (n1 := m) (by omega)
              (ihm c' (v.step s') (by omega))
      exact key n c s (Nat.le_refl _)
    | false =>
      simp only [nestCode, Bool.false_eq_true, if_false, List.cons_append, List.nil_append] at hat
      obtain ⟨i1, hat⟩ := codeAt_cons.1 hat
      obtain ⟨i2, hat⟩ := codeAt_cons.1 hat
      obtain ⟨i3, hat⟩ := codeAt_append.1 hat
      rw [hnl] at hat
      obtain ⟨i4, hat⟩ := codeAt_cons.1 hat
      obtain ⟨i5, _⟩ := codeAt_cons.1 hat
      have key : ∀ (m : Nat) (c : Nat → Int) (s : σ), m ≤ n →
          Sim code lab p (p + nestSize b (v :: vs)) Q cyc active fs m c s
            (untilLoop false (initOf vs) v inner m s) := by
        intro m
        induction m with
        | zero => intro c s _; exact ⟨0, _, Nat.le_refl _, rfl⟩
        | succ m ihm =>
          intro c s hm
          rw [untilLoop]
          have h1 : PMach.steps code 1 ⟨p, fs, c, s⟩ = some ⟨p + 1, fs, c, initOf vs s⟩ := by
            refine steps_one ?_
            simp only [PMach.step, i1]
          refine Sim.after h1 (.refl _ _) (n1 := m) (by omega) ?_
          by_cases hs : v.stopIf (initOf vs s) = true
          · rw [if_pos ⟨rfl, hs⟩]
            refine ⟨1, c, Nat.le_refl _, steps_one ?_, .refl _ _⟩
            simp only [PMach.step, i2]
            rw [if_pos hs, hq]
          · rw [if_neg (fun h => hs h.2)]
            have h2 : PMach.steps code 1 ⟨p + 1, fs, c, initOf vs s⟩ =
                some ⟨p + 1 + 1, fs, c, initOf vs s⟩ := by
              refine steps_one ?_
              simp only [PMach.step, i2]
              rw [if_neg hs]
            refine Sim.after h2 (.refl _ _) (n1 := m) (by omega) ?_
            refine Sim.bind (n1 := n) (n2 := m) (ih (p + 1 + 1) i3 c (initOf vs s)) (by omega) (by omega) ?_
            intro c' s' _
            rw [if_neg (by simp)]
            have h3 : PMach.steps code 1 ⟨p + 1 + 1 + nestSize b vs, fs, c', s'⟩ =
                some ⟨p + 1 + 1 + nestSize b vs + 1, fs, c', v.step s'⟩ := by
              refine steps_one ?_
              simp only [PMach.step, i4]
            have h4 : PMach.steps code 1 ⟨p + 1 + 1 + nestSize b vs + 1, fs, c', v.step s'⟩ =
                some ⟨p, fs, c', v.step s'⟩ := by
              refine steps_one ?_
              simp only [PMach.step, i5]
            exact Sim.after (steps_trans h3 h4) (.refl _ _) (n1 := m) (by omega)
              (ihm c' (v.step s') (by omega))
      exact key n c s (Nat.le_refl _)

/-- A PERFORM with a body that is simulated. -/
theorem how_sim {b n p : Nat} {bc : Nat → Nat → List (PIns σ)} (hlen : ∀ p c, (bc p c).length = b)
    (h : How σ) {body : List Nat → σ → POut σ}
    (hb : ∀ q, CodeAt code q (bc q (q + b)) → ∀ active c s,
      Sim code lab q (q + b) (p + howSize b h) (q + b) active fs (n + 1) c s (body active s))
    (hat : CodeAt code p (howCode b bc p h)) (brk cyc : Nat) (active : List Nat) (c : Nat → Int) (s : σ) :
    Sim code lab p (p + howSize b h) brk cyc active fs (n + 1) c s (h.exec n body active s) := by
  cases h with
  | once =>
    exact Sim.caught brk ((hb p hat active c s).passed cyc)
  | times k cnt =>
    simp only [How.exec]
    by_cases hk : k ∈ active
    · rw [if_pos hk]; trivial
    · rw [if_neg hk]
      simp only [howCode, List.cons_append, List.nil_append] at hat
      obtain ⟨i1, hat⟩ := codeAt_cons.1 hat
      obtain ⟨i2, hat⟩ := codeAt_cons.1 hat
      obtain ⟨i3, hat⟩ := codeAt_append.1 hat
      rw [hlen] at hat
      obtain ⟨i4, hat⟩ := codeAt_cons.1 hat
      obtain ⟨i5, _⟩ := codeAt_cons.1 hat
      have h1 : PMach.steps code 1 ⟨p, fs, c, s⟩ =
          some ⟨p + 1, fs, fun j => if j = k then cnt s else c j, s⟩ := by
        refine steps_one ?_
        simp only [PMach.step, i1]
      refine Sim.after h1 (c1 := fun j => if j = k then cnt s else c j) ?_ (n1 := n + 1) (by omega) ?_
      · intro j hj
        have : j ≠ k := fun e => hk (e ▸ hj)
        simp only [this, if_false]
      · refine Sim.caught brk ?_
        refine passes_sim (p := p) (b := b) (n := n + 1) hk i2 i4 i5 ?_ _ _ _ (by simp)
        intro c' s'
        exact (hb (p + 2) i3 (k :: active) c' s').passed cyc
  | vary t v vs =>
    simp only [How.exec, howCode, List.cons_append, List.nil_append] at hat ⊢
    obtain ⟨i1, hat⟩ := codeAt_cons.1 hat
    have h1 : PMach.steps code 1 ⟨p, fs, c, s⟩ = some ⟨p + 1, fs, c, v.init s⟩ := by
      refine steps_one ?_
      simp only [PMach.step, i1]
    refine Sim.after h1 (.refl _ _) (n1 := n) (by omega) ?_
    refine Sim.caught brk ?_
    have hq : p + howSize b (.vary t v vs) = p + 1 + nestSize b (v :: vs) := by
      simp only [howSize, nestSize, List.length_cons]; omega
    rw [hq]
    rw [hq] at hb
    refine varying_sim hlen ?_ (v :: vs) (p + 1) hat c (v.init s)
    intro q hq c' s'
    exact ((hb q hq active c' s').passed cyc).mono (by omega)
  | forever =>
    simp only [How.exec, howCode] at hat ⊢
    obtain ⟨i1, hat⟩ := codeAt_append.1 hat
    rw [hlen] at hat
    obtain ⟨i2, _⟩ := codeAt_cons.1 hat
    refine Sim.caught brk ?_
    refine endless_sim i2 ?_ (n + 1) c s (Nat.le_refl _)
    intro c' s'
    exact (hb p i1 active c' s').passed cyc

/-! #### statements -/

/-- Execution of a performed range with frame `(e, r)` on top: it comes back to `r`. -/
def RunSim (code : List (PIns σ)) (p r : Nat) (active : List Nat) (fs : List (Nat × Nat)) (n : Nat)
    (c : Nat → Int) (s : σ) (o : POut σ) : Prop :=
  match o with
  | .normal s' => ∃ k c', 1 ≤ k ∧
    PMach.steps code k ⟨p, fs, c, s⟩ = some ⟨r, fs, c', s'⟩ ∧ Keeps active c c'
  | .goto _ _ => False
  | .brk _ => False
  | .cyc _ => False
  | .stop s' => ∃ k m, PMach.steps code k ⟨p, fs, c, s⟩ = some m ∧ m.Ended code ∧ m.st = s'
  | .bad => True
  | .more => ∃ k m, n ≤ k ∧ PMach.steps code k ⟨p, fs, c, s⟩ = some m

theorem exec_sim {n : Nat} {run : List Nat → Nat → Nat → Nat → σ → POut σ}
    (hrun : ∀ active e b s c r fs, fs.length < maxFrames →
      RunSim code (lab b) r active ((e, r) :: fs) n c s (run active (fs.length + 1) e b s)) :
    ∀ (st : PStmt σ) (brk cyc p : Nat), CodeAt code p (st.comp lab brk cyc p) →
      ∀ (active : List Nat) (c : Nat → Int) (s : σ),
        Sim code lab p (p + st.size) brk cyc active fs (n + 1) c s (st.exec run n active fs.length s)
  | .skip, brk, cyc, p, hat, active, c, s => by
    obtain ⟨i1, _⟩ := codeAt_cons.1 hat
    refine ⟨1, c, Nat.le_refl _, steps_one ?_, .refl _ _⟩
    simp only [PMach.step, i1, PStmt.size]
  | .act f, brk, cyc, p, hat, active, c, s => by
    obtain ⟨i1, _⟩ := codeAt_cons.1 hat
    refine ⟨1, c, Nat.le_refl _, steps_one ?_, .refl _ _⟩
    simp only [PMach.step, i1, PStmt.size]
  | .seq a b, brk, cyc, p, hat, active, c, s => by
    simp only [PStmt.comp] at hat
    obtain ⟨i1, i2⟩ := codeAt_append.1 hat
    rw [comp_length] at i2
    simp only [PStmt.exec, PStmt.size]
    refine Sim.bind (n1 := n + 1) (n2 := n + 1) (exec_sim hrun a brk cyc p i1 active c s) (Nat.le_refl _)
      (by omega) ?_
    intro c' s' _
    rw [← Nat.add_assoc]
    exact exec_sim hrun b brk cyc (p + a.size) i2 active c' s'
  | .ite cond a b, brk, cyc, p, hat, active, c, s => by
    simp only [PStmt.comp, List.cons_append, List.nil_append] at hat
    obtain ⟨i1, hat⟩ := codeAt_cons.1 hat
    rw [List.append_assoc] at hat
    obtain ⟨i2, hat⟩ := codeAt_append.1 hat
    rw [comp_length] at hat
    obtain ⟨i3, i4⟩ := codeAt_cons.1 hat
    simp only [PStmt.exec, PStmt.size]
    by_cases hc : cond s = true
    · rw [if_pos hc]
      have h1 : PMach.steps code 1 ⟨p, fs, c, s⟩ = some ⟨p + 1, fs, c, s⟩ := by
        refine steps_one ?_
        simp only [PMach.step, i1]
        rw [if_neg (by simp [hc])]
      refine Sim.after h1 (.refl _ _) (n1 := n + 1) (by omega) ?_
      have hs := exec_sim hrun a brk cyc (p + 1) i2 active c s
      cases ho : a.exec run n active fs.length s with
      | normal s' =>
        rw [ho] at hs
        obtain ⟨k', c', g1, g2, g3⟩ := hs
        have h2 : PMach.steps code 1 ⟨p + 1 + a.size, fs, c', s'⟩ =
            some ⟨p + (a.size + b.size + 2), fs, c', s'⟩ := by
          refine steps_one ?_
          simp only [PMach.step, i3]
          simp only [Option.some.injEq, PMach.mk.injEq, and_true]
          omega
        exact ⟨k' + 1, c', by omega, steps_trans g2 h2, g3⟩
      | _ => rw [ho] at hs; exact hs
    · rw [if_neg hc]
      have h1 : PMach.steps code 1 ⟨p, fs, c, s⟩ = some ⟨p + a.size + 2, fs, c, s⟩ := by
        refine steps_one ?_
        simp only [PMach.step, i1]
        rw [if_pos (by simp [hc])]
      refine Sim.after h1 (.refl _ _) (n1 := n + 1) (by omega) ?_
      have e1 : p + 1 + a.size + 1 = p + a.size + 2 := by omega
      rw [e1] at i4
      have hs := exec_sim hrun b brk cyc (p + a.size + 2) i4 active c s
      have e2 : p + a.size + 2 + b.size = p + (a.size + b.size + 2) := by omega
      rw [e2] at hs
      exact hs
  | .goto l, brk, cyc, p, hat, active, c, s => by
    obtain ⟨i1, _⟩ := codeAt_cons.1 hat
    refine ⟨1, c, Nat.le_refl _, steps_one ?_, .refl _ _⟩
    simp only [PMach.step, i1]
  | .gotoDep f ls, brk, cyc, p, hat, active, c, s => by
    obtain ⟨i1, _⟩ := codeAt_cons.1 hat
    simp only [PStmt.exec]
    by_cases h : 1 ≤ f s ∧ f s ≤ ls.length
    · rw [if_pos h]
      refine ⟨1, c, Nat.le_refl _, steps_one ?_, .refl _ _⟩
      simp only [PMach.step, i1, List.length_map]
      rw [if_pos h]
      have hlt : (f s).toNat - 1 < ls.length := by omega
      simp only [List.getD, List.getElem?_map]
      rw [List.getElem?_eq_getElem hlt]
      rfl
    · rw [if_neg h]
      refine ⟨1, c, Nat.le_refl _, steps_one ?_, .refl _ _⟩
      simp only [PMach.step, i1, List.length_map]
      rw [if_neg h]
      rfl
  | .perform b e h, brk, cyc, p, hat, active, c, s => by
    simp only [PStmt.comp] at hat
    simp only [PStmt.exec, PStmt.size]
    refine how_sim (bc := fun _ _ => [.call e (lab b), .pop]) (fun _ _ => rfl) h ?_ hat brk cyc active c s
    intro q hq active c s
    obtain ⟨i1, hq⟩ := codeAt_cons.1 hq
    obtain ⟨i2, _⟩ := codeAt_cons.1 hq
    by_cases hd : fs.length < maxFrames
    · rw [if_pos hd]
      have h1 : PMach.steps code 1 ⟨q, fs, c, s⟩ = some ⟨lab b, (e, q + 1) :: fs, c, s⟩ := by
        refine steps_one ?_
        simp only [PMach.step, i1]
        rw [if_pos hd]
      have hr := hrun active e b s c (q + 1) fs hd
      cases ho : run active (fs.length + 1) e b s with
      | normal s' =>
        rw [ho] at hr
        obtain ⟨k', c', g1, g2, g3⟩ := hr
        have h2 : PMach.steps code 1 ⟨q + 1, (e, q + 1) :: fs, c', s'⟩ = some ⟨q + 2, fs, c', s'⟩ := by
          refine steps_one ?_
          simp only [PMach.step, i2, List.tail_cons]
        exact ⟨1 + (k' + 1), c', by omega, steps_trans h1 (steps_trans g2 h2), g3⟩
      | stop s' =>
        rw [ho] at hr
        obtain ⟨k', m, g1, g2, g3⟩ := hr
        exact ⟨1 + k', m, steps_trans h1 g1, g2, g3⟩
      | more =>
        rw [ho] at hr
        obtain ⟨k', m, g1, g2⟩ := hr
        exact ⟨1 + k', m, by omega, steps_trans h1 g2⟩
      | bad => trivial
      | goto l s' => rw [ho] at hr; exact hr.elim
      | brk s' => rw [ho] at hr; exact hr.elim
      | cyc s' => rw [ho] at hr; exact hr.elim
    · rw [if_neg hd]; trivial
  | .inline h body, brk, cyc, p, hat, active, c, s => by
    simp only [PStmt.comp] at hat
    simp only [PStmt.exec, PStmt.size]
    refine how_sim (b := body.size) (bc := fun q c => body.comp lab (p + howSize body.size h) c q)
      (fun q c => comp_length lab body _ c q) h ?_ hat brk cyc active c s
    intro q hq active c s
    exact exec_sim hrun body _ _ q hq active c s
  | .exitPerform, brk, cyc, p, hat, active, c, s => by
    obtain ⟨i1, _⟩ := codeAt_cons.1 hat
    refine ⟨1, c, Nat.le_refl _, steps_one ?_, .refl _ _⟩
    simp only [PMach.step, i1]
  | .cycle, brk, cyc, p, hat, active, c, s => by
    obtain ⟨i1, _⟩ := codeAt_cons.1 hat
    refine ⟨1, c, Nat.le_refl _, steps_one ?_, .refl _ _⟩
    simp only [PMach.step, i1]
  | .stop, brk, cyc, p, hat, active, c, s => by
    obtain ⟨i1, _⟩ := codeAt_cons.1 hat
    exact ⟨0, _, rfl, Or.inr i1, rfl⟩

/-! #### elements -/

theorem elem_length (lab : Nat → Nat) (e : PElem σ) (p : Nat) : (e.comp lab p).length = e.size := by
  cases e with
  | code s => exact comp_length lab s 0 0 p
  | _ => rfl

theorem addrAt_succ (es : List (PElem σ)) (i : Nat) (e : PElem σ) (h : es[i]? = some e) :
    addrAt es (i + 1) = addrAt es i + e.size := by
  obtain ⟨hi, he⟩ := List.getElem?_eq_some_iff.1 h
  unfold addrAt
  rw [List.take_add_one, h]
  simp

theorem compElems_at (lab : Nat → Nat) : ∀ (es : List (PElem σ)) (p i : Nat) (e : PElem σ),
    es[i]? = some e → ∀ code, CodeAt code p (compElems lab p es) →
    CodeAt code (p + addrAt es i) (e.comp lab (p + addrAt es i))
  | [], _, _, _, h, _, _ => by simp at h
  | x :: es, p, 0, e, h, code, hc => by
    simp only [List.getElem?_cons_zero, Option.some.injEq] at h
    subst h
    simp only [compElems] at hc
    simpa [addrAt] using (codeAt_append.1 hc).1
  | x :: es, p, i + 1, e, h, code, hc => by
    simp only [List.getElem?_cons_succ] at h
    simp only [compElems] at hc
    have := compElems_at lab es (p + x.size) i e h code (by
      have := (codeAt_append.1 hc).2
      rwa [elem_length] at this)
    have e1 : p + x.size + addrAt es i = p + addrAt (x :: es) (i + 1) := by
      simp [addrAt]; omega
    rwa [e1] at this

theorem compElems_length (lab : Nat → Nat) : ∀ (es : List (PElem σ)) (p : Nat),
    (compElems lab p es).length = (es.map PElem.size).sum
  | [], _ => rfl
  | x :: es, p => by simp [compElems, elem_length, compElems_length lab es]

theorem progCode_at (es : List (PElem σ)) (i : Nat) (e : PElem σ) (h : es[i]? = some e) :
    CodeAt (progCode es) (addrAt es i) (e.comp (labAddr es) (addrAt es i)) := by
  have := compElems_at (labAddr es) es 0 i e h (progCode es) (by
    intro j x hj; rw [Nat.zero_add]; exact hj)
  simpa using this

theorem progCode_end (es : List (PElem σ)) (i : Nat) (h : es[i]? = none) :
    (progCode es)[addrAt es i]? = none := by
  rw [List.getElem?_eq_none_iff] at h ⊢
  unfold progCode
  rw [compElems_length, addrAt, List.take_of_length_le h]
  exact Nat.le_refl _

/-- The top frame is that of the procedure whose end ends the execution. -/
def Top (e : Option Nat) (r : Nat) (fs : List (Nat × Nat)) : Prop :=
  match e with
  | none => fs = []
  | some l => ∃ fs', fs = (l, r) :: fs'

theorem RunSim.after {p p1 r : Nat} {active : List Nat} {n n1 k : Nat} {c c1 : Nat → Int} {s s1 : σ}
    {o : POut σ} (h1 : PMach.steps code k ⟨p, fs, c, s⟩ = some ⟨p1, fs, c1, s1⟩) (hk : Keeps active c c1)
    (hn : n ≤ k + n1) (h : RunSim code p1 r active fs n1 c1 s1 o) : RunSim code p r active fs n c s o := by
  cases o with
  | normal s' =>
    obtain ⟨k', c', h2, h3, h4⟩ := h
    exact ⟨k + k', c', by omega, steps_trans h1 h3, hk.trans h4⟩
  | goto l s' => exact h
  | brk s' => exact h
  | cyc s' => exact h
  | stop s' =>
    obtain ⟨k', m, h2, h3, h4⟩ := h
    exact ⟨k + k', m, steps_trans h1 h2, h3, h4⟩
  | bad => trivial
  | more =>
    obtain ⟨k', m, h2, h3⟩ := h
    exact ⟨k + k', m, by omega, steps_trans h1 h3⟩

theorem runFrom_sim (es : List (PElem σ)) : ∀ (n : Nat) (active : List Nat) (e : Option Nat) (pos : Nat)
    (s : σ) (c : Nat → Int) (r : Nat) (fs : List (Nat × Nat)), Top e r fs →
    RunSim (progCode es) (addrAt es pos) r active fs n c s (runFrom es n active fs.length e pos s)
  | 0, _, _, _, _, _, _, _, _ => ⟨0, _, Nat.le_refl _, rfl⟩
  | n + 1, active, e, pos, s, c, r, fs, ht => by
    rw [runFrom]
    cases he : es[pos]? with
    | none =>
      exact ⟨0, _, rfl, Or.inl (progCode_end es pos he), rfl⟩
    | some el =>
      have hat := progCode_at es pos el he
      have hadd := addrAt_succ es pos el he
      cases el with
      | label l =>
        obtain ⟨i1, _⟩ := codeAt_cons.1 hat
        have h1 : PMach.steps (progCode es) 1 ⟨addrAt es pos, fs, c, s⟩ =
            some ⟨addrAt es (pos + 1), fs, c, s⟩ := by
          refine steps_one ?_
          simp only [PMach.step, i1, hadd, PElem.size]
        exact RunSim.after h1 (.refl _ _) (n1 := n) (by omega) (runFrom_sim es n active e (pos + 1) s c r fs ht)
      | finish l =>
        obtain ⟨i1, _⟩ := codeAt_cons.1 hat
        simp only
        by_cases hl : e = some l
        · rw [if_pos hl]
          subst hl
          obtain ⟨fs', rfl⟩ := ht
          refine ⟨1, c, Nat.le_refl _, steps_one ?_, .refl _ _⟩
          simp only [PMach.step, i1, if_true]
        · rw [if_neg hl]
          have h1 : PMach.steps (progCode es) 1 ⟨addrAt es pos, fs, c, s⟩ =
              some ⟨addrAt es (pos + 1), fs, c, s⟩ := by
            refine steps_one ?_
            simp only [PMach.step, i1, hadd, PElem.size]
            cases e with
            | none =>
              simp only [Top] at ht
              subst ht
              rfl
            | some m =>
              obtain ⟨fs', rfl⟩ := ht
              simp only
              rw [if_neg (fun h => hl (by rw [h]))]
          exact RunSim.after h1 (.refl _ _) (n1 := n) (by omega)
            (runFrom_sim es n active e (pos + 1) s c r fs ht)
      | code st =>
        simp only
        have hs := exec_sim (code := progCode es) (lab := labAddr es) (fs := fs) (n := n)
          (run := fun active depth e b s =>
            match posOf es b with
            | none => .bad
            | some p => runFrom es n active depth (some e) p s)
          (by
            intro active e b s c r fs _
            cases hp : posOf es b with
            | none => trivial
            | some p =>
              have := runFrom_sim es n active (some e) p s c r ((e, r) :: fs) ⟨fs, rfl⟩
              simpa [labAddr, hp] using this)
          st 0 0 (addrAt es pos) hat active c s
        generalize st.exec _ n active fs.length s = o at hs
        cases o with
        | normal s' =>
          obtain ⟨k', c', g1, g2, g3⟩ := hs
          rw [show addrAt es pos + st.size = addrAt es (pos + 1) by rw [hadd]; rfl] at g2
          exact RunSim.after g2 g3 (n1 := n) (by omega) (runFrom_sim es n active e (pos + 1) s' c' r fs ht)
        | goto l s' =>
          obtain ⟨k', c', g1, g2, g3⟩ := hs
          simp only
          cases hp : posOf es l with
          | none => trivial
          | some p =>
            simp only [labAddr, hp, Option.getD_some] at g2
            exact RunSim.after g2 g3 (n1 := n) (by omega) (runFrom_sim es n active e p s' c' r fs ht)
        | stop s' => exact hs
        | more => exact hs
        | brk s' => trivial
        | cyc s' => trivial
        | bad => trivial

end Cob
