import Verif.Rt.Switch
import Mathlib.Tactic.SplitIfs
/-
C97: external switches.
-/
namespace Cob.Switch

/-! ### Specification vocabulary -/

/-- An ASCII letter as a capital letter. -/
def capital (c : Nat) : Nat := if 97 ≤ c ∧ c ≤ 122 then c - 32 else c

/-- Equal but for capital and small letters. -/
def Same (a b : List Nat) : Prop := a.map capital = b.map capital

/-- `nm` is SWITCH-k or UPSI-(k-1), in capital or small letters. -/
def SwitchName (nm : List Nat) (k : Nat) : Prop :=
  1 ≤ k ∧ k ≤ 8 ∧ (Same nm (bytes "SWITCH-" ++ [48 + k]) ∨ Same nm (bytes "UPSI-" ++ [48 + (k - 1)]))

/-- The program declares the mnemonic name `m` for the switch `k`. -/
def Means (prog : List Clause) (m k : Nat) : Prop := ∃ cl, cl ∈ prog ∧ cl.mnemonic = some m ∧ SwitchName cl.system k

/-- The program declares `c` as the condition that the switch `k` is on (or, if `on` is false, is off). -/
def CondFor (prog : List Clause) (c : Nat) (on : Bool) (k : Nat) : Prop := ∃ cl, cl ∈ prog ∧ (on, c) ∈ cl.conds ∧ SwitchName cl.system k

/-- Every name is declared once (the compiler refuses others: `undefined_word`). -/
def Once (prog : List Clause) : Prop :=
  (∀ a b m, a ∈ prog → b ∈ prog → a.mnemonic = some m → b.mnemonic = some m → a = b) ∧
  (∀ a b c x y, a ∈ prog → b ∈ prog → (x, c) ∈ a.conds → (y, c) ∈ b.conds → a = b ∧ x = y)

/-- The statement sets the switch `k` on (`b` true) or off: a SET that names it, or X"91" function 11 with 1 or 0 in its byte. -/
def Sets (e : Ev) (k : Nat) (b : Bool) : Prop :=
  match e with
  | .set prog ms flag => flag = b ∧ ∃ m, m ∈ ms ∧ Means prog m k
  | .x91 func parm => func = 11 ∧ parm[k - 1]? = some (if b then 1 else 0)

/-- Every name in a SET statement is declared for a switch. -/
def Proper (e : Ev) : Prop :=
  match e with
  | .set prog ms _ => Once prog ∧ ∀ m, m ∈ ms → ∃ k, Means prog m k
  | .x91 _ _ => True

/-- The last statement that sets the switch `k` sets it on; or none sets it and it was on before. -/
def Last (before : Prop) (evs : List Ev) (k : Nat) : Prop :=
  (∃ pre e post, evs = pre ++ e :: post ∧ Sets e k true ∧ ∀ x, x ∈ post → ∀ b, ¬ Sets x k b) ∨
  ((∀ x, x ∈ evs → ∀ b, ¬ Sets x k b) ∧ before)

/-- COB_SWITCH_k is set to ON, in capital or small letters. -/
def EnvOn (env : Nat → Option (List Nat)) (k : Nat) : Prop := ∃ v, env k = some v ∧ Same v (bytes "ON")

/-! ### Names -/

theorem low_capital (a b : Nat) : low a = low b ↔ capital a = capital b := by
  unfold low capital; split_ifs <;> omega

theorem caseEq_iff (a b : List Nat) : caseEq a b = true ↔ Same a b := by
  unfold caseEq Same
  rw [decide_eq_true_iff]
  induction a generalizing b with
  | nil => cases b <;> simp
  | cons x xs ih =>
    cases b with
    | nil => simp
    | cons y ys => simp only [List.map_cons, List.cons.injEq, ih, low_capital]

theorem find_unique (nm : List Nat) (t : List (List Nat × SysName)) (hn : (t.map fun e => e.1.map low).Nodup) (e : List Nat × SysName) :
    t.find? (fun e => caseEq nm e.1) = some e ↔ e ∈ t ∧ caseEq nm e.1 = true := by
  induction t with
  | nil => simp
  | cons x xs ih =>
    simp only [List.map_cons, List.nodup_cons] at hn
    rw [List.find?_cons]
    cases hx : caseEq nm x.1 with
    | true =>
      simp only [Option.some.injEq, List.mem_cons]
      constructor
      · rintro rfl; exact ⟨Or.inl rfl, hx⟩
      · rintro ⟨h | h, hc⟩
        · exact h.symm
        · refine absurd ?_ hn.1
          simp only [caseEq, decide_eq_true_eq] at hx hc
          rw [← hx, hc]
          exact List.mem_map.2 ⟨e, h, rfl⟩
    | false =>
      simp only [ih hn.2, List.mem_cons]
      constructor
      · rintro ⟨h, hc⟩; exact ⟨Or.inr h, hc⟩
      · rintro ⟨h | h, hc⟩
        · rw [h, hx] at hc; cases hc
        · exact ⟨h, hc⟩

theorem lookup_iff (nm : List Nat) (sn : SysName) : lookup nm = some sn ↔ ∃ e ∈ systemTable, e.2 = sn ∧ caseEq nm e.1 = true := by
  unfold lookup
  rw [Option.map_eq_some_iff]
  constructor
  · rintro ⟨e, h, rfl⟩
    have := (find_unique nm systemTable (by decide +kernel) e).1 h
    exact ⟨e, this.1, rfl, this.2⟩
  · rintro ⟨e, h, rfl, hc⟩
    exact ⟨e, (find_unique nm systemTable (by decide +kernel) e).2 ⟨h, hc⟩, rfl⟩

theorem table_switch : ∀ e ∈ systemTable, e.2.cat = .switch → e.2.token < 8 ∧
    (e.1 = bytes "SWITCH-" ++ [48 + (e.2.token + 1)] ∨ e.1 = bytes "UPSI-" ++ [48 + e.2.token]) := by decide +kernel

theorem table_has : ∀ k, k < 8 → (bytes "SWITCH-" ++ [48 + (k + 1)], (⟨.switch, k⟩ : SysName)) ∈ systemTable ∧
    (bytes "UPSI-" ++ [48 + k], (⟨.switch, k⟩ : SysName)) ∈ systemTable := by decide +kernel

theorem lookup_switch (nm : List Nat) (n : Nat) : lookup nm = some ⟨.switch, n⟩ ↔ SwitchName nm (n + 1) := by
  rw [lookup_iff]
  constructor
  · rintro ⟨e, he, hs, hc⟩
    obtain ⟨h8, h⟩ := table_switch e he (by rw [hs])
    rw [hs] at h8 h
    simp only at h8 h
    rw [caseEq_iff] at hc
    refine ⟨by omega, by omega, ?_⟩
    rw [Nat.add_sub_cancel]
    rcases h with h | h
    · exact Or.inl (h ▸ hc)
    · exact Or.inr (h ▸ hc)
  · rintro ⟨_, h8, h⟩
    obtain ⟨ha, hb⟩ := table_has n (by omega)
    rw [Nat.add_sub_cancel] at h
    rcases h with h | h
    · exact ⟨_, ha, rfl, (caseEq_iff _ _).2 h⟩
    · exact ⟨_, hb, rfl, (caseEq_iff _ _).2 h⟩

theorem switchName_lookup {nm : List Nat} {k : Nat} (h : SwitchName nm k) : lookup nm = some ⟨.switch, k - 1⟩ := by
  rw [lookup_switch]
  have := h.1
  rwa [Nat.sub_add_cancel this]

theorem switchName_unique {nm : List Nat} {k j : Nat} (h : SwitchName nm k) (g : SwitchName nm j) : k = j := by
  have a := switchName_lookup h
  have b := switchName_lookup g
  rw [a] at b
  have := h.1
  have := g.1
  simp only [Option.some.injEq, SysName.mk.injEq, true_and] at b
  omega

theorem mnemonicOf_means {prog : List Clause} (ho : Once prog) {m k : Nat} (h : Means prog m k) : mnemonicOf prog m = some ⟨.switch, k - 1⟩ := by
  obtain ⟨cl, hcl, hm, hs⟩ := h
  unfold mnemonicOf
  cases hf : prog.find? fun cl => cl.mnemonic == some m with
  | none =>
    have := List.find?_eq_none.1 hf cl hcl
    rw [hm] at this
    simp at this
  | some x =>
    have hx := List.find?_some hf
    have hx' : x.mnemonic = some m := by simpa using hx
    have := ho.1 x cl m (List.mem_of_find?_eq_some hf) hcl hx' hm
    subst this
    exact switchName_lookup hs

theorem condOf_condFor : ∀ (prog : List Clause) (_ : Once prog) (c : Nat) (on : Bool) (k : Nat) (_ : CondFor prog c on k),
    condOf prog c = some (on, k - 1)
  | [], _, _, _, _, h => by obtain ⟨cl, hcl, _⟩ := h; cases hcl
  | x :: rest, ho, c, on, k, h => by
    obtain ⟨cl, hcl, hc, hs⟩ := h
    unfold condOf
    cases hf : x.conds.find? fun y => y.2 == c with
    | some y =>
      have hy := List.mem_of_find?_eq_some hf
      have hyc : y.2 = c := by simpa using List.find?_some hf
      obtain ⟨e1, e2⟩ := ho.2 x cl c y.1 on List.mem_cons_self hcl (by rw [← hyc]; exact hy) hc
      subst e1
      simp only [switchName_lookup hs, Option.map_some, e2]
    | none =>
      have hne : cl ≠ x := by
        rintro rfl
        have := List.find?_eq_none.1 hf (on, c) hc
        simp at this
      have hcl' : cl ∈ rest := by
        rcases List.mem_cons.1 hcl with h | h
        · exact absurd h hne
        · exact h
      refine condOf_condFor rest ⟨fun a b m ha hb => ho.1 a b m (List.mem_cons_of_mem _ ha) (List.mem_cons_of_mem _ hb),
        fun a b c x y ha hb => ho.2 a b c x y (List.mem_cons_of_mem _ ha) (List.mem_cons_of_mem _ hb)⟩ c on k ⟨cl, hcl', hc, hs⟩

/-! ### The history -/

/-- The eight switches, with the value of switch `k` given by `v`. -/
def Is (s : Switches) (v : Nat → Prop) : Prop :=
  s.length = 8 ∧ ∀ k, 1 ≤ k → k ≤ 8 → (v k → s[k - 1]? = some 1#8) ∧ (¬ v k → s[k - 1]? = some 0#8)

theorem setAll_is (prog : List Clause) (ho : Once prog) (flag : Bool) : ∀ (ms : List Nat) (s : Switches) (v : Nat → Prop) (_ : Is s v)
    (_ : ∀ m, m ∈ ms → ∃ k, Means prog m k),
    ∃ s', setAll prog flag ms s = some s' ∧ Is s' (fun k => ((∃ m, m ∈ ms ∧ Means prog m k) ∧ flag = true) ∨ ((¬ ∃ m, m ∈ ms ∧ Means prog m k) ∧ v k))
  | [], s, v, hs, _ => by
    refine ⟨s, rfl, hs.1, fun k h1 h8 => ⟨fun h => (hs.2 k h1 h8).1 ?_, fun h => (hs.2 k h1 h8).2 fun hv => h (Or.inr ⟨by simp, hv⟩)⟩⟩
    rcases h with ⟨⟨m, hm, _⟩, _⟩ | h
    · cases hm
    · exact h.2
  | m :: ms, s, v, hs, hall => by
    obtain ⟨k0, hk0⟩ := hall m List.mem_cons_self
    have hr : 1 ≤ k0 ∧ k0 ≤ 8 := by obtain ⟨cl, _, _, h⟩ := hk0; exact ⟨h.1, h.2.1⟩
    have hmean : ∀ k, Means prog m k ↔ k = k0 := by
      intro k
      constructor
      · intro h
        have a := mnemonicOf_means ho h
        rw [mnemonicOf_means ho hk0] at a
        simp only [Option.some.injEq, SysName.mk.injEq, true_and] at a
        obtain ⟨cl, _, _, g⟩ := h
        have := g.1
        omega
      · rintro rfl; exact hk0
    have hlt : k0 - 1 < s.length := by rw [hs.1]; omega
    have hput : put s (k0 - 1) flag = some (s.set (k0 - 1) (if flag then 1#8 else 0#8)) := if_pos hlt
    have hs' : Is (s.set (k0 - 1) (if flag then 1#8 else 0#8)) (fun k => (k = k0 ∧ flag = true) ∨ (k ≠ k0 ∧ v k)) := by
      refine ⟨by rw [List.length_set]; exact hs.1, fun k h1 h8 => ?_⟩
      by_cases hk : k = k0
      · subst hk
        rw [List.getElem?_set_self hlt]
        cases flag <;> simp
      · rw [List.getElem?_set_ne (by omega)]
        have := hs.2 k h1 h8
        simpa [hk] using this
    obtain ⟨s2, h2, i2⟩ := setAll_is prog ho flag ms _ _ hs' fun m' hm' => hall m' (List.mem_cons_of_mem _ hm')
    refine ⟨s2, ?_, i2.1, fun k h1 h8 => ?_⟩
    · simp only [setAll, mnemonicOf_means ho hk0, hput, h2]
    · have i := i2.2 k h1 h8
      have e : (((∃ m', m' ∈ m :: ms ∧ Means prog m' k) ∧ flag = true) ∨ ((¬ ∃ m', m' ∈ m :: ms ∧ Means prog m' k) ∧ v k)) ↔
          (((∃ m', m' ∈ ms ∧ Means prog m' k) ∧ flag = true) ∨
            ((¬ ∃ m', m' ∈ ms ∧ Means prog m' k) ∧ ((k = k0 ∧ flag = true) ∨ (k ≠ k0 ∧ v k)))) := by
        have ex : (∃ m', m' ∈ m :: ms ∧ Means prog m' k) ↔ (k = k0 ∨ ∃ m', m' ∈ ms ∧ Means prog m' k) := by
          constructor
          · rintro ⟨m', hm', h⟩
            rcases List.mem_cons.1 hm' with rfl | g
            · exact Or.inl ((hmean k).1 h)
            · exact Or.inr ⟨m', g, h⟩
          · rintro (h | ⟨m', hm', h⟩)
            · exact ⟨m, List.mem_cons_self, (hmean k).2 h⟩
            · exact ⟨m', List.mem_cons_of_mem _ hm', h⟩
        rw [ex]
        generalize (∃ m', m' ∈ ms ∧ Means prog m' k) = P
        by_cases h1 : k = k0 <;> by_cases h2 : P <;> simp [h1, h2]
      exact ⟨fun h => i.1 (e.1 h), fun h => i.2 fun g => h (e.2 g)⟩

theorem setSwitches_get : ∀ (s : Switches) (parm : List Nat) (i : Nat) (b : Byte), s[i]? = some b →
    (setSwitches s parm)[i]? = some (if parm[i]? = some 0 then 0#8 else if parm[i]? = some 1 then 1#8 else b)
  | [], _, _, _, h => by simp at h
  | x :: xs, [], i, b, h => by simpa [setSwitches] using h
  | x :: xs, p :: ps, 0, b, h => by
    simp only [List.getElem?_cons_zero, Option.some.injEq] at h
    subst h
    simp [setSwitches]
  | x :: xs, p :: ps, i + 1, b, h => by
    rw [List.getElem?_cons_succ] at h
    simp only [setSwitches, List.getElem?_cons_succ]
    exact setSwitches_get xs ps i b h

theorem setSwitches_length : ∀ (s : Switches) (parm : List Nat), (setSwitches s parm).length = s.length
  | [], _ => by simp [setSwitches]
  | x :: xs, [] => by simp [setSwitches]
  | x :: xs, p :: ps => by simp [setSwitches, setSwitches_length xs ps]

theorem step_is (s : Switches) (v : Nat → Prop) (hs : Is s v) (e : Ev) (hp : Proper e) :
    ∃ s', step s e = some s' ∧ Is s' (fun k => Sets e k true ∨ ((∀ b, ¬ Sets e k b) ∧ v k)) := by
  cases e with
  | set prog ms flag =>
    obtain ⟨s', h, i⟩ := setAll_is prog hp.1 flag ms s v hs hp.2
    refine ⟨s', h, i.1, fun k h1 h8 => ?_⟩
    have e : (Sets (.set prog ms flag) k true ∨ ((∀ b, ¬ Sets (.set prog ms flag) k b) ∧ v k)) ↔
        (((∃ m, m ∈ ms ∧ Means prog m k) ∧ flag = true) ∨ ((¬ ∃ m, m ∈ ms ∧ Means prog m k) ∧ v k)) := by
      have : (∀ b, ¬ Sets (.set prog ms flag) k b) ↔ ¬ ∃ m, m ∈ ms ∧ Means prog m k :=
        ⟨fun h g => h flag ⟨rfl, g⟩, fun h b g => h g.2⟩
      rw [this]
      exact or_congr ⟨fun h => ⟨h.2, h.1⟩, fun h => ⟨h.2, h.1⟩⟩ Iff.rfl
    exact ⟨fun h => (i.2 k h1 h8).1 (e.1 h), fun h => (i.2 k h1 h8).2 fun g => h (e.2 g)⟩
  | x91 func parm =>
    refine ⟨_, rfl, ?_⟩
    unfold cblX91
    by_cases hf : func = 11
    · rw [if_pos hf]
      refine ⟨by simpa [setSwitches_length] using hs.1, fun k h1 h8 => ?_⟩
      have i := hs.2 k h1 h8
      have g0 : Sets (.x91 func parm) k false ↔ parm[k - 1]? = some 0 := by simp [Sets, hf]
      have g1 : Sets (.x91 func parm) k true ↔ parm[k - 1]? = some 1 := by simp [Sets, hf]
      have gb : (∀ b, ¬ Sets (.x91 func parm) k b) ↔ parm[k - 1]? ≠ some 0 ∧ parm[k - 1]? ≠ some 1 := by
        rw [Bool.forall_bool, g0, g1]
      simp only
      rw [g1, gb]
      by_cases h0 : parm[k - 1]? = some 0
      · refine ⟨fun h => ?_, fun _ => ?_⟩
        · rcases h with h | h
          · rw [h0] at h; simp at h
          · exact absurd h0 h.1.1
        · by_cases hv : v k
          · rw [setSwitches_get _ _ _ _ (i.1 hv), if_pos h0]
          · rw [setSwitches_get _ _ _ _ (i.2 hv), if_pos h0]
      · by_cases h1' : parm[k - 1]? = some 1
        · refine ⟨fun _ => ?_, fun h => absurd (Or.inl h1') h⟩
          by_cases hv : v k
          · rw [setSwitches_get _ _ _ _ (i.1 hv), if_neg h0, if_pos h1']
          · rw [setSwitches_get _ _ _ _ (i.2 hv), if_neg h0, if_pos h1']
        · refine ⟨fun h => ?_, fun h => ?_⟩
          · rcases h with h | h
            · exact absurd h h1'
            · rw [setSwitches_get _ _ _ _ (i.1 h.2), if_neg h0, if_neg h1']
          · have hv : ¬ v k := fun hv => h (Or.inr ⟨⟨h0, h1'⟩, hv⟩)
            rw [setSwitches_get _ _ _ _ (i.2 hv), if_neg h0, if_neg h1']
    · have hsame : (if func = 11 then (setSwitches s parm, parm, 0)
          else if func = 12 then (s, s.map (·.toNat) ++ parm.drop 8, 0)
          else if func = 16 then (s, 0 % 256 :: parm.drop 1, 0)
          else (s, parm, 1)).1 = s := by
        rw [if_neg hf]; split_ifs <;> rfl
      rw [hsame]
      refine ⟨hs.1, fun k h1 h8 => ?_⟩
      have no : ∀ b, ¬ Sets (.x91 func parm) k b := fun b h => hf h.1
      exact ⟨fun h => (hs.2 k h1 h8).1 (h.elim (fun g => absurd g (no true)) (·.2)),
        fun h => (hs.2 k h1 h8).2 fun hv => h (Or.inr ⟨no, hv⟩)⟩

theorem last_cons (before : Prop) (e : Ev) (es : List Ev) (k : Nat) :
    Last (Sets e k true ∨ ((∀ b, ¬ Sets e k b) ∧ before)) es k ↔ Last before (e :: es) k := by
  constructor
  · rintro (⟨pre, x, post, rfl, hx, hp⟩ | ⟨hno, h | ⟨hb, h⟩⟩)
    · exact Or.inl ⟨e :: pre, x, post, rfl, hx, hp⟩
    · exact Or.inl ⟨[], e, es, rfl, h, hno⟩
    · refine Or.inr ⟨fun x hx => ?_, h⟩
      rcases List.mem_cons.1 hx with rfl | g
      · exact hb
      · exact hno x g
  · rintro (⟨pre, x, post, h, hx, hp⟩ | ⟨hno, h⟩)
    · cases pre with
      | nil =>
        simp only [List.nil_append, List.cons.injEq] at h
        obtain ⟨rfl, rfl⟩ := h
        exact Or.inr ⟨hp, Or.inl hx⟩
      | cons y ys =>
        simp only [List.cons_append, List.cons.injEq] at h
        exact Or.inl ⟨ys, x, post, h.2, hx, hp⟩
    · exact Or.inr ⟨fun x hx => hno x (List.mem_cons_of_mem _ hx), Or.inr ⟨hno e List.mem_cons_self, h⟩⟩

theorem run_is : ∀ (evs : List Ev) (s : Switches) (v : Nat → Prop) (_ : Is s v) (_ : ∀ e, e ∈ evs → Proper e),
    ∃ s', run s evs = some s' ∧ Is s' (fun k => Last (v k) evs k)
  | [], s, v, hs, _ => by
    refine ⟨s, rfl, hs.1, fun k h1 h8 => ⟨fun h => (hs.2 k h1 h8).1 ?_, fun h => (hs.2 k h1 h8).2 fun hv => h (Or.inr ⟨by simp, hv⟩)⟩⟩
    rcases h with ⟨pre, e, post, h, _⟩ | h
    · simp at h
    · exact h.2
  | e :: es, s, v, hs, hp => by
    obtain ⟨s1, h1, i1⟩ := step_is s v hs e (hp e List.mem_cons_self)
    obtain ⟨s2, h2, i2⟩ := run_is es s1 _ i1 fun x hx => hp x (List.mem_cons_of_mem _ hx)
    refine ⟨s2, by simp only [run, h1, h2], i2.1, fun k k1 k8 => ?_⟩
    have := i2.2 k k1 k8
    exact ⟨fun h => this.1 ((last_cons _ _ _ _).2 h), fun h => this.2 fun g => h ((last_cons _ _ _ _).1 g)⟩

theorem start_is (env : Nat → Option (List Nat)) : Is (start env) (EnvOn env) := by
  refine ⟨by simp [start], fun k h1 h8 => ?_⟩
  have hk : (List.range 8)[k - 1]? = some (k - 1) := by rw [List.getElem?_range (by omega)]
  have e : k - 1 + 1 = k := by omega
  unfold start EnvOn
  rw [List.getElem?_map, hk]
  simp only [Option.map_some, e]
  cases hv : env k with
  | none => simp
  | some v =>
    simp only [Option.some.injEq]
    by_cases hc : caseEq v (bytes "ON") = true
    · rw [if_pos hc]
      exact ⟨fun _ => rfl, fun h => absurd ⟨v, rfl, (caseEq_iff _ _).1 hc⟩ h⟩
    · rw [if_neg hc]
      exact ⟨fun ⟨w, hw, g⟩ => absurd ((caseEq_iff _ _).2 (hw ▸ g)) hc, fun _ => rfl⟩

/-! ### Properties -/

/-- C97: a system-name is taken as switch n exactly if it is SWITCH-n or UPSI-(n-1), n from 1 to 8, in capital or small letters. -/
theorem C97_names (nm : List Nat) (n : Nat) : lookup nm = some ⟨.switch, n⟩ ↔ SwitchName nm (n + 1) := lookup_switch nm n

theorem lookup_of {nm key : List Nat} {sn : SysName} (h : (key, sn) ∈ systemTable) (hs : Same nm key) : lookup nm = some sn :=
  (lookup_iff nm sn).2 ⟨_, h, rfl, (caseEq_iff _ _).2 hs⟩

theorem table_features : ∀ k, k < 12 → (bytes "C" ++ [48 + (k + 1) / 10, 48 + (k + 1) % 10], (⟨.feature, k + 1⟩ : SysName)) ∈ systemTable := by
  decide +kernel

/-- C97: the other system-names, in capital or small letters: C01 to C12 are the channels 1 to 12; SYSIN and SYSIPT, the output devices, SYSERR and
CONSOLE are devices; none of them is a switch. -/
theorem C97_other_names (nm : List Nat) :
    (∀ k, 1 ≤ k → k ≤ 12 → Same nm (bytes "C" ++ [48 + k / 10, 48 + k % 10]) → lookup nm = some ⟨.feature, k⟩) ∧
    (Same nm (bytes "FORMFEED") → lookup nm = some ⟨.feature, 0⟩) ∧
    (Same nm (bytes "SYSIN") ∨ Same nm (bytes "SYSIPT") → lookup nm = some ⟨.device, 0⟩) ∧
    (Same nm (bytes "SYSOUT") ∨ Same nm (bytes "SYSLIST") ∨ Same nm (bytes "SYSLST") ∨ Same nm (bytes "PRINTER") → lookup nm = some ⟨.device, 1⟩) ∧
    (Same nm (bytes "SYSERR") → lookup nm = some ⟨.device, 2⟩) ∧ (Same nm (bytes "CONSOLE") → lookup nm = some ⟨.device, 3⟩) := by
  refine ⟨fun k h1 h12 h => ?_, fun h => lookup_of (by decide +kernel) h, ?_, ?_, fun h => lookup_of (by decide +kernel) h,
    fun h => lookup_of (by decide +kernel) h⟩
  · have := table_features (k - 1) (by omega)
    rw [Nat.sub_add_cancel h1] at this
    exact lookup_of this h
  · rintro (h | h) <;> exact lookup_of (by decide +kernel) h
  · rintro (h | h | h | h) <;> exact lookup_of (by decide +kernel) h

/-- C97: condition-names are accepted exactly with switches, and without a mnemonic name only if the configuration says so. -/
theorem C97_accepted (noMnem : Bool) (cl : Clause) (hc : cl.conds ≠ []) :
    clauseRes noMnem cl = .ok ↔ (∃ k, SwitchName cl.system k) ∧ (cl.mnemonic = none → noMnem = true) := by
  unfold clauseRes
  obtain ⟨x, xs, hx⟩ : ∃ x xs, cl.conds = x :: xs := by
    cases h : cl.conds with
    | nil => exact absurd h hc
    | cons x xs => exact ⟨x, xs, rfl⟩
  cases hl : lookup cl.system with
  | none =>
    simp only [reduceCtorEq, false_iff]
    rintro ⟨⟨k, hk⟩, _⟩
    rw [switchName_lookup hk] at hl
    cases hl
  | some sn =>
    simp only [hx]
    unfold condRes
    have hsw : sn.cat = .switch ↔ ∃ k, SwitchName cl.system k := by
      constructor
      · intro h
        have : sn = ⟨.switch, sn.token⟩ := by cases sn; simp_all
        rw [this, lookup_switch] at hl
        exact ⟨_, hl⟩
      · rintro ⟨k, hk⟩
        rw [switchName_lookup hk] at hl
        cases hl
        rfl
    rw [← hsw]
    cases hm : cl.mnemonic with
    | none => cases noMnem <;> by_cases hs : sn.cat = .switch <;> simp [hs]
    | some m => by_cases hs : sn.cat = .switch <;> simp [hs]

/-- C97: after any statements of any programs of the run unit that name switches only in SET, every condition-name of a switch says what was set last:
the ON condition is true exactly if the last statement that sets the switch sets it on, or none sets it and COB_SWITCH_n is ON; the OFF condition is
its opposite. -/
theorem C97_condition (env : Nat → Option (List Nat)) (evs : List Ev) (hp : ∀ e, e ∈ evs → Proper e) :
    ∃ s, run (start env) evs = some s ∧
      ∀ prog c on k, Once prog → CondFor prog c on k →
        ∃ v, condition prog s c = some v ∧ (v = true ↔ (on = true ↔ Last (EnvOn env k) evs k)) := by
  obtain ⟨s, h, i⟩ := run_is evs (start env) _ (start_is env) hp
  refine ⟨s, h, fun prog c on k ho hc => ?_⟩
  have hk : 1 ≤ k ∧ k ≤ 8 := by obtain ⟨cl, _, _, g⟩ := hc; exact ⟨g.1, g.2.1⟩
  have ik := i.2 k hk.1 hk.2
  unfold condition
  rw [condOf_condFor prog ho c on k hc]
  by_cases hl : Last (EnvOn env k) evs k
  · simp only [get, ik.1 hl]
    cases on <;> simp [hl]
  · simp only [get, ik.2 hl]
    cases on <;> simp [hl]

/-- C97: X"91" function 12 gives 1 for every switch that is on and 0 for every other, in the order of their numbers, and leaves what is behind the eight
bytes alone. -/
theorem C97_get (env : Nat → Option (List Nat)) (evs : List Ev) (hp : ∀ e, e ∈ evs → Proper e) (parm : List Nat) :
    ∃ s, run (start env) evs = some s ∧ (cblX91 12 s parm 0).1 = s ∧ (cblX91 12 s parm 0).2.2 = 0 ∧
      (∀ k, 1 ≤ k → k ≤ 8 → (Last (EnvOn env k) evs k → (cblX91 12 s parm 0).2.1[k - 1]? = some 1) ∧
        (¬ Last (EnvOn env k) evs k → (cblX91 12 s parm 0).2.1[k - 1]? = some 0)) ∧
      (∀ j, 8 ≤ j → (cblX91 12 s parm 0).2.1[j]? = parm[j]?) := by
  obtain ⟨s, h, i⟩ := run_is evs (start env) _ (start_is env) hp
  refine ⟨s, h, rfl, rfl, fun k h1 h8 => ?_, fun j hj => ?_⟩
  · have ik := i.2 k h1 h8
    have hlt : k - 1 < (s.map (·.toNat)).length := by rw [List.length_map, i.1]; omega
    have e : (cblX91 12 s parm 0).2.1[k - 1]? = (s[k - 1]?).map (·.toNat) := by
      show (s.map (·.toNat) ++ parm.drop 8)[k - 1]? = _
      rw [List.getElem?_append_left hlt, List.getElem?_map]
    rw [e]
    exact ⟨fun g => by rw [ik.1 g]; rfl, fun g => by rw [ik.2 g]; rfl⟩
  · show (s.map (·.toNat) ++ parm.drop 8)[j]? = _
    rw [List.getElem?_append_right (by rw [List.length_map, i.1]; exact hj), List.length_map, i.1, List.getElem?_drop]
    congr 1
    omega

/-! ### Findings and cases that meet the hypotheses -/

/-- `SPECIAL-NAMES. SWITCH-4 IS S4 ON STATUS IS S4-ON OFF STATUS IS S4-OFF. upsi-0 IS S1 ON STATUS IS S1-ON. CONSOLE IS CRT. C10 IS CHANNEL.` -/
def exProg : List Clause :=
  [⟨bytes "SWITCH-4", some 1, [(true, 11), (false, 12)]⟩, ⟨bytes "upsi-0", some 2, [(true, 13)]⟩, ⟨bytes "CONSOLE", some 3, []⟩,
   ⟨bytes "C10", some 4, []⟩]

theorem exOnce : Once exProg := by
  constructor
  · intro a b m ha hb h1 h2
    simp only [exProg, List.mem_cons, List.not_mem_nil, or_false] at ha hb
    rcases ha with rfl | rfl | rfl | rfl <;> rcases hb with rfl | rfl | rfl | rfl <;> simp_all <;> omega
  · intro a b c x y ha hb h1 h2
    simp only [exProg, List.mem_cons, List.not_mem_nil, or_false] at ha hb
    rcases ha with rfl | rfl | rfl | rfl <;> rcases hb with rfl | rfl | rfl | rfl <;> simp_all <;> rcases h1 with ⟨rfl, rfl⟩ | ⟨rfl, rfl⟩ <;> simp_all

example : Means exProg 1 4 ∧ Means exProg 2 1 ∧ CondFor exProg 12 false 4 ∧ Proper (.set exProg [2, 1] true) := by
  have h4 : Means exProg 1 4 := ⟨_, List.mem_cons_self, rfl, by decide, by decide, Or.inl rfl⟩
  have h1 : Means exProg 2 1 := ⟨_, List.mem_cons_of_mem _ List.mem_cons_self, rfl, by decide, by decide, Or.inr (by unfold Same; decide +kernel)⟩
  refine ⟨h4, h1, ⟨_, List.mem_cons_self, by simp, by decide, by decide, Or.inl rfl⟩, exOnce, fun m hm => ?_⟩
  simp only [List.mem_cons, List.not_mem_nil, or_false] at hm
  rcases hm with rfl | rfl
  · exact ⟨1, h1⟩
  · exact ⟨4, h4⟩

example : (run (start fun n => if n = 4 then some (bytes "On") else none) [.set exProg [2, 1] false, .x91 11 [1, 7, 0, 0, 0, 0, 0, 0]]).map
    (fun s => (condition exProg s 11, condition exProg s 12, condition exProg s 13)) = some (some false, some true, some true) := by
  decide +kernel

/-- C97, finding: SET does not ask whether the mnemonic name is that of a switch.  With CONSOLE IS CRT, `SET CRT TO ON` turns switch 4 on. -/
theorem C97_finding_device :
    clauseRes false ⟨bytes "CONSOLE", some 3, []⟩ = .ok ∧
    (run (start fun _ => none) [.set exProg [3] true]).map (fun s => condition exProg s 11) = some (some true) := by
  decide +kernel

/-- C97, finding: with C10 IS CHANNEL, `SET CHANNEL TO ON` writes outside the eight switches. -/
theorem C97_finding_outside : clauseRes false ⟨bytes "C10", some 4, []⟩ = .ok ∧ run (start fun _ => none) [.set exProg [4] true] = none := by
  decide +kernel

/-- C97, finding: a condition-name for a system-name that is not a switch, without mnemonic name (with switch-no-mnemonic): the compiler takes the name
for its message from a null pointer. -/
theorem C97_finding_crash : clauseRes true ⟨bytes "CONSOLE", none, [(true, 5)]⟩ = .crash ∧ clauseRes true ⟨bytes "CONSOLE", some 3, [(true, 5)]⟩ = .err := by
  decide +kernel

end Cob.Switch
