import Verif.Move.EditedFinish
/-
Lemmas for C16: de-editing the text that editing has produced.
-/
namespace Cob

/-- Position `i` shows a digit. -/
def showsDigit (env : EditEnv) (cs : List Nat) (dig : Nat → Nat) (i : Nat) : Bool :=
  aligned env cs i && !(decide (i < pointPos env cs) && leadingZeros cs dig (i + 1))

/-! ### The loop over the characters -/

/-- The loop over `k` characters `g 0`, `g 1`, …, only that at `p` being the decimal point. -/
theorem deEdit_range (env : EditEnv) (hdp : env.dp = 46 ∨ env.dp = 44) (g : Nat → Nat) (n p : Nat)
    (hg : ∀ i, i < n → (g i = env.dp ↔ i = p)) (k : Nat) (hk : k ≤ n) :
    ((List.range k).map g).foldl (deEditStep env) {} =
      { buff := ((List.range k).filter fun i => isDigit (g i)).map g
        sign := if ((List.range k).any fun i => g i == 45 || g i == 67) then -1 else 0
        scale := ((List.range k).countP fun i => decide (p < i) && isDigit (g i) : Nat)
        point := decide (p < k) } := by
  induction k with
  | zero => simp
  | succ k ih =>
    rw [List.range_succ, List.map_append, List.foldl_append, ih (by omega)]
    simp only [List.map_cons, List.map_nil, List.foldl_cons, List.foldl_nil]
    have hgk := hg k (by omega)
    unfold deEditStep
    have hd : isDigit (g k) = true ↔ 48 ≤ g k ∧ g k ≤ 57 := isDigit_iff _
    by_cases h1 : isDigit (g k) = true
    · have h1' := hd.1 h1
      have hne : g k ≠ env.dp := by rcases hdp with h | h <;> omega
      have hkp : ¬ k = p := fun h => hne (hgk.2 h)
      simp only [h1, if_true, DeEd.mk.injEq]
      refine ⟨by simp [h1], ?_, ?_, ?_⟩
      · rw [List.any_append]
        have : (g k == 45 || g k == 67) = false := by simp; omega
        simp [this]
      · rw [List.countP_append, List.countP_singleton]
        simp only [h1, Bool.and_true, decide_eq_true_eq]
        split <;> simp
      · rw [Bool.eq_iff_iff]; simp; omega
    · have h1f : isDigit (g k) = false := by simpa using h1
      simp only [h1f, Bool.false_eq_true, if_false]
      have hbuff : ((List.range k ++ [k]).filter fun i => isDigit (g i)).map g =
          ((List.range k).filter fun i => isDigit (g i)).map g := by simp [h1f]
      have hsc : ((List.range k ++ [k]).countP fun i => decide (p < i) && isDigit (g i)) =
          ((List.range k).countP fun i => decide (p < i) && isDigit (g i)) := by
        rw [List.countP_append, List.countP_singleton]; simp [h1f]
      rw [hbuff, hsc, List.any_append]
      simp only [List.any_cons, List.any_nil, Bool.or_false]
      by_cases h2 : g k = 46 ∨ g k = 44
      · rw [if_pos h2]
        have h45 : (g k == 45 || g k == 67) = false := by simp; omega
        rw [h45, Bool.or_false]
        by_cases h3 : g k = env.dp
        · have := hgk.1 h3
          rw [if_pos h3]
          simp only [DeEd.mk.injEq, true_and]
          simp; omega
        · have hkp : ¬ k = p := fun h => h3 (hgk.2 h)
          rw [if_neg h3]
          simp only [DeEd.mk.injEq, true_and]
          rw [Bool.eq_iff_iff]; simp; omega
      · rw [if_neg h2]
        have hkp : ¬ k = p := fun h => h2 (by have := hgk.2 h; rcases hdp with h' | h' <;> omega)
        have hpt : decide (p < k) = decide (p < k + 1) := by rw [Bool.eq_iff_iff]; simp; omega
        by_cases h4 : g k = 45 ∨ g k = 67
        · rw [if_pos h4]
          have : (g k == 45 || g k == 67) = true := by simpa using h4
          rw [this, Bool.or_true, hpt]
          simp
        · rw [if_neg h4]
          have : (g k == 45 || g k == 67) = false := by simpa using h4
          rw [this, Bool.or_false, hpt]

theorem deEditScale_zero (pic : List (Nat × Nat)) (hpos : ∀ p ∈ pic, 0 < p.2) (h : ∀ c ∈ expandPic pic, c ≠ 80 ∧ c ≠ 86)
    (count : Nat) (sc : Int) : deEditScale pic false count sc = sc := by
  induction pic generalizing count sc with
  | nil => rfl
  | cons p pic ih =>
    obtain ⟨c, n⟩ := p
    have hn : n ≠ 0 := by have := hpos (c, n) (by simp); simp at this; omega
    have hc : c ≠ 80 ∧ c ≠ 86 := by
      apply h
      simp only [expandPic, List.flatMap_cons, List.mem_append, List.mem_replicate]
      left; exact ⟨hn, trivial⟩
    have ih := ih (fun q hq => hpos q (by simp [hq])) (by
      intro x hx; apply h
      simp only [expandPic, List.flatMap_cons, List.mem_append]
      right; exact hx)
    unfold deEditScale
    rw [if_neg hc.1, if_neg hc.2]
    simp [ih]

/-! ### The digits -/

theorem rescale_succ (m : Nat) (s t : Int) :
    rescale m s (t + 1) / 10 = rescale m s t ∧ rescale m s (t + 1) % 10 = digitAt m s (-(t + 1)) := by
  unfold rescale digitAt
  by_cases h1 : s ≤ t
  · rw [if_pos h1, if_pos (by omega)]
    have : (t + 1 - s).toNat = (t - s).toNat + 1 := by omega
    rw [this, Nat.pow_succ, ← Nat.mul_assoc]
    refine ⟨by omega, ?_⟩
    rw [if_neg (by omega)]; omega
  · rw [if_neg h1]
    by_cases h2 : s ≤ t + 1
    · rw [if_pos h2, if_pos (by omega)]
      have e1 : (t + 1 - s).toNat = 0 := by omega
      have e2 : (s - t).toNat = 1 := by omega
      have e3 : (s + -(t + 1)).toNat = 0 := by omega
      rw [e1, e2, e3]; simp
    · rw [if_neg h2, if_pos (by omega)]
      have e1 : (s - t).toNat = (s - (t + 1)).toNat + 1 := by omega
      have e2 : (s + -(t + 1)).toNat = (s - (t + 1)).toNat := by omega
      rw [e1, e2, Nat.pow_succ, Nat.div_div_eq_div_mul]
      exact ⟨rfl, rfl⟩

/-- The digits shown by the positions before `k` make up the number, cut off. -/
theorem aligned_value (env : EditEnv) (cs : List Nat) (m : Nat) (s : Int) (dig : Nat → Nat)
    (hdig : ∀ i, i < cs.length → aligned env cs i = true → dig i = digitAt m s (weightAt env cs i)) (k : Nat) (hk : k ≤ cs.length) :
    digitsVal (((List.range k).filter (aligned env cs)).map dig) =
      rescale m s ((alignedBefore env cs k : Int) - alignedBefore env cs (pointPos env cs)) % 10 ^ alignedBefore env cs k := by
  induction k with
  | zero => simp [digitsVal, alignedBefore, Nat.mod_one]
  | succ k ih =>
    rw [List.range_succ, List.filter_append, List.map_append, digitsVal_append, ih (by omega), alignedBefore_succ]
    by_cases h : aligned env cs k = true
    · have hw := hdig k (by omega) h
      unfold weightAt at hw
      rw [alignedBefore_succ] at hw
      simp only [h, if_true] at hw ⊢
      simp only [List.filter_cons, h, List.filter_nil, if_true, List.map_cons, List.map_nil, digitsVal, List.length_singleton,
        List.length_nil]
      generalize alignedBefore env cs k = a at *
      generalize alignedBefore env cs (pointPos env cs) = b at *
      obtain ⟨e1, e2⟩ := rescale_succ m s ((a : Int) - b)
      have e3 : ((a : Int) - b + 1) = (((a + 1 : Nat) : Int) - b) := by omega
      rw [e3] at e1 e2
      have e4 : -(((a + 1 : Nat) : Int) - b) = (b : Int) - ((a + 1 : Nat) : Int) := by omega
      rw [e4, ← hw] at e2
      rw [← e1, ← e2, Nat.pow_succ 10 a, Nat.mul_comm (10 ^ a) 10, Nat.mod_mul]
      omega
    · have hf : aligned env cs k = false := by simpa using h
      simp [hf, digitsVal]

theorem shown_value (env : EditEnv) (cs : List Nat) (dig : Nat → Nat) (k : Nat) :
    digitsVal (((List.range k).filter (showsDigit env cs dig)).map dig) =
      digitsVal (((List.range k).filter (aligned env cs)).map dig) := by
  induction k with
  | zero => rfl
  | succ k ih =>
    rw [List.range_succ, List.filter_append, List.filter_append, List.map_append, List.map_append, digitsVal_append,
      digitsVal_append, ih]
    by_cases h : aligned env cs k = true
    · cases hs : showsDigit env cs dig k
      · -- all digits so far are zero
        have hs0 := hs
        unfold showsDigit at hs
        rw [h, Bool.true_and, Bool.not_eq_false', Bool.and_eq_true] at hs
        have hz : ∀ j, j ≤ k → dig j = 0 := by
          intro j hj
          have := hs.2
          unfold leadingZeros at this
          rw [List.all_eq_true] at this
          have := this j (List.mem_range.2 (by omega))
          simp only [Bool.and_eq_true, beq_iff_eq] at this
          exact this.2
        have hzero : ∀ l : List Nat, (∀ j ∈ l, j ≤ k) → digitsVal (l.map dig) = 0 := by
          intro l
          induction l with
          | nil => intro _; rfl
          | cons a l ihl =>
            intro hl
            simp only [List.map_cons, digitsVal]
            rw [hz a (hl a (by simp)), ihl (fun j hj => hl j (by simp [hj]))]
            simp
        have hmem : ∀ (p : Nat → Bool), ∀ j ∈ (List.range k).filter p, j ≤ k := by
          intro p j hj
          have := List.mem_range.1 (List.mem_filter.1 hj).1
          omega
        rw [hzero _ (hmem _)]
        simp [hs0, h, digitsVal, hz k (Nat.le_refl k)]
      · simp [hs, h]
    · have hf : aligned env cs k = false := by simpa using h
      have hs : showsDigit env cs dig k = false := by unfold showsDigit; rw [hf]; rfl
      simp [hs, hf]


/-! ### The characters of the text -/

theorem putHeads_getD (k : Nat) (hs a : List Nat) (i : Nat) :
    (putHeads k hs a).getD i 0 = a.getD i 0 ∨
      ((putHeads k hs a).getD i 0 ∈ hs ∧ (i = k ∨ (2 ≤ hs.length ∧ i = k - 1)) ∧ i < a.length) := by
  simp only [List.getD_eq_getElem?_getD]
  match hs with
  | [] => left; rfl
  | [x] =>
    simp only [putHeads, List.getElem?_set]
    split
    · split
      · right; refine ⟨by simp, Or.inl (by omega), by omega⟩
      · left; rw [List.getElem?_eq_none (by omega)]
    · left; rfl
  | x :: y :: r =>
    simp only [putHeads, List.getElem?_set, List.length_set]
    split
    · split
      · right; refine ⟨by simp, Or.inr ⟨by simp, by omega⟩, by omega⟩
      · left; rw [List.getElem?_eq_none (by omega)]
    · split
      · split
        · right; refine ⟨by simp, Or.inl (by omega), by omega⟩
        · left; rw [List.getElem?_eq_none (by omega)]
      · left; rfl

/-- What the character of the body at a position is. -/
theorem body_facts (env : EditEnv) (he : EnvOk env) (cs : List Nat) (h48 : 48 ∉ cs) (dig : Nat → Nat) (neg : Bool) (i : Nat)
    (hi : i < cs.length)
    (h : PosFacts env cs dig i (cs.getD i 0) (leadingZeros cs dig (i + 1)) (placeBefore cs i)) :
    isDigit (bodyChar env cs dig neg i) = showsDigit env cs dig i ∧
    (showsDigit env cs dig i = true → bodyChar env cs dig neg i = 48 + dig i) ∧
    (bodyChar env cs dig neg i = env.dp ↔ i = pointPos env cs) ∧
    ((bodyChar env cs dig neg i = 45 ∨ bodyChar env cs dig neg i = 67) ↔
      (neg = true ∧ trailingSym env cs i = true ∧ cs.getD i 0 ≠ env.cur)) := by
  have hpn := place_not_sym env he
  obtain ⟨hdp, hcd, hc2⟩ := he
  simp only [List.mem_cons, List.not_mem_nil, or_false, not_or] at hc2
  obtain ⟨c0, c1, c2, c3, c4, c5, c6, c7, c8, c9, c10, c11, c12, c13⟩ := hc2
  have hdpc : ¬ env.cur = env.dp := by rcases hdp with h | h <;> rw [h] <;> assumption
  have hcurd : isDigit env.cur = false := by
    by_contra hc; exact hcd ((isDigit_iff _).1 (by simpa using hc))
  have hne48 : cs.getD i 0 ≠ 48 := by
    intro hc
    rw [List.getD_eq_getElem?_getD, List.getElem?_eq_getElem hi, Option.getD_some] at hc
    exact h48 (hc ▸ List.getElem_mem hi)
  have htre : trailingSym env cs i = (isSym env (cs.getD i 0) && placeBefore cs i) := rfl
  have hst : symText env neg (cs.getD i 0) = symText env neg (cs.getD i 0) := rfl
  conv at hst => rhs; unfold symText
  unfold bodyChar showsDigit aligned
  rw [htre]
  clear htre
  obtain ⟨leg, l57, ldig, d9, ndig, pt, frac, tr, pad, fill, ltr⟩ := h
  generalize cs.getD i 0 = c at *
  generalize leadingZeros cs dig (i + 1) = L at *
  generalize placeBefore cs i = pb at *
  generalize fillAt cs i = F at *
  generalize pointPos env cs = P at *
  generalize bodyEnd env cs = E at *
  generalize dig i = d at *
  have hdg : isDigit (48 + d) = true := (isDigit_iff _).2 ⟨by omega, by omega⟩
  have hFd : isDigit F = false := by rcases fill with h | h <;> rw [h] <;> rfl
  have hFdp : F ≠ env.dp := by rcases fill with h | h <;> rcases hdp with h' | h' <;> rw [h, h'] <;> decide
  have hF4 : ¬ (F = 45 ∨ F = 67) := by rcases fill with h | h <;> rw [h] <;> decide
  have hddp : 48 + d ≠ env.dp := by rcases hdp with h | h <;> rw [h] <;> omega
  have hd4 : ¬ (48 + d = 45 ∨ 48 + d = 67) := by omega
  have hdpd : isDigit env.dp = false := by rcases hdp with h | h <;> rw [h] <;> rfl
  have hdp4 : ¬ (env.dp = 45 ∨ env.dp = 67) := by rcases hdp with h | h <;> rw [h] <;> decide
  have hdp32 : (32 : Nat) ≠ env.dp := by rcases hdp with h | h <;> rw [h] <;> decide
  have hdp45 : (45 : Nat) ≠ env.dp := by rcases hdp with h | h <;> rw [h] <;> decide
  have hdp43 : (43 : Nat) ≠ env.dp := by rcases hdp with h | h <;> rw [h] <;> decide
  have hdp47 : (47 : Nat) ≠ env.dp := by rcases hdp with h | h <;> rw [h] <;> decide
  by_cases hcdp : c = env.dp
  · -- the decimal point
    have hP := pt.1 hcdp
    have hs : isSym env c = false := by
      rw [hcdp]; unfold isSym
      simp only [Bool.or_eq_false_iff, beq_eq_false_iff_ne]
      exact ⟨⟨fun h => hdp43 h.symm, fun h => hdp45 h.symm⟩, fun h => hdpc h.symm⟩
    have hpl : isPlace c = false := by
      rw [hcdp]; unfold isPlace
      rcases hdp with h | h <;> rw [h] <;> rfl
    rw [if_pos (Or.inr (Or.inr hcdp)), hpl, hs, hcdp]
    simp [hdpd, hP, hdp4]
  · have hP : P ≠ i := fun h => hcdp (pt.2 h)
    have hP' : ¬ i = P := fun h => hP h.symm
    by_cases hs : isSym env c = true
    · have hpl : isPlace c = false := by
        by_contra hc; rw [hpn c (by simpa using hc)] at hs; exact absurd hs (by decide)
      have hs' : (c = 43 ∨ c = 45) ∨ c = env.cur := by simpa [isSym] using hs
      have m48 : ¬ env.cur = 48 := fun h => hcd (by omega)
      have n57 : (c != 57) = true := by
        have : c ≠ 57 := by intro h; rw [h] at hpl; exact absurd hpl (by decide)
        simpa using this
      have n1 : ¬ (c = 48 ∨ c = 47) := by rcases hs' with (h | h) | h <;> simp [h, m48, c7]
      have n2 : ¬ c = 66 := by rcases hs' with (h | h) | h <;> simp [h, c8]
      have n3 : ¬ (c = 46 ∨ c = 44) := by rcases hs' with (h | h) | h <;> simp [h, c6, c4]
      have n6 : ¬ (c = 48 ∨ c = 47 ∨ c = env.dp) := by
        rintro (h | h | h)
        · exact n1 (Or.inl h)
        · exact n1 (Or.inr h)
        · exact hcdp h
      rw [if_neg n6, if_neg n2, if_neg n3, hs, hpl, n57]
      cases pb
      · simp only [Bool.true_and, Bool.and_false, Bool.false_eq_true, if_false, Bool.and_true, Bool.not_false,
          Bool.or_true, if_true]
        cases L
        · simp [hdg, hddp, hP', hd4]
        · by_cases hPl : i < P
          · simp [hPl, hdp32, hP', show isDigit 32 = false from rfl]
          · simp [hPl, hdg, hddp, hP']
            omega
      · simp only [Bool.and_true, if_true, Bool.not_true, Bool.and_false, Bool.or_false, Bool.false_and]
        rw [hst]
        by_cases hcc : c = env.cur
        · rw [if_pos hcc, hcc]
          simp [hcurd, hdpc, hP', c5, c9]
        · rw [if_neg hcc]
          cases neg
          · simp only [Bool.false_eq_true, if_false]
            split <;> simp [hdp43, hdp32, hP', show isDigit 43 = false from rfl, show isDigit 32 = false from rfl]
          · simp [hdp45, hP', hcc, show isDigit 45 = false from rfl]
    · have hs0 : isSym env c = false := by simpa using hs
      have hs' : ¬ ((c = 43 ∨ c = 45) ∨ c = env.cur) := by simpa [isSym] using hs
      have leg' : c = 57 ∨ c = 90 ∨ c = 42 ∨ c = 47 ∨ c = 66 ∨ c = 46 ∨ c = 44 := by
        rcases leg with (h | h | h | h | h | h | h | h | h | h) | h
        · exact Or.inl h
        · exact Or.inr (Or.inl h)
        · exact Or.inr (Or.inr (Or.inl h))
        · exact absurd h hne48
        · exact Or.inr (Or.inr (Or.inr (Or.inl h)))
        · exact Or.inr (Or.inr (Or.inr (Or.inr (Or.inl h))))
        · exact Or.inr (Or.inr (Or.inr (Or.inr (Or.inr (Or.inl h)))))
        · exact Or.inr (Or.inr (Or.inr (Or.inr (Or.inr (Or.inr h)))))
        · exact absurd (Or.inl (Or.inl h)) hs'
        · exact absurd (Or.inl (Or.inr h)) hs'
        · exact absurd (Or.inr h) hs'
      rw [hs0]
      simp only [Bool.false_and, Bool.false_eq_true, if_false, Bool.or_false]
      clear tr hs leg hs' pad ltr hst hne48 hcd hcurd hdpc c0 c1 c2 c3 c4 c5 c6 c7 c8 c9 c10 c11 c12 c13 hpn
      rcases leg' with rfl | rfl | rfl | rfl | rfl | rfl | rfl
      · have hL := l57 rfl
        subst hL
        simp [hcdp, hdg, hddp, hP', isPlace]
        omega
      · cases L
        · simp [hcdp, hdg, hddp, hP', isPlace]; omega
        · by_cases hPl : i < P
          · simp [hcdp, hPl, hFd, hFdp, hP', hs0, isPlace]; omega
          · simp [hcdp, hPl, hdg, hddp, hP', isPlace]; omega
      · cases L
        · simp [hcdp, hdg, hddp, hP', isPlace]; omega
        · by_cases hPl : i < P
          · simp [hcdp, hPl, hFd, hFdp, hP', hs0, isPlace]; omega
          · simp [hcdp, hPl, hdg, hddp, hP', isPlace]; omega
      · simp [hdp47, hP', isPlace, show isDigit 47 = false from rfl]
      · by_cases hPl : i < P <;> cases L <;>
          simp [hcdp, hPl, hFd, hFdp, hP', isPlace, hdp32, show isDigit 32 = false from rfl] <;> omega
      · by_cases hPl : i < P <;> cases L <;>
          simp [hcdp, hPl, hFd, hFdp, hP', isPlace, show isDigit 46 = false from rfl] <;> omega
      · by_cases hPl : i < P <;> cases L <;>
          simp [hcdp, hPl, hFd, hFdp, hP', isPlace, show isDigit 44 = false from rfl] <;> omega


theorem countP_range_le (p : Nat → Bool) (m n : Nat) (h : m ≤ n) (hz : ∀ i, m ≤ i → i < n → p i = false) :
    (List.range n).countP p = (List.range m).countP p := by
  rw [List.countP_eq_length_filter, List.countP_eq_length_filter, filter_range_le p m n h hz]

theorem not_aligned_point (env : EditEnv) (he : EnvOk env) (cs : List Nat)
    (hone : ∀ i < cs.length, cs.getD i 0 = env.dp → i = pointPos env cs) :
    aligned env cs (pointPos env cs) = false := by
  obtain ⟨hdp, hcd, hc2⟩ := he
  simp only [List.mem_cons, List.not_mem_nil, or_false, not_or] at hc2
  obtain ⟨c0, c1, c2, c3, c4, c5, c6, c7, c8, c9, c10, c11, c12, c13⟩ := hc2
  have h0 : ¬ (0 = env.cur) := fun h => c0 h.symm
  have h44 : ¬ (44 = env.cur) := fun h => c4 h.symm
  have h46 : ¬ (46 = env.cur) := fun h => c6 h.symm
  by_cases h : pointPos env cs < cs.length
  · have := (findIdx_lt_iff env cs hone _ h).2 rfl
    unfold aligned
    rw [this]
    rcases hdp with h | h <;> rw [h] <;> simp [isPlace, isSym, h44, h46]
  · unfold aligned
    rw [List.getD_eq_getElem?_getD, List.getElem?_eq_none (by omega)]
    simp [isPlace, isSym, h0]

theorem aligned_split (env : EditEnv) (he : EnvOk env) (cs : List Nat)
    (hone : ∀ i < cs.length, cs.getD i 0 = env.dp → i = pointPos env cs) :
    alignedBefore env cs cs.length = alignedBefore env cs (pointPos env cs) + fracPlaces env cs := by
  have hle := pointPos_le env cs
  have hna := not_aligned_point env he cs hone
  have key : ∀ k, pointPos env cs ≤ k → alignedBefore env cs k = alignedBefore env cs (pointPos env cs) +
      (List.range k).countP fun i => decide (pointPos env cs < i) && aligned env cs i := by
    intro k hk
    induction k, hk using Nat.le_induction with
    | base =>
      have : ((List.range (pointPos env cs)).countP fun i => decide (pointPos env cs < i) && aligned env cs i) = 0 := by
        rw [List.countP_eq_zero]
        intro i hi
        have := List.mem_range.1 hi
        simp; omega
      omega
    | succ k hk ih =>
      rw [alignedBefore_succ, ih, List.range_succ, List.countP_append, List.countP_singleton]
      rcases Nat.eq_or_lt_of_le hk with h | h
      · rw [← h, hna]; simp
      · have : decide (pointPos env cs < k) = true := by simpa using h
        rw [this, Bool.true_and]; omega
  exact key cs.length hle

/-- A text without digits and signs. -/
theorem deEdit_none (env : EditEnv) (data : List Nat) (h : ∀ c ∈ data, isDigit c = false ∧ c ≠ 45 ∧ c ≠ 67) (d : DeEd) :
    (data.foldl (deEditStep env) d).buff = d.buff ∧ (data.foldl (deEditStep env) d).sign = d.sign := by
  induction data generalizing d with
  | nil => exact ⟨rfl, rfl⟩
  | cons c data ih =>
    obtain ⟨h1, h2, h3⟩ := h c (by simp)
    have ih := ih (fun x hx => h x (by simp [hx])) (deEditStep env d c)
    simp only [List.foldl_cons]
    rw [ih.1, ih.2]
    unfold deEditStep
    simp only [h1, Bool.false_eq_true, if_false]
    split
    · split <;> exact ⟨rfl, rfl⟩
    · rw [if_neg (by simp [h2, h3])]; exact ⟨rfl, rfl⟩

theorem list_eq_range_map (l : List Nat) : l = (List.range l.length).map fun i => l.getD i 0 := by
  apply List.ext_getElem
  · simp
  · intro i h1 h2
    simp [List.getD, h1]

set_option maxHeartbeats 1000000 in
/-- De-editing the text. -/
theorem back_text (ebc : Bool) (env : EditEnv) (he : EnvOk env) (heads cs tail : List Nat) (hp : EditPic env heads cs tail)
    (hD : DeEditable env cs) (hA : alignedBefore env cs cs.length ≤ 64) (m : Nat) (s : Int)
    (hf : ∀ i < heads.length, digitAt m s (weightAt env cs i) = 0) (neg blankZero : Bool)
    (pic : List (Nat × Nat)) (hpos : ∀ p ∈ pic, 0 < p.2) (hpic : expandPic pic = cs ++ tail)
    (f2 : Field) (hf2 : WFDisplay f2) :
    ∃ neg' : Bool,
      (rescale m s (fracPlaces env cs) % 10 ^ alignedBefore env cs cs.length ≠ 0 → neg' = (neg && signShown cs tail)) ∧
      moveEditedDisp ebc env pic (editedText env blankZero heads cs tail neg m s) f2 =
        some ⟨f2.attr, zonedImage f2.attr ebc neg' (fixedDigits f2.dsize
          (rescale (rescale m s (fracPlaces env cs) % 10 ^ alignedBefore env cs cs.length) (fracPlaces env cs) f2.attr.scale))⟩ := by
  have hsplit := aligned_split env he cs hp.onePoint
  have hPle := pointPos_le env cs
  have hpn := place_not_sym env he
  have hval := aligned_value env cs m s (digitShown env cs heads.length m s) (by
    intro i hi ha
    unfold digitShown
    by_cases hh : heads.length ≤ i
    · rw [if_pos ⟨ha, hh⟩]
    · rw [if_neg (by rintro ⟨_, h⟩; exact hh h), hf i (by omega)]) cs.length (Nat.le_refl _)
  have hFr : (alignedBefore env cs cs.length : Int) - alignedBefore env cs (pointPos env cs) = fracPlaces env cs := by omega
  rw [hFr] at hval
  rw [← hval]
  have hdp := he.1
  have hall := leadingZeros_all cs (digitShown env cs heads.length m s)
  have hdp45 : ∀ c, (c = 46 ∨ c = 44) → isDigit c = false ∧ c ≠ 45 ∧ c ≠ 67 := by
    rintro c (h | h) <;> subst h <;> decide
  unfold editedText
  simp only
  by_cases hZ : ((List.range cs.length).all fun i => digitShown env cs heads.length m s i == 0) = true ∧
      (blankZero = true ∨ 57 ∉ cs)
  · -- no digits
    rw [if_pos hZ]
    have hz : digitsVal (((List.range cs.length).filter (aligned env cs)).map (digitShown env cs heads.length m s)) = 0 := by
      have h0 := hZ.1
      rw [List.all_eq_true] at h0
      have hzero : ∀ l : List Nat, (∀ j ∈ l, j < cs.length) → digitsVal (l.map (digitShown env cs heads.length m s)) = 0 := by
        intro l
        induction l with
        | nil => intro _; rfl
        | cons a l ihl =>
          intro hl
          simp only [List.map_cons, digitsVal]
          have := h0 a (List.mem_range.2 (hl a (by simp)))
          simp only [beq_iff_eq] at this
          rw [this, ihl (fun j hj => hl j (by simp [hj]))]
          simp
      apply hzero
      intro j hj
      exact List.mem_range.1 (List.mem_filter.1 hj).1
    rw [hz]
    refine ⟨false, fun h => absurd rfl h, ?_⟩
    unfold moveEditedDisp
    simp only
    generalize hT : (if blankZero = true ∨ 42 ∉ cs then List.replicate (cs.length + 2 * tail.length) 32
      else List.map (fun i => if cs.getD i 0 = env.dp then env.dp else 42) (List.range (cs.length + 2 * tail.length))) = T
    have hTn : ∀ c ∈ T, isDigit c = false ∧ c ≠ 45 ∧ c ≠ 67 := by
      rw [← hT]
      intro c hc
      split at hc
      · rw [(List.mem_replicate.1 hc).2]; decide
      · obtain ⟨i, _, hi⟩ := List.mem_map.1 hc
        rw [← hi]
        split
        · exact hdp45 _ hdp
        · decide
    obtain ⟨hb, hs⟩ := deEdit_none env T hTn {}
    rw [hb, hs]
    simp only [List.length_nil]
    rw [if_neg (by omega)]
    have := fun sc => region_holds ebc f2 hf2 [] (by simp) sc 0
    simp only [List.map_nil] at this
    rw [this]
    have hr0 : ∀ a b, rescale (digitsVal []) a b = 0 := by intro a b; unfold rescale digitsVal; split <;> simp
    have hr0' : ∀ a b, rescale 0 a b = 0 := by intro a b; unfold rescale; split <;> simp
    rw [hr0, hr0']
    rfl
  · rw [if_neg hZ]
    have hns : leadingZeros cs (digitShown env cs heads.length m s) cs.length = false := by
      by_contra hc
      apply hZ
      have hc : leadingZeros cs (digitShown env cs heads.length m s) cs.length = true := by simpa using hc
      rw [hall, Bool.and_eq_true] at hc
      exact ⟨hc.1, Or.inr (by simpa using hc.2)⟩
    have hpf : ∀ i, i < cs.length → _ := fun i hi => posFacts env he heads cs tail hp m s i hi hns
    have hbody : ∀ i, i < cs.length → _ := fun i hi => body_facts env he cs hD.1 (digitShown env cs heads.length m s) neg i hi (hpf i hi)
    have hheads := heads_blank env he heads cs tail hp m s
    have hd9 : ∀ i, i < cs.length → digitShown env cs heads.length m s i ≤ 9 := fun i hi => (hpf i hi).d9
    have hplain : ∀ i, i < cs.length → leadingZeros cs (digitShown env cs heads.length m s) (i + 1) = true → i < pointPos env cs →
        showsDigit env cs (digitShown env cs heads.length m s) i = false := by
      intro i hi h1 h2
      unfold showsDigit
      rw [h1]; simp [h2]
    have hltr : ∀ i, i < cs.length → trailingSym env cs i = true →
        leadingZeros cs (digitShown env cs heads.length m s) (i + 1) = false := by
      intro i hi ht
      unfold trailingSym at ht
      rw [Bool.and_eq_true] at ht
      exact (hpf i hi).ltr ht.1 ht.2
    generalize hdig : digitShown env cs heads.length m s = dig at *
    have htl := tailText2_length neg tail hp.tailOk
    generalize hK : (blankPositions env cs dig).getLastD 0 = K
    -- the target positions
    have hK1 : heads ≠ [] → K < pointPos env cs ∧ leadingZeros cs dig (K + 1) = true ∧ (heads.length = 2 → 1 ≤ K) := by
      intro hne
      obtain ⟨p0, q0⟩ := hheads 0 (List.length_pos_iff.2 hne)
      have hmem : K ∈ blankPositions env cs dig := by
        have h0m : 0 ∈ blankPositions env cs dig := by
          unfold blankPositions
          exact List.mem_filter.2 ⟨List.mem_range.2 p0, q0⟩
        have hne' : blankPositions env cs dig ≠ [] := List.ne_nil_of_mem h0m
        rw [← hK, List.getLastD_eq_getLast?, List.getLast?_eq_some_getLast hne', Option.getD_some]
        exact List.getLast_mem hne'
      unfold blankPositions at hmem
      obtain ⟨h1, h2⟩ := List.mem_filter.1 hmem
      simp only [Bool.and_eq_true] at h2
      refine ⟨List.mem_range.1 h1, h2.1.1.1, ?_⟩
      intro hl
      obtain ⟨p1, q1⟩ := hheads 1 (by omega)
      rw [← hK]
      exact (filter_range_last (fun i => leadingZeros cs dig (i + 1) && fillAt cs i == 32 && cs.getD i 0 != 48 && cs.getD i 0 != 47)
        (pointPos env cs) 1 p1 q1).1
    have hhl : heads.length ≤ 2 := by
      rcases hp.headsOk with h | h | h | h | h | h | h | h <;> subst h <;> simp
    have htarget : ∀ i, heads ≠ [] → (i = K ∨ (2 ≤ (heads.map (symText env neg)).length ∧ i = K - 1)) →
        i < pointPos env cs ∧ leadingZeros cs dig (i + 1) = true := by
      intro i hne hi
      obtain ⟨h1, h2, h3⟩ := hK1 hne
      rcases hi with h | ⟨hl, h⟩
      · subst h; exact ⟨h1, h2⟩
      · rw [List.length_map] at hl
        have := h3 (by omega)
        refine ⟨by omega, lead_mono cs dig (i + 1) (K + 1) (by omega) h2⟩
    have hcur := he.2
    simp only [List.mem_cons, List.not_mem_nil, or_false, not_or] at hcur
    obtain ⟨hcd, c0, c1, c2, c3, c4, c5, c6, c7, c8, c9, c10, c11, c12, c13⟩ := hcur
    have hsymc : ∀ c, isDigit (symText env neg c) = false ∧ symText env neg c ≠ env.dp := by
      intro c
      rcases symText_cases env neg c with h | h | h | h <;> rw [h]
      · refine ⟨?_, by rcases hdp with h' | h' <;> rw [h'] <;> assumption⟩
        by_contra hc; exact hcd ((isDigit_iff _).1 (by simpa using hc))
      all_goals exact ⟨rfl, by rcases hdp with h' | h' <;> rw [h'] <;> decide⟩
    -- the characters
    generalize hT : putHeads K (heads.map (symText env neg)) ((List.range cs.length).map (bodyChar env cs dig neg)) = T0
    have hT0l : T0.length = cs.length := by rw [← hT, putHeads_length]; simp
    have hT0 : ∀ i, i < cs.length → isDigit (T0.getD i 0) = showsDigit env cs dig i ∧
        (showsDigit env cs dig i = true → T0.getD i 0 = 48 + dig i) ∧ (T0.getD i 0 = env.dp ↔ i = pointPos env cs) ∧
        (¬ (i < pointPos env cs ∧ leadingZeros cs dig (i + 1) = true) → T0.getD i 0 = bodyChar env cs dig neg i) ∧
        (T0.getD i 0 = bodyChar env cs dig neg i ∨ T0.getD i 0 ∈ heads.map (symText env neg)) := by
      intro i hi
      obtain ⟨b1, b2, b3, b4⟩ := hbody i hi
      have hb : ((List.range cs.length).map (bodyChar env cs dig neg)).getD i 0 = bodyChar env cs dig neg i := by
        rw [List.getD_eq_getElem?_getD]; simp [hi]
      rcases putHeads_getD K (heads.map (symText env neg)) ((List.range cs.length).map (bodyChar env cs dig neg)) i with h | ⟨h1, h2, h3⟩
      · rw [hT, hb] at h
        rw [h]
        exact ⟨b1, b2, b3, fun _ => rfl, Or.inl rfl⟩
      · rw [hT] at h1
        have hne : heads ≠ [] := by rintro rfl; simp at h1
        obtain ⟨t1, t2⟩ := htarget i hne h2
        have hns' := hplain i hi t2 t1
        obtain ⟨c, _, hc⟩ := List.mem_map.1 h1
        rw [← hc]
        refine ⟨by rw [hns', (hsymc c).1], by rw [hns']; simp, ?_, fun h => absurd ⟨t1, t2⟩ h, Or.inr (by rw [hc]; exact h1)⟩
        constructor
        · intro h; exact absurd h (hsymc c).2
        · intro h; omega
    generalize hp' : (if pointPos env cs < cs.length then pointPos env cs else cs.length + 2 * tail.length) = p
    have hTT : ∀ c ∈ tailText2 neg tail, isDigit c = false ∧ c ≠ env.dp ∧ c ≠ 45 := by
      intro c hc
      have hc' : c = 32 ∨ c = 67 ∨ c = 82 ∨ c = 68 ∨ c = 66 := by
        rcases hp.tailOk with h | h | h <;> subst h <;> cases neg <;> simp [tailText2] at hc <;> omega
      rcases hdp with h' | h' <;> rw [h'] <;> rcases hc' with h | h | h | h | h <;> subst h <;> decide
    have hg1 : ∀ i, i < cs.length → (T0 ++ tailText2 neg tail).getD i 0 = T0.getD i 0 := by
      intro i hi
      rw [List.getD_eq_getElem?_getD, List.getD_eq_getElem?_getD, List.getElem?_append_left (by omega)]
    have hg2 : ∀ i, cs.length ≤ i → i < cs.length + 2 * tail.length → (T0 ++ tailText2 neg tail).getD i 0 ∈ tailText2 neg tail := by
      intro i h1 h2
      rw [List.getD_eq_getElem?_getD, List.getElem?_append_right (by omega), List.getElem?_eq_getElem (by omega)]
      simp
    have hfold := deEdit_range env hdp (fun i => (T0 ++ tailText2 neg tail).getD i 0) (cs.length + 2 * tail.length) p (by
      intro i hi
      by_cases hin : i < cs.length
      · simp only [hg1 i hin]
        rw [(hT0 i hin).2.2.1, ← hp']
        split <;> omega
      · have := (hTT _ (hg2 i (by omega) hi)).2.1
        constructor
        · intro h; exact absurd h this
        · intro h; rw [← hp'] at h; split at h <;> omega) (cs.length + 2 * tail.length) (Nat.le_refl _)
    have hlenT : (T0 ++ tailText2 neg tail).length = cs.length + 2 * tail.length := by
      rw [List.length_append, hT0l, htl]
    have hl := list_eq_range_map (T0 ++ tailText2 neg tail)
    rw [hlenT] at hl
    rw [← hl] at hfold
    -- its results
    have hbuff : ((List.range (cs.length + 2 * tail.length)).filter fun i => isDigit ((T0 ++ tailText2 neg tail).getD i 0)).map
        (fun i => (T0 ++ tailText2 neg tail).getD i 0) =
        (((List.range cs.length).filter (showsDigit env cs dig)).map dig).map (48 + ·) := by
      rw [filter_range_le _ cs.length _ (by omega) (fun i h1 h2 => (hTT _ (hg2 i h1 h2)).1), List.map_map]
      have : (List.range cs.length).filter (fun i => isDigit ((T0 ++ tailText2 neg tail).getD i 0)) =
          (List.range cs.length).filter (showsDigit env cs dig) := by
        apply List.filter_congr
        intro i hi
        rw [hg1 i (List.mem_range.1 hi)]
        exact (hT0 i (List.mem_range.1 hi)).1
      rw [this]
      apply List.map_congr_left
      intro i hi
      obtain ⟨h1, h2⟩ := List.mem_filter.1 hi
      simp only [Function.comp]
      rw [hg1 i (List.mem_range.1 h1)]
      exact (hT0 i (List.mem_range.1 h1)).2.1 h2
    have hscale : ((List.range (cs.length + 2 * tail.length)).countP fun i =>
        decide (p < i) && isDigit ((T0 ++ tailText2 neg tail).getD i 0)) = fracPlaces env cs := by
      rw [countP_range_le _ cs.length _ (by omega) (fun i h1 h2 => by rw [(hTT _ (hg2 i h1 h2)).1, Bool.and_false])]
      unfold fracPlaces
      apply List.countP_congr
      intro i hi
      have hi := List.mem_range.1 hi
      rw [hg1 i hi, (hT0 i hi).1]
      simp only [Bool.and_eq_true, decide_eq_true_eq]
      by_cases hP : pointPos env cs < cs.length
      · have hpp : p = pointPos env cs := by rw [← hp', if_pos hP]
        rw [hpp]
        unfold showsDigit
        constructor
        · rintro ⟨h1, h2⟩
          rw [Bool.and_eq_true] at h2
          exact ⟨h1, h2.1⟩
        · rintro ⟨h1, h2⟩
          refine ⟨h1, ?_⟩
          have : decide (i < pointPos env cs) = false := by simp; omega
          rw [h2, this]; rfl
      · have hpp : p = cs.length + 2 * tail.length := by rw [← hp', if_neg hP]
        constructor
        · rintro ⟨h1, _⟩; omega
        · rintro ⟨h1, _⟩; omega
    have hpoint : fracPlaces env cs = 0 → decide (p < cs.length + 2 * tail.length) = false := by
      intro h0
      by_cases hP : pointPos env cs < cs.length
      · obtain ⟨i, h1, h2, h3⟩ := hD.2 hP
        unfold fracPlaces at h0
        rw [List.countP_eq_zero] at h0
        exact absurd (by rw [h3]; simp [h1]) (h0 i (List.mem_range.2 h2))
      · rw [← hp', if_neg hP]; simp
    rw [hbuff, hscale] at hfold
    have hblen : ((((List.range cs.length).filter (showsDigit env cs dig)).map dig).map (48 + ·)).length ≤ 64 := by
      rw [List.length_map, List.length_map, ← List.countP_eq_length_filter]
      refine Nat.le_trans (List.countP_mono_left ?_) hA
      intro i _ h
      unfold showsDigit at h
      rw [Bool.and_eq_true] at h
      exact h.1
    unfold moveEditedDisp
    simp only
    rw [hfold]
    simp only
    rw [if_neg (by omega)]
    have hscl : (if ((fracPlaces env cs : Nat) : Int) = 0 then deEditScale pic (decide (p < cs.length + 2 * tail.length)) 0 0
        else ((fracPlaces env cs : Nat) : Int)) = fracPlaces env cs := by
      split
      · rename_i h
        have h0 : fracPlaces env cs = 0 := by omega
        rw [hpoint h0, deEditScale_zero pic hpos (by
          intro c hc
          rw [hpic, List.mem_append] at hc
          rcases hc with hc | hc
          · have := hp.legal c hc
            simp only [List.mem_cons, List.not_mem_nil, or_false] at this
            constructor
            · rintro rfl
              rcases this with h | h
              · omega
              · exact c11 h.symm
            · rintro rfl
              rcases this with h | h
              · omega
              · exact c12 h.symm
          · rcases hp.tailOk with h | h | h <;> subst h <;> simp at hc <;> subst hc <;> decide), h0]
        rfl
      · rfl
    rw [hscl, region_holds ebc f2 hf2 _ (by
      intro d hd
      obtain ⟨i, hi, hid⟩ := List.mem_map.1 hd
      rw [← hid]
      exact hd9 i (List.mem_range.1 (List.mem_filter.1 hi).1)), shown_value]
    refine ⟨neg && signShown cs tail, fun _ => rfl, ?_⟩
    congr 3
    -- the sign
    have h67 : ∀ c ∈ heads.map (symText env neg), c ≠ 67 := by
      intro c hc
      obtain ⟨x, _, hx⟩ := List.mem_map.1 hc
      rw [← hx]
      rcases symText_cases env neg x with h | h | h | h <;> rw [h]
      · exact c9
      all_goals decide
    have hsgn : ((List.range (cs.length + 2 * tail.length)).any fun i =>
        (T0 ++ tailText2 neg tail).getD i 0 == 45 || (T0 ++ tailText2 neg tail).getD i 0 == 67) = (neg && signShown cs tail) := by
      rw [Bool.eq_iff_iff, List.any_eq_true]
      constructor
      · rintro ⟨i, hi, h⟩
        have hi := List.mem_range.1 hi
        simp only [Bool.or_eq_true, beq_iff_eq] at h
        by_cases hin : i < cs.length
        · rw [hg1 i hin] at h
          rcases (hT0 i hin).2.2.2.2 with e | e
          · rw [e] at h
            obtain ⟨n1, n2, n3⟩ := (hbody i hin).2.2.2.1 h
            unfold trailingSym isSym at n2
            simp only [Bool.and_eq_true, Bool.or_eq_true, beq_iff_eq] at n2
            have hmem : cs.getD i 0 ∈ cs := by
              rw [List.getD_eq_getElem?_getD, List.getElem?_eq_getElem hin]; simp
            rw [n1, Bool.true_and]
            unfold signShown
            rcases n2.1 with (h' | h') | h'
            · rw [h'] at hmem; simp [hmem]
            · rw [h'] at hmem; simp [hmem]
            · exact absurd h' n3
          · have h45 : T0.getD i 0 = 45 := by
              rcases h with h | h
              · exact h
              · exact absurd h (h67 _ e)
            rw [h45] at e
            obtain ⟨x, hx, hxe⟩ := List.mem_map.1 e
            have hxcs : x ∈ cs := hp.headsAre.subset hx
            have hxh : x = 43 ∨ x = 45 ∨ x = env.cur := by
              rcases hp.headsOk with h' | h' | h' | h' | h' | h' | h' | h' <;> rw [h'] at hx <;> simp at hx <;> omega
            unfold symText at hxe
            split at hxe
            · exact absurd hxe (by rename_i hq; rw [hq]; exact c5)
            · rename_i hnc
              split at hxe
              · rename_i hneg
                rw [hneg, Bool.true_and]
                unfold signShown
                rcases hxh with h' | h' | h'
                · rw [h'] at hxcs; simp [hxcs]
                · rw [h'] at hxcs; simp [hxcs]
                · exact absurd h' hnc
              · split at hxe <;> omega
        · have hmem := hg2 i (by omega) hi
          have h45 := (hTT _ hmem).2.2
          have h67' : (T0 ++ tailText2 neg tail).getD i 0 = 67 := h.resolve_left h45
          rw [h67'] at hmem
          rcases hp.tailOk with h' | h' | h' <;> subst h' <;> cases neg <;> simp [tailText2] at hmem
          simp [signShown]
      · intro h
        rw [Bool.and_eq_true] at h
        obtain ⟨hn, hs⟩ := h
        unfold signShown at hs
        simp only [Bool.or_eq_true, List.contains_eq_mem, decide_eq_true_eq] at hs
        have hsign : (43 ∈ cs ∨ 45 ∈ cs) → ∃ x ∈ List.range (cs.length + 2 * tail.length),
            ((T0 ++ tailText2 neg tail).getD x 0 == 45 || (T0 ++ tailText2 neg tail).getD x 0 == 67) = true := by
          intro hcs
          obtain ⟨c, hc, hcm⟩ : ∃ c, (c = 43 ∨ c = 45) ∧ c ∈ cs := by
            rcases hcs with h | h
            · exact ⟨43, Or.inl rfl, h⟩
            · exact ⟨45, Or.inr rfl, h⟩
          have hcc : c ≠ env.cur := by rcases hc with h | h <;> rw [h] <;> exact fun h' => by first | exact c3 h'.symm | exact c5 h'.symm
          have hst : symText env neg c = 45 := by
            unfold symText
            rw [if_neg hcc, hn]; simp
          obtain ⟨i, hi, hie⟩ := List.mem_iff_getElem.1 hcm
          have hgc : cs.getD i 0 = c := by
            rw [List.getD_eq_getElem?_getD, List.getElem?_eq_getElem hi, Option.getD_some, hie]
          have hsy : isSym env (cs.getD i 0) = true := by
            rw [hgc]; unfold isSym; rcases hc with h | h <;> simp [h]
          cases hb : placeBefore cs i
          · -- a head
            have hmem := hp.floats i hi hsy hb
            rw [hgc] at hmem
            have h45m : 45 ∈ heads.map (symText env neg) := List.mem_map.2 ⟨c, hmem, hst⟩
            have hne : heads ≠ [] := List.ne_nil_of_mem hmem
            obtain ⟨k1, k2, k3⟩ := hK1 hne
            have hin : 45 ∈ T0 := by
              rw [← hT]
              have hKl : K < ((List.range cs.length).map (bodyChar env cs dig neg)).length := by simp; omega
              generalize (List.range cs.length).map (bodyChar env cs dig neg) = B at *
              have hhl2 : (heads.map (symText env neg)).length = heads.length := by simp
              generalize heads.map (symText env neg) = H at *
              match H, h45m, hhl2 with
              | [a], h45m, _ =>
                simp at h45m
                rw [← h45m]
                exact List.mem_set hKl 45
              | [a, b], h45m, hhl2 =>
                have hk1 := k3 (by simpa using hhl2.symm)
                simp only [putHeads]
                simp only [List.mem_cons, List.not_mem_nil, or_false] at h45m
                rcases h45m with h | h
                · rw [← h]
                  exact List.mem_set (by simp; omega) 45
                · rw [← h]
                  apply List.mem_iff_getElem.2
                  refine ⟨K, by simp; omega, ?_⟩
                  rw [List.getElem_set_ne (by omega)]
                  simp
              | a :: b :: c' :: r, _, hhl2 => simp at hhl2; omega
            obtain ⟨j, hj, hje⟩ := List.mem_iff_getElem.1 hin
            refine ⟨j, List.mem_range.2 (by omega), ?_⟩
            rw [hg1 j (by omega), List.getD_eq_getElem?_getD, List.getElem?_eq_getElem hj, Option.getD_some, hje]
            rfl
          · -- a trailing sign
            have ht : trailingSym env cs i = true := by unfold trailingSym; rw [hsy, hb]; rfl
            have hL := hltr i hi ht
            have := (hT0 i hi).2.2.2.1 (by rw [hL]; simp)
            have h4 := (hbody i hi).2.2.2.2 ⟨hn, ht, by rw [hgc]; exact hcc⟩
            refine ⟨i, List.mem_range.2 (by omega), ?_⟩
            rw [hg1 i hi, this]
            simpa using h4
        rcases hs with hs | hs
        · exact hsign hs
        · have ht : tail = [67] := by
            rcases hp.tailOk with h | h | h <;> rw [h] at hs <;> simp at hs
            exact h
          refine ⟨cs.length, List.mem_range.2 (by rw [ht]; simp), ?_⟩
          rw [List.getD_eq_getElem?_getD, List.getElem?_append_right (by omega), hT0l, ht, hn]
          simp [tailText2]
    rw [hsgn]
    cases neg && signShown cs tail <;> simp

end Cob
