import Verif.Move.EditedLemmas
/-
Lemmas for C16: what happens after the loop of the editing MOVE.
-/
namespace Cob

/-! ### After the loop -/

/-- The positions that are not trailing symbols. -/
def bodyEnd (env : EditEnv) (cs : List Nat) : Nat := cs.length - trailingBefore env cs cs.length

theorem trailing_le (env : EditEnv) (cs : List Nat) (k : Nat) : trailingBefore env cs k ≤ k := by
  unfold trailingBefore
  exact Nat.le_trans List.countP_le_length (by simp)

/-- The trailing symbols are the positions from `bodyEnd` on. -/
theorem trailing_iff (env : EditEnv) (cs : List Nat)
    (ht : ∀ i j, i < j → j < cs.length → trailingSym env cs i = true → trailingSym env cs j = true)
    (i : Nat) (hi : i < cs.length) : trailingSym env cs i = true ↔ bodyEnd env cs ≤ i := by
  -- up to `n` positions
  have key : ∀ n, n ≤ cs.length → ∀ i, i < n → (trailingSym env cs i = true ↔ n - trailingBefore env cs n ≤ i) := by
    intro n
    induction n with
    | zero => intro _ i hi; omega
    | succ n ih =>
      intro hn i hi
      have hle := trailing_le env cs n
      rw [trailingBefore_succ]
      cases hq : trailingSym env cs n
      · -- then there is none before
        have hz : ∀ j, j < n → trailingSym env cs j = false := by
          intro j hj
          by_contra hc
          rw [ht j n hj (by omega) (by simpa using hc)] at hq
          exact absurd hq (by decide)
        have h0 : trailingBefore env cs n = 0 := by
          unfold trailingBefore
          rw [List.countP_eq_zero]
          intro j hj
          rw [hz j (List.mem_range.1 hj)]; decide
        rw [h0]
        simp only [Bool.false_eq_true, if_false]
        constructor
        · intro h
          rcases Nat.lt_or_eq_of_le (Nat.le_of_lt_succ hi) with h1 | h1
          · rw [hz i h1] at h; exact absurd h (by decide)
          · subst h1; rw [hq] at h; exact absurd h (by decide)
        · intro h; omega
      · simp only [if_true]
        rcases Nat.lt_or_eq_of_le (Nat.le_of_lt_succ hi) with h1 | h1
        · rw [ih (by omega) i h1]; omega
        · subst h1; constructor
          · intro _; omega
          · intro _; exact hq
  exact key cs.length (Nat.le_refl _) i hi

theorem edLastBlank_eq (mem : List Nat) (n : Nat) :
    edLastBlank mem n = ((List.range (n + 1)).filter fun i => mem.getD i 0 == 32).getLastD 0 := by
  induction n with
  | zero =>
    simp only [edLastBlank, List.range_succ, List.range_zero, List.nil_append, List.filter_cons, List.filter_nil]
    split <;> rfl
  | succ n ih =>
    simp only [edLastBlank]
    rw [List.range_succ, List.filter_append, ih]
    by_cases h : mem.getD (n + 1) 0 = 32
    · rw [if_pos h]
      rw [List.getD_eq_getElem?_getD] at h
      simp [h]
    · rw [if_neg h]
      rw [List.getD_eq_getElem?_getD] at h
      simp [h]

theorem filter_range_le (p : Nat → Bool) (m n : Nat) (h : m ≤ n) (hz : ∀ i, m ≤ i → i < n → p i = false) :
    (List.range n).filter p = (List.range m).filter p := by
  obtain ⟨d, rfl⟩ := Nat.le.dest h
  clear h
  induction d with
  | zero => rfl
  | succ d ih =>
    rw [← Nat.add_assoc, List.range_succ, List.filter_append, ih (fun i h1 h2 => hz i h1 (by omega))]
    simp [hz (m + d) (by omega) (by omega)]

/-- 'B' to blank. -/
def unB (b : Nat) : Nat := if b = 66 then 32 else b

theorem edBlanks_eq (pad : Nat) (seen : Bool) (a t : List Nat) (e : Nat) (he : e ≤ a.length)
    (hs : seen = true ∨ a.headD 0 ≠ 66) (hn : ∀ i, e ≤ i → i < a.length → a.getD i 0 ≠ 66) :
    edBlanks pad seen e (a ++ t) = a.map unB ++ t := by
  induction a generalizing seen e with
  | nil =>
    have : e = 0 := by simpa using he
    subst this
    simp [edBlanks]
  | cons b a ih =>
    cases e with
    | zero =>
      have : ∀ i, i < (b :: a).length → (b :: a).getD i 0 ≠ 66 := fun i hi => hn i (by omega) hi
      simp only [edBlanks]
      congr 1
      symm
      refine Eq.trans (List.map_congr_left (g := id) ?_) (List.map_id _)
      intro x hx
      obtain ⟨i, hi, hxi⟩ := List.mem_iff_getElem.1 hx
      have := this i hi
      rw [List.getD_eq_getElem?_getD, List.getElem?_eq_getElem hi, Option.getD_some, hxi] at this
      unfold unB; rw [if_neg this]; rfl
    | succ e =>
      simp only [List.cons_append, edBlanks, List.map_cons]
      have hn' : ∀ i, e ≤ i → i < a.length → a.getD i 0 ≠ 66 := by
        intro i h1 h2
        have := hn (i + 1) (by omega) (by simpa using h2)
        simpa using this
      have he' : e ≤ a.length := by simpa using he
      by_cases hb : b = 66
      · have hse : seen = true := by
          rcases hs with h | h
          · exact h
          · exact absurd hb (by simpa using h)
        rw [if_pos hb, hse, ih true e he' (Or.inl rfl) hn']
        simp [unB, hb]
      · rw [if_neg hb, ih true e he' (Or.inl rfl) hn']
        simp [unB, hb]


/-- The character at position `i` before the symbols are put in and 'B' becomes blank. -/
def zch (env : EditEnv) (cs : List Nat) (dig : Nat → Nat) (neg : Bool) (i : Nat) : Nat :=
  let b := rawChar env cs dig neg i
  if pointPos env cs + 1 ≤ i ∧ (i : Int) < (bodyEnd env cs : Nat) ∧ ¬ (isDigit b = true ∨ b ∈ [44, 43, 45, 47, 66, 0])
  then 48 else b

theorem lead_mono (cs : List Nat) (dig : Nat → Nat) (i j : Nat) (h : i ≤ j) (hl : leadingZeros cs dig j = true) :
    leadingZeros cs dig i = true := by
  unfold leadingZeros at hl ⊢
  rw [List.all_eq_true] at hl ⊢
  intro x hx
  exact hl x (List.mem_range.2 (Nat.lt_of_lt_of_le (List.mem_range.1 hx) h))

/-- What the position-by-position facts are. -/
structure PosFacts (env : EditEnv) (cs : List Nat) (dig : Nat → Nat) (i c : Nat) (L pb : Bool) : Prop where
  leg : (c = 57 ∨ c = 90 ∨ c = 42 ∨ c = 48 ∨ c = 47 ∨ c = 66 ∨ c = 46 ∨ c = 44 ∨ c = 43 ∨ c = 45) ∨ c = env.cur
  l57 : c = 57 → L = false
  ldig : L = true → dig i = 0
  d9 : dig i ≤ 9
  ndig : isPlace c = false → isSym env c = false ∨ pb = true → dig i = 0
  pt : c = env.dp ↔ pointPos env cs = i
  frac : pointPos env cs < i → c ≠ 46 ∧ (c = 44 ∨ c = 66 → L = false)
  tr : (isSym env c && pb) = true ↔ bodyEnd env cs ≤ i
  pad : isSym env c = true → pb = false → fillAt cs i = 32
  fill : fillAt cs i = 42 ∨ fillAt cs i = 32
  ltr : isSym env c = true → pb = true → L = false

theorem posFacts (env : EditEnv) (he : EnvOk env) (heads cs tail : List Nat) (hp : EditPic env heads cs tail)
    (m : Nat) (s : Int) (i : Nat) (hi : i < cs.length)
    (hns : leadingZeros cs (digitShown env cs heads.length m s) cs.length = false) :
    PosFacts env cs (digitShown env cs heads.length m s) i (cs.getD i 0)
      (leadingZeros cs (digitShown env cs heads.length m s) (i + 1)) (placeBefore cs i) := by
  have hpn := place_not_sym env he
  have hmem : cs.getD i 0 ∈ cs := by
    rw [List.getD_eq_getElem?_getD, List.getElem?_eq_getElem hi]; simp
  have hnd : ∀ j, aligned env cs j = false → digitShown env cs heads.length m s j = 0 := by
    intro j hj; unfold digitShown; rw [hj]; simp
  refine ⟨?_, ?_, ?_, ?_, ?_, ?_, ?_, ?_, ?_, ?_, ?_⟩
  · have := hp.legal _ hmem
    simpa only [List.mem_cons, List.not_mem_nil, or_false] using this
  · intro h; rw [leadingZeros_succ, h]; simp
  · intro h; rw [leadingZeros_succ] at h
    simp only [Bool.and_eq_true, beq_iff_eq] at h
    exact h.2.2
  · unfold digitShown digitAt
    split
    · split
      · have := Nat.mod_lt (m / 10 ^ (s + weightAt env cs i).toNat) (show 10 > 0 by omega)
        omega
      · omega
    · omega
  · intro h1 h2
    apply hnd
    unfold aligned
    rcases h2 with h | h <;> rw [h1, h] <;> simp
  · exact findIdx_lt_iff env cs hp.onePoint i hi
  · intro h
    obtain ⟨h1, h2⟩ := hp.fracSep i h hi
    refine ⟨h1, fun h3 => ?_⟩
    have h4 := h2 h3
    by_contra hc
    have hc : leadingZeros cs (digitShown env cs heads.length m s) (i + 1) = true := by simpa using hc
    unfold leadingZeros at hc
    rw [List.all_eq_true] at hc
    obtain ⟨j, hj, hje⟩ := List.mem_iff_getElem.1 h4
    have hj' : j < i := by
      have : (cs.take i).length ≤ i := by simp
      omega
    have := hc j (List.mem_range.2 (by omega))
    rw [List.getElem_take] at hje
    rw [List.getD_eq_getElem?_getD, List.getElem?_eq_getElem (by omega), Option.getD_some, hje] at this
    simp at this
  · exact trailing_iff env cs hp.trailEnd i hi
  · intro h1 h2
    unfold fillAt
    rw [if_neg]
    rw [take_succ_getD cs i hi]
    simp only [List.contains_eq_mem, decide_eq_true_eq, List.mem_append, List.mem_singleton, not_or]
    constructor
    · intro hm
      unfold placeBefore at h2
      rw [List.any_eq_false] at h2
      exact h2 42 hm rfl
    · intro hm
      rw [← hm, hpn 42 rfl] at h1
      exact absurd h1 (by decide)
  · unfold fillAt; split <;> simp
  · intro h1 h2
    by_contra hc
    have hc : leadingZeros cs (digitShown env cs heads.length m s) (i + 1) = true := by simpa using hc
    have htr : trailingSym env cs i = true := by unfold trailingSym; rw [h1, h2]; rfl
    have : leadingZeros cs (digitShown env cs heads.length m s) cs.length = true := by
      unfold leadingZeros at hc ⊢
      rw [List.all_eq_true] at hc ⊢
      intro j hj
      have hj := List.mem_range.1 hj
      rcases Nat.lt_or_ge i j with hlt | hge
      · have ht := hp.trailEnd i j hlt hj htr
        unfold trailingSym at ht
        simp only [Bool.and_eq_true] at ht
        have hz : isPlace (cs.getD j 0) = false := by
          by_contra hcc
          rw [hpn _ (by simpa using hcc)] at ht
          exact absurd ht.1 (by decide)
        rw [hnd j (by unfold aligned; rw [hz, ht.2]; simp)]
        have : cs.getD j 0 ≠ 57 := by
          intro h; rw [h] at hz; exact absurd hz (by decide)
        simp only [bne_iff_ne, Bool.and_eq_true, beq_self_eq_true, and_true]
        exact this
      · exact hc j (List.mem_range.2 (by omega))
    rw [this] at hns
    exact absurd hns (by decide)

theorem isDigit_iff (b : Nat) : isDigit b = true ↔ 48 ≤ b ∧ b ≤ 57 := by
  unfold isDigit; simp

theorem symText_cases (env : EditEnv) (neg : Bool) (c : Nat) :
    symText env neg c = env.cur ∨ symText env neg c = 45 ∨ symText env neg c = 43 ∨ symText env neg c = 32 := by
  unfold symText
  split
  · left; assumption
  · split
    · simp
    · split <;> simp

set_option maxHeartbeats 400000 in
theorem zch_body (env : EditEnv) (he : EnvOk env) (cs : List Nat) (dig : Nat → Nat) (neg : Bool) (i : Nat)
    (h : PosFacts env cs dig i (cs.getD i 0) (leadingZeros cs dig (i + 1)) (placeBefore cs i)) :
    unB (zch env cs dig neg i) = bodyChar env cs dig neg i ∧
    (i < bodyEnd env cs → (zch env cs dig neg i = 32 ↔ i < pointPos env cs ∧
      (leadingZeros cs dig (i + 1) && fillAt cs i == 32 && cs.getD i 0 != 48 && cs.getD i 0 != 47) = true)) ∧
    (bodyEnd env cs ≤ i → zch env cs dig neg i ≠ 66) ∧
    (leadingZeros cs dig (i + 1) = true → cs.getD i 0 ≠ 48 → cs.getD i 0 ≠ 47 → i < pointPos env cs → i < bodyEnd env cs) ∧
    (i = 0 → zch env cs dig neg i ≠ 66) := by
  have hpn := place_not_sym env he
  obtain ⟨hdp, hcd, hc2⟩ := he
  simp only [List.mem_cons, List.not_mem_nil, or_false, not_or] at hc2
  obtain ⟨c0, c1, c2, c3, c4, c5, c6, c7, c8, c9, c10, c11, c12, c13⟩ := hc2
  have htre : trailingSym env cs i = (isSym env (cs.getD i 0) && placeBefore cs i) := rfl
  have hL0 : i = 0 → cs.getD i 0 ≠ 57 → dig i = 0 → leadingZeros cs dig (i + 1) = true := by
    intro h0 h1 h2
    subst h0
    rw [leadingZeros_succ, h2]
    simp only [bne_iff_ne, Bool.and_eq_true, beq_self_eq_true, and_true]
    exact ⟨rfl, h1⟩
  unfold zch bodyChar rawChar
  rw [htre]
  clear htre
  have hst := symText_cases env neg (cs.getD i 0)
  obtain ⟨leg, l57, ldig, d9, ndig, pt, frac, tr, pad, fill, ltr⟩ := h
  generalize cs.getD i 0 = c at *
  generalize leadingZeros cs dig (i + 1) = L at *
  generalize placeBefore cs i = pb at *
  generalize fillAt cs i = F at *
  generalize pointPos env cs = P at *
  generalize bodyEnd env cs = E at *
  generalize dig i = d at *
  by_cases hs : isSym env c = true
  · have hpl : isPlace c = false := by
      by_contra hc; rw [hpn c (by simpa using hc)] at hs; exact absurd hs (by decide)
    have hpl' : c ≠ 57 ∧ c ≠ 90 ∧ c ≠ 42 := by
      simp [isPlace] at hpl; omega
    have hs' : (c = 43 ∨ c = 45) ∨ c = env.cur := by simpa [isSym] using hs
    clear leg hpn
    have m48 : ¬ env.cur = 48 := fun h => hcd (by omega)
    have hdpc : ¬ env.cur = env.dp := by rcases hdp with h | h <;> rw [h] <;> assumption
    have n1 : ¬ (c = 48 ∨ c = 47) := by rcases hs' with (h | h) | h <;> simp [h, m48, c7]
    have n2 : ¬ c = 66 := by rcases hs' with (h | h) | h <;> simp [h, c8]
    have n3 : ¬ (c = 46 ∨ c = 44) := by rcases hs' with (h | h) | h <;> simp [h, c6, c4]
    have n4 : ¬ c = env.dp := by
      rcases hs' with (h | h) | h
      · rcases hdp with h' | h' <;> simp [h, h']
      · rcases hdp with h' | h' <;> simp [h, h']
      · rw [h]; exact hdpc
    have n5 : ¬ (c = 90 ∨ c = 42) := by rcases hs' with (h | h) | h <;> simp [h, c13, c2]
    have n6 : ¬ (c = 48 ∨ c = 47 ∨ c = env.dp) := by
      rintro (h | h | h)
      · exact n1 (Or.inl h)
      · exact n1 (Or.inr h)
      · exact n4 h
    have h66 : symText env neg c ≠ 66 := by
      rcases hst with h | h | h | h <;> rw [h]
      · exact c8
      all_goals decide
    clear hcd hdpc m48 c0 c1 c2 c3 c4 c5 c6 c7 c8 c9 c10 c11 c12 c13 hs' hst hdp
    have hip : P ≠ i := fun h => n4 (pt.2 h)
    simp only [n1, n2, n3, n5, n6, hpl'.1, if_false, hs, Bool.true_and]
    cases pb
    · have htr : ¬ E ≤ i := fun h => by have := tr.2 h; simp at this
      have hf := pad hs rfl
      rw [hf]
      have b57 : (c != 57) = true := by simpa using hpl'.1
      rw [b57]
      cases L
      · simp only [Bool.false_and, Bool.false_eq_true, if_false]
        have hdg : isDigit (48 + d) = true := (isDigit_iff _).2 ⟨by omega, by omega⟩
        rw [if_neg (by simp [hdg])]
        refine ⟨by unfold unB; rw [if_neg (by omega)], fun _ => ⟨fun h => by omega, fun h => by simp at h⟩, fun h => absurd h htr, by simp, fun _ => by omega⟩
      · have hd := ldig rfl
        subst hd
        simp only [Bool.true_and, if_true, Bool.false_eq_true, if_false, Bool.and_true, decide_eq_true_eq]
        have hdg : isDigit 32 = false := rfl
        rw [hdg]
        by_cases hP : i < P
        · rw [if_neg (by omega), if_pos hP]
          refine ⟨rfl, fun _ => ⟨fun _ => ⟨hP, ?_⟩, fun _ => rfl⟩, fun h => absurd h htr, fun _ _ _ _ => by omega, fun _ => by omega⟩
          simp only [not_or] at n1; simp [n1.1, n1.2]
        · rw [if_pos (by refine ⟨by omega, by omega, by simp⟩), if_neg hP]
          refine ⟨rfl, fun _ => ⟨fun h => by omega, fun h => absurd h.1 hP⟩, fun h => absurd h htr, fun _ _ _ h => absurd h hP, fun _ => by omega⟩
    · have htr : E ≤ i := tr.1 (by simp [hs])
      have hL := ltr hs rfl
      subst hL
      simp only [Bool.false_and, Bool.false_eq_true, if_true, if_false]
      rw [if_neg (by omega)]
      refine ⟨by unfold unB; rw [if_neg h66], fun h => by omega, fun _ => h66, fun h => absurd h (by simp), fun _ => h66⟩
  · have hs0 : isSym env c = false := by simpa using hs
    have htr : ¬ E ≤ i := fun h => by have := tr.2 h; simp [hs0] at this
    have hs' : ¬ ((c = 43 ∨ c = 45) ∨ c = env.cur) := by simpa [isSym] using hs
    have leg' : c = 57 ∨ c = 90 ∨ c = 42 ∨ c = 48 ∨ c = 47 ∨ c = 66 ∨ c = 46 ∨ c = 44 := by
      clear hcd c0 c1 c2 c3 c4 c5 c6 c7 c8 c9 c10 c11 c12 c13 hst hdp htr tr pad ltr frac pt ndig l57 hL0 fill
      omega
    clear hcd c0 c1 c2 c3 c4 c5 c6 c7 c8 c9 c10 c11 c12 c13 hst hpn
    simp only [hs0, Bool.false_and, Bool.false_eq_true, if_false]
    clear tr hs leg hs' pad ltr
    have hdg : ∀ x, x ≤ 9 → isDigit (48 + x) = true := fun x hx => (isDigit_iff _).2 ⟨by omega, by omega⟩
    have hd0 := hdg d d9
    rcases leg' with rfl | rfl | rfl | rfl | rfl | rfl | rfl | rfl
    · have hL := l57 rfl
      subst hL
      have n6 : ¬ ((57 : Nat) = env.dp) := by omega
      simp [n6, hd0, unB]
      omega
    · have n6 : ¬ ((90 : Nat) = env.dp) := by omega
      have hip : P ≠ i := fun h => by have := pt.2 h; omega
      cases L
      · simp [n6, hd0, unB]; omega
      · have hd := ldig rfl
        subst hd
        rcases fill with hF | hF <;> subst hF <;> by_cases hP : i < P
        all_goals simp [n6, hd0, unB, isDigit_iff]
        all_goals split_ifs
        all_goals omega
    · have n6 : ¬ ((42 : Nat) = env.dp) := by omega
      have hip : P ≠ i := fun h => by have := pt.2 h; omega
      cases L
      · simp [n6, hd0, unB]; omega
      · have hd := ldig rfl
        subst hd
        rcases fill with hF | hF <;> subst hF <;> by_cases hP : i < P
        all_goals simp [n6, hd0, unB, isDigit_iff]
        all_goals split_ifs
        all_goals omega
    · simp [unB, isDigit_iff]
    · simp [unB, isDigit_iff]
    · have hd := ndig (by decide) (Or.inl hs0)
      subst hd
      have n6 : ¬ ((66 : Nat) = env.dp) := by omega
      have hip : P ≠ i := fun h => by have := pt.2 h; omega
      cases L
      · simp [n6, unB]
        refine ⟨by omega, ?_⟩
        intro h0; have := hL0 h0 (by decide) rfl; simp at this
      · have hP : i < P := by
          by_contra hc
          have := (frac (by omega)).2 (Or.inr rfl); simp at this
        have hP' : ¬ P + 1 ≤ i := by omega
        rcases fill with hF | hF <;> subst hF
        all_goals simp [n6, unB, hP, hP']
        all_goals omega
    · have hd := ndig (by decide) (Or.inl hs0)
      subst hd
      by_cases hq : 46 = env.dp
      · have := pt.1 hq
        subst this
        simp [← hq, unB]
      · have hip : P ≠ i := fun h => hq (pt.2 h)
        have hP : i < P := by
          by_contra hc
          exact (frac (by omega)).1 rfl
        have hP' : ¬ P + 1 ≤ i := by omega
        cases L
        · simp [hq, unB, hP']
        · rcases fill with hF | hF <;> subst hF
          all_goals simp [hq, unB, hP, hP']
          all_goals omega
    · have hd := ndig (by decide) (Or.inl hs0)
      subst hd
      by_cases hq : 44 = env.dp
      · have := pt.1 hq
        subst this
        simp [← hq, unB]
      · have hip : P ≠ i := fun h => hq (pt.2 h)
        cases L
        · simp [hq, unB]
        · have hP : i < P := by
            by_contra hc
            have := (frac (by omega)).2 (Or.inl rfl); simp at this
          have hP' : ¬ P + 1 ≤ i := by omega
          rcases fill with hF | hF <;> subst hF
          all_goals simp [hq, unB, hP, hP']
          all_goals omega


theorem no_trailing (env : EditEnv) (heads cs tail : List Nat) (hp : EditPic env heads cs tail) (ht : tail ≠ []) :
    trailingBefore env cs cs.length = 0 := by
  unfold trailingBefore
  rw [List.countP_eq_zero]
  intro j hj h
  exact ht (hp.trailTail j (List.mem_range.1 hj) h)

/-- CR and DB. -/
theorem edLoop_tail (env : EditEnv) (heads cs tail : List Nat) (hp : EditPic env heads cs tail) (dig : Nat → Nat)
    (neg pLeft : Bool) (dsb old : List Nat) (len : Nat) (s : Int) (hlen : old.length = cs.length + 2 * tail.length) :
    edLoop env neg pLeft dsb old (edAt env heads cs dig neg len old.length s cs.length) tail =
      some { edAt env heads cs dig neg len old.length s cs.length with
        out := (List.range cs.length).map (rawChar env cs dig neg) ++ tailText2 neg tail
        endp := (bodyEnd env cs : Nat) } := by
  have hb : bodyEnd env cs = cs.length - trailingBefore env cs cs.length := rfl
  have htl := trailing_le env cs cs.length
  rcases hp.tailOk with h | h | h
  · subst h
    simp only [edLoop, tailText2, List.append_nil]
    congr 1
    simp only [edAt, Ed.mk.injEq, true_and, and_true]
    simp at hlen
    omega
  · have hz := no_trailing env heads cs tail hp (by rw [h]; simp)
    subst h
    simp only [edLoop, edStep]
    simp only [List.length_singleton] at hlen
    rw [if_neg (by decide), if_neg (by decide), if_neg (by decide), if_neg (by decide), if_neg (by decide),
      if_neg (by decide), if_pos (by decide), emit_eq _ _ _ (by simp [edAt]; omega)]
    simp only [Option.bind_some]
    rw [emit_eq _ _ _ (by simp [edAt]; omega)]
    simp only [Option.bind_some, Option.some.injEq]
    cases neg <;> simp [edAt, tailText2, hb, hz]
  · have hz := no_trailing env heads cs tail hp (by rw [h]; simp)
    subst h
    simp only [edLoop, edStep]
    simp only [List.length_singleton] at hlen
    rw [if_neg (by decide), if_neg (by decide), if_neg (by decide), if_neg (by decide), if_neg (by decide),
      if_neg (by decide), if_pos (by decide), emit_eq _ _ _ (by simp [edAt]; omega)]
    simp only [Option.bind_some]
    rw [emit_eq _ _ _ (by simp [edAt]; omega)]
    simp only [Option.bind_some, Option.some.injEq]
    cases neg <;> simp [edAt, tailText2, hb, hz]

theorem tailText2_length (neg : Bool) (tail : List Nat) (ht : tail = [] ∨ tail = [67] ∨ tail = [68]) :
    (tailText2 neg tail).length = 2 * tail.length := by
  rcases ht with h | h | h <;> subst h <;> cases neg <;> rfl

/-- The state at the beginning. -/
theorem edAt_zero (env : EditEnv) (heads cs : List Nat) (dig : Nat → Nat) (neg : Bool) (len size : Nat) (s : Int) :
    edAt env heads cs dig neg len size s 0 =
      { src := (len : Int) - s - alignedBefore env cs (pointPos env cs), endp := size } := by
  simp [edAt, fetchedBefore, trailingBefore, placeBefore, leadingZeros, headSign]

/-- The state of the loop at the end, and the bytes of the item. -/
theorem edLoop_all (env : EditEnv) (he : EnvOk env) (heads cs tail : List Nat) (hp : EditPic env heads cs tail)
    (ds : List Nat) (hd : ∀ d ∈ ds, d ≤ 9) (s : Int) (hf : ValueFits env heads cs (digitsVal ds) s) (neg blankZero : Bool)
    (pic : List (Nat × Nat)) (hpic : expandPic pic = cs ++ tail) (old : List Nat)
    (hlen : old.length = cs.length + 2 * tail.length) :
    editDigits env blankZero neg pic (ds.map (48 + ·)) s old =
      edFinish env blankZero
        { edAt env heads cs (digitShown env cs heads.length (digitsVal ds) s) neg ds.length old.length s cs.length with
          out := (List.range cs.length).map (rawChar env cs (digitShown env cs heads.length (digitsVal ds) s) neg)
            ++ tailText2 neg tail
          endp := (bodyEnd env cs : Nat) }
        ((List.range cs.length).map (rawChar env cs (digitShown env cs heads.length (digitsVal ds) s) neg)
          ++ tailText2 neg tail) := by
  unfold editDigits
  have hcnt := editCount_at env he heads cs tail hp (pointPos env cs) 0 (by omega)
  have h1 : placeBefore cs 0 = false := by simp [placeBefore]
  have h2 : alignedBefore env cs 0 = 0 := rfl
  rw [h1, h2, List.drop_zero] at hcnt
  simp only [Bool.not_false] at hcnt
  simp only [hpic]
  rw [hcnt]
  simp only [List.length_map]
  rw [← edAt_zero env heads cs (digitShown env cs heads.length (digitsVal ds) s) neg ds.length old.length s,
    edLoop_append]
  have hat := edLoop_at env he heads cs tail hp ds hd s hf neg false old (by omega) cs.length 0 (by omega)
  rw [List.drop_zero] at hat
  rw [hat]
  simp only [Option.bind_some]
  rw [edLoop_tail env heads cs tail hp _ neg false _ old ds.length s hlen]
  simp only [Option.bind_some]
  congr 1
  have := tailText2_length neg tail hp.tailOk
  rw [List.drop_of_length_le (by simp [this]; omega), List.append_nil]

theorem leadingZeros_all (cs : List Nat) (dig : Nat → Nat) :
    leadingZeros cs dig cs.length = (((List.range cs.length).all fun i => dig i == 0) && !cs.contains 57) := by
  rw [Bool.eq_iff_iff]
  unfold leadingZeros
  simp only [Bool.and_eq_true, List.all_eq_true, List.mem_range, bne_iff_ne, beq_iff_eq, Bool.not_eq_true',
    List.contains_eq_mem, decide_eq_false_iff_not]
  constructor
  · intro h
    refine ⟨fun i hi => (h i hi).2, fun hm => ?_⟩
    obtain ⟨j, hj, hje⟩ := List.mem_iff_getElem.1 hm
    apply (h j hj).1
    rw [List.getD_eq_getElem?_getD, List.getElem?_eq_getElem hj, Option.getD_some, hje]
  · rintro ⟨h1, h2⟩ i hi
    refine ⟨fun h => h2 ?_, h1 i hi⟩
    rw [List.getD_eq_getElem?_getD, List.getElem?_eq_getElem hi, Option.getD_some] at h
    exact h ▸ List.getElem_mem hi

/-- Check protection: '*' everywhere but at the decimal point. -/
theorem star_text (env : EditEnv) (he : EnvOk env) (heads cs tail : List Nat) (hp : EditPic env heads cs tail)
    (dig : Nat → Nat) (hz : ∀ i < cs.length, dig i = 0) (neg : Bool) :
    (((List.range cs.length).map (rawChar env cs dig neg) ++ tailText2 neg tail).map fun b => if b ≠ env.dp then 42 else b) =
      (List.range (cs.length + 2 * tail.length)).map fun i => if cs.getD i 0 = env.dp then env.dp else 42 := by
  rw [List.map_append, List.map_map, List.range_add, List.map_append, List.map_map]
  obtain ⟨hdp, hcd, hc2⟩ := he
  simp only [List.mem_cons, List.not_mem_nil, or_false, not_or] at hc2
  obtain ⟨c0, c1, c2, c3, c4, c5, c6, c7, c8, c9, c10, c11, c12, c13⟩ := hc2
  have hdpc : ¬ env.cur = env.dp := by rcases hdp with h | h <;> rw [h] <;> assumption
  congr 1
  · apply List.map_congr_left
    intro i hi
    have hi := List.mem_range.1 hi
    have hleg := hp.legal (cs.getD i 0) (by
      rw [List.getD_eq_getElem?_getD, List.getElem?_eq_getElem hi]; simp)
    simp only [List.mem_cons, List.not_mem_nil, or_false] at hleg
    simp only [Function.comp]
    have hst := symText_cases env neg (cs.getD i 0)
    have hst' : symText env neg (cs.getD i 0) ≠ env.dp := by
      rcases hst with h | h | h | h <;> rw [h]
      · exact hdpc
      all_goals rcases hdp with h' | h' <;> rw [h'] <;> decide
    have hF : fillAt cs i ≠ env.dp := by
      unfold fillAt
      split <;> rcases hdp with h' | h' <;> rw [h'] <;> decide
    unfold rawChar
    have hz' := hz i hi
    rw [hz']
    have hdp' : ∀ x, x ≠ 46 → x ≠ 44 → x ≠ env.dp := by
      intro x h1 h2; rcases hdp with h | h <;> rw [h] <;> assumption
    generalize cs.getD i 0 = c at *
    by_cases hq : c = env.dp
    · rw [hq]
      rcases hdp with h | h <;> simp [h]
    · rw [if_neg hq, if_pos]
      simp only [hq, if_false]
      split
      · exact hq
      split
      · split
        · exact hF
        · exact hdp' 66 (by decide) (by decide)
      split
      · exact hdp' _ (by decide) (by decide)
      split
      · split
        · exact hF
        · exact hq
      split
      · split
        · exact hF
        · exact hdp' _ (by decide) (by decide)
      split
      · exact hst'
      split
      · exact hdp' _ (by decide) (by decide)
      · exact hdp' _ (by decide) (by decide)
  · have hout : ∀ k, cs.getD (cs.length + k) 0 ≠ env.dp := by
      intro k
      rw [List.getD_eq_getElem?_getD, List.getElem?_eq_none (by omega), Option.getD_none]
      rcases hdp with h | h <;> rw [h] <;> decide
    have h1 : List.map ((fun i => if cs.getD i 0 = env.dp then env.dp else 42) ∘ fun x => cs.length + x) (List.range (2 * tail.length)) =
        List.replicate (2 * tail.length) 42 := by
      rw [List.eq_replicate_iff]
      refine ⟨by simp, fun b hb => ?_⟩
      obtain ⟨k, _, hk⟩ := List.mem_map.1 hb
      rw [← hk]
      simp only [Function.comp]
      rw [if_neg (hout k)]
    rw [h1]
    rcases hp.tailOk with h | h | h <;> subst h <;> cases neg <;> rcases hdp with h' | h' <;> simp [tailText2, h'] <;> rfl


/-- The heads of the text. -/
theorem heads_text (env : EditEnv) (he : EnvOk env) (heads : List Nat) (neg : Bool)
    (hh : heads = [] ∨ heads = [env.cur] ∨ heads = [43] ∨ heads = [45] ∨
      heads = [43, env.cur] ∨ heads = [45, env.cur] ∨ heads = [env.cur, 43] ∨ heads = [env.cur, 45])
    (e : Ed) (n : Nat) (hn : heads.length ≤ n)
    (h1 : e.signFirst = ((heads.take n).headD env.cur != env.cur))
    (h2 : e.signSym = headSign neg (heads.take n))
    (h3 : e.currSym = if (heads.take n).contains env.cur then env.cur else 0)
    (mem : List Nat) (h4 : heads ≠ [] → 1 ≤ e.endp ∧ e.endp ≤ mem.length)
    (h5 : heads.length = 2 → 1 ≤ edLastBlank mem (e.endp - 1).toNat) :
    edSymbols e mem = some (putHeads (edLastBlank mem (e.endp - 1).toNat) (heads.map (symText env neg)) mem) := by
  obtain ⟨hdp, hcd, hc2⟩ := he
  simp only [List.mem_cons, List.not_mem_nil, or_false, not_or] at hc2
  obtain ⟨c0, c1, c2, c3, c4, c5, c6⟩ := hc2
  have c3' : ¬ 43 = env.cur := fun h => c3 h.symm
  have c5' : ¬ 45 = env.cur := fun h => c5 h.symm
  rw [List.take_of_length_le hn] at h1 h2 h3
  have hs : ∀ c, signText neg c ≠ 0 := by
    intro c; unfold signText; split
    · decide
    · split <;> decide
  have hsy : ∀ c, (c = 43 ∨ c = 45) → symText env neg c = signText neg c := by
    intro c hc
    unfold symText signText
    rw [if_neg (by rcases hc with h | h <;> rw [h] <;> assumption)]
  have hcu : symText env neg env.cur = env.cur := by unfold symText; rw [if_pos rfl]
  rcases hh with h | h | h | h | h | h | h | h <;> subst h
  · simp only [headSign, List.contains_nil] at h2 h3
    simp [edSymbols, h2, h3, putHeads]
  all_goals
    have h4 := h4 (by simp)
    have h6 : ¬ (e.endp - 1 < 0 ∨ (mem.length : Int) < e.endp) := by omega
    unfold edSymbols
    simp only [if_neg h6]
  · simp [headSign, c3, c5] at h2 h3
    simp [h2, h3, c0, hcu, putHeads]
  · simp [headSign, c3'] at h2 h3
    have := hs 43
    simp [h2, h3, c3, hs, hsy, putHeads]
  · simp [headSign, c5'] at h2 h3
    have := hs 45
    simp [h2, h3, c5, hs, hsy, putHeads]
  all_goals
    have h5 := h5 (by simp)
    generalize edLastBlank mem (e.endp - 1).toNat = k at *
  · simp [headSign, c3, c3'] at h1 h2 h3
    simp [h1, h2, h3, c0, c3', c5', hs, hsy, hcu, putHeads, h5]
  · simp [headSign, c5, c5'] at h1 h2 h3
    simp [h1, h2, h3, c0, c3', c5', hs, hsy, hcu, putHeads, h5]
  · simp [headSign, c3, c5] at h1 h2 h3
    simp [h1, h2, h3, c0, c3', c5', hs, hsy, hcu, putHeads, h5]
  · simp [headSign, c3, c5] at h1 h2 h3
    simp [h1, h2, h3, c0, c3', c5', hs, hsy, hcu, putHeads, h5]


theorem putHeads_append (k : Nat) (hs a t : List Nat) (h : hs = [] ∨ k < a.length) :
    putHeads k hs (a ++ t) = putHeads k hs a ++ t := by
  match hs with
  | [] => rfl
  | [x] =>
    have h := h.resolve_left (by simp)
    simp [putHeads, List.set_append, h]
  | x :: y :: r =>
    have h := h.resolve_left (by simp)
    have h2 : k - 1 < a.length := by omega
    simp [putHeads, List.set_append, h, h2]

theorem putHeads_length (k : Nat) (hs a : List Nat) : (putHeads k hs a).length = a.length := by
  match hs with
  | [] => rfl
  | [x] => simp [putHeads]
  | x :: y :: r => simp [putHeads]

theorem putHeads_map (k : Nat) (f : Nat → Nat) (hs a : List Nat) (h : ∀ x ∈ hs, f x = x) :
    (putHeads k hs a).map f = putHeads k hs (a.map f) := by
  match hs with
  | [] => rfl
  | [x] => simp [putHeads, h]
  | x :: y :: r => simp [putHeads, h]

theorem putHeads_ne (k : Nat) (b : Nat) (hs a : List Nat) (hh : ∀ x ∈ hs, x ≠ b) (i : Nat) (hi : a.getD i 0 ≠ b) :
    (putHeads k hs a).getD i 0 ≠ b := by
  rw [List.getD_eq_getElem?_getD] at hi ⊢
  match hs with
  | [] => exact hi
  | [x] =>
    simp only [putHeads, List.getElem?_set]
    split
    · split
      · exact hh x (by simp)
      · rw [List.getElem?_eq_none (by omega)] at hi; exact hi
    · exact hi
  | x :: y :: r =>
    simp only [putHeads, List.getElem?_set, List.length_set]
    split
    · split
      · exact hh x (by simp)
      · rw [List.getElem?_eq_none (by omega)] at hi; exact hi
    · split
      · split
        · exact hh y (by simp)
        · rw [List.getElem?_eq_none (by omega)] at hi; exact hi
      · exact hi

theorem filter_range_last (p : Nat → Bool) (m i : Nat) (hi : i < m) (hp : p i = true) :
    i ≤ ((List.range m).filter p).getLastD 0 ∧ ((List.range m).filter p).getLastD 0 < m := by
  induction m with
  | zero => omega
  | succ m ih =>
    rw [List.range_succ, List.filter_append]
    by_cases h : p m = true
    · simp [h]; omega
    · have hne : i ≠ m := by rintro rfl; exact h hp
      have := ih (by omega)
      simp only [Bool.not_eq_true] at h
      simp only [List.filter_cons, h, List.filter_nil, List.append_nil, Bool.false_eq_true, if_false]
      omega

theorem edZeros_eq (env : EditEnv) (cs : List Nat) (dig : Nat → Nat) (neg : Bool) (t : List Nat) :
    edZeros (pointPos env cs + 1) (bodyEnd env cs : Nat)
      ((List.range cs.length).map (rawChar env cs dig neg) ++ t) = (List.range cs.length).map (zch env cs dig neg) ++ t := by
  have hE : bodyEnd env cs ≤ cs.length := Nat.sub_le _ _
  unfold edZeros
  rw [List.mapIdx_append]
  congr 1
  · apply List.ext_getElem
    · simp
    · intro i h1 h2
      simp only [List.getElem_mapIdx, List.getElem_map, List.getElem_range]
      rfl
  · apply List.ext_getElem
    · simp
    · intro i h1 h2
      simp only [List.getElem_mapIdx, List.length_map, List.length_range]
      rw [if_neg (by omega)]

/-- The positions of the heads are blank. -/
theorem heads_blank (env : EditEnv) (he : EnvOk env) (heads cs tail : List Nat) (hp : EditPic env heads cs tail)
    (m : Nat) (s : Int) (j : Nat) (hj : j < heads.length) :
    j < pointPos env cs ∧ (leadingZeros cs (digitShown env cs heads.length m s) (j + 1) && fillAt cs j == 32 &&
      cs.getD j 0 != 48 && cs.getD j 0 != 47) = true := by
  have hpre := hp.headsAre
  have hlen : heads.length ≤ cs.length := hpre.length_le
  have he' := he
  obtain ⟨hdp, hcd, hc2⟩ := he'
  simp only [List.mem_cons, List.not_mem_nil, or_false, not_or] at hc2
  obtain ⟨c0, c1, c2, c3, c4, c5, c6, c7, c8, c9, c10, c11, c12, c13⟩ := hc2
  have hdpc : ¬ env.cur = env.dp := by rcases hdp with h | h <;> rw [h] <;> assumption
  have hsym : ∀ i, i < heads.length → (cs.getD i 0 = 43 ∨ cs.getD i 0 = 45) ∨ cs.getD i 0 = env.cur := by
    intro i hi
    have := heads_sym env heads cs tail hp i hi
    rw [heads_getD heads cs hpre i hi] at this
    simpa only [isSym, Bool.or_eq_true, beq_iff_eq] using this
  have hne42 : ∀ i, i < heads.length → cs.getD i 0 ≠ 42 := by
    intro i hi
    rcases hsym i hi with (h | h) | h <;> rw [h]
    · decide
    · decide
    · exact c2
  have hne57 : ∀ i, i < heads.length → cs.getD i 0 ≠ 57 := by
    intro i hi
    rw [← heads_getD heads cs hpre i hi]
    exact heads_ne env he heads cs tail hp i hi
  refine ⟨?_, ?_⟩
  · by_contra hc
    have hlt : pointPos env cs < cs.length := by omega
    have := (findIdx_lt_iff env cs hp.onePoint (pointPos env cs) hlt).2 rfl
    have h2 := hsym (pointPos env cs) (by omega)
    rw [this] at h2
    rcases h2 with (h | h) | h
    · rcases hdp with h' | h' <;> rw [h'] at h <;> omega
    · rcases hdp with h' | h' <;> rw [h'] at h <;> omega
    · exact hdpc h.symm
  · have hl : leadingZeros cs (digitShown env cs heads.length m s) (j + 1) = true := by
      unfold leadingZeros
      rw [List.all_eq_true]
      intro i hi
      have hi := List.mem_range.1 hi
      have : digitShown env cs heads.length m s i = 0 := by unfold digitShown; rw [if_neg (by omega)]
      rw [this]
      simp only [bne_iff_ne, Bool.and_eq_true, beq_self_eq_true, and_true]
      exact hne57 i (by omega)
    have hf : fillAt cs j = 32 := by
      unfold fillAt
      rw [if_neg]
      rw [List.contains_eq_mem]
      simp only [decide_eq_true_eq]
      intro hm
      obtain ⟨i, hi, hie⟩ := List.mem_iff_getElem.1 hm
      have hi' : i < j + 1 := by
        have : (cs.take (j + 1)).length ≤ j + 1 := by simp
        omega
      rw [List.getElem_take] at hie
      apply hne42 i (by omega)
      rw [List.getD_eq_getElem?_getD, List.getElem?_eq_getElem (by omega), Option.getD_some, hie]
    rw [hl, hf]
    have h48 : cs.getD j 0 ≠ 48 := by
      rcases hsym j hj with (h | h) | h <;> rw [h]
      · decide
      · decide
      · intro h'; exact hcd (by omega)
    have h47 : cs.getD j 0 ≠ 47 := by
      rcases hsym j hj with (h | h) | h <;> rw [h]
      · decide
      · decide
      · exact c7
    simp only [beq_self_eq_true, Bool.and_true, Bool.true_and, Bool.and_eq_true, bne_iff_ne]
    exact ⟨h48, h47⟩

theorem edFinish_text (env : EditEnv) (he : EnvOk env) (heads cs tail : List Nat) (hp : EditPic env heads cs tail)
    (m : Nat) (s : Int) (neg blankZero : Bool) (e : Ed)
    (hsupp : e.supp = leadingZeros cs (digitShown env cs heads.length m s) cs.length)
    (hzero : e.isZero = (List.range cs.length).all fun i => digitShown env cs heads.length m s i == 0)
    (hpad : e.pad = if (cs.take cs.length).contains 42 then 42 else 32)
    (hend : e.endp = (bodyEnd env cs : Nat))
    (hfrac : e.frac = if pointPos env cs < cs.length then some (pointPos env cs + 1) else none)
    (hsf : e.signFirst = ((heads.take cs.length).headD env.cur != env.cur))
    (hss : e.signSym = headSign neg (heads.take cs.length))
    (hcur : e.currSym = if (heads.take cs.length).contains env.cur then env.cur else 0) :
    edFinish env blankZero e
      ((List.range cs.length).map (rawChar env cs (digitShown env cs heads.length m s) neg) ++ tailText2 neg tail) =
    some (editedText env blankZero heads cs tail neg m s) := by
  have htl := tailText2_length neg tail hp.tailOk
  have hall := leadingZeros_all cs (digitShown env cs heads.length m s)
  unfold edFinish editedText
  simp only
  rw [List.take_length, List.contains_eq_mem] at hpad
  by_cases hA : ((List.range cs.length).all fun i => digitShown env cs heads.length m s i == 0) = true ∧
      (blankZero = true ∨ 57 ∉ cs)
  · rw [if_pos hA]
    rw [if_pos (by
      rw [hsupp, hall, hzero, hA.1]
      rcases hA.2 with h | h
      · right; exact ⟨rfl, h⟩
      · left; simp [h])]
    by_cases hB : blankZero = true ∨ 42 ∉ cs
    · rw [if_pos hB, if_pos (by
        rcases hB with h | h
        · right; exact h
        · left; rw [hpad]; simp [h])]
      congr 2
      simp [htl]
    · rw [if_neg hB, if_neg (by
        intro h; apply hB
        rcases h with h | h
        · right; intro hm; rw [hpad] at h; simp [hm] at h
        · left; exact h)]
      have hm : 42 ∈ cs := by
        by_contra hc; exact hB (Or.inr hc)
      have : e.pad = 42 := by rw [hpad]; simp [hm]
      rw [this]
      congr 1
      refine star_text env he heads cs tail hp _ ?_ neg
      intro i hi
      have := hA.1
      rw [List.all_eq_true] at this
      simpa using this i (List.mem_range.2 hi)
  · rw [if_neg hA]
    rw [if_neg (by
      intro h; apply hA
      rcases h with h | ⟨h1, h2⟩
      · rw [hsupp, hall, Bool.and_eq_true] at h
        exact ⟨h.1, Or.inr (by simpa using h.2)⟩
      · rw [hzero] at h1; exact ⟨h1, Or.inl h2⟩)]
    have hns : leadingZeros cs (digitShown env cs heads.length m s) cs.length = false := by
      by_contra hc
      apply hA
      have hc : leadingZeros cs (digitShown env cs heads.length m s) cs.length = true := by simpa using hc
      rw [hall, Bool.and_eq_true] at hc
      exact ⟨hc.1, Or.inr (by simpa using hc.2)⟩
    have hE : bodyEnd env cs ≤ cs.length := Nat.sub_le _ _
    have hpos : ∀ i, i < cs.length → _ := fun i hi =>
      zch_body env he cs (digitShown env cs heads.length m s) neg i (posFacts env he heads cs tail hp m s i hi hns)
    have hheads := heads_blank env he heads cs tail hp m s
    generalize hdig : digitShown env cs heads.length m s = dig at *
    -- the zeros after the decimal point
    have hM1 : (match e.frac with
        | some fr => edZeros fr e.endp ((List.range cs.length).map (rawChar env cs dig neg) ++ tailText2 neg tail)
        | none => (List.range cs.length).map (rawChar env cs dig neg) ++ tailText2 neg tail) =
        (List.range cs.length).map (zch env cs dig neg) ++ tailText2 neg tail := by
      rw [hfrac, hend]
      by_cases h : pointPos env cs < cs.length
      · rw [if_pos h]; exact edZeros_eq env cs dig neg _
      · rw [if_neg h]
        simp only
        congr 1
        apply List.map_congr_left
        intro i hi
        have hi := List.mem_range.1 hi
        unfold zch
        simp only
        rw [if_neg (by omega)]
    refine (congrArg (fun M => Option.map (edBlanks e.pad false e.endp.toNat) (edSymbols e M)) hM1).trans ?_
    have hget : ∀ i, i < cs.length →
        ((List.range cs.length).map (zch env cs dig neg) ++ tailText2 neg tail).getD i 0 = zch env cs dig neg i := by
      intro i hi
      rw [List.getD_eq_getElem?_getD, List.getElem?_append_left (by simpa using hi)]
      simp [hi]
    have hget' : ∀ i, i < cs.length → ((List.range cs.length).map (zch env cs dig neg)).getD i 0 = zch env cs dig neg i := by
      intro i hi
      rw [List.getD_eq_getElem?_getD]
      simp [hi]
    -- where the symbols go
    have hlast : heads ≠ [] → 1 ≤ bodyEnd env cs ∧
        edLastBlank ((List.range cs.length).map (zch env cs dig neg) ++ tailText2 neg tail) (e.endp - 1).toNat =
          (blankPositions env cs dig).getLastD 0 := by
      intro hne
      have h0 : 0 < heads.length := List.length_pos_iff.2 hne
      have hhl : heads.length ≤ cs.length := hp.headsAre.length_le
      obtain ⟨p0, q0⟩ := hheads 0 h0
      have q0' := q0
      simp only [Bool.and_eq_true, bne_iff_ne] at q0'
      have hE1 : 1 ≤ bodyEnd env cs := (hpos 0 (by omega)).2.2.2.1 q0'.1.1.1 q0'.1.2 q0'.2 p0
      refine ⟨hE1, ?_⟩
      rw [edLastBlank_eq, hend]
      have : ((bodyEnd env cs : Nat) - 1 : Int).toNat + 1 = bodyEnd env cs := by omega
      rw [this]
      congr 1
      unfold blankPositions
      have hR : ∀ i, i < cs.length → (decide (i < pointPos env cs) && (leadingZeros cs dig (i + 1) && fillAt cs i == 32 &&
          cs.getD i 0 != 48 && cs.getD i 0 != 47)) = true → i < bodyEnd env cs := by
        intro i hi h
        simp only [Bool.and_eq_true, bne_iff_ne, decide_eq_true_eq] at h
        exact (hpos i hi).2.2.2.1 h.2.1.1.1 h.2.1.2 h.2.2 h.1
      have e1 : (List.range (bodyEnd env cs)).filter (fun i =>
          ((List.range cs.length).map (zch env cs dig neg) ++ tailText2 neg tail).getD i 0 == 32) =
          (List.range (bodyEnd env cs)).filter (fun i => (decide (i < pointPos env cs) &&
            (leadingZeros cs dig (i + 1) && fillAt cs i == 32 && cs.getD i 0 != 48 && cs.getD i 0 != 47))) := by
        apply List.filter_congr
        intro i hi
        have hi := List.mem_range.1 hi
        rw [hget i (by omega)]
        have := (hpos i (by omega)).2.1 hi
        rw [Bool.eq_iff_iff, beq_iff_eq, this, Bool.and_eq_true (decide _), decide_eq_true_eq]
      have e2 : (List.range (pointPos env cs)).filter (fun i =>
            (leadingZeros cs dig (i + 1) && fillAt cs i == 32 && cs.getD i 0 != 48 && cs.getD i 0 != 47)) =
          (List.range (pointPos env cs)).filter (fun i => (decide (i < pointPos env cs) &&
            (leadingZeros cs dig (i + 1) && fillAt cs i == 32 && cs.getD i 0 != 48 && cs.getD i 0 != 47))) := by
        apply List.filter_congr
        intro i hi
        have hi := List.mem_range.1 hi
        simp [hi]
      rw [e1, e2]
      rw [← filter_range_le _ (bodyEnd env cs) cs.length hE (by
          intro i h1 h2
          refine Bool.eq_false_iff.2 fun hc => ?_
          have := hR i h2 hc
          omega),
        ← filter_range_le _ (pointPos env cs) cs.length (pointPos_le env cs) (by
          intro i h1 h2
          have : decide (i < pointPos env cs) = false := by simpa using h1
          rw [this, Bool.false_and])]
    have hk : heads ≠ [] → (blankPositions env cs dig).getLastD 0 < cs.length := by
      intro hne
      obtain ⟨p0, q0⟩ := hheads 0 (List.length_pos_iff.2 hne)
      have := (filter_range_last (fun i => leadingZeros cs dig (i + 1) && fillAt cs i == 32 && cs.getD i 0 != 48 && cs.getD i 0 != 47) (pointPos env cs) 0 p0 q0).2
      have hle := pointPos_le env cs
      unfold blankPositions
      omega
    have hk2 : heads.length = 2 → 1 ≤ (blankPositions env cs dig).getLastD 0 := by
      intro hl
      obtain ⟨p0, q0⟩ := hheads 1 (by omega)
      exact (filter_range_last (fun i => leadingZeros cs dig (i + 1) && fillAt cs i == 32 && cs.getD i 0 != 48 && cs.getD i 0 != 47) (pointPos env cs) 1 p0 q0).1
    have hsym := heads_text env he heads neg hp.headsOk e cs.length hp.headsAre.length_le hsf hss hcur
      ((List.range cs.length).map (zch env cs dig neg) ++ tailText2 neg tail) (by
        intro hne
        rw [hend]
        have := (hlast hne).1
        simp only [List.length_append, List.length_map, List.length_range]
        omega) (by
        intro hl
        rw [(hlast (by rintro rfl; simp at hl)).2]
        exact hk2 hl)
    rw [hsym]
    have hkk : putHeads (edLastBlank ((List.range cs.length).map (zch env cs dig neg) ++ tailText2 neg tail) (e.endp - 1).toNat)
        (heads.map (symText env neg)) ((List.range cs.length).map (zch env cs dig neg) ++ tailText2 neg tail) =
        putHeads ((blankPositions env cs dig).getLastD 0) (heads.map (symText env neg))
          ((List.range cs.length).map (zch env cs dig neg)) ++ tailText2 neg tail := by
      by_cases hne : heads = []
      · subst hne; rfl
      · rw [(hlast hne).2]
        exact putHeads_append _ _ _ _ (Or.inr (by simpa using hk hne))
    rw [hkk]
    simp only [Option.map_some, Option.some.injEq]
    have hc8 : ∀ x ∈ heads.map (symText env neg), x ≠ 66 := by
      intro x hx
      obtain ⟨c, _, hc⟩ := List.mem_map.1 hx
      rw [← hc]
      obtain ⟨_, _, hc2⟩ := he
      simp only [List.mem_cons, List.not_mem_nil, or_false, not_or] at hc2
      obtain ⟨c0, c1, c2, c3, c4, c5, c6, c7, c8, _⟩ := hc2
      rcases symText_cases env neg c with h | h | h | h <;> rw [h]
      · exact c8
      all_goals decide
    rw [hend, Int.toNat_natCast]
    rw [edBlanks_eq]
    · congr 1
      rw [putHeads_map _ _ _ _ (by
        intro x hx; unfold unB; rw [if_neg (hc8 x hx)])]
      congr 1
      rw [List.map_map]
      apply List.map_congr_left
      intro i hi
      exact (hpos i (List.mem_range.1 hi)).1
    · rw [putHeads_length]; simpa using hE
    · right
      have hz : ∀ l : List Nat, l.headD 0 = l.getD 0 0 := by intro l; cases l <;> rfl
      rw [hz]
      apply putHeads_ne _ _ _ _ hc8
      by_cases h0 : 0 < cs.length
      · rw [hget' 0 h0]
        exact (hpos 0 h0).2.2.2.2 rfl
      · have : cs.length = 0 := by omega
        rw [this]; simp
    · intro i h1 h2
      rw [putHeads_length, List.length_map, List.length_range] at h2
      apply putHeads_ne _ _ _ _ hc8
      rw [hget' i h2]
      exact (hpos i h2).2.2.1 h1

end Cob
