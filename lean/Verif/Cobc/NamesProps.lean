import Verif.Cobc.NamesSpec
namespace Cob

/-! ### The last position with a property -/

theorem lastBefore_some {p : Nat → Bool} {j k : Nat} :
    lastBefore p j = some k ↔ k < j ∧ p k = true ∧ ∀ q, k < q → q < j → p q = false := by
  induction j with
  | zero => simp [lastBefore]
  | succ j ih =>
    rw [lastBefore]
    by_cases h : p j = true
    · rw [if_pos h]
      constructor
      · intro e
        cases e
        exact ⟨by omega, h, fun q h1 h2 => by omega⟩
      · rintro ⟨h1, h2, h3⟩
        rcases Nat.lt_or_ge k j with h4 | h4
        · have := h3 j h4 (by omega)
          rw [h] at this
          cases this
        · rw [show k = j by omega]
    · rw [if_neg h, ih]
      constructor
      · rintro ⟨h1, h2, h3⟩
        refine ⟨by omega, h2, fun q h4 h5 => ?_⟩
        rcases Nat.lt_or_ge q j with h6 | h6
        · exact h3 q h4 h6
        · rw [show q = j by omega]
          simpa using h
      · rintro ⟨h1, h2, h3⟩
        refine ⟨?_, h2, fun q h4 h5 => h3 q h4 (by omega)⟩
        rcases Nat.lt_or_ge k j with h4 | h4
        · exact h4
        · rw [show k = j by omega] at h2
          exact absurd h2 h

theorem lastBefore_none {p : Nat → Bool} {j : Nat} :
    lastBefore p j = none ↔ ∀ q, q < j → p q = false := by
  induction j with
  | zero => simp [lastBefore]
  | succ j ih =>
    rw [lastBefore]
    by_cases h : p j = true
    · rw [if_pos h]
      constructor
      · intro e; cases e
      · intro e
        have := e j (by omega)
        rw [h] at this
        cases this
    · rw [if_neg h, ih]
      constructor
      · intro e q h1
        rcases Nat.lt_or_ge q j with h6 | h6
        · exact e q h6
        · rw [show q = j by omega]; simpa using h
      · intro e q h1
        exact e q (by omega)

theorem lastBefore_ex {p : Nat → Bool} {j m : Nat} (hm : m < j) (hp : p m = true) :
    ∃ k, lastBefore p j = some k ∧ m ≤ k := by
  cases h : lastBefore p j with
  | none =>
    have := lastBefore_none.1 h m hm
    rw [hp] at this; cases this
  | some k =>
    refine ⟨k, rfl, ?_⟩
    obtain ⟨h1, h2, h3⟩ := lastBefore_some.1 h
    rcases Nat.lt_or_ge k m with h4 | h4
    · have := h3 m h4 hm
      rw [hp] at this; cases this
    · exact h4

theorem lastBefore_congr {p p' : Nat → Bool} {j : Nat} (h : ∀ q, q < j → p q = p' q) :
    lastBefore p j = lastBefore p' j := by
  induction j with
  | zero => rfl
  | succ j ih =>
    rw [lastBefore, lastBefore, h j (by omega), ih (fun q hq => h q (by omega))]

/-! ### Adding an entry -/

theorem lvl_old {ls : List Nat} {lv k : Nat} (h : k < ls.length) :
    lvlAt (ls ++ [lv]) k = lvlAt ls k := by
  unfold lvlAt
  rw [List.getD_eq_getElem?_getD, List.getD_eq_getElem?_getD, List.getElem?_append_left h]

theorem lvl_new {ls : List Nat} {lv : Nat} : lvlAt (ls ++ [lv]) ls.length = lv := by
  unfold lvlAt
  rw [List.getD_eq_getElem?_getD, List.getElem?_append_right (by omega)]
  simp

theorem owner_old {ls : List Nat} {lv j : Nat} (h : j < ls.length) :
    ownerOf (ls ++ [lv]) j = ownerOf ls j := by
  unfold ownerOf
  rw [lvl_old h,
    lastBefore_congr (p := fun k => lvlAt (ls ++ [lv]) k != 88) (p' := fun k => lvlAt ls k != 88)
      (fun q hq => by rw [lvl_old (by omega)]),
    lastBefore_congr (p := fun k => isTop (lvlAt (ls ++ [lv]) k)) (p' := fun k => isTop (lvlAt ls k))
      (fun q hq => by rw [lvl_old (by omega)]),
    lastBefore_congr (p := fun k => decide (lvlAt (ls ++ [lv]) k < lvlAt ls j))
      (p' := fun k => decide (lvlAt ls k < lvlAt ls j))
      (fun q hq => by rw [lvl_old (by omega)])]

theorem owner_new {ls : List Nat} {lv : Nat} :
    ownerOf (ls ++ [lv]) ls.length =
      if isTop lv then none
      else if lv = 88 then lastBefore (fun k => lvlAt ls k != 88) ls.length
      else if lv = 66 then lastBefore (fun k => isTop (lvlAt ls k)) ls.length
      else lastBefore (fun k => decide (lvlAt ls k < lv)) ls.length := by
  unfold ownerOf
  rw [lvl_new,
    lastBefore_congr (p := fun k => lvlAt (ls ++ [lv]) k != 88) (p' := fun k => lvlAt ls k != 88)
      (fun q hq => by rw [lvl_old (by omega)]),
    lastBefore_congr (p := fun k => isTop (lvlAt (ls ++ [lv]) k)) (p' := fun k => isTop (lvlAt ls k))
      (fun q hq => by rw [lvl_old (by omega)]),
    lastBefore_congr (p := fun k => decide (lvlAt (ls ++ [lv]) k < lv))
      (p' := fun k => decide (lvlAt ls k < lv))
      (fun q hq => by rw [lvl_old (by omega)])]

theorem owner_lt {ls : List Nat} {j i : Nat} (h : ownerOf ls j = some i) : i < j := by
  unfold ownerOf at h
  split at h
  · cases h
  · split at h
    · exact (lastBefore_some.1 h).1
    · split at h
      · exact (lastBefore_some.1 h).1
      · exact (lastBefore_some.1 h).1

theorem levelOk_old {ls : List Nat} {lv j : Nat} (h : j < ls.length) :
    LevelOk (ls ++ [lv]) j ↔ LevelOk ls j := by
  unfold LevelOk
  dsimp only
  rw [lvl_old h,
    lastBefore_congr (p := fun k => lvlAt (ls ++ [lv]) k != 88) (p' := fun k => lvlAt ls k != 88)
      (fun q hq => by rw [lvl_old (by omega)]),
    lastBefore_congr (p := fun k => decide (lvlAt (ls ++ [lv]) k ≤ lvlAt ls j))
      (p' := fun k => decide (lvlAt ls k ≤ lvlAt ls j))
      (fun q hq => by rw [lvl_old (by omega)])]
  have e : ∀ {p : Nat → Bool} {k : Nat}, lastBefore p j = some k →
      lvlAt (ls ++ [lv]) k = lvlAt ls k := fun hk => lvl_old (by
        have := (lastBefore_some.1 hk).1; omega)
  constructor
  · rintro (h1 | h1 | h1 | ⟨h1, h2, k, h3, h4, h5⟩)
    · exact .inl h1
    · exact .inr (.inl h1)
    · exact .inr (.inr (.inl h1))
    · refine .inr (.inr (.inr ⟨h1, h2, k, h3, by rw [← e h3]; exact h4, ?_⟩))
      rcases h5 with h5 | ⟨m, h5, h6⟩
      · exact .inl (by rw [← e h3]; exact h5)
      · exact .inr ⟨m, h5, by rw [← e h5]; exact h6⟩
  · rintro (h1 | h1 | h1 | ⟨h1, h2, k, h3, h4, h5⟩)
    · exact .inl h1
    · exact .inr (.inl h1)
    · exact .inr (.inr (.inl h1))
    · refine .inr (.inr (.inr ⟨h1, h2, k, h3, by rw [e h3]; exact h4, ?_⟩))
      rcases h5 with h5 | ⟨m, h5, h6⟩
      · exact .inl (by rw [e h3]; exact h5)
      · exact .inr ⟨m, h5, by rw [e h5]; exact h6⟩

theorem levelOk_new {ls : List Nat} {lv : Nat} :
    LevelOk (ls ++ [lv]) ls.length ↔
      (lv = 1 ∨ lv = 77 ∨ ((lv = 66 ∨ lv = 88) ∧ 0 < ls.length) ∨
        (2 ≤ lv ∧ lv ≤ 49 ∧ ∃ k, lastBefore (fun q => lvlAt ls q != 88) ls.length = some k ∧
          lvlAt ls k ≤ 49 ∧ (lvlAt ls k < lv ∨
            ∃ m, lastBefore (fun q => decide (lvlAt ls q ≤ lv)) ls.length = some m ∧
              lvlAt ls m = lv))) := by
  unfold LevelOk
  dsimp only
  rw [lvl_new,
    lastBefore_congr (p := fun k => lvlAt (ls ++ [lv]) k != 88) (p' := fun k => lvlAt ls k != 88)
      (fun q hq => by rw [lvl_old (by omega)]),
    lastBefore_congr (p := fun k => decide (lvlAt (ls ++ [lv]) k ≤ lv))
      (p' := fun k => decide (lvlAt ls k ≤ lv))
      (fun q hq => by rw [lvl_old (by omega)])]
  have e : ∀ {p : Nat → Bool} {k : Nat}, lastBefore p ls.length = some k →
      lvlAt (ls ++ [lv]) k = lvlAt ls k := fun hk => lvl_old (lastBefore_some.1 hk).1
  constructor
  · rintro (h1 | h1 | h1 | ⟨h1, h2, k, h3, h4, h5⟩)
    · exact .inl h1
    · exact .inr (.inl h1)
    · exact .inr (.inr (.inl h1))
    · refine .inr (.inr (.inr ⟨h1, h2, k, h3, by rw [← e h3]; exact h4, ?_⟩))
      rcases h5 with h5 | ⟨m, h5, h6⟩
      · exact .inl (by rw [← e h3]; exact h5)
      · exact .inr ⟨m, h5, by rw [← e h5]; exact h6⟩
  · rintro (h1 | h1 | h1 | ⟨h1, h2, k, h3, h4, h5⟩)
    · exact .inl h1
    · exact .inr (.inl h1)
    · exact .inr (.inr (.inl h1))
    · refine .inr (.inr (.inr ⟨h1, h2, k, h3, by rw [e h3]; exact h4, ?_⟩))
      rcases h5 with h5 | ⟨m, h5, h6⟩
      · exact .inl (by rw [e h3]; exact h5)
      · exact .inr ⟨m, h5, by rw [e h5]; exact h6⟩

theorem part_old {ls : List Nat} {lv i j : Nat} (h : j < ls.length) :
    isPart (ls ++ [lv]) i j = isPart ls i j := by
  unfold isPart
  rw [owner_old h, lvl_old h]

theorem any_congr_range {p p' : Nat → Bool} {j : Nat} (h : ∀ q, q < j → p q = p' q) :
    (List.range j).any p = (List.range j).any p' := by
  induction j with
  | zero => rfl
  | succ j ih =>
    rw [List.range_succ, List.any_append, List.any_append, ih (fun q hq => h q (by omega))]
    simp [h j (by omega)]

theorem contents_new {ls : List Nat} {lv i : Nat} :
    contents (ls ++ [lv]) i = contents ls i ++
      (if isPart (ls ++ [lv]) i ls.length ||
        (ownerOf (ls ++ [lv]) ls.length == some i && lv == 66 &&
          (List.range ls.length).any (isPart ls i)) then [ls.length] else []) := by
  unfold contents
  rw [List.length_append, List.length_singleton, List.range_succ, List.filter_append]
  congr 1
  · apply List.filter_congr
    intro j hj
    have hj := List.mem_range.1 hj
    rw [part_old hj, owner_old hj, lvl_old hj,
      any_congr_range (fun q hq => part_old (by omega))]
  · rw [List.filter_cons, List.filter_nil, lvl_new, any_congr_range (p' := isPart ls i) (fun q hq => part_old hq)]

theorem records_new {ls : List Nat} {lv : Nat} :
    records (ls ++ [lv]) = records ls ++ (if isTop lv then [ls.length] else []) := by
  unfold records
  rw [List.length_append, List.length_singleton, List.range_succ, List.filter_append]
  congr 1
  · apply List.filter_congr
    intro j hj
    rw [lvl_old (List.mem_range.1 hj)]
  · rw [List.filter_cons, List.filter_nil, lvl_new]

theorem mem_contents {ls : List Nat} {i j : Nat} (h : j ∈ contents ls i) :
    j < ls.length ∧ ownerOf ls j = some i ∧ lvlAt ls j ≠ 88 := by
  unfold contents at h
  rw [List.mem_filter, List.mem_range] at h
  obtain ⟨h1, h2⟩ := h
  refine ⟨h1, ?_⟩
  unfold isPart at h2
  simp only [Bool.or_eq_true, Bool.and_eq_true, beq_iff_eq, bne_iff_ne] at h2
  rcases h2 with h2 | h2
  · exact ⟨h2.1.1, h2.1.2⟩
  · exact ⟨h2.1.1, by omega⟩

theorem contents_far {ls : List Nat} {i : Nat} (h : ls.length ≤ i + 1) : contents ls i = [] := by
  rw [List.eq_nil_iff_forall_not_mem]
  intro j hj
  have h1 := mem_contents hj
  have := owner_lt h1.2.1
  omega

theorem range_filter_last {p : Nat → Bool} {n q : Nat} (hq : q < n) (hp : p q = true)
    (hl : ∀ k, q < k → k < n → p k = false) :
    ((List.range n).filter p).getLast? = some q := by
  induction n with
  | zero => omega
  | succ n ih =>
    rw [List.range_succ, List.filter_append]
    rcases Nat.lt_or_ge q n with h | h
    · have e : [n].filter p = [] := by rw [List.filter_cons, List.filter_nil, hl n h (by omega)]; rfl
      rw [e, List.append_nil]
      exact ih h (fun k h1 h2 => hl k h1 (by omega))
    · have : q = n := by omega
      subst this
      have e : [q].filter p = [q] := by rw [List.filter_cons, List.filter_nil, hp]; rfl
      rw [e]
      simp

/-! ### Chains of parents -/

/-- Pointers agree with the level numbers. -/
def ParentsOk (ls : List Nat) (nodes : List DNode) : Prop :=
  nodes.length = ls.length ∧ (∀ j, nodeParent nodes j = if j < ls.length then ownerOf ls j else none)
    ∧ ∀ j, nodeLevel nodes j = lvlAt ls j

theorem parents_succ (nodes : List DNode) (fuel i : Nat) :
    parentsOf nodes (fuel + 1) i =
      match nodeParent nodes i with
      | none => []
      | some p => p :: parentsOf nodes fuel p := rfl

/-- A chain of parents of an ordinary item goes through smaller and smaller
level numbers, and everything after a member is deeper. -/
theorem chain_above {ls : List Nat} {nodes : List DNode} (h : ParentsOk ls nodes) :
    ∀ (fuel c : Nat), c < ls.length → lvlAt ls c ≤ 49 → ∀ q ∈ parentsOf nodes fuel c,
      q < c ∧ ∀ k, q < k → k ≤ c → lvlAt ls q < lvlAt ls k := by
  intro fuel
  induction fuel with
  | zero => intro c _ _ q hq; cases hq
  | succ fuel ih =>
    intro c hc hl q hq
    rw [parents_succ, h.2.1, if_pos hc] at hq
    cases ho : ownerOf ls c with
    | none => rw [ho] at hq; cases hq
    | some p =>
      rw [ho] at hq
      have hpc := owner_lt ho
      unfold ownerOf at ho
      split at ho
      · cases ho
      · rw [if_neg (by omega), if_neg (by omega)] at ho
        obtain ⟨_, h2, h3⟩ := lastBefore_some.1 ho
        have h2 : lvlAt ls p < lvlAt ls c := by simpa using h2
        have h3 : ∀ k, p < k → k < c → lvlAt ls c ≤ lvlAt ls k := fun k a b => by
          have := h3 k a b
          simpa using this
        rcases List.mem_cons.1 hq with e | hq
        · subst e
          refine ⟨hpc, fun k a b => ?_⟩
          rcases Nat.lt_or_ge k c with hk | hk
          · have := h3 k a hk; omega
          · rw [show k = c by omega]; exact h2
        · obtain ⟨g1, g2⟩ := ih p (by omega) (by omega) q hq
          refine ⟨by omega, fun k a b => ?_⟩
          rcases Nat.lt_or_ge p k with hk | hk
          · have e := g2 p g1 (Nat.le_refl _)
            rcases Nat.lt_or_ge k c with hk' | hk'
            · have := h3 k hk hk'; omega
            · rw [show k = c by omega]; omega
          · exact g2 k a hk

/-- An item after which everything is deeper is one of the parents. -/
theorem chain_mem {ls : List Nat} {nodes : List DNode} (h : ParentsOk ls nodes) :
    ∀ (fuel c m : Nat), c ≤ fuel → c < ls.length → lvlAt ls c ≤ 49 → m < c → 1 ≤ lvlAt ls m →
      (∀ k, m < k → k ≤ c → lvlAt ls m < lvlAt ls k) → m ∈ parentsOf nodes fuel c := by
  intro fuel
  induction fuel with
  | zero => intro c m h1 _ _ h2 _ _; omega
  | succ fuel ih =>
    intro c m hf hc hl hm h1 hd
    have hcm := hd c hm (Nat.le_refl _)
    rw [parents_succ, h.2.1, if_pos hc]
    have ho : ownerOf ls c = lastBefore (fun k => decide (lvlAt ls k < lvlAt ls c)) c := by
      unfold ownerOf
      have : isTop (lvlAt ls c) = false := by
        unfold isTop
        simp only [Bool.or_eq_false_iff, beq_eq_false_iff_ne]
        omega
      rw [this, if_neg (by simp), if_neg (by omega), if_neg (by omega)]
    obtain ⟨p, hp, hmp⟩ := lastBefore_ex (p := fun k => decide (lvlAt ls k < lvlAt ls c))
      (j := c) (m := m) hm (by simpa using hcm)
    rw [ho, hp]
    obtain ⟨p1, p2, p3⟩ := lastBefore_some.1 hp
    have p2 : lvlAt ls p < lvlAt ls c := by simpa using p2
    rcases Nat.eq_or_lt_of_le hmp with e | e
    · subst e; exact List.mem_cons_self
    · exact List.mem_cons_of_mem _ (ih p m (by omega) (by omega) (by omega) e h1
        (fun k a b => hd k a (by omega)))

/-! ### Records -/

theorem level_pos {ls : List Nat} {j : Nat} (h : LevelOk ls j) : 1 ≤ lvlAt ls j := by
  unfold LevelOk at h
  dsimp only at h
  omega

/-- An item of level 01-49 is in a record that starts with an 01 item. -/
theorem in_record {ls : List Nat} (ok : ∀ j, j < ls.length → LevelOk ls j) :
    ∀ n j, j ≤ n → j < ls.length → lvlAt ls j ≤ 49 →
      ∃ t, t ≤ j ∧ lvlAt ls t = 1 ∧
        ∀ q, t < q → q ≤ j → lvlAt ls q ≠ 1 ∧ lvlAt ls q ≠ 77 ∧ lvlAt ls q ≠ 66 := by
  intro n
  induction n with
  | zero =>
    intro j h0 hj hl
    have := ok j hj
    unfold LevelOk at this
    dsimp only at this
    have : j = 0 := by omega
    subst this
    rcases this with h | h | h | ⟨_, _, k, hk, _⟩
    · exact ⟨0, Nat.le_refl _, h, fun q a b => by omega⟩
    · omega
    · omega
    · cases hk
  | succ n ih =>
    intro j h0 hj hl
    have hok := ok j hj
    unfold LevelOk at hok
    dsimp only at hok
    rcases hok with h | h | h | ⟨_, _, k, hk, hk49, _⟩
    · exact ⟨j, Nat.le_refl _, h, fun q a b => by omega⟩
    · omega
    · omega
    · obtain ⟨k1, k2, k3⟩ := lastBefore_some.1 hk
      obtain ⟨t, t1, t2, t3⟩ := ih k (by omega) (by omega) hk49
      refine ⟨t, by omega, t2, fun q a b => ?_⟩
      rcases Nat.lt_or_ge k q with e | e
      · rcases Nat.lt_or_ge q j with e' | e'
        · have := k3 q e e'
          have : lvlAt ls q = 88 := by simpa using this
          omega
        · have : q = j := by omega
          subst this
          omega
      · exact t3 q a e

/-- Every entry has a record before it. -/
theorem has_top {ls : List Nat} (ok : ∀ j, j < ls.length → LevelOk ls j) {c : Nat}
    (hc : c < ls.length) : ∃ t, lastBefore (fun k => isTop (lvlAt ls k)) (c + 1) = some t := by
  have h0 := ok 0 (by omega)
  have : isTop (lvlAt ls 0) = true := by
    unfold LevelOk at h0
    dsimp only at h0
    unfold isTop
    rcases h0 with h | h | h | ⟨_, _, k, hk, _⟩
    · simp [h]
    · simp [h]
    · omega
    · cases hk
  obtain ⟨k, hk, _⟩ := lastBefore_ex (p := fun k => isTop (lvlAt ls k)) (j := c + 1) (m := 0)
    (by omega) this
  exact ⟨k, hk⟩

theorem last_cons_getD (a c : Nat) (l : List Nat) :
    ((a :: l).getLast?.getD c) = l.getLast?.getD a := by
  cases l with
  | nil => rfl
  | cons b r => rw [List.getLast?_cons_cons, List.getLast?_cons]; rfl

/-- The founder of an entry is the start of its record. -/
theorem founder_top {ls : List Nat} {nodes : List DNode} (h : ParentsOk ls nodes)
    (ok : ∀ j, j < ls.length → LevelOk ls j) :
    ∀ (fuel c t : Nat), c ≤ fuel → c < ls.length →
      lastBefore (fun k => isTop (lvlAt ls k)) (c + 1) = some t →
      (parentsOf nodes fuel c).getLast?.getD c = t := by
  intro fuel
  induction fuel with
  | zero =>
    intro c t h0 hc ht
    have := (lastBefore_some.1 ht).1
    have : c = 0 := by omega
    subst this
    show 0 = t
    omega
  | succ fuel ih =>
    intro c t h0 hc ht
    obtain ⟨t1, t2, t3⟩ := lastBefore_some.1 ht
    rw [parents_succ, h.2.1, if_pos hc]
    by_cases htop : isTop (lvlAt ls c) = true
    · have : ownerOf ls c = none := by unfold ownerOf; rw [if_pos htop]
      rw [this]
      rcases Nat.lt_or_ge t c with e | e
      · have := t3 c e (by omega)
        rw [htop] at this; cases this
      · show c = t
        omega
    · have htc : t < c := by
        rcases Nat.lt_or_ge t c with e | e
        · exact e
        · rw [show t = c by omega] at t2; exact absurd t2 htop
      have key : ∃ p, ownerOf ls c = some p ∧ t ≤ p := by
        unfold ownerOf
        rw [if_neg htop]
        by_cases h88 : lvlAt ls c = 88
        · rw [if_pos h88]
          apply lastBefore_ex htc
          unfold isTop at t2
          simp only [Bool.or_eq_true, beq_iff_eq] at t2
          simp only [bne_iff_ne]
          omega
        · rw [if_neg h88]
          by_cases h66 : lvlAt ls c = 66
          · rw [if_pos h66]
            exact lastBefore_ex htc t2
          · rw [if_neg h66]
            apply lastBefore_ex htc
            have hok := ok c hc
            unfold LevelOk at hok
            dsimp only at hok
            unfold isTop at htop t2
            simp only [Bool.or_eq_true, beq_iff_eq] at htop t2
            have hl : lvlAt ls c ≤ 49 := by
              rcases hok with h | h | h | h <;> omega
            obtain ⟨s, s1, s2, s3⟩ := in_record ok c c (Nat.le_refl _) hc hl
            have hst : s = t := by
              rcases Nat.lt_trichotomy s t with e | e | e
              · have := s3 t e (by omega)
                omega
              · exact e
              · have := t3 s e (by omega)
                unfold isTop at this
                rw [s2] at this
                cases this
            rw [← hst, s2]
            simp only [decide_eq_true_eq]
            have := level_pos (ok c hc)
            omega
      obtain ⟨p, hp, htp⟩ := key
      rw [hp]
      dsimp only
      have hpc := owner_lt hp
      rw [last_cons_getD]
      refine ih p t (by omega) (by omega) (lastBefore_some.2 ⟨by omega, t2, fun q a b => ?_⟩)
      exact t3 q a (by omega)

/-! ### Linked lists -/

/-- The `sister` pointers run through a list. -/
def Sisters (nodes : List DNode) : List Nat → Prop
  | [] => True
  | [a] => (nodes[a]?).bind (·.sister) = none
  | a :: b :: r => (nodes[a]?).bind (·.sister) = some b ∧ Sisters nodes (b :: r)

theorem sisters_congr {nodes nodes' : List DNode} : ∀ {l : List Nat},
    (∀ a ∈ l, (nodes'[a]?).bind (·.sister) = (nodes[a]?).bind (·.sister)) →
    Sisters nodes l → Sisters nodes' l
  | [], _, _ => trivial
  | [a], h, hs => by
    show (nodes'[a]?).bind (·.sister) = none
    rw [h a (by simp)]; exact hs
  | a :: b :: r, h, hs => by
    refine ⟨?_, sisters_congr (fun x hx => h x (List.mem_cons_of_mem _ hx)) hs.2⟩
    rw [h a (by simp)]; exact hs.1

theorem sisters_snoc {nodes nodes' : List DNode} {q n : Nat} : ∀ {l : List Nat},
    Sisters nodes l → l.getLast? = some q → l.Nodup →
    (∀ a ∈ l, a ≠ q → (nodes'[a]?).bind (·.sister) = (nodes[a]?).bind (·.sister)) →
    (nodes'[q]?).bind (·.sister) = some n → (nodes'[n]?).bind (·.sister) = none →
    Sisters nodes' (l ++ [n])
  | [], _, h, _, _, _, _ => by cases h
  | [a], _, h, _, _, hq, hn => by
    have : a = q := by simpa using h
    subst this
    exact ⟨hq, hn⟩
  | a :: b :: r, hs, h, nd, hc, hq, hn => by
    rw [List.getLast?_cons_cons] at h
    have haq : a ≠ q := by
      intro e
      subst e
      have := List.mem_of_getLast? h
      exact (List.nodup_cons.1 nd).1 this
    refine ⟨?_, sisters_snoc hs.2 h (List.nodup_cons.1 nd).2
      (fun x hx => hc x (List.mem_cons_of_mem _ hx)) hq hn⟩
    rw [hc a (by simp) haq]
    exact hs.1

theorem sisters_walk {nodes : List DNode} : ∀ {l : List Nat} {fuel : Nat}, l.length ≤ fuel →
    Sisters nodes l → sistersFrom nodes fuel l.head? = l
  | [], fuel, _, _ => by cases fuel <;> rfl
  | [a], fuel, hf, hs => by
    cases fuel with
    | zero => simp at hf
    | succ fuel =>
      show a :: sistersFrom nodes fuel ((nodes[a]?).bind (·.sister)) = [a]
      have hs : (nodes[a]?).bind (·.sister) = none := hs
      rw [hs]
      cases fuel <;> rfl
  | a :: b :: r, fuel, hf, hs => by
    cases fuel with
    | zero => simp at hf
    | succ fuel =>
      show a :: sistersFrom nodes fuel ((nodes[a]?).bind (·.sister)) = a :: b :: r
      rw [hs.1]
      have := sisters_walk (l := b :: r) (fuel := fuel) (by simpa using hf) hs.2
      rw [List.head?_cons] at this
      rw [this]

theorem contents_nodup {ls : List Nat} {i : Nat} : (contents ls i).Nodup :=
  List.Pairwise.sublist List.filter_sublist List.nodup_range

theorem contents_len {ls : List Nat} {i : Nat} : (contents ls i).length ≤ ls.length := by
  unfold contents
  exact Nat.le_trans (List.length_filter_le _ _) (by simp)

theorem records_nodup {ls : List Nat} : (records ls).Nodup :=
  List.Pairwise.sublist List.filter_sublist List.nodup_range

/-! ### The tree agrees with the level numbers -/

/-- The nodes are the tree of the level numbers. -/
structure TreeOk (ls : List Nat) (names : List (Option (List Nat))) (nodes : List DNode) : Prop where
  par : ParentsOk ls nodes
  nlen : names.length = ls.length
  named : ∀ (j : Nat) nm, names[j]? = some (some nm) → (nodes[j]?).map (·.name) = some nm
  kid : ∀ i : Nat, (nodes[i]?).bind (·.children) = (contents ls i).head?
  sis : ∀ i : Nat, Sisters nodes (contents ls i)
  top : Sisters nodes (records ls)

theorem tree_walk {ls : List Nat} {names : List (Option (List Nat))} {nodes : List DNode} (h : TreeOk ls names nodes) (i : Nat) :
    kidsWalk nodes i = contents ls i := by
  unfold kidsWalk
  rw [h.kid, h.par.1]
  exact sisters_walk contents_len (h.sis i)

theorem modify_get {α : Type} (l : List α) (f : α → α) (i j : Nat) :
    (l.modify i f)[j]? = if i = j then (l[j]?).map f else l[j]? := by
  rw [List.getElem?_modify]
  split
  · rfl
  · simp

/-- Adding a node and, perhaps, setting one `sister` and one `children`
pointer: what the accessors then say. -/
theorem add_node {nodes nodes1 : List DNode} {d : DNode} (hlen : nodes1.length = nodes.length)
    {β : Type} (g : DNode → β) (hg : ∀ j : Nat, (nodes1[j]?).map g = (nodes[j]?).map g) (j : Nat) :
    ((nodes1 ++ [d])[j]?).map g =
      if j = nodes.length then some (g d) else (nodes[j]?).map g := by
  by_cases h : j = nodes.length
  · subst h
    rw [if_pos rfl, List.getElem?_append_right (by omega), hlen]
    simp
  · rw [if_neg h]
    rcases Nat.lt_or_ge j nodes.length with e | e
    · rw [List.getElem?_append_left (by omega), hg]
    · rw [List.getElem?_eq_none (by simp; omega), List.getElem?_eq_none (by omega)]

theorem map_modify {β : Type} (g : DNode → β) (f : DNode → DNode) (hf : ∀ d, g (f d) = g d)
    (l : List DNode) (i j : Nat) : ((l.modify i f)[j]?).map g = (l[j]?).map g := by
  rw [modify_get]
  split
  · cases l[j]? with
    | none => rfl
    | some d => simp [hf]
  · rfl

theorem setSister_map {β : Type} (g : DNode → β)
    (hg : ∀ (d : DNode) (v : Option Nat), g { d with sister := v } = g d)
    (l : List DNode) (i v j : Nat) : ((setSister l i v)[j]?).map g = (l[j]?).map g :=
  map_modify g (fun d => { d with sister := some v }) (fun d => hg d (some v)) l i j

theorem setChildren_map {β : Type} (g : DNode → β)
    (hg : ∀ (d : DNode) (v : Option Nat), g { d with children := v } = g d)
    (l : List DNode) (i v j : Nat) : ((setChildren l i v)[j]?).map g = (l[j]?).map g :=
  map_modify g (fun d => { d with children := some v }) (fun d => hg d (some v)) l i j

theorem bind_map {β : Type} (g : DNode → Option β) (o : Option DNode) :
    o.bind g = (o.map g).bind id := by cases o <;> rfl

/-- What must hold of the changed nodes `nodes1` and the new item for the
tree to be that of the longer list of levels. -/
theorem tree_add {ls : List Nat} {names : List (Option (List Nat))} {nodes nodes1 : List DNode} {lv : Nat} {name : List Nat}
    {onm : Option (List Nat)} {par : Option Nat} (h : TreeOk ls names nodes)
    (hlen : nodes1.length = nodes.length)
    (hp : ∀ j : Nat, (nodes1[j]?).map (·.parent) = (nodes[j]?).map (·.parent))
    (hl : ∀ j : Nat, (nodes1[j]?).map (·.level) = (nodes[j]?).map (·.level))
    (hn : ∀ j : Nat, (nodes1[j]?).map (·.name) = (nodes[j]?).map (·.name))
    (hnm : ∀ nm, onm = some nm → name = nm)
    (hpar : ownerOf (ls ++ [lv]) ls.length = par)
    (hkid : ∀ i, i < ls.length →
      (nodes1[i]?).bind (·.children) = (contents (ls ++ [lv]) i).head?)
    (hsis : ∀ i, Sisters (nodes1 ++ [newNode lv name par]) (contents (ls ++ [lv]) i))
    (htop : Sisters (nodes1 ++ [newNode lv name par]) (records (ls ++ [lv]))) :
    TreeOk (ls ++ [lv]) (names ++ [onm]) (nodes1 ++ [newNode lv name par]) := by
  have len := h.par.1
  refine ⟨⟨by simp [hlen, len], fun j => ?_, fun j => ?_⟩, by simp [h.nlen], fun j nm hj => ?_,
    fun i => ?_, hsis, htop⟩
  · unfold nodeParent
    rw [bind_map, add_node hlen _ hp]
    by_cases e : j = nodes.length
    · rw [if_pos e]
      subst e
      rw [if_pos (by simp; omega), len, hpar]
      rfl
    · rw [if_neg e, ← bind_map]
      have := h.par.2.1 j
      unfold nodeParent at this
      rw [this]
      by_cases e' : j < ls.length
      · rw [if_pos e', if_pos (by simp; omega), owner_old e']
      · rw [if_neg e', if_neg (by simp; omega)]
  · unfold nodeLevel
    rw [add_node hlen _ hl]
    by_cases e : j = nodes.length
    · rw [if_pos e]
      subst e
      rw [len, lvl_new]
      rfl
    · rw [if_neg e]
      have := h.par.2.2 j
      unfold nodeLevel at this
      rw [this]
      rcases Nat.lt_or_ge j ls.length with e' | e'
      · rw [lvl_old e']
      · unfold lvlAt
        rw [List.getD_eq_getElem?_getD, List.getD_eq_getElem?_getD, List.getElem?_eq_none e',
          List.getElem?_eq_none (by simp; omega)]
  · rw [add_node hlen _ hn]
    by_cases e : j = nodes.length
    · rw [if_pos e]
      rw [e, len, ← h.nlen, List.getElem?_append_right (Nat.le_refl _)] at hj
      have : onm = some nm := by simpa using hj
      rw [← hnm nm this]
      rfl
    · rw [if_neg e]
      apply h.named
      rcases Nat.lt_or_ge j names.length with e' | e'
      · rwa [List.getElem?_append_left e'] at hj
      · rw [List.getElem?_eq_none (by simp; have := h.nlen; omega)] at hj
        cases hj
  · by_cases e : i < ls.length
    · rw [← hkid i e, List.getElem?_append_left (by omega)]
    · rw [contents_far (by simp; omega)]
      rcases Nat.lt_or_ge i (nodes.length + 1) with e' | e'
      · rw [show i = nodes1.length by omega, List.getElem?_append_right (Nat.le_refl _)]
        simp [newNode]
      · rw [List.getElem?_eq_none (by simp; omega)]
        rfl

/-- The state while the entries are read. -/
structure StOk (ls : List Nat) (names : List (Option (List Nat))) (st : DSt) : Prop where
  tree : TreeOk ls names st.nodes
  ok : ∀ j, j < ls.length → LevelOk ls j
  lst : st.last = if ls.length = 0 then none else some (ls.length - 1)
  n01 : st.needs01 = false

/-- The entry before that is no condition name. -/
theorem last_real {ls : List Nat} {names : List (Option (List Nat))} {st : DSt} (h : StOk ls names st) :
    (if (st.last.map (nodeLevel st.nodes)).getD 0 = 88 then st.last.bind (nodeParent st.nodes)
      else st.last) = lastBefore (fun q => lvlAt ls q != 88) ls.length := by
  rw [h.lst]
  by_cases h0 : ls.length = 0
  · rw [if_pos h0, h0]
    rfl
  · rw [if_neg h0]
    obtain ⟨n, hn⟩ : ∃ n, ls.length = n + 1 := ⟨ls.length - 1, by omega⟩
    rw [hn, Nat.add_sub_cancel]
    simp only [Option.map_some, Option.getD_some, Option.bind_some]
    rw [h.tree.par.2.2, h.tree.par.2.1, if_pos (show n < ls.length by omega), lastBefore]
    by_cases h88 : lvlAt ls n = 88
    · rw [if_pos h88, if_neg (by simp [h88])]
      unfold ownerOf
      rw [if_neg (by simp [isTop, h88]), if_pos h88]
    · rw [if_neg h88, if_pos (by simp [h88])]

theorem last_level {ls : List Nat} {names : List (Option (List Nat))} {st : DSt} (h : StOk ls names st) :
    (st.last.map (nodeLevel st.nodes)).getD 0 = if ls.length = 0 then 0 else lvlAt ls (ls.length - 1) := by
  rw [h.lst]
  split
  · rfl
  · simp only [Option.map_some, Option.getD_some]
    exact h.tree.par.2.2 _

theorem upper_find (nodes : List DNode) (lv : Nat) (l : List Nat) :
    (upperLoop nodes false lv l).1 = l.find? (fun p => decide (nodeLevel nodes p = lv)) := by
  induction l with
  | nil => rfl
  | cons p r ih =>
    rw [upperLoop, List.find?_cons]
    by_cases h : nodeLevel nodes p = lv
    · simp [h]
    · simp [h, ih]

/-- Links that stay as they are. -/
theorem sis_keep {nodes nodes1 : List DNode} {d : DNode} (hlen : nodes1.length = nodes.length)
    {l : List Nat} (hl : ∀ a ∈ l, a < nodes.length)
    (hs : ∀ a ∈ l, (nodes1[a]?).bind (·.sister) = (nodes[a]?).bind (·.sister))
    (h : Sisters nodes l) : Sisters (nodes1 ++ [d]) l :=
  sisters_congr (fun a ha => by
    rw [List.getElem?_append_left (by rw [hlen]; exact hl a ha)]; exact hs a ha) h

theorem contents_lt {ls : List Nat} {i j : Nat} (h : j ∈ contents ls i) : j < ls.length :=
  (mem_contents h).1

theorem records_lt {ls : List Nat} {j : Nat} (h : j ∈ records ls) :
    j < ls.length ∧ isTop (lvlAt ls j) = true := by
  unfold records at h
  rw [List.mem_filter, List.mem_range] at h
  exact h

theorem owner_top {ls : List Nat} {j : Nat} (h : isTop (lvlAt ls j) = true) : ownerOf ls j = none := by
  unfold ownerOf
  rw [if_pos h]

/-- The case of a new record. -/
theorem add_top {ls : List Nat} {names : List (Option (List Nat))} {st : DSt} (h : StOk ls names st) {lv : Nat}
    (hlv : isTop lv = true) {name : List Nat} {onm : Option (List Nat)}
    (hnm : ∀ nm, onm = some nm → name = nm) (q : Option Nat)
    (hq : q = lastBefore (fun k => isTop (lvlAt ls k)) ls.length) :
    TreeOk (ls ++ [lv]) (names ++ [onm])
      ((match q with
        | some l => setSister st.nodes l st.nodes.length
        | none => st.nodes) ++ [newNode lv name none]) := by
  have len := h.tree.par.1
  have hown : ownerOf (ls ++ [lv]) ls.length = none := owner_top (by rw [lvl_new]; exact hlv)
  have hcon : ∀ i, contents (ls ++ [lv]) i = contents ls i := by
    intro i
    rw [contents_new, hown]
    unfold isPart
    rw [hown]
    simp
  have hrec : records (ls ++ [lv]) = records ls ++ [ls.length] := by
    rw [records_new, if_pos hlv]
  cases q with
  | none =>
    have hnone := lastBefore_none.1 hq.symm
    have hr : records ls = [] := by
      rw [List.eq_nil_iff_forall_not_mem]
      intro j hj
      have h1 := records_lt hj
      have := hnone j h1.1
      rw [h1.2] at this
      cases this
    refine tree_add h.tree rfl (fun _ => rfl) (fun _ => rfl) (fun _ => rfl) hnm hown
      (fun i _ => by rw [hcon]; exact h.tree.kid i) (fun i => ?_) ?_
    · rw [hcon]
      exact sis_keep rfl (fun a ha => by rw [len]; exact contents_lt ha) (fun _ _ => rfl) (h.tree.sis i)
    · rw [hrec, hr]
      show ((st.nodes ++ [newNode lv name none])[ls.length]?).bind (·.sister) = none
      rw [← len, List.getElem?_append_right (Nat.le_refl _)]
      simp [newNode]
  | some t =>
    obtain ⟨t1, t2, t3⟩ := lastBefore_some.1 hq.symm
    have hlast : (records ls).getLast? = some t := range_filter_last t1 t2 t3
    have hot := owner_top t2
    have hslen : (setSister st.nodes t st.nodes.length).length = st.nodes.length := by
      unfold setSister; simp
    have hsother : ∀ a : Nat, a ≠ t →
        ((setSister st.nodes t st.nodes.length)[a]?).bind (·.sister) =
          (st.nodes[a]?).bind (·.sister) := fun a ha => by
      unfold setSister
      rw [modify_get, if_neg (Ne.symm ha)]
    refine tree_add h.tree hslen (fun j => setSister_map _ (fun _ _ => rfl) _ _ _ j)
      (fun j => setSister_map _ (fun _ _ => rfl) _ _ _ j) (fun j => setSister_map _ (fun _ _ => rfl) _ _ _ j)
      hnm hown (fun i _ => ?_) (fun i => ?_) ?_
    · rw [hcon, ← h.tree.kid i, bind_map, bind_map (fun x => x.children)]
      rw [setSister_map _ (fun _ _ => rfl)]
    · rw [hcon]
      refine sis_keep hslen (fun a ha => by rw [len]; exact contents_lt ha) (fun a ha => ?_)
        (h.tree.sis i)
      apply hsother
      intro e
      subst e
      rw [(mem_contents ha).2.1] at hot
      cases hot
    · rw [hrec]
      have hsn := sisters_snoc (nodes := st.nodes)
        (nodes' := setSister st.nodes t st.nodes.length ++ [newNode lv name none]) (q := t)
        (n := ls.length) h.tree.top hlast records_nodup (fun a ha hne => by
          rw [List.getElem?_append_left (by rw [hslen, len]; exact (records_lt ha).1)]
          exact hsother a hne)
        (by
          rw [List.getElem?_append_left (by rw [hslen, len]; exact t1)]
          unfold setSister
          rw [modify_get, if_pos rfl, ← len, List.getElem?_eq_getElem (by omega)]
          rfl)
        (by
          rw [List.getElem?_append_right (by rw [hslen, len]; exact Nat.le_refl _), hslen, len,
            Nat.sub_self]
          rfl)
      exact hsn

/-- The case of a new item after `q` inside the same group. -/
theorem add_after {ls : List Nat} {names : List (Option (List Nat))} {st : DSt} (h : StOk ls names st) {lv : Nat} {p q : Nat}
    {name : List Nat} {onm : Option (List Nat)} (hnm : ∀ nm, onm = some nm → name = nm)
    (hlv : isTop lv = false) (hown : ownerOf (ls ++ [lv]) ls.length = some p)
    (hlast : (contents ls p).getLast? = some q)
    (hcon : ∀ i, contents (ls ++ [lv]) i =
      contents ls i ++ (if i = p then [ls.length] else [])) :
    TreeOk (ls ++ [lv]) (names ++ [onm])
      (setSister st.nodes q st.nodes.length ++ [newNode lv name (some p)]) := by
  have len := h.tree.par.1
  have hqm : q ∈ contents ls p := List.mem_of_getLast? hlast
  have hql := (mem_contents hqm)
  have hrec : records (ls ++ [lv]) = records ls := by
    rw [records_new, hlv]; simp
  have hslen : (setSister st.nodes q st.nodes.length).length = st.nodes.length := by
    unfold setSister; simp
  have hsother : ∀ a : Nat, a ≠ q →
      ((setSister st.nodes q st.nodes.length)[a]?).bind (·.sister) =
        (st.nodes[a]?).bind (·.sister) := fun a ha => by
    unfold setSister
    rw [modify_get, if_neg (Ne.symm ha)]
  refine tree_add h.tree hslen (fun j => setSister_map _ (fun _ _ => rfl) _ _ _ j)
    (fun j => setSister_map _ (fun _ _ => rfl) _ _ _ j) (fun j => setSister_map _ (fun _ _ => rfl) _ _ _ j)
    hnm hown (fun i _ => ?_) (fun i => ?_) ?_
  · rw [hcon]
    have e : ((setSister st.nodes q st.nodes.length)[i]?).bind (·.children) =
        (contents ls i).head? := by
      rw [← h.tree.kid i, bind_map, bind_map (fun x => x.children)]
      rw [setSister_map _ (fun _ _ => rfl)]
    rw [e]
    by_cases hi : i = p
    · subst hi
      rw [if_pos rfl]
      cases hc : contents ls i with
      | nil => rw [hc] at hqm; cases hqm
      | cons a r => rfl
    · rw [if_neg hi, List.append_nil]
  · rw [hcon]
    by_cases hi : i = p
    · subst hi
      rw [if_pos rfl]
      refine sisters_snoc (nodes := st.nodes) (q := q) (h.tree.sis i) hlast contents_nodup
        (fun a ha hne => ?_) ?_ ?_
      · rw [List.getElem?_append_left (by rw [hslen, len]; exact contents_lt ha)]
        exact hsother a hne
      · rw [List.getElem?_append_left (by rw [hslen, len]; exact hql.1)]
        unfold setSister
        rw [modify_get, if_pos rfl, ← len, List.getElem?_eq_getElem (by omega)]
        rfl
      · rw [List.getElem?_append_right (by rw [hslen, len]; exact Nat.le_refl _), hslen, len,
          Nat.sub_self]
        rfl
    · rw [if_neg hi, List.append_nil]
      refine sis_keep hslen (fun a ha => by rw [len]; exact contents_lt ha) (fun a ha => ?_)
        (h.tree.sis i)
      apply hsother
      intro e
      subst e
      have := (mem_contents ha).2.1
      rw [hql.2.1] at this
      exact hi (Option.some.inj this).symm
  · rw [hrec]
    refine sis_keep hslen (fun a ha => by rw [len]; exact (records_lt ha).1) (fun a ha => ?_)
      h.tree.top
    apply hsother
    intro e
    subst e
    have := owner_top (records_lt ha).2
    rw [hql.2.1] at this
    cases this

/-- The case of an item that gets into no list: a condition name, or RENAMES
of a record without parts. -/
theorem add_loose {ls : List Nat} {names : List (Option (List Nat))} {st : DSt} (h : StOk ls names st) {lv : Nat} {par : Option Nat}
    {name : List Nat} {onm : Option (List Nat)} (hnm : ∀ nm, onm = some nm → name = nm)
    (hlv : isTop lv = false) (hown : ownerOf (ls ++ [lv]) ls.length = par)
    (hcon : ∀ i, contents (ls ++ [lv]) i = contents ls i) :
    TreeOk (ls ++ [lv]) (names ++ [onm]) (st.nodes ++ [newNode lv name par]) := by
  have len := h.tree.par.1
  refine tree_add h.tree rfl (fun _ => rfl) (fun _ => rfl) (fun _ => rfl) hnm hown
    (fun i _ => by rw [hcon]; exact h.tree.kid i) (fun i => ?_) ?_
  · rw [hcon]
    exact sis_keep rfl (fun a ha => by rw [len]; exact contents_lt ha) (fun _ _ => rfl) (h.tree.sis i)
  · rw [records_new, hlv]
    simp only [Bool.false_eq_true, if_false, List.append_nil]
    exact sis_keep rfl (fun a ha => by rw [len]; exact (records_lt ha).1) (fun _ _ => rfl) h.tree.top

/-- The case of the first item inside `p`. -/
theorem add_first {ls : List Nat} {names : List (Option (List Nat))} {st : DSt} (h : StOk ls names st) {lv : Nat} {p : Nat}
    {name : List Nat} {onm : Option (List Nat)} (hnm : ∀ nm, onm = some nm → name = nm)
    (hlv : isTop lv = false) (hp : p < ls.length)
    (hown : ownerOf (ls ++ [lv]) ls.length = some p)
    (hemp : contents ls p = [])
    (hcon : ∀ i, contents (ls ++ [lv]) i =
      contents ls i ++ (if i = p then [ls.length] else [])) :
    TreeOk (ls ++ [lv]) (names ++ [onm])
      (setChildren st.nodes p st.nodes.length ++ [newNode lv name (some p)]) := by
  have len := h.tree.par.1
  have hslen : (setChildren st.nodes p st.nodes.length).length = st.nodes.length := by
    unfold setChildren; simp
  have hss : ∀ a : Nat, ((setChildren st.nodes p st.nodes.length)[a]?).bind (·.sister) =
      (st.nodes[a]?).bind (·.sister) := fun a => by
    rw [bind_map, bind_map (fun x => x.sister)]
    rw [setChildren_map _ (fun _ _ => rfl)]
  refine tree_add h.tree hslen (fun j => setChildren_map _ (fun _ _ => rfl) _ _ _ j)
    (fun j => setChildren_map _ (fun _ _ => rfl) _ _ _ j) (fun j => setChildren_map _ (fun _ _ => rfl) _ _ _ j)
    hnm hown (fun i _ => ?_) (fun i => ?_) ?_
  · rw [hcon]
    unfold setChildren
    rw [modify_get]
    by_cases hi : i = p
    · subst hi
      rw [if_pos rfl, if_pos rfl, hemp, List.getElem?_eq_getElem (by omega)]
      exact congrArg some len
    · rw [if_neg (Ne.symm hi), if_neg hi, List.append_nil]
      exact h.tree.kid i
  · rw [hcon]
    by_cases hi : i = p
    · subst hi
      rw [if_pos rfl, hemp]
      show ((setChildren st.nodes i st.nodes.length ++ [newNode lv name (some i)])[ls.length]?).bind
        (·.sister) = none
      rw [List.getElem?_append_right (by rw [hslen, len]; exact Nat.le_refl _), hslen, len,
        Nat.sub_self]
      rfl
    · rw [if_neg hi, List.append_nil]
      exact sis_keep hslen (fun a ha => by rw [len]; exact contents_lt ha) (fun a _ => hss a)
        (h.tree.sis i)
  · rw [records_new, hlv]
    simp only [Bool.false_eq_true, if_false, List.append_nil]
    exact sis_keep hslen (fun a ha => by rw [len]; exact (records_lt ha).1) (fun a _ => hss a)
      h.tree.top

end Cob
