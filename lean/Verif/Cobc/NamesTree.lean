import Verif.Cobc.NamesProps
namespace Cob

/-! ### One entry -/

theorem real_facts {ls : List Nat} {l : Nat}
    (h : lastBefore (fun q => lvlAt ls q != 88) ls.length = some l) :
    l < ls.length ∧ lvlAt ls l ≠ 88 ∧ ∀ q, l < q → q < ls.length → lvlAt ls q = 88 := by
  obtain ⟨h1, h2, h3⟩ := lastBefore_some.1 h
  refine ⟨h1, by simpa using h2, fun q a b => ?_⟩
  have := h3 q a b
  simpa using this

/-- The record of the last entry that is no condition name is the last
record. -/
theorem top_of_real {ls : List Nat} {names : List (Option (List Nat))} {st : DSt}
    (h : StOk ls names st) {l : Nat}
    (hl : lastBefore (fun q => lvlAt ls q != 88) ls.length = some l) :
    lastBefore (fun k => isTop (lvlAt ls k)) ls.length = some (founderOf st.nodes l) := by
  obtain ⟨l1, l2, l3⟩ := real_facts hl
  obtain ⟨t, ht⟩ := has_top h.ok l1
  have hf : founderOf st.nodes l = t := by
    unfold founderOf
    exact founder_top h.tree.par h.ok _ l t (by rw [h.tree.par.1]; omega) l1 ht
  rw [hf]
  obtain ⟨t1, t2, t3⟩ := lastBefore_some.1 ht
  refine lastBefore_some.2 ⟨by omega, t2, fun q a b => ?_⟩
  rcases Nat.lt_or_ge l q with e | e
  · show isTop (lvlAt ls q) = false
    rw [l3 q e b]
    rfl
  · exact t3 q a (by omega)

theorem real_none {ls : List Nat} (ok : ∀ j, j < ls.length → LevelOk ls j)
    (h : lastBefore (fun q => lvlAt ls q != 88) ls.length = none) : ls.length = 0 := by
  rcases Nat.eq_zero_or_pos ls.length with e | e
  · exact e
  · have h0 := ok 0 e
    have := lastBefore_none.1 h 0 e
    have h88 : lvlAt ls 0 = 88 := by simpa using this
    unfold LevelOk at h0
    dsimp only at h0
    omega

theorem con_part {ls : List Nat} {lv p : Nat} (hown : ownerOf (ls ++ [lv]) ls.length = some p)
    (h88 : lv ≠ 88) (h66 : lv ≠ 66) (i : Nat) :
    contents (ls ++ [lv]) i = contents ls i ++ (if i = p then [ls.length] else []) := by
  rw [contents_new]
  congr 1
  unfold isPart
  rw [hown, lvl_new]
  by_cases e : i = p
  · subst e
    simp [h88, h66]
  · simp [e, h66, Ne.symm e]

theorem stok_add {ls : List Nat} {names : List (Option (List Nat))} {st : DSt}
    (h : StOk ls names st) {lv : Nat} {onm : Option (List Nat)} (hok : LevelOk (ls ++ [lv]) ls.length)
    {nodes : List DNode} (ht : TreeOk (ls ++ [lv]) (names ++ [onm]) nodes) (filler : Nat) :
    StOk (ls ++ [lv]) (names ++ [onm])
      { nodes := nodes, last := some st.nodes.length, needs01 := false, filler := filler } := by
  refine ⟨ht, fun j hj => ?_, ?_, rfl⟩
  · rcases Nat.lt_or_ge j ls.length with e | e
    · exact (levelOk_old e).2 (h.ok j e)
    · have : j = ls.length := by simp at hj; omega
      subst this
      exact hok
  · rw [if_neg (by simp)]
    simp [h.tree.par.1]

/-- An entry is accepted exactly when it is in its place, and then the tree
is that of the longer list of level numbers. -/
theorem link_step {ls : List Nat} {names : List (Option (List Nat))} {st : DSt}
    (h : StOk ls names st) {lv : Nat}
    (hlv : (1 ≤ lv ∧ lv ≤ 49) ∨ lv = 66 ∨ lv = 77 ∨ lv = 88) {name : List Nat}
    {onm : Option (List Nat)} (hnm : ∀ nm, onm = some nm → name = nm) :
    (LevelOk (ls ++ [lv]) ls.length → ∃ st', linkItem false st lv name = .ok st' ∧
      StOk (ls ++ [lv]) (names ++ [onm]) st') ∧
    (¬ LevelOk (ls ++ [lv]) ls.length → linkItem false st lv name = .error) := by
  have len := h.tree.par.1
  unfold linkItem
  dsimp only
  rw [last_real h, h.n01]
  by_cases g : st.last.isSome = true ∧ (st.last.map (nodeLevel st.nodes)).getD 0 = 77 ∧
      lv ≠ 1 ∧ lv ≠ 77 ∧ lv ≠ 66 ∧ lv ≠ 88
  · rw [if_pos g]
    refine ⟨fun hok => ?_, fun _ => rfl⟩
    exfalso
    obtain ⟨g1, g2, g3⟩ := g
    rw [last_level h] at g2
    have hn : ls.length ≠ 0 := by
      intro e
      rw [if_pos e] at g2
      omega
    rw [if_neg hn] at g2
    rw [levelOk_new] at hok
    rcases hok with e | e | e | ⟨_, _, k, hk, hk49, _⟩
    · omega
    · omega
    · omega
    · obtain ⟨k1, k2, k3⟩ := real_facts hk
      rcases Nat.lt_or_ge k (ls.length - 1) with e | e
      · have := k3 (ls.length - 1) e (by omega)
        omega
      · rw [show k = ls.length - 1 by omega] at hk49
        omega
  rw [if_neg g]
  by_cases htop : lv = 1 ∨ lv = 77
  · rw [if_pos htop]
    have hok : LevelOk (ls ++ [lv]) ls.length := by
      rw [levelOk_new]
      rcases htop with e | e
      · exact .inl e
      · exact .inr (.inl e)
    refine ⟨fun _ => ⟨_, rfl, ?_⟩, fun hno => absurd hok hno⟩
    have htb : isTop lv = true := by unfold isTop; simpa using htop
    apply stok_add h hok
    cases hl : lastBefore (fun q => lvlAt ls q != 88) ls.length with
    | none =>
      refine add_top h htb hnm none ?_
      rw [real_none h.ok hl]
      rfl
    | some l => exact add_top h htb hnm (some (founderOf st.nodes l)) (top_of_real h hl).symm
  rw [if_neg htop]
  have htb : isTop lv = false := by
    unfold isTop
    simpa using htop
  cases hl : lastBefore (fun q => lvlAt ls q != 88) ls.length with
  | none =>
    dsimp only
    refine ⟨fun hok => ?_, fun _ => rfl⟩
    exfalso
    rw [levelOk_new, hl] at hok
    have := real_none h.ok hl
    rcases hok with e | e | e | ⟨_, _, k, hk, _⟩
    · omega
    · omega
    · omega
    · cases hk
  | some l =>
    obtain ⟨l1, l2, l3⟩ := real_facts hl
    dsimp only
    rw [if_neg (by simp)]
    by_cases h66 : lv = 66
    · rw [if_pos h66]
      have hok : LevelOk (ls ++ [lv]) ls.length := by
        rw [levelOk_new]
        exact .inr (.inr (.inl ⟨.inl h66, by omega⟩))
      refine ⟨fun _ => ⟨_, rfl, ?_⟩, fun hno => absurd hok hno⟩
      apply stok_add h hok
      have hown : ownerOf (ls ++ [lv]) ls.length = some (founderOf st.nodes l) := by
        rw [owner_new, htb, if_neg (by simp), if_neg (by omega), if_pos h66]
        exact top_of_real h hl
      have hnp : ∀ i, isPart (ls ++ [lv]) i ls.length = false := fun i => by
        unfold isPart
        rw [lvl_new, h66]
        simp
      rw [tree_walk h.tree]
      cases hc : (contents ls (founderOf st.nodes l)).getLast? with
      | none =>
        refine add_loose h hnm htb hown (fun i => ?_)
        rw [contents_new, hnp, hown]
        have hemp : contents ls (founderOf st.nodes l) = [] := List.getLast?_eq_none_iff.1 hc
        by_cases e : founderOf st.nodes l = i
        · subst e
          have hany : (List.range ls.length).any (isPart ls (founderOf st.nodes l)) = false := by
            rw [List.any_eq_false]
            intro x hx hp
            have : x ∈ contents ls (founderOf st.nodes l) := by
              unfold contents
              rw [List.mem_filter]
              exact ⟨hx, by simp [hp]⟩
            rw [hemp] at this
            cases this
          simp [hany]
        · simp [e]
      | some q =>
        refine add_after h hnm htb hown hc (fun i => ?_)
        rw [contents_new, hnp, hown]
        congr 1
        by_cases e : founderOf st.nodes l = i
        · subst e
          have hq := List.mem_of_getLast? hc
          have hany : (List.range ls.length).any (isPart ls (founderOf st.nodes l)) = true := by
            unfold contents at hq
            rw [List.mem_filter] at hq
            obtain ⟨hq1, hq2⟩ := hq
            rw [Bool.or_eq_true] at hq2
            rcases hq2 with hq2 | hq2
            · exact List.any_eq_true.2 ⟨q, hq1, hq2⟩
            · rw [Bool.and_eq_true] at hq2
              obtain ⟨x, hx, hx2⟩ := List.any_eq_true.1 hq2.2
              refine List.any_eq_true.2 ⟨x, ?_, hx2⟩
              rw [List.mem_range] at hx hq1 ⊢
              omega
          simp [hany, h66]
        · simp [e, Ne.symm e]
    · rw [if_neg h66]
      by_cases h88 : lv = 88
      · rw [if_pos h88]
        have hok : LevelOk (ls ++ [lv]) ls.length := by
          rw [levelOk_new]
          exact .inr (.inr (.inl ⟨.inr h88, by omega⟩))
        refine ⟨fun _ => ⟨_, rfl, ?_⟩, fun hno => absurd hok hno⟩
        apply stok_add h hok
        have hown : ownerOf (ls ++ [lv]) ls.length = some l := by
          rw [owner_new, htb, if_neg (by simp), if_pos h88]
          exact hl
        refine add_loose h hnm htb hown (fun i => ?_)
        rw [contents_new]
        unfold isPart
        rw [lvl_new]
        simp [h88]
      · rw [if_neg h88]
        have hr : 2 ≤ lv ∧ lv ≤ 49 := by omega
        rw [h.tree.par.2.2]
        -- the item `q` of the same level, when there is one
        have same : lvlAt ls l ≤ 49 → ∀ q, q ≤ l → lvlAt ls q = lv → (∀ k, q < k → k ≤ l → lv < lvlAt ls k) →
            lastBefore (fun k => decide (lvlAt ls k ≤ lv)) ls.length = some q ∧
            TreeOk (ls ++ [lv]) (names ++ [onm])
              (setSister st.nodes q st.nodes.length ++ [newNode lv name (nodeParent st.nodes q)]) := by
          intro hl49 q q1 q2 q3
          have hdeep : ∀ k, q < k → k < ls.length → lv < lvlAt ls k := fun k a b => by
            rcases Nat.lt_or_ge l k with e | e
            · rw [l3 k e b]; omega
            · exact q3 k a e
          refine ⟨lastBefore_some.2 ⟨by omega, by simp [q2], fun k a b => ?_⟩, ?_⟩
          · have := hdeep k a b
            simp only [decide_eq_false_iff_not]
            omega
          · have hoq : ownerOf ls q = lastBefore (fun k => decide (lvlAt ls k < lv)) q := by
              unfold ownerOf
              rw [q2, htb, if_neg (by simp), if_neg h88, if_neg h66]
            -- the record gives the owner
            obtain ⟨t, t1, t2, t3⟩ := in_record h.ok q q (Nat.le_refl _) (by omega) (by omega)
            have htq : t < q := by
              rcases Nat.lt_or_ge t q with e | e
              · exact e
              · rw [show t = q by omega] at t2
                omega
            obtain ⟨p, hp, _⟩ := lastBefore_ex (p := fun k => decide (lvlAt ls k < lv))
              (j := q) (m := t) htq (by simp only [decide_eq_true_eq]; omega)
            have hpq := lastBefore_some.1 hp
            have hown : ownerOf (ls ++ [lv]) ls.length = some p := by
              rw [owner_new, htb, if_neg (by simp), if_neg h88, if_neg h66]
              refine lastBefore_some.2 ⟨by omega, hpq.2.1, fun k a b => ?_⟩
              rcases Nat.lt_trichotomy k q with e | e | e
              · exact hpq.2.2 k a e
              · rw [e, q2]
                simp
              · have := hdeep k e b
                simp only [decide_eq_false_iff_not]
                omega
            have hnp : nodeParent st.nodes q = some p := by
              rw [h.tree.par.2.1, if_pos (by omega), hoq, hp]
            rw [hnp]
            refine add_after h hnm htb hown ?_ (con_part hown h88 h66)
            unfold contents
            refine range_filter_last (by omega) ?_ (fun k a b => ?_)
            · unfold isPart
              rw [hoq, hp, q2]
              simp [h88, h66]
            · -- nothing after `q` belongs to `p`
              have hk := hdeep k a b
              have hne : lvlAt ls k = 66 ∨ lvlAt ls k = 77 → False := by
                intro e
                rcases Nat.lt_or_ge l k with e' | e'
                · have := l3 k e' b; omega
                · obtain ⟨s, s1, s2, s3⟩ := in_record h.ok l l (Nat.le_refl _) l1 hl49
                  rcases Nat.lt_or_ge s k with e2 | e2
                  · have := s3 k e2 e'
                    omega
                  · have : lv < lvlAt ls s := hdeep s (by omega) (by omega)
                    omega
              have hpf : isPart ls p k = false := by
                unfold isPart
                by_cases ho : ownerOf ls k = some p
                · have hk2 := ho
                  unfold ownerOf at hk2
                  split at hk2
                  · cases hk2
                  · split at hk2
                    · rename_i e
                      simp [e]
                    · split at hk2
                      · rename_i e
                        simp [e]
                      · have := (lastBefore_some.1 hk2).2.2 q (by omega) a
                        simp only [decide_eq_false_iff_not] at this
                        omega
                · simp [ho]
              rw [hpf, Bool.false_or]
              simp only [Bool.and_eq_false_iff, beq_eq_false_iff_ne]
              exact .inl (.inr (fun e => hne (.inl e)))
        by_cases hlow : lv > lvlAt ls l
        · rw [if_pos hlow]
          have hok : LevelOk (ls ++ [lv]) ls.length := by
            rw [levelOk_new]
            exact .inr (.inr (.inr ⟨hr.1, hr.2, l, hl, by omega, .inl hlow⟩))
          refine ⟨fun _ => ⟨_, rfl, ?_⟩, fun hno => absurd hok hno⟩
          apply stok_add h hok
          have hown : ownerOf (ls ++ [lv]) ls.length = some l := by
            rw [owner_new, htb, if_neg (by simp), if_neg h88, if_neg h66]
            refine lastBefore_some.2 ⟨l1, by simpa using hlow, fun k a b => ?_⟩
            rw [l3 k a b]
            simp only [decide_eq_false_iff_not]
            omega
          refine add_first h hnm htb l1 hown ?_ (con_part hown h88 h66)
          rw [List.eq_nil_iff_forall_not_mem]
          intro j hj
          have hj1 := mem_contents hj
          exact hj1.2.2 (l3 j (owner_lt hj1.2.1) hj1.1)
        · rw [if_neg hlow]
          by_cases heq : lv = lvlAt ls l
          · rw [if_pos heq]
            obtain ⟨s1, s2⟩ := same (by omega) l (Nat.le_refl _) heq.symm (fun k a b => by omega)
            have hok : LevelOk (ls ++ [lv]) ls.length := by
              rw [levelOk_new]
              exact .inr (.inr (.inr ⟨hr.1, hr.2, l, hl, by omega, .inr ⟨l, s1, heq.symm⟩⟩))
            refine ⟨fun _ => ⟨_, rfl, ?_⟩, fun hno => absurd hok hno⟩
            have := stok_add h hok s2 st.filler
            rw [← h.n01] at this
            exact this
          · rw [if_neg heq]
            have huf := upper_find st.nodes lv (parentsOf st.nodes st.nodes.length l)
            cases hu : upperLoop st.nodes false lv (parentsOf st.nodes st.nodes.length l) with
            | mk a b =>
              rw [hu] at huf
              dsimp only at huf
              cases a with
              | some q =>
                dsimp only
                have hqm := List.mem_of_find?_eq_some huf.symm
                have hql := List.find?_some huf.symm
                rw [h.tree.par.2.2] at hql
                have hql : lvlAt ls q = lv := by simpa using hql
                have hl49 : lvlAt ls l ≤ 49 := by
                  rcases Nat.lt_or_ge 49 (lvlAt ls l) with e | e
                  · exfalso
                    have hlok := h.ok l l1
                    have h66 : lvlAt ls l = 66 ∨ lvlAt ls l = 77 := by
                      unfold LevelOk at hlok
                      dsimp only at hlok
                      omega
                    rw [len] at hqm
                    obtain ⟨n, hn⟩ : ∃ n, ls.length = n + 1 := ⟨ls.length - 1, by omega⟩
                    rw [hn, parents_succ, h.tree.par.2.1, if_pos l1] at hqm
                    unfold ownerOf at hqm
                    rcases h66 with e66 | e77
                    · rw [e66, if_neg (by decide), if_neg (by decide), if_pos rfl] at hqm
                      cases hlb : lastBefore (fun k => isTop (lvlAt ls k)) l with
                      | none => rw [hlb] at hqm; cases hqm
                      | some t =>
                        rw [hlb] at hqm
                        obtain ⟨t1, t2, _⟩ := lastBefore_some.1 hlb
                        rcases List.mem_cons.1 hqm with e | hqm
                        · subst e
                          rw [hql, htb] at t2
                          cases t2
                        · cases n with
                          | zero => cases hqm
                          | succ n =>
                            rw [parents_succ, h.tree.par.2.1, if_pos (by omega), owner_top t2] at hqm
                            cases hqm
                    · rw [e77, if_pos (by decide)] at hqm
                      cases hqm
                  · exact e
                obtain ⟨c1, c2⟩ := chain_above h.tree.par _ l l1 hl49 q hqm
                obtain ⟨s1, s2⟩ := same hl49 q (by omega) hql (fun k a b => by rw [← hql]; exact c2 k a b)
                have hok : LevelOk (ls ++ [lv]) ls.length := by
                  rw [levelOk_new]
                  exact .inr (.inr (.inr ⟨hr.1, hr.2, l, hl, hl49, .inr ⟨q, s1, hql⟩⟩))
                refine ⟨fun _ => ⟨_, rfl, ?_⟩, fun hno => absurd hok hno⟩
                have := stok_add h hok s2 st.filler
                rw [← h.n01] at this
                exact this
              | none =>
                dsimp only
                rw [if_neg (by simp)]
                refine ⟨fun hok => ?_, fun _ => rfl⟩
                exfalso
                rw [levelOk_new] at hok
                rcases hok with e | e | e | ⟨_, _, k, hk, hk49, hk2⟩
                · omega
                · omega
                · omega
                · rw [hl] at hk
                  have hkl := Option.some.inj hk
                  subst hkl
                  rcases hk2 with e | ⟨m, hm, hm2⟩
                  · omega
                  · obtain ⟨m1, m2, m3⟩ := lastBefore_some.1 hm
                    have hml : m < l := by
                      rcases Nat.lt_trichotomy m l with e | e | e
                      · exact e
                      · rw [e] at hm2; omega
                      · have := l3 m e m1; omega
                    have hmem := chain_mem h.tree.par st.nodes.length l m (by omega) l1 hk49 hml (by omega)
                      (fun k a b => by
                        have := m3 k a (by omega)
                        simp only [decide_eq_false_iff_not] at this
                        omega)
                    have := List.find?_eq_none.1 huf.symm m hmem
                    rw [h.tree.par.2.2] at this
                    simp [hm2] at this

end Cob
