import Verif.Cobc.ConfLines
/-
C87: configuration files - the theorems.
-/
namespace Cob.Conf

/-! ### What the items leave -/

/-- The state behind the items: nothing was said, the words were taken out, every setting has the value said last or is unchanged;
`assign_external` may have got its default if it had no value. -/
structure After (is : List Item) (s s' : St) : Prop where
  msgs : s'.msgs = s.msgs
  nores : s'.nores = (words is).reverse ++ s.nores
  last : ∀ e ∈ settings, ∀ v, lastSet is e.name = some v → s'.vals e.name = some v ∧ s'.isSet e.name = true
  other : ∀ e ∈ settings, lastSet is e.name = none →
    (s'.vals e.name = s.vals e.name ∧ s'.isSet e.name = s.isSet e.name) ∨
    (e.name = sAssignExternal ∧ s.isSet e.name = false ∧ s'.isSet e.name = true ∧ s'.vals e.name = some (.int 0))

theorem lastSet_append (a b : List Item) (t : List Nat) : lastSet (a ++ b) t = (lastSet b t).or (lastSet a t) := by
  unfold lastSet
  rw [List.reverse_append, List.findSome?_append]

theorem words_append (a b : List Item) : words (a ++ b) = words a ++ words b := by
  unfold words
  rw [List.filterMap_append]

theorem After.refl (s : St) : After [] s s := ⟨rfl, rfl, fun _ _ v h => (by cases h), fun _ _ _ => Or.inl ⟨rfl, rfl⟩⟩

theorem After.trans {a b : List Item} {s s1 s2 : St} (h1 : After a s s1) (h2 : After b s1 s2) : After (a ++ b) s s2 := by
  refine ⟨h2.msgs.trans h1.msgs, ?_, ?_, ?_⟩
  · rw [h2.nores, h1.nores, words_append, List.reverse_append, List.append_assoc]
  · intro e he v hv
    rw [lastSet_append] at hv
    cases hb : lastSet b e.name with
    | some v' =>
      rw [hb] at hv
      simp only [Option.some_or, Option.some.injEq] at hv
      subst hv
      exact h2.last e he _ hb
    | none =>
      rw [hb] at hv
      simp only [Option.none_or] at hv
      obtain ⟨x1, x2⟩ := h1.last e he v hv
      rcases h2.other e he hb with ⟨y1, y2⟩ | ⟨y1, y2, _, _⟩
      · rw [y1, y2]; exact ⟨x1, x2⟩
      · rw [x2] at y2; cases y2
  · intro e he hv
    rw [lastSet_append] at hv
    cases hb : lastSet b e.name with
    | some v' => rw [hb] at hv; cases hv
    | none =>
      rw [hb] at hv
      simp only [Option.none_or] at hv
      rcases h1.other e he hv with ⟨x1, x2⟩ | ⟨x1, x2, x3, x4⟩
      · rcases h2.other e he hb with ⟨y1, y2⟩ | ⟨y1, y2, y3, y4⟩
        · left; exact ⟨y1.trans x1, y2.trans x2⟩
        · right; exact ⟨y1, by rw [← x2]; exact y2, y3, y4⟩
      · rcases h2.other e he hb with ⟨y1, y2⟩ | ⟨y1, y2, y3, y4⟩
        · right; exact ⟨x1, x2, by rw [y2]; exact x3, by rw [y1]; exact x4⟩
        · rw [x3] at y2; cases y2

theorem settings_unique : ∀ e ∈ settings, ∀ e' ∈ settings, e.name = e'.name → e = e' := by decide +kernel

theorem after_set (s : St) (e : Entry) (v : Val) :
    After [.set e.name v] s { s with isSet := put s.isSet e.name true, vals := put s.vals e.name (some v) } := by
  refine ⟨rfl, rfl, ?_, ?_⟩
  · intro e' _ v' hv
    simp only [lastSet, List.reverse_singleton, List.findSome?_singleton] at hv
    split at hv
    · rename_i h
      cases hv
      simp [put, ← h]
    · cases hv
  · intro e' _ hv
    simp only [lastSet, List.reverse_singleton, List.findSome?_singleton] at hv
    split at hv
    · cases hv
    · rename_i h
      left
      simp only [put]
      rw [if_neg (fun h' => h h'.symm), if_neg (fun h' => h h'.symm)]
      exact ⟨rfl, rfl⟩

theorem after_word (s : St) (w : List Nat) :
    After [.word w] s { s with isSet := put s.isSet sNotReserved true, nores := w :: s.nores } := by
  refine ⟨rfl, rfl, ?_, ?_⟩
  · intro e _ v hv
    simp [lastSet] at hv
  · intro e he _
    left
    refine ⟨rfl, ?_⟩
    simp only [put]
    rw [if_neg (settings_other e he).2]

theorem after_include_mark (s : St) : After [] s { s with isSet := put s.isSet sInclude true } := by
  refine ⟨rfl, rfl, fun e _ v hv => by simp [lastSet] at hv, ?_⟩
  intro e he _
  left
  refine ⟨rfl, ?_⟩
  simp only [put]
  rw [if_neg (settings_other e he).1]

theorem after_external (s : St) : After [] s (defaultExternal s) := by
  unfold defaultExternal
  split
  · exact After.refl s
  · rename_i h
    refine ⟨rfl, rfl, fun e _ v hv => by simp [lastSet] at hv, ?_⟩
    intro e _ _
    by_cases hn : e.name = sAssignExternal
    · right
      refine ⟨hn, ?_, ?_, ?_⟩
      · rw [hn]; simpa using h
      · simp [put, hn]
      · simp [put, hn]
    · left
      simp [put, hn]

/-! ### Files that read well -/

theorem reads_run (w : Files) (d : Nat) (ls : List (List Nat)) (is : List Item) (h : Reads w d ls is) :
    ∀ (file : List Nat) (n : Nat) (s : St) (ok : Bool), (∀ l ∈ ls, 0 ∉ l) →
      ∃ s', doLines (fun f s => loadConf w d f false true s) file n ls s ok = .next s' ok ∧ After is s s' := by
  induction h with
  | nil d => intro file n s ok _; exact ⟨s, rfl, After.refl s⟩
  | skip d l r is hs _ ih =>
    intro file n s ok h0
    obtain ⟨s', h1, h2⟩ := ih file (n + 1) s ok (fun x hx => h0 x (by simp [hx]))
    refine ⟨s', ?_, h2⟩
    rw [doLines, doLine_skip _ _ _ _ _ _ (h0 l (by simp)) hs]
    exact h1
  | set d l t e v r is he hs hm _ ih =>
    intro file n s ok h0
    obtain ⟨s', h1, h2⟩ := ih file (n + 1) { s with isSet := put s.isSet e.name true, vals := put s.vals e.name (some v) } ok
      (fun x hx => h0 x (by simp [hx]))
    refine ⟨s', ?_, (after_set s e v).trans h2⟩
    rw [doLines, doLine_split _ _ _ _ _ _ (h0 l (by simp)) e (by simp [configTable, he]) t hs]
    unfold effect
    dsimp only
    rw [if_neg (settings_other e he).1, if_neg (settings_other e he).2, parse_means e t v hm]
    simpa [assign] using h1
  | word d l t q r is hs hq _ ih =>
    intro file n s ok h0
    obtain ⟨s', h1, h2⟩ := ih file (n + 1) { s with isSet := put s.isSet sNotReserved true, nores := q :: s.nores } ok
      (fun x hx => h0 x (by simp [hx]))
    refine ⟨s', ?_, (after_word s q).trans h2⟩
    rw [doLines, doLine_split _ _ _ _ _ _ (h0 l (by simp)) ⟨sNotReserved, .str⟩ (by simp [configTable]) t hs]
    unfold effect
    dsimp only
    rw [if_neg include_ne, if_pos rfl, readString_twice, readString_quoted t q hq]
    exact h1
  | incl d l t f b ls r is is' hs hq hr ht _ _ ih ih' =>
    intro file n s ok h0
    obtain ⟨s1, h1, h2⟩ := ih f 1 { s with isSet := put s.isSet sInclude true } true (text_no_nul b ls ht)
    obtain ⟨s2, h3, h4⟩ := ih' file (n + 1) (defaultExternal s1) ok (fun x hx => h0 x (by simp [hx]))
    refine ⟨s2, ?_, ?_⟩
    · rw [doLines, doLine_split _ _ _ _ _ _ (h0 l (by simp)) ⟨sInclude, .str⟩ (by simp [configTable]) t hs]
      unfold effect
      dsimp only
      rw [if_pos rfl, readString_quoted t f hq, loadConf]
      dsimp only
      rw [show path w true f = (w.dir ++ [47] ++ f).take 1022 from rfl, hr]
      dsimp only
      rw [fgets_text b ls ht]
      simp only [Bool.false_eq_true, if_false]
      rw [h1]
      dsimp only
      exact h3
    · have := ((after_include_mark s).trans h2).trans (after_external s1)
      simp only [List.nil_append, List.append_nil] at this
      exact this.trans h4

/-- **C87**: a configuration file that reads well, with its includes, and has a line for every setting (`assign_external` may be without) is accepted
without a message; every setting has the value that was said last, `assign_external` without a line is "no", and the words of the `not-reserved` lines
are taken out in addition to those before. -/
theorem C87_load (w : Files) (d : Nat) (file b : List Nat) (prefixDir : Bool) (ls : List (List Nat)) (is : List Item) (s : St)
    (hr : w.read (if prefixDir then (w.dir ++ [47] ++ file).take 1022 else file) = some b) (ht : IsText b ls) (hi : Reads w d ls is)
    (hall : ∀ e ∈ settings, e.name = sAssignExternal ∨ lastSet is e.name ≠ none) :
    (loadConf w (d + 1) file true prefixDir s).2 = true ∧ (loadConf w (d + 1) file true prefixDir s).1.msgs = s.msgs ∧
    (∀ e ∈ settings, (loadConf w (d + 1) file true prefixDir s).1.vals e.name = some ((lastSet is e.name).getD (.int 0))) ∧
    (loadConf w (d + 1) file true prefixDir s).1.nores = (words is).reverse ++ s.nores := by
  obtain ⟨s1, h1, h2⟩ := reads_run w d ls is hi file 1 { s with isSet := fun _ => false } true (text_no_nul b ls ht)
  have h3 := h2.trans (after_external s1)
  rw [List.append_nil] at h3
  have hset : ∀ e ∈ settings, (defaultExternal s1).isSet e.name = true ∧
      (defaultExternal s1).vals e.name = some ((lastSet is e.name).getD (.int 0)) := by
    intro e he
    cases hl : lastSet is e.name with
    | some v => exact ⟨(h3.last e he v hl).2, (h3.last e he v hl).1⟩
    | none =>
      rcases hall e he with hn | hn
      · rcases h3.other e he hl with ⟨_, x2⟩ | ⟨_, _, x3, x4⟩
        · exfalso
          have : (defaultExternal s1).isSet sAssignExternal = true := by
            unfold defaultExternal
            split
            · assumption
            · simp [put]
          rw [hn] at x2
          rw [x2] at this
          cases this
        · exact ⟨x3, x4⟩
      · exact absurd hl hn
  have hm : undefinedMsgs (defaultExternal s1) file = [] := by
    unfold undefinedMsgs
    rw [List.map_eq_nil_iff, List.filter_eq_nil_iff]
    intro e he
    simp [(hset e he).1]
  have hl : loadConf w (d + 1) file true prefixDir s = (defaultExternal s1, true) := by
    rw [loadConf]
    dsimp only
    rw [show path w prefixDir file = (if prefixDir then (w.dir ++ [47] ++ file).take 1022 else file) from rfl, hr]
    dsimp only
    rw [fgets_text b ls ht]
    simp only [if_true]
    rw [h1]
    dsimp only
    rw [hm]
    simp
  rw [hl]
  exact ⟨rfl, h3.msgs, fun e he => (hset e he).2, h3.nores⟩

/-! ### Files that do not -/

theorem run_reads (w : Files) (hw : ∀ p b, w.read p = some b → ∃ ls, IsText b ls) (d : Nat) :
    ∀ (ls : List (List Nat)) (file : List Nat) (n : Nat) (s s' : St) (ok : Bool), (∀ l ∈ ls, 0 ∉ l) →
      doLines (fun f s => loadConf w d f false true s) file n ls s ok = .next s' true → ok = true ∧ ∃ is, Reads w d ls is := by
  induction d with
  | zero =>
    intro ls
    induction ls with
    | nil => intro file n s s' ok _ h; cases h; exact ⟨rfl, [], .nil 0⟩
    | cons l r ih =>
      intro file n s s' ok h0 h
      rw [doLines] at h
      have hl := h0 l (by simp)
      have hr := fun x hx => h0 x (List.mem_cons_of_mem l hx)
      rcases doLine_cases (fun f s => loadConf w 0 f false true s) file n l s ok hl with ⟨hs, hd⟩ | ⟨k, hd⟩ | ⟨e, he, val, hs, hd⟩
      · rw [hd] at h
        obtain ⟨h1, is, h2⟩ := ih _ _ _ _ _ hr h
        exact ⟨h1, is, .skip 0 l r is hs h2⟩
      · rw [hd] at h
        have := (ih _ _ _ _ _ hr h).1
        cases this
      · rw [hd] at h
        unfold effect at h
        dsimp only at h
        by_cases hn : e.name = sInclude
        · rw [if_pos hn] at h
          simp only [loadConf] at h
          cases h
        · rw [if_neg hn] at h
          by_cases hq : e.name = sNotReserved
          · rw [if_pos hq] at h
            obtain ⟨h1, is, h2⟩ := ih _ _ _ _ _ hr h
            rw [hq] at hs
            exact ⟨h1, _, .word 0 l val _ r is hs (quoted_readString val) h2⟩
          · rw [if_neg hq] at h
            obtain ⟨h1, is, h2⟩ := ih _ _ _ _ _ hr h
            have hes : e ∈ settings := by
              simp only [configTable, List.mem_cons] at he
              rcases he with rfl | rfl | he
              · exact absurd rfl hn
              · exact absurd rfl hq
              · exact he
            simp only [Bool.and_eq_true, decide_eq_true_eq] at h1
            obtain ⟨v, hv⟩ := means_parse e hes val h1.2
            exact ⟨h1.1, _, .set 0 l val e v r is hes hs hv h2⟩
  | succ d ihd =>
    intro ls
    induction ls with
    | nil => intro file n s s' ok _ h; cases h; exact ⟨rfl, [], .nil _⟩
    | cons l r ih =>
      intro file n s s' ok h0 h
      rw [doLines] at h
      have hl := h0 l (by simp)
      have hr := fun x hx => h0 x (List.mem_cons_of_mem l hx)
      rcases doLine_cases (fun f s => loadConf w (d + 1) f false true s) file n l s ok hl with ⟨hs, hd⟩ | ⟨k, hd⟩ | ⟨e, he, val, hs, hd⟩
      · rw [hd] at h
        obtain ⟨h1, is, h2⟩ := ih _ _ _ _ _ hr h
        exact ⟨h1, is, .skip _ l r is hs h2⟩
      · rw [hd] at h
        have := (ih _ _ _ _ _ hr h).1
        cases this
      · rw [hd] at h
        unfold effect at h
        dsimp only at h
        by_cases hn : e.name = sInclude
        · rw [if_pos hn] at h
          rw [hn] at hs
          generalize hc : loadConf w (d + 1) (readString val) false true { s with isSet := put s.isSet e.name true } = res at h
          obtain ⟨s1, b⟩ := res
          cases b with
          | false => cases h
          | true =>
            dsimp only at h
            obtain ⟨h1, is', h2⟩ := ih _ _ _ _ _ hr h
            rw [loadConf] at hc
            dsimp only at hc
            rw [show path w true (readString val) = (w.dir ++ [47] ++ readString val).take 1022 from rfl] at hc
            cases hrd : w.read ((w.dir ++ [47] ++ readString val).take 1022) with
            | none => rw [hrd] at hc; simp at hc
            | some b =>
              rw [hrd] at hc
              obtain ⟨ls', ht⟩ := hw _ _ hrd
              dsimp only at hc
              rw [fgets_text b ls' ht] at hc
              simp only [Bool.false_eq_true, if_false] at hc
              generalize hrun : doLines (fun f s => loadConf w d f false true s) (readString val) 1 ls'
                { s with isSet := put s.isSet e.name true } true = out at hc
              cases out with
              | stop s2 => simp at hc
              | next s2 ok2 =>
                simp only [Prod.mk.injEq] at hc
                obtain ⟨_, rfl⟩ := hc
                obtain ⟨_, is, h3⟩ := ihd _ _ _ _ _ _ (text_no_nul b ls' ht) hrun
                exact ⟨h1, _, .incl d l val _ b ls' r is is' hs (quoted_readString val) hrd ht h3 h2⟩
        · rw [if_neg hn] at h
          by_cases hq : e.name = sNotReserved
          · rw [if_pos hq] at h
            obtain ⟨h1, is, h2⟩ := ih _ _ _ _ _ hr h
            rw [hq] at hs
            exact ⟨h1, _, .word _ l val _ r is hs (quoted_readString val) h2⟩
          · rw [if_neg hq] at h
            obtain ⟨h1, is, h2⟩ := ih _ _ _ _ _ hr h
            have hes : e ∈ settings := by
              simp only [configTable, List.mem_cons] at he
              rcases he with rfl | rfl | he
              · exact absurd rfl hn
              · exact absurd rfl hq
              · exact he
            simp only [Bool.and_eq_true, decide_eq_true_eq] at h1
            obtain ⟨v, hv⟩ := means_parse e hes val h1.2
            exact ⟨h1.1, _, .set _ l val e v r is hes hs hv h2⟩

/-- **C87, nothing else is accepted**: if the files are texts, a configuration is accepted only if the file exists, reads well with all its includes, and
has a line for every setting but `assign_external`.  Together with `C87_load`: the settings of an accepted configuration are never a guess. -/
theorem C87_accepted (w : Files) (hw : ∀ p b, w.read p = some b → ∃ ls, IsText b ls) (d : Nat) (file : List Nat) (prefixDir : Bool) (s : St)
    (h : (loadConf w (d + 1) file true prefixDir s).2 = true) :
    ∃ b ls is, w.read (if prefixDir then (w.dir ++ [47] ++ file).take 1022 else file) = some b ∧ IsText b ls ∧ Reads w d ls is ∧
      ∀ e ∈ settings, e.name = sAssignExternal ∨ lastSet is e.name ≠ none := by
  rw [loadConf] at h
  dsimp only at h
  rw [show path w prefixDir file = (if prefixDir then (w.dir ++ [47] ++ file).take 1022 else file) from rfl] at h
  cases hrd : w.read (if prefixDir then (w.dir ++ [47] ++ file).take 1022 else file) with
  | none => rw [hrd] at h; simp at h
  | some b =>
    rw [hrd] at h
    obtain ⟨ls, ht⟩ := hw _ _ hrd
    dsimp only at h
    rw [fgets_text b ls ht] at h
    simp only [if_true] at h
    generalize hrun : doLines (fun f s => loadConf w d f false true s) file 1 ls { s with isSet := fun _ => false } true = out at h
    cases out with
    | stop s1 => simp at h
    | next s1 ok =>
      simp only [Bool.and_eq_true] at h
      obtain ⟨rfl, hm⟩ := h
      obtain ⟨_, is, hi⟩ := run_reads w hw d _ _ _ _ _ _ (text_no_nul b ls ht) hrun
      refine ⟨b, ls, is, rfl, ht, hi, ?_⟩
      intro e he
      by_cases hn : e.name = sAssignExternal
      · exact Or.inl hn
      · right
        intro hl
        obtain ⟨s2, h1, h2⟩ := reads_run w d ls is hi file 1 { s with isSet := fun _ => false } true (text_no_nul b ls ht)
        rw [hrun] at h1
        cases h1
        have h3 := h2.trans (after_external s1)
        rw [List.append_nil] at h3
        rcases h3.other e he hl with ⟨_, x⟩ | ⟨x, _⟩
        · unfold undefinedMsgs at hm
          rw [List.isEmpty_iff, List.map_eq_nil_iff, List.filter_eq_nil_iff] at hm
          have := hm e he
          rw [x] at this
          exact this rfl
        · exact hn x

/-! ### Messages -/

/-- The messages of a step: one at least if it ends the reading or spoils the result. -/
def Says (s : St) (ok : Bool) : Step → Prop
  | .next s' ok' => ∃ m, s'.msgs = s.msgs ++ m ∧ (ok' = true ↔ ok = true ∧ m = [])
  | .stop s' => ∃ m, s'.msgs = s.msgs ++ m ∧ m ≠ []

theorem run_msgs (inc : List Nat → St → St × Bool)
    (hinc : ∀ f s, ∃ m, (inc f s).1.msgs = s.msgs ++ m ∧ ((inc f s).2 = true ↔ m = [])) (file : List Nat) :
    ∀ (ls : List (List Nat)) (n : Nat) (s : St) (ok : Bool), Says s ok (doLines inc file n ls s ok) := by
  intro ls
  induction ls with
  | nil => intro n s ok; exact ⟨[], by simp, by simp⟩
  | cons l r ih =>
    intro n s ok
    rw [doLines]
    have hstep : Says s ok (doLine inc file n l s ok) := by
      unfold doLine
      dsimp only
      split
      · exact ⟨[], by simp, by simp⟩
      · split
        · exact ⟨[], by simp, by simp⟩
        · split
          · exact ⟨_, rfl, by simp⟩
          · split
            · exact ⟨_, rfl, by simp⟩
            · rename_i e _
              split
              · obtain ⟨m, h1, h2⟩ := hinc (readString (valueOf ((List.dropWhile (fun c => !isSep c) (List.takeWhile (fun x => decide (x ≠ 0)) l)).drop 1)))
                  { s with isSet := put s.isSet e.name true }
                split
                · rename_i s1 heq
                  rw [heq] at h1 h2
                  exact ⟨m, h1, by simp [h2.mp rfl]⟩
                · rename_i s1 heq
                  rw [heq] at h1 h2
                  exact ⟨m, h1, fun h => by have := h2.mpr h; cases this⟩
              · split
                · exact ⟨[], by simp, by simp⟩
                · unfold assign
                  dsimp only
                  generalize parse e (valueOf ((List.dropWhile (fun c => !isSep c) (List.takeWhile (fun x => decide (x ≠ 0)) l)).drop 1)) = p
                  obtain ⟨v, k⟩ := p
                  cases k with
                  | none => cases v <;> exact ⟨[], by simp, by simp⟩
                  | some k => cases v <;> exact ⟨_, rfl, by simp⟩
    generalize doLine inc file n l s ok = out at hstep
    cases out with
    | stop s1 => exact hstep
    | next s1 ok1 =>
      dsimp only
      obtain ⟨m, h1, h2⟩ := hstep
      have := ih (n + 1) s1 ok1
      generalize doLines inc file (n + 1) r s1 ok1 = out at this
      cases out with
      | stop s2 =>
        obtain ⟨m', h3, h4⟩ := this
        exact ⟨m ++ m', by rw [h3, h1, List.append_assoc], by simp [h4]⟩
      | next s2 ok2 =>
        obtain ⟨m', h3, h4⟩ := this
        refine ⟨m ++ m', by rw [h3, h1, List.append_assoc], ?_⟩
        rw [h4, h2, List.append_eq_nil_iff, and_assoc]

/-- **C87, messages**: a configuration is refused exactly if there is a message about it - whatever the files hold. -/
theorem C87_message (w : Files) (d : Nat) : ∀ (file : List Nat) (checkNodef prefixDir : Bool) (s : St),
    ∃ m, (loadConf w d file checkNodef prefixDir s).1.msgs = s.msgs ++ m ∧ ((loadConf w d file checkNodef prefixDir s).2 = true ↔ m = []) := by
  induction d with
  | zero => intro file c p s; exact ⟨_, rfl, by simp [loadConf]⟩
  | succ d ih =>
    intro file c p s
    rw [loadConf]
    dsimp only
    have hs : (if c then { s with isSet := fun _ => false } else s).msgs = s.msgs := by split <;> rfl
    cases w.read (path w p file) with
    | none => exact ⟨_, by dsimp only [St.say]; rw [hs], by simp⟩
    | some b =>
      dsimp only
      have := run_msgs (fun f s => loadConf w d f false true s) (fun f s => ih f false true s) file (fgets b) 1
        (if c then { s with isSet := fun _ => false } else s) true
      generalize doLines (fun f s => loadConf w d f false true s) file 1 (fgets b) (if c then { s with isSet := fun _ => false } else s) true = out
        at this
      cases out with
      | stop s1 =>
        obtain ⟨m, h1, h2⟩ := this
        rw [hs] at h1
        exact ⟨m, h1, by simp [h2]⟩
      | next s1 ok =>
        obtain ⟨m, h1, h2⟩ := this
        rw [hs] at h1
        have hd : (defaultExternal s1).msgs = s1.msgs := by unfold defaultExternal; split <;> rfl
        dsimp only
        cases c with
        | true =>
          simp only [if_true]
          refine ⟨m ++ undefinedMsgs (defaultExternal s1) file, by rw [hd, h1, List.append_assoc], ?_⟩
          simp only [Bool.and_eq_true, h2, List.isEmpty_iff, List.append_eq_nil_iff, true_and]
        | false =>
          simp only [Bool.false_eq_true, if_false]
          exact ⟨m, by rw [hd, h1], by simpa using h2⟩

/-! ### Examples -/

/-- A line for a setting: a value that fits its type. -/
def sampleLine (e : Entry) : List Nat :=
  e.name ++ str ": " ++ (match e.ty with
    | .any => if e.name = str "assign-clause" then str "ibm" else if e.name = str "binary-size" then str "1--8"
      else if e.name = str "binary-byteorder" then str "native" else if e.name = str "abort-on-io-exception" then str "never" else str "line-sequential"
    | .int => str "8" | .str => str "\"Sample\"" | .chr => str "$" | .bool => str "yes" | .support => str "ok") ++ [10]

/-- base.conf has a line for every setting, mine.conf includes it and says otherwise for some. -/
def sample : Files where
  dir := str "/etc"
  read p :=
    if p = str "/etc/base.conf" then some (settings.flatMap sampleLine)
    else if p = str "mine.conf" then some (str "# mine\ninclude \"base.conf\"\n\ntab-width =\t4\r\nassign_external: no\nnot-reserved: CYCLE\n")
    else none

example : ((loadConf sample 2 (str "mine.conf") true false {}).2 = true ∧
    (loadConf sample 2 (str "mine.conf") true false {}).1.vals (str "tab-width") = some (.int 4) ∧
    (loadConf sample 2 (str "mine.conf") true false {}).1.vals (str "text-column") = some (.int 8) ∧
    (loadConf sample 2 (str "mine.conf") true false {}).1.vals (str "binary-size") = some (.choice "CB_BINARY_SIZE_1__8") ∧
    (loadConf sample 2 (str "mine.conf") true false {}).1.vals sAssignExternal = some (.int 0) ∧
    (loadConf sample 2 (str "mine.conf") true false {}).1.nores = [str "CYCLE"]) := by decide +kernel

theorem isText_lines (ls : List (List Nat)) (h : ∀ l ∈ ls, 10 ∉ l ∧ 0 ∉ l ∧ l.length ≤ 1022) :
    IsText (ls.flatMap (· ++ [10])) (ls.map (· ++ [10])) := by
  induction ls with
  | nil => exact .nil
  | cons l r ih =>
    have hl := h l (by simp)
    exact .line l _ _ hl.1 hl.2.1 hl.2.2 (ih fun x hx => h x (by simp [hx]))

/-- The hypotheses of `C87_load` are met by this sample, and those of `C87_accepted`. -/
example : ∃ b ls is, sample.read (str "mine.conf") = some b ∧ IsText b ls ∧ Reads sample 1 ls is ∧
    ∀ e ∈ settings, e.name = sAssignExternal ∨ lastSet is e.name ≠ none := by
  have hb : settings.flatMap sampleLine = (settings.map fun e => (sampleLine e).dropLast).flatMap (· ++ [10]) := by decide +kernel
  have hm : str "# mine\ninclude \"base.conf\"\n\ntab-width =\t4\r\nassign_external: no\nnot-reserved: CYCLE\n" =
      [str "# mine", str "include \"base.conf\"", [], str "tab-width =\t4\r", str "assign_external: no", str "not-reserved: CYCLE"].flatMap (· ++ [10]) := by
    decide +kernel
  refine C87_accepted sample ?_ 1 (str "mine.conf") false {} (by decide +kernel)
  intro p b hp
  unfold sample at hp
  dsimp only at hp
  split at hp
  · cases hp
    rw [hb]
    exact ⟨_, isText_lines _ (by decide +kernel)⟩
  · split at hp
    · cases hp
      rw [hm]
      exact ⟨_, isText_lines _ (by decide +kernel)⟩
    · cases hp

/-- only one file can be opened -/
example : (loadConf sample 1 (str "mine.conf") true false {}).2 = false := by decide +kernel

/-! ### Findings -/

/-- One file of these characters, where all settings have a value already. -/
def one (t : String) : Files := ⟨[], fun _ => some (str t)⟩

/-- Finding: a number without digits is accepted and is 0: `tab-width:` makes the compiler divide by zero at the first tab
(/repo/cobc/pplex.l:974). -/
theorem C87_finding_empty_number : (loadConf (one "tab-width:\n") 1 [] false false {}).2 = true ∧
    (loadConf (one "tab-width:\n") 1 [] false false {}).1.vals (str "tab-width") = some (.int 0) := by decide +kernel

/-- Finding: a number of more than 32 bits is accepted and changed. -/
theorem C87_finding_number_cut : (loadConf (one "tab-width: 4294967304\n") 1 [] false false {}).2 = true ∧
    (loadConf (one "tab-width: 4294967304\n") 1 [] false false {}).1.vals (str "tab-width") = some (.int 8) := by decide +kernel

/-- Finding: a comment behind a value is part of the value. -/
theorem C87_finding_comment : (loadConf (one "binary-truncate: yes # as usual\n") 1 [] false false {}).1.msgs = [⟨[], 1, .invalidValue⟩] ∧
    (loadConf (one "not-reserved: CYCLE # mine\n") 1 [] false false {}).1.nores = [str "CYCLE # mine"] := by decide +kernel

/-- Finding: a tag behind a blank is not found. -/
theorem C87_finding_indented : (loadConf (one " tab-width: 8\n") 1 [] false false {}).1.msgs = [⟨[], 1, .unknownTag⟩] := by decide +kernel

/-- Finding: what stands behind the first 1023 bytes of a line, even of a comment, is read as a line of its own. -/
theorem C87_finding_long_comment :
    (loadConf ⟨[], fun _ => some (List.replicate 1023 35 ++ str "tab-width: 3\n")⟩ 1 [] false false {}).1.vals (str "tab-width") = some (.int 3) := by
  decide +kernel

/-- Finding: a file that includes itself is not noticed; it is read again and again until no file can be opened any more, however many can. -/
theorem C87_finding_includes_itself (d : Nat) (file : List Nat) (s : St) : (loadConf (one "include \"a.conf\"\n") d file false true s).2 = false ∧
    ∃ m, (loadConf (one "include \"a.conf\"\n") d file false true s).1.msgs = s.msgs ++ m ∧ ∀ x ∈ m, x.kind = .cannotOpen := by
  have hlines : fgets (str "include \"a.conf\"\n") = [str "include \"a.conf\"\n"] := by decide +kernel
  induction d generalizing file s with
  | zero => exact ⟨rfl, _, rfl, by simp⟩
  | succ d ih =>
    obtain ⟨h1, m, h2, h3⟩ := ih (str "a.conf") { s with isSet := put s.isSet sInclude true }
    have hrd : ∀ p, (one "include \"a.conf\"\n").read p = some (str "include \"a.conf\"\n") := fun _ => rfl
    have hstep : doLine (fun f s => loadConf (one "include \"a.conf\"\n") d f false true s) file 1 (str "include \"a.conf\"\n") s true =
        .stop (loadConf (one "include \"a.conf\"\n") d (str "a.conf") false true { s with isSet := put s.isSet sInclude true }).1 := by
      rw [doLine_split _ _ _ _ _ _ (by decide +kernel) ⟨sInclude, .str⟩ (by simp [configTable]) (str "\"a.conf\"")
        ⟨[32], [10], by decide +kernel, by unfold Sep; decide +kernel, by simp, by simp [Sep], by simp [White],
          by intro c hc; rw [show (str "\"a.conf\"").head? = some 34 by decide +kernel] at hc; cases hc; simp [Sep],
          by intro c hc; rw [show (str "\"a.conf\"").getLast? = some 34 by decide +kernel] at hc; cases hc; simp [White]⟩]
      unfold effect
      dsimp only
      rw [if_pos rfl, show readString (str "\"a.conf\"") = str "a.conf" by decide +kernel]
      generalize loadConf (one "include \"a.conf\"\n") d (str "a.conf") false true { s with isSet := put s.isSet sInclude true } = out at h1
      obtain ⟨o, b⟩ := out
      dsimp only at h1
      subst h1
      rfl
    rw [loadConf]
    simp only [Bool.false_eq_true, if_false, hrd, hlines, doLines, hstep]
    exact ⟨trivial, m, h2, h3⟩

end Cob.Conf
