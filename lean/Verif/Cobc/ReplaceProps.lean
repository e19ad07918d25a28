import Verif.Cobc.ReplaceSpec
/-
C64: COPY REPLACING and REPLACE.
-/
namespace Cob

/-! ### Lemmas -/

theorem wordsOf_append (a b : List Tok) : wordsOf (a ++ b) = wordsOf a ++ wordsOf b := by simp [wordsOf]

theorem wordsOf_sep {t : Tok} (h : t.isSep = true) (ts : List Tok) : wordsOf (t :: ts) = wordsOf ts := by
  simp [wordsOf, h]

theorem wordsOf_word {t : Tok} (h : t.isSep = false) (ts : List Tok) : wordsOf (t :: ts) = t :: wordsOf ts := by
  simp [wordsOf, h]

theorem split_seps (q : List Tok) : q = takeSeps q ++ dropSeps q := by
  induction q with
  | nil => rfl
  | cons t q ih =>
    cases h : t.isSep
    · simp [takeSeps, dropSeps, h]
    · simp only [takeSeps, dropSeps, h, if_true, List.cons_append, ← ih]

theorem takeSeps_sep (q : List Tok) : ∀ t ∈ takeSeps q, t.isSep = true := by
  induction q with
  | nil => simp [takeSeps]
  | cons t q ih =>
    cases h : t.isSep
    · simp [takeSeps, h]
    · simpa [takeSeps, h] using ih

theorem wordsOf_seps {s : List Tok} (h : ∀ t ∈ s, t.isSep = true) : wordsOf s = [] := by
  simp [wordsOf, List.filter_eq_nil_iff]
  exact h

theorem wordsOf_dropSeps (q : List Tok) : wordsOf (dropSeps q) = wordsOf q := by
  conv => rhs; rw [split_seps q]
  rw [wordsOf_append, wordsOf_seps (takeSeps_sep q), List.nil_append]

theorem dropSeps_word {q : List Tok} {w : Tok} {q' : List Tok} (h : dropSeps q = w :: q') : w.isSep = false := by
  induction q with
  | nil => simp [dropSeps] at h
  | cons t q ih =>
    cases ht : t.isSep
    · simp only [dropSeps, ht] at h
      simp only [Bool.false_eq_true, if_false, List.cons.injEq] at h
      rw [← h.1]; exact ht
    · simp only [dropSeps, ht, if_true] at h
      exact ih h

theorem dropSeps_nil {q : List Tok} (h : dropSeps q = []) : wordsOf q = [] := by
  rw [← wordsOf_dropSeps, h]; rfl

/-- The first word of a text. -/
theorem first_word {q : List Tok} (h : wordsOf q ≠ []) : ∃ s w mid, q = s ++ w :: mid ∧ (∀ t ∈ s, t.isSep = true) ∧ w.isSep = false := by
  cases hd : dropSeps q with
  | nil => exact absurd (dropSeps_nil hd) h
  | cons w mid =>
    refine ⟨takeSeps q, w, mid, ?_, takeSeps_sep q, dropSeps_word hd⟩
    rw [← hd]; exact split_seps q

theorem folded_def (t : Tok) : folded t = t.map lowerB := rfl

theorem sameText_iff (a b : Tok) : sameText a b = true ↔ folded a = folded b := by simp [sameText, folded_def]

/-! ### One pair -/

theorem tryOther_hit (new : List Tok) : ∀ (old q : List Tok) (o : List REv) (rest : List Tok),
    tryOther new old q = .hit o rest → o = new.map .echo ∧ ∃ taken, q = taken ++ rest ∧
      (wordsOf taken).map folded = (wordsOf old).map folded ∧
      (taken = [] ∨ taken.getLast?.any (fun t => !t.isSep) = true) := by
  intro old
  induction old with
  | nil =>
    intro q o rest h
    simp only [tryOther, RTry.hit.injEq] at h
    exact ⟨h.1.symm, [], by simp [h.2], rfl, .inl rfl⟩
  | cons l ls ih =>
    intro q o rest h
    rw [tryOther] at h
    by_cases hl : l.isSep = true
    · rw [if_pos hl] at h
      obtain ⟨h1, taken, h2, h3, h4⟩ := ih _ _ _ h
      exact ⟨h1, taken, h2, by rw [wordsOf_sep hl]; exact h3, h4⟩
    · rw [if_neg hl] at h
      have hl' : l.isSep = false := by simpa using hl
      cases hd : dropSeps q with
      | nil => rw [hd] at h; simp at h
      | cons w q' =>
        rw [hd] at h
        simp only at h
        by_cases hw : sameText l w = true
        · rw [if_pos hw] at h
          obtain ⟨h1, taken, h2, h3, h4⟩ := ih _ _ _ h
          have hws := dropSeps_word hd
          refine ⟨h1, takeSeps q ++ w :: taken, ?_, ?_, .inr ?_⟩
          · conv => lhs; rw [split_seps q, hd, h2]
            simp
          · rw [wordsOf_append, wordsOf_seps (takeSeps_sep q), List.nil_append, wordsOf_word hws, wordsOf_word hl',
              List.map_cons, List.map_cons, h3, (sameText_iff l w).1 hw]
          · rw [List.getLast?_append]
            rcases h4 with rfl | h4
            · simp [hws]
            · cases taken with
              | nil => simp at h4
              | cons a b =>
                rw [List.getLast?_cons_cons]
                cases hlast : (a :: b).getLast? with
                | none => simp at hlast
                | some x => rw [hlast] at h4; simpa using h4
        · rw [if_neg hw] at h; simp at h

theorem tryOther_fail (new : List Tok) : ∀ (old q : List Tok), tryOther new old q = .fail → ∀ later,
    ¬ (wordsOf old).map folded <+: (wordsOf (q ++ later)).map folded := by
  intro old
  induction old with
  | nil => intro q h; simp [tryOther] at h
  | cons l ls ih =>
    intro q h later
    rw [tryOther] at h
    by_cases hl : l.isSep = true
    · rw [if_pos hl] at h
      rw [wordsOf_sep hl]; exact ih _ h later
    · rw [if_neg hl] at h
      have hl' : l.isSep = false := by simpa using hl
      cases hd : dropSeps q with
      | nil => rw [hd] at h; simp at h
      | cons w q' =>
        rw [hd] at h
        simp only at h
        have hws := dropSeps_word hd
        have hq : wordsOf (q ++ later) = w :: wordsOf (q' ++ later) := by
          rw [wordsOf_append, ← wordsOf_dropSeps, hd, wordsOf_word hws, wordsOf_append, List.cons_append]
        rw [hq, wordsOf_word hl', List.map_cons, List.map_cons, List.cons_prefix_cons]
        rintro ⟨h1, h2⟩
        by_cases hw : sameText l w = true
        · rw [if_pos hw] at h
          exact ih _ h later h2
        · exact hw ((sameText_iff l w).2 h1)

theorem tryOther_wait (new : List Tok) : ∀ (old q : List Tok), tryOther new old q = .wait →
    (wordsOf q).map folded <+: (wordsOf old).map folded ∧ (wordsOf q).length < (wordsOf old).length := by
  intro old
  induction old with
  | nil => intro q h; simp [tryOther] at h
  | cons l ls ih =>
    intro q h
    rw [tryOther] at h
    by_cases hl : l.isSep = true
    · rw [if_pos hl] at h
      rw [wordsOf_sep hl]; exact ih _ h
    · rw [if_neg hl] at h
      have hl' : l.isSep = false := by simpa using hl
      cases hd : dropSeps q with
      | nil =>
        rw [dropSeps_nil hd, wordsOf_word hl']
        simp
      | cons w q' =>
        rw [hd] at h
        simp only at h
        have hws := dropSeps_word hd
        have hq : wordsOf q = w :: wordsOf q' := by rw [← wordsOf_dropSeps, hd, wordsOf_word hws]
        by_cases hw : sameText l w = true
        · rw [if_pos hw] at h
          obtain ⟨h1, h2⟩ := ih _ h
          rw [hq, wordsOf_word hl', List.map_cons, List.map_cons, List.cons_prefix_cons]
          exact ⟨⟨((sameText_iff l w).1 hw).symm, h1⟩, by simpa using h2⟩
        · rw [if_neg hw] at h; simp at h

theorem head_words (ts : List Tok) : (wordsOf ts).head? = (dropSeps ts).head? := by
  rw [← wordsOf_dropSeps]
  cases hd : dropSeps ts with
  | nil => rfl
  | cons w q => rw [wordsOf_word (dropSeps_word hd)]; rfl

theorem echoFirst_text (new : List Tok) : (echoFirst new).map REv.text = (wordsOf new).take 1 := by
  unfold echoFirst
  rw [← wordsOf_dropSeps new]
  cases hd : dropSeps new with
  | nil => rfl
  | cons w q => rw [wordsOf_word (dropSeps_word hd)]; rfl

theorem folded_prefix (p w : Tok) : folded p <+: folded w ↔ sameText p (w.take p.length) = true := by
  rw [sameText_iff]
  constructor
  · intro h
    have := List.prefix_iff_eq_take.1 h
    rw [this]
    simp [folded, List.map_take]
  · intro h
    rw [h]
    simp only [folded_def]
    rw [List.map_take]
    exact List.take_prefix _ _

theorem folded_suffix (p w : Tok) :
    folded p <:+ folded w ↔ (¬ w.length < p.length ∧ sameText (w.drop (w.length - p.length)) p = true) := by
  rw [sameText_iff]
  constructor
  · intro h
    have hl := h.length_le
    have h2 := List.suffix_iff_eq_drop.1 h
    simp only [folded_def, List.length_map] at hl h2
    refine ⟨by omega, ?_⟩
    simp only [folded_def]
    rw [List.map_drop, h2]
  · rintro ⟨_, h⟩
    rw [← h]
    simp only [folded_def]
    rw [List.map_drop]
    exact List.drop_suffix _ _

theorem map_echo_text (l : List Tok) : (l.map REv.echo).map REv.text = l := by
  simp [Function.comp_def, REv.text]

/-- A pair that matches. -/
theorem tryRule_hit {r : RRule} (hr : r.WF) {q : List Tok} {o : List REv} {rest : List Tok} (h : tryRule r q = .hit o rest) :
    ∃ s w mid, q = s ++ w :: mid ++ rest ∧ (∀ t ∈ s, t.isSep = true) ∧ w.isSep = false ∧
      (w :: mid).getLast?.any (fun t => !t.isSep) = true ∧ (wordsOf (w :: mid)).length = r.size ∧
      (∀ later, r.Applies (wordsOf (w :: mid ++ rest ++ later))) ∧
      (o.map REv.text = r.result w ∨ o.map REv.text = s ++ r.result w) := by
  obtain ⟨kind, old, new⟩ := r
  cases kind with
  | other =>
    obtain ⟨h1, taken, h2, h3, h4⟩ := tryOther_hit _ _ _ _ _ h
    have hne : wordsOf taken ≠ [] := by
      intro h0
      rw [h0] at h3
      have := hr.1
      simp at h3
      exact this h3
    obtain ⟨s, w, mid, rfl, hs, hw⟩ := first_word hne
    have hwt : wordsOf (s ++ w :: mid) = wordsOf (w :: mid) := by
      rw [wordsOf_append, wordsOf_seps hs, List.nil_append]
    rw [hwt] at h3
    refine ⟨s, w, mid, h2, hs, hw, ?_, ?_, fun later => ?_, .inl ?_⟩
    · rcases h4 with h4 | h4
      · simp at h4
      · rw [List.getLast?_append] at h4
        cases hl : (w :: mid).getLast? with
        | none => simp at hl
        | some x => rw [hl] at h4; simpa using h4
    · have := congrArg List.length h3
      simpa [RRule.size] using this
    · show (wordsOf old).map folded <+: _
      rw [← h3, wordsOf_append, wordsOf_append, List.map_append, List.map_append, List.append_assoc]
      exact List.prefix_append _ _
    · rw [h1, map_echo_text]; rfl
  | leading =>
    simp only [tryRule, tryLeading] at h
    cases hd : dropSeps old with
    | nil => rw [hd] at h; simp at h
    | cons l ls =>
      rw [hd] at h
      cases hq : dropSeps q with
      | nil => rw [hq] at h; simp at h
      | cons w q' =>
        rw [hq] at h
        simp only at h
        split at h
        · rename_i hw
          simp only [RTry.hit.injEq] at h
          obtain ⟨rfl, rfl⟩ := h
          have hws := dropSeps_word hq
          have hhead : (wordsOf old).head? = some l := by rw [head_words, hd]; rfl
          refine ⟨takeSeps q, w, [], ?_, takeSeps_sep q, hws, by simp [hws], ?_, fun later => ?_, .inr ?_⟩
          · conv => lhs; rw [split_seps q, hq]
            simp
          · simp [RRule.size, wordsOf, hws]
          · refine ⟨l, w, wordsOf (q' ++ later), hhead, ?_, (folded_prefix l w).2 hw⟩
            rw [← wordsOf_word hws]; simp
          · rw [List.map_append, List.map_append, map_echo_text, echoFirst_text, List.append_assoc]
            simp [RRule.result, REv.text, List.headD_eq_head?_getD, hhead]
        · simp at h
  | trailing =>
    obtain ⟨t, ts, hold, hts⟩ := hr.2 rfl
    simp only at hold
    have hd : dropSeps old = t :: ts := by rw [hold]; simp [dropSeps, hts]
    simp only [tryRule, tryTrailing, hd] at h
    cases hq : dropSeps q with
    | nil => rw [hq] at h; simp at h
    | cons w q' =>
      rw [hq] at h
      have ho : old.headD [] = t := by rw [hold]; rfl
      simp only [ho] at h
      split at h
      · simp at h
      · rename_i hlen
        split at h
        · rename_i hw
          simp only [RTry.hit.injEq] at h
          obtain ⟨rfl, rfl⟩ := h
          have hws := dropSeps_word hq
          have hhead : (wordsOf old).head? = some t := by rw [head_words, hd]; rfl
          refine ⟨takeSeps q, w, [], ?_, takeSeps_sep q, hws, by simp [hws], ?_, fun later => ?_, .inr ?_⟩
          · conv => lhs; rw [split_seps q, hq]
            simp
          · simp [RRule.size, wordsOf, hws]
          · refine ⟨t, w, wordsOf (q' ++ later), hhead, ?_, (folded_suffix t w).2 ⟨hlen, hw⟩⟩
            rw [← wordsOf_word hws]; simp
          · rw [List.map_append, List.map_append, map_echo_text, echoFirst_text, List.append_assoc]
            simp [RRule.result, REv.text, List.headD_eq_head?_getD, hhead]
        · simp at h

/-- A pair that does not match, whatever follows. -/
theorem tryRule_fail {r : RRule} (hr : r.WF) {q : List Tok} (h : tryRule r q = .fail) (later : List Tok) :
    ¬ r.Applies (wordsOf (q ++ later)) := by
  obtain ⟨kind, old, new⟩ := r
  cases kind with
  | other => exact tryOther_fail _ _ _ h later
  | leading =>
    rintro ⟨p, w, t, h1, h2, h3⟩
    simp only [tryRule, tryLeading] at h
    rw [head_words] at h1
    cases hd : dropSeps old with
    | nil => rw [hd] at h1; simp at h1
    | cons l ls =>
      rw [hd] at h h1
      simp only [List.head?_cons, Option.some.injEq] at h1
      subst h1
      cases hq : dropSeps q with
      | nil => rw [hq] at h; simp at h
      | cons w' q' =>
        rw [wordsOf_append, ← wordsOf_dropSeps, hq, wordsOf_word (dropSeps_word hq), List.cons_append] at h2
        simp only [List.cons.injEq] at h2
        rw [hq] at h
        rw [← h2.1] at h3
        simp only [(folded_prefix l w').1 h3, if_true] at h
        simp at h
  | trailing =>
    rintro ⟨p, w, t, h1, h2, h3⟩
    obtain ⟨u, us, hold, hts⟩ := hr.2 rfl
    simp only at hold
    have hd : dropSeps old = u :: us := by rw [hold]; simp [dropSeps, hts]
    simp only [tryRule, tryTrailing, hd] at h
    rw [head_words] at h1
    simp only [hd, List.head?_cons, Option.some.injEq] at h1
    subst h1
    have ho : old.headD [] = u := by rw [hold]; rfl
    cases hq : dropSeps q with
    | nil => rw [hq] at h; simp at h
    | cons w' q' =>
      rw [wordsOf_append, ← wordsOf_dropSeps, hq, wordsOf_word (dropSeps_word hq), List.cons_append] at h2
      simp only [List.cons.injEq] at h2
      rw [hq] at h
      rw [← h2.1] at h3
      obtain ⟨h4, h5⟩ := (folded_suffix u w').1 h3
      simp only [ho, if_neg h4, h5, if_true] at h
      simp at h

theorem tryRule_wait {r : RRule} {q : List Tok} (h : tryRule r q = .wait) :
    wordsOf q = [] ∨ (r.kind = .other ∧ (wordsOf q).map folded <+: (wordsOf r.old).map folded ∧
      (wordsOf q).length < (wordsOf r.old).length) := by
  obtain ⟨kind, old, new⟩ := r
  cases kind with
  | other => exact .inr ⟨rfl, tryOther_wait _ _ _ h⟩
  | leading =>
    refine .inl ?_
    simp only [tryRule, tryLeading] at h
    split at h
    · simp at h
    · split at h
      · rename_i hq; exact dropSeps_nil hq
      · split at h <;> simp at h
  | trailing =>
    refine .inl ?_
    simp only [tryRule, tryTrailing] at h
    split at h
    · simp at h
    · split at h
      · rename_i hq; exact dropSeps_nil hq
      · split at h
        · simp at h
        · split at h <;> simp at h

/-! ### The pairs in order -/

theorem tryRules_hit {q : List Tok} {o : List REv} {rest : List Tok} : ∀ {rules : List RRule}, tryRules rules q = .hit o rest →
    ∃ pre r post, rules = pre ++ r :: post ∧ (∀ r' ∈ pre, tryRule r' q = .fail) ∧ tryRule r q = .hit o rest := by
  intro rules
  induction rules with
  | nil => intro h; simp [tryRules] at h
  | cons r rs ih =>
    intro h
    rw [tryRules] at h
    cases ht : tryRule r q with
    | wait => rw [ht] at h; simp at h
    | hit o' rest' => rw [ht] at h; exact ⟨[], r, rs, rfl, by simp, by rw [ht]; exact h⟩
    | fail =>
      rw [ht] at h
      obtain ⟨pre, r', post, h1, h2, h3⟩ := ih h
      refine ⟨r :: pre, r', post, by simp [h1], fun x hx => ?_, h3⟩
      rcases List.mem_cons.1 hx with rfl | hx
      · exact ht
      · exact h2 x hx

theorem tryRules_fail {q : List Tok} : ∀ {rules : List RRule}, tryRules rules q = .fail → ∀ r ∈ rules, tryRule r q = .fail := by
  intro rules
  induction rules with
  | nil => intro h; simp
  | cons r rs ih =>
    intro h
    rw [tryRules] at h
    cases ht : tryRule r q with
    | wait => rw [ht] at h; simp at h
    | hit o' rest' => rw [ht] at h; simp at h
    | fail =>
      rw [ht] at h
      intro x hx
      rcases List.mem_cons.1 hx with rfl | hx
      · exact ht
      · exact ih h x hx

theorem tryRules_wait {q : List Tok} : ∀ {rules : List RRule}, tryRules rules q = .wait → ∃ r ∈ rules, tryRule r q = .wait := by
  intro rules
  induction rules with
  | nil => intro h; simp [tryRules] at h
  | cons r rs ih =>
    intro h
    rw [tryRules] at h
    cases ht : tryRule r q with
    | wait => exact ⟨r, by simp, ht⟩
    | hit o' rest' => rw [ht] at h; simp at h
    | fail =>
      rw [ht] at h
      obtain ⟨x, hx, h2⟩ := ih h
      exact ⟨x, by simp [hx], h2⟩

/-! ### The text -/

theorem replaced_append {rules : List RRule} {d1 f o1 d2 o2 : List Tok} (h1 : Replaced rules d1 (d2 ++ f) o1)
    (h2 : Replaced rules d2 f o2) : Replaced rules (d1 ++ d2) f (o1 ++ o2) := by
  generalize hf : d2 ++ f = g at h1
  induction h1 with
  | nil => exact h2
  | sep t ht _ ih => exact .sep t ht (ih hf)
  | @keep d f' o w hw hno _ ih =>
    refine .keep (d := d ++ d2) w hw ?_ (ih hf)
    rw [show w :: (d ++ d2) ++ f = w :: d ++ (d2 ++ f) by simp, hf]
    exact hno
  | @repl d f' o w mid pre post r hw hlast hr hpre happ hsize _ ih =>
    rw [show w :: mid ++ d ++ d2 = w :: mid ++ (d ++ d2) by simp, List.append_assoc]
    have he : w :: mid ++ (d ++ d2) ++ f = w :: mid ++ d ++ f' := by rw [← hf]; simp
    refine .repl w mid pre post r hw hlast hr ?_ ?_ hsize (ih hf)
    · rw [he]; exact hpre
    · rw [he]; exact happ

theorem replaced_seps {rules : List RRule} {d f o : List Tok} : ∀ (s : List Tok), (∀ t ∈ s, t.isSep = true) →
    Replaced rules d f o → Replaced rules (s ++ d) f (s ++ o) := by
  intro s
  induction s with
  | nil => intro _ h; exact h
  | cons t s ih => intro hs h; exact .sep t (hs t (by simp)) (ih (fun x hx => hs x (by simp [hx])) h)

theorem loses_refl (a : List Tok) : LosesSeps a a := ⟨List.Sublist.refl _, rfl⟩

theorem loses_append {a b a' b' : List Tok} (h : LosesSeps a b) (h' : LosesSeps a' b') : LosesSeps (a ++ a') (b ++ b') :=
  ⟨h.1.append h'.1, by rw [wordsOf_append, wordsOf_append, h.2, h'.2]⟩

theorem loses_seps {s a b : List Tok} (hs : ∀ t ∈ s, t.isSep = true) (h : LosesSeps a b) : LosesSeps a (s ++ b) :=
  ⟨h.1.trans (List.sublist_append_right _ _), by rw [wordsOf_append, wordsOf_seps hs, h.2]; rfl⟩

/-- What is known of a part that is done and the rest. -/
def DrainOk (rules : List RRule) (q : List Tok) (out q' : List Tok) : Prop :=
  ∃ d full, q = d ++ q' ∧ (∀ later, Replaced rules d (q' ++ later) full) ∧ LosesSeps out full ∧
    (wordsOf q' = [] ∨ Begun rules q')

theorem drain_ok (rules : List RRule) (hw : ∀ r ∈ rules, r.WF) : ∀ (n : Nat) (q : List Tok), q.length ≤ n →
    ∃ evs q', drain rules n q = some (evs, q') ∧ DrainOk rules q (evs.map REv.text) q' := by
  intro n
  induction n with
  | zero =>
    intro q hq
    have : q = [] := List.length_eq_zero_iff.1 (by omega)
    subst this
    exact ⟨[], [], rfl, [], [], rfl, fun _ => .nil _, loses_refl _, .inl rfl⟩
  | succ n ih =>
    intro q hq
    cases q with
    | nil => exact ⟨[], [], rfl, [], [], rfl, fun _ => .nil _, loses_refl _, .inl rfl⟩
    | cons t q =>
      rw [drain]
      cases ht : tryRules rules (t :: q) with
      | wait =>
        refine ⟨[], t :: q, rfl, [], [], rfl, fun _ => .nil _, loses_refl _, ?_⟩
        obtain ⟨r, hr, h1⟩ := tryRules_wait ht
        rcases tryRule_wait h1 with h | h
        · exact .inl h
        · exact .inr ⟨r, hr, h⟩
      | fail =>
        simp only
        obtain ⟨evs, q', h1, d, full, h2, h3, h4, h5⟩ := ih q (by simpa using hq)
        refine ⟨.echo t :: evs, q', by simp [h1], t :: d, t :: full, by simp [h2], fun later => ?_, ?_, h5⟩
        · cases hs : t.isSep
          · refine .keep t hs (fun r hr => ?_) (h3 later)
            have := tryRule_fail (hw r hr) (tryRules_fail ht r hr) later
            rw [h2] at this
            simpa using this
          · exact .sep t hs (h3 later)
        · have := loses_append (loses_refl [t]) h4
          simpa [REv.text] using this
      | hit o rest =>
        simp only
        obtain ⟨pre, r, post, hr, hpre, hit⟩ := tryRules_hit ht
        have hrw : r.WF := hw r (by simp [hr])
        obtain ⟨s, w, mid, hq', hs, hww, hlast, hsize, happ, hout⟩ := tryRule_hit hrw hit
        have hlen : rest.length ≤ n := by
          have := congrArg List.length hq'
          simp at this hq
          omega
        obtain ⟨evs, q', h1, d, full, h2, h3, h4, h5⟩ := ih rest hlen
        refine ⟨o ++ evs, q', by simp [h1], s ++ (w :: mid ++ d), s ++ (r.result w ++ full), ?_, fun later => ?_, ?_, h5⟩
        · rw [hq', h2]; simp
        · refine replaced_seps s hs (.repl w mid pre post r hww hlast hr (fun r' hr' => ?_) ?_ hsize (h3 later))
          · have hf := tryRule_fail (hw r' (by simp [hr, hr'])) (hpre r' hr') later
            rw [hq', h2] at hf
            have he : wordsOf (s ++ w :: mid ++ (d ++ q') ++ later) = wordsOf (w :: mid ++ d ++ (q' ++ later)) := by
              simp only [wordsOf_append, wordsOf_seps hs, List.nil_append, List.append_assoc]
            rwa [he] at hf
          · have := happ later
            rw [h2] at this
            simpa using this
        · rw [List.map_append]
          rcases hout with h | h
          · rw [h, ← List.append_assoc]
            exact loses_append (loses_seps hs (loses_refl _)) h4
          · rw [h, List.append_assoc, ← List.append_assoc, ← List.append_assoc]
            exact loses_append (loses_refl _) h4

/-! ### A sequence of texts -/

theorem feed_ok (rules : List RRule) (hne : rules ≠ []) (hw : ∀ r ∈ rules, r.WF) : ∀ (ts q : List Tok),
    (wordsOf q = [] ∨ Begun rules q) → ∃ evs q', ppechoAll rules q ts = some (evs, q') ∧ DrainOk rules (q ++ ts) (evs.map REv.text) q' := by
  intro ts
  induction ts with
  | nil =>
    intro q hq
    exact ⟨[], q, rfl, [], [], by simp, fun _ => .nil _, loses_refl _, hq⟩
  | cons t ts ih =>
    intro q _
    have step : ∃ evs q', ppecho0 rules q t = some (evs, q') ∧ DrainOk rules (q ++ [t]) (evs.map REv.text) q' := by
      unfold ppecho0
      by_cases hc : q = [] ∧ t.isSep = true
      · rw [if_pos hc]
        obtain ⟨rfl, ht⟩ := hc
        exact ⟨[.echo t], [], rfl, [t], [t], by simp, fun later => .sep t ht (.nil _), loses_refl _, .inl rfl⟩
      · rw [if_neg hc, if_neg hne]
        exact drain_ok rules hw _ _ (Nat.le_refl _)
    obtain ⟨evs, q1, h1, d, full, h2, h3, h4, h5⟩ := step
    obtain ⟨evs', q2, h6, d', full', h7, h8, h9, h10⟩ := ih q1 h5
    refine ⟨evs ++ evs', q2, by simp [ppechoAll, h1, h6], d ++ d', full ++ full', ?_, fun later => ?_, ?_, h10⟩
    · rw [show q ++ t :: ts = (q ++ [t]) ++ ts by simp, h2, List.append_assoc, h7, List.append_assoc]
    · refine replaced_append ?_ (h8 later)
      have := h3 (ts ++ later)
      rw [← List.append_assoc, h7] at this
      simpa using this
    · rw [List.map_append]; exact loses_append h4 h9

/-! ### The theorems -/

/-- The texts handed to one stage of replacement: everything except a tail `q`, which is the beginning of the old text of a
pair (or separators), has been replaced as described, whatever follows; from the result some separators may be missing, but
no words are. -/
theorem C64_replace (rules : List RRule) (hne : rules ≠ []) (hw : ∀ r ∈ rules, r.WF) (ts : List Tok) :
    ∃ evs q, ppechoAll rules [] ts = some (evs, q) ∧ ∃ d full, ts = d ++ q ∧
      (∀ later, Replaced rules d (q ++ later) full) ∧ LosesSeps (evs.map REv.text) full ∧
      (wordsOf q = [] ∨ Begun rules q) := by
  obtain ⟨evs, q, h1, d, full, h2, h3⟩ := feed_ok rules hne hw ts [] (.inl rfl)
  exact ⟨evs, q, h1, d, full, by simpa using h2, h3⟩

theorem single_ok (rules : List RRule) (hw : ∀ r ∈ rules, r.WF)
    (h1 : ∀ r ∈ rules, r.kind = .other → (wordsOf r.old).length = 1) (t : Tok) (ht : t.isSep = false) :
    ∃ evs, drain rules 1 [t] = some (evs, []) ∧ ∀ later, Replaced rules [t] later (evs.map REv.text) := by
  rw [drain]
  have htw : wordsOf [t] = [t] := by simp [wordsOf, ht]
  cases hr : tryRules rules [t] with
  | wait =>
    exfalso
    obtain ⟨r, hr1, hr2⟩ := tryRules_wait hr
    rcases tryRule_wait hr2 with h | ⟨h2, _, h3⟩
    · rw [htw] at h; simp at h
    · rw [h1 r hr1 h2, htw] at h3; simp at h3
  | fail =>
    refine ⟨[.echo t], by simp [drain], fun later => ?_⟩
    exact .keep t ht (fun r hr' => tryRule_fail (hw r hr') (tryRules_fail hr r hr') later) (.nil _)
  | hit o rest =>
    simp only
    obtain ⟨pre, r, post, hrr, hpre, hit⟩ := tryRules_hit hr
    have hrw : r.WF := hw r (by simp [hrr])
    obtain ⟨s, w, mid, hq', hs, hww, hlast, hsize, happ, hout⟩ := tryRule_hit hrw hit
    have : s = [] ∧ w = t ∧ mid = [] ∧ rest = [] := by
      cases s with
      | nil => simp at hq'; simp [hq']
      | cons a b => simp at hq'
    obtain ⟨rfl, rfl, rfl, rfl⟩ := this
    refine ⟨o, by simp [drain], fun later => ?_⟩
    have ho : o.map REv.text = r.result w := by simpa using hout
    rw [ho]
    have := Replaced.repl (rules := rules) (d := []) (f := later) (o := []) w [] pre post r hww hlast hrr
      (fun r' hr' => by
        have := tryRule_fail (hw r' (by simp [hrr, hr'])) (hpre r' hr') later
        simpa using this) (by simpa using happ later) hsize (.nil _)
    simpa using this

/-- When every old text is a single word (or a LEADING or TRAILING part of one), the result is exact and nothing is held
back. -/
theorem C64_single_words (rules : List RRule) (hw : ∀ r ∈ rules, r.WF)
    (h1 : ∀ r ∈ rules, r.kind = .other → (wordsOf r.old).length = 1) (ts : List Tok) :
    ∃ evs, ppechoAll rules [] ts = some (evs, []) ∧ ∀ later, Replaced rules ts later (evs.map REv.text) := by
  induction ts with
  | nil => exact ⟨[], rfl, fun _ => .nil _⟩
  | cons t ts ih =>
    obtain ⟨evs, h2, h3⟩ := ih
    have step : ∃ evs', ppecho0 rules [] t = some (evs', []) ∧ ∀ later, Replaced rules [t] later (evs'.map REv.text) := by
      unfold ppecho0
      cases ht : t.isSep
      · rw [if_neg (by simp)]
        by_cases hr : rules = []
        · rw [if_pos hr]
          refine ⟨_, rfl, fun later => ?_⟩
          subst hr
          exact .keep t ht (by simp) (.nil _)
        · rw [if_neg hr]
          exact single_ok rules hw h1 t ht
      · rw [if_pos ⟨rfl, rfl⟩]
        exact ⟨_, rfl, fun later => .sep t ht (.nil _)⟩
    obtain ⟨evs', h4, h5⟩ := step
    refine ⟨evs' ++ evs, by simp [ppechoAll, h4, h2], fun later => ?_⟩
    rw [List.map_append]
    exact replaced_append (d1 := [t]) (h5 _) (h3 later)

/-- Without a replacing list (REPLACE OFF, or behind the end of a copied file) a text is passed on unchanged, behind what was
held back. -/
theorem C64_off (q ts : List Tok) (t : Tok) :
    ppechoAll [] q (t :: ts) = some ((q ++ t :: ts).map .echo, []) := by
  have key : ∀ ts : List Tok, ppechoAll [] [] ts = some (ts.map .echo, []) := by
    intro ts
    induction ts with
    | nil => rfl
    | cons t ts ih =>
      rw [ppechoAll, ppecho0]
      by_cases ht : ([] : List Tok) = [] ∧ t.isSep = true
      · rw [if_pos ht]; simp [ih]
      · rw [if_neg ht]; simp [ih]
  rw [ppechoAll, ppecho0]
  by_cases ht : q = [] ∧ t.isSep = true
  · rw [if_pos ht]; simp [key, ht.1]
  · rw [if_neg ht]; simp [key]

/-! ### The description determines the result -/

theorem first_rule_unique {P : RRule → Prop} : ∀ (pre pre' post post' : List RRule) (r r' : RRule),
    pre ++ r :: post = pre' ++ r' :: post' → (∀ x ∈ pre, ¬ P x) → (∀ x ∈ pre', ¬ P x) → P r → P r' → r = r' := by
  intro pre
  induction pre with
  | nil =>
    intro pre' post post' r r' h _ h2 h3 _
    cases pre' with
    | nil => simp at h; exact h.1
    | cons a b => simp at h; exact absurd h3 (h.1 ▸ h2 a (by simp))
  | cons a b ih =>
    intro pre' post post' r r' h h1 h2 h3 h4
    cases pre' with
    | nil => simp at h; exact absurd h4 (h.1 ▸ h1 a (by simp))
    | cons a' b' =>
      simp at h
      exact ih b' post post' r r' h.2 (fun x hx => h1 x (by simp [hx])) (fun x hx => h2 x (by simp [hx])) h3 h4

theorem taken_le {a c : List Tok} (hl : (a ++ c).getLast?.any (fun t => !t.isSep) = true)
    (hs : (wordsOf (a ++ c)).length = (wordsOf a).length) : c = [] := by
  cases c with
  | nil => rfl
  | cons x y =>
    exfalso
    rw [List.getLast?_append] at hl
    cases hx : (x :: y).getLast? with
    | none => simp at hx
    | some z =>
      rw [hx] at hl
      have hz : z.isSep = false := by simpa using hl
      have hmem : z ∈ wordsOf (x :: y) := by
        simp only [wordsOf, List.mem_filter]
        exact ⟨List.mem_of_getLast? hx, by simp [hz]⟩
      rw [wordsOf_append, List.length_append] at hs
      have : (wordsOf (x :: y)).length = 0 := by omega
      rw [List.length_eq_zero_iff.1 this] at hmem
      simp at hmem

theorem taken_unique {a b x y : List Tok} (h : a ++ x = b ++ y) (ha : a.getLast?.any (fun t => !t.isSep) = true)
    (hb : b.getLast?.any (fun t => !t.isSep) = true) (hs : (wordsOf a).length = (wordsOf b).length) : a = b ∧ x = y := by
  rcases List.append_eq_append_iff.1 h with ⟨c, rfl, h2⟩ | ⟨c, rfl, h2⟩
  · have := taken_le hb hs.symm
    subst this
    simpa using h2
  · have := taken_le ha hs
    subst this
    simpa using h2.symm

theorem replaced_unique {rules : List RRule} {d f o : List Tok} (h : Replaced rules d f o) :
    ∀ o', Replaced rules d f o' → o = o' := by
  induction h with
  | nil f =>
    intro o' h'
    generalize hd : ([] : List Tok) = x at h'
    cases h' with
    | nil => rfl
    | sep => simp at hd
    | keep => simp at hd
    | repl => simp at hd
  | @sep d f o t ht _ ih =>
    intro o' h'
    generalize hd : t :: d = x at h'
    cases h' with
    | nil => simp at hd
    | sep t' ht' h' =>
      simp only [List.cons.injEq] at hd
      obtain ⟨rfl, rfl⟩ := hd
      rw [ih _ h']
    | keep w hw hno h' =>
      simp only [List.cons.injEq] at hd
      rw [← hd.1, ht] at hw; simp at hw
    | repl w mid pre post r hw =>
      simp only [List.cons_append, List.cons.injEq] at hd
      rw [← hd.1, ht] at hw; simp at hw
  | @keep d f o w hw hno _ ih =>
    intro o' h'
    generalize hd : w :: d = x at h'
    cases h' with
    | nil => simp at hd
    | sep t' ht' h' =>
      simp only [List.cons.injEq] at hd
      rw [← hd.1, hw] at ht'; simp at ht'
    | keep w' hw' hno' h' =>
      simp only [List.cons.injEq] at hd
      obtain ⟨rfl, rfl⟩ := hd
      rw [ih _ h']
    | repl w' mid pre post r hw' hlast hr hpre happ =>
      rw [← hd] at happ
      exact absurd happ (hno r (by simp [hr]))
  | @repl d f o w mid pre post r hw hlast hr hpre happ hsize _ ih =>
    intro o' h'
    generalize hd : w :: mid ++ d = x at h'
    cases h' with
    | nil => simp at hd
    | sep t' ht' h' =>
      simp only [List.cons_append, List.cons.injEq] at hd
      rw [← hd.1, hw] at ht'; simp at ht'
    | keep w' hw' hno' h' =>
      rw [← hd] at hno'
      exact absurd happ (hno' r (by simp [hr]))
    | @repl d' _ o' w' mid' pre' post' r' hw' hlast' hr' hpre' happ' hsize' h' =>
      rw [← hd] at hpre' happ'
      have hrr := first_rule_unique pre pre' post post' r r' (hr ▸ hr') hpre hpre' happ happ'
      subst hrr
      obtain ⟨h1, h2⟩ := taken_unique hd hlast hlast' (hsize.trans hsize'.symm)
      simp only [List.cons.injEq] at h1
      obtain ⟨rfl, rfl⟩ := h1
      subst h2
      rw [ih _ h']

/-- A text has at most one result. -/
theorem C64_unique (rules : List RRule) (d later o o' : List Tok) (h : Replaced rules d later o)
    (h' : Replaced rules d later o') : o = o' := replaced_unique h o' h'

/-! ### Two stages -/

theorem tryRules_echo (rules : List RRule) (h : ∀ r ∈ rules, r.kind ≠ .trailing) (q : List Tok) (o : List REv) (rest : List Tok)
    (ht : tryRules rules q = .hit o rest) : o = (o.map REv.text).map .echo := by
  obtain ⟨pre, r, post, rfl, _, hit⟩ := tryRules_hit ht
  have hk := h r (by simp)
  obtain ⟨kind, old, new⟩ := r
  cases kind with
  | other =>
    rw [(tryOther_hit _ _ _ _ _ hit).1]
    simp [Function.comp_def, REv.text]
  | leading =>
    simp only [tryRule, tryLeading] at hit
    split at hit
    · simp at hit
    · split at hit
      · simp at hit
      · split at hit
        · simp only [RTry.hit.injEq] at hit
          rw [← hit.1]
          unfold echoFirst
          split <;> simp [Function.comp_def, REv.text]
        · simp at hit
  | trailing => exact absurd rfl hk

theorem drain_echo (rules : List RRule) (h : ∀ r ∈ rules, r.kind ≠ .trailing) : ∀ (n : Nat) (q : List Tok) (evs : List REv)
    (q' : List Tok), drain rules n q = some (evs, q') → evs = (evs.map REv.text).map .echo := by
  intro n
  induction n with
  | zero =>
    intro q evs q' hd
    cases q with
    | nil => simp [drain] at hd; rw [hd.1]; rfl
    | cons t q => simp [drain] at hd
  | succ n ih =>
    intro q evs q' hd
    cases q with
    | nil => simp [drain] at hd; rw [hd.1]; rfl
    | cons t q =>
      rw [drain] at hd
      cases ht : tryRules rules (t :: q) with
      | wait => rw [ht] at hd; simp at hd; rw [hd.1]; rfl
      | fail =>
        rw [ht] at hd
        simp only [Option.map_eq_some_iff, Prod.mk.injEq] at hd
        obtain ⟨⟨e, q2⟩, h1, rfl, _⟩ := hd
        have := ih _ _ _ h1
        simp only [List.map_cons, REv.text]
        rw [← this]
      | hit o rest =>
        rw [ht] at hd
        simp only [Option.map_eq_some_iff, Prod.mk.injEq] at hd
        obtain ⟨⟨e, q2⟩, h1, rfl, _⟩ := hd
        rw [List.map_append, List.map_append, ← ih _ _ _ h1, ← tryRules_echo rules h _ _ _ ht]

theorem ppecho0_echo (rules : List RRule) (h : ∀ r ∈ rules, r.kind ≠ .trailing) (q : List Tok) (t : Tok) (evs : List REv)
    (q' : List Tok) (hd : ppecho0 rules q t = some (evs, q')) : evs = (evs.map REv.text).map .echo := by
  unfold ppecho0 at hd
  split at hd
  · simp at hd; simp [hd.1.symm, REv.text]
  · split at hd
    · simp only [Option.some.injEq, Prod.mk.injEq] at hd
      rw [← hd.1, map_echo_text]
    · exact drain_echo rules h _ _ _ _ hd

theorem stage2 (rules2 : List RRule) : ∀ (ts : List Tok) (s : RState) (evs : List REv) (q : List Tok),
    ppechoAll rules2 s.q2 ts = some (evs, q) →
    ppecho2All rules2 s (ts.map .echo) = some { s with q2 := q, out := s.out ++ evs.map REv.text } := by
  intro ts
  induction ts with
  | nil =>
    intro s evs q h
    simp only [ppechoAll, Option.some.injEq, Prod.mk.injEq] at h
    obtain ⟨rfl, rfl⟩ := h
    simp [ppecho2All]
  | cons t ts ih =>
    intro s evs q h
    simp only [ppechoAll, Option.bind_eq_some_iff, Option.map_eq_some_iff] at h
    obtain ⟨⟨e, q1⟩, h1, ⟨e', q2⟩, h2, h3⟩ := h
    simp only [Prod.mk.injEq] at h3
    obtain ⟨rfl, rfl⟩ := h3
    simp only [List.map_cons, ppecho2All, ppecho2, h1, Option.map_some, Option.bind_some]
    rw [ih { s with q2 := q1, out := s.out ++ e.map REv.text } e' q2 h2]
    simp

theorem feed_split (rules : List RRule) : ∀ (a b q : List Tok),
    ppechoAll rules q (a ++ b) = (ppechoAll rules q a).bind fun p => (ppechoAll rules p.2 b).map fun p' => (p.1 ++ p'.1, p'.2) := by
  intro a
  induction a with
  | nil => intro b q; simp [ppechoAll]
  | cons t a ih =>
    intro b q
    simp only [List.cons_append, ppechoAll]
    cases h1 : ppecho0 rules q t with
    | none => rfl
    | some p =>
      simp only [Option.bind_some]
      rw [ih]
      cases h2 : ppechoAll rules p.2 a with
      | none => rfl
      | some p2 =>
        simp only [Option.bind_some, Option.map_some]
        cases h3 : ppechoAll rules p2.2 b <;> simp

theorem stages (rules1 rules2 : List RRule) (hk : ∀ r ∈ rules1, r.kind ≠ .trailing) : ∀ (ts : List Tok) (s : RState)
    (evs1 evs2 : List REv) (q1 q2 : List Tok), ppechoAll rules1 s.q1 ts = some (evs1, q1) →
    ppechoAll rules2 s.q2 (evs1.map REv.text) = some (evs2, q2) →
    ppechoText rules1 rules2 s ts = some ⟨q1, q2, s.out ++ evs2.map REv.text⟩ := by
  intro ts
  induction ts with
  | nil =>
    intro s evs1 evs2 q1 q2 h1 h2
    simp only [ppechoAll, Option.some.injEq, Prod.mk.injEq] at h1
    obtain ⟨rfl, rfl⟩ := h1
    simp only [List.map_nil, ppechoAll, Option.some.injEq, Prod.mk.injEq] at h2
    obtain ⟨rfl, rfl⟩ := h2
    simp [ppechoText]
  | cons t ts ih =>
    intro s evs1 evs2 q1 q2 h1 h2
    simp only [ppechoAll, Option.bind_eq_some_iff, Option.map_eq_some_iff] at h1
    obtain ⟨⟨e, p1⟩, h3, ⟨e', p2⟩, h4, h5⟩ := h1
    simp only [Prod.mk.injEq] at h5
    obtain ⟨rfl, rfl⟩ := h5
    rw [List.map_append, feed_split] at h2
    simp only [Option.bind_eq_some_iff, Option.map_eq_some_iff] at h2
    obtain ⟨⟨f, r1⟩, h6, ⟨f', r2⟩, h7, h8⟩ := h2
    simp only [Prod.mk.injEq] at h8
    obtain ⟨rfl, rfl⟩ := h8
    have hst := stage2 rules2 (e.map REv.text) { s with q1 := p1 } f r1 h6
    rw [← ppecho0_echo rules1 hk _ _ _ _ h3] at hst
    simp only [ppechoText, ppecho, h3, Option.bind_some, hst]
    rw [ih ⟨p1, r1, s.out ++ f.map REv.text⟩ e' f' p2 r2 h4 h7]
    simp

/-- REPLACE acts on the result of COPY REPLACING (unless that has a TRAILING phrase). -/
theorem C64_two_stages (rules1 rules2 : List RRule) (hk : ∀ r ∈ rules1, r.kind ≠ .trailing) (ts : List Tok)
    (evs1 evs2 : List REv) (q1 q2 : List Tok) (h1 : ppechoAll rules1 [] ts = some (evs1, q1))
    (h2 : ppechoAll rules2 [] (evs1.map REv.text) = some (evs2, q2)) :
    ppechoText rules1 rules2 ⟨[], [], []⟩ ts = some ⟨q1, q2, evs2.map REv.text⟩ := by
  have := stages rules1 rules2 hk ts ⟨[], [], []⟩ evs1 evs2 q1 q2 h1 h2
  simpa using this

end Cob
