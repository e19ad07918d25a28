import Verif.Cobc.ConfProps
/-
C87: configuration files - lines.
-/
namespace Cob.Conf

/-! ### Splitting a line -/

theorem isSep_iff (c : Nat) : isSep c = true ↔ Sep c := by simp [isSep, Sep, or_assoc]
theorem isTrail_iff (c : Nat) : isTrail c = true ↔ White c := by simp [isTrail, White, or_assoc]

theorem dropWhile_all {α : Type} (p : α → Bool) (l r : List α) (h : ∀ c ∈ l, p c = true) : (l ++ r).dropWhile p = r.dropWhile p := by
  induction l with
  | nil => rfl
  | cons c l ih =>
    rw [List.cons_append, List.dropWhile_cons, if_pos (h c (by simp)), ih (fun c hc => h c (by simp [hc]))]

theorem takeWhile_all {α : Type} (p : α → Bool) (l r : List α) (h : ∀ c ∈ l, p c = true) : (l ++ r).takeWhile p = l ++ r.takeWhile p := by
  induction l with
  | nil => rfl
  | cons c l ih =>
    rw [List.cons_append, List.takeWhile_cons, if_pos (h c (by simp)), ih (fun c hc => h c (by simp [hc])), List.cons_append]

theorem dropWhile_head {α : Type} (p : α → Bool) (l : List α) (h : ∀ c, l.head? = some c → p c = false) : l.dropWhile p = l := by
  cases l with
  | nil => rfl
  | cons c l => rw [List.dropWhile_cons, if_neg (by simp [h c rfl])]

theorem takeWhile_head {α : Type} (p : α → Bool) (l : List α) (h : ∀ c, l.head? = some c → p c = false) : l.takeWhile p = [] := by
  cases l with
  | nil => rfl
  | cons c l => rw [List.takeWhile_cons, if_neg (by simp [h c rfl])]

theorem mem_takeWhile_imp {α : Type} {p : α → Bool} {l : List α} {c : α} (h : c ∈ l.takeWhile p) : p c = true := by
  induction l with
  | nil => cases h
  | cons x l ih =>
    rw [List.takeWhile_cons] at h
    split at h
    · rcases List.mem_cons.mp h with rfl | h
      · assumption
      · exact ih h
    · cases h

theorem valueOf_splits (sep value white : List Nat) (h1 : ∀ c ∈ sep, Sep c) (h2 : ∀ c ∈ white, White c)
    (h3 : ∀ c, value.head? = some c → ¬ Sep c) (h4 : ∀ c, value.getLast? = some c → ¬ White c) : valueOf (sep ++ value ++ white) = value := by
  unfold valueOf
  rw [List.append_assoc, dropWhile_all _ _ _ (fun c hc => (isSep_iff c).mpr (h1 c hc))]
  cases value with
  | nil =>
    rw [List.nil_append]
    have : ∀ c ∈ (white.dropWhile isSep).reverse, isTrail c = true := by
      intro c hc
      rw [List.mem_reverse] at hc
      exact (isTrail_iff c).mpr (h2 c ((List.dropWhile_sublist _).subset hc))
    have := dropWhile_all isTrail _ [] this
    rw [List.append_nil] at this
    rw [this]
    rfl
  | cons c v =>
    rw [dropWhile_head isSep (c :: v ++ white)]
    · rw [List.reverse_append, dropWhile_all, dropWhile_head, List.reverse_reverse]
      · intro x hx
        rw [List.head?_reverse] at hx
        have := h4 x hx
        rw [← isTrail_iff] at this
        simpa using this
      · intro x hx
        rw [List.mem_reverse] at hx
        exact (isTrail_iff x).mpr (h2 x hx)
    · intro x hx
      have := h3 x hx
      rw [← isSep_iff] at this
      simpa using this

theorem splits_valueOf (sep rest : List Nat) (hs : sep ≠ []) (h1 : ∀ c ∈ sep, Sep c) (tag : List Nat) (ht : ∀ c ∈ tag, ¬ Sep c) :
    Splits (tag ++ sep ++ rest) tag (valueOf rest) := by
  refine ⟨sep ++ rest.takeWhile isSep, ((rest.dropWhile isSep).reverse.takeWhile isTrail).reverse, ?_, ht, by simp [hs], ?_, ?_, ?_, ?_⟩
  · have h2 := List.takeWhile_append_dropWhile (p := isTrail) (l := (rest.dropWhile isSep).reverse)
    have h3 : valueOf rest ++ ((rest.dropWhile isSep).reverse.takeWhile isTrail).reverse = rest.dropWhile isSep := by
      unfold valueOf
      rw [← List.reverse_append, h2, List.reverse_reverse]
    simp only [List.append_assoc]
    rw [h3, List.takeWhile_append_dropWhile]
  · intro c hc
    rw [List.mem_append] at hc
    rcases hc with hc | hc
    · exact h1 c hc
    · exact (isSep_iff c).mp (mem_takeWhile_imp hc)
  · intro c hc
    rw [List.mem_reverse] at hc
    exact (isTrail_iff c).mp (mem_takeWhile_imp hc)
  · intro c hc hsep
    unfold valueOf at hc
    have h2 : some c = (rest.dropWhile isSep).head? := by
      have hp : ((rest.dropWhile isSep).reverse.dropWhile isTrail).reverse <+: rest.dropWhile isSep := by
        rw [← List.reverse_suffix, List.reverse_reverse]
        exact List.dropWhile_suffix _
      obtain ⟨t, ht⟩ := hp
      rw [← ht, List.head?_append, hc]
      rfl
    have := List.head?_dropWhile_not isSep rest
    rw [← h2] at this
    have h3 := (isSep_iff c).mpr hsep
    simp [h3] at this
  · intro c hc hw
    unfold valueOf at hc
    rw [List.getLast?_reverse] at hc
    have := List.head?_dropWhile_not isTrail (rest.dropWhile isSep).reverse
    rw [hc] at this
    have h3 := (isTrail_iff c).mpr hw
    simp [h3] at this

/-! ### The table -/

theorem table_plain : ∀ e ∈ configTable, (e.name.head? ≠ some 35 ∧ e.name.any isGraph = true) ∧ e.name.all (fun c => !isSep c) = true := by decide +kernel

theorem table_find : ∀ e ∈ configTable, configTable.find? (fun x => x.name = e.name) = some e := by decide +kernel

theorem settings_other : ∀ e ∈ settings, e.name ≠ sInclude ∧ e.name ≠ sNotReserved := by decide +kernel

theorem include_ne : sNotReserved ≠ sInclude := by decide

theorem no_nul (l : List Nat) (h : 0 ∉ l) : l.takeWhile (fun c => decide (c ≠ 0)) = l := by
  have := takeWhile_all (fun c => decide (c ≠ 0)) l [] (by intro c hc; simp; rintro rfl; exact h hc)
  simpa using this

theorem doLine_skip (inc : List Nat → St → St × Bool) (file : List Nat) (n : Nat) (l : List Nat) (s : St) (ok : Bool) (h0 : 0 ∉ l) (h : Skipped l) :
    doLine inc file n l s ok = .next s ok := by
  unfold doLine
  dsimp only
  rw [no_nul l h0]
  rcases h with h | h
  · rw [if_pos h]
  · split
    · rfl
    · rw [if_pos]
      rw [List.all_eq_true]
      intro c hc
      have := h c hc
      simp [isGraph]; omega

/-- What a line with a tag of the table does. -/
def effect (inc : List Nat → St → St × Bool) (file : List Nat) (n : Nat) (e : Entry) (val : List Nat) (s : St) (ok : Bool) : Step :=
  let s := { s with isSet := put s.isSet e.name true }
  if e.name = sInclude then
    match inc (readString val) s with
    | (s, true) => .next s ok
    | (s, false) => .stop s
  else if e.name = sNotReserved then
    .next { s with nores := readString (readString val) :: s.nores } ok
  else
    let p := parse e val
    .next (assign s e p file n) (ok && p.2 = none)

theorem splits_parts {l tag value : List Nat} (h : Splits l tag value) : l.takeWhile (fun c => !isSep c) = tag ∧
    valueOf ((l.dropWhile (fun c => !isSep c)).drop 1) = value ∧ l.all (fun c => !isSep c) = false := by
  obtain ⟨sep, white, rfl, h1, h2, h3, h4, h5, h6⟩ := h
  have ht : ∀ c ∈ tag, (!isSep c) = true := by
    intro c hc
    have := h1 c hc
    rw [← isSep_iff] at this
    simpa using this
  cases sep with
  | nil => exact absurd rfl h2
  | cons c sep =>
    have hc : isSep c = true := (isSep_iff c).mpr (h3 c (by simp))
    refine ⟨?_, ?_, ?_⟩
    · simp only [List.append_assoc]
      rw [takeWhile_all _ _ _ ht, List.cons_append, List.takeWhile_cons, if_neg (by simp [hc]), List.append_nil]
    · simp only [List.append_assoc]
      rw [dropWhile_all _ _ _ ht, List.cons_append, List.dropWhile_cons, if_neg (by simp [hc]), List.drop_succ_cons, List.drop_zero,
        ← List.append_assoc]
      exact valueOf_splits sep value white (fun c hc => h3 c (by simp [hc])) h4 h5 h6
    · simp [hc]

theorem doLine_split (inc : List Nat → St → St × Bool) (file : List Nat) (n : Nat) (l : List Nat) (s : St) (ok : Bool) (h0 : 0 ∉ l)
    (e : Entry) (he : e ∈ configTable) (val : List Nat) (h : Splits l e.name val) :
    doLine inc file n l s ok = effect inc file n e val s ok := by
  obtain ⟨p1, p2, p3⟩ := splits_parts h
  have ht := table_plain e he
  have hpre : e.name <+: l := by
    obtain ⟨sep, white, rfl, _⟩ := h
    exact ⟨sep ++ val ++ white, by simp⟩
  unfold doLine
  dsimp only
  rw [no_nul l h0, if_neg, if_neg, if_neg (by rw [p3]; simp), p1, p2, table_find e he]
  · rfl
  · obtain ⟨r, rfl⟩ := hpre
    simp only [List.all_append, Bool.and_eq_true, not_and]
    intro hall
    exfalso
    obtain ⟨c, hc, hg⟩ := List.any_eq_true.mp ht.1.2
    have := (List.all_eq_true.mp hall) c hc
    simp [hg] at this
  · obtain ⟨r, rfl⟩ := hpre
    rw [List.head?_append]
    have h1 := ht.1.1
    have h2 := ht.1.2
    cases hn : e.name with
    | nil => rw [hn] at h2; simp at h2
    | cons c t =>
      rw [hn] at h1
      simpa using h1

/-- A line does nothing, is a bad one, or has a tag of the table. -/
theorem doLine_cases (inc : List Nat → St → St × Bool) (file : List Nat) (n : Nat) (l : List Nat) (s : St) (ok : Bool) (h0 : 0 ∉ l) :
    (Skipped l ∧ doLine inc file n l s ok = .next s ok) ∨
    (∃ k, doLine inc file n l s ok = .next (s.say file n k) false) ∨
    ∃ e ∈ configTable, ∃ val, Splits l e.name val ∧ doLine inc file n l s ok = effect inc file n e val s ok := by
  by_cases hsk : Skipped l
  · exact Or.inl ⟨hsk, doLine_skip inc file n l s ok h0 hsk⟩
  · by_cases hsep : l.all (fun c => !isSep c) = true
    · right; left
      refine ⟨.invalidLine, ?_⟩
      unfold doLine
      dsimp only
      rw [no_nul l h0, if_neg, if_neg, if_pos hsep]
      · intro h
        refine hsk (Or.inr ?_)
        intro c hc
        have := (List.all_eq_true.mp h) c hc
        simp [isGraph] at this
        omega
      · exact fun h => hsk (Or.inl h)
    · cases hf : configTable.find? (fun e => e.name = l.takeWhile (fun c => !isSep c)) with
      | none =>
        right; left
        refine ⟨.unknownTag, ?_⟩
        unfold doLine
        dsimp only
        rw [no_nul l h0, if_neg, if_neg, if_neg hsep, hf]
        · intro h
          refine hsk (Or.inr ?_)
          intro c hc
          have := (List.all_eq_true.mp h) c hc
          simp [isGraph] at this
          omega
        · exact fun h => hsk (Or.inl h)
      | some e =>
        right; right
        have he := List.mem_of_find?_eq_some hf
        have hn : e.name = l.takeWhile (fun c => !isSep c) := by simpa using List.find?_some hf
        have hsplit : ∃ val, Splits l e.name val := by
          cases hd : l.dropWhile (fun c => !isSep c) with
          | nil =>
            exfalso
            apply hsep
            have h1 := List.takeWhile_append_dropWhile (p := fun c => !isSep c) (l := l)
            rw [hd, List.append_nil] at h1
            rw [List.all_eq_true]
            intro c hc
            rw [← h1] at hc
            exact mem_takeWhile_imp (p := fun c => !isSep c) hc
          | cons c r =>
            have hl : l = l.takeWhile (fun c => !isSep c) ++ [c] ++ r := by
              rw [List.append_assoc, List.singleton_append, ← hd, List.takeWhile_append_dropWhile]
            have hc : Sep c := by
              have := List.head?_dropWhile_not (fun c => !isSep c) l
              rw [hd] at this
              rw [← isSep_iff]
              simpa using this
            refine ⟨valueOf r, ?_⟩
            rw [hl, hn]
            have := splits_valueOf [c] r (by simp) (by simpa using hc) (l.takeWhile (fun c => !isSep c)) (by
              intro x hx
              have := mem_takeWhile_imp hx
              rw [← isSep_iff]
              simpa using this)
            rwa [← hl] at this ⊢
        obtain ⟨val, hv⟩ := hsplit
        exact ⟨e, he, val, hv, doLine_split inc file n l s ok h0 e he val hv⟩

/-! ### The lines of a file -/

theorem fgetsGo_text (b : List Nat) (ls : List (List Nat)) (h : IsText b ls) : ∀ fuel, b.length ≤ fuel → fgetsGo fuel b = ls := by
  induction h with
  | nil => intro fuel _; cases fuel <;> rfl
  | last l h1 h2 h3 h4 =>
    intro fuel hf
    cases fuel with
    | zero => cases l with
      | nil => exact absurd rfl h1
      | cons c l => simp at hf
    | succ f =>
      cases l with
      | nil => exact absurd rfl h1
      | cons c l =>
        unfold fgetsGo
        dsimp only
        rw [List.take_of_length_le h4, if_pos, List.drop_length]
        · cases f <;> rfl
        · rw [List.all_eq_true]
          intro x hx
          simp only [ne_eq, decide_eq_true_eq]
          rintro rfl
          exact h2 hx
  | line l b ls h1 h2 h3 _ ih =>
    intro fuel hf
    cases fuel with
    | zero => simp at hf
    | succ f =>
      have hn : ∀ x ∈ l, (decide (x ≠ 10)) = true := by
        intro x hx
        simp only [ne_eq, decide_eq_true_eq]
        rintro rfl
        exact h1 hx
      have ht : (l ++ [10] ++ b).take 1023 = l ++ [10] ++ b.take (1022 - l.length) := by
        rw [List.append_assoc, List.append_assoc, List.take_append, List.take_of_length_le (by omega), List.singleton_append, List.singleton_append,
          show 1023 - l.length = (1022 - l.length) + 1 by omega, List.take_succ_cons]
      have hne : l ++ [10] ++ b ≠ [] := by simp
      rw [fgetsGo.eq_3 _ f hne]
      · rw [ht, if_neg]
        · have : (l ++ [10] ++ b.take (1022 - l.length)).takeWhile (fun x => decide (x ≠ 10)) = l := by
            rw [List.append_assoc, takeWhile_all _ _ _ hn]
            simp
          rw [this, List.drop_left, ih f (by simp at hf; omega)]
        · simp

theorem fgets_text (b : List Nat) (ls : List (List Nat)) (h : IsText b ls) : fgets b = ls := fgetsGo_text b ls h _ (Nat.le_refl _)

theorem text_no_nul (b : List Nat) (ls : List (List Nat)) (h : IsText b ls) : ∀ l ∈ ls, 0 ∉ l := by
  induction h with
  | nil => intro l hl; cases hl
  | last l h1 h2 h3 h4 => intro x hx; simp only [List.mem_singleton] at hx; subst hx; exact h3
  | line l b ls h1 h2 h3 _ ih =>
    intro x hx
    rcases List.mem_cons.mp hx with rfl | hx
    · simp [h2]
    · exact ih x hx

end Cob.Conf
