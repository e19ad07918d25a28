import Verif.Cobc.WordsProps
/-
C86: reserved words, functions and user words - the theorems.
-/
namespace Cob.Words

/-! ### Specification -/

/-- A `not-reserved:` line of the configuration names the word. -/
def Out (c : Ctx) (w : List Nat) : Prop := ∃ n ∈ c.nores, Same w n

/-- The word is the name of an implemented function where functions need no FUNCTION. -/
def IsFree (c : Ctx) (w : List Nat) (f : Function) : Prop :=
  c.allFunctions = true ∧ ¬ Out c w ∧ IsFunction w f ∧ f.implemented = true

/-- The word is a reserved word of the language that is in force, with the token `t`. -/
def IsToken (c : Ctx) (w : List Nat) (t : String) : Prop := ¬ Out c w ∧ ∃ r, IsReserved w r ∧ r.token = some t

/-- The word is neither: the program may define it. -/
def Free (c : Ctx) (w : List Nat) : Prop := (∀ f, ¬ IsFree c w f) ∧ ∀ t, ¬ IsToken c w t

/-! ### Lemmas -/

theorem takenOut_iff (c : Ctx) (w : List Nat) : takenOut c.nores w = true ↔ Out c w := by
  unfold takenOut Out
  simp only [List.any_eq_true, beq_iff_eq, casecmp_eq]

theorem Same.symm {a b : List Nat} (h : Same a b) : Same b a := Eq.symm h
theorem Same.trans {a b c : List Nat} (h : Same a b) (h' : Same b c) : Same a c := Eq.trans h h'

theorem search_table {α : Type} (name : α → List Nat) (l : List α) (h : Increasing (l.map name)) (w : List Nat) (a : α) :
    (bsearch (l.map name) w).bind (l[·]?) = some a ↔ a ∈ l ∧ Same w (name a) := by
  constructor
  · intro hb
    cases hk : bsearch (l.map name) w with
    | none => rw [hk] at hb; cases hb
    | some k =>
      rw [hk] at hb
      obtain ⟨h1, h2⟩ := (bsearch_iff _ h w k).mp hk
      simp only [List.length_map] at h1
      simp only [Option.bind_some, List.getElem?_eq_getElem h1, Option.some.injEq] at hb
      subst hb
      refine ⟨List.getElem_mem h1, ?_⟩
      simpa [List.getD_eq_getElem?_getD, List.getElem?_eq_getElem h1] using h2
  · rintro ⟨ha, hs⟩
    obtain ⟨k, hk, rfl⟩ := List.mem_iff_getElem.mp ha
    have := (bsearch_iff _ h w k).mpr ⟨by simpa using hk, by
      simpa [List.getD_eq_getElem?_getD, List.getElem?_eq_getElem hk] using hs⟩
    rw [this]
    simp [List.getElem?_eq_getElem hk]

theorem lookupIntrinsic_iff (c : Ctx) (w : List Nat) (f : Function) :
    lookupIntrinsic true c.nores w = some f ↔ ¬ Out c w ∧ IsFunction w f ∧ f.implemented = true := by
  unfold lookupIntrinsic
  by_cases ho : takenOut c.nores w = true
  · have := (takenOut_iff c w).mp ho
    rw [if_pos ⟨rfl, ho⟩]
    simp [this]
  · have hn : ¬ Out c w := fun h => ho ((takenOut_iff c w).mpr h)
    rw [if_neg (by simp [ho])]
    have hs := search_table (fun f : Function => f.name) functionList functions_increasing w
    cases hb : (bsearch (functionList.map (·.name)) w).bind (functionList[·]?) with
    | none =>
      simp only [reduceCtorEq, false_iff, not_and]
      intro _ hf _
      have := (hs f).mpr hf
      rw [hb] at this; cases this
    | some g =>
      have hg := (hs g).mp hb
      dsimp only
      constructor
      · intro h
        split at h
        · rename_i hi
          cases h
          exact ⟨hn, hg, hi⟩
        · cases h
      · rintro ⟨_, hf, hi⟩
        have := (hs f).mpr hf
        rw [hb] at this
        cases this
        rw [if_pos hi]

theorem lookupReserved_token (c : Ctx) (w : List Nat) (t : String) :
    lookupReserved c.nores w = .token t ↔ IsToken c w t := by
  unfold lookupReserved IsToken
  have hs := search_table (fun r : Reserved => r.name) reservedWords reserved_increasing w
  cases hb : bsearch (reservedWords.map (·.name)) w with
  | none =>
    simp only [reduceCtorEq, false_iff, not_and, not_exists]
    intro _ r hr _
    have := (hs r).mpr hr
    rw [hb] at this; cases this
  | some i =>
    dsimp only
    by_cases ho : takenOut c.nores w = true
    · have := (takenOut_iff c w).mp ho
      rw [if_pos ho]
      simp [this]
    · have hn : ¬ Out c w := fun h => ho ((takenOut_iff c w).mpr h)
      rw [if_neg ho]
      simp only [hb, Option.bind_some] at hs
      constructor
      · intro h
        split at h
        · rename_i t' ht
          cases h
          cases hr : reservedWords[i]? with
          | none => rw [hr] at ht; cases ht
          | some r =>
            rw [hr] at ht
            exact ⟨hn, r, (hs r).mp hr, ht⟩
        · cases h
      · rintro ⟨_, r, hr, ht⟩
        have := (hs r).mpr hr
        simp only [this, Option.bind_some, ht]

theorem lookupReserved_unsupported (c : Ctx) (w : List Nat) :
    lookupReserved c.nores w = .unsupported ↔ ¬ Out c w ∧ ∃ r, IsReserved w r ∧ r.token = none := by
  unfold lookupReserved
  have hs := search_table (fun r : Reserved => r.name) reservedWords reserved_increasing w
  cases hb : bsearch (reservedWords.map (·.name)) w with
  | none =>
    simp only [reduceCtorEq, false_iff, not_and, not_exists]
    intro _ r hr _
    have := (hs r).mpr hr
    rw [hb] at this; cases this
  | some i =>
    dsimp only
    by_cases ho : takenOut c.nores w = true
    · have := (takenOut_iff c w).mp ho
      rw [if_pos ho]
      simp [this]
    · have hn : ¬ Out c w := fun h => ho ((takenOut_iff c w).mpr h)
      rw [if_neg ho]
      have hi : i < reservedWords.length := by
        have := ((bsearch_iff _ reserved_increasing w i).mp hb).1
        simpa using this
      simp only [hb, Option.bind_some] at hs
      have hr := List.getElem?_eq_getElem hi
      have hm := (hs _).mp hr
      constructor
      · intro h
        refine ⟨hn, _, hm, ?_⟩
        rw [hr] at h
        simp only [Option.bind_some] at h
        split at h
        · cases h
        · assumption
      · rintro ⟨_, r, hr', ht⟩
        have := (hs r).mpr hr'
        simp only [this, Option.bind_some, ht]

theorem free_step (c : Ctx) (w : List Nat) (h : ∀ f, ¬ IsFree c w f) :
    (if c.allFunctions then lookupIntrinsic true c.nores w else none) = none := by
  split
  · rename_i ha
    cases hl : lookupIntrinsic true c.nores w with
    | none => rfl
    | some f => exact absurd ⟨ha, (lookupIntrinsic_iff c w f).mp hl⟩ (h f)
  · rfl

/-- The two steps behind the tables. -/
def rest (c : Ctx) (w : List Nat) : Word :=
  match c.constants.find? (fun p => casecmp w p.1 == .eq) with
  | some p => if c.noConstant then .refusedConstant else .constant p.2
  | none => userWord c w

theorem classify_free (c : Ctx) (w : List Nat) (h : Free c w) :
    classify c w = (rest c w, decide (lookupReserved c.nores w = .unsupported)) := by
  unfold classify rest
  rw [free_step c w h.1]
  dsimp only
  cases hl : lookupReserved c.nores w with
  | token t => exact absurd ((lookupReserved_token c w t).mp hl) (h.2 t)
  | none => cases c.constants.find? (fun p => casecmp w p.1 == .eq) <;> rfl
  | unsupported => cases c.constants.find? (fun p => casecmp w p.1 == .eq) <;> rfl

/-! ### The properties -/

/-- No word has two entries in a table, in whatever case it is written. -/
theorem C86_one_entry (w : List Nat) : (∀ r r', IsReserved w r → IsReserved w r' → r = r') ∧
    ∀ f f', IsFunction w f → IsFunction w f' → f = f' := by
  constructor
  · intro r r' h h'
    have hs := search_table (fun r : Reserved => r.name) reservedWords reserved_increasing w
    have h1 := (hs r).mpr h
    rw [(hs r').mpr h'] at h1
    exact (Option.some.inj h1).symm
  · intro r r' h h'
    have hs := search_table (fun r : Function => r.name) functionList functions_increasing w
    have h1 := (hs r).mpr h
    rw [(hs r').mpr h'] at h1
    exact (Option.some.inj h1).symm

/-- **C86, functions**: where FUNCTION ALL INTRINSIC was said, the word is a function exactly if it is the name of an implemented function and no
`not-reserved:` line names it, whatever else the program defines. -/
theorem C86_function (c : Ctx) (w : List Nat) (f : Function) : (classify c w).1 = .function f ↔ IsFree c w f := by
  constructor
  · intro h
    by_cases hf : ∃ g, IsFree c w g
    · obtain ⟨g, hg⟩ := hf
      have : classify c w = (.function g, false) := by
        unfold classify
        rw [if_pos hg.1, (lookupIntrinsic_iff c w g).mpr hg.2]
      rw [this] at h
      cases h
      exact hg
    · have hf' : ∀ g, ¬ IsFree c w g := fun g hg => hf ⟨g, hg⟩
      exfalso
      unfold classify at h
      rw [free_step c w hf'] at h
      dsimp only at h
      split at h
      · cases h
      · split at h
        · dsimp only at h; split at h <;> cases h
        · dsimp only at h; unfold userWord at h; split at h
          · cases h
          · split at h
            · cases h
            · split at h <;> cases h
  · intro hg
    unfold classify
    rw [if_pos hg.1, (lookupIntrinsic_iff c w f).mpr hg.2]

/-- **C86, reserved words**: a word has the token of a reserved word exactly if the table lists it, in any case, as supported, no `not-reserved:` line
names it, and it is no function that needs no FUNCTION here: no definition of the program changes that. -/
theorem C86_reserved (c : Ctx) (w : List Nat) (t : String) :
    (classify c w).1 = .token t ↔ IsToken c w t ∧ ∀ f, ¬ IsFree c w f := by
  constructor
  · intro h
    have hf : ∀ f, ¬ IsFree c w f := by
      intro f hf
      rw [(C86_function c w f).mpr hf] at h; cases h
    refine ⟨?_, hf⟩
    by_cases ht : ∃ t', IsToken c w t'
    · obtain ⟨t', ht⟩ := ht
      have : classify c w = (.token t', false) := by
        unfold classify
        rw [free_step c w hf]
        dsimp only
        rw [(lookupReserved_token c w t').mpr ht]
      rw [this] at h
      cases h
      exact ht
    · exfalso
      rw [classify_free c w ⟨hf, fun t' ht' => ht ⟨t', ht'⟩⟩] at h
      dsimp only at h
      unfold rest at h
      split at h
      · split at h <;> cases h
      · unfold userWord at h; split at h
        · cases h
        · split at h
          · cases h
          · split at h <;> cases h
  · rintro ⟨ht, hf⟩
    unfold classify
    rw [free_step c w hf]
    dsimp only
    rw [(lookupReserved_token c w t).mpr ht]

/-- **C86, not supported**: the message "reserved word, but not supported yet" comes exactly for the words that the table lists without a token, that no
`not-reserved:` line names and that are no functions here. -/
theorem C86_unsupported (c : Ctx) (w : List Nat) :
    (classify c w).2 = true ↔ ¬ Out c w ∧ (∃ r, IsReserved w r ∧ r.token = none) ∧ ∀ f, ¬ IsFree c w f := by
  by_cases hf : ∃ f, IsFree c w f
  · obtain ⟨f, hf⟩ := hf
    have : classify c w = (.function f, false) := by
      unfold classify
      rw [if_pos hf.1, (lookupIntrinsic_iff c w f).mpr hf.2]
    rw [this]
    simp only [Bool.false_eq_true, false_iff, not_and]
    intro _ _ h
    exact h f hf
  · have hf' : ∀ f, ¬ IsFree c w f := fun g hg => hf ⟨g, hg⟩
    by_cases ht : ∃ t, IsToken c w t
    · obtain ⟨t, ht⟩ := ht
      have : classify c w = (.token t, false) := by
        unfold classify
        rw [free_step c w hf']
        dsimp only
        rw [(lookupReserved_token c w t).mpr ht]
      rw [this]
      simp only [Bool.false_eq_true, false_iff, not_and]
      rintro _ ⟨r, hr, hn⟩
      obtain ⟨_, r', hr', ht'⟩ := ht
      rw [(C86_one_entry w).1 r r' hr hr', ht'] at hn
      cases hn
    · rw [classify_free c w ⟨hf', fun t' ht' => ht ⟨t', ht'⟩⟩]
      simp only [decide_eq_true_eq, lookupReserved_unsupported, hf', not_false_eq_true, implies_true, and_true]

/-- **C86, constants**: a word that is no function and no supported reserved word is the constant (level 78) of that name that was defined last. -/
theorem C86_constant (c : Ctx) (w : List Nat) (h : Free c w) (later earlier : List (List Nat × Nat)) (n : List Nat) (v : Nat)
    (hc : c.constants = later ++ (n, v) :: earlier) (hl : ∀ p ∈ later, ¬ Same w p.1) (hn : Same w n) :
    (classify c w).1 = if c.noConstant then .refusedConstant else .constant v := by
  rw [classify_free c w h]
  unfold rest
  have : c.constants.find? (fun p => casecmp w p.1 == .eq) = some (n, v) := by
    rw [hc, List.find?_append, List.find?_eq_none.mpr]
    · simp only [Option.none_or, List.find?_cons]
      rw [(casecmp_eq w n).mpr hn]
      rfl
    · intro p hp
      simp only [beq_iff_eq, casecmp_eq]
      exact hl p hp
  rw [this]

/-- The bytes of a text. -/
def bytesOf (s : String) : List Nat := s.toList.map Char.toNat

/-- The word that PROGRAM-STATUS and SORT-STATUS stand for where the configuration enables them. -/
def Stands (c : Ctx) (w v : List Nat) : Prop :=
  (c.programStatus = true ∧ Same w (bytesOf "PROGRAM-STATUS") ∧ v = bytesOf "RETURN-CODE") ∨
  (c.sortStatus = true ∧ Same w (bytesOf "SORT-STATUS") ∧ v = bytesOf "SORT-RETURN") ∨
  (¬ (c.programStatus = true ∧ Same w (bytesOf "PROGRAM-STATUS")) ∧ ¬ (c.sortStatus = true ∧ Same w (bytesOf "SORT-STATUS")) ∧ v = w)

theorem bytes_registers : bytesOf "PROGRAM-STATUS" = sProgramStatus ∧ bytesOf "RETURN-CODE" = sReturnCode ∧
    bytesOf "SORT-STATUS" = sSortStatus ∧ bytesOf "SORT-RETURN" = sSortReturn := by decide +kernel

theorem stands_alias (c : Ctx) (w v : List Nat) (h : Stands c w v) : standsFor c w = v := by
  unfold standsFor
  unfold Stands at h
  rw [bytes_registers.1, bytes_registers.2.1, bytes_registers.2.2.1, bytes_registers.2.2.2] at h
  simp only [casecmp_eq]
  rcases h with ⟨h1, h2, rfl⟩ | ⟨h1, h2, rfl⟩ | ⟨h1, h2, rfl⟩
  · rw [if_pos ⟨h1, h2⟩]
  · rw [if_neg, if_pos ⟨h1, h2⟩]
    rintro ⟨_, h3⟩
    have := h3.symm.trans h2
    revert this; decide
  · rw [if_neg h1, if_neg h2]

/-- **C86, the program's own words**: a word that is no function, no supported reserved word and no constant is, behind PROGRAM-ID and END PROGRAM, the
program name; else a class of the program if one has this name; else a mnemonic name if it is one; else a user word. -/
theorem C86_user (c : Ctx) (w v : List Nat) (h : Free c w) (hc : ∀ p ∈ c.constants, ¬ Same w p.1) (hv : Stands c w v) :
    (c.forcePid = true → (classify c w).1 = .programName w) ∧
    (c.forcePid = false → (∃ n ∈ c.classNames, Same n w) → (classify c w).1 = .className w) ∧
    (c.forcePid = false → (∀ n ∈ c.classNames, ¬ Same n w) → (∃ n ∈ c.mnemonics, Same n v) → (classify c w).1 = .mnemonic v) ∧
    (c.forcePid = false → (∀ n ∈ c.classNames, ¬ Same n w) → (∀ n ∈ c.mnemonics, ¬ Same n v) → (classify c w).1 = .user v) := by
  rw [classify_free c w h]
  unfold rest
  have hn : c.constants.find? (fun p => casecmp w p.1 == .eq) = none := by
    rw [List.find?_eq_none]
    intro p hp
    simp only [beq_iff_eq, casecmp_eq]
    exact hc p hp
  rw [hn]
  dsimp only
  unfold userWord
  rw [stands_alias c w v hv]
  simp only [List.any_eq_true, beq_iff_eq, casecmp_eq]
  refine ⟨fun h => by rw [if_pos h], fun h h1 => ?_, fun h h1 h2 => ?_, fun h h1 h2 => ?_⟩
  · rw [if_neg (by simp [h]), if_pos h1]
  · rw [if_neg (by simp [h]), if_neg (by rintro ⟨n, hn, hs⟩; exact h1 n hn hs), if_pos h2]
  · rw [if_neg (by simp [h]), if_neg (by rintro ⟨n, hn, hs⟩; exact h1 n hn hs), if_neg (by rintro ⟨n, hn, hs⟩; exact h2 n hn hs)]

/-- Two readings are the same word: of one kind and one meaning, with names that differ at most in case. -/
def Alike : Word → Word → Prop
  | .programName a, .programName b | .className a, .className b | .mnemonic a, .mnemonic b | .user a, .user b => Same a b
  | a, b => a = b

theorem alike_refl (a : Word) : Alike a a := by cases a <;> simp [Alike, Same]

theorem casecmp_eq_congr {w w' : List Nat} (h : Same w w') (n : List Nat) : (casecmp w n == .eq) = (casecmp w' n == .eq) := by
  rw [Bool.eq_iff_iff]
  simp only [beq_iff_eq, casecmp_eq]
  exact ⟨h.symm.trans, h.trans⟩

theorem casecmp_eq_congr' {w w' : List Nat} (h : Same w w') (n : List Nat) : (casecmp n w == .eq) = (casecmp n w' == .eq) := by
  rw [Bool.eq_iff_iff]
  simp only [beq_iff_eq, casecmp_eq]
  exact ⟨fun h' => h'.trans h, fun h' => h'.trans h.symm⟩

theorem alias_congr (c : Ctx) {w w' : List Nat} (h : Same w w') : Same (standsFor c w) (standsFor c w') := by
  unfold standsFor
  have h1 := casecmp_eq_congr h sProgramStatus
  have h2 := casecmp_eq_congr h sSortStatus
  rw [Bool.eq_iff_iff] at h1 h2
  simp only [beq_iff_eq] at h1 h2
  simp only [h1, h2]
  split
  · rfl
  · split
    · rfl
    · exact h

/-- **C86, case**: words that differ only in the case of their letters are the same kind of word, with the same messages, whatever the tables, the
configuration and the program say. -/
theorem C86_case (c : Ctx) (w w' : List Nat) (h : Same w w') :
    Alike (classify c w).1 (classify c w').1 ∧ (classify c w).2 = (classify c w').2 := by
  have hout : Out c w ↔ Out c w' := by
    unfold Out
    exact ⟨fun ⟨n, hn, hs⟩ => ⟨n, hn, h.symm.trans hs⟩, fun ⟨n, hn, hs⟩ => ⟨n, hn, h.trans hs⟩⟩
  have hfun : ∀ f, IsFree c w f ↔ IsFree c w' f := by
    intro f
    unfold IsFree IsFunction
    rw [hout]
    have : Same w f.name ↔ Same w' f.name := ⟨h.symm.trans, h.trans⟩
    rw [this]
  have htok : ∀ t, IsToken c w t ↔ IsToken c w' t := by
    intro t
    unfold IsToken IsReserved
    rw [hout]
    have : ∀ r : Reserved, Same w r.name ↔ Same w' r.name := fun r => ⟨h.symm.trans, h.trans⟩
    simp only [this]
  constructor
  · by_cases hf : ∃ f, IsFree c w f
    · obtain ⟨f, hf⟩ := hf
      rw [(C86_function c w f).mpr hf, (C86_function c w' f).mpr ((hfun f).mp hf)]
      exact alike_refl _
    · have hf' : ∀ f, ¬ IsFree c w f := fun g hg => hf ⟨g, hg⟩
      by_cases ht : ∃ t, IsToken c w t
      · obtain ⟨t, ht⟩ := ht
        rw [(C86_reserved c w t).mpr ⟨ht, hf'⟩, (C86_reserved c w' t).mpr ⟨(htok t).mp ht, fun f hf => hf' f ((hfun f).mpr hf)⟩]
        exact alike_refl _
      · have ht' : ∀ t, ¬ IsToken c w t := fun g hg => ht ⟨g, hg⟩
        rw [classify_free c w ⟨hf', ht'⟩, classify_free c w' ⟨fun f hf => hf' f ((hfun f).mpr hf), fun t ht => ht' t ((htok t).mpr ht)⟩]
        dsimp only
        unfold rest
        rw [show (fun p : List Nat × Nat => casecmp w p.1 == Ordering.eq) = fun p => casecmp w' p.1 == Ordering.eq from
          funext fun p => casecmp_eq_congr h p.1]
        split
        · split <;> exact alike_refl _
        · unfold userWord
          rw [show (fun n : List Nat => casecmp n w == Ordering.eq) = fun n => casecmp n w' == Ordering.eq from
              funext fun n => casecmp_eq_congr' h n,
            show (fun n : List Nat => casecmp n (standsFor c w) == Ordering.eq) = fun n => casecmp n (standsFor c w') == Ordering.eq from
              funext fun n => casecmp_eq_congr' (alias_congr c h) n]
          split
          · exact h
          · split
            · exact h
            · split
              · exact alias_congr c h
              · exact alias_congr c h
  · rw [Bool.eq_iff_iff, C86_unsupported, C86_unsupported, hout]
    have : ∀ r : Reserved, Same w r.name ↔ Same w' r.name := fun r => ⟨h.symm.trans, h.trans⟩
    unfold IsReserved
    simp only [this, hfun]

/-! ### Examples -/

/-- The characters of a text. -/
def bytes (s : String) : List Nat := s.toList.map Char.toNat

/-- move is MOVE -/
example : classify {} (bytes "move") = (.token "MOVE", false) := by decide +kernel

example : IsToken {} (bytes "Move") "MOVE" := by
  refine ⟨fun ⟨n, hn, _⟩ => absurd hn (by simp), ⟨bytes "MOVE", some "MOVE"⟩, ?_, rfl⟩
  unfold IsReserved
  decide +kernel

/-- with `not-reserved: MOVE` it is a word of the program -/
example : classify { nores := [bytes "MOVE"] } (bytes "Move") = (.user (bytes "Move"), false) := by decide +kernel

example : classify { allFunctions := true } (bytes "upper-case") = (.function ⟨bytes "UPPER-CASE", 1, true⟩, false) := by decide +kernel

example : classify {} (bytes "upper-case") = (.user (bytes "upper-case"), false) := by decide +kernel

example : classify { constants := [(bytes "MAX-LEN", 80), (bytes "max-len", 72)] } (bytes "max-len") = (.constant 80, false) := by decide +kernel

example : classify { classNames := [bytes "VOWEL"], mnemonics := [bytes "KBD"] } (bytes "vowel") = (.className (bytes "vowel"), false) := by decide +kernel

example : classify { classNames := [bytes "VOWEL"], mnemonics := [bytes "KBD"] } (bytes "kbd") = (.mnemonic (bytes "kbd"), false) := by decide +kernel

example : Free {} (bytes "upper-case") ∧ Stands {} (bytes "upper-case") (bytes "upper-case") := by
  refine ⟨⟨fun f hf => absurd hf.1 (by decide), fun t ht => ?_⟩, Or.inr (Or.inr ⟨fun h => absurd h.1 (by decide), fun h => absurd h.1 (by decide), rfl⟩)⟩
  have := (lookupReserved_token {} _ t).mpr ht
  revert this
  rw [show lookupReserved ({} : Ctx).nores (bytes "upper-case") = .none by decide +kernel]
  exact nofun

/-! ### Findings -/

/-- Finding: a reserved word that is not supported is reported and then taken for a word of the program (`TABLE`), so the program gets both the message
and a definition. -/
theorem C86_finding_unsupported_defined : classify {} (bytes "TABLE") = (.user (bytes "TABLE"), true) := by decide +kernel

/-- Finding: with FUNCTION ALL INTRINSIC, LENGTH is no longer a reserved word in the PROCEDURE DIVISION (so `LENGTH OF X` is not read as the register). -/
theorem C86_finding_length : classify { allFunctions := true } (bytes "LENGTH") = (.function ⟨bytes "LENGTH", 1, true⟩, false) ∧
    classify {} (bytes "LENGTH") = (.token "LENGTH", false) := by decide +kernel

/-- Finding: a class that the program calls RETURN-CODE is not found under PROGRAM-STATUS, although everything else under that name is RETURN-CODE;
one called PROGRAM-STATUS is. -/
theorem C86_finding_alias : classify { programStatus := true, classNames := [sReturnCode] } sProgramStatus = (.user sReturnCode, false) ∧
    classify { programStatus := true, mnemonics := [sReturnCode] } sProgramStatus = (.mnemonic sReturnCode, false) := by decide +kernel

/-- Finding: behind PROGRAM-ID a constant is still replaced by its value, so a program cannot be called like a constant. -/
theorem C86_finding_program_name :
    (classify { forcePid := true, constants := [(bytes "PROG", 7)] } (bytes "PROG")).1 = .constant 7 := by decide +kernel

end Cob.Words
