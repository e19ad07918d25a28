import Verif.Cobc.RefsSpec
namespace Cob

/-! ### Names as they are written -/

theorem hex_inj {a b : Nat} (ha : a < 256) (hb : b < 256) (h : hex2 a = hex2 b) : a = b := by
  unfold hex2 at h
  dsimp only at h
  simp only [List.cons.injEq, and_true] at h
  obtain ⟨h1, h2⟩ := h
  split at h1 <;> split at h1 <;> split at h2 <;> split at h2 <;> omega

theorem low_hex (c : Nat) : ∀ x ∈ hex2 c, (48 ≤ x ∧ x ≤ 57) ∨ (65 ≤ x ∧ x ≤ 70) := by
  intro x hx
  unfold hex2 at hx
  dsimp only at hx
  simp only [List.mem_cons, List.not_mem_nil, or_false] at hx
  rcases hx with e | e <;> subst e <;> split <;> omega

theorem low_inj_hex {x y : Nat} (hx : (48 ≤ x ∧ x ≤ 57) ∨ (65 ≤ x ∧ x ≤ 70))
    (hy : (48 ≤ y ∧ y ≤ 57) ∨ (65 ≤ y ∧ y ≤ 70)) (h : lowW x = lowW y) : x = y := by
  unfold lowW at h
  split at h <;> split at h <;> omega

theorem hexes_inj : ∀ {a b : List Nat}, (∀ c ∈ a, c < 256) → (∀ c ∈ b, c < 256) → a.length = b.length →
    (a.flatMap hex2).map lowW = (b.flatMap hex2).map lowW → a = b
  | [], [], _, _, _, _ => rfl
  | [], _ :: _, _, _, h, _ => by simp at h
  | _ :: _, [], _, _, h, _ => by simp at h
  | x :: a, y :: b, ha, hb, hl, h => by
    have hx : (hex2 x).length = 2 := rfl
    rw [List.flatMap_cons, List.flatMap_cons, List.map_append, List.map_append] at h
    obtain ⟨h1, h2⟩ := List.append_inj h rfl
    have e1 : hex2 x = hex2 y := by
      have g1 := low_hex x
      have g2 := low_hex y
      cases e : hex2 x with
      | nil => rw [e] at hx; simp at hx
      | cons u r =>
        cases e' : hex2 y with
        | nil => cases e'
        | cons u' r' =>
          have hr : r.length = 1 := by rw [e] at hx; simpa using hx
          have hr' : r'.length = 1 := by
            have : (hex2 y).length = 2 := rfl
            rw [e'] at this
            simpa using this
          match r, r', hr, hr' with
          | [v], [v'], _, _ =>
            rw [e] at h1 g1
            rw [e'] at h1 g2
            simp only [List.map_cons, List.map_nil, List.cons.injEq, and_true] at h1
            rw [low_inj_hex (g1 u (by simp)) (g2 u' (by simp)) h1.1,
              low_inj_hex (g1 v (by simp)) (g2 v' (by simp)) h1.2]
    rw [hex_inj (ha x (by simp)) (hb y (by simp)) e1,
      hexes_inj (fun c hc => ha c (List.mem_cons_of_mem _ hc))
        (fun c hc => hb c (List.mem_cons_of_mem _ hc)) (by simpa using hl) h2]

theorem low_case {x y : Nat} :
    lowW x = lowW y ↔
      (x = y ∨ (65 ≤ x ∧ x ≤ 90 ∧ y = x + 32) ∨ (65 ≤ y ∧ y ≤ 90 ∧ x = y + 32)) := by
  unfold lowW
  split <;> split <;> omega

theorem case_words : ∀ {a b : List Nat},
    (a.map lowW = b.map lowW ↔ List.Forall₂ (fun x y => x = y ∨ (65 ≤ x ∧ x ≤ 90 ∧ y = x + 32) ∨
      (65 ≤ y ∧ y ≤ 90 ∧ x = y + 32)) a b)
  | [], [] => by simp
  | [], _ :: _ => by simp
  | _ :: _, [] => by simp
  | x :: a, y :: b => by
    rw [List.map_cons, List.map_cons, List.cons.injEq, List.forall₂_cons, case_words, low_case]

theorem same_iff {a b : List Nat} : sameWord a b = true ↔ a.map lowW = b.map lowW := by
  unfold sameWord
  rw [Bool.and_eq_true, beq_iff_eq, beq_iff_eq]
  constructor
  · exact fun h => h.2
  · intro h
    have := congrArg List.length h
    rw [List.length_map, List.length_map] at this
    exact ⟨this, h⟩

/-- **C71** Two words of the source text are one name for the compiler
exactly when they differ at most in the case of ASCII letters; words with
other characters (Kanji) when they are the same bytes. -/
theorem C71_same_name (a b : List Nat) (ha : ∀ c ∈ a, c < 256) (hb : ∀ c ∈ b, c < 256)
    (ha1 : a.head? ≠ some 95) (hb1 : b.head? ≠ some 95) :
    sameWord (hexWord a) (hexWord b) = true ↔ SameName a b := by
  have asc : ∀ l : List Nat, (l.any (fun c => decide (128 ≤ c)) = true) ↔ ¬ ∀ c ∈ l, c < 128 := by
    intro l
    rw [List.any_eq_true]
    constructor
    · rintro ⟨x, hx, hx2⟩ h
      have := h x hx
      simp only [decide_eq_true_eq] at hx2
      omega
    · intro h
      apply Classical.byContradiction
      intro hn
      apply h
      intro c hc
      apply Classical.byContradiction
      intro hc2
      exact hn ⟨c, hc, by simp only [decide_eq_true_eq]; omega⟩
  have under : ∀ (l m : List Nat), m.head? ≠ some 95 → (∀ c ∈ m, c < 128) →
      ([95, 95, 95] ++ l ++ [95, 95, 95]).map lowW ≠ m.map lowW := by
    intro l m hm hm2 h
    cases m with
    | nil => simp at h
    | cons x r =>
      simp only [List.cons_append, List.map_cons, List.cons.injEq] at h
      apply hm
      have h1 := h.1
      unfold lowW at h1
      rw [List.head?_cons]
      split at h1
      · omega
      · split at h1
        · omega
        · rw [← h1]
  have hx1 : ∀ l : List Nat, (∀ c ∈ l, c < 128) → hexWord l = l := fun l h => by
    unfold hexWord
    rw [if_neg (fun h2 => (asc l).1 h2 h)]
  have hx2 : ∀ l : List Nat, (¬ ∀ c ∈ l, c < 128) →
      hexWord l = [95, 95, 95] ++ l.flatMap hex2 ++ [95, 95, 95] := fun l h => by
    unfold hexWord
    rw [if_pos ((asc l).2 h)]
  rw [same_iff]
  unfold SameName
  by_cases h1 : ∀ c ∈ a, c < 128
  · rw [hx1 a h1]
    by_cases h2 : ∀ c ∈ b, c < 128
    · rw [hx1 b h2, if_pos ⟨h1, h2⟩]
      exact case_words
    · rw [hx2 b h2, if_neg (fun h => h2 h.2)]
      constructor
      · intro h
        exact absurd h.symm (under _ _ ha1 h1)
      · intro h
        subst h
        exact absurd h1 h2
  · rw [hx2 a h1, if_neg (fun h => h1 h.1)]
    by_cases h2 : ∀ c ∈ b, c < 128
    · rw [hx1 b h2]
      constructor
      · intro h
        exact absurd h (under _ _ hb1 h2)
      · intro h
        subst h
        exact absurd h2 h1
    · rw [hx2 b h2]
      constructor
      · intro h
        have hlen : ∀ l : List Nat, (l.flatMap hex2).length = 2 * l.length := by
          intro l
          induction l with
          | nil => rfl
          | cons x r ih =>
            rw [List.flatMap_cons, List.length_append, ih]
            have : (hex2 x).length = 2 := rfl
            rw [this, List.length_cons]
            omega
        have hl := congrArg List.length h
        simp only [List.length_map, List.length_append, hlen] at hl
        rw [List.map_append, List.map_append, List.map_append, List.map_append] at h
        have h3 := (List.append_inj h (by simp [hlen]; omega)).1
        have h4 := (List.append_inj h3 rfl).2
        exact hexes_inj ha hb (by omega) h4
      · intro h
        rw [h]

example : sameWord (hexWord [65, 98, 45, 49]) (hexWord [97, 66, 45, 49]) = true := by decide

/-! ### Qualifiers -/

theorem surrounded_tail {q : List Nat} {c o : List (List Nat)} (h : Surrounded (q :: c) o) :
    Surrounded c o := by
  generalize hx : q :: c = x at h
  induction h with
  | nil => cases hx
  | skip _ ih => exact .skip (ih hx)
  | take _ h _ => cases hx; exact .skip h

theorem match_split : ∀ (o c : List (List Nat)),
    ∃ m, c = m ++ matchOuter c o ∧ Surrounded m o
  | [], c => ⟨[], by rw [matchOuter.eq_def]; cases c <;> rfl, .nil⟩
  | p :: r, [] => by
    obtain ⟨m, h1, h2⟩ := match_split r []
    have e : matchOuter [] (p :: r) = matchOuter [] r := rfl
    refine ⟨m, by rw [e]; exact h1, .skip h2⟩
  | p :: r, q :: c => by
    have e : matchOuter (q :: c) (p :: r) =
        if sameWord q p then matchOuter c r else matchOuter (q :: c) r := rfl
    rw [e]
    by_cases h : sameWord q p = true
    · rw [if_pos h]
      obtain ⟨m, h1, h2⟩ := match_split r c
      exact ⟨q :: m, congrArg (q :: ·) h1, .take h h2⟩
    · rw [if_neg h]
      obtain ⟨m, h1, h2⟩ := match_split r (q :: c)
      exact ⟨m, h1, .skip h2⟩

theorem match_most : ∀ (o c m r' : List (List Nat)), Surrounded m o → c = m ++ r' →
    ∃ t, r' = t ++ matchOuter c o
  | [], c, m, r', hs, h => by
    cases hs
    have e : matchOuter c [] = c := by cases c <;> rfl
    exact ⟨[], by rw [e, h]; rfl⟩
  | p :: r, [], m, r', hs, h => by
    have h := h.symm
    rw [List.append_eq_nil_iff] at h
    have e : matchOuter [] (p :: r) = matchOuter [] r := rfl
    rw [e]
    exact match_most r [] [] r' .nil (by rw [h.2]; rfl)
  | p :: r, q :: c, m, r', hs, h => by
    have e : matchOuter (q :: c) (p :: r) =
        if sameWord q p then matchOuter c r else matchOuter (q :: c) r := rfl
    rw [e]
    by_cases hq : sameWord q p = true
    · rw [if_pos hq]
      cases m with
      | nil =>
        obtain ⟨t, ht⟩ := match_most r c [] c .nil rfl
        refine ⟨q :: t, ?_⟩
        rw [List.nil_append] at h
        rw [← h, List.cons_append, ← ht]
      | cons x m =>
        rw [List.cons_append, List.cons.injEq] at h
        have hm : Surrounded m r := by
          cases hs with
          | skip hs => exact surrounded_tail hs
          | take _ hs => exact hs
        exact match_most r c m r' hm h.2
    · rw [if_neg hq]
      cases hs with
      | nil => exact match_most r (q :: c) [] r' .nil h
      | skip hs => exact match_most r (q :: c) m r' hs h
      | @take x m _ _ hx hs =>
        rw [List.cons_append, List.cons.injEq] at h
        rw [← h.1] at hx
        exact absurd hx hq

theorem match_nil {o c : List (List Nat)} : matchOuter c o = [] ↔ Surrounded c o := by
  constructor
  · intro h
    obtain ⟨m, h1, h2⟩ := match_split o c
    rw [h, List.append_nil] at h1
    rw [h1]
    exact h2
  · intro h
    obtain ⟨t, ht⟩ := match_most o c c [] h (by simp)
    have := ht.symm
    rw [List.append_eq_nil_iff] at this
    exact this.2

theorem match_one {o c : List (List Nat)} {q : List Nat} (h : matchOuter c o = [q]) :
    ∃ m, c = m ++ [q] ∧ Surrounded m o := by
  obtain ⟨m, h1, h2⟩ := match_split o c
  rw [h] at h1
  exact ⟨m, h1, h2⟩

theorem match_last {o m : List (List Nat)} {q : List Nat} (h : Surrounded m o) :
    matchOuter (m ++ [q]) o = [] ∨ matchOuter (m ++ [q]) o = [q] := by
  obtain ⟨t, ht⟩ := match_most o (m ++ [q]) m [q] h rfl
  cases t with
  | nil => exact .inr ht.symm
  | cons x t =>
    rw [List.cons_append, List.cons.injEq] at ht
    have := ht.2.symm
    rw [List.append_eq_nil_iff] at this
    exact .inl this.2

theorem groups_eq (P : NProg) (d : NDef) :
    (outerItems P d).map (nodeName P.nodes) = groupNames P d := by
  cases d <;> rfl

theorem file_iff (P : NProg) (pos : Nat) (q : List Nat) :
    isFileQual P P true (.data pos) q = true ↔ FileWord P pos q := by
  unfold isFileQual FileWord
  cases h : itemsOf P q with
  | nil => simp
  | cons f r =>
    cases r with
    | nil =>
      simp only [Bool.true_and, Bool.and_eq_true, beq_iff_eq, recordOf, Option.bind_some]
      constructor
      · exact fun h => ⟨f, rfl, h.1, h.2⟩
      · rintro ⟨f', h1, h2, h3⟩
        cases h1
        exact ⟨h2, h3⟩
    | cons g r => simp

theorem field_data (P : NProg) (pos : Nat) (chain : List (List Nat)) :
    fieldRest P P true (.data pos) chain = [] ↔
      (Surrounded chain (groupNames P (.data pos)) ∨
        ∃ qs q, chain = qs ++ [q] ∧ Surrounded qs (groupNames P (.data pos)) ∧ FileWord P pos q) := by
  unfold fieldRest
  rw [groups_eq]
  generalize groupNames P (.data pos) = o
  constructor
  · intro h
    split at h
    · rename_i q hm
      split at h
      · rename_i hf
        obtain ⟨m, h1, h2⟩ := match_one hm
        exact .inr ⟨m, q, h1, h2, (file_iff P pos q).1 hf⟩
      · cases h
    · exact .inl (match_nil.1 h)
  · rintro (h | ⟨qs, q, h1, h2, h3⟩)
    · rw [match_nil.2 h]
    · subst h1
      rcases match_last (q := q) h2 with h | h
      · rw [h]
      · rw [h]
        dsimp only
        rw [if_pos ((file_iff P pos q).2 h3)]

theorem no_file (cur P : NProg) (same : Bool) (t : Nat) (q : List Nat) :
    isFileQual cur P same (.index t) q = false := by
  unfold isFileQual
  split
  · simp [recordOf]
  · rfl

theorem no_file_global (cur P : NProg) (d : NDef) (q : List Nat) :
    isFileQual cur P false d q = false := by
  unfold isFileQual
  split
  · simp
  · rfl

theorem field_plain (cur P : NProg) (same : Bool) (d : NDef) (chain : List (List Nat))
    (h : ∀ q, isFileQual cur P same d q = false) :
    fieldRest cur P same d chain = [] ↔ Surrounded chain (groupNames P d) := by
  unfold fieldRest
  rw [groups_eq, ← match_nil]
  split
  · rename_i q hm
    rw [h q, hm]
    simp
  · rfl

theorem own_iff (P : NProg) (chain : List (List Nat)) (i : Nat) :
    ownRest P chain i = [] ↔ FitsQuals P chain i := by
  unfold ownRest FitsQuals
  cases defAt P i with
  | data pos => exact field_data P pos chain
  | index t => exact field_plain P P true (.index t) chain (no_file P P true t)
  | label s =>
    cases s with
    | none => cases chain <;> simp
    | some s =>
      cases chain with
      | nil => simp
      | cons q c =>
        dsimp only
        by_cases h : sameWord q (wordAt P s) = true
        · rw [if_pos h]
          constructor
          · intro e; subst e; exact .inr ⟨q, rfl, h⟩
          · rintro (e | ⟨q', e, _⟩)
            · cases e
            · cases e; rfl
        · rw [if_neg h]
          constructor
          · intro e; cases e
          · rintro (e | ⟨q', e, h'⟩)
            · cases e
            · cases e; exact absurd h' h
  | file => exact Iff.rfl
  | other => exact Iff.rfl

theorem global_iff (cur P : NProg) (name : List Nat) (chain : List (List Nat)) (i : Nat) :
    (i ∈ itemsOf P name ∧ globalRest cur P chain i = some []) ↔ MeantGlobal P name chain i := by
  unfold globalRest MeantGlobal
  refine and_congr Iff.rfl ?_
  cases defAt P i with
  | data pos =>
    dsimp only
    by_cases h : P.isGlobal i = true
    · rw [if_pos h, Option.some.injEq, field_plain cur P false (.data pos) chain (no_file_global _ _ _)]
      exact ⟨fun x => ⟨h, x⟩, fun x => x.2⟩
    · rw [if_neg h]
      exact ⟨fun x => (by cases x), fun x => absurd x.1 h⟩
  | index t =>
    dsimp only
    by_cases h : P.isGlobal i = true
    · rw [if_pos h, Option.some.injEq, field_plain cur P false (.index t) chain (no_file_global _ _ _)]
      exact ⟨fun x => ⟨h, x⟩, fun x => x.2⟩
    · rw [if_neg h]
      exact ⟨fun x => (by cases x), fun x => absurd x.1 h⟩
  | label s => exact ⟨Option.some.inj, fun h => congrArg some h⟩
  | file => exact ⟨Option.some.inj, fun h => congrArg some h⟩
  | other => exact ⟨Option.some.inj, fun h => congrArg some h⟩

/-! ### The loops -/

/-- What a scan for candidates leaves. -/
def scanned (fit : Nat → Bool) (l : List Nat) (cand : Option Nat) (amb : Bool) : Option Nat × Bool :=
  match cand with
  | some c => (some c, amb || l.any fit)
  | none =>
    match l.filter fit with
    | [] => (none, amb)
    | i :: r => (some i, amb || !r.isEmpty)

theorem scanned_none {fit : Nat → Bool} {l : List Nat} {amb : Bool} :
    scanned fit l none amb = match l.filter fit with
      | [] => (none, amb)
      | i :: r => (some i, amb || !r.isEmpty) := rfl

theorem any_filter {fit : Nat → Bool} {l : List Nat} : l.any fit = !(l.filter fit).isEmpty := by
  induction l with
  | nil => rfl
  | cons x r ih =>
    rw [List.any_cons, List.filter_cons]
    cases h : fit x with
    | true => simp
    | false => simp [ih]

theorem loop_scan (P : NProg) (chain : List (List Nat)) (offset : Option Nat) :
    ∀ (l : List Nat) (cand : Option Nat) (amb : Bool),
    (chain = [] → ∀ s, offset = some s → ∀ i ∈ l, inSection P s i = false) →
    refLoop P chain offset l cand amb =
      .inr (scanned (fun i => (ownRest P chain i).isEmpty) l cand amb)
  | [], cand, amb, _ => by
    cases cand with
    | none => rfl
    | some c => simp [refLoop, scanned]
  | i :: r, cand, amb, h => by
    rw [refLoop.eq_def]
    dsimp only
    rw [if_neg]
    · have ih := fun c a => loop_scan P chain offset r c a
        (fun h1 s h2 j hj => h h1 s h2 j (List.mem_cons_of_mem _ hj))
      cases hf : (ownRest P chain i).isEmpty with
      | true =>
        rw [if_pos rfl]
        cases cand with
        | none =>
          dsimp only
          rw [ih]
          unfold scanned
          dsimp only
          rw [List.filter_cons, hf, if_pos rfl, any_filter]
        | some c =>
          dsimp only
          rw [ih]
          unfold scanned
          dsimp only
          rw [List.any_cons, hf]
          simp
      | false =>
        rw [if_neg (by simp), ih]
        cases cand with
        | none => unfold scanned; rw [List.filter_cons, hf]; rfl
        | some c => unfold scanned; rw [List.any_cons, hf]; rfl
    · rintro ⟨h1, h2⟩
      have h1 : chain = [] := List.isEmpty_iff.1 h1
      cases offset with
      | none => cases h2
      | some s =>
        have := h h1 s rfl i List.mem_cons_self
        dsimp only at h2
        rw [this] at h2
        cases h2

theorem check_scan (cur P : NProg) (chain : List (List Nat)) :
    ∀ (l : List Nat) (cand : Option Nat) (amb : Bool),
    globalCheck cur P chain l cand amb =
      scanned (fun i => globalRest cur P chain i == some []) l cand amb
  | [], cand, amb => by
    cases cand with
    | none => rfl
    | some c => simp [globalCheck, scanned]
  | i :: r, cand, amb => by
    rw [globalCheck.eq_def]
    dsimp only
    by_cases hf : globalRest cur P chain i = some []
    · rw [if_pos hf]
      have hb : (globalRest cur P chain i == some []) = true := by rw [hf]; rfl
      cases cand with
      | none =>
        dsimp only
        rw [check_scan]
        unfold scanned
        dsimp only
        rw [List.filter_cons, hb, if_pos rfl, any_filter]
      | some c =>
        dsimp only
        rw [check_scan]
        unfold scanned
        dsimp only
        rw [List.any_cons, hb]
        simp
    · rw [if_neg hf, check_scan]
      have hb : (globalRest cur P chain i == some []) = false := by
        rw [beq_eq_false_iff_ne]; exact hf
      cases cand with
      | none => unfold scanned; rw [List.filter_cons, hb]; rfl
      | some c => unfold scanned; rw [List.any_cons, hb]; rfl

theorem items_nodup (P : NProg) (name : List Nat) : (itemsOf P name).Nodup :=
  List.Pairwise.sublist List.filter_sublist List.nodup_range

/-- Three cases of a scan, by the candidates there are. -/
theorem scan_cases {fit : Nat → Bool} {l : List Nat} {M : Nat → Prop} (nd : l.Nodup)
    (hM : ∀ i, M i ↔ i ∈ l ∧ fit i = true) :
    (∀ i, M i → (∀ j, M j → j = i) → scanned fit l none false = (some i, false)) ∧
    (∀ i j, M i → M j → i ≠ j → ∃ k, scanned fit l none false = (some k, true)) ∧
    ((∀ i, ¬ M i) → scanned fit l none false = (none, false)) := by
  rw [scanned_none]
  have hmem : ∀ i, i ∈ l.filter fit ↔ M i := fun i => by rw [List.mem_filter, hM]
  have nd' : (l.filter fit).Nodup := List.Pairwise.sublist List.filter_sublist nd
  cases h : l.filter fit with
  | nil =>
    rw [h] at hmem
    refine ⟨fun i hi _ => ?_, fun i j hi _ _ => ?_, fun _ => rfl⟩
    · exact absurd ((hmem i).2 hi) (by simp)
    · exact absurd ((hmem i).2 hi) (by simp)
  | cons x r =>
    rw [h] at hmem nd'
    have hx : M x := (hmem x).1 List.mem_cons_self
    refine ⟨fun i hi hu => ?_, fun i j hi hj hne => ?_, fun hn => absurd hx (hn x)⟩
    · have hxi := hu x hx
      subst hxi
      cases r with
      | nil => rfl
      | cons y r =>
        have := hu y ((hmem y).1 (by simp))
        subst this
        simp at nd'
    · cases r with
      | nil =>
        have h1 := (hmem i).2 hi
        have h2 := (hmem j).2 hj
        simp only [List.mem_singleton] at h1 h2
        exact absurd (h1.trans h2.symm) hne
      | cons y r => exact ⟨x, rfl⟩

theorem meant_fit (P : NProg) (name : List Nat) (quals : List (List Nat)) (i : Nat) :
    Meant P name quals i ↔ i ∈ itemsOf P name ∧ (ownRest P quals i).isEmpty = true := by
  unfold Meant
  rw [List.isEmpty_iff, own_iff]

theorem meantGlobal_fit (cur P : NProg) (name : List Nat) (quals : List (List Nat)) (i : Nat) :
    MeantGlobal P name quals i ↔
      i ∈ itemsOf P name ∧ (globalRest cur P quals i == some []) = true := by
  rw [← global_iff cur, beq_iff_eq]

/-! ### The theorems -/

theorem not_local {P : NProg} {name : List Nat} {quals : List (List Nat)} {offset : Option Nat}
    (h : NotLocal P name quals offset) :
    quals = [] → ∀ s, offset = some s → ∀ i ∈ itemsOf P name, inSection P s i = false := by
  intro h1 s h2 i hi
  unfold inSection
  rw [beq_eq_false_iff_ne]
  exact h h1 s h2 i hi

/-- **C71** A reference for which the program has exactly one definition that
fits the name and the qualifiers is a reference to this definition. -/
theorem C71_unique {P : NProg} {before : List NProg} {name : List Nat} {quals : List (List Nat)}
    {offset : Option Nat} (hl : NotLocal P name quals offset) {i : Nat}
    (hi : Meant P name quals i) (hu : ∀ j, Meant P name quals j → j = i) :
    cbRef P before name quals offset = .found 0 i := by
  unfold cbRef
  rw [loop_scan P quals offset _ none false (not_local hl),
    (scan_cases (items_nodup P name) (meant_fit P name quals)).1 i hi hu]
  rfl

/-- **C71** A reference that fits two definitions of the program is rejected
as ambiguous. -/
theorem C71_ambiguous {P : NProg} {before : List NProg} {name : List Nat} {quals : List (List Nat)}
    {offset : Option Nat} (hl : NotLocal P name quals offset) {i j : Nat}
    (hi : Meant P name quals i) (hj : Meant P name quals j) (hne : i ≠ j) :
    cbRef P before name quals offset = .ambiguous := by
  obtain ⟨k, hk⟩ := (scan_cases (items_nodup P name) (meant_fit P name quals)).2.1 i j hi hj hne
  unfold cbRef
  rw [loop_scan P quals offset _ none false (not_local hl), hk]
  rfl

/-- **C71** A reference that fits no definition is rejected in a program that
is not contained in another. -/
theorem C71_undefined {P : NProg} {before : List NProg} {name : List Nat} {quals : List (List Nat)}
    {offset : Option Nat} (hn : ∀ i, ¬ Meant P name quals i) (h0 : P.level = 0) :
    cbRef P before name quals offset = .undefined := by
  have hl : NotLocal P name quals offset := by
    intro h1 s _ i hi hd
    apply hn i
    refine ⟨hi, ?_⟩
    unfold FitsQuals
    rw [hd]
    exact .inl h1
  unfold cbRef
  rw [loop_scan P quals offset _ none false (not_local hl),
    (scan_cases (items_nodup P name) (meant_fit P name quals)).2.2 hn]
  dsimp only
  rw [if_neg (by omega)]

theorem loop_local (P : NProg) (s : Nat) : ∀ (l : List Nat) (cand : Option Nat) (amb : Bool) (i : Nat),
    i ∈ l → inSection P s i = true →
    refLoop P [] (some s) l cand amb =
      .inl (if 2 ≤ (l.filter (inSection P s)).length then .ambiguous
        else .found 0 ((l.filter (inSection P s)).headD 0))
  | [], _, _, i, h, _ => by cases h
  | x :: r, cand, amb, i, hi, hs => by
    rw [refLoop.eq_def]
    dsimp only
    by_cases hx : inSection P s x = true
    · rw [if_pos ⟨rfl, hx⟩]
      rw [List.filter_cons, if_pos hx, any_filter]
      cases r.filter (inSection P s) with
      | nil => rfl
      | cons y t => simp
    · have hmem : i ∈ r := by
        rcases List.mem_cons.1 hi with e | e
        · rw [e] at hs; exact absurd hs hx
        · exact e
      rw [if_neg (fun h => hx h.2), List.filter_cons, if_neg hx]
      split
      · split
        · exact loop_local P s r _ _ i hmem hs
        · exact loop_local P s r _ _ i hmem hs
      · exact loop_local P s r _ _ i hmem hs

/-- **C71** A procedure name without qualifier is the paragraph of this name
in the section in which it is written, if there is one, whatever paragraphs
of the name other sections have. -/
theorem C71_own_section {P : NProg} {before : List NProg} {name : List Nat} {s i : Nat}
    (hi : i ∈ itemsOf P name) (hd : defAt P i = .label (some s))
    (hu : ∀ j ∈ itemsOf P name, defAt P j = .label (some s) → j = i) :
    cbRef P before name [] (some s) = .found 0 i := by
  have hin : ∀ j, inSection P s j = true ↔ defAt P j = .label (some s) := fun j => by
    unfold inSection
    exact beq_iff_eq
  unfold cbRef
  rw [loop_local P s _ none false i hi ((hin i).2 hd)]
  have hf : (itemsOf P name).filter (inSection P s) = [i] := by
    have nd : ((itemsOf P name).filter (inSection P s)).Nodup :=
      List.Pairwise.sublist List.filter_sublist (items_nodup P name)
    have hm : ∀ j ∈ (itemsOf P name).filter (inSection P s), j = i := fun j hj => by
      rw [List.mem_filter] at hj
      exact hu j hj.1 ((hin j).1 hj.2)
    have hmi : i ∈ (itemsOf P name).filter (inSection P s) :=
      List.mem_filter.2 ⟨hi, (hin i).2 hd⟩
    cases hc : (itemsOf P name).filter (inSection P s) with
    | nil => rw [hc] at hmi; cases hmi
    | cons x r =>
      rw [hc] at hm nd
      have hx := hm x List.mem_cons_self
      cases r with
      | nil => rw [hx]
      | cons y r =>
        have hy := hm y (by simp)
        subst hx hy
        simp at nd
  rw [hf]
  rfl

/-- **C71** Two paragraphs of the name in the section make such a reference
ambiguous. -/
theorem C71_own_section_twice {P : NProg} {before : List NProg} {name : List Nat} {s i j : Nat}
    (hi : i ∈ itemsOf P name) (hd : defAt P i = .label (some s))
    (hj : j ∈ itemsOf P name) (hdj : defAt P j = .label (some s)) (hne : i ≠ j) :
    cbRef P before name [] (some s) = .ambiguous := by
  have hin : ∀ j, inSection P s j = true ↔ defAt P j = .label (some s) := fun j => by
    unfold inSection
    exact beq_iff_eq
  unfold cbRef
  rw [loop_local P s _ none false i hi ((hin i).2 hd), if_pos]
  have h1 : i ∈ (itemsOf P name).filter (inSection P s) := List.mem_filter.2 ⟨hi, (hin i).2 hd⟩
  have h2 : j ∈ (itemsOf P name).filter (inSection P s) := List.mem_filter.2 ⟨hj, (hin j).2 hdj⟩
  match h : (itemsOf P name).filter (inSection P s) with
  | [] => rw [h] at h1; cases h1
  | [x] =>
    rw [h] at h1 h2
    simp only [List.mem_singleton] at h1 h2
    exact absurd (h1.trans h2.symm) hne
  | _ :: _ :: _ => simp

/-! ### Contained programs -/

theorem containing_ge : ∀ (r : List NProg) (lv k : Nat) (x : Nat × NProg),
    x ∈ containing lv k r → k ≤ x.1
  | [], _, _, _, h => by cases h
  | P :: r, lv, k, x, h => by
    rw [containing] at h
    split at h
    · rcases List.mem_cons.1 h with e | e
      · rw [e]; exact Nat.le_refl _
      · exact Nat.le_trans (Nat.le_succ k) (containing_ge r _ _ x e)
    · exact Nat.le_trans (Nat.le_succ k) (containing_ge r _ _ x h)

theorem containing_zero : ∀ (r : List NProg) (k : Nat), containing 0 k r = []
  | [], _ => rfl
  | P :: r, k => by rw [containing, if_neg (by omega), containing_zero]

theorem search_first {cur : NProg} {name : List Nat} {quals : List (List Nat)} :
    ∀ (r : List NProg) (lv k : Nat), lv ≤ cur.level →
    (∀ (j : Nat) (Q : NProg), r[j]? = some Q → Q.level < cur.level →
      (∀ x ∈ containing lv k r, x.1 ≠ k + j) → ∀ i, ¬ MeantGlobal Q name quals i) →
    (lv = 0 → r = []) →
    firstMeant name quals (containing lv k r) (globalSearch cur name quals k r)
  | [], _, _, _, _, _ => rfl
  | P :: r, lv, k, hlv, hother, h0 => by
    have hlv0 : lv ≠ 0 := fun e => by cases h0 e
    rw [globalSearch]
    have hcs := scan_cases (items_nodup P name) (meantGlobal_fit cur P name quals)
    by_cases hge : P.level ≥ cur.level
    · rw [if_pos hge]
      have e : containing lv k (P :: r) = containing lv (k + 1) r := by
        rw [containing, if_neg (by omega)]
      rw [e]
      rw [e] at hother
      exact search_first r lv (k + 1) hlv
        (fun j Q hj hQ hx => hother (j + 1) Q hj hQ (fun x hx' => by have := hx x hx'; omega))
        (fun e => absurd e hlv0)
    · rw [if_neg hge, check_scan]
      by_cases hcon : P.level < lv
      · have e : containing lv k (P :: r) = (k, P) :: containing P.level (k + 1) r := by
          rw [containing, if_pos hcon]
        rw [e]
        rw [e] at hother
        rw [firstMeant]
        by_cases hex : ∃ i, MeantGlobal P name quals i
        · obtain ⟨i, hi⟩ := hex
          by_cases hu : ∀ j, MeantGlobal P name quals j → j = i
          · rw [hcs.1 i hi hu]
            exact .inl ⟨i, hi, hu, rfl⟩
          · have : ∃ j, MeantGlobal P name quals j ∧ j ≠ i := by
              apply Classical.byContradiction
              intro hn
              exact hu (fun j hj => Classical.byContradiction (fun hne => hn ⟨j, hj, hne⟩))
            obtain ⟨j, hj, hne⟩ := this
            obtain ⟨c, hc⟩ := hcs.2.1 j i hj hi hne
            rw [hc]
            exact .inr (.inl ⟨j, i, hj, hi, hne, rfl⟩)
        · have hno : ∀ i, ¬ MeantGlobal P name quals i := fun i hi => hex ⟨i, hi⟩
          rw [hcs.2.2 hno]
          refine .inr (.inr ⟨hno, ?_⟩)
          dsimp only
          by_cases hz : P.level = 0
          · rw [if_pos hz, hz, containing_zero]
            rfl
          · rw [if_neg hz]
            refine search_first r P.level (k + 1) (by omega) (fun j Q hj hQ hx => ?_)
              (fun e => absurd e hz)
            refine hother (j + 1) Q hj hQ (fun x hx' => ?_)
            rcases List.mem_cons.1 hx' with e' | e'
            · rw [e']
              show k ≠ k + (j + 1)
              omega
            · have := hx x e'
              omega
      · have e : containing lv k (P :: r) = containing lv (k + 1) r := by
          rw [containing, if_neg hcon]
        rw [e]
        rw [e] at hother
        have hno := hother 0 P rfl (by omega) (fun x hx => by
          have := containing_ge r lv (k + 1) x hx
          omega)
        rw [hcs.2.2 hno]
        dsimp only
        rw [if_neg (by omega)]
        exact search_first r lv (k + 1) hlv
          (fun j Q hj hQ hx => hother (j + 1) Q hj hQ (fun x hx' => by have := hx x hx'; omega))
          (fun e => absurd e hlv0)

/-- **C71** In a contained program, a reference that fits no definition of the
program itself is one to the nearest containing program with a GLOBAL
definition that fits: to this definition if there is only one, ambiguous
otherwise; undefined if no containing program has one. This holds when no
other program of a smaller nesting level before it has such a definition. -/
theorem C71_global {P : NProg} {before : List NProg} {name : List Nat} {quals : List (List Nat)}
    {offset : Option Nat} (hn : ∀ i, ¬ Meant P name quals i) (h0 : 0 < P.level)
    (hother : ∀ (j : Nat) (Q : NProg), before[j]? = some Q → Q.level < P.level →
      (∀ x ∈ containing P.level 1 before, x.1 ≠ 1 + j) → ∀ i, ¬ MeantGlobal Q name quals i) :
    firstMeant name quals (containing P.level 1 before) (cbRef P before name quals offset) := by
  have hl : NotLocal P name quals offset := by
    intro h1 s _ i hi hd
    apply hn i
    refine ⟨hi, ?_⟩
    unfold FitsQuals
    rw [hd]
    exact .inl h1
  have e : cbRef P before name quals offset = globalSearch P name quals 1 before := by
    unfold cbRef
    rw [loop_scan P quals offset _ none false (not_local hl),
      (scan_cases (items_nodup P name) (meant_fit P name quals)).2.2 hn]
    dsimp only
    rw [if_pos (by omega)]
  rw [e]
  exact search_first before P.level 1 (Nat.le_refl _) hother (fun e => by omega)

end Cob
