import Verif.Cobc.Words
import Mathlib.Data.List.Sort
import Mathlib.Order.Basic
/-
C86: reserved words, functions and user words.
-/
namespace Cob.Words

/-! ### Specification -/

/-- The capital letter of a letter. -/
def up (c : Nat) : Nat := if 97 ≤ c ∧ c ≤ 122 then c - 32 else c

/-- Two words are the same: they differ at most in the case of letters. -/
def Same (a b : List Nat) : Prop := a.map up = b.map up

instance (a b : List Nat) : Decidable (Same a b) := by unfold Same; infer_instance

/-- `r` is the entry of the table of reserved words for the word. -/
def IsReserved (w : List Nat) (r : Reserved) : Prop := r ∈ reservedWords ∧ Same w r.name

/-- `f` is the entry of the table of functions for the word. -/
def IsFunction (w : List Nat) (f : Function) : Prop := f ∈ functionList ∧ Same w f.name

/-! ### The comparison -/

theorem lower_up (a b : Nat) : lower a = lower b ↔ up a = up b := by
  unfold lower up
  repeat' split
  all_goals omega

theorem casecmp_eq (a : List Nat) : ∀ b, casecmp a b = .eq ↔ Same a b := by
  induction a with
  | nil => intro b; cases b <;> simp [casecmp, Same]
  | cons x s ih =>
    intro b
    cases b with
    | nil => simp [casecmp, Same]
    | cons y t =>
      unfold casecmp Same
      have h := lower_up x y
      have := ih t
      unfold Same at this
      simp only [List.map_cons, List.cons.injEq]
      split
      · rename_i h1
        simp only [reduceCtorEq, false_iff, not_and]
        intro h2; omega
      · split
        · rename_i h1
          simp only [reduceCtorEq, false_iff, not_and]
          intro h2; omega
        · rename_i h1 h2
          rw [this]
          simp only [show up x = up y by omega, true_and]

/-- The comparison of capital and small letters agrees with an order: it is transitive. -/
theorem casecmp_trans (a : List Nat) : ∀ b c, casecmp a b ≠ .gt → casecmp b c = .lt → casecmp a c = .lt := by
  induction a with
  | nil => intro b c h1 h2; cases b <;> cases c <;> simp_all [casecmp]
  | cons x s ih =>
    intro b c h1 h2
    cases b with
    | nil => simp [casecmp] at h1
    | cons y t =>
      cases c with
      | nil => simp [casecmp] at h2
      | cons z u =>
        unfold casecmp at h1 h2 ⊢
        by_cases c1 : lower x < lower y
        · by_cases c2 : lower y < lower z
          · rw [if_pos (by omega)]
          · rw [if_neg c2] at h2
            by_cases c3 : lower z < lower y
            · rw [if_pos c3] at h2; cases h2
            · rw [if_pos (by omega)]
        · rw [if_neg c1] at h1
          by_cases c4 : lower y < lower x
          · rw [if_pos c4] at h1; exact absurd rfl h1
          · rw [if_neg c4] at h1
            by_cases c2 : lower y < lower z
            · rw [if_pos (by omega)]
            · rw [if_neg c2] at h2
              by_cases c3 : lower z < lower y
              · rw [if_pos c3] at h2; cases h2
              · rw [if_neg c3] at h2
                rw [if_neg (by omega), if_neg (by omega)]
                exact ih t u h1 h2

theorem casecmp_swap (a : List Nat) : ∀ b, casecmp a b = (casecmp b a).swap := by
  induction a with
  | nil => intro b; cases b <;> rfl
  | cons x s ih =>
    intro b
    cases b with
    | nil => rfl
    | cons y t =>
      unfold casecmp
      by_cases c1 : lower x < lower y
      · rw [if_pos c1, if_neg (by omega), if_pos c1]; rfl
      · rw [if_neg c1]
        by_cases c2 : lower y < lower x
        · rw [if_pos c2, if_pos c2]; rfl
        · rw [if_neg c2, if_neg c2, if_neg c1]; exact ih t

/-! ### The search -/

/-- The entries increase. -/
def Increasing (names : List (List Nat)) : Prop := ∀ i j, i < j → j < names.length → casecmp (names.getD i []) (names.getD j []) = .lt

theorem increasing_of_next (names : List (List Nat))
    (h : ∀ i, i + 1 < names.length → casecmp (names.getD i []) (names.getD (i + 1) []) = .lt) : Increasing names := by
  intro i j hij hj
  induction j with
  | zero => omega
  | succ j ih =>
    by_cases hji : i = j
    · subst hji; exact h i hj
    · exact casecmp_trans _ _ _ (by rw [ih (by omega) (by omega)]; decide) (h j hj)

theorem bsearchGo_some (cmp : Nat → Ordering) (fuel : Nat) : ∀ l u i, bsearchGo cmp fuel l u = some i → cmp i = .eq ∧ i < u := by
  induction fuel with
  | zero => intro l u i h; cases h
  | succ f ih =>
    intro l u i h
    unfold bsearchGo at h
    split at h
    · rename_i hlu
      dsimp only at h
      split at h
      · have := ih _ _ _ h; exact ⟨this.1, by omega⟩
      · exact ih _ _ _ h
      · rename_i he
        cases h
        exact ⟨he, by omega⟩
    · cases h

theorem bsearchGo_finds (cmp : Nat → Ordering) (n k : Nat) (hk : cmp k = .eq) (hlt : ∀ i, i < k → cmp i = .gt)
    (hgt : ∀ i, k < i → i < n → cmp i = .lt) (fuel : Nat) : ∀ l u, l ≤ k → k < u → u ≤ n → u - l ≤ fuel → bsearchGo cmp fuel l u = some k := by
  induction fuel with
  | zero => intro l u h1 h2 h3 h4; omega
  | succ f ih =>
    intro l u h1 h2 h3 h4
    unfold bsearchGo
    rw [if_pos (by omega)]
    dsimp only
    rcases Nat.lt_trichotomy ((l + u) / 2) k with c | c | c
    · rw [hlt _ c]
      exact ih _ _ (by omega) h2 h3 (by omega)
    · rw [c, hk]
    · rw [hgt _ c (by omega)]
      exact ih _ _ h1 c (by omega) (by omega)

theorem bsearch_iff (names : List (List Nat)) (h : Increasing names) (w : List Nat) (k : Nat) :
    bsearch names w = some k ↔ k < names.length ∧ Same w (names.getD k []) := by
  constructor
  · intro hb
    obtain ⟨h1, h2⟩ := bsearchGo_some _ _ _ _ _ hb
    exact ⟨h2, (casecmp_eq _ _).mp h1⟩
  · rintro ⟨h1, h2⟩
    have he : casecmp w (names.getD k []) = .eq := (casecmp_eq _ _).mpr h2
    refine bsearchGo_finds _ names.length k he ?_ ?_ _ _ _ (by omega) h1 (by omega) (by omega)
    · intro i hi
      rw [casecmp_swap]
      have hs : casecmp (names.getD k []) w = .eq := by rw [casecmp_swap, he]; rfl
      have hik := h i k hi h1
      have : casecmp (names.getD i []) w = .lt := by
        cases hc : casecmp (names.getD i []) w with
        | lt => rfl
        | eq =>
          have := casecmp_trans (names.getD i []) (names.getD k []) (names.getD i []) (by rw [hik]; decide)
          have e1 := (casecmp_eq _ _).mp hc
          have e2 := (casecmp_eq _ _).mp he
          have : casecmp (names.getD i []) (names.getD k []) = .eq := (casecmp_eq _ _).mpr (by unfold Same at *; rw [e1, e2])
          rw [hik] at this; cases this
        | gt =>
          have h3 : casecmp w (names.getD i []) = .lt := by rw [casecmp_swap, hc]; rfl
          have h4 := casecmp_trans (names.getD k []) w (names.getD i []) (by rw [hs]; decide) h3
          rw [casecmp_swap, hik] at h4; cases h4
      rw [this]; rfl
    · intro i hi hin
      exact casecmp_trans _ _ _ (by rw [he]; decide) (h k i hi hin)

theorem bsearch_none (names : List (List Nat)) (h : Increasing names) (w : List Nat) :
    bsearch names w = none ↔ ∀ n ∈ names, ¬ Same w n := by
  constructor
  · intro hb n hn hs
    obtain ⟨k, hk, rfl⟩ := List.mem_iff_getElem.mp hn
    have := (bsearch_iff names h w k).mpr ⟨hk, by rw [List.getD_eq_getElem?_getD, List.getElem?_eq_getElem hk]; exact hs⟩
    rw [hb] at this; cases this
  · intro hn
    cases hb : bsearch names w with
    | none => rfl
    | some k =>
      obtain ⟨h1, h2⟩ := (bsearch_iff names h w k).mp hb
      rw [List.getD_eq_getElem?_getD, List.getElem?_eq_getElem h1] at h2
      exact absurd h2 (hn _ (List.getElem_mem h1))

/-! ### The tables -/

/-- Are the entries in order, each with the next? -/
def ordered : List (List Nat) → Bool
  | a :: b :: r => (casecmp a b == .lt) && ordered (b :: r)
  | _ => true

theorem ordered_next (l : List (List Nat)) (h : ordered l = true) :
    ∀ i, i + 1 < l.length → casecmp (l.getD i []) (l.getD (i + 1) []) = .lt := by
  induction l with
  | nil => intro i hi; simp at hi
  | cons a l ih =>
    cases l with
    | nil => intro i hi; simp at hi
    | cons b r =>
      unfold ordered at h
      simp only [Bool.and_eq_true, beq_iff_eq] at h
      intro i hi
      cases i with
      | zero => exact h.1
      | succ i =>
        have := ih h.2 i (by simpa using hi)
        simpa using this

theorem reserved_increasing : Increasing (reservedWords.map (·.name)) :=
  increasing_of_next _ (ordered_next _ (by decide +kernel))

theorem functions_increasing : Increasing (functionList.map (·.name)) :=
  increasing_of_next _ (ordered_next _ (by decide +kernel))

end Cob.Words
