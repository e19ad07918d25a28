import Verif.Cobc.PictureParse
/-
The state of the analysis after a part of the string is the count over the expansion of that part.
-/
namespace Cob

/-! ### The category -/

/-- What the symbols of a list say about the category, CR and DB left out. -/
def picKinds (env : EditEnv) (E : List Nat) : PicBits :=
  ⟨E.any fun c => (guessSym env c []).a, E.any fun c => (guessSym env c []).n, E.any fun c => (guessSym env c []).nat,
   E.any fun c => (guessSym env c []).e⟩

/-- CR or DB at the end of the string. -/
def endsCRDB (s : List Nat) : Bool := [67, 82].isSuffixOf s || [68, 66].isSuffixOf s

def crdbBits (b : Bool) : PicBits := if b then { n := true, e := true } else {}

theorem or_assoc' (x y z : PicBits) : (x.or y).or z = x.or (y.or z) := by
  simp [PicBits.or, Bool.or_assoc]

theorem or_comm' (x y : PicBits) : x.or y = y.or x := by
  simp [PicBits.or, Bool.or_comm]

theorem or_nil (x : PicBits) : x.or {} = x := by
  simp [PicBits.or]

theorem kinds_snoc (env : EditEnv) (acc : List Nat) (c : Nat) :
    picKinds env (acc ++ [c]) = (picKinds env acc).or (guessSym env c []) := by
  simp [picKinds, PicBits.or]

theorem any_append_replicate (f : Nat → Bool) (acc : List Nat) (c k : Nat) (h : c ∈ acc) :
    (acc ++ List.replicate k c).any f = acc.any f := by
  rw [List.any_append]
  cases hf : acc.any f with
  | true => rfl
  | false =>
    rw [List.any_eq_false] at hf
    have := hf c h
    simp [this]

theorem kinds_repeat (env : EditEnv) (acc : List Nat) (c k : Nat) (h : c ∈ acc) :
    picKinds env (acc ++ List.replicate k c) = picKinds env acc := by
  unfold picKinds
  simp only [any_append_replicate _ acc c k h]

theorem guessSym_split (env : EditEnv) (c : Nat) (rest : List Nat) :
    guessSym env c rest = (guessSym env c []).or (crdbBits (decide (c = 67 ∧ rest = [82] ∨ c = 68 ∧ rest = [66]))) := by
  by_cases h67 : c = 67
  · subst h67
    by_cases hr : rest = [82] <;> simp [guessSym, hr, crdbBits, PicBits.or]
  · by_cases h68 : c = 68
    · subst h68
      by_cases hr : rest = [66] <;> simp [guessSym, hr, crdbBits, PicBits.or]
    · simp [h67, h68, crdbBits, or_nil]
      unfold guessSym
      simp [h67, h68]

theorem ends_cons (c : Nat) (rest : List Nat) :
    endsCRDB (c :: rest) = (decide (c = 67 ∧ rest = [82] ∨ c = 68 ∧ rest = [66]) || endsCRDB rest) := by
  rw [Bool.eq_iff_iff]
  simp only [endsCRDB, Bool.or_eq_true, List.isSuffixOf_iff_suffix, decide_eq_true_eq, List.suffix_cons_iff]
  constructor
  · rintro ((h | h) | (h | h))
    · cases h; simp
    · exact Or.inr (Or.inl h)
    · cases h; simp
    · exact Or.inr (Or.inr h)
  · rintro ((⟨rfl, rfl⟩ | ⟨rfl, rfl⟩) | h | h)
    · exact Or.inl (Or.inl rfl)
    · exact Or.inr (Or.inl rfl)
    · exact Or.inl (Or.inr h)
    · exact Or.inr (Or.inr h)

theorem crdb_or (a b : Bool) : (crdbBits a).or (crdbBits b) = crdbBits (a || b) := by
  cases a <;> cases b <;> rfl

theorem guessSym_digit (env : EditEnv) (hcur : env.cur ≠ 40 ∧ env.cur ≠ 41) : guessSym env 40 [] = {} ∧ guessSym env 41 [] = {} := by
  obtain ⟨h1, h2⟩ := hcur
  constructor <;> simp [guessSym, Ne.symm h1, Ne.symm h2]

/-- `guess_pic_category` sees the symbols of the expansion. -/
theorem guess_spec (env : EditEnv) (hcur : env.cur ≠ 40 ∧ env.cur ≠ 41) (s : List Nat) :
    ∀ (acc : List Nat) (pend : Option Nat) (E : List Nat) (y : PicBits), expandStr acc pend s = some E →
      (pend ≠ none → acc ≠ []) →
      guessCat env (if pend = none then 0 else 1) ((picKinds env acc).or y) s =
        (picKinds env E).or (y.or (crdbBits (endsCRDB s))) := by
  obtain ⟨g40, g41⟩ := guessSym_digit env hcur
  induction s with
  | nil =>
    intro acc pend E y h _
    cases pend with
    | none => rw [expand_nil] at h; cases h; simp [guessCat, endsCRDB, crdbBits, or_nil]
    | some v => rw [expandStr] at h; exact absurd h (by simp)
  | cons c s ih =>
    intro acc pend E y h hp
    rw [guessCat, ends_cons]
    cases pend with
    | none =>
      rw [expandStr] at h
      split at h
      · rename_i hc
        subst hc
        split at h
        · exact absurd h (by simp)
        · rename_i ha
          have := ih acc (some 0) E y h (fun _ => ha)
          simpa using this
      · rename_i hc
        split at h
        · exact absurd h (by simp)
        rename_i h41
        have := ih (acc ++ [c]) none E (y.or (crdbBits (decide (c = 67 ∧ s = [82] ∨ c = 68 ∧ s = [66])))) h (by simp)
        simp only [if_true, kinds_snoc] at this
        rw [or_assoc' y, crdb_or] at this
        rw [← this]
        simp only [if_true, if_neg hc, if_neg h41]
        congr 1
        rw [guessSym_split env c s, or_assoc', or_assoc']
        congr 1
        rw [← or_assoc', or_comm' y, or_assoc']
    | some v =>
      have ha := hp (by simp)
      rw [expandStr] at h
      split at h
      · rename_i hd
        have := ih acc _ E y h (fun _ => ha)
        have h1 : ¬ (c = 67) := by omega
        have h2 : ¬ (c = 68) := by omega
        have h3 : ¬ (c = 40) := by omega
        have h4 : ¬ (c = 41) := by omega
        simpa [h1, h2, h3, h4] using this
      · split at h
        · rename_i hc
          subst hc
          split at h
          · exact absurd h (by simp)
          · have := ih _ none E y h (by simp)
            rw [kinds_repeat env acc _ _ (by
              rw [List.getLastD_eq_getLast?, List.getLast?_eq_some_getLast ha]; exact List.getLast_mem ha)] at this
            simp only [if_true] at this
            have e41 : guessSym env 41 s = {} := by rw [guessSym_split, g41]; rfl
            simpa [e41, or_nil] using this
        · exact absurd h (by simp)

/-! ### The scale -/

/-- The PICTURE has a decimal point, at least an implied one. -/
def hasPoint (env : EditEnv) (A : List Nat) : Bool := A.head? == some 80 || A.any (picPointSym env)

theorem pointPos_append (env : EditEnv) (A B : List Nat) (h : hasPoint env A = true) :
    picPointPos env (A ++ B) = picPointPos env A ∧ picPointPos env A ≤ A.length := by
  unfold picPointPos
  cases A with
  | nil => simp [hasPoint] at h
  | cons a A =>
    by_cases ha : a = 80
    · simp [ha]
    · rw [if_neg (show ¬ (a :: A ++ B).head? = some 80 by simpa using ha),
        if_neg (show ¬ (a :: A).head? = some 80 by simpa using ha)]
      have hany : (a :: A).any (picPointSym env) = true := by
        unfold hasPoint at h
        rw [Bool.or_eq_true] at h
        rcases h with h | h
        · simp [ha] at h
        · exact h
      have hlt : (a :: A).findIdx (picPointSym env) < (a :: A).length := by
        rw [List.findIdx_lt_length]
        rw [List.any_eq_true] at hany
        obtain ⟨x, h1, h2⟩ := hany
        exact ⟨x, h1, h2⟩
      rw [List.findIdx_append, if_pos hlt]
      exact ⟨rfl, by omega⟩

theorem pointPos_none (env : EditEnv) (A : List Nat) (h : hasPoint env A = false) : picPointPos env A = A.length := by
  unfold hasPoint at h
  rw [Bool.or_eq_false_iff] at h
  unfold picPointPos
  rw [if_neg (by simpa using h.1), List.findIdx_eq_length]
  intro x hx
  have := List.any_eq_false.1 h.2 x hx
  simpa using this

/-- After the decimal point every place counts. -/
theorem scale_after (env : EditEnv) (A B : List Nat) (h : hasPoint env A = true) :
    picScaleA env (A ++ B) = picScaleA env A + B.countP picPlace := by
  obtain ⟨h1, h2⟩ := pointPos_append env A B h
  unfold picScaleA
  rw [h1, List.drop_append_of_le_length h2, List.take_append_of_le_length h2, List.countP_append]
  omega

theorem scale_none (env : EditEnv) (A : List Nat) (h : hasPoint env A = false) : picScaleA env A = -(A.count 80 : Int) := by
  unfold picScaleA
  rw [pointPos_none env A h]
  simp

theorem hasPoint_append (env : EditEnv) (A : List Nat) (c n : Nat) (hn : 0 < n) :
    hasPoint env (A ++ List.replicate n c) = (hasPoint env A || picPointSym env c || (A == [] && c == 80)) := by
  obtain ⟨n, rfl⟩ : ∃ k, n = k + 1 := ⟨n - 1, by omega⟩
  unfold hasPoint
  rw [List.any_append]
  cases A with
  | nil =>
    simp [List.replicate_succ]
    cases picPointSym env c <;> simp
  | cons a A =>
    simp [List.any_cons]
    cases picPointSym env c <;> simp

/-- Before the decimal point only 'P' counts. -/
theorem scale_before (env : EditEnv) (A B : List Nat) (h : hasPoint env (A ++ B) = false) :
    picScaleA env (A ++ B) = picScaleA env A - B.count 80 := by
  have h1 : hasPoint env A = false := by
    unfold hasPoint at h ⊢
    rw [Bool.or_eq_false_iff] at h ⊢
    refine ⟨?_, by
      have := h.2
      rw [List.any_append, Bool.or_eq_false_iff] at this
      exact this.1⟩
    cases A with
    | nil => simp
    | cons a A => simpa using h.1
  rw [scale_none env _ h, scale_none env _ h1, List.count_append]
  omega

/-- The decimal point itself. -/
theorem scale_point (env : EditEnv) (A : List Nat) (c : Nat) (h : hasPoint env A = false) (hc : picPointSym env c = true)
    (hp : picPlace c = false) (h80 : c ≠ 80) : picScaleA env (A ++ [c]) = picScaleA env A := by
  have hpos : picPointPos env (A ++ [c]) = A.length := by
    have := pointPos_none env A h
    unfold picPointPos at this ⊢
    unfold hasPoint at h
    rw [Bool.or_eq_false_iff] at h
    rw [if_neg (by simpa using h.1)] at this
    rw [if_neg]
    · rw [List.findIdx_append, if_neg (by omega)]
      simp [hc]
    · cases A with
      | nil => simpa using h80
      | cons a A => simpa using h.1
  rw [scale_none env A h]
  unfold picScaleA
  rw [hpos]
  simp [hp]

end Cob
