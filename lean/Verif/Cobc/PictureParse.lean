import Verif.Cobc.Picture
import Verif.Cobc.PictureSpec
import Verif.Intr.TextProps
/-
The repetition factors: what `picRepeat` counts is what the expansion contains.
-/
namespace Cob

theorem expand_nil (acc : List Nat) : expandStr acc none [] = some acc := by
  rw [expandStr]

theorem expand_cons (acc : List Nat) (c : Nat) (rest : List Nat) (h : c ≠ 40) (h2 : c ≠ 41) :
    expandStr acc none (c :: rest) = expandStr (acc ++ [c]) none rest := by
  rw [expandStr, if_neg h, if_neg h2]

theorem expand_open (acc : List Nat) (rest : List Nat) (h : acc ≠ []) :
    expandStr acc none (40 :: rest) = expandStr acc (some 0) rest := by
  rw [expandStr, if_pos rfl, if_neg h]

/-- The expansion extends what is there, and by at least the factor being read. -/
theorem expand_len (s : List Nat) : ∀ (acc : List Nat) (pend : Option Nat) (E : List Nat),
    expandStr acc pend s = some E → acc <+: E ∧ (acc ≠ [] → pend.getD 0 ≤ E.length) := by
  induction s with
  | nil =>
    intro acc pend E h
    cases pend with
    | none => rw [expand_nil] at h; cases h; exact ⟨List.prefix_rfl, fun _ => Nat.zero_le _⟩
    | some v => rw [expandStr] at h; exact absurd h (by simp)
  | cons c s ih =>
    intro acc pend E h
    cases pend with
    | none =>
      rw [expandStr] at h
      split at h
      · split at h
        · exact absurd h (by simp)
        · exact ⟨(ih _ _ _ h).1, fun _ => Nat.zero_le _⟩
      · split at h
        · exact absurd h (by simp)
        · exact ⟨(List.prefix_append acc [c]).trans (ih _ _ _ h).1, fun _ => Nat.zero_le _⟩
    | some v =>
      rw [expandStr] at h
      split at h
      · obtain ⟨h1, h2⟩ := ih _ _ _ h
        refine ⟨h1, fun ha => ?_⟩
        have := h2 ha
        simp only [Option.getD_some] at this ⊢
        omega
      · split at h
        · split at h
          · exact absurd h (by simp)
          · have h1 := (ih _ _ _ h).1
            refine ⟨(List.prefix_append _ _).trans h1, fun ha => ?_⟩
            have := h1.length_le
            simp only [List.length_append, List.length_replicate, Option.getD_some] at this ⊢
            have : 0 < acc.length := List.length_pos_iff.2 ha
            omega
        · exact absurd h (by simp)

theorem picZeros_len (s : List Nat) : (picZeros s).length ≤ s.length := by
  induction s with
  | nil => simp [picZeros]
  | cons c s ih => rw [picZeros]; split <;> simp <;> omega

theorem picZeros_suf (s : List Nat) : picZeros s <:+ s := by
  induction s with
  | nil => exact List.suffix_rfl
  | cons d r ih =>
    rw [picZeros]; split
    · exact ih.trans (List.suffix_cons _ _)
    · exact List.suffix_rfl

theorem expand_zeros (acc : List Nat) (s : List Nat) :
    expandStr acc (some 0) (picZeros s) = expandStr acc (some 0) s := by
  induction s with
  | nil => rfl
  | cons c s ih =>
    rw [picZeros]
    split
    · rename_i h
      subst h
      rw [ih, expandStr.eq_4]
      simp
    · rfl

theorem picCount_spec (acc : List Nat) (ha : acc ≠ []) (E : List Nat) (hE : E.length < 2147483647) (s : List Nat) :
    ∀ v : Nat, expandStr acc (some v) s = some E →
      ∃ (w : Nat) (rest : List Nat), picCount v s = some ((w : Int), rest) ∧ 0 < w ∧ rest <:+ s ∧ rest.length < s.length ∧ w ≤ E.length ∧
        expandStr (acc ++ List.replicate (w - 1) (acc.getLastD 0)) none rest = some E := by
  induction s with
  | nil => intro v h; rw [expandStr] at h; exact absurd h (by simp)
  | cons c s ih =>
    intro v h
    have hlen := (expand_len _ _ _ _ h).2 ha
    simp only [Option.getD_some] at hlen
    rw [expandStr] at h
    rw [picCount]
    by_cases hd : 48 ≤ c ∧ c ≤ 57
    · rw [if_pos hd] at h
      have hl2 := (expand_len _ _ _ _ h).2 ha
      simp only [Option.getD_some] at hl2
      have hdig : isDigit c = true := by simp [isDigit, hd]
      rw [if_neg (by omega), if_pos hdig, if_neg (by omega)]
      simp only
      have ew : wrap32 ((v : Int) * 10) = (v : Int) * 10 := wrap32_id (by omega) (by omega)
      rw [ew, wrap32_id (by omega) (by omega), if_neg (by omega)]
      have e : (v : Int) * 10 + ((c : Int) - 48) = ((10 * v + (c - 48) : Nat) : Int) := by omega
      rw [e]
      obtain ⟨w, rest, h1, h2, h3, h4, h5, h6⟩ := ih _ h
      exact ⟨w, rest, h1, h2, h3.trans (List.suffix_cons _ _), by simp; omega, h5, h6⟩
    · rw [if_neg hd] at h
      by_cases h41 : c = 41
      · rw [if_pos h41] at h ⊢
        split at h
        · exact absurd h (by simp)
        · exact ⟨v, s, rfl, by omega, List.suffix_cons _ _, by simp, hlen, h⟩
      · rw [if_neg h41] at h; exact absurd h (by simp)

theorem picSame_spec (c : Nat) (hc : c ≠ 40) (hc2 : c ≠ 41) (E : List Nat) (hE : E.length < 2147483647) (s : List Nat) :
    ∀ (acc : List Nat) (n : Nat), n ≤ acc.length → expandStr acc none s = some E →
      ∃ k rest, picSame c n s = (((n + k : Nat) : Int), rest) ∧ s = List.replicate k c ++ rest ∧ rest.head? ≠ some c ∧
        expandStr (acc ++ List.replicate k c) none rest = some E := by
  induction s with
  | nil => intro acc n hn h; exact ⟨0, [], by simp [picSame], by simp, by simp, by simpa using h⟩
  | cons d s ih =>
    intro acc n hn h
    rw [picSame]
    by_cases hd : d = c
    · subst hd
      rw [if_pos rfl]
      rw [expand_cons _ _ _ hc hc2] at h
      have hl := (expand_len _ _ _ _ h).1.length_le
      simp only [List.length_append, List.length_singleton] at hl
      rw [wrap32_id (by omega) (by omega)]
      obtain ⟨k, rest, h1, h2, h3, h4⟩ := ih (acc ++ [d]) (n + 1) (by simp; omega) h
      refine ⟨k + 1, rest, ?_, ?_, h3, ?_⟩
      · have : (n : Int) + 1 = ((n + 1 : Nat) : Int) := by omega
        rw [this, h1]
        simp only [Prod.mk.injEq, and_true]; omega
      · rw [List.replicate_succ, List.cons_append, ← h2]
      · rw [List.replicate_succ]
        rw [List.append_assoc] at h4
        exact h4
    · rw [if_neg hd]
      exact ⟨0, d :: s, by simp, by simp, by simp [hd], by simpa using h⟩

theorem getLastD_append_replicate (acc : List Nat) (c k : Nat) (h : acc.getLastD 0 = c) :
    (acc ++ List.replicate k c).getLastD 0 = c := by
  cases k with
  | zero => simpa using h
  | succ k =>
    rw [List.replicate_succ', ← List.append_assoc]
    simp

/-- What `picRepeat` counts. -/
theorem picRepeat_spec (c : Nat) (hc : c ≠ 40) (hc2 : c ≠ 41) (E : List Nat) (hE : E.length < 2147483647) (fuel : Nat) :
    ∀ (s acc : List Nat) (n : Nat), s.length < fuel → acc ≠ [] → acc.getLastD 0 = c → 0 < n → n ≤ acc.length →
      expandStr acc none s = some E →
      ∃ k rest, picRepeat fuel c n s = some (((n + k : Nat) : Int), rest) ∧ rest <:+ s ∧ rest.head? ≠ some c ∧
        rest.head? ≠ some 40 ∧ expandStr (acc ++ List.replicate k c) none rest = some E := by
  induction fuel with
  | zero => intro s acc n h; omega
  | succ fuel ih =>
    intro s acc n hf ha hl hn hna h
    obtain ⟨k, rest, h1, h2, h3, h4⟩ := picSame_spec c hc hc2 E hE s acc n hna h
    have hsuf : rest <:+ s := ⟨_, h2.symm⟩
    rw [picRepeat, h1]
    cases rest with
    | nil => exact ⟨k, [], rfl, hsuf, by simp, by simp, h4⟩
    | cons d rest =>
      simp only
      by_cases hd : d = 40
      · subst hd
        rw [if_pos rfl]
        have ha2 : acc ++ List.replicate k c ≠ [] := by simp [ha]
        rw [expand_open _ _ ha2, ← expand_zeros] at h4
        obtain ⟨w, rest2, g1, g2, g3, g4, g5, g6⟩ := picCount_spec _ ha2 E hE _ 0 h4
        have e0 : ((0 : Nat) : Int) = 0 := rfl
        rw [e0] at g1
        rw [g1, Option.bind_some]
        simp only
        have gl := (expand_len _ _ _ _ g6).1.length_le
        simp only [List.length_append, List.length_replicate] at gl
        rw [if_neg (by omega), if_neg (by omega), if_pos (by omega), wrap32_id (by omega) (by omega), if_neg (by omega)]
        have e : ((n + k : Nat) : Int) + ((w : Int) - 1) = ((n + k + (w - 1) : Nat) : Int) := by omega
        rw [e]
        rw [getLastD_append_replicate acc c k hl] at g6
        have hz := picZeros_len rest
        have hsl := hsuf.length_le
        simp only [List.length_cons] at hsl
        obtain ⟨k3, rest3, f1, f2, f3, f4, f5⟩ := ih rest2 (acc ++ List.replicate k c ++ List.replicate (w - 1) c) (n + k + (w - 1))
          (by omega) (by simp [ha])
          (by
            rw [List.append_assoc, List.replicate_append_replicate]
            exact getLastD_append_replicate acc c _ hl) (by omega) (by simp; omega) g6
        refine ⟨k + (w - 1) + k3, rest3, ?_, ?_, f3, f4, ?_⟩
        · rw [f1]; simp only [Option.some.injEq, Prod.mk.injEq, and_true]; omega
        · exact f2.trans (g3.trans ((picZeros_suf rest).trans ((List.suffix_cons _ _).trans hsuf)))
        · rw [← f5]
          congr 1
          simp only [List.append_assoc, List.replicate_append_replicate]
      · rw [if_neg hd]
        exact ⟨k, d :: rest, rfl, hsuf, h3, by simpa using hd, h4⟩

/-- A symbol of the string is in the expansion. -/
theorem expand_count (c : Nat) (h1 : ¬ (48 ≤ c ∧ c ≤ 57)) (h2 : c ≠ 40) (h3 : c ≠ 41) (s : List Nat) :
    ∀ (acc : List Nat) (pend : Option Nat) (E : List Nat), expandStr acc pend s = some E →
      acc.count c + s.count c ≤ E.count c := by
  induction s with
  | nil =>
    intro acc pend E h
    cases pend with
    | none => rw [expand_nil] at h; cases h; simp
    | some v => rw [expandStr] at h; exact absurd h (by simp)
  | cons d s ih =>
    intro acc pend E h
    have hs : (d :: s).count c = s.count c + if d = c then 1 else 0 := by
      rw [List.count_cons]; simp
    rw [hs]
    cases pend with
    | none =>
      rw [expandStr] at h
      split at h
      · split at h
        · exact absurd h (by simp)
        · have := ih _ _ _ h
          rw [if_neg (by omega)]; omega
      · split at h
        · exact absurd h (by simp)
        · have := ih _ _ _ h
          rw [List.count_append, List.count_singleton] at this
          simp only [beq_iff_eq] at this
          omega
    | some v =>
      rw [expandStr] at h
      split at h
      · have := ih _ _ _ h
        rw [if_neg (by omega)]; omega
      · split at h
        · split at h
          · exact absurd h (by simp)
          · have := ih _ _ _ h
            rw [List.count_append] at this
            rw [if_neg (by omega)]; omega
        · exact absurd h (by simp)

end Cob
