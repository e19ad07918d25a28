import Verif.Cobc.PictureMore
/- C43: repetition factors. -/
namespace Cob
/-- The number written with these digits, after `v`. -/
def countFrom (v : Nat) (ds : List Nat) : Nat := ds.foldl (fun v d => v * 10 + (d - 48)) v

theorem countFrom_ge (ds : List Nat) : ∀ v, v ≤ countFrom v ds := by
  induction ds with
  | nil => exact fun v => Nat.le_refl _
  | cons d ds ih =>
    intro v
    have := ih (v * 10 + (d - 48))
    simp only [countFrom, List.foldl_cons] at *
    omega

theorem picCount_mark (ds : List Nat) (hd : ∀ d ∈ ds, 48 ≤ d ∧ d ≤ 57) (rest : List Nat) : picCount (-1) (ds ++ 41 :: rest) = some (-1, rest) := by
  induction ds with
  | nil => rw [List.nil_append, picCount.eq_def]; simp
  | cons d ds ih =>
    have h := hd d (by simp)
    have hdig : isDigit d = true := by simp [isDigit, h]
    have h41 : ¬ d = 41 := by omega
    rw [List.cons_append, picCount.eq_def]
    simp only
    rw [if_neg h41, if_pos hdig, if_neg (by decide), if_pos, ih fun e he => hd e (by simp [he])]
    have : wrap32 (2147483647 - wrap32 (-1 * 10)) = -2147483639 := by decide
    rw [this]
    omega

theorem picCount_value (ds : List Nat) (hd : ∀ d ∈ ds, 48 ≤ d ∧ d ≤ 57) (rest : List Nat) : ∀ v : Nat, v ≤ 2147483647 →
    picCount v (ds ++ 41 :: rest) = some (if countFrom v ds ≤ 2147483647 then (countFrom v ds : Int) else -1, rest) := by
  induction ds with
  | nil =>
    intro v hv
    rw [List.nil_append, picCount.eq_def]
    simp [countFrom, hv]
  | cons d ds ih =>
    intro v hv
    have h := hd d (by simp)
    have hdig : isDigit d = true := by simp [isDigit, h]
    have h41 : ¬ d = 41 := by omega
    have hds : ∀ e ∈ ds, 48 ≤ e ∧ e ≤ 57 := fun e he => hd e (by simp [he])
    have hge := countFrom_ge ds (v * 10 + (d - 48))
    have hstep : countFrom v (d :: ds) = countFrom (v * 10 + (d - 48)) ds := rfl
    rw [List.cons_append, picCount.eq_def]
    simp only
    rw [if_neg h41, if_pos hdig, hstep]
    by_cases h1 : (v : Int) > 214748364
    · rw [if_pos h1, picCount_mark ds hds, if_neg (by omega)]
    · rw [if_neg h1]
      have e1 : wrap32 ((v : Int) * 10) = v * 10 := wrap32_id (by omega) (by omega)
      have e2 : wrap32 (2147483647 - (v : Int) * 10) = 2147483647 - v * 10 := wrap32_id (by omega) (by omega)
      rw [e1, e2]
      by_cases h2 : 2147483647 - (v : Int) * 10 < (d : Int) - 48
      · rw [if_pos h2, picCount_mark ds hds, if_neg (by omega)]
      · rw [if_neg h2]
        have e3 : (v : Int) * 10 + ((d : Int) - 48) = ((v * 10 + (d - 48) : Nat) : Int) := by omega
        rw [e3, ih hds _ (by omega)]

theorem picZeros_count (ds : List Nat) (rest : List Nat) : ∃ es, picZeros (ds ++ 41 :: rest) = es ++ 41 :: rest ∧ countFrom 0 es = countFrom 0 ds ∧
    ∀ e ∈ es, e ∈ ds := by
  induction ds with
  | nil => exact ⟨[], rfl, rfl, by simp⟩
  | cons d ds ih =>
    rw [List.cons_append, picZeros.eq_def]
    simp only
    by_cases h : d = 48
    · rw [if_pos h]
      obtain ⟨es, h1, h2, h3⟩ := ih
      refine ⟨es, h1, ?_, fun e he => by simp [h3 e he]⟩
      rw [h2, h]
      rfl
    · rw [if_neg h]
      exact ⟨d :: ds, rfl, rfl, by simp⟩

/-- **C43** A repetition factor: PICTURE X(n) is an item of n bytes; if n is 0, or greater than the limit, or greater than an int can
count, it is rejected. -/
theorem C43_repeat (env : EditEnv) (he : PicEnvOk env) (lim : PicLimits) (ds : List Nat) (hd : ∀ d ∈ ds, 48 ≤ d ∧ d ≤ 57) (hlen : ds.length ≤ 47) :
    buildPicture env lim (88 :: 40 :: (ds ++ [41])) =
      if 0 < countFrom 0 ds ∧ countFrom 0 ds ≤ 2147483647 ∧ (countFrom 0 ds : Int) ≤ lim.alpha then
        some ⟨countFrom 0 ds, 0, 0, 0, .alphanumeric, [(88, countFrom 0 ds)]⟩
      else none := by
  have hcur : ∀ d ∈ [41, 88], ¬ d = env.cur := fun d hd hh => he.2 (hh ▸ (by simp at hd ⊢; omega))
  have hg1 : ∀ (es : List Nat), (∀ d ∈ es, 48 ≤ d ∧ d ≤ 57) → ∀ cat, guessCat env 1 cat (es ++ [41]) = cat.or (guessSym env 41 []) := by
    intro es
    induction es with
    | nil => intro _ cat; simp [guessCat]
    | cons e es ih =>
      intro h cat
      have h1 := h e (by simp)
      rw [List.cons_append, guessCat, if_neg (by omega), if_neg (by omega)]
      exact ih (fun d hd => h d (by simp [hd])) cat
  have hcat : guessCat env 0 {} (88 :: 40 :: (ds ++ [41])) = ⟨true, true, false, false⟩ := by
    rw [guessCat, guessCat]
    simp only [Nat.reduceEqDiff, ↓reduceIte]
    rw [show ((0 : Int) + 1) = 1 from rfl, hg1 ds hd]
    have h1 := hcur 41 (by simp)
    have hdp : ¬ 41 = env.dp := by rcases he.1 with h | h <;> omega
    simp [guessSym, h1, PicBits.or]
  obtain ⟨es, q1, q2, q3⟩ := picZeros_count ds []
  have hrep : picRepeat ((40 :: (ds ++ [41])).length + 1) 88 1 (40 :: (ds ++ [41])) =
      if countFrom 0 ds = 0 then none else some (if countFrom 0 ds ≤ 2147483647 then (countFrom 0 ds : Int) else -1, []) := by
    rw [picRepeat]
    simp only [picSame, Nat.reduceEqDiff, ↓reduceIte]
    rw [q1, show (0 : Int) = ((0 : Nat) : Int) from rfl, picCount_value es (fun d hh => hd d (q3 d hh)) [] 0 (by omega), q2]
    simp only [Option.bind_some]
    by_cases h0 : countFrom 0 ds = 0
    · simp [h0]
    · rw [if_neg h0]
      have hn : (40 :: (ds ++ [41])).length = ((ds ++ [41]).length - 1 + 1) + 1 := by simp
      rw [hn]
      by_cases hb : countFrom 0 ds ≤ 2147483647
      · simp only [if_pos hb]
        rw [if_neg (by omega), if_neg (by omega), if_pos (by decide), if_neg, picRepeat]
        · simp only [picSame]
          congr 2
          omega
        · have : wrap32 (2147483647 - 1) = 2147483646 := by decide
          rw [this]
          omega
      · simp only [if_neg hb]
        rw [if_neg (by decide), if_pos trivial, picRepeat]
        simp [picSame]
  unfold buildPicture
  rw [if_neg (by simp; omega), hcat]
  simp only [List.length_cons]
  rw [picLoop]
  rw [hrep]
  by_cases h0 : countFrom 0 ds = 0
  · simp [h0]
  · rw [if_neg h0]
    simp only [Option.bind_some]
    by_cases hb : countFrom 0 ds ≤ 2147483647
    · simp only [if_pos hb]
      have hw : wrap32 (countFrom 0 ds : Int) = countFrom 0 ds := wrap32_id (by omega) (by omega)
      have hi : incLen 0 (countFrom 0 ds : Int) = countFrom 0 ds := by
        unfold incLen
        rw [if_neg (by omega), if_neg (by omega), if_neg (by omega), Int.zero_add]
      generalize hN : (countFrom 0 ds : Int) = N at *
      have hs : picStep env { cat := { a := true, n := true } } 88 N [] =
          some ({ cat := { a := true, n := true }, charLen := N, size := N, buff := [(88, N)] }, []) := by
        simp [picStep, picSym, picStore, hi, hw]
      rw [hs]
      simp only [Option.bind_some, picLoop, picCategory]
      by_cases hl : N > lim.alpha
      · rw [if_neg (by simp), if_pos (Or.inr hl), if_neg (by omega)]
        rfl
      · rw [if_neg (by simp), if_neg (by omega), if_pos (by omega)]
        rfl
    · simp only [if_neg hb]
      have hs : picStep env { cat := { a := true, n := true } } 88 (-1) [] =
          some ({ cat := { a := true, n := true }, charLen := -1, size := -1, buff := [(88, -1)] }, []) := by
        simp [picStep, picSym, picStore, incLen]
        decide
      rw [hs]
      simp only [Option.bind_some, picLoop, picCategory]
      rw [if_neg (by simp), if_pos (Or.inl trivial), if_neg (by omega)]
      rfl

/- One more than an int can count. -/
example : buildPicture {} {} (codes "X(02147483647)") = some ⟨2147483647, 0, 0, 0, .alphanumeric, [(88, 2147483647)]⟩ ∧
    buildPicture {} {} (codes "X(2147483648)") = none := by decide +kernel
end Cob
