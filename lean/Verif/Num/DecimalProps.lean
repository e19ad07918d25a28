import Verif.Num.DecimalSpec
/-
Properties C05, C06, C07, C09 (decimal part).
-/
namespace Cob
open Dec

/-! ### helper facts about shifting -/

theorem Dec.toRat_shift_nonneg (d : Dec) (n : Int) (h : 0 ≤ n) : (d.shift n).toRat = d.toRat := by
  unfold Dec.shift Dec.toRat
  split
  · rfl
  · split
    · obtain ⟨k, rfl⟩ := Int.eq_ofNat_of_zero_le h
      have h10 : (10:ℚ) ≠ 0 := by norm_num
      simp only [Int.toNat_natCast]
      push_cast
      rw [zpow_add₀ h10, zpow_natCast]
      field_simp
    · omega

theorem Dec.scale_shift (d : Dec) (n : Int) : (d.shift n).scale = d.scale + n := by
  unfold Dec.shift
  split
  · simp_all
  · split <;> rfl

theorem Dec.align_spec (d1 d2 : Dec) :
    (align d1 d2).1.scale = (align d1 d2).2.scale ∧
    (align d1 d2).1.toRat = d1.toRat ∧ (align d1 d2).2.toRat = d2.toRat := by
  unfold align
  split
  · refine ⟨by simp [scale_shift], toRat_shift_nonneg _ _ (by omega), rfl⟩
  · split
    · refine ⟨by simp [scale_shift], rfl, toRat_shift_nonneg _ _ (by omega)⟩
    · exact ⟨by simp; omega, rfl, rfl⟩

/-! ### C06: ADD, SUBTRACT and MULTIPLY are exact -/

/-- C06: the sum computed is the exact sum. -/
theorem C06_add_exact (d1 d2 : Dec) (h1 : d1.isNaN = false) (h2 : d2.isNaN = false) :
    (d1.add d2).toRat = d1.toRat + d2.toRat ∧ (d1.add d2).isNaN = false := by
  obtain ⟨hs, hv1, hv2⟩ := align_spec d1 d2
  have hnan : ((align d1 d2).1.scale == nanScale) = false := by
    simp only [isNaN, beq_eq_false_iff_ne] at *
    unfold align
    split
    · simp only [scale_shift]; omega
    · split <;> simpa using h1
  simp only [add, h1, h2, Bool.or_false, Bool.false_eq_true, if_false]
  refine ⟨?_, hnan⟩
  rw [← hv1, ← hv2]
  unfold toRat
  simp only [← hs]
  push_cast
  ring

/-- C06: the difference computed is the exact difference. -/
theorem C06_sub_exact (d1 d2 : Dec) (h1 : d1.isNaN = false) (h2 : d2.isNaN = false) :
    (d1.sub d2).toRat = d1.toRat - d2.toRat ∧ (d1.sub d2).isNaN = false := by
  obtain ⟨hs, hv1, hv2⟩ := align_spec d1 d2
  have hnan : ((align d1 d2).1.scale == nanScale) = false := by
    simp only [isNaN, beq_eq_false_iff_ne] at *
    unfold align
    split
    · simp only [scale_shift]; omega
    · split <;> simpa using h1
  simp only [sub, h1, h2, Bool.or_false, Bool.false_eq_true, if_false]
  refine ⟨?_, hnan⟩
  rw [← hv1, ← hv2]
  unfold toRat
  simp only [← hs]
  push_cast
  ring

/-- C06: the product computed is the exact product (as a value/scale pair; the pair may be
mistaken for "no value" if the scales add up to -128, see `C06_mul_nan_collision`). -/
theorem C06_mul_exact (d1 d2 : Dec) (h1 : d1.isNaN = false) (h2 : d2.isNaN = false) :
    (d1.mul d2).toRat = d1.toRat * d2.toRat ∧
    ((d1.mul d2).isNaN = false ↔ d1.scale + d2.scale ≠ -128) := by
  simp only [mul, h1, h2, Bool.or_false, Bool.false_eq_true, if_false]
  constructor
  · unfold toRat
    have h10 : (10:ℚ) ≠ 0 := by norm_num
    rw [zpow_add₀ h10]
    push_cast
    field_simp
  · simp [isNaN, nanScale]

/-- Finding: the product of two good decimals can be taken for "no value" (scale -128), so
that a later store raises SIZE ERROR although the product (0 here) is representable. -/
theorem C06_mul_nan_collision :
    ∃ d1 d2 : Dec, d1.isNaN = false ∧ d2.isNaN = false ∧ d1.value * d2.value = 0 ∧
      (d1.mul d2).isNaN = true :=
  ⟨⟨0, -64⟩, ⟨5, -64⟩, by decide⟩

/-- The "no value" mark is contagious. -/
theorem C06_nan_propagates (d1 d2 : Dec) (h : d1.isNaN = true ∨ d2.isNaN = true) :
    (d1.add d2).isNaN = true ∧ (d1.sub d2).isNaN = true ∧ (d1.mul d2).isNaN = true ∧
    (d1.div d2).1.isNaN = true := by
  have hb : (d1.isNaN || d2.isNaN) = true := by
    rcases h with h | h <;> simp [h]
  have hn : ∀ v, (⟨v, nanScale⟩ : Dec).isNaN = true := fun v => by simp [isNaN]
  simp only [add, sub, mul, div, hb, if_true, hn, and_self]

example : (Dec.add ⟨125, 2⟩ ⟨3, 0⟩) = ⟨425, 2⟩ ∧ (Dec.mul ⟨-125, 2⟩ ⟨3, -2⟩) = ⟨-375, 0⟩ := by
  decide

/-- C06: exponentiation by a non-negative integer below 2^32 is exact. -/
theorem C06_pow_exact (d1 d2 : Dec) (h1 : d1.isNaN = false) (h2 : d2.scale = 0)
    (h0 : 0 ≤ d2.value) (hlt : d2.value < 2 ^ 32) :
    ∃ r, d1.pow d2 = some r ∧ r.toRat = d1.toRat ^ d2.value.toNat := by
  have hn2 : d2.isNaN = false := by simp [isNaN, h2, nanScale]
  have hlt' : d2.value < 2 ^ 64 := by omega
  refine ⟨⟨d1.value ^ d2.value.toNat, d1.scale * d2.value.toNat⟩, ?_, ?_⟩
  · have hm : d2.value.toNat % 4294967296 = d2.value.toNat := by
      apply Nat.mod_eq_of_lt; omega
    have hlt'' : d2.value < 18446744073709551616 := by omega
    simp [pow, h1, hn2, h2, h0, hlt'', hm]
  · unfold toRat
    have h10 : (10:ℚ) ≠ 0 := by norm_num
    rw [div_pow]
    push_cast
    rw [zpow_mul, zpow_natCast]

/-- Finding: an exponent of 2^32 is truncated to 0, so `2 ** 4294967296` computes 1. -/
theorem C06_pow_truncates_exponent :
    Dec.pow ⟨2, 0⟩ ⟨4294967296, 0⟩ = some ⟨1, 0⟩ := by decide

/-! ### C09: comparison is the comparison of the denoted numbers -/

/-- C09: comparing two decimals compares the numbers they denote, whatever the scales. -/
theorem C09_cmp_exact (d1 d2 : Dec) : d1.cmp d2 = compare d1.toRat d2.toRat := by
  obtain ⟨hs, hv1, hv2⟩ := align_spec d1 d2
  unfold Dec.cmp
  rw [← hv1, ← hv2]
  unfold toRat
  rw [← hs]
  have hp : (0:ℚ) < 10 ^ (align d1 d2).1.scale := zpow_pos (by norm_num) _
  show compare (align d1 d2).1.value (align d1 d2).2.value = _
  generalize (align d1 d2).1.value = a
  generalize (align d1 d2).2.value = b
  generalize (10:ℚ) ^ (align d1 d2).1.scale = p at *
  have key1 : (a:ℚ) / p < (b:ℚ) / p ↔ a < b := by
    rw [div_lt_div_iff_of_pos_right hp]; exact_mod_cast Iff.rfl
  have key2 : (b:ℚ) / p < (a:ℚ) / p ↔ b < a := by
    rw [div_lt_div_iff_of_pos_right hp]; exact_mod_cast Iff.rfl
  rcases lt_trichotomy a b with h | h | h
  · rw [compare_lt_iff_lt.mpr h, compare_lt_iff_lt.mpr (key1.mpr h)]
  · subst h; simp
  · rw [compare_gt_iff_gt.mpr h, compare_gt_iff_gt.mpr (key2.mpr h)]

/-- C09: consequences — the order is reflexive, antisymmetric and transitive and does not
depend on the representation. -/
theorem C09_cmp_total_order (a b c : Dec) :
    a.cmp a = .eq ∧ (a.cmp b = (b.cmp a).swap) ∧
    (a.cmp b = .lt → b.cmp c = .lt → a.cmp c = .lt) ∧
    (a.toRat = b.toRat → a.cmp c = b.cmp c) := by
  simp only [C09_cmp_exact]
  refine ⟨by simp, ?_, ?_, ?_⟩
  · rcases lt_trichotomy a.toRat b.toRat with h | h | h
    · rw [compare_lt_iff_lt.mpr h, compare_gt_iff_gt.mpr h]; rfl
    · simp [h]
    · rw [compare_gt_iff_gt.mpr h, compare_lt_iff_lt.mpr h]; rfl
  · simp only [compare_lt_iff_lt]; exact lt_trans
  · intro h; rw [h]

example : Dec.cmp ⟨100, 2⟩ ⟨1, 0⟩ = .eq ∧ Dec.cmp ⟨-101, 2⟩ ⟨-1, 0⟩ = .lt := by decide

/-! ### truncation and rounding -/

theorem isTrunc_unique (x : ℚ) (r s : ℤ) (hr : IsTrunc x r) (hs : IsTrunc x s) : r = s := by
  obtain ⟨r1, r2, r3⟩ := hr
  obtain ⟨s1, s2, s3⟩ := hs
  have hab : |r| = |s| := by
    have e1 : ((|r| : ℤ) : ℚ) < ((|s| : ℤ) : ℚ) + 1 := by push_cast; linarith
    have e2 : ((|s| : ℤ) : ℚ) < ((|r| : ℤ) : ℚ) + 1 := by push_cast; linarith
    have e1' : |r| < |s| + 1 := by exact_mod_cast e1
    have e2' : |s| < |r| + 1 := by exact_mod_cast e2
    omega
  rcases abs_eq_abs.mp hab with h | h
  · exact h
  · subst h
    by_cases h0 : s = 0
    · simp [h0]
    · exfalso
      push_cast at r3
      have hx : x * s = 0 := by nlinarith
      have hs0 : (s:ℚ) ≠ 0 := by exact_mod_cast h0
      have hx0 : x = 0 := by
        rcases mul_eq_zero.mp hx with h | h
        · exact h
        · exact absurd h hs0
      rw [hx0] at s1
      simp at s1
      exact h0 s1

theorem isRoundHalfAway_unique (x : ℚ) (r s : ℤ) (hr : IsRoundHalfAway x r)
    (hs : IsRoundHalfAway x s) : r = s := by
  obtain ⟨r1, r2⟩ := hr
  obtain ⟨s1, s2⟩ := hs
  by_contra hne
  wlog hlt : r < s generalizing r s
  · exact this s r s1 s2 r1 r2 (Ne.symm hne) (by omega)
  have h1 : (r:ℚ) + 1 ≤ s := by exact_mod_cast hlt
  have a1 : x - r ≤ |x - r| := le_abs_self _
  have a2 : -(x - s) ≤ |x - s| := neg_le_abs _
  have e1 : 2 * |x - r| = 1 := by linarith
  have e2 : 2 * |x - s| = 1 := by linarith
  have f1 := r2 e1
  have f2 := s2 e2
  have hx : x - r = 1/2 := by linarith
  have hx2 : x - s = -(1/2) := by linarith
  rcases le_or_gt 0 x with h | h
  · rw [abs_of_nonneg h] at f1
    have : x < r ∨ x < -r := lt_abs.mp f1
    rcases this with g | g
    · linarith
    · have hr' : (r:ℚ) < 0 := by linarith
      have : r ≤ -1 := by have : r < 0 := by exact_mod_cast hr'
                          omega
      have : (r:ℚ) ≤ -1 := by exact_mod_cast this
      linarith
  · rw [abs_of_neg h] at f2
    have : -x < s ∨ -x < -s := lt_abs.mp f2
    rcases this with g | g
    · have hr' : (0:ℚ) < s := by linarith
      have : 1 ≤ s := by have : 0 < s := by exact_mod_cast hr'
                         omega
      have : (1:ℚ) ≤ s := by exact_mod_cast this
      linarith
    · linarith

/-- `mpz_tdiv_q` by a positive divisor truncates the rational quotient toward zero. -/
theorem isTrunc_tdiv (a : ℤ) (b : ℤ) (hb : b ≠ 0) : IsTrunc ((a:ℚ) / b) (a.tdiv b) := by
  have e : a = b * a.tdiv b + a.tmod b := (Int.mul_tdiv_add_tmod a b).symm
  have hlt : |a.tmod b| < |b| := by
    have h3 := Int.natAbs_tmod a b
    have := Nat.mod_lt a.natAbs (Int.natAbs_pos.mpr hb)
    rw [Int.abs_eq_natAbs, Int.abs_eq_natAbs, h3]; exact_mod_cast this
  have hbq : (b:ℚ) ≠ 0 := by exact_mod_cast hb
  have hbpos : (0:ℚ) < |(b:ℚ)| := abs_pos.mpr hbq
  -- signs
  have hnat : |a| = |b| * |a.tdiv b| + |a.tmod b| := by
    have h := Nat.div_add_mod a.natAbs b.natAbs
    have h2 := Int.natAbs_tdiv a b
    have h3 := Int.natAbs_tmod a b
    simp only [Int.abs_eq_natAbs]
    rw [h2, h3]
    exact_mod_cast h.symm
  have hdiv : |(a:ℚ) / b| = |(a:ℚ)| / |(b:ℚ)| := abs_div _ _
  have hq : |(a:ℚ)| = |(b:ℚ)| * |((a.tdiv b : ℤ) : ℚ)| + |((a.tmod b : ℤ):ℚ)| := by exact_mod_cast hnat
  have hltq : |((a.tmod b : ℤ):ℚ)| < |(b:ℚ)| := by exact_mod_cast hlt
  have h0 : 0 ≤ |((a.tmod b : ℤ):ℚ)| := abs_nonneg _
  refine ⟨?_, ?_, ?_⟩
  · rw [hdiv, le_div_iff₀ hbpos, hq]; nlinarith
  · rw [hdiv, div_lt_iff₀ hbpos, hq]; nlinarith
  · have : (a:ℚ) / b * (a.tdiv b : ℤ) = (a * (b * a.tdiv b) : ℤ) / ((b:ℚ) * b) := by
      push_cast; field_simp
    rw [this]
    apply div_nonneg
    · have hz : 0 ≤ a * (b * a.tdiv b) := by
        have h2 : |b * a.tdiv b| ≤ |a| := by rw [abs_mul, hnat]; have := abs_nonneg (a.tmod b); omega
        rcases le_or_gt 0 a with ha | ha
        · have : 0 ≤ b * a.tdiv b := by
            have := Int.tmod_nonneg b ha
            by_contra hneg
            have h4 : b * a.tdiv b < 0 := by omega
            have h5 : 0 < |b * a.tdiv b| := by rw [abs_pos]; omega
            have h6 : a.tmod b = a - b * a.tdiv b := by omega
            have h7 : |a.tmod b| = a.tmod b := abs_of_nonneg (by omega)
            have h8 : |a| = a := abs_of_nonneg ha
            rw [h8, ← abs_mul, h7, abs_of_neg h4] at hnat
            omega
          exact mul_nonneg ha this
        · have : b * a.tdiv b ≤ 0 := by
            by_contra hneg
            have h4 : 0 < b * a.tdiv b := by omega
            have h8 : |a| = -a := abs_of_neg ha
            have h7 : |a.tmod b| = -(a.tmod b) := abs_of_nonpos (by omega)
            rw [h8, ← abs_mul, h7, abs_of_pos h4] at hnat
            omega
          exact mul_nonneg_of_nonpos_of_nonpos (le_of_lt ha) this
      exact_mod_cast hz
    · exact mul_self_nonneg _

/-! ### C05: ROUNDED and truncation -/

theorem Dec.toRat_scaled (d : Dec) (n : ℤ) :
    d.toRat * (10:ℚ) ^ n = (d.value : ℚ) * (10:ℚ) ^ (n - d.scale) := by
  have h10 : (10:ℚ) ≠ 0 := by norm_num
  unfold toRat
  rw [zpow_sub₀ h10]
  field_simp

theorem shift_neg_value (d : Dec) (k : ℕ) : (d.shift (-(k:ℤ))).value = d.value.tdiv (10 ^ k) := by
  unfold Dec.shift
  rcases Nat.eq_zero_or_pos k with h | h
  · subst h; simp
  · rw [if_neg (by omega), if_neg (by omega)]; simp

theorem shift_pos_value (d : Dec) (k : ℕ) : (d.shift (k:ℤ)).value = d.value * (10 ^ k) := by
  unfold Dec.shift
  rcases Nat.eq_zero_or_pos k with h | h
  · subst h; simp
  · rw [if_neg (by omega), if_pos (by omega)]; simp

theorem isTrunc_int (a : ℤ) : IsTrunc (a : ℚ) a :=
  ⟨le_refl _, by linarith, mul_self_nonneg _⟩

theorem isRound_int (a : ℤ) : IsRoundHalfAway (a : ℚ) a :=
  ⟨by simp, by simp⟩

theorem round_core (N P : ℕ) (hP : 0 < P) :
    (2 * (((N / P + 5) / 10 : ℕ) : ℚ) - 1) ≤ 2 * ((N : ℚ) / (10 * P)) ∧
    2 * ((N : ℚ) / (10 * P)) < 2 * (((N / P + 5) / 10 : ℕ) : ℚ) + 1 := by
  set q := N / P with hq
  set r := (q + 5) / 10 with hr
  have h1 : 10 * r ≤ q + 5 := by omega
  have h2 : q + 5 < 10 * r + 10 := by omega
  have h3 : q * P ≤ N := Nat.div_mul_le_self N P
  have h4 : N < (q + 1) * P := by
    have := Nat.div_add_mod N P
    have := Nat.mod_lt N hP
    nlinarith
  have hPq : (0:ℚ) < P := by exact_mod_cast hP
  have h1' : (10 * r : ℚ) ≤ q + 5 := by exact_mod_cast h1
  have h2' : (q : ℚ) + 1 ≤ 10 * r + 5 := by
    have : q + 1 ≤ 10 * r + 5 := by omega
    exact_mod_cast this
  have h3' : (q : ℚ) * P ≤ N := by exact_mod_cast h3
  have h4' : (N : ℚ) < (q + 1) * P := by exact_mod_cast h4
  have hx : 2 * ((N : ℚ) / (10 * P)) = (2 * N) / (10 * P) := by ring
  have hpp : (0:ℚ) < 10 * P := by linarith
  rw [hx]
  constructor
  · rw [le_div_iff₀ hpp]
    nlinarith
  · rw [div_lt_iff₀ hpp]
    nlinarith

theorem isRound_of_nat (x : ℚ) (r : ℕ) (h1 : 2 * (r:ℚ) - 1 ≤ 2 * x) (h2 : 2 * x < 2 * r + 1)
    (hx : 0 ≤ x) : IsRoundHalfAway x r := by
  have ha : |x - r| ≤ 1/2 := by rw [abs_le]; constructor <;> linarith
  refine ⟨by push_cast; linarith, ?_⟩
  intro he
  push_cast at he ⊢
  rw [abs_of_nonneg hx, abs_of_nonneg (by positivity : (0:ℚ) ≤ r)]
  rcases abs_cases (x - r) with ⟨h, _⟩ | ⟨h, _⟩ <;> rw [h] at he <;> linarith

theorem isRound_neg (x : ℚ) (r : ℤ) (h : IsRoundHalfAway x r) : IsRoundHalfAway (-x) (-r) := by
  obtain ⟨h1, h2⟩ := h
  have e : |(-x) - ((-r : ℤ) : ℚ)| = |x - r| := by
    push_cast; rw [← abs_neg]; congr 1; ring
  refine ⟨by rw [e]; exact h1, ?_⟩
  rw [e, abs_neg]; push_cast; rw [abs_neg]; exact h2

/-- C05 (unrounded): the number of units stored is the exact value truncated toward zero. -/
theorem C05_truncates (d : Dec) (fs : ℤ) :
    (d.toFieldScale fs false).scale = fs ∧
    IsTrunc (d.toRat * (10:ℚ) ^ fs) (d.toFieldScale fs false).value := by
  have e : d.toFieldScale fs false = d.shift (fs - d.scale) := by simp [toFieldScale]
  rw [e]
  refine ⟨by rw [scale_shift]; ring, ?_⟩
  rw [toRat_scaled]
  rcases le_or_gt d.scale fs with h | h
  · obtain ⟨k, hk⟩ := Int.eq_ofNat_of_zero_le (show 0 ≤ fs - d.scale by omega)
    rw [hk, shift_pos_value, zpow_natCast]
    have := isTrunc_int (d.value * 10 ^ k)
    push_cast at this ⊢
    exact this
  · obtain ⟨k, hk⟩ := Int.eq_ofNat_of_zero_le (show 0 ≤ d.scale - fs by omega)
    have hk' : fs - d.scale = -(k:ℤ) := by omega
    rw [hk', shift_neg_value, zpow_neg, zpow_natCast]
    have := isTrunc_tdiv d.value (10 ^ k) (by positivity)
    push_cast at this ⊢
    rw [div_eq_mul_inv] at this
    exact this

/-- C05 (ROUNDED): the number of units stored is the nearest one, ties away from zero. -/
theorem C05_rounds (d : Dec) (fs : ℤ) :
    (d.toFieldScale fs true).scale = fs ∧
    IsRoundHalfAway (d.toRat * (10:ℚ) ^ fs) (d.toFieldScale fs true).value := by
  by_cases hc : fs < d.scale ∧ d.value ≠ 0
  · obtain ⟨k, hk⟩ := Int.eq_ofNat_of_zero_le (show 0 ≤ d.scale - fs - 1 by omega)
    have hk' : fs - d.scale + 1 = -(k:ℤ) := by omega
    have hsc : (d.shift (-(k:ℤ))).scale = fs + 1 := by rw [scale_shift]; omega
    have h1 : fs - (fs + 1) = -((1:ℕ):ℤ) := by simp
    have hz : fs - d.scale = -((k + 1 : ℕ) : ℤ) := by push_cast; omega
    have hPpos : 0 < 10 ^ k := by positivity
    rw [toRat_scaled, hz, zpow_neg, zpow_natCast]
    rcases lt_or_gt_of_ne hc.2 with hv | hv
    · -- negative
      have e : d.toFieldScale fs true =
          Dec.shift ⟨d.value.tdiv (10 ^ k) - 5, fs + 1⟩ (-((1:ℕ):ℤ)) := by
        simp only [toFieldScale, hc, and_self, not_false_eq_true, ne_eq, if_true, hk',
          if_neg (not_lt.mpr (le_of_lt hv)), gt_iff_lt, hsc, shift_neg_value, h1]
      rw [e]
      refine ⟨by rw [scale_shift]; simp, ?_⟩
      rw [shift_neg_value]
      obtain ⟨N, hN⟩ := Int.eq_ofNat_of_zero_le (show 0 ≤ -d.value by omega)
      have hdv : d.value = -(N:ℤ) := by omega
      rw [hdv]
      have ev : ((-(N:ℤ)).tdiv (10 ^ k) - 5).tdiv (10 ^ 1) = -(((N / 10 ^ k + 5) / 10 : ℕ) : ℤ) := by
        rw [Int.neg_tdiv]
        have : ((N:ℤ)).tdiv (10 ^ k) = ((N / 10 ^ k : ℕ) : ℤ) := by
          rw [Int.tdiv_eq_ediv_of_nonneg (by positivity)]; push_cast; rfl
        rw [this]
        have e2 : -((N / 10 ^ k : ℕ) : ℤ) - 5 = -((N / 10 ^ k + 5 : ℕ) : ℤ) := by push_cast; ring
        rw [e2, Int.neg_tdiv, Int.tdiv_eq_ediv_of_nonneg (by positivity)]
        push_cast; rfl
      show IsRoundHalfAway _ (((-(N:ℤ)).tdiv (10 ^ k) - 5).tdiv (10 ^ 1))
      rw [ev]
      have := round_core N (10 ^ k) hPpos
      have ex : ((-(N:ℤ) : ℤ) : ℚ) * ((10:ℚ) ^ (k+1))⁻¹ = -((N : ℚ) / (10 * ((10 ^ k : ℕ) : ℚ))) := by
        push_cast; rw [pow_succ]; field_simp
      rw [ex]
      exact isRound_neg _ _ (isRound_of_nat _ _ this.1 this.2 (by positivity))
    · have e : d.toFieldScale fs true =
          Dec.shift ⟨d.value.tdiv (10 ^ k) + 5, fs + 1⟩ (-((1:ℕ):ℤ)) := by
        simp only [toFieldScale, hc, and_self, not_false_eq_true, ne_eq, if_true, hk',
          if_pos hv, gt_iff_lt, hsc, shift_neg_value, h1]
      rw [e]
      refine ⟨by rw [scale_shift]; simp, ?_⟩
      rw [shift_neg_value]
      obtain ⟨N, hN⟩ := Int.eq_ofNat_of_zero_le (show 0 ≤ d.value by omega)
      rw [hN]
      have ev : (((N:ℤ)).tdiv (10 ^ k) + 5).tdiv (10 ^ 1) = (((N / 10 ^ k + 5) / 10 : ℕ) : ℤ) := by
        rw [Int.tdiv_eq_ediv_of_nonneg (by positivity : (0:ℤ) ≤ (N:ℤ))]
        have e0 : ((N:ℤ)) / 10 ^ k + 5 = ((N / 10 ^ k + 5 : ℕ) : ℤ) := by push_cast; rfl
        rw [e0, Int.tdiv_eq_ediv_of_nonneg (by positivity)]
        push_cast; rfl
      show IsRoundHalfAway _ ((((N:ℤ)).tdiv (10 ^ k) + 5).tdiv (10 ^ 1))
      rw [ev]
      have := round_core N (10 ^ k) hPpos
      have ex : ((N:ℤ) : ℚ) * ((10:ℚ) ^ (k+1))⁻¹ = ((N : ℚ) / (10 * ((10 ^ k : ℕ) : ℚ))) := by
        push_cast; rw [pow_succ]; field_simp
      rw [ex]
      exact isRound_of_nat _ _ this.1 this.2 (by positivity)
  · have e : d.toFieldScale fs true = d.shift (fs - d.scale) := by
      unfold toFieldScale
      rw [if_neg (by tauto)]
    rw [e]
    refine ⟨by rw [scale_shift]; ring, ?_⟩
    rw [toRat_scaled]
    rcases le_or_gt d.scale fs with h | h
    · obtain ⟨k, hk⟩ := Int.eq_ofNat_of_zero_le (show 0 ≤ fs - d.scale by omega)
      rw [hk, shift_pos_value, zpow_natCast]
      have := isRound_int (d.value * 10 ^ k)
      push_cast at this ⊢
      exact this
    · have hv : d.value = 0 := by
        by_contra h0; exact hc ⟨h, h0⟩
      obtain ⟨k, hk⟩ := Int.eq_ofNat_of_zero_le (show 0 ≤ d.scale - fs by omega)
      have hk' : fs - d.scale = -(k:ℤ) := by omega
      rw [hk', shift_neg_value, hv]
      simpa using isRound_int 0

/-- C05: the two specifications determine the stored value uniquely. -/
theorem C05_spec_unique (x : ℚ) (r s : ℤ) :
    (IsTrunc x r → IsTrunc x s → r = s) ∧
    (IsRoundHalfAway x r → IsRoundHalfAway x s → r = s) :=
  ⟨isTrunc_unique x r s, isRoundHalfAway_unique x r s⟩

example : (Dec.toFieldScale ⟨-125, 2⟩ 1 true) = ⟨-13, 1⟩ ∧
    (Dec.toFieldScale ⟨-125, 2⟩ 1 false) = ⟨-12, 1⟩ ∧
    (Dec.toFieldScale ⟨1249, 3⟩ 1 true) = ⟨12, 1⟩ := by decide

/-! ### C07: DIVIDE -/

/-- C07: dividing by zero yields no value and raises the zero-divide condition. -/
theorem C07_div_by_zero (d1 d2 : Dec) (h1 : d1.isNaN = false) (h2 : d2.isNaN = false)
    (hz : d2.toRat = 0) : (d1.div d2).2 = true ∧ (d1.div d2).1.isNaN = true := by
  have hv : d2.value = 0 := by
    unfold toRat at hz
    have h10 : (10:ℚ) ^ d2.scale ≠ 0 := zpow_ne_zero _ (by norm_num)
    have := (div_eq_zero_iff.mp hz).resolve_right h10
    exact_mod_cast this
  simp [div, h1, h2, hv]
  simp [isNaN]

/-- C07: dividing zero by a nonzero number gives zero. -/
theorem C07_div_zero_dividend (d1 d2 : Dec) (h1 : d1.isNaN = false) (h2 : d2.isNaN = false)
    (hz : d2.toRat ≠ 0) (h0 : d1.toRat = 0) :
    (d1.div d2).2 = false ∧ (d1.div d2).1.isNaN = false ∧ (d1.div d2).1.toRat = 0 := by
  have h10 : ∀ d : Dec, (10:ℚ) ^ d.scale ≠ 0 := fun d => zpow_ne_zero _ (by norm_num)
  have hv : d1.value = 0 := by
    unfold toRat at h0
    have := (div_eq_zero_iff.mp h0).resolve_right (h10 _)
    exact_mod_cast this
  have hv2 : d2.value ≠ 0 := by
    intro h; apply hz; simp [toRat, h]
  have e : d1.div d2 = (⟨0, 0⟩, false) := by simp [div, h1, h2, hv, hv2]
  rw [e]
  simp [isNaN, nanScale, toRat]

/-- C07: otherwise the intermediate quotient is the exact quotient truncated toward zero
at a scale of at least 37 decimals (and at least 37 more than the scale difference). -/
theorem C07_div_truncated (d1 d2 : Dec) (h1 : d1.isNaN = false) (h2 : d2.isNaN = false)
    (hz : d2.toRat ≠ 0) (h0 : d1.toRat ≠ 0) :
    (d1.div d2).2 = false ∧ (d1.div d2).1.isNaN = false ∧
    37 ≤ (d1.div d2).1.scale ∧ d1.scale - d2.scale + 37 ≤ (d1.div d2).1.scale ∧
    IsTrunc (d1.toRat / d2.toRat * (10:ℚ) ^ (d1.div d2).1.scale) (d1.div d2).1.value := by
  have hv : d1.value ≠ 0 := by
    intro h; apply h0; simp [toRat, h]
  have hv2 : d2.value ≠ 0 := by
    intro h; apply hz; simp [toRat, h]
  obtain ⟨k, hk⟩ : ∃ k : ℕ, (37 + (if d1.scale - d2.scale < 0 then -(d1.scale - d2.scale) else 0)) = (k:ℤ) := by
    refine ⟨(37 + (if d1.scale - d2.scale < 0 then -(d1.scale - d2.scale) else 0)).toNat, ?_⟩
    rw [Int.toNat_of_nonneg]
    split <;> omega
  have e : d1.div d2 = (⟨(d1.value * 10 ^ k).tdiv d2.value, d1.scale - d2.scale + k⟩, false) := by
    simp only [div, h1, h2, Bool.or_false, Bool.false_eq_true, if_false, hv, hv2, hk,
      shift_pos_value, scale_shift]
  have hsc : 37 ≤ d1.scale - d2.scale + k ∧ d1.scale - d2.scale + 37 ≤ d1.scale - d2.scale + k := by
    split at hk <;> omega
  rw [e]
  refine ⟨rfl, ?_, hsc.1, hsc.2, ?_⟩
  · simp only [isNaN, nanScale, beq_eq_false_iff_ne]; omega
  · have := isTrunc_tdiv (d1.value * 10 ^ k) d2.value hv2
    have ex : d1.toRat / d2.toRat * (10:ℚ) ^ (d1.scale - d2.scale + (k:ℤ)) =
        ((d1.value * 10 ^ k : ℤ) : ℚ) / (d2.value : ℚ) := by
      have h10 : (10:ℚ) ≠ 0 := by norm_num
      unfold toRat
      rw [zpow_add₀ h10, zpow_sub₀ h10, zpow_natCast]
      have hd2 : (d2.value : ℚ) ≠ 0 := by exact_mod_cast hv2
      push_cast
      field_simp
    show IsTrunc (d1.toRat / d2.toRat * (10:ℚ) ^ (d1.scale - d2.scale + (k:ℤ))) _
    rw [ex]
    exact this

example : (Dec.div ⟨1, 0⟩ ⟨3, 0⟩).1 = ⟨3333333333333333333333333333333333333, 37⟩ ∧
    (Dec.div ⟨7, 0⟩ ⟨0, 3⟩) = (⟨7, -128⟩, true) := by decide

end Cob
