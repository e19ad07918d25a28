import Verif.Intr.Stat
import Verif.Intr.NumericMore
/-
C89: FUNCTION VARIANCE, FUNCTION RANDOM and FUNCTION STORED-CHAR-LENGTH.
-/
namespace Cob.Stat
open Cob Dec

/-! ### Specification -/

/-- The average of the numbers `xs`. -/
def average (xs : List ℚ) : ℚ := xs.sum / xs.length

/-- The variance of the numbers `xs`: the average of the squares of their distances from their
average. -/
def variance (xs : List ℚ) : ℚ := average (xs.map fun x => (x - average xs) ^ 2)

/-- The value of `xs` as an argument list: numeric items (any usage, size and scale) holding them. -/
def Hold (ebc : Bool) (args : List Item) (xs : List ℚ) : Prop :=
  List.Forall₂ (fun it x => WFItem it ∧ Holds ebc it x ∧ -128 < it.field.attr.scale ∧
    it.field.attr.scale ≤ 127) args xs

/-! ### Lemmas -/

theorem sum_sq_shift (xs : List ℚ) (a b : ℚ) :
    (xs.map fun x => (x - a) ^ 2).sum =
      (xs.map fun x => (x - b) ^ 2).sum + 2 * (b - a) * (xs.sum - xs.length * b) + xs.length * (b - a) ^ 2 := by
  induction xs with
  | nil => simp
  | cons x xs ih =>
    simp only [List.map_cons, List.sum_cons, List.length_cons, ih]
    push_cast
    ring

/-- The average of squares around any point `a` is the variance plus the square of the distance of
`a` from the average. -/
theorem around (xs : List ℚ) (hne : xs ≠ []) (a : ℚ) :
    (xs.map fun x => (x - a) ^ 2).sum / xs.length = variance xs + (average xs - a) ^ 2 := by
  have hl : (xs.length : ℚ) ≠ 0 := by
    have := List.length_pos_iff.2 hne
    exact_mod_cast this.ne'
  have h0 : xs.sum - xs.length * average xs = 0 := by
    unfold average; field_simp; ring
  rw [sum_sq_shift xs a (average xs), h0]
  unfold variance
  conv_rhs => rw [average]
  rw [List.length_map]
  field_simp
  ring

theorem sub_scale (d1 d2 : Dec) (h1 : d1.isNaN = false) (h2 : d2.isNaN = false) :
    (d1.sub d2).scale = max d1.scale d2.scale := by
  simp only [sub, h1, h2, Bool.or_false, Bool.false_eq_true, if_false]
  unfold align
  split
  · simp only [scale_shift]; omega
  · split <;> simp only <;> omega

theorem devLoop_spec (ebc : Bool) (m : Dec) (hm : m.isNaN = false) (hms : 0 ≤ m.scale)
    (args : List Item) (xs : List ℚ) (acc : Dec) (ha : acc.isNaN = false) (has : 0 ≤ acc.scale)
    (h : Hold ebc args xs) :
    ∃ d, devLoop ebc m args acc = some d ∧ d.isNaN = false ∧ 0 ≤ d.scale ∧
      d.toRat = acc.toRat + (xs.map fun x => (x - m.toRat) ^ 2).sum := by
  unfold Hold at h
  induction h generalizing acc with
  | nil => exact ⟨acc, rfl, ha, has, by simp⟩
  | cons hx hr ih =>
    rename_i f x fs xs
    obtain ⟨w, hx, s1, s2⟩ := hx
    obtain ⟨d2, r2, e2, sc2, m2⟩ := holds_read' ebc f w x hx (by omega)
    obtain ⟨b1, b2⟩ := C06_sub_exact d2 m m2 hm
    have b3 := sub_scale d2 m m2 hm
    obtain ⟨c1, c2⟩ := C06_mul_exact (d2.sub m) (d2.sub m) b2 b2
    have c2 := c2.2 (by omega)
    have c3 : 0 ≤ ((d2.sub m).mul (d2.sub m)).scale := by
      simp only [mul, b2, Bool.or_false, Bool.false_eq_true, if_false]; omega
    obtain ⟨a1, a2⟩ := C06_add_exact acc _ ha c2
    have a3 := add_scale acc _ ha c2
    rw [devLoop, r2]
    simp only
    obtain ⟨d, q1, q2, q3, q4⟩ := ih (acc.add ((d2.sub m).mul (d2.sub m))) a2 (by rw [a3]; omega)
    refine ⟨d, q1, q2, q3, ?_⟩
    rw [q4, a1, c1, b1, e2, List.map_cons, List.sum_cons]; ring

/-- What dividing by a count leaves. -/
theorem div_count (d : Dec) (hd : d.isNaN = false) (n : Nat) (hn : 0 < n) :
    let q := (d.div ⟨n, 0⟩).1
    q.isNaN = false ∧ 0 ≤ q.scale ∧ |d.toRat / n - q.toRat| < 1 / 10 ^ 37 ∧
    (∀ s : ℕ, s ≤ 37 → truncQ (q.toRat * 10 ^ s) = truncQ (d.toRat / n * 10 ^ s)) ∧
    (∀ k : ℤ, d.toRat / n * 10 ^ 37 = k → q.toRat = d.toRat / n) := by
  intro q
  have hz : Dec.toRat ⟨0, 0⟩ = 0 := by simp [toRat]
  have hcount : toRat ⟨n, 0⟩ = n := by simp [toRat]
  have hc0 : toRat ⟨n, 0⟩ ≠ 0 := by rw [hcount]; exact_mod_cast hn.ne'
  have hnan2 : isNaN (⟨n, 0⟩ : Dec) = false := by simp [isNaN, nanScale]
  by_cases hd0 : d.toRat = 0
  · have hv : d.value = 0 := (toRat_zero_iff d).1 hd0
    have hne0 : ¬ ((n : Int) = 0) := by omega
    have hq0 : q = ⟨0, 0⟩ := by
      simp only [q, div, hd, hnan2, hv, hne0, Bool.or_self, Bool.false_eq_true, if_false, if_true]
    rw [hq0]
    refine ⟨by decide, by decide, ?_, fun s _ => ?_, fun k _ => ?_⟩
    · rw [hz, hd0]; norm_num
    · rw [hz, hd0]; simp
    · rw [hz, hd0]; simp
  · obtain ⟨-, c2, c3, -, c5⟩ := C07_div_truncated d ⟨n, 0⟩ hd hnan2 hc0 hd0
    have hq : (d.div ⟨n, 0⟩).1 = q := rfl
    rw [hq] at c2 c3 c5
    rw [hcount] at c5
    set m := d.toRat / n with hm
    have hsplit : ∀ s : ℕ, s ≤ 37 → truncQ (q.toRat * 10 ^ s) = truncQ (m * 10 ^ s) := by
      intro s hs
      obtain ⟨k, hk⟩ : ∃ k : ℕ, q.scale = (s : ℤ) + k := ⟨(q.scale - s).toNat, by omega⟩
      have hP : (0 : ℚ) < 10 ^ k := by positivity
      have hS : (0 : ℚ) < 10 ^ s := by positivity
      have e1 : (10 : ℚ) ^ q.scale = 10 ^ s * 10 ^ k := by
        rw [hk, zpow_add₀ (by norm_num), zpow_natCast, zpow_natCast]
      rw [e1] at c5
      have e2 : q.toRat * 10 ^ s = (q.value : ℚ) / (10 ^ k : ℕ) := by
        unfold toRat
        rw [e1]; push_cast; field_simp
      have h2 := isTrunc_nest (m * (10 ^ s * 10 ^ k)) (10 ^ k) (by positivity) q.value _ c5
        (isTrunc_truncQ _)
      rw [e2]
      have e3 : m * (10 ^ s * 10 ^ k) / ((10 ^ k : ℕ) : ℚ) = m * 10 ^ s := by
        push_cast; field_simp
      rw [e3] at h2
      exact isTrunc_unique _ _ _ h2 (isTrunc_truncQ _)
    obtain ⟨k, hk⟩ : ∃ k : ℕ, q.scale = 37 + (k : ℤ) := ⟨(q.scale - 37).toNat, by omega⟩
    have e1 : (10 : ℚ) ^ q.scale = 10 ^ 37 * 10 ^ k := by
      rw [hk, zpow_add₀ (by norm_num), zpow_natCast]; norm_cast
    have hP : (0 : ℚ) < 10 ^ k := by positivity
    have hP1 : (1 : ℚ) ≤ 10 ^ k := one_le_pow₀ (by norm_num)
    have e2 : q.toRat * (10 ^ 37 * 10 ^ k) = q.value := by
      rw [← e1]; exact toRat_mul_scale q
    refine ⟨c2, by omega, ?_, hsplit, ?_⟩
    · rw [e1] at c5
      obtain ⟨t1, t2, t3⟩ := c5
      have hdist : |m * (10 ^ 37 * 10 ^ k) - q.value| < 1 := by
        rcases le_or_gt 0 (m * (10 ^ 37 * 10 ^ k)) with hx | hx
        · rw [abs_of_nonneg hx] at t1 t2
          rcases le_or_gt 0 (q.value : ℚ) with hv | hv
          · rw [abs_of_nonneg hv] at t1 t2
            rw [abs_lt]; constructor <;> linarith
          · rw [abs_of_neg hv] at t1 t2
            have : 0 < m * (10 ^ 37 * 10 ^ k) := by linarith
            nlinarith
        · rw [abs_of_neg hx] at t1 t2
          rcases le_or_gt (q.value : ℚ) 0 with hv | hv
          · rw [abs_of_nonpos hv] at t1 t2
            rw [abs_lt]; constructor <;> linarith
          · nlinarith
      rw [← e2, ← sub_mul, abs_mul, abs_of_pos (show (0 : ℚ) < 10 ^ 37 * 10 ^ k by positivity)] at hdist
      rw [lt_div_iff₀ (by positivity)]
      refine lt_of_le_of_lt ?_ hdist
      have : (0 : ℚ) ≤ |m - q.toRat| := abs_nonneg _
      calc |m - q.toRat| * 10 ^ 37 = |m - q.toRat| * (10 ^ 37 * 1) := by ring
        _ ≤ |m - q.toRat| * (10 ^ 37 * 10 ^ k) := by gcongr
    · intro j hj
      rw [e1] at c5
      have : m * (10 ^ 37 * 10 ^ k) = ((j * 10 ^ k : ℤ) : ℚ) := by
        push_cast; rw [← hj]; ring
      rw [this] at c5
      have h3 := isTrunc_unique _ _ _ c5 (isTrunc_int _)
      have h4 : q.toRat * (10 ^ 37 * 10 ^ k) = m * (10 ^ 37 * 10 ^ k) := by
        rw [e2, this, h3]
      exact mul_right_cancel₀ (by positivity) h4

theorem finish_spec (ebc trunc : Bool) (q : Dec) (m : ℚ) (hqn : q.isNaN = false)
    (hqt : ∀ s : ℕ, s ≤ 18 → truncQ (q.toRat * 10 ^ s) = truncQ (m * 10 ^ s)) (hlt : |m| < 10 ^ 18) :
    ∃ r s, finish ebc trunc q = some r ∧ r.raised = false ∧
      s ≤ 18 ∧ |m| < 10 ^ (18 - s) ∧ (∀ k, |m| < 10 ^ k → 18 - s ≤ k) ∧
      Holds ebc r.item ((truncQ (m * 10 ^ s) : ℚ) / 10 ^ s) := by
  obtain ⟨w1, w2, w3⟩ := wholeDigits_spec m hlt
  have hsmall : ∀ s : ℕ, s ≤ 18 → s + wholeDigits m ≤ 18 → (truncQ (m * 10 ^ s)).natAbs < 2 ^ 63 := by
    intro s hs hsw
    have ht := (isTrunc_truncQ (m * 10 ^ s)).1
    rw [abs_mul, abs_of_pos (show (0 : ℚ) < 10 ^ s by positivity)] at ht
    have h1 : |m| * 10 ^ s < 10 ^ wholeDigits m * 10 ^ s :=
      mul_lt_mul_of_pos_right w2 (by positivity)
    rw [← pow_add] at h1
    have h2 : (10 : ℚ) ^ (wholeDigits m + s) ≤ 10 ^ 18 := pow_le_pow_right₀ (by norm_num) (by omega)
    have h3 : |((truncQ (m * 10 ^ s) : ℤ) : ℚ)| < 10 ^ 18 := by linarith
    have h4 : |truncQ (m * 10 ^ s)| < 10 ^ 18 := by exact_mod_cast h3
    rw [abs_lt] at h4
    omega
  have hstore : ∀ s : ℕ, s ≤ 18 → s + wholeDigits m ≤ 18 →
      let r := storeItem ebc q (newBinary 18 s true 8) { binTrunc := trunc }
      r.raised = false ∧ WFItem r.item ∧ r.item.usage = .binary ∧ r.item.field.attr.scale = s ∧
        Holds ebc r.item ((truncQ (m * 10 ^ s) : ℚ) / 10 ^ s) := by
    intro s hs hsw
    have := store_newBinary8 ebc trunc q hqn 18 s (by omega) (truncQ (m * 10 ^ s))
      (by rw [zpow_natCast, ← hqt s hs]; exact isTrunc_truncQ _) (hsmall s hs hsw)
    simpa only [zpow_natCast] using this
  obtain ⟨a1, a2, a3, a4, a5⟩ := hstore 0 (by omega) (by omega)
  obtain ⟨n, n1, n2, n3, -⟩ := holds_read' ebc _ a2 _ a5 (by rw [a4]; decide)
  have hn : n.value = truncQ m := by
    unfold toRat at n2
    rw [n3, a4] at n2
    simp only [Nat.cast_zero, zpow_zero, div_one, pow_zero, mul_one] at n2
    exact_mod_cast n2
  obtain ⟨s, hs⟩ : ∃ s, s + wholeDigits m = 18 := ⟨18 - wholeDigits m, by omega⟩
  obtain ⟨b1, b2, b3, b4, b5⟩ := hstore s (by omega) (by omega)
  have hw18 : 18 - s = wholeDigits m := by omega
  refine ⟨_, s, ?_, b1, by omega, by rw [hw18]; exact w2, by rw [hw18]; exact w3, b5⟩
  unfold finish
  simp only [Nat.cast_zero] at n1
  rw [n1]
  simp only
  have hcd : countDigits 20 n.value = wholeDigits m := by rw [hn, wholeDigits]
  rw [hcd, if_pos w1]
  have : (18 : ℤ) - wholeDigits m = s := by omega
  rw [this]

/-! ### VARIANCE -/

/-- C89: VARIANCE of one or more numbers, as long as it is below 10^18 - 1, never fails, and gives
their variance with 18 digits: there is a number `w`, not below the variance and less than 10^-74
above it, of which the result is the value cut off after `s` decimals, where `18 - s` is the number
of digits the whole part of `w` has.  When the average of the numbers can be written with 37
decimals, `w` is the variance. -/
theorem C89_variance (ebc trunc : Bool) (args : List Item) (xs : List ℚ) (hne : args ≠ [])
    (h : Hold ebc args xs) (hlt : variance xs ≤ 10 ^ 18 - 1) :
    ∃ r s w, intrVariance ebc trunc args = some r ∧ r.raised = false ∧
      variance xs ≤ w ∧ w < variance xs + 1 / 10 ^ 74 ∧
      ((∃ k : ℤ, average xs * 10 ^ 37 = k) → w = variance xs) ∧
      s ≤ 18 ∧ w < 10 ^ (18 - s) ∧ (1 < args.length → ∀ k, w < 10 ^ k → 18 - s ≤ k) ∧
      Holds ebc r.item ((⌊w * 10 ^ s⌋ : ℚ) / 10 ^ s) := by
  have hlen : args.length = xs.length := h.length_eq
  have hpos : 0 < args.length := List.length_pos_iff.2 hne
  have hxne : xs ≠ [] := by intro h0; rw [h0, List.length_nil] at hlen; omega
  have hv0 : 0 ≤ variance xs := by
    have := around xs hxne (average xs)
    simp only [sub_self, ne_eq, OfNat.ofNat_ne_zero, not_false_eq_true, zero_pow, add_zero] at this
    rw [← this]
    apply div_nonneg _ (by positivity)
    apply List.sum_nonneg
    intro y hy
    obtain ⟨x, -, rfl⟩ := List.mem_map.1 hy
    positivity
  by_cases h1 : args.length = 1
  · have hx1 : xs.length = 1 := by omega
    obtain ⟨x, rfl⟩ : ∃ x, xs = [x] := by
      cases xs with
      | nil => simp at hx1
      | cons a t => cases t with
        | nil => exact ⟨a, rfl⟩
        | cons b t => simp at hx1
    have hvz : variance [x] = 0 := by simp [variance, average]
    have hz : Dec.toRat ⟨0, 0⟩ = 0 := by simp [toRat]
    have := store_newBinary8 ebc trunc ⟨0, 0⟩ (by decide) 18 0 (by omega) 0
      (by rw [hz]; simp [IsTrunc]) (by norm_num)
    obtain ⟨z1, -, -, -, z5⟩ := this
    refine ⟨_, 0, 0, by unfold intrVariance; rw [if_pos h1], z1, by rw [hvz], by rw [hvz]; norm_num,
      fun _ => hvz.symm, by omega, by norm_num, by omega, ?_⟩
    simpa using z5
  · obtain ⟨sc, d, g1, g2, g3, g4, g5, g6⟩ := sumLoop_spec ebc args xs 0 ⟨0, 0⟩ (by decide) rfl (by omega) (by omega) h
    have hz : Dec.toRat ⟨0, 0⟩ = 0 := by simp [toRat]
    rw [hz, zero_add] at g6
    obtain ⟨m1, m2, m3, -, m5⟩ := div_count d g2 args.length hpos
    set m := (d.div ⟨args.length, 0⟩).1 with hm
    obtain ⟨d4, e1, e2, e3, e4⟩ := devLoop_spec ebc m m1 m2 args xs ⟨0, 0⟩ (by decide) (by decide) h
    rw [hz, zero_add] at e4
    obtain ⟨q1, q2, q3, q4, -⟩ := div_count d4 e2 args.length hpos
    have havg : d.toRat / args.length = average xs := by rw [g6, hlen]; rfl
    rw [havg] at m3 m5
    have hw : d4.toRat / args.length = variance xs + (average xs - m.toRat) ^ 2 := by
      rw [e4, hlen]; exact around xs hxne _
    rw [hw] at q3 q4
    set w := variance xs + (average xs - m.toRat) ^ 2 with hwdef
    have hd2 : (average xs - m.toRat) ^ 2 < 1 / 10 ^ 74 := by
      rw [← sq_abs]
      calc |average xs - m.toRat| ^ 2 < (1 / 10 ^ 37) ^ 2 := by
            apply pow_lt_pow_left₀ m3 (abs_nonneg _) (by norm_num)
        _ = 1 / 10 ^ 74 := by norm_num
    have hw0 : 0 ≤ w := by positivity
    obtain ⟨r, s, f1, f2, f3, f4, f5, f6⟩ := finish_spec ebc trunc _ w q1 (fun s hs => q4 s (by omega)) (by
      rw [abs_of_nonneg hw0]
      have : (1 : ℚ) / 10 ^ 74 < 1 := by norm_num
      linarith)
    rw [abs_of_nonneg hw0] at f4 f5
    refine ⟨r, s, w, ?_, f2, by rw [hwdef]; nlinarith [sq_nonneg (average xs - m.toRat)], by rw [hwdef]; linarith, ?_, f3, f4, fun _ => f5, ?_⟩
    · unfold intrVariance
      rw [if_neg h1, g1]
      simp only
      rw [← hm, e1]
      exact f1
    · rintro ⟨k, hk⟩
      rw [hwdef, m5 k hk]; ring
    · rw [truncQ, if_pos (by positivity)] at f6
      exact f6

/-! non-vacuity -/
example : Hold false [⟨.display, ⟨{ digits := 1 }, [49]⟩⟩, ⟨.display, ⟨{ digits := 1 }, [52]⟩⟩] [1, 4] ∧
    variance [1, 4] = 9 / 4 :=
  ⟨.cons ⟨by unfold WFItem WFDisplay; decide, ⟨1, ⟨false, [1], by decide, by decide, by decide, by decide⟩, by norm_num⟩, by decide, by decide⟩
    (.cons ⟨by unfold WFItem WFDisplay; decide, ⟨4, ⟨false, [4], by decide, by decide, by decide, by decide⟩, by norm_num⟩, by decide, by decide⟩ .nil),
   by norm_num [variance, average]⟩
example : (intrVariance false true [⟨.display, ⟨{ digits := 1 }, [49]⟩⟩, ⟨.display, ⟨{ digits := 1 }, [52]⟩⟩]).map
    (fun r => (readItem false r.item).1) = some (some ⟨225000000000000000, 17⟩) := by decide +kernel
example : (intrVariance false true [⟨.display, ⟨{ digits := 1 }, [49]⟩⟩, ⟨.display, ⟨{ digits := 1 }, [49]⟩⟩,
    ⟨.display, ⟨{ digits := 1 }, [50]⟩⟩]).map
    (fun r => (readItem false r.item).1) = some (some ⟨222222222222222222, 18⟩) := by decide +kernel

/-- Finding: a variance beyond what 64 bits hold sets the size exception, yet the result given back
is its low 64 bits.  Two items of 10 digits, 0 and 9000000000, have
the variance 20250000000000000000; the result is 1803255926290448384. -/
theorem C89_finding_variance_overflow :
    (intrVariance false true [⟨.display, ⟨{ digits := 10 }, List.replicate 10 48⟩⟩,
      ⟨.display, ⟨{ digits := 10 }, 57 :: List.replicate 9 48⟩⟩]).map
        (fun r => (r.raised, (readItem false r.item).1)) = some (true, some ⟨1803255926290448384, 0⟩) ∧
    variance [0, 9000000000] = 20250000000000000000 := by
  refine ⟨by decide +kernel, by norm_num [variance, average]⟩

/-! ### RANDOM -/

theorem wrap32_id (n : Int) (h : 0 ≤ n) (h2 : n < 2 ^ 31) : wrap32 n = n := by unfold wrap32; omega

/-- The digits of `r`: `i` is the least number with `r < 10 ^ i`. -/
theorem randDigits_spec (r : Nat) (hr : r < 2 ^ 31) :
    r < 10 ^ randDigits 10 r 1 0 ∧ randDigits 10 r 1 0 ≤ 10 ∧
      ∀ k, r < 10 ^ k → randDigits 10 r 1 0 ≤ k := by
  have key : ∀ (fuel i : Nat), fuel + i = 10 → (∀ k, r < 10 ^ k → i ≤ k) →
      r < 10 ^ randDigits fuel r (10 ^ i : Nat) i ∧ randDigits fuel r (10 ^ i : Nat) i ≤ 10 ∧
      ∀ k, r < 10 ^ k → randDigits fuel r (10 ^ i : Nat) i ≤ k := by
    intro fuel
    induction fuel with
    | zero =>
      intro i hi hk
      have : i = 10 := by omega
      subst this
      simp only [randDigits]
      exact ⟨by omega, le_refl _, hk⟩
    | succ f ih =>
      intro i hi hk
      rw [randDigits]
      by_cases hc : (r : Int).tdiv ((10 ^ i : Nat) : Int) = 0
      · rw [if_pos hc]
        refine ⟨?_, by omega, hk⟩
        have hc' : r / 10 ^ i = 0 := by
          have : ((r / 10 ^ i : Nat) : Int) = 0 := by rw [← hc]; simp
          exact_mod_cast this
        exact (Nat.div_eq_zero_iff_lt (by positivity)).1 hc'
      · rw [if_neg hc]
        have hge : 10 ^ i ≤ r := by
          by_contra hlt
          apply hc
          rw [← Int.ofNat_tdiv, Nat.div_eq_of_lt (by omega)]; rfl
        have hk' : ∀ k, r < 10 ^ k → i + 1 ≤ k := by
          intro k hrk
          by_contra hlt
          have : 10 ^ k ≤ 10 ^ i := Nat.pow_le_pow_right (by omega) (by omega)
          omega
        by_cases h9 : i = 9
        · subst h9
          have : f = 0 := by omega
          subst this
          simp only [randDigits]
          exact ⟨by omega, by omega, hk'⟩
        · have hpow : 10 ^ (i + 1) ≤ 10 ^ 9 := Nat.pow_le_pow_right (by omega) (by omega)
          have e : wrap32 (((10 ^ i : Nat) : Int) * 10) = ((10 ^ (i + 1) : Nat) : Int) := by
            rw [show ((10 ^ i : Nat) : Int) * 10 = ((10 ^ (i + 1) : Nat) : Int) by push_cast; ring]
            apply wrap32_id
            · positivity
            · have : ((10 ^ (i + 1) : Nat) : Int) ≤ ((10 ^ 9 : Nat) : Int) := by exact_mod_cast hpow
              omega
          rw [e]
          exact ih (i + 1) (by omega) hk'
  simpa using key 10 0 rfl (by intro k _; omega)

theorem foldr_leVal (l : List Nat) : l.foldr (fun b n => b + 256 * n) 0 = leVal l := by
  induction l with
  | nil => rfl
  | cons b t ih => simp only [List.foldr_cons, leVal, ih]

theorem randomItem_spec (ebc : Bool) (r : Nat) (hr : r < 2 ^ 31) :
    ∃ k : ℕ, 1 ≤ k ∧ r < 10 ^ k ∧ (∀ j, 1 ≤ j → r < 10 ^ j → k ≤ j) ∧
      Holds ebc (randomItem r) ((r : ℚ) / 10 ^ k) ∧ (r : ℚ) / 10 ^ k < 1 := by
  obtain ⟨a1, a2, a3⟩ := randDigits_spec _ hr
  unfold randomItem
  generalize randDigits 10 r 1 0 = i at *
  dsimp only
  have hk : (if i = 0 then 1 else i) ≤ 10 := by split <;> omega
  have hk1 : r < 10 ^ (if i = 0 then 1 else i) := by
    split
    · rename_i h0; rw [h0] at a1; omega
    · exact a1
  have hk3 : ∀ j, 1 ≤ j → r < 10 ^ j → (if i = 0 then 1 else i) ≤ j := by
    intro j hj hrj
    have := a3 j hrj
    split <;> omega
  have hk0 : 1 ≤ (if i = 0 then 1 else i) := by split <;> omega
  generalize (if i = 0 then 1 else i) = k at *
  have hq : (r : ℚ) < 10 ^ k := by exact_mod_cast hk1
  refine ⟨k, hk0, hk1, hk3, ⟨r, ?_, ?_⟩, ?_⟩
  · simp only [HoldsUnits, newBinary, binaryHolds, bytesVal, Bool.false_eq_true, if_false, if_true,
      foldr_leVal, leVal_leBytes, leBytes_length]
    omega
  · simp only [newBinary]
    rw [schar_id _ (by omega) (by omega), zpow_natCast, Int.cast_natCast]
  · rw [div_lt_one (by positivity)]; exact hq

/-- C89: RANDOM takes one number `r` from the generator (seeded first with the argument, when there
is one; 0 when it is negative); the item given back holds the fraction whose digits after the
decimal point are those of `r`, and so is at least 0 and below 1.  `RAND_MAX` is 2^31 - 1. -/
theorem C89_random {S : Type} (ebc : Bool) (g : Gen S) (hg : ∀ s, (g.next s).1 < 2 ^ 31) (s : S) (arg : Option Int) :
    let s1 := match arg with
      | some v => g.seed (max v 0).toNat
      | none => s
    ∃ k : ℕ, 1 ≤ k ∧ (g.next s1).1 < 10 ^ k ∧ (∀ j, 1 ≤ j → (g.next s1).1 < 10 ^ j → k ≤ j) ∧
      Holds ebc (intrRandom g s arg).1 (((g.next s1).1 : ℚ) / 10 ^ k) ∧
      0 ≤ ((g.next s1).1 : ℚ) / 10 ^ k ∧ ((g.next s1).1 : ℚ) / 10 ^ k < 1 ∧
      (intrRandom g s arg).2 = (g.next s1).2 := by
  intro s1
  have hs1 : reseed g s arg = s1 := by
    cases arg with
    | none => rfl
    | some v =>
      simp only [s1, reseed]
      congr 2
      split <;> omega
  unfold intrRandom
  rw [hs1]
  have hr := hg s1
  generalize (g.next s1).1 = r at hr ⊢
  obtain ⟨k, h1, h2, h3, h4, h5⟩ := randomItem_spec ebc r hr
  exact ⟨k, h1, h2, h3, h4, by positivity, h5, rfl⟩

/-- C89: a series of calls whose first gives a seed has the same results whatever happened before:
the seed alone decides. -/
theorem C89_random_seed {S : Type} (g : Gen S) (s s' : S) (v : Int) (as : List (Option Int)) :
    series g s (some v :: as) = series g s' (some v :: as) := rfl

/-- Finding: RANDOM is not spread over the numbers between 0 and 1: no generator whatever makes it
give a number between 0 and 0.1, as the digits after the point never begin with 0. -/
theorem C89_finding_random_gap {S : Type} (ebc : Bool) (g : Gen S) (hg : ∀ s, (g.next s).1 < 2 ^ 31)
    (s : S) (arg : Option Int) :
    ∃ x : ℚ, Holds ebc (intrRandom g s arg).1 x ∧ (x = 0 ∨ 1 / 10 ≤ x) := by
  obtain ⟨k, k1, k2, k3, k4, -⟩ := C89_random ebc g hg s arg
  refine ⟨_, k4, ?_⟩
  generalize (g.next _).1 = r at *
  by_cases h0 : r = 0
  · left; rw [h0]; simp
  · right
    rw [div_le_div_iff₀ (by norm_num) (by positivity), one_mul]
    obtain ⟨j, rfl⟩ : ∃ j, k = j + 1 := ⟨k - 1, by omega⟩
    have : 10 ^ j ≤ r := by
      by_contra hlt
      by_cases hj : j = 0
      · subst hj; omega
      · have := k3 j (by omega) (by omega)
        omega
    have : (10 : ℚ) ^ j ≤ r := by exact_mod_cast this
    rw [pow_succ]; linarith

/-! ### STORED-CHAR-LENGTH -/

/-- C89: STORED-CHAR-LENGTH is the length of the text without the spaces at its end: of the first
that many bytes the last is not a space, and all bytes after them are spaces. -/
theorem C89_stored_char_length (data : List Nat) :
    let n := storedCharLength data
    n ≤ data.length ∧ (∀ b ∈ data.drop n, b = 32) ∧ (data.take n).getLast? ≠ some 32 := by
  have key : ∀ rev : List Nat, let n := countLoop rev rev.length
      n ≤ rev.length ∧ (∀ b ∈ rev.take (rev.length - n), b = 32) ∧ (rev.drop (rev.length - n)).head? ≠ some 32 := by
    intro rev
    induction rev with
    | nil => simp [countLoop]
    | cons b rest ih =>
      simp only [countLoop, List.length_cons]
      rw [if_neg (by omega)]
      by_cases hb : b ≠ 32
      · rw [if_pos hb]
        simp [hb]
      · rw [if_neg hb]
        simp only [Nat.add_sub_cancel]
        obtain ⟨h1, h2, h3⟩ := ih
        have e : rest.length + 1 - countLoop rest rest.length = (rest.length - countLoop rest rest.length) + 1 := by omega
        refine ⟨by omega, ?_, ?_⟩
        · rw [e, List.take_succ_cons]
          intro x hx
          rcases List.mem_cons.1 hx with h | h
          · subst h; simpa using hb
          · exact h2 x h
        · rw [e, List.drop_succ_cons]; exact h3
  have := key data.reverse
  simp only [List.length_reverse] at this
  obtain ⟨h1, h2, h3⟩ := this
  intro n
  have hn : countLoop data.reverse data.length = n := rfl
  rw [hn] at h1 h2 h3
  refine ⟨h1, ?_, ?_⟩
  · intro b hb
    apply h2
    rw [List.take_reverse, List.mem_reverse]
    rwa [show data.length - (data.length - n) = n by omega]
  · rw [List.drop_reverse, List.head?_reverse, show data.length - (data.length - n) = n by omega] at h3
    exact h3

example : storedCharLength [65, 32, 66, 32, 32] = 3 ∧ storedCharLength [32, 32] = 0 := by decide
example : (intrRandom (⟨fun n => n, fun s => ((s * 1103515245 + 12345) % 2 ^ 31, s + 1)⟩ : Gen Nat) 0 (some 1)).1 =
    { newBinary 18 10 true 8 with field := { (newBinary 18 10 true 8).field with data := leBytes 8 1103527590 } } := by
  decide +kernel

end Cob.Stat
