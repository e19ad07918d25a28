import Verif.Intr.SelectProps
/-
Models of FUNCTION MIDRANGE and PRESENT-VALUE (libcob/intrinsic.c) on numeric items, up to the final store, which is into a
floating point number and is not modelled; and their properties (C30).
-/
namespace Cob
open Dec

/-- libcob/intrinsic.c:2189-2220 `cob_intr_midrange`: the first smallest and the first largest argument (the same comparisons
as RANGE), half of their sum. -/
def midrangeOf (ebc : Bool) (f : Item) (fs : List Item) : Option Dec :=
  match rangeLoop ebc fs f f with
  | none => none
  | some (lo, hi) =>
    match readItem ebc lo, readItem ebc hi with
    | (some d1, _), (some d2, _) => some ((d1.add d2).div ⟨2, 0⟩).1
    | _, _ => none

/-- C30: MIDRANGE is exactly half the sum of the smallest and the largest argument (before it is put into a floating point
number). -/
theorem C30_midrange (ebc : Bool) (f : Item) (fs : List Item) (x : ℚ) (xs : List ℚ) (h : HoldNumbers ebc (f :: fs) (x :: xs)) :
    ∃ d lo hi, midrangeOf ebc f fs = some d ∧ lo ∈ x :: xs ∧ hi ∈ x :: xs ∧ (∀ z ∈ x :: xs, lo ≤ z ∧ z ≤ hi) ∧
      d.toRat = (lo + hi) / 2 := by
  have hf : HoldNumbers ebc [f, f] [x, x] := by
    unfold HoldNumbers at h ⊢
    simp only [List.forall₂_cons, List.forall₂_nil_left_iff, and_true] at h ⊢
    exact ⟨h.1, h.1⟩
  have hr : HoldNumbers ebc fs xs := by
    unfold HoldNumbers at h ⊢
    simp only [List.forall₂_cons] at h
    exact h.2
  obtain ⟨lo, hi, a, b, h1, h2, g1, g2, h3, h4, h5, h6⟩ := rangeLoop_spec ebc fs xs f f x x hr hf
  unfold HoldNumbers at h2
  simp only [List.forall₂_cons, List.forall₂_nil_left_iff, and_true] at h2
  obtain ⟨⟨wl, hl, sl⟩, ⟨wh, hh, sh⟩⟩ := h2
  obtain ⟨d1, r1, e1, s1, m1⟩ := holds_read' ebc lo wl a hl (by omega)
  obtain ⟨d2, r2, e2, s2, m2⟩ := holds_read' ebc hi wh b hh (by omega)
  obtain ⟨t1, t2⟩ := C06_add_exact d1 d2 m1 m2
  rw [e1, e2] at t1
  refine ⟨((d1.add d2).div ⟨2, 0⟩).1, a, b, ?_, ?_, ?_, ?_, ?_⟩
  · unfold midrangeOf
    rw [h1]
    simp only [r1, r2]
  · rcases h3 with h | h <;> simp [h]
  · rcases h4 with h | h <;> simp [h]
  · intro z hz
    rcases List.mem_cons.mp hz with rfl | hz
    · exact ⟨h5.1, h6.1⟩
    · exact ⟨h5.2 z hz, h6.2 z hz⟩
  · rw [div_two_exact _ t2, t1]

/-- The arguments 5, 0.25 and 12: half of 12.25. -/
example : (midrangeOf false ⟨.display, ⟨{ digits := 1 }, [53]⟩⟩ [⟨.display, ⟨{ digits := 3, scale := 2 }, [48, 50, 53]⟩⟩,
    ⟨.display, ⟨{ digits := 2 }, [49, 50]⟩⟩]).map (fun d => decide (d.value * 1000 = 6125 * 10 ^ d.scale.toNat)) = some true := by decide +kernel

/-! ### PRESENT-VALUE -/

/-- libcob/intrinsic.c:2607-2619: the loop of `cob_intr_present_value` over the amounts, from argument number `i`; `d1` is one more than
the rate, `d4` the sum so far. -/
def pvLoop (ebc : Bool) (d1 : Dec) : List Item → Nat → Dec → Option Dec
  | [], _, d4 => some d4
  | f :: fs, i, d4 =>
    match readItem ebc f with
    | (some d2, _) =>
      match (if i > 1 then d1.pow ⟨i, 0⟩ else some d1) with
      | some d3 => pvLoop ebc d1 fs (i + 1) (d4.add (d2.div d3).1)
      | none => none
    | _ => none

/-- libcob/intrinsic.c:2581-2624 `cob_intr_present_value`; without any amount the result is 0. -/
def presentValueOf (ebc : Bool) (rate : Item) (fs : List Item) : Option Dec :=
  match fs with
  | [] => some ⟨0, 0⟩
  | fs =>
    match readItem ebc rate with
    | (some d1, _) => pvLoop ebc (d1.add ⟨1, 0⟩) fs 1 ⟨0, 0⟩
    | _ => none

/-- The present value of amounts that are due after 1, 2, ... periods. -/
def presentValue (r : ℚ) (xs : List ℚ) : ℚ := (xs.zipIdx.map fun p => p.1 / (1 + r) ^ (p.2 + 1)).sum

theorem trunc_close (x : ℚ) (v : ℤ) (h : IsTrunc x v) : |(v : ℚ) - x| < 1 := by
  obtain ⟨h1, h2, h3⟩ := h
  generalize (v : ℚ) = r at *
  rcases lt_trichotomy r 0 with hr | hr | hr
  · have hx : x ≤ 0 := nonpos_of_mul_nonneg_left h3 hr
    rw [abs_of_neg hr, abs_of_nonpos hx] at h1 h2
    rw [abs_lt]
    constructor <;> linarith
  · subst hr
    simpa using h2
  · have hx : 0 ≤ x := nonneg_of_mul_nonneg_left h3 hr
    rw [abs_of_pos hr, abs_of_nonneg hx] at h1 h2
    rw [abs_lt]
    constructor <;> linarith

theorem div_close (d1 d2 : Dec) (h1 : d1.isNaN = false) (h2 : d2.isNaN = false) (hz : d2.toRat ≠ 0) :
    (d1.div d2).1.isNaN = false ∧ |(d1.div d2).1.toRat - d1.toRat / d2.toRat| ≤ 1 / 10 ^ 37 := by
  by_cases h0 : d1.toRat = 0
  · obtain ⟨_, a, b⟩ := C07_div_zero_dividend d1 d2 h1 h2 hz h0
    refine ⟨a, ?_⟩
    rw [b, h0]
    norm_num
  · obtain ⟨_, a, hs, _, ht⟩ := C07_div_truncated d1 d2 h1 h2 hz h0
    refine ⟨a, ?_⟩
    generalize (d1.div d2).1 = q at *
    generalize d1.toRat / d2.toRat = x at *
    have hp : (0 : ℚ) < 10 ^ q.scale := zpow_pos (by norm_num) _
    have hle : (10 : ℚ) ^ 37 ≤ 10 ^ q.scale := by
      rw [← zpow_natCast]
      exact zpow_le_zpow_right₀ (by norm_num) (by exact_mod_cast hs)
    have hclose : |(q.value : ℚ) - x * 10 ^ q.scale| < 1 := trunc_close _ _ ht
    have e : q.toRat - x = ((q.value : ℚ) - x * 10 ^ q.scale) / 10 ^ q.scale := by
      unfold toRat
      field_simp
    rw [e, abs_div, abs_of_pos hp, div_le_div_iff₀ hp (by positivity)]
    nlinarith [abs_nonneg ((q.value : ℚ) - x * 10 ^ q.scale)]

theorem pvLoop_spec (ebc : Bool) (d1 : Dec) (h1 : d1.isNaN = false) (hs : 0 ≤ d1.scale) (hz : d1.toRat ≠ 0) (fs : List Item) :
    ∀ (xs : List ℚ) (i : Nat) (d4 : Dec), d4.isNaN = false → HoldNumbers ebc fs xs → 1 ≤ i → i + fs.length ≤ 2 ^ 32 →
      ∃ d, pvLoop ebc d1 fs i d4 = some d ∧
        |d.toRat - (d4.toRat + ((xs.zipIdx (i - 1)).map fun p => p.1 / d1.toRat ^ (p.2 + 1)).sum)| ≤ fs.length / 10 ^ 37 := by
  induction fs with
  | nil =>
    intro xs i d4 _ hf _ _
    cases hf
    exact ⟨d4, rfl, by simp⟩
  | cons f fs ih =>
    intro xs i d4 hd hf hi hlt
    cases hf with
    | cons ha hr =>
      rename_i x xs
      obtain ⟨w, hx, s1, s2⟩ := ha
      obtain ⟨d2, r2, e2, sc2, m2⟩ := holds_read' ebc f w x hx (by omega)
      rw [List.length_cons] at hlt
      obtain ⟨d3, p1, p2, p3⟩ : ∃ d3, (if i > 1 then d1.pow ⟨i, 0⟩ else some d1) = some d3 ∧ d3.toRat = d1.toRat ^ i ∧ d3.isNaN = false := by
        by_cases hgt : i > 1
        · rw [if_pos hgt]
          obtain ⟨r, a, b⟩ := C06_pow_exact d1 ⟨i, 0⟩ h1 rfl (by simp) (by show (i : Int) < 2 ^ 32; omega)
          refine ⟨r, a, by simpa using b, ?_⟩
          have hm : i % 4294967296 = i := Nat.mod_eq_of_lt (by omega)
          have hl : i < 18446744073709551616 := by omega
          have hl' : (i : Int) < 18446744073709551616 := by omega
          have hn : (⟨i, 0⟩ : Dec).isNaN = false := by simp [isNaN, nanScale]
          simp [pow, h1, hn, hl', hm] at a
          rw [← a]
          have : 0 ≤ d1.scale * (i : Int) := mul_nonneg hs (by omega)
          simp only [isNaN, nanScale, beq_eq_false_iff_ne, ne_eq]
          omega
        · rw [if_neg hgt]
          have : i = 1 := by omega
          subst this
          exact ⟨d1, rfl, by simp, h1⟩
      obtain ⟨q1, q2⟩ := div_close d2 d3 m2 p3 (by rw [p2]; exact pow_ne_zero _ hz)
      obtain ⟨a1, a2⟩ := C06_add_exact d4 (d2.div d3).1 hd q1
      rw [pvLoop, r2]
      simp only [p1]
      obtain ⟨d, g1, g2⟩ := ih xs (i + 1) _ a2 hr (by omega) (by omega)
      refine ⟨d, g1, ?_⟩
      rw [a1] at g2
      rw [p2, e2] at q2
      have ei : i - 1 + 1 = i := by omega
      have ei' : i + 1 - 1 = i := by omega
      rw [List.zipIdx_cons, List.map_cons, List.sum_cons, ei, List.length_cons]
      rw [ei'] at g2
      generalize (List.map (fun p : ℚ × ℕ => p.1 / d1.toRat ^ (p.2 + 1)) (xs.zipIdx i)).sum = t at *
      rw [abs_le] at q2 g2 ⊢
      push_cast
      rw [add_div]
      constructor <;> linarith [q2.1, q2.2, g2.1, g2.2]

/-- C30: PRESENT-VALUE, before it is put into a floating point number, is within 10^-37 for each amount of the sum of the amounts, each
divided by one plus the rate as often as its place says. -/
theorem C30_present_value (ebc : Bool) (rate : Item) (fs : List Item) (r : ℚ) (xs : List ℚ) (h : HoldNumbers ebc (rate :: fs) (r :: xs))
    (hr : r ≠ -1) (hlen : fs.length < 2 ^ 32) :
    ∃ d, presentValueOf ebc rate fs = some d ∧ |d.toRat - presentValue r xs| ≤ fs.length / 10 ^ 37 := by
  cases h with
  | cons ha hf =>
    obtain ⟨w, hx, s1, s2⟩ := ha
    cases fs with
    | nil =>
      cases hf
      exact ⟨_, rfl, by simp [presentValue, toRat]⟩
    | cons f fs =>
      obtain ⟨d, e, e2, sc, m⟩ := holds_read' ebc rate w r hx (by omega)
      have m1 : (⟨1, 0⟩ : Dec).isNaN = false := by decide
      obtain ⟨a1, a2⟩ := C06_add_exact d ⟨1, 0⟩ m m1
      have a3 := add_scale d ⟨1, 0⟩ m m1
      have hone : (⟨1, 0⟩ : Dec).toRat = 1 := by simp [toRat]
      rw [e2, hone] at a1
      have hz : (d.add ⟨1, 0⟩).toRat ≠ 0 := by
        rw [a1]
        intro g
        exact hr (by linarith)
      obtain ⟨d', g1, g2⟩ := pvLoop_spec ebc (d.add ⟨1, 0⟩) a2 (by rw [a3]; exact le_max_right _ _) hz (f :: fs) xs 1 ⟨0, 0⟩ (by decide) hf
        (by omega) (by omega)
      refine ⟨d', ?_, ?_⟩
      · unfold presentValueOf
        simp only [e]
        exact g1
      · have hzero : (⟨0, 0⟩ : Dec).toRat = 0 := by simp [toRat]
        rw [hzero, zero_add, a1, add_comm r 1] at g2
        exact g2

/-- The rate 25 % and the amounts 5 and 25: 5 / 1.25 + 25 / 1.5625 = 20. -/
example : (presentValueOf false ⟨.display, ⟨{ digits := 3, scale := 2 }, [48, 50, 53]⟩⟩ [⟨.display, ⟨{ digits := 1 }, [53]⟩⟩,
    ⟨.display, ⟨{ digits := 2 }, [50, 53]⟩⟩]).map (fun d => decide (d.value = 20 * 10 ^ d.scale.toNat)) = some true ∧
    presentValue (1 / 4) [5, 25] = 20 := ⟨by decide +kernel, by norm_num [presentValue]⟩

end Cob
