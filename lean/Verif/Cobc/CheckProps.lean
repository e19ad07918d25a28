import Verif.Cobc.CheckSpec
/-
C75: the compiler's checks on MOVE and VALUE.  Properties.
-/
namespace Cob

/-! ### The figures of a literal -/

theorem zerosAt_split (d : List Nat) : (zerosAt d = d.length ∧ d = List.replicate d.length 48) ∨
    ∃ c t, c ≠ 48 ∧ d = List.replicate (zerosAt d) 48 ++ c :: t := by
  induction d with
  | nil => left; simp [zerosAt]
  | cons x d ih =>
    by_cases hx : x = 48
    · subst hx
      have e : zerosAt (48 :: d) = zerosAt d + 1 := by simp [zerosAt]
      rcases ih with ⟨a, b⟩ | ⟨c, t, h1, h2⟩
      · left
        refine ⟨by rw [e, a]; simp, ?_⟩
        rw [List.length_cons, List.replicate_succ]
        rw [← b]
      · right
        refine ⟨c, t, h1, ?_⟩
        rw [e, List.replicate_succ, List.cons_append, ← h2]
    · right
      have e : zerosAt (x :: d) = 0 := by
        have : (x == 48) = false := by simp [hx]
        simp [zerosAt, List.takeWhile_cons, this]
      exact ⟨x, d, hx, by rw [e]; rfl⟩

theorem digitsVal_zeros : ∀ k : Nat, digitsVal (List.replicate k 0) = 0 := by
  intro k
  induction k with
  | zero => rfl
  | succ k ih => rw [List.replicate_succ, digitsVal, ih]; simp

theorem digitsVal_below : ∀ (d : List Nat), (∀ x ∈ d, x ≤ 9) → digitsVal d < 10 ^ d.length := by
  intro d
  induction d with
  | nil => intro _; simp [digitsVal]
  | cons x d ih =>
    intro h
    have h1 := ih (fun y hy => h y (by simp [hy]))
    have h2 := h x (by simp)
    rw [digitsVal, List.length_cons, Nat.pow_succ]
    have : x * 10 ^ d.length ≤ 9 * 10 ^ d.length := Nat.mul_le_mul_right _ h2
    omega

/-- The first figure that is not zero gives the size of the number. -/
theorem lit_leading (l : NumLit) (h : l.Proper) :
    (zerosAt l.data = l.data.length ∧ l.digitsNat = 0) ∨
    (zerosAt l.data < l.data.length ∧ 10 ^ (l.data.length - zerosAt l.data - 1) ≤ l.digitsNat ∧
      l.digitsNat < 10 ^ (l.data.length - zerosAt l.data)) := by
  unfold NumLit.digitsNat
  rcases zerosAt_split l.data with ⟨a, b⟩ | ⟨c, t, h1, h2⟩
  · left
    refine ⟨a, ?_⟩
    rw [b]
    simp [digitsVal_zeros]
  · right
    have hz := congrArg List.length h2
    simp only [List.length_append, List.length_replicate, List.length_cons] at hz
    have hm : ∀ b ∈ c :: t, 48 ≤ b ∧ b ≤ 57 := fun b hb => h.2 b (by rw [h2]; simp at hb ⊢; tauto)
    have e : digitsVal (l.data.map (· - 48)) = digitsVal ((c :: t).map (· - 48)) := by
      conv_lhs => rw [h2]
      rw [List.map_append, digitsVal_append, List.map_replicate, digitsVal_zeros]
      simp
    have hlen : l.data.length - zerosAt l.data = t.length + 1 := by omega
    rw [e, hlen]
    refine ⟨by omega, ?_, ?_⟩
    · rw [List.map_cons, digitsVal, List.length_map, Nat.add_sub_cancel]
      have := hm c (by simp)
      have h3 : 1 ≤ c - 48 := by omega
      have := Nat.mul_le_mul_right (10 ^ t.length) h3
      omega
    · have := digitsVal_below ((c :: t).map (· - 48)) (by
        intro x hx
        rw [List.mem_map] at hx
        obtain ⟨b, hb, rfl⟩ := hx
        have := hm b hb
        omega)
      simpa using this

/-- The last figure that is not zero tells by which power of ten the number can be divided. -/
theorem lit_trailing (l : NumLit) (h : l.Proper) :
    (zerosAt l.data.reverse = l.data.length ∧ l.digitsNat = 0) ∨
    (zerosAt l.data.reverse < l.data.length ∧ ∃ q, l.digitsNat = q * 10 ^ zerosAt l.data.reverse ∧ q % 10 ≠ 0) := by
  unfold NumLit.digitsNat
  rcases zerosAt_split l.data.reverse with ⟨a, b⟩ | ⟨c, t, h1, h2⟩
  · left
    refine ⟨by simpa using a, ?_⟩
    have : l.data = List.replicate l.data.length 48 := by
      have := congrArg List.reverse b
      simpa using this
    rw [this]
    simp [digitsVal_zeros]
  · right
    have hz := congrArg List.length h2
    simp only [List.length_append, List.length_replicate, List.length_cons, List.length_reverse] at hz
    have hd : l.data = t.reverse ++ [c] ++ List.replicate (zerosAt l.data.reverse) 48 := by
      have := congrArg List.reverse h2
      simpa using this
    have hc : 48 ≤ c ∧ c ≤ 57 := h.2 c (by rw [hd]; simp)
    refine ⟨by omega, digitsVal ((t.reverse ++ [c]).map (· - 48)), ?_, ?_⟩
    · conv_lhs => rw [hd]
      rw [List.map_append, digitsVal_append, List.map_replicate, digitsVal_zeros]
      simp
    · rw [List.map_append, digitsVal_append]
      simp only [List.map_cons, List.map_nil, digitsVal, List.length_singleton, List.length_nil, pow_zero, mul_one, add_zero,
        pow_one]
      omega

theorem units_abs (l : NumLit) : l.units.natAbs = l.digitsNat := by
  unfold NumLit.units NumLit.digitsNat
  split <;> simp

/-- A literal can be held just when its figures lie within the positions. -/
theorem canHold_iff (l : NumLit) (h : l.Proper) (n : Nat) (s : Int) (hs : -200 ≤ s ∧ s ≤ 200) :
    CanHold n s l.value ↔ -s ≤ litLeast l ∧ litMost l < n - s := by
  have e : l.value * (10 : ℚ) ^ s = (l.units : ℚ) * (10 : ℚ) ^ (s - l.scale) := by
    unfold NumLit.value
    rw [zpow_sub₀ (by norm_num)]
    ring
  unfold CanHold
  rw [e]
  rcases lit_leading l h with ⟨a, b⟩ | ⟨a, b1, b2⟩
  · -- zero
    have hu : l.units = 0 := by
      have := units_abs l
      omega
    have hl : zerosAt l.data.reverse = l.data.length := by
      rcases lit_trailing l h with ⟨x, _⟩ | ⟨_, q, y, z⟩
      · exact x
      · rw [b] at y
        have hp : 0 < 10 ^ zerosAt l.data.reverse := Nat.pow_pos (by omega)
        have : q = 0 := by
          rcases Nat.mul_eq_zero.mp y.symm with h0 | h0
          · exact h0
          · omega
        rw [this] at z; simp at z
    unfold litLeast litMost
    rw [if_pos hl, if_pos a, hu]
    constructor
    · intro _; omega
    · intro _; exact ⟨0, by simp, by simp⟩
  · have hN : 0 < l.digitsNat := Nat.lt_of_lt_of_le (Nat.pow_pos (by omega)) b1
    rcases lit_trailing l h with ⟨_, y⟩ | ⟨a', q, y, z⟩
    · omega
    have hq : 0 < q := by
      rcases Nat.eq_zero_or_pos q with h0 | h0
      · rw [h0] at z; simp at z
      · exact h0
    unfold litLeast litMost
    rw [if_neg (by omega), if_neg (by omega)]
    generalize zerosAt l.data.reverse = j at *
    generalize hi : zerosAt l.data = i at *
    generalize hw : l.data.length = w at *
    generalize hN' : l.digitsNat = N at *
    -- the bound
    have hbound : ((N : ℚ) * (10 : ℚ) ^ (s - l.scale) < (10 : ℚ) ^ (n : Int)) ↔ (w : Int) - l.scale - i - 1 < n - s := by
      have hp : (0 : ℚ) < (10 : ℚ) ^ (s - l.scale) := zpow_pos (by norm_num) _
      have c1 : ((10 : ℚ) ^ ((w - i - 1 : Nat) : Int)) ≤ (N : ℚ) := by
        rw [zpow_natCast]; exact_mod_cast b1
      have c2 : (N : ℚ) < ((10 : ℚ) ^ ((w - i : Nat) : Int)) := by
        rw [zpow_natCast]; exact_mod_cast b2
      constructor
      · intro hlt
        have h3 : (10 : ℚ) ^ ((w - i - 1 : Nat) : Int) * (10 : ℚ) ^ (s - l.scale) < (10 : ℚ) ^ (n : Int) :=
          lt_of_le_of_lt (mul_le_mul_of_nonneg_right c1 hp.le) hlt
        rw [← zpow_add₀ (by norm_num)] at h3
        have := (zpow_lt_zpow_iff_right₀ (by norm_num : (1 : ℚ) < 10)).mp h3
        omega
      · intro hlt
        have h3 : (N : ℚ) * (10 : ℚ) ^ (s - l.scale) < (10 : ℚ) ^ ((w - i : Nat) : Int) * (10 : ℚ) ^ (s - l.scale) :=
          mul_lt_mul_of_pos_right c2 hp
        rw [← zpow_add₀ (by norm_num)] at h3
        refine lt_of_lt_of_le h3 ?_
        exact zpow_le_zpow_right₀ (by norm_num) (by omega)
    -- whole number
    have hwhole : (∃ m : Nat, (N : ℚ) * (10 : ℚ) ^ (s - l.scale) = m) ↔ -s ≤ -l.scale + (j : Int) := by
      constructor
      · rintro ⟨m, hm⟩
        by_contra hcon
        obtain ⟨k, hk⟩ : ∃ k : Nat, l.scale - s = (j : Int) + k + 1 := ⟨(l.scale - s - j - 1).toNat, by omega⟩
        have : (N : ℚ) = m * (10 : ℚ) ^ (j + k + 1) := by
          have h10 : (10 : ℚ) ^ (s - l.scale) * (10 : ℚ) ^ (j + k + 1) = 1 := by
            rw [← zpow_natCast, ← zpow_add₀ (by norm_num), show s - l.scale + ((j + k + 1 : Nat) : Int) = 0 by push_cast; omega,
              zpow_zero]
          rw [← hm, mul_assoc, h10, mul_one]
        have hnat : N = m * 10 ^ (j + k + 1) := by exact_mod_cast this
        rw [y] at hnat
        have hq' : q = m * 10 ^ k * 10 := by
          have hp : 0 < 10 ^ j := Nat.pow_pos (by omega)
          apply Nat.eq_of_mul_eq_mul_right hp
          rw [hnat, pow_succ, pow_add]
          ring
        rw [hq'] at z
        simp at z
      · intro hle
        obtain ⟨k, hk⟩ : ∃ k : Nat, (j : Int) + (s - l.scale) = k := ⟨((j : Int) + (s - l.scale)).toNat, by omega⟩
        refine ⟨q * 10 ^ k, ?_⟩
        rw [y]
        push_cast
        rw [mul_assoc, ← zpow_natCast, ← zpow_add₀ (by norm_num), hk, zpow_natCast]
    have hsgn : (l.units : ℚ) = N ∨ (l.units : ℚ) = -N := by
      have := units_abs l
      rw [hN'] at this
      rcases Int.natAbs_eq l.units with h0 | h0
      · left; rw [h0, this]; simp
      · right; rw [h0, this]; simp
    rw [← hwhole, ← hbound]
    constructor
    · rintro ⟨u, hu, hlt⟩
      have habs : (N : ℚ) * (10 : ℚ) ^ (s - l.scale) = (u.natAbs : ℚ) := by
        have hp : (0 : ℚ) < (10 : ℚ) ^ (s - l.scale) := zpow_pos (by norm_num) _
        have hNp : (0 : ℚ) ≤ (N : ℚ) * (10 : ℚ) ^ (s - l.scale) := by positivity
        rcases hsgn with h0 | h0
        · rw [h0] at hu
          rw [hu] at hNp ⊢
          have : 0 ≤ u := by exact_mod_cast hNp
          rw [Nat.cast_natAbs, abs_of_nonneg this]
        · rw [h0, neg_mul] at hu
          have hu' : (N : ℚ) * (10 : ℚ) ^ (s - l.scale) = ((-u : Int) : ℚ) := by push_cast; linarith
          rw [hu'] at hNp ⊢
          have : 0 ≤ -u := by exact_mod_cast hNp
          rw [show u.natAbs = (-u).natAbs by simp, Nat.cast_natAbs, abs_of_nonneg this]
      refine ⟨⟨_, habs⟩, ?_⟩
      rw [habs, zpow_natCast]
      exact_mod_cast hlt
    · rintro ⟨⟨m, hm⟩, hlt⟩
      rw [hm, zpow_natCast] at hlt
      have hlt' : m < 10 ^ n := by exact_mod_cast hlt
      rcases hsgn with h0 | h0
      · exact ⟨m, by rw [h0, hm]; simp, by simpa using hlt'⟩
      · exact ⟨-m, by rw [h0, neg_mul, hm]; simp, by simpa using hlt'⟩

/-- **C75.** A numeric literal for a numeric item whose picture counts (DISPLAY, COMP-3, binary with decimals or P), in a VALUE
clause or a MOVE: the compiler is silent exactly when the item can hold the number, without losing a figure, and has a sign if
the literal is written with one. -/
theorem C75_number (isValue : Bool) (l : NumLit) (h : l.Proper) (dst : MvItem) (n : Nat) (hc : dst.cat = .numeric)
    (hp : PicShape dst n) (hb : dst.real = false ∧ (dst.bin = true → dst.scale ≠ 0)) :
    checkNumLit isValue l false dst = [] ↔ (l.sign ≠ 0 → dst.haveSign = true) ∧ CanHold n dst.scale l.value := by
  obtain ⟨p1, p2, p3, p4⟩ := hp
  have hsc : -200 ≤ dst.scale ∧ dst.scale ≤ 200 := by
    rcases p4 with ⟨_, a, b⟩ | ⟨m, _, a, _, b⟩ | ⟨m, _, a, _, b⟩ <;> omega
  rw [canHold_iff l h n dst.scale hsc]
  have hsz : sizeCheck l dst = [] ↔ ¬ litLeast l < -dst.scale ∧
      ¬ (if dst.scale > 0 then dst.digits - dst.scale else dst.digits) ≤ litMost l := by
    unfold sizeCheck
    have hn : ¬ (dst.real = true ∨ (dst.bin = true ∧ dst.scale = 0)) := by
      rintro (x | ⟨x, y⟩)
      · rw [hb.1] at x; cases x
      · exact hb.2 x y
    rw [if_neg hn]
    by_cases h1 : litLeast l < -dst.scale
    · simp only [if_pos h1]; simp [h1]
    · simp only [if_neg h1]
      by_cases h2 : (if dst.scale > 0 then dst.digits - dst.scale else dst.digits) ≤ litMost l
      · simp only [if_pos h2]; simp [h2]
      · simp only [if_neg h2]; simp [h1, h2]
  have hss : signSizeCheck isValue l dst = [] ↔ (l.sign ≠ 0 → dst.haveSign = true) ∧ sizeCheck l dst = [] := by
    unfold signSizeCheck
    by_cases h1 : l.sign ≠ 0 ∧ dst.haveSign = false
    · rw [if_pos h1]
      cases isValue <;> simp [h1.1, h1.2]
    · rw [if_neg h1]
      have : (l.sign ≠ 0 → dst.haveSign = true) := by
        intro h2
        cases h3 : dst.haveSign with
        | true => rfl
        | false => exact absurd ⟨h2, h3⟩ h1
      exact ⟨fun x => ⟨this, x⟩, fun x => x.2⟩
  unfold checkNumLit
  rw [hc]
  simp only [Bool.false_eq_true, if_false]
  rcases p4 with ⟨a, b, c⟩ | ⟨m, a, b, c, d⟩ | ⟨m, a, b, c, d⟩
  · rw [if_neg (by omega), if_neg (by omega), hss, hsz]
    by_cases hz : dst.scale > 0
    · rw [if_pos hz]
      constructor <;> rintro ⟨x, y, z⟩ <;> exact ⟨x, by omega, by omega⟩
    · rw [if_neg hz]
      constructor <;> rintro ⟨x, y, z⟩ <;> exact ⟨x, by omega, by omega⟩
  · rw [if_pos (by omega)]
    by_cases hl : litLeast l < -dst.scale
    · rw [if_pos hl]
      constructor
      · intro hf; cases hf
      · rintro ⟨x, y, z⟩; omega
    · rw [if_neg hl, hss, hsz, if_neg (by omega)]
      constructor <;> rintro ⟨x, y, z⟩ <;> exact ⟨x, by omega, by omega⟩
  · rw [if_neg (by omega), if_pos (by omega)]
    by_cases hl : dst.picSize - dst.scale ≤ litMost l
    · rw [if_pos hl]
      constructor
      · intro hf; cases hf
      · rintro ⟨x, y, z⟩; omega
    · rw [if_neg hl, hss, hsz, if_pos (by omega)]
      constructor <;> rintro ⟨x, y, z⟩ <;> exact ⟨x, by omega, by omega⟩

/-- `PIC S9(3)V99`; 123.45 is accepted, 123.456 and 1234 are not. -/
example : let it : MvItem := { cat := .numeric, size := 5, digits := 5, scale := 2, picSize := 5, haveSign := true }
    PicShape it 5 ∧ checkNumLit true ⟨[49, 50, 51, 52, 53], -1, 2⟩ false it = [] ∧
    checkNumLit true ⟨[49, 50, 51, 52, 53, 54], 0, 3⟩ false it = [.sizeOver] ∧
    checkNumLit false ⟨[49, 50, 51, 52], 0, 0⟩ false it = [.sizeOver] := by
  refine ⟨⟨rfl, by decide, by decide, .inl ⟨rfl, by decide, by decide⟩⟩, by decide +kernel, by decide +kernel, by decide +kernel⟩

end Cob
