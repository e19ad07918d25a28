import Verif.Intr.Numeric
import Verif.Move.NumericProps
import Mathlib.Algebra.Order.Floor.Ring
/-
Property C27 (INTEGER, INTEGER-PART, MOD, REM) and the SUM part of C30.
-/
namespace Cob
open Dec

/-! ### Specification -/

/-- The arguments for which FUNCTION INTEGER is wrong: negative, not whole, and the first digit
after the decimal point is 0 (like -1.05). -/
def IntegerMiss (x : ℚ) : Prop := x < 0 ∧ (∀ n : ℤ, x ≠ n) ∧ (10 : ℤ) ∣ ⌈10 * x⌉

/-- `x` truncated toward zero. -/
def truncQ (x : ℚ) : ℤ := if 0 ≤ x then ⌊x⌋ else ⌈x⌉

/-! ### Lemmas -/

theorem isTrunc_of_nonneg (x : ℚ) (h : 0 ≤ x) : IsTrunc x ⌊x⌋ := by
  have h1 := Int.floor_le x
  have h2 := Int.lt_floor_add_one x
  have h3 : (0 : ℚ) ≤ (⌊x⌋ : ℤ) := by exact_mod_cast Int.floor_nonneg.mpr h
  refine ⟨?_, ?_, mul_nonneg h h3⟩
  · rw [abs_of_nonneg h, abs_of_nonneg h3]; exact h1
  · rw [abs_of_nonneg h, abs_of_nonneg h3]; exact h2

theorem isTrunc_of_nonpos (x : ℚ) (h : x ≤ 0) : IsTrunc x ⌈x⌉ := by
  have h1 := Int.le_ceil x
  have h2 := Int.ceil_lt_add_one x
  have h3 : ((⌈x⌉ : ℤ) : ℚ) ≤ 0 := by
    have : ⌈x⌉ ≤ 0 := Int.ceil_le.mpr (by simpa using h)
    exact_mod_cast this
  refine ⟨?_, ?_, mul_nonneg_of_nonpos_of_nonpos h h3⟩
  · rw [abs_of_nonpos h, abs_of_nonpos h3]; linarith
  · rw [abs_of_nonpos h, abs_of_nonpos h3]; linarith

theorem isTrunc_truncQ (x : ℚ) : IsTrunc x (truncQ x) := by
  unfold truncQ
  by_cases h : 0 ≤ x
  · rw [if_pos h]; exact isTrunc_of_nonneg x h
  · rw [if_neg h]; exact isTrunc_of_nonpos x (by linarith)

theorem ndigitsAux_lt (fuel n : Nat) (h : n ≤ fuel) : n < 10 ^ ndigitsAux fuel n := by
  induction fuel generalizing n with
  | zero => simp [ndigitsAux]; omega
  | succ f ih =>
    rw [ndigitsAux]
    by_cases c : n < 10
    · rw [if_pos c]; omega
    · rw [if_neg c]
      have := ih (n / 10) (by omega)
      rw [Nat.pow_succ]
      omega

theorem ndigits_lt (n : Nat) : n < 10 ^ ndigits n := ndigitsAux_lt n n (Nat.le_refl n)

theorem ndigitsAux_le (fuel n k : Nat) (hf : n ≤ fuel) (hk : 1 ≤ k) (h : n < 10 ^ k) : ndigitsAux fuel n ≤ k := by
  induction fuel generalizing n k with
  | zero => simp [ndigitsAux]; omega
  | succ f ih =>
    rw [ndigitsAux]
    by_cases c : n < 10
    · rw [if_pos c]; omega
    · rw [if_neg c]
      obtain ⟨j, rfl⟩ := Nat.exists_eq_add_of_le hk
      have hj : 1 ≤ j := by
        by_contra hj
        have : j = 0 := by omega
        subst this
        omega
      have := ih (n / 10) j (by omega) hj (by rw [Nat.add_comm, Nat.pow_succ] at h; omega)
      omega

theorem ndigits_le (n k : Nat) (hk : 1 ≤ k) (h : n < 10 ^ k) : ndigits n ≤ k :=
  ndigitsAux_le n n k (Nat.le_refl n) hk h

theorem sizeBase10_spec (e : Bool) (v : Int) : v.natAbs < 10 ^ sizeBase10 e v ∧ 1 ≤ sizeBase10 e v := by
  unfold sizeBase10
  have h := ndigits_lt v.natAbs
  have hp : 1 ≤ ndigits v.natAbs := by
    unfold ndigits
    cases v.natAbs with
    | zero => simp [ndigitsAux]
    | succ n => rw [ndigitsAux]; split <;> omega
  constructor
  · exact lt_of_lt_of_le h (Nat.pow_le_pow_right (by omega) (by omega))
  · omega

theorem schar_id (n : Int) (h1 : -128 ≤ n) (h2 : n ≤ 127) : schar n = n := by
  unfold schar
  rw [Int.bmod_eq_of_le] <;> simp <;> omega

theorem wf_newBinary (digits : Nat) (scale : Int) (sign : Bool) (size : Nat) (h1 : 1 ≤ size) (h2 : size ≤ 8) :
    WFItem (newBinary digits scale sign size) := by
  refine ⟨by simpa [newBinary] using h1, by simpa [newBinary] using h2, ?_⟩
  intro b hb
  simp [newBinary] at hb
  omega

theorem wf_newZoned (size : Nat) (scale : Int) (sign : Bool) (h : 1 ≤ size) : WFItem (newZoned size scale sign) := by
  refine ⟨by simp [newZoned], by simpa [newZoned] using h⟩

/-- Storing in a fresh 8-byte binary result. -/
theorem store_newBinary8 (ebc trunc : Bool) (d : Dec) (hd : d.isNaN = false) (digits : Nat) (scale : Int) (hs : -128 ≤ scale ∧ scale ≤ 127)
    (u : Int) (hu : IsTrunc (d.toRat * (10 : ℚ) ^ scale) u) (hf : u.natAbs < 2 ^ 63) :
    let r := storeItem ebc d (newBinary digits scale true 8) { binTrunc := trunc }
    r.raised = false ∧ WFItem r.item ∧ r.item.usage = .binary ∧ r.item.field.attr.scale = scale ∧
      Holds ebc r.item ((u : ℚ) / (10 : ℚ) ^ scale) := by
  intro r
  have hsc := schar_id scale hs.1 hs.2
  have hw := wf_newBinary digits scale true 8 (by omega) (by omega)
  obtain ⟨h1, h2, h3, h4, h5, h6⟩ := C05_store_any_item ebc d hd (newBinary digits scale true 8) hw { binTrunc := trunc } u
    (by unfold Wanted; simp only [Bool.false_eq_true, if_false]; simpa [newBinary, hsc] using hu)
    ⟨Or.inl rfl, by refine ⟨?_, ?_⟩
                    · simpa [binFits, newBinary] using hf
                    · unfold digitLimit; simp⟩
  have e : r.item.field.attr.scale = scale := by
    show (storeItem ebc d (newBinary digits scale true 8) { binTrunc := trunc }).item.field.attr.scale = scale
    rw [h5]; exact hsc
  exact ⟨h1, h3, h4, e, u, h6, by rw [e]⟩

theorem tdiv_tdiv_pos (v : Int) (a b : Nat) : (v.tdiv a).tdiv b = v.tdiv ((a : Int) * b) := by
  have hn : ∀ n : Nat, ((n : Int).tdiv a).tdiv b = (n : Int).tdiv ((a : Int) * b) := by
    intro n
    rw [← Int.natCast_mul]
    rw [← Int.ofNat_tdiv, ← Int.ofNat_tdiv, ← Int.ofNat_tdiv, Nat.div_div_eq_div_mul]
  rcases Int.eq_nat_or_neg v with ⟨n, rfl | rfl⟩
  · exact hn n
  · rw [Int.neg_tdiv, Int.neg_tdiv, Int.neg_tdiv, hn]

theorem tmod_small (t : Int) (k : Nat) (h : t.natAbs < k) : t.tmod k = t := by
  rcases Int.eq_nat_or_neg t with ⟨n, rfl | rfl⟩
  · rw [Int.tmod_eq_emod_of_nonneg (by omega)]
    exact Int.emod_eq_of_lt (by omega) (by omega)
  · rw [Int.neg_tmod, Int.tmod_eq_emod_of_nonneg (by omega)]
    rw [Int.emod_eq_of_lt (by omega) (by omega)]

theorem dropDigits_eq (n : Nat) (v : Int) : dropDigits n v = v.tdiv (10 ^ n) := by
  induction n generalizing v with
  | zero => simp [dropDigits]
  | succ n ih =>
    rw [dropDigits, ih]
    have := tdiv_tdiv_pos v 10 (10 ^ n)
    push_cast at this
    rw [this, pow_succ']

theorem toRat_int (n : Int) : Dec.toRat ⟨n, 0⟩ = n := by simp [toRat]

/-- The integer INTEGER finds for the number `x`. -/
noncomputable def integerFound (x : ℚ) : ℤ := by
  classical exact if IntegerMiss x then ⌊x⌋ + 1 else ⌊x⌋

theorem neg_split (w : ℤ) (h : w ≤ 0) : ∃ k j : ℤ, w = 10 * k - j ∧ 0 ≤ j ∧ j ≤ 9 ∧ k ≤ 0 :=
  ⟨-((-w) / 10), (-w) % 10, by omega, by omega, by omega, by omega⟩

/-- The rational core: from the truncated tenths to the integer. -/
theorem tenths_core (x : ℚ) (hx : x < 0) (w : ℤ) (hw : IsTrunc (10 * x) w) (y : ℚ)
    (hy : y = if (10 : ℤ) ∣ w then (w : ℚ) / 10 else ((w : ℚ) - 10) / 10) : IsTrunc y (integerFound x) := by
  have hw' : w = ⌈10 * x⌉ := isTrunc_unique _ _ _ hw (isTrunc_of_nonpos _ (by linarith))
  have h1 : 10 * x ≤ w := by rw [hw']; exact Int.le_ceil _
  have h2 : (w : ℚ) < 10 * x + 1 := by rw [hw']; exact Int.ceil_lt_add_one _
  have hw0 : w ≤ 0 := by
    by_contra hc
    have : (1 : ℚ) ≤ w := by exact_mod_cast (by omega : (1 : ℤ) ≤ w)
    linarith
  obtain ⟨k, j, e, j0, j9, k0⟩ := neg_split w hw0
  have ew : (w : ℚ) = 10 * k - j := by exact_mod_cast e
  have jq : (0 : ℚ) ≤ j ∧ (j : ℚ) ≤ 9 := by exact_mod_cast And.intro j0 j9
  unfold integerFound
  by_cases hd : (10 : ℤ) ∣ w
  · have hj : j = 0 := by omega
    subst hj
    rw [if_pos hd] at hy
    have ey : y = ((k : ℤ) : ℚ) := by rw [hy, ew]; push_cast; ring
    rw [ey]
    push_cast at ew
    by_cases hm : IntegerMiss x
    · rw [if_pos hm]
      have : ⌊x⌋ + 1 = k := by
        have hf : ⌊x⌋ = k - 1 := by
          rw [Int.floor_eq_iff]
          push_cast
          constructor
          · linarith
          · have hne := hm.2.1 k
            rcases lt_or_eq_of_le (show x ≤ k by linarith) with h | h
            · linarith
            · exact absurd h hne
        omega
      rw [this]; exact isTrunc_int k
    · rw [if_neg hm]
      have hint : ∃ n : ℤ, x = n := by
        by_contra hc
        apply hm
        refine ⟨hx, fun n hn => hc ⟨n, hn⟩, ?_⟩
        rw [← hw']; exact hd
      obtain ⟨n, hn⟩ := hint
      have : ⌊x⌋ = k := by
        rw [hn, Int.floor_intCast]
        rw [hn] at h1 h2
        rw [ew] at h1 h2
        have a1 : (n : ℚ) ≤ k := by linarith
        have a2 : (k : ℚ) < n + 1 := by linarith
        have a1' : n ≤ k := by exact_mod_cast a1
        have a2' : k < n + 1 := by exact_mod_cast a2
        omega
      rw [this]; exact isTrunc_int k
  · rw [if_neg hd] at hy
    have hj : 1 ≤ j := by
      by_contra hc
      apply hd
      exact ⟨k, by omega⟩
    have jq1 : (1 : ℚ) ≤ j := by exact_mod_cast hj
    have hm : ¬ IntegerMiss x := by
      intro hm
      apply hd
      rw [hw']; exact hm.2.2
    rw [if_neg hm]
    have hf : ⌊x⌋ = k - 1 := by
      rw [Int.floor_eq_iff]
      push_cast
      constructor <;> linarith
    rw [hf]
    have kq : (k : ℚ) ≤ 0 := by exact_mod_cast k0
    have ey : y ≤ 0 := by rw [hy]; linarith
    have : k - 1 = ⌈y⌉ := by
      symm
      rw [Int.ceil_eq_iff, hy, ew]
      push_cast
      constructor <;> linarith
    rw [this]
    exact isTrunc_of_nonpos y ey

theorem integerDec_spec (d : Dec) (hd : d.isNaN = false) :
    (integerDec d).isNaN = false ∧ IsTrunc (integerDec d).toRat (integerFound d.toRat) := by
  obtain ⟨v, s⟩ := d
  unfold integerDec
  simp only
  have h10 : (0 : ℚ) < (10 : ℚ) ^ s := zpow_pos (by norm_num) s
  by_cases hv : 0 ≤ v
  · rw [if_pos hv]
    refine ⟨hd, ?_⟩
    have hx : 0 ≤ toRat ⟨v, s⟩ := by
      unfold toRat
      apply div_nonneg _ h10.le
      exact_mod_cast hv
    have : ¬ IntegerMiss (toRat ⟨v, s⟩) := fun h => by have := h.1; linarith
    unfold integerFound
    rw [if_neg this]
    exact isTrunc_of_nonneg _ hx
  · rw [if_neg hv]
    have hx : toRat ⟨v, s⟩ < 0 := by
      unfold toRat
      apply div_neg_of_neg_of_pos _ h10
      exact_mod_cast not_le.mp hv
    by_cases hs : s ≤ 0
    · rw [show (s - 1).toNat = 0 by omega]
      simp only [dropDigits]
      rw [if_neg (show ¬ s > 1 by omega), if_neg (show ¬ s > 0 by omega)]
      simp only [Int.emod_one, ne_eq, not_true_eq_false, if_false]
      refine ⟨hd, ?_⟩
      obtain ⟨m, rfl⟩ : ∃ m : ℕ, s = -(m : ℤ) := ⟨(-s).toNat, by omega⟩
      have hi : toRat ⟨v, -(m : ℤ)⟩ = ((v * 10 ^ m : ℤ) : ℚ) := by
        unfold toRat
        rw [zpow_neg, zpow_natCast]
        push_cast
        field_simp
      rw [hi]
      have hnm : ¬ IntegerMiss ((v * 10 ^ m : ℤ) : ℚ) := fun h => h.2.1 _ rfl
      unfold integerFound
      rw [if_neg hnm, Int.floor_intCast]
      exact isTrunc_int _
    · obtain ⟨m, rfl⟩ : ∃ m : ℕ, s = (m : ℤ) + 1 := ⟨(s - 1).toNat, by omega⟩
      rw [show ((m : ℤ) + 1 - 1).toNat = m by omega, dropDigits_eq]
      have hs1 : (if (m : ℤ) + 1 > 1 then 1 else (m : ℤ) + 1) = 1 := by split <;> omega
      rw [hs1]
      rw [if_pos (show (1 : Int) > 0 by omega)]
      have hw : IsTrunc (10 * toRat ⟨v, (m : ℤ) + 1⟩) (v.tdiv (10 ^ m)) := by
        have := isTrunc_tdiv v (10 ^ m) (by positivity)
        have e : 10 * toRat ⟨v, (m : ℤ) + 1⟩ = (v : ℚ) / ((10 ^ m : ℤ) : ℚ) := by
          unfold toRat
          rw [zpow_add₀ (by norm_num), zpow_natCast]
          push_cast
          field_simp
        rw [e]; exact this
      refine ⟨?_, tenths_core _ hx _ hw _ ?_⟩
      · simp [isNaN, nanScale]
      · unfold toRat
        simp only [zpow_one]
        have hdv : (v.tdiv (10 ^ m) % 10 = 0) ↔ (10 : ℤ) ∣ v.tdiv (10 ^ m) := by omega
        by_cases c : (10 : ℤ) ∣ v.tdiv (10 ^ m)
        · rw [if_pos c, if_neg (by simpa using hdv.mpr c)]
        · rw [if_neg c, if_pos (fun h => c (hdv.mp h))]
          push_cast; ring

/-- Items hold numbers that are not the NaN marker when their scale is a legal one. -/
theorem holds_read' (ebc : Bool) (it : Item) (hw : WFItem it) (x : ℚ) (h : Holds ebc it x) (hs : it.field.attr.scale ≠ -128) :
    ∃ d, readItem ebc it = (some d, it) ∧ d.toRat = x ∧ d.scale = it.field.attr.scale ∧ d.isNaN = false := by
  obtain ⟨d, h1, h2, h3⟩ := holds_read ebc it hw x h
  refine ⟨d, h1, h2, h3, ?_⟩
  simp [isNaN, nanScale, h3, hs]

theorem intrInteger_found (ebc trunc : Bool) (src : Item) (hw : WFItem src) (x : ℚ) (hx : Holds ebc src x)
    (hs : src.field.attr.scale ≠ -128) (hf : (integerFound x).natAbs < 2 ^ 63) :
    ∃ r, intrInteger ebc trunc src = some r ∧ r.raised = false ∧ WFItem r.item ∧ r.item.field.attr.scale = 0 ∧
      Holds ebc r.item (integerFound x) := by
  obtain ⟨d, h1, h2, h3, h4⟩ := holds_read' ebc src hw x hx hs
  obtain ⟨n1, n2⟩ := integerDec_spec d h4
  rw [h2] at n2
  have := store_newBinary8 ebc trunc (integerDec d) n1 18 0 (by omega) (integerFound x) (by simpa using n2) hf
  obtain ⟨a1, a2, a3, a4, a5⟩ := this
  refine ⟨_, by unfold intrInteger; rw [h1], a1, a2, a4, by simpa using a5⟩

/-! ### C27: INTEGER -/

/-- C27: INTEGER of any numeric item that holds `x` is the greatest integer not greater than
`x`, except for negative fractions whose first decimal digit is 0; for these it is one more
(see `C27_finding_integer`).  The result must fit the 64-bit result item. -/
theorem C27_integer (ebc trunc : Bool) (src : Item) (hw : WFItem src) (x : ℚ) (hx : Holds ebc src x)
    (hs : src.field.attr.scale ≠ -128) (hf : |x| < 2 ^ 62) :
    ∃ r n, intrInteger ebc trunc src = some r ∧ r.raised = false ∧ Holds ebc r.item ((n : ℤ) : ℚ) ∧
      (¬ IntegerMiss x → (n : ℚ) ≤ x ∧ x < n + 1) ∧
      (IntegerMiss x → (n : ℚ) - 1 ≤ x ∧ x < n) := by
  have hb : (integerFound x).natAbs < 2 ^ 63 := by
    have h1 := Int.floor_le x
    have h2 := Int.lt_floor_add_one x
    rw [abs_lt] at hf
    have a1 : ⌊x⌋ < 2 ^ 62 := by
      have : (⌊x⌋ : ℚ) < 2 ^ 62 := by linarith
      exact_mod_cast this
    have a2 : -2 ^ 62 - 1 < ⌊x⌋ := by
      have : ((-2 ^ 62 - 1 : ℤ) : ℚ) < (⌊x⌋ : ℚ) := by push_cast; linarith
      exact_mod_cast this
    unfold integerFound
    split <;> omega
  obtain ⟨r, h1, h2, h3, h4, h5⟩ := intrInteger_found ebc trunc src hw x hx hs hb
  refine ⟨r, integerFound x, h1, h2, h5, ?_, ?_⟩
  · intro hm
    unfold integerFound
    rw [if_neg hm]
    exact ⟨Int.floor_le x, Int.lt_floor_add_one x⟩
  · intro hm
    unfold integerFound
    rw [if_pos hm]
    push_cast
    refine ⟨by have := Int.floor_le x; linarith, Int.lt_floor_add_one x⟩

/-- Finding: FUNCTION INTEGER (-1.05) is -1, not -2. -/
theorem C27_finding_integer :
    (intrInteger false true ⟨.display, ⟨{ digits := 3, scale := 2, haveSign := true }, [49, 48, 0x75]⟩⟩).map
      (fun r => readItem false r.item) = some (some ⟨-1, 0⟩, ⟨.binary, ⟨{ digits := 18, haveSign := true }, List.replicate 8 255⟩⟩) := by
  decide

/-- C27: INTEGER-PART of any numeric item that holds `x` is `x` truncated toward zero. -/
theorem C27_integer_part (ebc : Bool) (src : Item) (hw : WFItem src) (x : ℚ) (hx : Holds ebc src x)
    (hP : src.usage = .display → src.field.attr.digits = src.field.dsize)
    (hsc : src.field.attr.scale ≤ src.sent) (hf : |x| < 10 ^ 18) :
    ∃ it, intrIntegerPart ebc true src = .done it ∧ WFItem it ∧ it.field.attr.scale = 0 ∧ Holds ebc it ((truncQ x : ℤ) : ℚ) := by
  have hlt : ∀ t, IsTrunc x t → t.natAbs < 10 ^ 18 := by
    intro t ht
    have h1 := ht.1
    have : |(t : ℚ)| < 10 ^ 18 := by linarith
    have h2 : |t| < 10 ^ 18 := by exact_mod_cast this
    rw [abs_lt] at h2
    omega
  have hfld : (newBinary 18 0 true 8).field.attr.scale = 0 := by decide
  obtain ⟨it, u, h1, h2, h3, h4, h5, h6⟩ := C13_move ebc true src (newBinary 18 0 true 8) hw
    (wf_newBinary 18 0 true 8 (by omega) (by omega)) x hx hP (by
      intro _
      refine ⟨rfl, by unfold BinaryHasRoom; decide, by rw [hfld]; omega, ?_⟩
      intro t ht
      rw [hfld] at ht
      have := hlt t (by simpa using ht)
      omega)
  obtain ⟨t, ht, hu⟩ := h6
  rw [hfld] at ht
  have ht' : IsTrunc x t := by simpa using ht
  have hsame := isTrunc_unique _ _ _ ht' (isTrunc_truncQ x)
  have hval : u = t := by
    have := hlt t ht'
    rw [if_pos (by decide)] at hu
    rw [hu, show (newBinary 18 0 true 8).positions = 18 by decide]
    exact tmod_small t (10 ^ 18) this
  have hs0 : it.field.attr.scale = 0 := by rw [h3]; exact hfld
  refine ⟨it, h1, h4, hs0, u, h5, ?_⟩
  rw [hval, hsame, hs0]; simp

/-! ### the quotient the functions work with -/

theorem div_scale (d1 d2 : Dec) (h1 : d1.isNaN = false) (h2 : d2.isNaN = false)
    (hz : d2.value ≠ 0) (h0 : d1.value ≠ 0) :
    (d1.div d2).1.scale = 37 + max 0 (d1.scale - d2.scale) := by
  simp only [div, h1, h2, Bool.or_false, Bool.false_eq_true, if_false, hz, h0, scale_shift]
  split <;> omega

theorem toRat_zero_iff (d : Dec) : d.toRat = 0 ↔ d.value = 0 := by
  unfold toRat
  have : (10 : ℚ) ^ d.scale ≠ 0 := zpow_ne_zero _ (by norm_num)
  rw [div_eq_zero_iff]
  simp [this]

theorem decGetDisplay_length (ebc : Bool) (v : Int) (f : Field) (opt : StoreOpt) (h : f.attr.separate = false) :
    (decGetDisplay ebc v f opt).field.data.length = f.data.length := by
  have hp : ∀ (g : Field) (s : Int), (g.putSign ebc s).data.length = g.data.length := by
    intro g s
    unfold Field.putSign
    split <;> simp
  have hs : ∀ bs : List Nat, bs.length = f.data.length → (f.storeDigits bs).data.length = f.data.length := by
    intro bs hb
    simp [Field.storeDigits, Field.dataOff, h, hb]
  have hd : f.dsize = f.data.length := by simp [Field.dsize, h]
  unfold decGetDisplay
  simp only
  split
  · split
    · rfl
    · rw [hp, hs]; simp; omega
  · rw [hp, hs]; simp; omega

/-- An item made for a decimal with at least 19 decimals. -/
theorem binopItem_zoned (e : Bool) (d : Dec) (h : 19 ≤ d.scale) :
    ∃ size, binopItem e d = newZoned size d.scale (decide (d.value < 0)) ∧ sizeBase10 e d.value ≤ size ∧ d.scale ≤ size ∧
      (size = sizeBase10 e d.value ∨ (size : ℤ) = d.scale) := by
  unfold binopItem
  simp only
  rw [if_neg (by omega), if_neg (by omega)]
  by_cases c : d.scale > sizeBase10 e d.value
  · refine ⟨d.scale.toNat, by rw [if_pos c], by omega, by omega, Or.inr (by omega)⟩
  · refine ⟨sizeBase10 e d.value, by rw [if_neg c], by omega, by omega, Or.inl rfl⟩

/-- The quotient item of `cob_intr_binop`: it holds the exact quotient truncated at some place
after the 36th decimal. -/
theorem binop_div (ebc trunc e : Bool) (f1 f2 : Item) (w1 : WFItem f1) (w2 : WFItem f2) (x y : ℚ)
    (hx : Holds ebc f1 x) (hy : Holds ebc f2 y) (hy0 : y ≠ 0) (n1 : f1.field.attr.scale ≠ -128)
    (n2 : f2.field.attr.scale ≠ -128) (hsc : f1.field.attr.scale - f2.field.attr.scale ≤ 90) :
    ∃ q s v, intrBinop ebc trunc e (fun a b => (a.div b).1) f1 f2 = some q ∧ WFItem q.item ∧
      q.item.field.attr.scale ≠ -128 ∧
      37 ≤ s ∧ IsTrunc (x / y * (10 : ℚ) ^ (s : ℕ)) v ∧ Holds ebc q.item ((v : ℚ) / (10 : ℚ) ^ s) ∧
      (|x / y| < 10 ^ 18 → (q.item.usage = .display → q.item.field.attr.digits = q.item.field.dsize) ∧
        q.item.field.attr.scale ≤ q.item.sent) := by
  obtain ⟨d1, r1, e1, s1, m1⟩ := holds_read' ebc f1 w1 x hx n1
  obtain ⟨d2, r2, e2, s2, m2⟩ := holds_read' ebc f2 w2 y hy n2
  have hd2 : d2.value ≠ 0 := by
    intro h; apply hy0; rw [← e2]; exact (toRat_zero_iff d2).mpr h
  unfold intrBinop
  rw [r1, r2]
  simp only
  by_cases h0 : d1.value = 0
  · have hd : (d1.div d2).1 = ⟨0, 0⟩ := by
      simp [div, m1, m2, hd2, h0]
    have hx0 : x = 0 := by rw [← e1]; exact (toRat_zero_iff d1).mpr h0
    rw [hd]
    have hb : binopItem e ⟨0, 0⟩ = newBinary 9 0 false 4 := by simp [binopItem]
    rw [hb]
    obtain ⟨a1, a2, a3, a4, a5, a6⟩ := C05_store_any_item ebc ⟨0, 0⟩ (by decide) (newBinary 9 0 false 4)
      (wf_newBinary 9 0 false 4 (by omega) (by omega)) { binTrunc := trunc } 0
      (by unfold Wanted; simpa [toRat] using isTrunc_int 0)
      ⟨Or.inr (by omega), by refine ⟨?_, ?_⟩
                             · simp [binFits, newBinary]
                             · unfold digitLimit; simp⟩
    have hsc0 : (newBinary 9 0 false 4).field.attr.scale = 0 := by decide
    refine ⟨_, 37, 0, rfl, a3, ?_, Nat.le_refl _, ?_, ⟨0, a6, by simp⟩, ?_⟩
    · rw [a5, hsc0]; decide
    · rw [hx0]; simpa using isTrunc_int 0
    · intro _
      refine ⟨?_, ?_⟩
      · intro hu; rw [a4] at hu; exact absurd hu (by decide)
      · rw [a5, hsc0]; exact Int.natCast_nonneg _
  · have hne : d1.toRat ≠ 0 := fun h => h0 ((toRat_zero_iff d1).mp h)
    obtain ⟨_, c2, c3, c4, c5⟩ := C07_div_truncated d1 d2 m1 m2 (by rw [e2]; exact hy0) hne
    have hds := div_scale d1 d2 m1 m2 hd2 h0
    rw [s1, s2] at hds
    generalize hD : (d1.div d2).1 = D at *
    obtain ⟨size, z1, z2, z3, z4⟩ := binopItem_zoned e D (by omega)
    obtain ⟨sz1, sz2⟩ := sizeBase10_spec e D.value
    have hsch : schar D.scale = D.scale := schar_id _ (by omega) (by omega)
    have hneg : (newZoned size D.scale (decide (D.value < 0))).field.attr.haveSign = true ∨ 0 ≤ D.value := by
      by_cases h : D.value < 0
      · left; simp [newZoned, h]
      · right; omega
    have hdz : (newZoned size D.scale (decide (D.value < 0))).field.dsize = size := by
      simp [newZoned, Field.dsize]
    obtain ⟨a1, a2, a3, a4, a5, a6⟩ := C05_store_any_item ebc D c2 (newZoned size D.scale (decide (D.value < 0)))
      (wf_newZoned size _ _ (by omega)) { binTrunc := trunc } D.value
      (by unfold Wanted
          simp only [Bool.false_eq_true, if_false]
          rw [show (newZoned size D.scale (decide (D.value < 0))).field.attr.scale = D.scale from hsch]
          have : D.toRat * (10 : ℚ) ^ D.scale = D.value := by
            unfold toRat
            have : (10 : ℚ) ^ D.scale ≠ 0 := zpow_ne_zero _ (by norm_num)
            field_simp
          rw [this]; exact isTrunc_int _)
      ⟨hneg, by
        show D.value.natAbs < 10 ^ (newZoned size D.scale (decide (D.value < 0))).field.dsize
        rw [hdz]
        exact lt_of_lt_of_le sz1 (Nat.pow_le_pow_right (by omega) z2)⟩
    obtain ⟨s, hs⟩ : ∃ s : ℕ, D.scale = s := ⟨D.scale.toNat, by omega⟩
    have hatt : (newZoned size D.scale (decide (D.value < 0))).field.attr.scale = s := by
      show schar D.scale = s
      rw [hsch, hs]
    have hitem : (storeItem ebc D (newZoned size D.scale (decide (D.value < 0))) { binTrunc := trunc }).item.field.attr.scale = s := by
      rw [a5, hatt]
    refine ⟨_, s, D.value, rfl, ?_, ?_, by omega, ?_, ?_, ?_⟩
    · rw [z1]; exact a3
    · rw [z1, hitem]; omega
    · rw [e1, e2, hs, zpow_natCast] at c5; exact c5
    · rw [z1]
      refine ⟨D.value, a6, ?_⟩
      rw [hitem, zpow_natCast]
    · rw [z1]
      intro hq
      have hlen : (storeItem ebc D (newZoned size D.scale (decide (D.value < 0))) { binTrunc := trunc }).item.field.dsize = size := by
        have hd : (storeItem ebc D (newZoned size D.scale (decide (D.value < 0))) { binTrunc := trunc }).item.field.data.length = size := by
          unfold storeItem
          rw [c2]
          simp only [Bool.false_eq_true, if_false, newZoned]
          rw [decGetDisplay_length _ _ _ _ rfl]
          simp
        unfold Field.dsize
        rw [hd, a5]
        simp [newZoned]
      have hbig : size < 256 := by
        rcases z4 with h | h
        · rw [h]
          unfold sizeBase10
          have : ndigits D.value.natAbs ≤ 18 + s := by
            apply ndigits_le _ _ (by omega)
            have h1 := c5.1
            rw [e1, e2, hs, abs_mul, zpow_natCast] at h1
            have hp : (0 : ℚ) < 10 ^ s := by positivity
            rw [abs_of_pos hp] at h1
            have h2 : |(D.value : ℚ)| < 10 ^ 18 * 10 ^ s := lt_of_le_of_lt h1 (by
              exact mul_lt_mul_of_pos_right hq hp)
            rw [← pow_add] at h2
            have h3 : |D.value| < 10 ^ (18 + s) := by exact_mod_cast h2
            have h4 : ((D.value.natAbs : ℕ) : ℤ) < ((10 ^ (18 + s) : ℕ) : ℤ) := by
              push_cast; exact h3
            exact_mod_cast h4
          split <;> omega
        · omega
      refine ⟨?_, ?_⟩
      · intro _
        rw [hlen, a5]
        simp only [newZoned, uchar]
        exact Nat.mod_eq_of_lt hbig
      · unfold Item.sent
        rw [a4]
        show (storeItem ebc D (newZoned size D.scale (decide (D.value < 0))) { binTrunc := trunc }).item.field.attr.scale ≤ ((storeItem ebc D (newZoned size D.scale (decide (D.value < 0))) { binTrunc := trunc }).item.field.dsize : ℤ)
        rw [hlen, hitem]
        omega

/-- Truncating the quotient after the 36th decimal does not change what INTEGER and INTEGER-PART find. -/
theorem trunc_quotient (q : ℚ) (s : ℕ) (hs : 37 ≤ s) (v : ℤ) (hv : IsTrunc (q * (10 : ℚ) ^ s) v) :
    truncQ ((v : ℚ) / (10 : ℚ) ^ s) = truncQ q ∧ integerFound ((v : ℚ) / (10 : ℚ) ^ s) = integerFound q := by
  have hp : (0 : ℚ) < 10 ^ s := by positivity
  have htr : truncQ ((v : ℚ) / (10 : ℚ) ^ s) = truncQ q := by
    have h1 := isTrunc_truncQ ((v : ℚ) / (10 : ℚ) ^ s)
    have h2 := isTrunc_nest (q * 10 ^ s) (10 ^ s) (by positivity) v _ hv (by push_cast; exact h1)
    push_cast at h2
    rw [mul_div_assoc, div_self hp.ne', mul_one] at h2
    exact isTrunc_unique _ _ _ h2 (isTrunc_truncQ q)
  refine ⟨htr, ?_⟩
  set qv := (v : ℚ) / (10 : ℚ) ^ s with hqv
  by_cases hq : 0 ≤ q
  · have hv0 : 0 ≤ v := by
      by_contra hc
      have h3 := hv.2.2
      have h1 := hv.1
      have hvq : (v : ℚ) < 0 := by exact_mod_cast not_le.mp hc
      have hqs : 0 < q * 10 ^ s := by
        rcases lt_or_eq_of_le (mul_nonneg hq hp.le) with h | h
        · exact h
        · exfalso; rw [← h] at h1; simp at h1; rw [h1] at hvq; simp at hvq
      have := mul_neg_of_pos_of_neg hqs hvq
      linarith
    have hqv0 : 0 ≤ qv := div_nonneg (by exact_mod_cast hv0) hp.le
    have m1 : ¬ IntegerMiss q := fun h => by have := h.1; linarith
    have m2 : ¬ IntegerMiss qv := fun h => by have := h.1; linarith
    unfold integerFound
    rw [if_neg m1, if_neg m2]
    unfold truncQ at htr
    rw [if_pos hq, if_pos hqv0] at htr
    exact htr
  · have hq' : q < 0 := not_le.mp hq
    -- the truncated tenths agree
    have hw : IsTrunc (10 * q) (truncQ (10 * qv)) := by
      obtain ⟨k, rfl⟩ : ∃ k, s = k + 1 := ⟨s - 1, by omega⟩
      have h1 : IsTrunc ((v : ℚ) / ((10 ^ k : ℕ) : ℚ)) (truncQ (10 * qv)) := by
        have : (v : ℚ) / ((10 ^ k : ℕ) : ℚ) = 10 * qv := by
          rw [hqv, pow_succ]; push_cast; field_simp
        rw [this]; exact isTrunc_truncQ _
      have h2 := isTrunc_nest (q * 10 ^ (k + 1)) (10 ^ k) (by positivity) v _ hv h1
      have : q * 10 ^ (k + 1) / ((10 ^ k : ℕ) : ℚ) = 10 * q := by
        push_cast; rw [pow_succ]; field_simp
      rwa [this] at h2
    have hvn : v ≤ 0 := by
      by_contra hc
      have h3 := hv.2.2
      have hvq : (0 : ℚ) < v := by exact_mod_cast not_le.mp hc
      have := mul_neg_of_neg_of_pos (mul_neg_of_neg_of_pos hq' hp) hvq
      linarith
    by_cases hv0 : v = 0
    · have hqv0 : qv = 0 := by rw [hqv, hv0]; simp
      have h0 := tenths_core q hq' _ hw _ rfl
      have ht : truncQ (10 * qv) = 0 := by rw [hqv0]; simp [truncQ]
      rw [ht] at h0
      simp at h0
      have hz : integerFound q = 0 := isTrunc_unique _ _ _ h0 (by simpa using isTrunc_int 0)
      rw [hz, hqv0]
      unfold integerFound
      rw [if_neg (fun h => by have := h.1; linarith)]
      simp
    · have hqvneg : qv < 0 := div_neg_of_neg_of_pos (by exact_mod_cast lt_of_le_of_ne hvn hv0) hp
      have a := tenths_core q hq' _ hw _ rfl
      have b := tenths_core qv hqvneg _ (isTrunc_truncQ (10 * qv)) _ rfl
      exact isTrunc_unique _ _ _ b a

theorem floor_rem (a b : ℤ) (hb0 : b ≠ 0) (m : ℤ) (hm : m = a - b * ⌊(a : ℚ) / b⌋) :
    (b > 0 → 0 ≤ m ∧ m < b) ∧ (b < 0 → b < m ∧ m ≤ 0) := by
  have h1 := Int.floor_le ((a : ℚ) / b)
  have h2 := Int.lt_floor_add_one ((a : ℚ) / b)
  generalize ⌊(a : ℚ) / b⌋ = f at *
  constructor
  · intro hb
    have hbq : (0 : ℚ) < b := by exact_mod_cast hb
    rw [le_div_iff₀ hbq] at h1
    rw [div_lt_iff₀ hbq] at h2
    have g1 : f * b ≤ a := by exact_mod_cast h1
    have g2 : a < (f + 1) * b := by exact_mod_cast h2
    constructor <;> linarith
  · intro hb
    have hbq : (b : ℚ) < 0 := by exact_mod_cast hb
    rw [le_div_iff_of_neg hbq] at h1
    rw [div_lt_iff_of_neg hbq] at h2
    have g1 : a ≤ f * b := by exact_mod_cast h1
    have g2 : (f + 1) * b < a := by exact_mod_cast h2
    constructor <;> linarith

/-! ### C27: MOD and REM -/

/-- C27: MOD of two whole numbers: `a - b * (the greatest integer not above a/b)`, which is 0 or
has the sign of `b` and is smaller than `b`; except when `a/b` is a negative fraction whose
first decimal digit is 0: then the result is `b` less. -/
theorem C27_mod (ebc trunc extra : Bool) (f1 f2 : Item) (w1 : WFItem f1) (w2 : WFItem f2) (a b : ℤ)
    (ha : Holds ebc f1 (a : ℚ)) (hb : Holds ebc f2 (b : ℚ)) (hb0 : b ≠ 0)
    (la : |a| < 10 ^ 18) (lb : |b| < 10 ^ 18)
    (n1 : f1.field.attr.scale ≠ -128) (n2 : f2.field.attr.scale ≠ -128)
    (hsc : f1.field.attr.scale - f2.field.attr.scale ≤ 90) :
    ∃ r m, intrMod ebc trunc extra f1 f2 = some r ∧ r.raised = false ∧ Holds ebc r.item ((m : ℤ) : ℚ) ∧
      (¬ IntegerMiss ((a : ℚ) / b) → m = a - b * ⌊(a : ℚ) / b⌋ ∧ (b > 0 → 0 ≤ m ∧ m < b) ∧ (b < 0 → b < m ∧ m ≤ 0)) ∧
      (IntegerMiss ((a : ℚ) / b) → m = a - b * (⌊(a : ℚ) / b⌋ + 1)) := by
  obtain ⟨q, s, v, q1, q2, q3, q4, q5, q6, _⟩ := binop_div ebc trunc extra f1 f2 w1 w2 a b ha hb (by exact_mod_cast hb0) n1 n2 hsc
  obtain ⟨_, hfound⟩ := trunc_quotient _ s q4 v q5
  obtain ⟨m0, hm0⟩ : ∃ m0, m0 = a - b * ⌊(a : ℚ) / b⌋ := ⟨_, rfl⟩
  have hsign : (b > 0 → 0 ≤ m0 ∧ m0 < b) ∧ (b < 0 → b < m0 ∧ m0 ≤ 0) := floor_rem a b hb0 m0 hm0
  have hqa : |(a : ℚ) / b| ≤ |(a : ℚ)| := by
    rw [abs_div]
    apply div_le_self (abs_nonneg _)
    have : 1 ≤ |b| := Int.one_le_abs hb0
    exact_mod_cast this
  have hfb : (integerFound ((a : ℚ) / b)).natAbs < 2 ^ 63 ∧ -(10 ^ 18 + 1) ≤ integerFound ((a : ℚ) / b) ∧ integerFound ((a : ℚ) / b) ≤ 10 ^ 18 + 1 := by
    have h1 := Int.floor_le ((a : ℚ) / b)
    have h2 := Int.lt_floor_add_one ((a : ℚ) / b)
    have la' : |(a : ℚ)| < 10 ^ 18 := by exact_mod_cast la
    have hlt := lt_of_le_of_lt hqa la'
    rw [abs_lt] at hlt
    have a1 : ⌊(a : ℚ) / b⌋ < 10 ^ 18 := by
      have : (⌊(a : ℚ) / b⌋ : ℚ) < 10 ^ 18 := by linarith
      exact_mod_cast this
    have a2 : -10 ^ 18 - 1 < ⌊(a : ℚ) / b⌋ := by
      have : ((-10 ^ 18 - 1 : ℤ) : ℚ) < (⌊(a : ℚ) / b⌋ : ℚ) := by push_cast; linarith
      exact_mod_cast this
    unfold integerFound
    split <;> refine ⟨?_, ?_, ?_⟩ <;> omega
  obtain ⟨i, i1, i2, i3, i4, i5⟩ := intrInteger_found ebc trunc q.item q2 _ q6 q3 (by rw [hfound]; exact hfb.1)
  rw [hfound] at i5
  obtain ⟨d1, r1, e1, s1, m1⟩ := holds_read' ebc f1 w1 _ ha n1
  obtain ⟨d2, r2, e2, s2, m2⟩ := holds_read' ebc f2 w2 _ hb n2
  obtain ⟨d3, r3, e3, s3, m3⟩ := holds_read' ebc i.item i3 _ i5 (by rw [i4]; decide)
  obtain ⟨p1, p2⟩ := C06_mul_exact d3 d2 m3 m2
  have p2' := p2.mpr (by rw [s3, i4, s2]; omega)
  obtain ⟨t1, t2⟩ := C06_sub_exact d1 (d3.mul d2) m1 p2'
  have hval : (d1.sub (d3.mul d2)).toRat = ((a - b * integerFound ((a : ℚ) / b) : ℤ) : ℚ) := by
    rw [t1, p1, e1, e2, e3]; push_cast; ring
  have hm : (a - b * integerFound ((a : ℚ) / b)).natAbs < 2 ^ 63 := by
    rw [abs_lt] at lb
    by_cases hmiss : IntegerMiss ((a : ℚ) / b)
    · have : a - b * integerFound ((a : ℚ) / b) = m0 - b := by
        unfold integerFound; rw [if_pos hmiss, hm0]; ring
      rw [this]
      rcases lt_or_gt_of_ne hb0 with h | h
      · have := hsign.2 h; omega
      · have := hsign.1 h; omega
    · have : a - b * integerFound ((a : ℚ) / b) = m0 := by
        unfold integerFound; rw [if_neg hmiss, hm0]
      rw [this]
      rcases lt_or_gt_of_ne hb0 with h | h
      · have := hsign.2 h; omega
      · have := hsign.1 h; omega
  obtain ⟨z1, z2, z3, z4, z5⟩ := store_newBinary8 ebc trunc (d1.sub (d3.mul d2)) t2 18 0 (by omega)
    (a - b * integerFound ((a : ℚ) / b)) (by rw [hval, zpow_zero, mul_one]; exact isTrunc_int _) hm
  rw [zpow_zero, div_one] at z5
  refine ⟨storeItem ebc (d1.sub (d3.mul d2)) (newBinary 18 0 true 8) { binTrunc := trunc },
    a - b * integerFound ((a : ℚ) / b), ?_, z1, z5, ?_, ?_⟩
  · unfold intrMod
    rw [q1]; simp only
    rw [i1]; simp only
    rw [r1, r2, r3]
  · intro hmiss
    have e : integerFound ((a : ℚ) / b) = ⌊(a : ℚ) / b⌋ := by unfold integerFound; rw [if_neg hmiss]
    rw [e]
    rw [← hm0]
    exact ⟨rfl, hsign.1, hsign.2⟩
  · intro hmiss
    have e : integerFound ((a : ℚ) / b) = ⌊(a : ℚ) / b⌋ + 1 := by unfold integerFound; rw [if_pos hmiss]
    rw [e]

/-- Finding: FUNCTION MOD (-1, 20) is -1, not 19: the quotient -0.05 is in the class that INTEGER
gets wrong. -/
theorem C27_finding_mod : IntegerMiss (((-1 : ℤ) : ℚ) / (20 : ℤ)) ∧
    (-1 : ℤ) - 20 * (⌊((-1 : ℤ) : ℚ) / (20 : ℤ)⌋ + 1) = -1 := by
  have hf : ⌊((-1 : ℤ) : ℚ) / (20 : ℤ)⌋ = -1 := by
    rw [Int.floor_eq_iff]; norm_num
  refine ⟨⟨by norm_num, ?_, ?_⟩, by rw [hf]; norm_num⟩
  · intro n hn
    have h1 : (-1 : ℚ) = 20 * n := by push_cast at hn; linarith
    have h2 : (-1 : ℤ) = 20 * n := by exact_mod_cast h1
    omega
  · have : ⌈10 * (((-1 : ℤ) : ℚ) / (20 : ℤ))⌉ = 0 := by
      rw [Int.ceil_eq_iff]; norm_num
    rw [this]; exact dvd_zero _

/-- C27: REM of any two numbers: `x - y * (x/y truncated toward zero)`, exactly, in an item with
the larger of the two scales; it has the sign of `x` and is smaller in magnitude than `y`. -/
theorem C27_rem (ebc extra : Bool) (f1 f2 : Item) (w1 : WFItem f1) (w2 : WFItem f2) (x y : ℚ)
    (hx : Holds ebc f1 x) (hy : Holds ebc f2 y) (hy0 : y ≠ 0) (hq : |x / y| < 10 ^ 18)
    (hfit : |(x - y * truncQ (x / y)) * (10 : ℚ) ^ max f1.field.attr.scale f2.field.attr.scale| < 10 ^ 18)
    (n1 : -128 < f1.field.attr.scale ∧ f1.field.attr.scale ≤ 127)
    (n2 : -128 < f2.field.attr.scale ∧ f2.field.attr.scale ≤ 127)
    (hsc : f1.field.attr.scale - f2.field.attr.scale ≤ 90) :
    ∃ r, intrRem ebc true extra f1 f2 = some r ∧ r.raised = false ∧
      Holds ebc r.item (x - y * truncQ (x / y)) ∧
      |x - y * truncQ (x / y)| < |y| ∧ 0 ≤ (x - y * truncQ (x / y)) * x := by
  obtain ⟨q, s, v, q1, q2, q3, q4, q5, q6, q7⟩ := binop_div ebc true extra f1 f2 w1 w2 x y hx hy hy0 (by omega) (by omega) hsc
  obtain ⟨g1, g2⟩ := q7 hq
  obtain ⟨hfound, _⟩ := trunc_quotient _ s q4 v q5
  have hqv : |(v : ℚ) / (10 : ℚ) ^ s| < 10 ^ 18 := by
    have hp : (0 : ℚ) < 10 ^ s := by positivity
    rw [abs_div, abs_of_pos hp, div_lt_iff₀ hp]
    have := q5.1
    rw [abs_mul, abs_of_pos hp] at this
    exact lt_of_le_of_lt this (mul_lt_mul_of_pos_right hq hp)
  obtain ⟨i, i1, i2, i3, i4⟩ := C27_integer_part ebc q.item q2 _ q6 g1 g2 hqv
  rw [hfound] at i4
  obtain ⟨d1, r1, e1, s1, m1⟩ := holds_read' ebc f1 w1 _ hx (by omega)
  obtain ⟨d2, r2, e2, s2, m2⟩ := holds_read' ebc f2 w2 _ hy (by omega)
  obtain ⟨d3, r3, e3, s3, m3⟩ := holds_read' ebc i i2 _ i4 (by rw [i3]; decide)
  obtain ⟨p1, p2⟩ := C06_mul_exact d3 d2 m3 m2
  have p2' := p2.mpr (by rw [s3, i3, s2]; omega)
  obtain ⟨t1, t2⟩ := C06_sub_exact d1 (d3.mul d2) m1 p2'
  have hval : (d1.sub (d3.mul d2)).toRat = x - y * truncQ (x / y) := by
    rw [t1, p1, e1, e2, e3]; ring
  -- the difference is a whole number of units of the larger scale
  obtain ⟨u, hu⟩ : ∃ u : ℤ, (x - y * truncQ (x / y)) * (10 : ℚ) ^ max f1.field.attr.scale f2.field.attr.scale = u := by
    have hx' : ∃ a : ℤ, x = a / (10 : ℚ) ^ f1.field.attr.scale := ⟨d1.value, by rw [← e1, ← s1]; rfl⟩
    have hy' : ∃ a : ℤ, y = a / (10 : ℚ) ^ f2.field.attr.scale := ⟨d2.value, by rw [← e2, ← s2]; rfl⟩
    obtain ⟨a, ha⟩ := hx'
    obtain ⟨b, hb⟩ := hy'
    obtain ⟨k1, hk1⟩ : ∃ k : ℕ, max f1.field.attr.scale f2.field.attr.scale = f1.field.attr.scale + k :=
      ⟨(max f1.field.attr.scale f2.field.attr.scale - f1.field.attr.scale).toNat, by omega⟩
    obtain ⟨k2, hk2⟩ : ∃ k : ℕ, max f1.field.attr.scale f2.field.attr.scale = f2.field.attr.scale + k :=
      ⟨(max f1.field.attr.scale f2.field.attr.scale - f2.field.attr.scale).toNat, by omega⟩
    refine ⟨a * 10 ^ k1 - b * 10 ^ k2 * truncQ (x / y), ?_⟩
    have h1 : x * (10 : ℚ) ^ max f1.field.attr.scale f2.field.attr.scale = a * 10 ^ k1 := by
      rw [hk1, ha, zpow_add₀ (by norm_num), zpow_natCast]
      have : (10 : ℚ) ^ f1.field.attr.scale ≠ 0 := zpow_ne_zero _ (by norm_num)
      field_simp
    have h2 : y * (10 : ℚ) ^ max f1.field.attr.scale f2.field.attr.scale = b * 10 ^ k2 := by
      rw [hk2, hb, zpow_add₀ (by norm_num), zpow_natCast]
      have : (10 : ℚ) ^ f2.field.attr.scale ≠ 0 := zpow_ne_zero _ (by norm_num)
      field_simp
    calc (x - y * truncQ (x / y)) * (10 : ℚ) ^ max f1.field.attr.scale f2.field.attr.scale
        = x * (10 : ℚ) ^ max f1.field.attr.scale f2.field.attr.scale -
          (y * (10 : ℚ) ^ max f1.field.attr.scale f2.field.attr.scale) * truncQ (x / y) := by ring
      _ = _ := by rw [h1, h2]; push_cast; ring
  have hub : u.natAbs < 2 ^ 63 := by
    rw [hu] at hfit
    have : |u| < 10 ^ 18 := by exact_mod_cast hfit
    rw [abs_lt] at this
    omega
  obtain ⟨z1, z2, z3, z4, z5⟩ := store_newBinary8 ebc true (d1.sub (d3.mul d2)) t2 18 (max f1.field.attr.scale f2.field.attr.scale)
    (by omega) u (by rw [hval, hu]; exact isTrunc_int _) hub
  have hback : (u : ℚ) / (10 : ℚ) ^ max f1.field.attr.scale f2.field.attr.scale = x - y * truncQ (x / y) := by
    rw [← hu]
    have : (10 : ℚ) ^ max f1.field.attr.scale f2.field.attr.scale ≠ 0 := zpow_ne_zero _ (by norm_num)
    field_simp
  rw [hback] at z5
  refine ⟨_, ?_, z1, z5, ?_, ?_⟩
  · unfold intrRem
    rw [q1]; simp only
    rw [i1]; simp only
    rw [r1, r2, r3]
    simp only
    rw [show (if f2.field.attr.scale > f1.field.attr.scale then f2.field.attr.scale else f1.field.attr.scale) =
      max f1.field.attr.scale f2.field.attr.scale by split <;> omega]
  · have ht := isTrunc_truncQ (x / y)
    have e : x - y * truncQ (x / y) = y * (x / y - truncQ (x / y)) := by field_simp
    rw [e, abs_mul]
    have : |x / y - truncQ (x / y)| < 1 := by
      unfold truncQ
      split
      · rw [abs_lt]; have := Int.floor_le (x / y); have := Int.lt_floor_add_one (x / y); constructor <;> linarith
      · rw [abs_lt]; have := Int.le_ceil (x / y); have := Int.ceil_lt_add_one (x / y); constructor <;> linarith
    have hyp : 0 < |y| := abs_pos.mpr hy0
    nlinarith
  · have e : (x - y * truncQ (x / y)) * x = (y * y) * ((x / y - truncQ (x / y)) * (x / y)) := by field_simp
    rw [e]
    apply mul_nonneg (mul_self_nonneg y)
    unfold truncQ
    split
    · rename_i h
      exact mul_nonneg (by have := Int.floor_le (x / y); linarith) h
    · rename_i h
      exact mul_nonneg_of_nonpos_of_nonpos (by have := Int.le_ceil (x / y); linarith) (by linarith)

/-! non-vacuity: the zoned item S9(2)V9 with the bytes "01u" holds -1.5, which INTEGER gets right;
-7 and 2 meet the conditions of MOD and REM. -/
example : WFItem ⟨.display, ⟨{ digits := 3, scale := 1, haveSign := true }, [48, 49, 0x75]⟩⟩ ∧
    Holds false ⟨.display, ⟨{ digits := 3, scale := 1, haveSign := true }, [48, 49, 0x75]⟩⟩ (-3 / 2) ∧
    ¬ IntegerMiss (-3 / 2) := by
  refine ⟨⟨by decide, by decide⟩, ⟨-15, ⟨true, [0, 1, 5], by decide, by decide, by decide, by decide⟩, by norm_num⟩, ?_⟩
  rintro ⟨_, _, h⟩
  have : ⌈(10 : ℚ) * (-3 / 2)⌉ = -15 := by rw [Int.ceil_eq_iff]; norm_num
  rw [this] at h
  omega

example : ¬ IntegerMiss (((-7 : ℤ) : ℚ) / (2 : ℤ)) ∧ ⌊((-7 : ℤ) : ℚ) / (2 : ℤ)⌋ = -4 ∧ truncQ (((-7 : ℤ) : ℚ) / (2 : ℤ)) = -3 := by
  refine ⟨?_, by rw [Int.floor_eq_iff]; norm_num, ?_⟩
  · rintro ⟨_, _, h⟩
    have : ⌈(10 : ℚ) * (((-7 : ℤ) : ℚ) / (2 : ℤ))⌉ = -35 := by rw [Int.ceil_eq_iff]; norm_num
    rw [this] at h
    omega
  · unfold truncQ
    rw [if_neg (by norm_num), Int.ceil_eq_iff]; norm_num

example : (intrInteger false true ⟨.display, ⟨{ digits := 3, scale := 1, haveSign := true }, [48, 49, 0x75]⟩⟩).map
    (fun r => (readItem false r.item).1) = some (some ⟨-2, 0⟩) := by decide

end Cob
