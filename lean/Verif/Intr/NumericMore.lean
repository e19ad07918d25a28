import Verif.Intr.Numeric2
import Verif.Intr.SelectProps
import Mathlib.Data.Nat.Factorial.Basic
/-
C27 and C30, continued: FRACTION-PART, ABS, SIGN, FACTORIAL and MEAN.
-/
namespace Cob
open Dec

theorem truncQ_neg (x : ℚ) : truncQ (-x) = -truncQ x := by
  unfold truncQ
  rcases lt_trichotomy x 0 with h | h | h
  · rw [if_pos (by linarith), if_neg (by linarith), Int.floor_neg]
  · subst h; simp
  · rw [if_neg (by linarith), if_pos (by linarith), Int.ceil_neg]

theorem truncQ_fraction_nonneg (x : ℚ) (P : ℕ) (hP : 0 < P) (h : 0 ≤ x) :
    (truncQ (x * P)).tmod P = truncQ ((x - truncQ x) * P) := by
  have hp : (0 : ℚ) < P := by exact_mod_cast hP
  have h1 := Int.floor_le x
  have h2 := Int.lt_floor_add_one x
  have e1 : truncQ x = ⌊x⌋ := by rw [truncQ, if_pos h]
  have e2 : truncQ (x * P) = ⌊x * P⌋ := by rw [truncQ, if_pos (by positivity)]
  have hf : 0 ≤ (x - ⌊x⌋) * P := mul_nonneg (by linarith) hp.le
  have e3 : truncQ ((x - (⌊x⌋ : ℤ)) * P) = ⌊(x - (⌊x⌋ : ℤ)) * P⌋ := by rw [truncQ, if_pos hf]
  rw [e1, e2, e3]
  have e4 : ⌊(x - (⌊x⌋ : ℤ)) * P⌋ = ⌊x * P⌋ - ⌊x⌋ * P := by
    rw [sub_mul, ← Int.floor_sub_intCast]
    push_cast; rfl
  have h0 : 0 ≤ ⌊(x - (⌊x⌋ : ℤ)) * P⌋ := Int.floor_nonneg.mpr hf
  have hlt : ⌊(x - (⌊x⌋ : ℤ)) * P⌋ < P := by
    rw [Int.floor_lt]
    push_cast
    have : (x - (⌊x⌋ : ℤ)) < 1 := by linarith
    calc (x - (⌊x⌋ : ℤ)) * P < 1 * P := mul_lt_mul_of_pos_right this hp
      _ = P := one_mul _
  have hpos : 0 ≤ ⌊x * P⌋ := Int.floor_nonneg.mpr (by positivity)
  rw [Int.tmod_eq_emod_of_nonneg hpos]
  have : ⌊x * P⌋ = ⌊(x - (⌊x⌋ : ℤ)) * P⌋ + ⌊x⌋ * P := by omega
  rw [this, Int.add_mul_emod_self_right, Int.emod_eq_of_lt h0 hlt]

theorem truncQ_fraction (x : ℚ) (P : ℕ) (hP : 0 < P) :
    (truncQ (x * P)).tmod P = truncQ ((x - truncQ x) * P) := by
  by_cases h : 0 ≤ x
  · exact truncQ_fraction_nonneg x P hP h
  · have := truncQ_fraction_nonneg (-x) P hP (by linarith)
    rw [neg_mul, truncQ_neg, truncQ_neg, Int.neg_tmod] at this
    have e : (-x - ((-truncQ x : ℤ) : ℚ)) * P = -((x - truncQ x) * P) := by push_cast; ring
    rw [e, truncQ_neg] at this
    omega

/-- C27: FRACTION-PART of any numeric item that holds `x`, `|x| < 9`, is the part of `x` after the
decimal point, with the sign of `x`, cut off after 18 decimals. -/
theorem C27_fraction_part (ebc : Bool) (src : Item) (hw : WFItem src) (x : ℚ) (hx : Holds ebc src x)
    (hP : src.usage = .display → src.field.attr.digits = src.field.dsize)
    (hsc : src.field.attr.scale ≤ src.sent + 18) (hf : |x| < 9) :
    ∃ it, intrFractionPart ebc true src = .done it ∧ WFItem it ∧ it.field.attr.scale = 18 ∧
      Holds ebc it ((truncQ ((x - truncQ x) * 10 ^ 18) : ℚ) / 10 ^ 18) := by
  have hfld : (newBinary 18 18 true 8).field.attr.scale = 18 := by decide
  have hten : (10 : ℚ) ^ (18 : ℤ) = 10 ^ 18 := by norm_num
  have hlt : ∀ t, IsTrunc (x * 10 ^ 18) t → t.natAbs < 2 ^ 63 := by
    intro t ht
    have h1 := ht.1
    rw [abs_mul, abs_of_pos (show (0 : ℚ) < 10 ^ 18 by positivity)] at h1
    have : |(t : ℚ)| < 9 * 10 ^ 18 := by
      have : |x| * 10 ^ 18 < 9 * 10 ^ 18 := by
        exact mul_lt_mul_of_pos_right hf (by positivity)
      linarith
    have h2 : |t| < 9 * 10 ^ 18 := by exact_mod_cast this
    rw [abs_lt] at h2
    omega
  obtain ⟨it, u, h1, h2, h3, h4, h5, h6⟩ := C13_move ebc true src (newBinary 18 18 true 8) hw
    (wf_newBinary 18 18 true 8 (by omega) (by omega)) x hx hP (by
      intro _
      refine ⟨rfl, by unfold BinaryHasRoom; decide, by rw [hfld]; omega, ?_⟩
      intro t ht
      rw [hfld, hten] at ht
      exact hlt t ht)
  obtain ⟨t, ht, hu⟩ := h6
  rw [hfld, hten] at ht
  have hsame := isTrunc_unique _ _ _ ht (isTrunc_truncQ _)
  have hval : u = truncQ ((x - truncQ x) * 10 ^ 18) := by
    rw [if_pos (by decide)] at hu
    rw [hu, show (newBinary 18 18 true 8).positions = 18 by decide, hsame]
    have := truncQ_fraction x (10 ^ 18) (by positivity)
    push_cast at this
    exact this
  have hs0 : it.field.attr.scale = 18 := by rw [h3]; exact hfld
  refine ⟨it, h1, h4, hs0, u, h5, ?_⟩
  rw [hval, hs0, hten]

/-- Finding: FUNCTION FRACTION-PART (10.5) overflows the 64-bit accumulator of the move. -/
theorem C27_finding_fraction_overflow :
    intrFractionPart false true ⟨.display, ⟨{ digits := 3, scale := 1 }, [49, 48, 53]⟩⟩ = .overflow := by
  decide +kernel

/-- Finding: in a program compiled with `binary-truncate: no`, FUNCTION FRACTION-PART (2.5) is
2.5. -/
theorem C27_finding_fraction_no_truncate :
    (match intrFractionPart false false ⟨.display, ⟨{ digits := 2, scale := 1 }, [50, 53]⟩⟩ with
      | .done it => (readItem false it).1
      | _ => none) = some ⟨2500000000000000000, 18⟩ := by decide +kernel

/-- Finding: FUNCTION MOD (-1, 20), run on zoned items, is -1, not 19. -/
theorem C27_finding_mod_run :
    (intrMod false true false ⟨.display, ⟨{ digits := 1, haveSign := true }, [0x71]⟩⟩
      ⟨.display, ⟨{ digits := 2 }, [50, 48]⟩⟩).map (fun r => (readItem false r.item).1) =
      some (some ⟨-1, 0⟩) := by decide +kernel

/-! ### ABS -/

theorem wf_cleared (src : Item) (hw : WFItem src) :
    WFItem { src with field := { src.field with data := List.replicate src.field.data.length 0 } } := by
  obtain ⟨us, f⟩ := src
  cases us with
  | display => simpa [WFItem, WFDisplay] using hw
  | packed => simpa [WFItem, WFPacked] using hw
  | binary =>
    have : WFBinary f := hw
    refine ⟨by simpa using this.1, by simpa using this.2.1, ?_⟩
    intro b hb
    simp only [List.mem_replicate] at hb
    omega

/-- C27: ABS of any numeric item that holds `x` is an item of the same form that holds `|x|`; the
most negative number of a binary item is excluded. -/
theorem C27_abs (ebc trunc : Bool) (src : Item) (hw : WFItem src) (u : Int)
    (hu : HoldsUnits ebc src u) (hs : src.field.attr.scale ≠ -128)
    (hmin : src.usage = .binary → u ≠ -2 ^ (8 * src.field.data.length - 1)) :
    ∃ r, intrAbs ebc trunc src = some r ∧ r.raised = false ∧ WFItem r.item ∧
      r.item.usage = src.usage ∧ r.item.field.attr = src.field.attr ∧
      HoldsUnits ebc r.item |u| := by
  obtain ⟨d, h1, h2, h3, h4⟩ := holds_read' ebc src hw _ ⟨u, hu, rfl⟩ hs
  have hval : d.value = u := by
    unfold toRat at h2
    rw [h3] at h2
    have : (10 : ℚ) ^ src.field.attr.scale ≠ 0 := zpow_ne_zero _ (by norm_num)
    rw [div_left_inj' this] at h2
    exact_mod_cast h2
  set it : Item := { src with field := { src.field with data := List.replicate src.field.data.length 0 } } with hit
  have hnan : isNaN (⟨d.value.natAbs, d.scale⟩ : Dec) = false := by
    simpa [isNaN] using h4
  have habs : ((d.value.natAbs : ℕ) : ℤ) = |u| := by rw [hval]; exact Int.natCast_natAbs u
  have hwant : Wanted { binTrunc := trunc } it (toRat ⟨d.value.natAbs, d.scale⟩) |u| := by
    unfold Wanted
    simp only [Bool.false_eq_true, if_false]
    have : (10 : ℚ) ^ d.scale ≠ 0 := zpow_ne_zero _ (by norm_num)
    have e : toRat ⟨d.value.natAbs, d.scale⟩ * (10 : ℚ) ^ it.field.attr.scale = ((|u| : ℤ) : ℚ) := by
      show ((d.value.natAbs : ℤ) : ℚ) / (10 : ℚ) ^ d.scale * (10 : ℚ) ^ src.field.attr.scale = _
      rw [← h3, habs]; field_simp
    rw [e]; exact isTrunc_int _
  have hfit : Fits it { binTrunc := trunc } |u| := by
    refine ⟨Or.inr (abs_nonneg u), ?_⟩
    obtain ⟨us, f⟩ := src
    cases us with
    | display =>
      have := src_forms ebc ⟨.display, f⟩ hw u hu
      obtain ⟨neg, ds, g1, g2, g3, g4, g5⟩ := this
      have hlt := digitsVal_lt ds g3
      show (|u|).natAbs < 10 ^ it.field.dsize
      have hds : it.field.dsize = ds.length := by
        rw [← g4]; simp [hit, Field.dsize]
      rw [hds, Int.natAbs_abs, g5]
      split <;> simpa using hlt
    | packed =>
      obtain ⟨neg, n, g1, g2, g3⟩ := hu
      show (|u|).natAbs < 10 ^ f.attr.digits
      rw [Int.natAbs_abs, g3]
      split <;> simpa using g1
    | binary =>
      have hb : binaryHolds f u := hu
      have hmin := hmin rfl
      simp only at hmin
      have hwf : WFBinary f := hw
      have hby : (bytesVal f.attr.swap f.data : Nat) < 2 ^ (8 * f.data.length) := by
        rw [pow_mul]
        cases f.attr.swap with
        | false => rw [← leVal_eq]; exact leVal_lt f.data hwf.2.2
        | true =>
          rw [← leVal_reverse]
          have := leVal_lt f.data.reverse (by simpa using hwf.2.2)
          simpa using this
      refine ⟨?_, by unfold digitLimit; simp⟩
      show binFits it.field |u|
      unfold binFits
      simp only [hit, List.length_replicate]
      obtain ⟨m, hm⟩ : ∃ m, 8 * f.data.length = m + 1 := ⟨8 * f.data.length - 1, by have := hwf.1; omega⟩
      unfold binaryHolds at hb
      simp only [hm] at hb hby hmin ⊢
      simp only [Nat.add_sub_cancel] at hmin ⊢
      rw [Int.natAbs_abs]
      have hp : (2 : ℤ) ^ (m + 1) = 2 * 2 ^ m := by rw [pow_succ]; ring
      have hpn : (2 : ℕ) ^ (m + 1) = 2 * 2 ^ m := by rw [pow_succ]; ring
      have hcast : ((2 ^ m : ℕ) : ℤ) = 2 ^ m := by push_cast; rfl
      rw [hp] at hb
      rw [hpn] at hby
      generalize hP : (2 : ℕ) ^ m = P at *
      rw [← hcast] at hb hmin
      split
      · rename_i hsg
        rw [if_pos hsg] at hb
        split at hb <;> omega
      · rename_i hsg
        rw [if_neg hsg] at hb
        refine ⟨abs_nonneg u, ?_⟩
        rw [hpn]; omega
  obtain ⟨r1, r2, r3, r4, r5, r6⟩ := C05_store_any_item ebc _ hnan it (wf_cleared src hw) _ _ hwant hfit
  refine ⟨_, by unfold intrAbs; rw [h1], r1, r3, r4, r5, r6⟩

/-- Finding: FUNCTION ABS of a one-byte binary item holding -128 is -128 (the size error is
raised, the result item is overwritten all the same). -/
theorem C27_finding_abs_minimum :
    (intrAbs false true ⟨.binary, ⟨{ digits := 2, haveSign := true }, [128]⟩⟩).map
      (fun r => ((readItem false r.item).1, r.raised)) = some (some ⟨-128, 0⟩, true) := by
  decide +kernel

/-! ### SIGN -/

/-- C27: SIGN of any numeric item that holds `x` is -1, 0 or 1 as `x` is negative, zero or
positive. -/
theorem C27_sign (ebc : Bool) (src : Item) (hw : WFItem src) (x : ℚ) (hx : Holds ebc src x) :
    intrSign ebc src = some (if x < 0 then -1 else if 0 < x then 1 else 0) := by
  have hz : Holds ebc (newBinary 8 0 true 4) 0 := by
    refine ⟨0, ?_, by simp⟩
    show binaryHolds (newBinary 8 0 true 4).field 0
    unfold binaryHolds
    decide
  have := (C09_items ebc src (newBinary 8 0 true 4) hw (wf_newBinary 8 0 true 4 (by omega) (by omega)) x 0
    hx hz).1
  unfold intrSign
  rw [this]
  rcases lt_trichotomy x 0 with h | h | h
  · rw [compare_lt_iff_lt.2 h, if_pos h]
  · subst h; simp
  · rw [compare_gt_iff_gt.2 h, if_neg (by linarith), if_pos h]

/-! ### FACTORIAL -/

theorem facUi_eq (n : Nat) : facUi n = n.factorial := by
  induction n with
  | zero => rfl
  | succ n ih => rw [facUi, ih, Nat.factorial_succ]

/-- C27: FACTORIAL of `n` from 0 to 20 is `n!`, exactly; a negative argument raises the exception
and gives 0. -/
theorem C27_factorial (ebc trunc : Bool) (n : Int) :
    (0 ≤ n → n ≤ 20 → (intrFactorial ebc trunc n).raised = false ∧
      Holds ebc (intrFactorial ebc trunc n).item ((n.toNat.factorial : ℕ) : ℚ)) ∧
    (n < 0 → (intrFactorial ebc trunc n).raised = true ∧
      Holds ebc (intrFactorial ebc trunc n).item 0) := by
  have key : ∀ (v : Nat) (opt : StoreOpt), opt.round = false → opt.keep = false → opt.trunc = false →
      v < 2 ^ 64 →
      (storeItem ebc ⟨v, 0⟩ (newBinary 18 0 false 8) opt).raised = false ∧
      Holds ebc (storeItem ebc ⟨v, 0⟩ (newBinary 18 0 false 8) opt).item (v : ℚ) := by
    intro v opt o1 o2 o3 hv
    have hsc : (newBinary 18 0 false 8).field.attr.scale = 0 := by decide
    obtain ⟨h1, h2, h3, h4, h5, h6⟩ := C05_store_any_item ebc ⟨v, 0⟩ (by simp [isNaN, nanScale]) (newBinary 18 0 false 8)
      (wf_newBinary 18 0 false 8 (by omega) (by omega)) opt v (by
        unfold Wanted
        rw [o1, hsc]
        simp only [Bool.false_eq_true, if_false]
        have : toRat ⟨v, 0⟩ * (10 : ℚ) ^ (0 : ℤ) = ((v : ℤ) : ℚ) := by simp [toRat]
        rw [this]; exact isTrunc_int _)
      ⟨Or.inr (by omega), by
        refine ⟨?_, by unfold digitLimit; simp [o1, o2, o3]⟩
        simpa [binFits, newBinary] using hv⟩
    refine ⟨h1, v, h6, ?_⟩
    rw [h5, hsc]; simp
  refine ⟨fun h0 h20 => ?_, fun hneg => ?_⟩
  · have hle : n.toNat.factorial < 2 ^ 64 := by
      have : n.toNat.factorial ≤ Nat.factorial 20 := Nat.factorial_le (by omega)
      have h : Nat.factorial 20 < 2 ^ 64 := by decide
      omega
    have := key n.toNat.factorial { binTrunc := trunc } rfl rfl rfl hle
    unfold intrFactorial
    rw [if_neg (by omega), facUi_eq]
    exact this
  · have := key 0 {} rfl rfl rfl (by norm_num)
    unfold intrFactorial
    rw [if_pos hneg]
    exact ⟨rfl, by simpa using this.2⟩

/-- Finding: FUNCTION FACTORIAL (21) is the low 64 bits of 21!, which is less than 20! times 6. -/
theorem C27_finding_factorial :
    (fun r : ItemRes => (readItem false r.item).1) (intrFactorial false true 21) =
      some ⟨14197454024290336768, 0⟩ ∧ Nat.factorial 21 = 51090942171709440000 := by
  refine ⟨by decide +kernel, by decide +kernel⟩

/-! ### MEAN -/

theorem countDigits_spec (n : Int) : ∀ fuel : Nat, n.natAbs < 10 ^ fuel →
    n.natAbs < 10 ^ countDigits fuel n ∧ ∀ k, n.natAbs < 10 ^ k → countDigits fuel n ≤ k := by
  intro fuel
  induction fuel generalizing n with
  | zero => intro h; simp at h; subst h; simp [countDigits]
  | succ f ih =>
    intro h
    simp only [countDigits]
    by_cases h0 : n = 0
    · subst h0; simp
    · rw [if_neg h0]
      have hd : (n.tdiv 10).natAbs = n.natAbs / 10 := by rw [Int.natAbs_tdiv]; rfl
      obtain ⟨h1, h2⟩ := ih (n.tdiv 10) (by rw [hd]; rw [pow_succ] at h; omega)
      rw [hd] at h1
      refine ⟨by rw [pow_succ]; omega, ?_⟩
      intro k hk
      cases k with
      | zero => simp at hk; omega
      | succ k =>
        have := h2 k (by rw [hd]; rw [pow_succ] at hk; omega)
        omega

/-- The number of digits of the whole part of `x`; 0 when it is 0. -/
def wholeDigits (x : ℚ) : Nat := countDigits 20 (truncQ x)

theorem wholeDigits_spec (x : ℚ) (h : |x| < 10 ^ 18) :
    wholeDigits x ≤ 18 ∧ |x| < 10 ^ wholeDigits x ∧
      ∀ k, |x| < 10 ^ k → wholeDigits x ≤ k := by
  have ht := isTrunc_truncQ x
  have hcast : ((truncQ x).natAbs : ℚ) = |(truncQ x : ℚ)| := by
    rw [Nat.cast_natAbs]; push_cast; rfl
  have hiff : ∀ k : Nat, (truncQ x).natAbs < 10 ^ k ↔ |x| < 10 ^ k := by
    intro k
    constructor
    · intro hk
      have : (truncQ x).natAbs + 1 ≤ 10 ^ k := hk
      have : ((truncQ x).natAbs : ℚ) + 1 ≤ 10 ^ k := by exact_mod_cast this
      rw [hcast] at this
      linarith [ht.2.1]
    · intro hk
      have : ((truncQ x).natAbs : ℚ) < 10 ^ k := by rw [hcast]; linarith [ht.1]
      exact_mod_cast this
  obtain ⟨h1, h2⟩ := countDigits_spec (truncQ x) 20 ((hiff 20).2 (by
    calc |x| < 10 ^ 18 := h
      _ ≤ 10 ^ 20 := by norm_num))
  exact ⟨h2 18 ((hiff 18).2 h), (hiff _).1 h1, fun k hk => h2 k ((hiff k).2 hk)⟩

/-- C30: MEAN of one or more numeric items holding `xs`, when it is below 10^18 in magnitude, is the
exact average with 18 digits, cut off there: `18 - s` is the number of digits its whole part has,
and `s` decimals are kept. -/
theorem C30_mean (ebc trunc : Bool) (args : List Item) (xs : List ℚ) (hne : args ≠ [])
    (h : List.Forall₂ (fun it x => WFItem it ∧ Holds ebc it x ∧ -128 < it.field.attr.scale ∧ it.field.attr.scale ≤ 127) args xs)
    (hlt : |xs.sum / xs.length| < 10 ^ 18) :
    ∃ r s, intrMean ebc trunc args = some r ∧ r.raised = false ∧
      s ≤ 18 ∧ |xs.sum / xs.length| < 10 ^ (18 - s) ∧
      (∀ k, |xs.sum / xs.length| < 10 ^ k → 18 - s ≤ k) ∧
      Holds ebc r.item ((truncQ (xs.sum / xs.length * 10 ^ s) : ℚ) / 10 ^ s) := by
  obtain ⟨sc, d, h1, h2, h3, h4, h5, h6⟩ := sumLoop_spec ebc args xs 0 ⟨0, 0⟩ (by decide) rfl (by omega) (by omega) h
  have hz : Dec.toRat ⟨0, 0⟩ = 0 := by simp [toRat]
  rw [hz, zero_add] at h6
  have hlen : args.length = xs.length := h.length_eq
  have hpos : 0 < args.length := List.length_pos_iff.2 hne
  have hcount : toRat ⟨args.length, 0⟩ = xs.length := by simp [toRat, hlen]
  have hc0 : toRat ⟨args.length, 0⟩ ≠ 0 := by
    rw [hcount, ← hlen]; exact_mod_cast hpos.ne'
  set m := xs.sum / xs.length with hm
  set q := (d.div ⟨args.length, 0⟩).1 with hq
  have hnan2 : isNaN (⟨args.length, 0⟩ : Dec) = false := by simp [isNaN, nanScale]
  -- the quotient, at any number of decimals up to 36
  have hqs : q.isNaN = false ∧ ∀ s : ℕ, s ≤ 18 → truncQ (q.toRat * 10 ^ s) = truncQ (m * 10 ^ s) := by
    by_cases hd0 : d.toRat = 0
    · have hv : d.value = 0 := (toRat_zero_iff d).1 hd0
      have hne0 : ¬ ((args.length : Int) = 0) := by omega
      have hq0 : q = ⟨0, 0⟩ := by simp only [hq, div, h2, hnan2, hv, hne0, Bool.or_self, Bool.false_eq_true, if_false, if_true]
      rw [hq0]
      refine ⟨by decide, fun s _ => ?_⟩
      rw [hz, hm, ← h6, hd0]; simp
    · obtain ⟨-, c2, c3, -, c5⟩ := C07_div_truncated d ⟨args.length, 0⟩ h2 hnan2 hc0 hd0
      refine ⟨c2, fun s hs => ?_⟩
      rw [← hq] at c3 c5
      rw [h6, hcount, ← hm] at c5
      obtain ⟨k, hk⟩ : ∃ k : ℕ, q.scale = (s : ℤ) + k := ⟨(q.scale - s).toNat, by omega⟩
      have hP : (0 : ℚ) < 10 ^ k := by positivity
      have hS : (0 : ℚ) < 10 ^ s := by positivity
      have e1 : (10 : ℚ) ^ q.scale = 10 ^ s * 10 ^ k := by
        rw [hk, zpow_add₀ (by norm_num), zpow_natCast, zpow_natCast]
      rw [e1] at c5
      have e2 : q.toRat * 10 ^ s = (q.value : ℚ) / (10 ^ k : ℕ) := by
        unfold toRat
        rw [e1]; push_cast; field_simp
      have h2 := isTrunc_nest (m * (10 ^ s * 10 ^ k)) (10 ^ k) (by positivity) q.value _ c5
        (isTrunc_truncQ _)
      rw [e2]
      have e3 : m * (10 ^ s * 10 ^ k) / ((10 ^ k : ℕ) : ℚ) = m * 10 ^ s := by
        push_cast; field_simp
      rw [e3] at h2
      exact isTrunc_unique _ _ _ h2 (isTrunc_truncQ _)
  obtain ⟨hqn, hqt⟩ := hqs
  obtain ⟨w1, w2, w3⟩ := wholeDigits_spec m hlt
  have hsmall : ∀ s : ℕ, s ≤ 18 → s + wholeDigits m ≤ 18 → (truncQ (m * 10 ^ s)).natAbs < 2 ^ 63 := by
    intro s hs hsw
    have ht := (isTrunc_truncQ (m * 10 ^ s)).1
    rw [abs_mul, abs_of_pos (show (0 : ℚ) < 10 ^ s by positivity)] at ht
    have h1 : |m| * 10 ^ s < 10 ^ wholeDigits m * 10 ^ s :=
      mul_lt_mul_of_pos_right w2 (by positivity)
    rw [← pow_add] at h1
    have h2 : (10 : ℚ) ^ (wholeDigits m + s) ≤ 10 ^ 18 := pow_le_pow_right₀ (by norm_num) (by omega)
    have h3 : |((truncQ (m * 10 ^ s) : ℤ) : ℚ)| < 10 ^ 18 := by linarith
    have h4 : |truncQ (m * 10 ^ s)| < 10 ^ 18 := by exact_mod_cast h3
    rw [abs_lt] at h4
    omega
  have hstore : ∀ s : ℕ, s ≤ 18 → s + wholeDigits m ≤ 18 →
      let r := storeItem ebc q (newBinary 18 s true 8) { binTrunc := trunc }
      r.raised = false ∧ WFItem r.item ∧ r.item.usage = .binary ∧ r.item.field.attr.scale = s ∧
        Holds ebc r.item ((truncQ (m * 10 ^ s) : ℚ) / 10 ^ s) := by
    intro s hs hsw
    have := store_newBinary8 ebc trunc q hqn 18 s (by omega) (truncQ (m * 10 ^ s))
      (by rw [zpow_natCast, ← hqt s hs]; exact isTrunc_truncQ _) (hsmall s hs hsw)
    simpa only [zpow_natCast] using this
  obtain ⟨a1, a2, a3, a4, a5⟩ := hstore 0 (by omega) (by omega)
  obtain ⟨n, n1, n2, n3, -⟩ := holds_read' ebc _ a2 _ a5 (by rw [a4]; decide)
  have hn : n.value = truncQ m := by
    unfold toRat at n2
    rw [n3, a4] at n2
    simp only [Nat.cast_zero, zpow_zero, div_one, pow_zero, mul_one] at n2
    exact_mod_cast n2
  obtain ⟨s, hs⟩ : ∃ s, s + wholeDigits m = 18 := ⟨18 - wholeDigits m, by omega⟩
  obtain ⟨b1, b2, b3, b4, b5⟩ := hstore s (by omega) (by omega)
  have hw18 : 18 - s = wholeDigits m := by omega
  refine ⟨_, s, ?_, b1, by omega, by rw [hw18]; exact w2, by rw [hw18]; exact w3, b5⟩
  unfold intrMean
  rw [h1]
  simp only
  rw [← hq]
  simp only [Nat.cast_zero] at n1
  rw [n1]
  simp only
  have hcd : countDigits 20 n.value = wholeDigits m := by rw [hn, wholeDigits]
  rw [hcd, if_pos w1]
  have : (18 : ℤ) - wholeDigits m = s := by omega
  rw [this]

/-! non-vacuity -/
example : WFItem ⟨.display, ⟨{ digits := 2, scale := 1 }, [50, 53]⟩⟩ ∧
    Holds false ⟨.display, ⟨{ digits := 2, scale := 1 }, [50, 53]⟩⟩ (5 / 2) :=
  ⟨by unfold WFItem WFDisplay; decide, 25, ⟨false, [2, 5], by decide, by decide, by decide, by decide⟩, by norm_num⟩
example : (match intrFractionPart false true ⟨.display, ⟨{ digits := 2, scale := 1 }, [50, 53]⟩⟩ with
    | .done it => (readItem false it).1
    | _ => none) = some ⟨500000000000000000, 18⟩ := by decide +kernel
example : (intrMean false true [⟨.display, ⟨{ digits := 1 }, [49]⟩⟩, ⟨.display, ⟨{ digits := 1 }, [50]⟩⟩,
    ⟨.display, ⟨{ digits := 1 }, [50]⟩⟩]).map (fun r => (readItem false r.item).1) =
    some (some ⟨166666666666666666, 17⟩) := by decide +kernel
example : wholeDigits (5 / 3) = 1 := by
  unfold wholeDigits truncQ
  rw [if_pos (by norm_num), show ⌊(5 / 3 : ℚ)⌋ = 1 by rw [Int.floor_eq_iff]; norm_num]
  decide
example : intrSign false ⟨.display, ⟨{ digits := 1, haveSign := true }, [0x71]⟩⟩ = some (-1) := by decide +kernel
example : (fun r : ItemRes => (readItem false r.item).1) (intrFactorial false true 20) =
    some ⟨2432902008176640000, 0⟩ := by decide +kernel

end Cob
