import Verif.Num.FastPathProps
/-
Property C49: the comparison of numeric items as cobc compiles it.
-/
namespace Cob

/-! ### zoned items -/

theorem foldDigits (ds : List Nat) (acc : Int) :
    (ds.map (48 + ·)).foldl (fun (v : Int) (b : Nat) => v * 10 + ((b : Int) - 48)) acc =
      acc * 10 ^ ds.length + digitsVal ds := by
  induction ds generalizing acc with
  | nil => simp [digitsVal]
  | cons d t ih =>
    rw [List.map_cons, List.foldl_cons, ih]
    simp only [digitsVal, List.length_cons, pow_succ]
    push_cast
    ring

theorem getNumdisp_digits (ds : List Nat) (hd : ∀ d ∈ ds, d ≤ 9) :
    getNumdisp (ds.map (48 + ·)) = digitsVal ds := by
  have : ∀ acc : Int, (ds.map (48 + ·)).foldl
      (fun (v : Int) (b : Nat) => v * 10 + (if b > 57 then 10 else (b : Int) - 48)) acc =
      (ds.map (48 + ·)).foldl (fun (v : Int) (b : Nat) => v * 10 + ((b : Int) - 48)) acc := by
    induction ds with
    | nil => intro acc; rfl
    | cons d t ih =>
      intro acc
      have := hd d (by simp)
      simp only [List.map_cons, List.foldl_cons]
      rw [if_neg (by omega)]
      exact ih (fun x hx => hd x (by simp [hx])) _
  unfold getNumdisp
  rw [this, foldDigits]; simp

theorem signDigit (ebc neg : Bool) (d : Nat) (hd : d ≤ 9) (hi : Int) :
    (if 48 ≤ overpunch ebc neg d ∧ overpunch ebc neg d ≤ 57 then hi * 10 + ((overpunch ebc neg d : Int) - 48)
    else if ebc = true then
      if (ebcdicSignDigit (overpunch ebc neg d)).2 = true then
        -(hi * 10 + (ebcdicSignDigit (overpunch ebc neg d)).1)
      else hi * 10 + (ebcdicSignDigit (overpunch ebc neg d)).1
    else -(hi * 10 + ((overpunch ebc neg d : Int) - 112))) = if neg then -(hi * 10 + d) else hi * 10 + d := by
  have : d = 0 ∨ d = 1 ∨ d = 2 ∨ d = 3 ∨ d = 4 ∨ d = 5 ∨ d = 6 ∨ d = 7 ∨ d = 8 ∨ d = 9 := by omega
  cases ebc <;> cases neg <;>
    rcases this with rfl | rfl | rfl | rfl | rfl | rfl | rfl | rfl | rfl | rfl <;>
    simp [overpunch, ebcdicSignDigit]

/-- C49 (signed zoned items, sign overpunched in the last character): the specialised comparison
gives the relation between the number the item holds and the integer, in both sign conventions. -/
theorem C49_signed_display (ebc : Bool) (f : Field) (hs : f.attr.haveSign = true)
    (hsep : f.attr.separate = false) (hl : f.attr.leading = false) (u : Int)
    (hu : HoldsUnits ebc ⟨.display, f⟩ u) (n : Int) :
    cmpSignNumdisp ebc f.data n = compare u n := by
  obtain ⟨neg, ds, hd, hne, h9, hu⟩ := hu
  simp only at hd hu
  obtain ⟨pre, d, rfl⟩ : ∃ pre d, ds = pre ++ [d] := ⟨_, _, (List.dropLast_append_getLast hne).symm⟩
  have hd9 : d ≤ 9 := h9 d (by simp)
  have hdata : f.data = pre.map (48 + ·) ++ [overpunch ebc neg d] := by
    rw [hd]; simp [zonedImage, hs, hsep, hl]
  unfold cmpSignNumdisp
  rw [hdata]
  simp only [List.dropLast_concat, List.getLastD_concat]
  rw [foldDigits, signDigit ebc neg d hd9]
  have : (if neg = true then -((0 * 10 ^ pre.length + (digitsVal pre : Int)) * 10 + (d : Int))
      else (0 * 10 ^ pre.length + (digitsVal pre : Int)) * 10 + d) = u := by
    rw [hu, hs, digitsVal_append]
    simp only [digitsVal, List.length_cons, List.length_nil, Bool.true_and]
    cases neg <;> simp
  rw [this]
  exact cmp3 u n

theorem byteCmp_digits (a b : List Nat) (ha : ∀ d ∈ a, d ≤ 9) (hb : ∀ d ∈ b, d ≤ 9)
    (hl : a.length = b.length) :
    byteCmp (a.map (48 + ·)) (b.map (48 + ·)) = compare (digitsVal a) (digitsVal b) := by
  induction a generalizing b with
  | nil =>
    cases b with
    | nil => simp [byteCmp, digitsVal]
    | cons _ _ => simp at hl
  | cons x a ih =>
    cases b with
    | nil => simp at hl
    | cons y b =>
      simp only [List.length_cons, Nat.add_right_cancel_iff] at hl
      have hx := ha x (by simp)
      have hy := hb y (by simp)
      have la : digitsVal a < 10 ^ b.length := by
        rw [← hl, ← strVal_map]
        have := strVal_lt (a.map (48 + ·)) (by
          intro c hc
          simp only [List.mem_map] at hc
          obtain ⟨d, hd, rfl⟩ := hc
          have := ha d (by simp [hd]); omega)
        simpa using this
      have lb : digitsVal b < 10 ^ b.length := by
        rw [← strVal_map]
        have := strVal_lt (b.map (48 + ·)) (by
          intro c hc
          simp only [List.mem_map] at hc
          obtain ⟨d, hd, rfl⟩ := hc
          have := hb d (by simp [hd]); omega)
        simpa using this
      simp only [List.map_cons, byteCmp, digitsVal]
      by_cases h : 48 + x = 48 + y
      · rw [if_pos h, ih b (fun d hd => ha d (by simp [hd])) (fun d hd => hb d (by simp [hd])) hl]
        have : x = y := by omega
        subst this
        rw [hl]
        rcases lt_trichotomy (digitsVal a) (digitsVal b) with h1 | h1 | h1
        · rw [compare_lt_iff_lt.mpr h1]; symm; rw [compare_lt_iff_lt]; omega
        · rw [h1]; simp
        · rw [compare_gt_iff_gt.mpr h1]; symm; rw [compare_gt_iff_gt]; omega
      · rw [if_neg h, hl]
        rcases lt_trichotomy x y with h1 | h1 | h1
        · rw [compare_lt_iff_lt.mpr (by omega : 48 + x < 48 + y)]; symm; rw [compare_lt_iff_lt]
          have : (x + 1) * 10 ^ b.length ≤ y * 10 ^ b.length := Nat.mul_le_mul_right _ h1
          rw [Nat.add_mul] at this
          omega
        · omega
        · rw [compare_gt_iff_gt.mpr (by omega : 48 + x > 48 + y)]; symm; rw [compare_gt_iff_gt]
          have : (y + 1) * 10 ^ b.length ≤ x * 10 ^ b.length := Nat.mul_le_mul_right _ h1
          rw [Nat.add_mul] at this
          omega

/-! ### operands -/

/-- The operand stands for the number `y`. -/
def OperandHolds (ebc : Bool) : Operand → ℚ → Prop
  | .lit n, y => y = n
  | .item it, y => WFItem it ∧ Holds ebc it y

theorem toCInt_id (z : Int) (h1 : -2147483648 ≤ z) (h2 : z < 2147483648) : toCInt z = z := by
  unfold toCInt; rw [Int.emod_eq_of_lt (by omega) (by omega)]; omega

theorem displayGetInt_units (ebc : Bool) (f : Field) (hw : WFDisplay f) (u : Int)
    (hu : HoldsUnits ebc ⟨.display, f⟩ u) (hsc : f.attr.scale ≤ 0)
    (hfit : f.attr.scale < 0 → (u * 10 ^ (-f.attr.scale).toNat).natAbs < 2147483648) :
    displayGetInt ebc f = u * 10 ^ (-f.attr.scale).toNat := by
  obtain ⟨neg, ds, hd, hne, h9, hu⟩ := hu
  simp only at hd hu
  obtain ⟨a, data⟩ := f
  simp only at hd hu hsc hfit
  subst hd
  obtain ⟨i1, i2, -, -, -, -⟩ := image_getSign ebc a neg ds hw.1 hne h9
  unfold displayGetInt
  simp only [i1, i2]
  have hsign : (if a.haveSign = true then if neg = true then (-1 : Int) else 1 else 0) < 0 ↔
      (a.haveSign && neg) = true := by
    cases a.haveSign <;> cases neg <;> simp
  have hval : (if a.scale < 0 then
      toCInt ((ds.map (48 + ·)).foldl (fun (v : Int) (b : Nat) => v * 10 + ((b : Int) - 48)) 0 * 10 ^ (-a.scale).toNat)
      else ((ds.map (48 + ·)).take ((ds.map (48 + ·)).length - a.scale.toNat)).foldl
        (fun (v : Int) (b : Nat) => v * 10 + ((b : Int) - 48)) 0) = (digitsVal ds : Int) * 10 ^ (-a.scale).toNat := by
    by_cases h0 : a.scale < 0
    · rw [if_pos h0, foldDigits, toCInt_id]
      · simp
      · have : (0 : Int) ≤ (digitsVal ds : Int) * 10 ^ (-a.scale).toNat := by positivity
        simp only [Int.zero_mul, zero_add]; omega
      · have := hfit h0
        rw [hu] at this
        simp only [Int.zero_mul, zero_add]
        split at this
        · rw [Int.neg_mul, Int.natAbs_neg] at this; omega
        · omega
    · have hz : a.scale = 0 := by omega
      rw [if_neg h0, hz]
      simp only [Int.toNat_zero, Nat.sub_zero, List.take_length]
      rw [foldDigits]; simp
  rw [hval, hu]
  by_cases hc : (a.haveSign && neg) = true
  · rw [if_pos (hsign.mpr hc), if_pos hc]; ring
  · rw [if_neg (fun h => hc (hsign.mp h)), if_neg hc]

/-- Which items the compiler can read correctly as a C integer among those `cb_fits_int` accepts:
no scaling, or a zoned item whose value fits. -/
def ReadableInt : Operand → ℚ → Prop
  | .lit _, _ => True
  | .item it, y => it.field.attr.scale = 0 ∨ (it.usage = .display ∧ |y| < 2147483648)

/-- The right operands compared correctly: no `P` in the PICTURE; or a zoned item within the range of an `int`; or an item
too wide to be read as an `int`. -/
def RightOk : Operand → ℚ → Prop
  | .lit _, _ => True
  | .item it, y =>
    it.field.attr.scale < 0 →
      match it.usage with
      | .display => |y| < 2147483648 ∨ 10 ≤ it.field.data.length
      | .binary => 4 < it.field.data.length
      | .packed => 10 ≤ it.field.attr.digits

theorem rightOk_readable (y : Operand) (Y : ℚ) (h : RightOk y Y) (hf : fitsInt y = true) : ReadableInt y Y := by
  cases y with
  | lit n => trivial
  | item it =>
    unfold RightOk at h
    unfold fitsInt at hf
    unfold ReadableInt
    simp only at h hf ⊢
    cases hu : it.usage <;> simp only [hu, decide_eq_true_eq] at h hf ⊢
    all_goals
      rcases lt_trichotomy it.field.attr.scale 0 with hs | hs | hs
      · have := h hs
        first
        | (rcases this with this | this
           · exact Or.inr ⟨trivial, this⟩
           · omega)
        | omega
      · exact Or.inl hs
      · omega

/-- The C integer expression emitted for an operand that `cb_fits_int` accepts is its value. -/
theorem operandInt_value (ebc : Bool) (y : Operand) (Y : ℚ) (hf : fitsInt y = true)
    (hy : OperandHolds ebc y Y) (hr : ReadableInt y Y) :
    (operandInt ebc y : ℚ) = Y ∧
    (isUnsignedBinary y = true → 0 ≤ operandInt ebc y ∧ operandInt ebc y < 4294967296) ∧
    (isUnsignedBinary y = false → -2147483648 ≤ operandInt ebc y ∧ operandInt ebc y < 2147483648) := by
  cases y with
  | lit n =>
    simp only [fitsInt, decide_eq_true_eq] at hf
    refine ⟨hy.symm, by simp [isUnsignedBinary], fun _ => ?_⟩
    simp only [operandInt]
    have : (10 : Nat) ^ 9 = 1000000000 := by norm_num
    omega
  | item it =>
    obtain ⟨hw, u, hu, hY⟩ := hy
    obtain ⟨us, f⟩ := it
    simp only [ReadableInt, fitsInt, operandInt, isUnsignedBinary] at *
    cases us with
    | binary =>
      simp only [decide_eq_true_eq] at hf
      have hsc : f.attr.scale = 0 := by
        rcases hr with h | h
        · exact h
        · exact absurd h.1 (by simp)
      have hY' : Y = u := by rw [hY, hsc]; simp
      have hwb : WFBinary f := hw
      have hub : binaryHolds f u := hu
      have hval : outputInteger ebc ⟨.binary, f⟩ = u := by
        unfold outputInteger
        simp only
        have e1 := binaryHolds_unique f _ _ (cmpLoad_holds f hwb) hub
        split
        · exact e1
        · rename_i hne
          have h3 : f.data.length = 3 := by have := hwb.1; omega
          have e2 : decSetBinary f = ⟨u, f.attr.scale⟩ := (C03_load f hwb u).mpr hub
          have hlt := bytesVal_lt f.attr.swap f.data hwb.2.2
          have hrange : -8388608 ≤ u ∧ u < 16777216 := by
            unfold binaryHolds at hub
            rw [h3] at hlt hub
            norm_num at hlt hub
            split_ifs at hub <;> omega
          cases hs : f.attr.haveSign
          · simp only [Bool.false_eq_true, if_false, getInt]
            have hnn := binaryHolds_nonneg f u hub hs
            have e3 : binGetInt64 f = u := by
              have e4 : (binGetUint64 f : Int) = u := by
                simp only [decSetBinary, hs, Bool.false_eq_true, if_false, Dec.mk.injEq] at e2
                exact e2.1
              have e5 : binGetInt64 f = toInt64 (binGetUint64 f) := by
                unfold binGetInt64 binGetUint64
                simp only [hs, Bool.false_eq_true, if_false]
                split <;> rfl
              rw [e5]
              unfold toInt64
              have : binGetUint64 f < 16777216 := by omega
              rw [Nat.mod_eq_of_lt (by omega), if_pos (by omega)]
              exact e4
            rw [e3, toCInt_id _ (by omega) (by omega), Int.emod_eq_of_lt hnn (by omega)]
          · simp only [if_true, getInt]
            have e3 : binGetInt64 f = u := by
              simp only [decSetBinary, hs, if_true, Dec.mk.injEq] at e2
              exact e2.1
            rw [e3, toCInt_id _ (by omega) (by omega)]
      rw [hval]
      refine ⟨hY'.symm, ?_, ?_⟩
      · intro hub'
        have hs : f.attr.haveSign = false := by simpa using hub'
        refine ⟨binaryHolds_nonneg f u hub hs, ?_⟩
        have hlt := bytesVal_lt f.attr.swap f.data hwb.2.2
        have hp : (2 : Nat) ^ (8 * f.data.length) ≤ 2 ^ 32 := Nat.pow_le_pow_right (by norm_num) (by omega)
        unfold binaryHolds at hub
        simp only [hs, Bool.false_eq_true, if_false] at hub
        norm_num at hp
        omega
      · intro hub'
        have hs : f.attr.haveSign = true := by simpa using hub'
        have hlt := bytesVal_lt f.attr.swap f.data hwb.2.2
        have hl : f.data.length = 1 ∨ f.data.length = 2 ∨ f.data.length = 3 ∨ f.data.length = 4 := by
          have := hwb.1; omega
        unfold binaryHolds at hub
        simp only [hs, if_true] at hub
        rcases hl with hl | hl | hl | hl <;> rw [hl] at hub hlt <;> norm_num at hub hlt <;>
          split_ifs at hub <;> omega
    | packed =>
      simp only [decide_eq_true_eq] at hf
      have hsc : f.attr.scale = 0 := by
        rcases hr with h | h
        · exact h
        · exact absurd h.1 (by simp)
      have hY' : Y = u := by rw [hY, hsc]; simp
      have hwp : WFPacked f := hw
      obtain ⟨neg, m, hm, hd, hu⟩ := hu
      simp only at hm hd hu
      have hval : outputInteger ebc ⟨.packed, f⟩ = u := by
        unfold outputInteger
        simp only
        rw [if_pos ⟨hsc, hf.2⟩, hd, getPackedInt_image _ _ _ hwp.1
          (by unfold signNibble; split <;> [skip; split] <;> omega) hm, hu]
        unfold signNibble
        cases f.attr.haveSign <;> cases neg <;> simp
      rw [hval]
      have hm9 : m < 1000000000 := lt_of_lt_of_le hm (by
        calc 10 ^ f.attr.digits ≤ 10 ^ 9 := Nat.pow_le_pow_right (by norm_num) (by omega)
          _ = 1000000000 := by norm_num)
      refine ⟨hY'.symm, by simp, fun _ => ?_⟩
      rw [hu]; split <;> omega
    | display =>
      simp only [decide_eq_true_eq] at hf
      have hwd : WFDisplay f := hw
      have hu' := hu
      obtain ⟨neg, ds, hd, hne, h9, hu⟩ := hu
      simp only at hd hu
      have hpow : (10 : ℚ) ^ f.attr.scale = ((10 : ℚ) ^ (-f.attr.scale).toNat)⁻¹ := by
        rw [← zpow_natCast, Int.toNat_of_nonneg (by omega), zpow_neg, inv_inv]
      have hYu : Y = ((u * 10 ^ (-f.attr.scale).toNat : Int) : ℚ) := by
        rw [hY]; simp only [hpow]; push_cast; rw [div_inv_eq_mul]
      have hds : ds.length < 10 := by
        obtain ⟨-, -, -, -, -, i6⟩ := image_getSign ebc f.attr neg ds hwd.1 hne h9
        have : f.dsize = ds.length := by
          have e : f = ⟨f.attr, zonedImage f.attr ebc neg ds⟩ := by rw [← hd]
          rw [e]; exact i6
        unfold Field.dsize at this
        omega
      have hdv : digitsVal ds < 1000000000 := by
        have h1 : digitsVal ds < 10 ^ ds.length := by
          rw [← strVal_map]
          have := strVal_lt (ds.map (48 + ·)) (by
            intro c hc
            simp only [List.mem_map] at hc
            obtain ⟨d, hd, rfl⟩ := hc
            have := h9 d hd; omega)
          simpa using this
        exact lt_of_lt_of_le h1 (by
          calc 10 ^ ds.length ≤ 10 ^ 9 := Nat.pow_le_pow_right (by norm_num) (by omega)
            _ = 1000000000 := by norm_num)
      have hfit : (u * 10 ^ (-f.attr.scale).toNat).natAbs < 2147483648 := by
        rcases hr with h | h
        · rw [h, hu]; simp only [neg_zero, Int.toNat_zero, pow_zero, mul_one]; split <;> omega
        · have h2 := h.2
          rw [hYu] at h2
          have h3 : |(u * 10 ^ (-f.attr.scale).toNat : Int)| < 2147483648 := by exact_mod_cast h2
          rw [Int.abs_eq_natAbs] at h3
          omega
      have hval : outputInteger ebc ⟨.display, f⟩ = u * 10 ^ (-f.attr.scale).toNat := by
        unfold outputInteger
        simp only
        split
        · rename_i hc
          have hsc : f.attr.scale = 0 := by omega
          rw [hsc]
          simp only [sub_zero, Int.toNat_natCast, List.take_length]
          have : f.data = ds.map (48 + ·) := by rw [hd]; simp [zonedImage, hc.2.2.2]
          rw [this, getNumdisp_digits ds h9, hu, hc.2.2.2]; simp
        · exact displayGetInt_units ebc f hwd u hu' hf.2 (fun _ => hfit)
      rw [hval]
      exact ⟨hYu.symm, by simp, fun _ => by omega⟩

theorem compare_cast (u n : Int) : compare (u : ℚ) (n : ℚ) = compare u n := by
  rcases lt_trichotomy u n with h | h | h
  · rw [compare_lt_iff_lt.mpr h, compare_lt_iff_lt]; exact_mod_cast h
  · rw [h]; simp
  · rw [compare_gt_iff_gt.mpr h, compare_gt_iff_gt]; exact_mod_cast h

theorem compare_scaled (u n : Int) (s : Int) :
    compare ((u : ℚ) / 10 ^ s) ((n : ℚ) / 10 ^ s) = compare u n := by
  have hp : (0 : ℚ) < 10 ^ s := zpow_pos (by norm_num) s
  rcases lt_trichotomy u n with h | h | h
  · rw [compare_lt_iff_lt.mpr h, compare_lt_iff_lt]
    exact div_lt_div_of_pos_right (by exact_mod_cast h) hp
  · rw [h]; simp
  · rw [compare_gt_iff_gt.mpr h, compare_gt_iff_gt]
    exact div_lt_div_of_pos_right (by exact_mod_cast h) hp

theorem cmpInt_value (ebc : Bool) (x : Item) (hx : WFItem x) (X : ℚ) (hX : Holds ebc x X) (n : Int) :
    cmpInt ebc x n = some (compare X n) := (C09_items ebc x x hx hx X X hX hX).2 n

/-- C49: the comparison of a numeric item holding `X` with a numeric operand holding `Y`, through
whatever routine the compiler selects, gives the relation between `X` and `Y`: any usage, size,
sign and byte order of both, any scale of the left item, any history of earlier comparisons.
Excluded, because the code gives other answers there (see the findings below): right operands
with a `P` picture (but not zoned ones within `int` range, nor ones of ten digits or more), the operand -2147483648, a packed
negative zero of ten or more digits compared with zero. -/
theorem C49_condition (ebc : Bool) (c : CmpCache) (hc : CacheOk c) (x : Item) (hx : WFItem x) (X : ℚ)
    (hX : Holds ebc x X) (hdig : x.usage = .packed → x.field.attr.digits ≤ 38)
    (y : Operand) (Y : ℚ) (hy : OperandHolds ebc y Y)
    (hr : RightOk y Y)
    (hmin : Y ≠ -2147483648)
    (hnz : x.usage = .packed → X = 0 → Y = 0 → x.field.data.getLast? ≠ some 0x0D) :
    (numCond ebc c x y).1 = some (compare X Y) ∧ CacheOk (numCond ebc c x y).2 := by
  unfold numCond
  by_cases hck : chkNumCond x y = true
  · rw [if_pos hck]
    cases y with
    | lit n => simp [chkNumCond] at hck
    | item y =>
      simp only [chkNumCond, decide_eq_true_eq] at hck
      obtain ⟨k1, k2, k3, k4, k5, k6⟩ := hck
      obtain ⟨hwy, hY⟩ := hy
      obtain ⟨u, hu, hX⟩ := hX
      obtain ⟨v, hv, hY⟩ := hY
      unfold HoldsUnits at hu hv
      rw [k1] at hu
      rw [k2] at hv
      obtain ⟨n1, d1, i1, -, j1, rfl⟩ := hu
      obtain ⟨n2, d2, i2, -, j2, rfl⟩ := hv
      refine ⟨?_, hc⟩
      have e1 : x.field.data = d1.map (48 + ·) := by rw [i1]; simp [zonedImage, k3]
      have e2 : y.field.data = d2.map (48 + ·) := by rw [i2]; simp [zonedImage, k4]
      simp only
      rw [e1, e2, byteCmp_digits d1 d2 j1 j2 (by rw [e1, e2] at k5; simpa using k5), hX, hY, k6,
        compare_scaled, k3, k4]
      simp only [Bool.false_and, Bool.false_eq_true, if_false]
      congr 1
      rcases lt_trichotomy (digitsVal d1) (digitsVal d2) with h | h | h
      · rw [compare_lt_iff_lt.mpr h]; symm; rw [compare_lt_iff_lt]; exact_mod_cast h
      · rw [h]; simp
      · rw [compare_gt_iff_gt.mpr h]; symm; rw [compare_gt_iff_gt]; exact_mod_cast h
  · rw [if_neg hck]
    by_cases hfi : fitsInt y = true
    · rw [if_pos hfi]
      obtain ⟨hval, hub, hsb⟩ := operandInt_value ebc y Y hfi hy (rightOk_readable y Y hr hfi)
      unfold optimCond
      simp only
      by_cases hu : isUnsignedBinary y = true
      · rw [if_pos hu]
        have := hub hu
        rw [Int.emod_eq_of_lt this.1 this.2, cmpInt_value ebc x hx X hX, hval]
        exact ⟨rfl, hc⟩
      · rw [if_neg hu]
        have hrange := hsb (by simpa using hu)
        rw [toCInt_id _ hrange.1 hrange.2]
        generalize hn : operandInt ebc y = n at *
        rw [← hval]
        obtain ⟨us, f⟩ := x
        obtain ⟨u, huu, hXu⟩ := hX
        simp only at hXu hdig hnz
        by_cases hp : f.attr.scale = 0 ∧ us = .packed
        · obtain ⟨hsc, rfl⟩ := hp
          rw [if_pos ⟨hsc, rfl⟩]
          have hXu' : X = u := by rw [hXu, hsc]; simp
          rw [hXu', compare_cast]
          split
          · exact ⟨by rw [C49_packed ebc f hx u huu n], hc⟩
          · obtain ⟨neg, m, hm, hd, hu⟩ := huu
            simp only at hm hd hu
            have hn31 : n.natAbs < 2 ^ 31 := by
              have : n ≠ -2147483648 := by
                rintro rfl
                apply hmin
                rw [← hval]
                norm_num
              omega
            have := C12_cmp_packed ebc c hc f.attr neg m hx.1 (hdig rfl) hm n hn31
            simp only at this
            obtain ⟨-, h1, h2⟩ := this
            have hf : (⟨f.attr, packedImage f.attr.digits m (signNibble f.attr neg)⟩ : Field) = f := by
              rw [← hd]
            rw [hf] at h1 h2
            rw [← hu] at h2
            refine ⟨?_, h1⟩
            simp only
            rcases h2 with h2 | ⟨g1, g2, g3, g4⟩
            · rw [h2]
            · exfalso
              apply hnz rfl
              · rw [hXu', hu, g3]; simp
              · rw [← hval, g4]; simp
              · rw [hd, packedImage_bytes _ _ _ hx.1 hm, g3]
                simp [signNibble, g1, g2]
        · rw [if_neg hp]
          by_cases hd : f.attr.scale = 0 ∧ us = .display ∧ f.attr.leading = false ∧ f.attr.separate = false ∧
              f.data.length < 19
          · rw [if_pos hd]
            obtain ⟨hsc, rfl, hl, hsep, -⟩ := hd
            have hXu' : X = u := by rw [hXu, hsc]; simp
            rw [hXu', compare_cast]
            split
            · rename_i hs
              exact ⟨by rw [C49_signed_display ebc f hs hsep hl u huu n], hc⟩
            · rename_i hs
              have hs : f.attr.haveSign = false := by simpa using hs
              obtain ⟨neg, ds, i1, -, j1, hu⟩ := huu
              simp only at i1 hu
              refine ⟨?_, hc⟩
              have e1 : f.data = ds.map (48 + ·) := by rw [i1]; simp [zonedImage, hs]
              simp only
              rw [e1, C09_numdisp ds j1, hu]
              simp [hs]
          · rw [if_neg hd]
            by_cases hb : f.attr.scale = 0 ∧ us = .binary
            · obtain ⟨hsc, rfl⟩ := hb
              rw [if_pos ⟨hsc, rfl⟩]
              have hXu' : X = u := by rw [hXu, hsc]; simp
              rw [hXu', compare_cast]
              exact ⟨by rw [C49_binary f hx u huu n], hc⟩
            · rw [if_neg hb]
              exact ⟨cmpInt_value ebc _ hx X ⟨u, huu, hXu⟩ n, hc⟩
    · rw [if_neg hfi]
      cases y with
      | lit n =>
        refine ⟨?_, hc⟩
        have : Y = n := hy
        rw [this]
        exact cmpInt_value ebc x hx X hX n
      | item y => exact ⟨(C09_items ebc x y hx hy.1 X Y hX hy.2).1, hc⟩

/-- Finding (C49): a right operand with scaling `P` and binary usage is read without its scale:
an item holding 12 is found equal to a PIC 99PP COMP item holding 1200 (`cb_fits_int` accepts a
negative scale, `output_integer` ignores it). -/
theorem C49_finding_scaled_binary :
    let x : Item := ⟨.display, ⟨{ digits := 4 }, [48, 48, 49, 50]⟩⟩
    let y : Item := ⟨.binary, ⟨{ digits := 4, scale := -2, haveSign := true, swap := true }, [0, 12]⟩⟩
    fitsInt (.item y) = true ∧ (numCond false CmpCache.init x (.item y)).1 = some .eq ∧
    numericCmp false x y = some .lt := by decide +kernel

/-- Finding (C49): a zoned right operand PIC 9(9)P is taken to fit an `int`; holding 4294967300 it
is found equal to 4. -/
theorem C49_finding_scaled_display :
    let x : Item := ⟨.display, ⟨{ digits := 4 }, [48, 48, 48, 52]⟩⟩
    let y : Item := ⟨.display, ⟨{ digits := 10, scale := -1 }, [52, 50, 57, 52, 57, 54, 55, 51, 48]⟩⟩
    fitsInt (.item y) = true ∧ (numCond false CmpCache.init x (.item y)).1 = some .eq ∧
    numericCmp false x y = some .lt := by decide +kernel

/-- Non-vacuity: a signed zoned item holding -7 (`00w`) against a big-endian COMP item holding 3,
against a literal, and against a zoned item of the same size. -/
example :
    let x : Item := ⟨.display, ⟨{ digits := 3, haveSign := true }, [48, 48, 119]⟩⟩
    let y : Item := ⟨.binary, ⟨{ digits := 4, haveSign := true, swap := true }, [0, 3]⟩⟩
    let z : Item := ⟨.display, ⟨{ digits := 3, scale := 1 }, [48, 49, 50]⟩⟩
    (numCond false CmpCache.init x (.item y)).1 = some .lt ∧
    (numCond false CmpCache.init x (.lit (-7))).1 = some .eq ∧
    (numCond false CmpCache.init z (.item ⟨.display, ⟨z.field.attr, [48, 48, 57]⟩⟩)).1 = some .gt ∧
    WFItem x ∧ Holds false x (-7) ∧ OperandHolds false (.item y) 3 ∧ RightOk (.item y) 3 := by
  refine ⟨by decide +kernel, by decide +kernel, by decide +kernel, ⟨by decide, by decide⟩,
    ⟨-7, ⟨true, [0, 0, 7], by decide, by decide, by decide, by decide⟩, by norm_num⟩,
    ⟨⟨by decide, by decide, by decide⟩, 3, ?_, by norm_num⟩, fun h => absurd h (by decide)⟩
  norm_num [HoldsUnits, binaryHolds, bytesVal]

/-! ### C50: ADD and SUBTRACT of an integer -/

/-- The item has room for `u`: the bytes of a binary item, the digits of the others. -/
def Room (v : Item) (u : Int) : Prop :=
  match v.usage with
  | .binary => InRange v.field.attr.haveSign v.field.data.length u
  | .packed => u.natAbs < 10 ^ v.field.attr.digits
  | .display => u.natAbs < 10 ^ v.field.dsize

theorem natAbs_inRange (f : Field) (u : Int) (h : InRange f.attr.haveSign f.data.length u) :
    (if f.attr.haveSign then u else (u.natAbs : Int)) = u := by
  unfold InRange at h
  split at h
  · rw [if_pos (by assumption)]
  · rw [if_neg (by assumption)]; omega

theorem addIntItem_holds (ebc bt : Bool) (v : Item) (hv : WFItem v) (hsc : v.field.attr.scale = 0)
    (hb : v.usage ≠ .binary) (u n : Int) (hu : HoldsUnits ebc v u)
    (hn : v.usage = .packed → n.natAbs < 10 ^ v.field.attr.digits) (hroom : Room v (u + n))
    (hns : v.field.attr.haveSign = false → n ≠ 0 ∨ 0 ≤ u) :
    ∃ r, addIntItem ebc bt v n = some r ∧ r.usage = v.usage ∧ r.field.attr = v.field.attr ∧
      HoldsUnits ebc r (if v.field.attr.haveSign then u + n else ((u + n).natAbs : Int)) := by
  obtain ⟨us, f⟩ := v
  replace hsc : f.attr.scale = 0 := hsc
  unfold addIntItem
  by_cases h0 : n = 0
  · rw [if_pos h0]
    refine ⟨_, rfl, rfl, rfl, ?_⟩
    subst h0
    have : (if f.attr.haveSign then u + 0 else ((u + 0).natAbs : Int)) = u := by
      split
      · omega
      · rename_i hs
        have := hns (by simpa using hs)
        omega
    simp only at this ⊢
    rw [this]; exact hu
  · rw [if_neg h0]
    cases us with
    | binary => exact absurd rfl hb
    | packed =>
      refine ⟨_, rfl, rfl, ?_⟩
      have := C11_add_packed ebc f hv u n hu (by simpa [hsc] using hn rfl) (by simpa [hsc, Room] using hroom)
      simpa [hsc] using this
    | display =>
      refine ⟨_, rfl, rfl, ?_⟩
      have := C10_add_int ebc bt f hv u n hu (by omega) (by simpa [hsc, Room] using hroom)
      simpa [hsc] using this.2

theorem unsigned_nonneg (ebc : Bool) (v : Item) (u : Int) (hu : HoldsUnits ebc v u)
    (hs : v.field.attr.haveSign = false) : 0 ≤ u := by
  obtain ⟨us, f⟩ := v
  cases us with
  | binary => exact binaryHolds_nonneg f u hu hs
  | packed => obtain ⟨_, m, -, -, rfl⟩ := hu; simp only at hs ⊢; simp [hs]
  | display => obtain ⟨_, ds, -, -, -, rfl⟩ := hu; simp only at hs ⊢; simp [hs]

/-- C50: adding an `int` to an integer item of any usage through the routine the compiler selects
leaves the item holding the sum (its absolute value if the item is unsigned), whenever the item
has room for it. -/
theorem C50_add_item (ebc bt : Bool) (v : Item) (hv : WFItem v) (hsc : v.field.attr.scale = 0)
    (u n : Int) (hu : HoldsUnits ebc v u) (h1 : -2147483648 ≤ n) (h2 : n < 2147483648)
    (hn : v.usage = .packed → n.natAbs < 10 ^ v.field.attr.digits) (hroom : Room v (u + n)) :
    ∃ r, optimAdd ebc bt v n = some r ∧ r.usage = v.usage ∧ r.field.attr = v.field.attr ∧
      HoldsUnits ebc r (if v.field.attr.haveSign then u + n else ((u + n).natAbs : Int)) := by
  have hnn := unsigned_nonneg ebc v u hu
  unfold optimAdd
  simp only
  rw [toCInt_id n h1 h2]
  by_cases hb : v.usage = .binary ∧ v.field.attr.scale = 0
  · rw [if_pos hb]
    obtain ⟨us, f⟩ := v
    obtain ⟨rfl, -⟩ := hb
    have hr : InRange f.attr.haveSign f.data.length (u + n) := hroom
    refine ⟨_, rfl, rfl, rfl, ?_⟩
    rw [natAbs_inRange f _ hr]
    exact (C50_add_binary f hv u hu n).2.2.2 hr
  · rw [if_neg hb]
    by_cases hp : v.usage = .packed ∧ v.field.attr.scale = 0 ∧ v.field.attr.digits < 10
    · rw [if_pos hp]
      obtain ⟨us, f⟩ := v
      obtain ⟨rfl, -, -⟩ := hp
      have hr : (u + n).natAbs < 10 ^ f.attr.digits := hroom
      exact ⟨_, rfl, rfl, C50_add_packed ebc f hv hsc u n hu (hn rfl) hr⟩
    · rw [if_neg hp]
      exact addIntItem_holds ebc bt v hv hsc (fun h => hb ⟨h, hsc⟩) u n hu hn hroom
        (fun hs => Or.inr (hnn hs))

/-- C50: subtracting likewise. -/
theorem C50_sub_item (ebc bt : Bool) (v : Item) (hv : WFItem v) (hsc : v.field.attr.scale = 0)
    (u n : Int) (hu : HoldsUnits ebc v u) (h1 : -2147483648 < n) (h2 : n < 2147483648)
    (hn : v.usage = .packed → n.natAbs < 10 ^ v.field.attr.digits) (hroom : Room v (u - n)) :
    ∃ r, optimSub ebc bt v n = some r ∧ r.usage = v.usage ∧ r.field.attr = v.field.attr ∧
      HoldsUnits ebc r (if v.field.attr.haveSign then u - n else ((u - n).natAbs : Int)) := by
  have hnn := unsigned_nonneg ebc v u hu
  unfold optimSub
  simp only
  rw [toCInt_id n (by omega) h2]
  by_cases hb : v.usage = .binary ∧ v.field.attr.scale = 0
  · rw [if_pos hb]
    obtain ⟨us, f⟩ := v
    obtain ⟨rfl, -⟩ := hb
    have hr : InRange f.attr.haveSign f.data.length (u - n) := hroom
    refine ⟨_, rfl, rfl, rfl, ?_⟩
    rw [natAbs_inRange f _ hr]
    exact (C50_sub_binary f hv u hu n).2.2.2 hr
  · rw [if_neg hb, toCInt_id (-n) (by omega) (by omega)]
    have := addIntItem_holds ebc bt v hv hsc (fun h => hb ⟨h, hsc⟩) u (-n) hu
      (fun h => by rw [Int.natAbs_neg]; exact hn h) (by rw [← Int.sub_eq_add_neg]; exact hroom)
      (fun hs => Or.inr (hnn hs))
    rw [← Int.sub_eq_add_neg] at this
    exact this

/-- Finding (C50): the operand is passed as an `int`: adding an unsigned 4-byte COMP-X item
holding 3000000000 (which `cb_fits_int` accepts) to an 8-byte COMP-X item holding 2000000000
leaves 705032704 instead of 5000000000. -/
theorem C50_finding_unsigned_operand :
    let y : Item := ⟨.binary, ⟨{ digits := 10, swap := true }, [0xB2, 0xD0, 0x5E, 0x00]⟩⟩
    let v : Item := ⟨.binary, ⟨{ digits := 18, swap := true }, [0, 0, 0, 0, 0x77, 0x35, 0x94, 0x00]⟩⟩
    fitsInt (.item y) = true ∧ outputInteger false y = 3000000000 ∧
    cmpLoad false true v.field.data = 2000000000 ∧
    (optimAdd false true v (outputInteger false y)).map (fun r => cmpLoad false true r.field.data) =
      some 705032704 := by decide +kernel

/-- Finding (C50): no decimal truncation: adding 1 to a PIC 99 COMP item holding 99 (as PERFORM
VARYING does) leaves 100, which its picture cannot represent. -/
theorem C50_finding_no_truncation :
    let v : Item := ⟨.binary, ⟨{ digits := 2, swap := true }, [99]⟩⟩
    optimAdd false true v 1 = some ⟨.binary, ⟨{ digits := 2, swap := true }, [100]⟩⟩ := by decide +kernel

/-- Non-vacuity: a PIC S9(4) COMP item holding -5, ADD 12 and SUBTRACT 300. -/
example :
    let v : Item := ⟨.binary, ⟨{ digits := 4, haveSign := true, swap := true }, [255, 251]⟩⟩
    WFItem v ∧ HoldsUnits false v (-5) ∧ Room v 7 ∧
    optimAdd false true v 12 = some ⟨.binary, ⟨v.field.attr, [0, 7]⟩⟩ ∧
    optimSub false true v 300 = some ⟨.binary, ⟨v.field.attr, [254, 207]⟩⟩ := by
  refine ⟨⟨by decide, by decide, by decide⟩, ?_, ?_, by decide +kernel, by decide +kernel⟩
  · norm_num [HoldsUnits, binaryHolds, bytesVal]
  · norm_num [Room, InRange]

end Cob
