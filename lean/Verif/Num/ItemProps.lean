import Verif.Num.Item
import Verif.Num.BinaryProps
import Verif.Num.DecimalProps
/-
End-to-end properties C04..C09: arithmetic statements on items, in terms of the numbers the
items hold before and after.
-/
namespace Cob
open Dec

/-! ### specification -/

/-- An item laid out as the compiler does. -/
def WFItem (it : Item) : Prop :=
  match it.usage with
  | .display => WFDisplay it.field
  | .packed => WFPacked it.field
  | .binary => WFBinary it.field

/-- The item holds the integer `u` (a number of units of `10^-scale`), according to the storage
format of its usage. -/
def HoldsUnits (ebc : Bool) (it : Item) (u : Int) : Prop :=
  match it.usage with
  | .display => ∃ neg ds, it.field.data = zonedImage it.field.attr ebc neg ds ∧ ds ≠ [] ∧
      (∀ d ∈ ds, d ≤ 9) ∧
      u = if it.field.attr.haveSign && neg then -(digitsVal ds : Int) else digitsVal ds
  | .packed => ∃ neg n, n < 10 ^ it.field.attr.digits ∧
      it.field.data = packedImage it.field.attr.digits n (signNibble it.field.attr neg) ∧
      u = if it.field.attr.haveSign && neg then -(n : Int) else n
  | .binary => binaryHolds it.field u

/-- The item holds the number `x`. -/
def Holds (ebc : Bool) (it : Item) (x : ℚ) : Prop :=
  ∃ u, HoldsUnits ebc it u ∧ x = (u : ℚ) / (10 : ℚ) ^ it.field.attr.scale

/-- Can the item represent `u` units under the given store options?  Its digits suffice, and the
sign is representable. -/
def Fits (it : Item) (opt : StoreOpt) (u : Int) : Prop :=
  (it.field.attr.haveSign = true ∨ 0 ≤ u) ∧
  match it.usage with
  | .display => u.natAbs < 10 ^ it.field.dsize
  | .packed => u.natAbs < 10 ^ it.field.attr.digits
  | .binary => binFits it.field u ∧ digitLimit it.field opt u

/-- The number of units the statement asks to store: rounded or truncated. -/
def Wanted (opt : StoreOpt) (it : Item) (x : ℚ) (u : Int) : Prop :=
  if opt.round then IsRoundHalfAway (x * (10 : ℚ) ^ it.field.attr.scale) u
  else IsTrunc (x * (10 : ℚ) ^ it.field.attr.scale) u

/-- Beyond the magnitude the item can take, whatever its sign. -/
def TooBig (it : Item) (opt : StoreOpt) (u : Int) : Prop :=
  match it.usage with
  | .display => 10 ^ it.field.dsize ≤ u.natAbs
  | .packed => 10 ^ it.field.attr.digits ≤ u.natAbs
  | .binary => 2 ^ (8 * it.field.data.length - (if it.field.attr.haveSign then 1 else 0)) ≤ u.natAbs ∨
      (opt.binTrunc = true ∧ 10 ^ it.field.attr.digits ≤ u.natAbs)

/-! ### lemmas -/

theorem wanted_toFieldScale (opt : StoreOpt) (it : Item) (d : Dec) :
    Wanted opt it d.toRat (d.toFieldScale it.field.attr.scale opt.round).value := by
  unfold Wanted
  cases opt.round
  · simpa using (C05_truncates d it.field.attr.scale).2
  · simpa using (C05_rounds d it.field.attr.scale).2

theorem wanted_unique (opt : StoreOpt) (it : Item) (x : ℚ) (u w : Int)
    (h1 : Wanted opt it x u) (h2 : Wanted opt it x w) : u = w := by
  unfold Wanted at h1 h2
  cases h : opt.round
  · rw [h] at h1 h2
    exact isTrunc_unique _ _ _ h1 h2
  · rw [h] at h1 h2
    exact isRoundHalfAway_unique _ _ _ h1 h2

theorem zonedImage_length (ebc : Bool) (f : Field) (hw : WFDisplay f) (ng : Bool) (F : List Nat)
    (hfl : F.length = f.dsize) : (zonedImage f.attr ebc ng F).length = f.data.length := by
  obtain ⟨⟨dg, sc, sg, sep, lead, sw⟩, data⟩ := f
  obtain ⟨h1, h2⟩ := hw
  unfold Field.dsize at hfl
  unfold zonedImage
  cases sg <;> cases sep <;> simp at h1 h2 hfl ⊢
  · exact hfl
  · cases lead
    · rcases List.eq_nil_or_concat F with rfl | ⟨F', x, rfl⟩
      · simp at hfl ⊢; omega
      · simp at hfl ⊢; omega
    · cases F with
      | nil => simp at hfl ⊢; omega
      | cons x F => simp at hfl ⊢; omega
  · cases lead <;> simp <;> omega

/-- Reading a well-formed item that holds `u` units gives the decimal `u` with the item's
scale, and does not change the item. -/
theorem readItem_holds (ebc : Bool) (it : Item) (hw : WFItem it) (u : Int)
    (h : HoldsUnits ebc it u) :
    readItem ebc it = (some ⟨u, it.field.attr.scale⟩, it) := by
  obtain ⟨us, f⟩ := it
  obtain ⟨a, data⟩ := f
  cases us with
  | display =>
    obtain ⟨neg, ds, hd, hne, hle, hu⟩ := h
    simp only at hd hu
    have := C01_load_image ebc a neg ds hw.1 hne hle
    unfold readItem
    simp only
    rw [hd, this, hu]
  | packed =>
    obtain ⟨neg, n, hn, hd, hu⟩ := h
    simp only at hd hu hn
    have := C02_load_image a hw.1 neg n
    unfold readItem
    simp only
    rw [hd, this, hu, Nat.mod_eq_of_lt hn]
  | binary =>
    have := (C03_load ⟨a, data⟩ hw u).mpr h
    unfold readItem
    simp only
    rw [this]

/-! ### properties -/

/-- C05/C04 (store): storing a value `d` into any well-formed item, whatever it held: let `u` be
the exact value rounded (ROUNDED) or truncated to the item's decimal places.  If the item
can represent `u`, then no size error is signalled, and the item holds exactly `u`. -/
theorem C05_store_any_item (ebc : Bool) (d : Dec) (hd : d.isNaN = false) (it : Item)
    (hw : WFItem it) (opt : StoreOpt) (u : Int) (hu : Wanted opt it d.toRat u)
    (hfit : Fits it opt u) :
    let r := storeItem ebc d it opt
    r.raised = false ∧ r.failed = false ∧ WFItem r.item ∧ r.item.usage = it.usage ∧
      r.item.field.attr = it.field.attr ∧ HoldsUnits ebc r.item u := by
  intro r
  have hv : (d.toFieldScale it.field.attr.scale opt.round).value = u :=
    wanted_unique opt it _ _ _ (wanted_toFieldScale opt it d) hu
  obtain ⟨us, f⟩ := it
  obtain ⟨hsg, hfit⟩ := hfit
  simp only [r, storeItem, hd, Bool.false_eq_true, if_false]
  simp only at hv
  rw [hv]
  cases us with
  | display =>
    simp only at hfit
    have hdpos : 0 < f.dsize := by
      have := hw.2
      unfold Field.dsize
      split <;> simp_all <;> omega
    have him := C01_store_image ebc u f hw opt (Or.inr hfit)
    simp only [him]
    refine ⟨by simpa using hfit, trivial, ?_, trivial, trivial, ?_⟩
    · unfold WFItem WFDisplay
      simp only
      refine ⟨hw.1, ?_⟩
      have hl := zonedImage_length ebc f hw (decide (u < 0)) (fixedDigits f.dsize u.natAbs)
        (fixedDigits_length _ _)
      rw [hl]
      exact hw.2
    · unfold HoldsUnits
      simp only
      refine ⟨decide (u < 0), fixedDigits f.dsize u.natAbs, rfl, ?_, fixedDigits_le _ _, ?_⟩
      · intro h
        have := fixedDigits_length f.dsize u.natAbs
        rw [h] at this; simp at this; omega
      · rw [digitsVal_fixedDigits, Nat.mod_eq_of_lt hfit]
        by_cases h : u < 0
        · have : f.attr.haveSign = true := by
            rcases hsg with h' | h'
            · exact h'
            · omega
          simp only [this, h, decide_true, Bool.and_self, if_true]; omega
        · simp only [h, decide_false, Bool.and_false, Bool.false_eq_true, if_false]; omega
  | packed =>
    simp only at hfit
    have him := C02_store_image u f hw opt (Or.inr hfit)
    simp only [him]
    refine ⟨by simpa using hfit, trivial, ?_, trivial, trivial, ?_⟩
    · unfold WFItem WFPacked
      simp only
      refine ⟨hw.1, ?_⟩
      unfold packedImage
      have hlen : ∀ l : List Nat, (packNibbles l).length = l.length / 2 := by
        intro l
        induction l using packNibbles.induct with
        | case1 a b t ih => simp [packNibbles, ih]; omega
        | case2 l h =>
          match l, h with
          | [], _ => rfl
          | [x], _ => simp [packNibbles]
          | a :: b :: t, h => exact absurd rfl (h a b t)
      rw [hlen]
      split <;> simp [fixedDigits_length] <;> omega
    · unfold HoldsUnits
      simp only
      refine ⟨decide (u < 0), u.natAbs, hfit, rfl, ?_⟩
      by_cases h : u < 0
      · have : f.attr.haveSign = true := by
          rcases hsg with h' | h'
          · exact h'
          · omega
        simp only [this, h, decide_true, Bool.and_self, if_true]; omega
      · simp only [h, decide_false, Bool.and_false, Bool.false_eq_true, if_false]; omega
  | binary =>
    simp only at hfit
    obtain ⟨h1, h2, h3, h4, h5⟩ := C03_roundtrip u f hw opt hfit.1 hfit.2
    refine ⟨h1, h2, h3, trivial, h4, ?_⟩
    unfold HoldsUnits
    simp only
    exact (C03_load _ h3 u).mp (by rw [h5, h4])

/-- C04: in a statement with ON SIZE ERROR (`keep`), if the value to be stored is beyond the
item's capacity, the item keeps every byte it had, and the condition is reported (exception
raised and nonzero return). -/
theorem C04_keep_any_item (ebc : Bool) (d : Dec) (hd : d.isNaN = false) (it : Item)
    (hw : WFItem it) (opt : StoreOpt) (hk : opt.keep = true) (u : Int)
    (hu : Wanted opt it d.toRat u) (hbig : TooBig it opt u) :
    storeItem ebc d it opt = ⟨it, true, true⟩ := by
  have hv : (d.toFieldScale it.field.attr.scale opt.round).value = u :=
    wanted_unique opt it _ _ _ (wanted_toFieldScale opt it d) hu
  obtain ⟨us, f⟩ := it
  simp only [storeItem, hd, Bool.false_eq_true, if_false]
  simp only at hv
  rw [hv]
  cases us with
  | display => simp only [(C04_display_keep ebc u f hw opt hk).1 hbig]
  | packed => simp only [(C04_packed_keep u f hw opt hk).1 hbig]
  | binary => simp only [C04_binary_keep u f opt hk hbig]

/-- C04/C07: a computation without value (division by zero) never changes the receiver, with or
without ON SIZE ERROR, and is reported. -/
theorem C04_no_value (ebc : Bool) (d : Dec) (hd : d.isNaN = true) (it : Item) (opt : StoreOpt) :
    storeItem ebc d it opt = ⟨it, true, true⟩ := by
  simp [storeItem, hd]

/-- Reading a decimal from an item that holds `x` denotes `x`. -/
theorem holds_read (ebc : Bool) (it : Item) (hw : WFItem it) (x : ℚ) (h : Holds ebc it x) :
    ∃ d, readItem ebc it = (some d, it) ∧ d.toRat = x ∧ d.scale = it.field.attr.scale := by
  obtain ⟨u, hu, hx⟩ := h
  exact ⟨_, readItem_holds ebc it hw u hu, by rw [hx]; rfl, rfl⟩

/-- C06 (ADD b TO a): if `a` holds `x` and `b` holds `y`, the addition stores `x + y` rounded or
truncated as asked, provided that fits; otherwise, under ON SIZE ERROR, `a` keeps its bytes.
Any mix of usages, scales and signs. -/
theorem C06_add_items (ebc : Bool) (a b : Item) (ha : WFItem a) (hb : WFItem b) (x y : ℚ)
    (hx : Holds ebc a x) (hy : Holds ebc b y) (opt : StoreOpt)
    (hsa : a.field.attr.scale ≠ -128) (hsb : b.field.attr.scale ≠ -128)
    (u : Int) (hu : Wanted opt a (x + y) u) :
    ∃ r, cobAdd ebc a b opt = some r ∧
      (Fits a opt u → r.raised = false ∧ HoldsUnits ebc r.item u) ∧
      (opt.keep = true → TooBig a opt u → r = ⟨a, true, true⟩) := by
  obtain ⟨d1, h1, e1, s1⟩ := holds_read ebc a ha x hx
  obtain ⟨d2, h2, e2, s2⟩ := holds_read ebc b hb y hy
  have n1 : d1.isNaN = false := by simp [Dec.isNaN, Dec.nanScale, s1, hsa]
  have n2 : d2.isNaN = false := by simp [Dec.isNaN, Dec.nanScale, s2, hsb]
  obtain ⟨ex, nn⟩ := C06_add_exact d1 d2 n1 n2
  rw [← e1, ← e2, ← ex] at hu
  refine ⟨storeItem ebc (d1.add d2) a opt, by simp [cobAdd, h1, h2], ?_, ?_⟩
  · intro hf
    have := C05_store_any_item ebc _ nn a ha opt u hu hf
    exact ⟨this.1, this.2.2.2.2.2⟩
  · intro hk hb'
    exact C04_keep_any_item ebc _ nn a ha opt hk u hu hb'

/-- C06 (SUBTRACT b FROM a). -/
theorem C06_sub_items (ebc : Bool) (a b : Item) (ha : WFItem a) (hb : WFItem b) (x y : ℚ)
    (hx : Holds ebc a x) (hy : Holds ebc b y) (opt : StoreOpt)
    (hsa : a.field.attr.scale ≠ -128) (hsb : b.field.attr.scale ≠ -128)
    (u : Int) (hu : Wanted opt a (x - y) u) :
    ∃ r, cobSub ebc a b opt = some r ∧
      (Fits a opt u → r.raised = false ∧ HoldsUnits ebc r.item u) ∧
      (opt.keep = true → TooBig a opt u → r = ⟨a, true, true⟩) := by
  obtain ⟨d1, h1, e1, s1⟩ := holds_read ebc a ha x hx
  obtain ⟨d2, h2, e2, s2⟩ := holds_read ebc b hb y hy
  have n1 : d1.isNaN = false := by simp [Dec.isNaN, Dec.nanScale, s1, hsa]
  have n2 : d2.isNaN = false := by simp [Dec.isNaN, Dec.nanScale, s2, hsb]
  obtain ⟨ex, nn⟩ := C06_sub_exact d1 d2 n1 n2
  rw [← e1, ← e2, ← ex] at hu
  refine ⟨storeItem ebc (d1.sub d2) a opt, by simp [cobSub, h1, h2], ?_, ?_⟩
  · intro hf
    have := C05_store_any_item ebc _ nn a ha opt u hu hf
    exact ⟨this.1, this.2.2.2.2.2⟩
  · intro hk hb'
    exact C04_keep_any_item ebc _ nn a ha opt hk u hu hb'

/-- C09: the relation between two numeric items is that of the numbers they hold, whatever
their usages, lengths, scales and signs. -/
theorem C09_items (ebc : Bool) (a b : Item) (ha : WFItem a) (hb : WFItem b) (x y : ℚ)
    (hx : Holds ebc a x) (hy : Holds ebc b y) :
    numericCmp ebc a b = some (compare x y) ∧ ∀ n : Int, cmpInt ebc a n = some (compare x n) := by
  obtain ⟨d1, h1, e1, s1⟩ := holds_read ebc a ha x hx
  obtain ⟨d2, h2, e2, s2⟩ := holds_read ebc b hb y hy
  constructor
  · simp [numericCmp, h1, h2, C09_cmp_exact, e1, e2]
  · intro n
    simp [cmpInt, h1, C09_cmp_exact, e1]
    simp [Dec.toRat]


/-! ### truncations nest -/

theorem isTrunc_nest (x : ℚ) (P : ℕ) (hP : 0 < P) (v t : ℤ) (h1 : IsTrunc x v)
    (h2 : IsTrunc ((v : ℚ) / P) t) : IsTrunc (x / P) t := by
  obtain ⟨a1, a2, a3⟩ := h1
  obtain ⟨b1, b2, b3⟩ := h2
  have hPq : (0 : ℚ) < P := by exact_mod_cast hP
  rw [abs_div, abs_of_pos hPq] at b1 b2
  have b1' : |(t : ℚ)| * P ≤ |(v : ℚ)| := by rwa [le_div_iff₀ hPq] at b1
  have b2' : |(v : ℚ)| < (|(t : ℚ)| + 1) * P := by rwa [div_lt_iff₀ hPq] at b2
  have b2i : |v| < (|t| + 1) * (P : ℤ) := by exact_mod_cast b2'
  have b2j : |v| + 1 ≤ (|t| + 1) * (P : ℤ) := by omega
  have b2k : |(v : ℚ)| + 1 ≤ (|(t : ℚ)| + 1) * P := by exact_mod_cast b2j
  refine ⟨?_, ?_, ?_⟩
  · rw [abs_div, abs_of_pos hPq, le_div_iff₀ hPq]; linarith
  · rw [abs_div, abs_of_pos hPq, div_lt_iff₀ hPq]; linarith
  · have e : x / P * t = (x * t) / P := by ring
    rw [e]
    apply div_nonneg _ hPq.le
    have e3 : (v : ℚ) / P * t = (v * t) / P := by ring
    rw [e3] at b3
    have b3' : 0 ≤ (v : ℚ) * t := by
      by_contra hc
      have := div_neg_of_neg_of_pos (not_le.mp hc) hPq
      linarith
    by_cases hv : v = 0
    · have : |(t : ℚ)| * P ≤ 0 := by rw [hv] at b1'; simpa using b1'
      have : |(t : ℚ)| ≤ 0 := by
        by_contra hc
        have := mul_pos (not_le.mp hc) hPq
        linarith
      have : (t : ℚ) = 0 := by simpa using this
      rw [this]; simp
    · have hvv : (0 : ℚ) < (v : ℚ) * v := by
        have : (v : ℚ) ≠ 0 := by exact_mod_cast hv
        exact mul_self_pos.mpr this
      have : 0 ≤ (x * v) * ((v : ℚ) * t) := mul_nonneg a3 b3'
      have : 0 ≤ (x * t) * ((v : ℚ) * v) := by
        calc (0 : ℚ) ≤ (x * v) * ((v : ℚ) * t) := this
          _ = (x * t) * ((v : ℚ) * v) := by ring
      by_contra hc
      have := mul_neg_of_neg_of_pos (not_le.mp hc) hvv
      linarith

/-- Rounding half away from zero only depends on one more truncated digit. -/
theorem round_of_trunc10 (x : ℚ) (w u : ℤ) (h1 : IsTrunc (10 * x) w)
    (h2 : IsRoundHalfAway ((w : ℚ) / 10) u) : IsRoundHalfAway x u := by
  wlog hx : 0 ≤ x generalizing x w u
  · have h1' : IsTrunc (10 * (-x)) (-w) := by
      obtain ⟨a1, a2, a3⟩ := h1
      refine ⟨?_, ?_, ?_⟩
      · push_cast; rw [abs_neg, mul_neg, abs_neg]; exact a1
      · push_cast; rw [abs_neg, mul_neg, abs_neg]; exact a2
      · push_cast; linarith [a3]
    have h2' : IsRoundHalfAway (((-w : ℤ) : ℚ) / 10) (-u) := by
      have := isRound_neg _ _ h2
      have e : ((-w : ℤ) : ℚ) / 10 = -((w : ℚ) / 10) := by push_cast; ring
      rw [e]; exact this
    have := isRound_neg _ _ (this (-x) (-w) (-u) h1' h2' (by linarith))
    simpa using this
  · obtain ⟨a1, a2, a3⟩ := h1
    obtain ⟨b1, b2⟩ := h2
    rw [abs_of_nonneg (by linarith : (0 : ℚ) ≤ 10 * x)] at a1 a2
    have hw : 0 ≤ w := by
      by_contra hc
      have hw' : (w : ℚ) < 0 := by exact_mod_cast (not_le.mp hc)
      rw [abs_of_neg hw'] at a1 a2
      have hw1 : (w : ℚ) ≤ -1 := by exact_mod_cast (by omega : w ≤ -1)
      have hxp : 0 < 10 * x := by linarith
      have := mul_neg_of_pos_of_neg hxp hw'
      linarith
    have hwq : (0 : ℚ) ≤ w := by exact_mod_cast hw
    rw [abs_of_nonneg hwq] at a1 a2
    have hle := abs_le.mp (show |(w : ℚ) / 10 - u| ≤ 1 / 2 by linarith)
    have c1 : (w : ℚ) ≤ 10 * u + 5 := by linarith [hle.2]
    have c2 : 10 * (u : ℚ) - 5 ≤ w := by linarith [hle.1]
    have c1' : (w : ℚ) < 10 * u + 5 := by
      rcases lt_or_eq_of_le c1 with h | h
      · exact h
      · exfalso
        have e : (w : ℚ) / 10 - u = 1 / 2 := by linarith
        have := b2 (by rw [e]; norm_num)
        rw [abs_of_nonneg (by positivity)] at this
        have hu : 0 ≤ u := by
          have : (-1 : ℚ) < u := by linarith
          have : -1 < u := by exact_mod_cast this
          omega
        have huq : (0 : ℚ) ≤ u := by exact_mod_cast hu
        rw [abs_of_nonneg huq] at this
        linarith
    have c1i : w < 10 * u + 5 := by exact_mod_cast c1'
    have c1j : w + 1 ≤ 10 * u + 5 := by omega
    have c1k : (w : ℚ) + 1 ≤ 10 * u + 5 := by exact_mod_cast c1j
    have hu : 0 ≤ u := by omega
    obtain ⟨n, rfl⟩ := Int.eq_ofNat_of_zero_le hu
    apply isRound_of_nat x n _ _ hx
    · push_cast at c2; linarith
    · push_cast at c1k; linarith

theorem pow_sub_nat (s m : ℤ) (h : s ≤ m) :
    ∃ k : ℕ, (10 : ℚ) ^ s = (10 : ℚ) ^ m / ((10 ^ k : ℕ) : ℚ) := by
  refine ⟨(m - s).toNat, ?_⟩
  have h10 : (10 : ℚ) ≠ 0 := by norm_num
  have e : s = m - ((m - s).toNat : ℤ) := by
    rw [Int.toNat_of_nonneg (by omega)]; ring
  conv_lhs => rw [e]
  rw [zpow_sub₀ h10, zpow_natCast]
  push_cast
  rfl

/-- The quotient computed by the code, stored with at most 36 decimals, is the exact quotient
truncated or rounded to the receiver's decimals. -/
theorem wanted_div (opt : StoreOpt) (it : Item) (d1 d2 : Dec) (h1 : d1.isNaN = false)
    (h2 : d2.isNaN = false) (hz : d2.toRat ≠ 0) (hs : it.field.attr.scale ≤ 36) (u : Int)
    (hu : Wanted opt it (d1.toRat / d2.toRat) u) :
    Wanted opt it (d1.div d2).1.toRat u ∧ (d1.div d2).1.isNaN = false := by
  by_cases h0 : d1.toRat = 0
  · obtain ⟨_, e2, e3⟩ := C07_div_zero_dividend d1 d2 h1 h2 hz h0
    refine ⟨?_, e2⟩
    rw [e3]
    rw [h0, zero_div] at hu
    exact hu
  · obtain ⟨_, e2, e3, _, e5⟩ := C07_div_truncated d1 d2 h1 h2 hz h0
    refine ⟨?_, e2⟩
    set q := (d1.div d2).1 with hq
    set X := d1.toRat / d2.toRat with hX
    have h10 : (10 : ℚ) ≠ 0 := by norm_num
    have hqv : q.toRat * (10 : ℚ) ^ q.scale = q.value := by
      unfold Dec.toRat
      have : (10 : ℚ) ^ q.scale ≠ 0 := zpow_ne_zero _ h10
      field_simp
    -- truncation of both at any scale s ≤ q.scale agrees
    have key : ∀ s : ℤ, s ≤ q.scale → ∀ t : ℤ, IsTrunc (q.toRat * (10 : ℚ) ^ s) t →
        IsTrunc (X * (10 : ℚ) ^ s) t := by
      intro s hs t ht
      obtain ⟨k, hk⟩ := pow_sub_nat s q.scale hs
      rw [hk, ← mul_div_assoc] at ht ⊢
      rw [hqv] at ht
      exact isTrunc_nest _ _ (by positivity) _ _ e5 ht
    set s := it.field.attr.scale with hsdef
    unfold Wanted at hu ⊢
    rw [← hsdef] at hu ⊢
    cases hr : opt.round
    · rw [hr] at hu
      simp only [Bool.false_eq_true, if_false] at hu ⊢
      have ht := (C05_truncates q s).2
      have := key s (by omega) _ ht
      have := isTrunc_unique _ _ _ hu this
      rw [this]; exact ht
    · rw [hr] at hu
      simp only [if_true] at hu ⊢
      have ht := (C05_truncates q (s + 1)).2
      set w := (q.toFieldScale (s + 1) false).value with hw
      have hX1 := key (s + 1) (by omega) _ ht
      have e1 : ∀ y : ℚ, y * (10 : ℚ) ^ (s + 1) = 10 * (y * (10 : ℚ) ^ s) := by
        intro y; rw [zpow_add_one₀ h10]; ring
      rw [e1] at hX1 ht
      have hround := (C05_rounds ⟨w, 1⟩ 0).2
      have ew : (⟨w, 1⟩ : Dec).toRat * (10 : ℚ) ^ (0 : ℤ) = (w : ℚ) / 10 := by
        simp [Dec.toRat]
      rw [ew] at hround
      have r1 := round_of_trunc10 _ _ _ hX1 hround
      have r2 := round_of_trunc10 _ _ _ ht hround
      have := isRoundHalfAway_unique _ _ _ hu r1
      rw [this]; exact r2

/-- C07 (DIVIDE / COMPUTE q = a / b): with `a` holding `x` and `b` holding `y ≠ 0`, the quotient
receives `x / y` truncated, or rounded half away from zero, to its own decimals - exactly,
although the code works with a truncated intermediate quotient - if that fits; otherwise,
under ON SIZE ERROR, it keeps its bytes.  If `y = 0` the receiver always keeps its bytes. -/
theorem C07_divide_items (ebc : Bool) (a b q : Item) (ha : WFItem a) (hb : WFItem b)
    (hq : WFItem q) (x y : ℚ) (hx : Holds ebc a x) (hy : Holds ebc b y) (opt : StoreOpt)
    (hsa : a.field.attr.scale ≠ -128) (hsb : b.field.attr.scale ≠ -128)
    (hsq : q.field.attr.scale ≤ 36) :
    ∃ da db, (readItem ebc a).1 = some da ∧ (readItem ebc b).1 = some db ∧
      (y = 0 → storeItem ebc (da.div db).1 q opt = ⟨q, true, true⟩ ∧ (da.div db).2 = true) ∧
      (y ≠ 0 → ∀ u, Wanted opt q (x / y) u →
        (Fits q opt u → (storeItem ebc (da.div db).1 q opt).raised = false ∧
          HoldsUnits ebc (storeItem ebc (da.div db).1 q opt).item u) ∧
        (opt.keep = true → TooBig q opt u → storeItem ebc (da.div db).1 q opt = ⟨q, true, true⟩)) := by
  obtain ⟨d1, h1, e1, s1⟩ := holds_read ebc a ha x hx
  obtain ⟨d2, h2, e2, s2⟩ := holds_read ebc b hb y hy
  have n1 : d1.isNaN = false := by simp [Dec.isNaN, Dec.nanScale, s1, hsa]
  have n2 : d2.isNaN = false := by simp [Dec.isNaN, Dec.nanScale, s2, hsb]
  refine ⟨d1, d2, by rw [h1], by rw [h2], ?_, ?_⟩
  · intro hy0
    have := C07_div_by_zero d1 d2 n1 n2 (by rw [e2, hy0])
    exact ⟨C04_no_value ebc _ this.2 q opt, this.1⟩
  · intro hy0 u hu
    rw [← e1, ← e2] at hu
    obtain ⟨w1, w2⟩ := wanted_div opt q d1 d2 n1 n2 (by rw [e2]; exact hy0) hsq u hu
    constructor
    · intro hf
      have := C05_store_any_item ebc _ w2 q hq opt u w1 hf
      exact ⟨this.1, this.2.2.2.2.2⟩
    · intro hk hbg
      exact C04_keep_any_item ebc _ w2 q hq opt hk u w1 hbg

/-! ### C08: DIVIDE ... REMAINDER -/

/-- C08: DIVIDE with REMAINDER.  The decimal kept for the remainder is exactly
`x - y * t` where `t` is `x / y` truncated to the quotient's decimals (ROUNDED or not, and
whether or not the quotient fitted); the remainder item then receives it as any other value.
With a zero divisor nothing is stored in either item. -/
theorem C08_remainder (ebc : Bool) (d1 d2 : Dec) (q rem : Item) (opt ropt : StoreOpt)
    (h1 : d1.isNaN = false) (h2 : d2.isNaN = false) (hsq : q.field.attr.scale ≤ 36)
    (hsq0 : q.field.attr.scale ≠ -128) (hsn : q.field.attr.scale + d2.scale ≠ -128) :
    (d2.toRat = 0 → (divQuotient ebc d1 d2 q opt).1 = none ∧
      divRemainder ebc (divQuotient ebc d1 d2 q opt).2 rem ropt = ⟨rem, true, true⟩) ∧
    (d2.toRat ≠ 0 → ∀ t : ℤ, IsTrunc (d1.toRat / d2.toRat * (10 : ℚ) ^ q.field.attr.scale) t →
      (divQuotient ebc d1 d2 q opt).1 = some (storeItem ebc (d1.div d2).1 q opt) ∧
      (divQuotient ebc d1 d2 q opt).2.isNaN = false ∧
      (divQuotient ebc d1 d2 q opt).2.toRat =
        d1.toRat - d2.toRat * ((t : ℚ) / (10 : ℚ) ^ q.field.attr.scale)) := by
  constructor
  · intro hz
    have := C07_div_by_zero d1 d2 h1 h2 hz
    unfold divQuotient
    simp only [this.2, if_true, true_and]
    exact C04_no_value ebc _ rfl rem ropt
  · intro hz t ht
    obtain ⟨w1, w2⟩ := wanted_div { opt with round := false } q d1 d2 h1 h2 hz hsq t
      (by unfold Wanted; simpa using ht)
    unfold divQuotient
    simp only [w2, Bool.false_eq_true, if_false, true_and]
    set qd := (d1.div d2).1 with hqd
    have hsh := C05_truncates qd q.field.attr.scale
    have esh : qd.toFieldScale q.field.attr.scale false = qd.shift (q.field.attr.scale - qd.scale) := by
      simp [Dec.toFieldScale]
    rw [esh] at hsh
    have hval : (qd.shift (q.field.attr.scale - qd.scale)).value = t := by
      unfold Wanted at w1
      exact isTrunc_unique _ _ _ hsh.2 (by simpa using w1)
    set d4 := qd.shift (q.field.attr.scale - qd.scale) with hd4
    have hn4 : d4.isNaN = false := by
      simp only [Dec.isNaN, Dec.nanScale, beq_eq_false_iff_ne, hsh.1]
      exact hsq0
    obtain ⟨m1, m2⟩ := C06_mul_exact d4 d2 hn4 h2
    have hm : (d4.mul d2).isNaN = false := m2.mpr (by rw [hsh.1]; exact hsn)
    obtain ⟨s1, s2⟩ := C06_sub_exact d1 (d4.mul d2) h1 hm
    refine ⟨s2, ?_⟩
    rw [s1, m1]
    have : d4.toRat = (t : ℚ) / (10 : ℚ) ^ q.field.attr.scale := by
      unfold Dec.toRat
      rw [hval, hsh.1]
    rw [this]
    ring

/-! ### non-vacuity -/

/-- A S9(3)V99 DISPLAY item holding -1.25 and a S9(4) COMP-3 item holding 3. -/
def exA : Item := ⟨.display, ⟨{ digits := 5, scale := 2, haveSign := true }, [48, 48, 49, 50, 117]⟩⟩
def exB : Item := ⟨.packed, ⟨{ digits := 4, haveSign := true }, [0, 0, 0x3C]⟩⟩

example : WFItem exA ∧ Holds false exA (-125 / 100) ∧ WFItem exB ∧ Holds false exB 3 := by
  refine ⟨⟨by decide, by decide⟩, ⟨-125, ⟨true, [0, 0, 1, 2, 5], by decide, by decide, by decide, by decide⟩, ?_⟩,
    ⟨by decide, by decide⟩, ⟨3, ⟨false, 3, by decide, by decide, by decide⟩, ?_⟩⟩
  · norm_num [exA]
  · norm_num [exB]

/-- -1.25 + 3 = 1.75 is wanted, and fits. -/
example : Wanted {} exA (-125 / 100 + 3) 175 ∧ Fits exA {} 175 := by
  refine ⟨?_, ⟨Or.inl rfl, ?_⟩⟩
  · unfold Wanted
    simp only [Bool.false_eq_true, if_false]
    have : ((-125 : ℚ) / 100 + 3) * (10 : ℚ) ^ exA.field.attr.scale = ((175 : ℤ) : ℚ) := by
      norm_num [exA]
    rw [this]; exact isTrunc_int 175
  · show (175 : Int).natAbs < 10 ^ 5
    decide

/-- -1.25 / 3 gives -0.41 remainder -0.02 in two decimals. -/
example : (divQuotient false ⟨-125, 2⟩ ⟨3, 0⟩ exA {}).2.toRat = -2 / 100 := by
  have : (divQuotient false ⟨-125, 2⟩ ⟨3, 0⟩ exA {}).2 = ⟨-2, 2⟩ := by
    set_option maxRecDepth 8000 in decide
  rw [this]; norm_num [Dec.toRat]

end Cob
