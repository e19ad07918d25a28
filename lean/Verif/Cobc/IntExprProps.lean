import Verif.Cobc.IntExpr
import Verif.Num.CondProps
import Verif.Move.NumericLemmas
/-
C59: an item or expression where an integer is needed stands for the integer part of its value.
-/
namespace Cob

/-! ### Items -/

theorem digitsVal_take (ds : List Nat) (hd : ∀ d ∈ ds, d ≤ 9) (k : Nat) (hk : k ≤ ds.length) :
    digitsVal (ds.take (ds.length - k)) = digitsVal ds / 10 ^ k := by
  induction ds with
  | nil => simp at hk; subst hk; simp [digitsVal]
  | cons d ds ih =>
    by_cases h : k = ds.length + 1
    · subst h
      have h9 := digitsVal_lt (d :: ds) hd
      simp only [List.length_cons] at h9 ⊢
      rw [Nat.sub_self, List.take_zero, Nat.div_eq_of_lt h9]
      rfl
    · have hk' : k ≤ ds.length := by simp at hk; omega
      have : (d :: ds).length - k = (ds.length - k) + 1 := by simp; omega
      rw [this, List.take_succ_cons, digitsVal, digitsVal, ih (fun x hx => hd x (by simp [hx])) hk',
        List.length_take, Nat.min_eq_left (by omega)]
      have hp : 10 ^ ds.length = 10 ^ (ds.length - k) * 10 ^ k := by rw [← pow_add]; congr 1; omega
      rw [hp, ← mul_assoc, Nat.add_comm (d * 10 ^ (ds.length - k) * 10 ^ k), Nat.add_mul_div_right _ _ (by positivity), Nat.add_comm]

theorem isTrunc_units (u : Int) (s : Nat) : IsTrunc ((u : ℚ) / 10 ^ (s : ℤ)) (u.tdiv (10 ^ s)) := by
  have := isTrunc_tdiv u (10 ^ s) (by positivity)
  rw [zpow_natCast]
  exact_mod_cast this

theorem tdiv_sign (b : Bool) (m p : Nat) :
    (if b then -(m : Int) else m).tdiv (p : Int) = if b then -((m / p : Nat) : Int) else ((m / p : Nat) : Int) := by
  cases b
  · simp [Int.tdiv_eq_ediv_of_nonneg]
  · simp only [if_true, Int.neg_tdiv]
    rw [Int.tdiv_eq_ediv_of_nonneg (by omega)]
    simp

theorem displayGetInt_scaled (ebc : Bool) (f : Field) (hw : WFDisplay f) (u : Int)
    (hu : HoldsUnits ebc ⟨.display, f⟩ u) (s : Nat) (hs : f.attr.scale = s) (hsz : s ≤ f.dsize) :
    displayGetInt ebc f = u.tdiv (10 ^ s) := by
  obtain ⟨neg, ds, hd, hne, h9, hu⟩ := hu
  simp only at hd hu
  obtain ⟨a, data⟩ := f
  simp only at hd hu hs hsz
  subst hd
  obtain ⟨i1, i2, -, -, -, i6⟩ := image_getSign ebc a neg ds hw.1 hne h9
  rw [i6] at hsz
  unfold displayGetInt
  simp only [i1, i2, hs]
  rw [if_neg (show ¬ ((s : Int) < 0) by omega)]
  have hsign : (if a.haveSign = true then if neg = true then (-1 : Int) else 1 else 0) < 0 ↔
      (a.haveSign && neg) = true := by
    cases a.haveSign <;> cases neg <;> simp
  have hval : ((ds.map (48 + ·)).take ((ds.map (48 + ·)).length - (s : ℤ).toNat)).foldl
        (fun (v : Int) (b : Nat) => v * 10 + ((b : Int) - 48)) 0 = ((digitsVal ds / 10 ^ s : Nat) : Int) := by
    rw [← List.map_take, foldDigits, List.length_map, Int.toNat_natCast, digitsVal_take ds h9 s hsz]
    simp
  rw [hval, hu]
  have := tdiv_sign (a.haveSign && neg) (digitsVal ds) (10 ^ s)
  push_cast at this ⊢
  rw [this]
  by_cases hc : (a.haveSign && neg) = true
  · rw [if_pos (hsign.mpr hc), if_pos hc]
  · rw [if_neg (fun h => hc (hsign.mp h)), if_neg hc]

theorem getD_append_left' (l r : List Nat) (i : Nat) (h : i < l.length) : (l ++ r).getD i 0 = l.getD i 0 := by
  rw [List.getD_eq_getElem?_getD, List.getD_eq_getElem?_getD, List.getElem?_append_left h]

theorem halfByte_image (D n s : Nat) (hs : s < 16) (i : Nat) (hi : i < D) :
    halfByte (packedImage D n s) (i + (1 - D % 2)) = (fixedDigits D n).getD i 0 := by
  unfold halfByte packedImage
  generalize hq : (if D % 2 = 0 then [0] else []) ++ fixedDigits D n ++ [s] = q
  have hlen : q.length = (1 - D % 2) + D + 1 := by
    rw [← hq]
    rcases Nat.mod_two_eq_zero_or_one D with h | h <;> simp [h, fixedDigits_length] <;> omega
  rw [packNibbles_nib q (by rw [hlen]; omega) (by
      intro x hx
      rw [← hq] at hx
      simp only [List.mem_append, List.mem_singleton] at hx
      rcases hx with (hx | hx) | hx
      · split at hx <;> simp at hx; omega
      · have := fixedDigits_le D n x hx; omega
      · omega) _ (by omega)]
  rw [← hq]
  have hf := fixedDigits_length D n
  rcases Nat.mod_two_eq_zero_or_one D with h | h
  · simp only [h, if_true, Nat.sub_zero, List.cons_append, List.nil_append, List.getD_cons_succ]
    rw [getD_append_left' _ _ _ (by omega)]
  · simp only [h, Nat.sub_self, Nat.add_zero]
    rw [if_neg (by omega), List.nil_append, getD_append_left' _ _ _ (by omega)]

theorem foldRange_take (ds : List Nat) (g : Nat → Nat) (hg : ∀ i < ds.length, g i = ds.getD i 0) (k : Nat)
    (hk : k ≤ ds.length) :
    (List.range k).foldl (fun (v : Int) (i : Nat) => v * 10 + g i) 0 = digitsVal (ds.take k) := by
  induction k with
  | zero => simp [digitsVal]
  | succ k ih =>
    rw [List.range_succ, List.foldl_append, ih (by omega), List.foldl_cons, List.foldl_nil, hg k (by omega)]
    have hlt : k < ds.length := by omega
    rw [List.take_succ_eq_append_getElem hlt]
    rw [digitsVal_append]
    simp [List.getD_eq_getElem?_getD, List.getElem?_eq_getElem hlt, digitsVal]

theorem packedGetInt_scaled (ebc : Bool) (f : Field) (hw : WFPacked f) (u : Int)
    (hu : HoldsUnits ebc ⟨.packed, f⟩ u) (s : Nat) (hs : f.attr.scale = s) (hsz : s ≤ f.attr.digits) :
    packedGetInt f = u.tdiv (10 ^ s) := by
  obtain ⟨neg, n, hn, hd, hu⟩ := hu
  simp only at hn hd hu
  have hsn : signNibble f.attr neg < 16 := by unfold signNibble; split <;> [skip; split] <;> omega
  unfold packedGetInt
  simp only
  have hlen := fixedDigits_length f.attr.digits n
  have hk : ((f.attr.digits : Int) - f.attr.scale).toNat = (fixedDigits f.attr.digits n).length - s := by
    rw [hs, hlen]; omega
  have hval : (List.range ((f.attr.digits : Int) - f.attr.scale).toNat).foldl
      (fun (v : Int) (i : Nat) => v * 10 + halfByte f.data (i + (1 - f.attr.digits % 2))) 0 =
      ((n / 10 ^ s : Nat) : Int) := by
    rw [foldRange_take (fixedDigits f.attr.digits n) (fun i => halfByte f.data (i + (1 - f.attr.digits % 2))) _ _ (by omega),
      hk, digitsVal_take _ (fixedDigits_le _ _) s (by omega), digitsVal_fixedDigits, Nat.mod_eq_of_lt hn]
    intro i hi
    rw [hlen] at hi
    rw [hd]
    exact halfByte_image _ _ _ hsn i hi
  rw [hval, hu]
  have := tdiv_sign (f.attr.haveSign && neg) n (10 ^ s)
  push_cast at this ⊢
  rw [this]
  have hsign : packedGetSign f < 0 ↔ (f.attr.haveSign && neg) = true := by
    have hq : packedGetSign f = if f.attr.haveSign then (if neg then -1 else 1) else 0 := by
      unfold packedGetSign
      have hl : f.data.length - 1 = f.attr.digits / 2 := by rw [hw.2]; omega
      have hlast : f.data.getD (f.attr.digits / 2) 0 % 16 = signNibble f.attr neg := by
        rw [hd]
        unfold packedImage
        generalize hq : (if f.attr.digits % 2 = 0 then [0] else []) ++ fixedDigits f.attr.digits n ++
          [signNibble f.attr neg] = q
        have hlen : q.length = 2 * (f.attr.digits / 2) + 2 := by
          rw [← hq]
          rcases Nat.mod_two_eq_zero_or_one f.attr.digits with h | h <;> simp [h, fixedDigits_length] <;> omega
        have := packNibbles_nib q (by omega) (by
          intro x hx
          rw [← hq] at hx
          simp only [List.mem_append, List.mem_singleton] at hx
          rcases hx with (hx | hx) | hx
          · split at hx <;> simp at hx; omega
          · have := fixedDigits_le _ n x hx; omega
          · omega) (2 * (f.attr.digits / 2) + 1) (by omega)
        rw [if_neg (by omega), show (2 * (f.attr.digits / 2) + 1) / 2 = f.attr.digits / 2 by omega] at this
        rw [this, show 2 * (f.attr.digits / 2) + 1 = q.length - 1 by omega, ← hq]
        simp
      rw [hl, hlast]
      unfold signNibble
      cases f.attr.haveSign <;> cases neg <;> simp
    rw [hq]
    cases f.attr.haveSign <;> cases neg <;> simp
  by_cases hc : (f.attr.haveSign && neg) = true
  · rw [if_pos (hsign.mpr hc), if_pos hc]
  · rw [if_neg (fun h => hc (hsign.mp h)), if_neg hc]

/-- The items that can be read as an integer: any zoned or packed item with at most as many decimals
as digits, and binary items without decimals (see `C59_finding_scaled_binary` for the others). -/
def IntReadable (it : Item) : Prop :=
  0 ≤ it.field.attr.scale ∧
  match it.usage with
  | .display => it.field.attr.scale ≤ it.field.dsize
  | .packed => it.field.attr.scale ≤ it.field.attr.digits
  | .binary => it.field.attr.scale = 0

/-- **C59** An item used where an integer is needed (subscript, reference modification, TIMES, integer
argument) stands for the integer part of the number it holds, when that fits in a C `int`: any usage,
size, sign convention, byte order and number of decimals. -/
theorem C59_item (ebc : Bool) (it : Item) (hw : WFItem it) (x : ℚ) (hx : Holds ebc it x) (hr : IntReadable it)
    (hfit : |x| < 2147483648) : IsTrunc x (outputInteger ebc it) ∧ IsTrunc x (getInt ebc it) := by
  obtain ⟨u, hu, rfl⟩ := hx
  obtain ⟨us, f⟩ := it
  obtain ⟨h0, hr⟩ := hr
  simp only at h0 hr ⊢
  obtain ⟨s, hs⟩ : ∃ s : Nat, f.attr.scale = s := ⟨f.attr.scale.toNat, by omega⟩
  rw [hs]
  cases us with
  | display =>
    simp only at hr
    have hsz : s ≤ f.dsize := by omega
    have hg := displayGetInt_scaled ebc f hw u hu s hs hsz
    have hgi : getInt ebc ⟨.display, f⟩ = u.tdiv (10 ^ s) := hg
    refine ⟨?_, hgi ▸ isTrunc_units u s⟩
    have ho : outputInteger ebc ⟨.display, f⟩ = u.tdiv (10 ^ s) := by
      unfold outputInteger
      simp only
      split
      · rename_i hc
        obtain ⟨neg, ds, hd, hne, h9, hu⟩ := hu
        simp only at hd hu
        have hdd : f.data = ds.map (48 + ·) := by rw [hd]; simp [zonedImage, hc.2.2.2]
        have hl : ((f.data.length : Int) - f.attr.scale).toNat = ds.length - s := by
          rw [hdd, hs, List.length_map]; omega
        have hsl : s ≤ ds.length := by
          have := hc.2.1
          rw [hdd, hs, List.length_map] at this
          omega
        rw [hl, hdd, ← List.map_take, getNumdisp_digits _ (fun d hd => h9 d (List.mem_of_mem_take hd)),
          digitsVal_take ds h9 s hsl, hu, hc.2.2.2]
        have := tdiv_sign false (digitsVal ds) (10 ^ s)
        push_cast at this ⊢
        simpa using this.symm
      · exact hgi
    rw [ho]
    exact isTrunc_units u s
  | packed =>
    simp only at hr
    have hsz : s ≤ f.attr.digits := by omega
    have hgi : getInt ebc ⟨.packed, f⟩ = u.tdiv (10 ^ s) := packedGetInt_scaled ebc f hw u hu s hs hsz
    refine ⟨?_, hgi ▸ isTrunc_units u s⟩
    have ho : outputInteger ebc ⟨.packed, f⟩ = u.tdiv (10 ^ s) := by
      unfold outputInteger
      simp only
      split
      · rename_i hc
        have hs0 : s = 0 := by omega
        subst hs0
        obtain ⟨neg, m, hm, hd, hu⟩ := hu
        simp only at hm hd hu
        rw [hd, getPackedInt_image _ _ _ hw.1
          (by unfold signNibble; split <;> [skip; split] <;> omega) hm, hu]
        unfold signNibble
        cases f.attr.haveSign <;> cases neg <;> simp
      · exact hgi
    rw [ho]
    exact isTrunc_units u s
  | binary =>
    simp only at hr
    have hs0 : s = 0 := by omega
    subst hs0
    have hwb : WFBinary f := hw
    have hub : binaryHolds f u := hu
    have hxu : (u : ℚ) / 10 ^ (((0 : Nat) : Int)) = (u : ℚ) := by simp
    rw [hs, hxu] at hfit
    have hfu : |u| < 2147483648 := by exact_mod_cast hfit
    have hb := abs_lt.1 hfu
    have e2 : decSetBinary f = ⟨u, f.attr.scale⟩ := (C03_load f hwb u).mpr hub
    have e3 : binGetInt64 f = u := by
      cases hsg : f.attr.haveSign
      · have e4 : (binGetUint64 f : Int) = u := by
          simp only [decSetBinary, hsg, Bool.false_eq_true, if_false, Dec.mk.injEq] at e2
          exact e2.1
        have e5 : binGetInt64 f = toInt64 (binGetUint64 f) := by
          unfold binGetInt64 binGetUint64
          simp only [hsg, Bool.false_eq_true, if_false]
          split <;> rfl
        rw [e5]
        unfold toInt64
        rw [Nat.mod_eq_of_lt (by omega), if_pos (by omega)]
        exact e4
      · simp only [decSetBinary, hsg, if_true, Dec.mk.injEq] at e2
        exact e2.1
    have hgi : getInt ebc ⟨.binary, f⟩ = u := by
      show toCInt (binGetInt64 f) = u
      rw [e3, toCInt_id _ (by omega) (by omega)]
    have ho : outputInteger ebc ⟨.binary, f⟩ = u := by
      unfold outputInteger
      simp only
      split
      · exact binaryHolds_unique f _ _ (cmpLoad_holds f hwb) hub
      · split
        · exact hgi
        · rename_i hsg
          have hnn := binaryHolds_nonneg f u hub (by simpa using hsg)
          rw [hgi, Int.emod_eq_of_lt hnn (by omega)]
    rw [ho, hgi, hxu]
    exact ⟨isTrunc_int u, isTrunc_int u⟩

example : outputInteger false ⟨.packed, ⟨{ digits := 4, scale := 1, haveSign := true }, [0x01, 0x23, 0x4d]⟩⟩ = -123 := by
  decide +kernel

/-- **C59** A binary item without decimals, of 1, 2, 4 or 8 bytes, stands for its exact value whatever that is. -/
theorem C59_binary (ebc : Bool) (f : Field) (hw : WFBinary f) (u : Int) (hu : HoldsUnits ebc ⟨.binary, f⟩ u)
    (hl : f.data.length = 1 ∨ f.data.length = 2 ∨ f.data.length = 4 ∨ f.data.length = 8) :
    outputInteger ebc ⟨.binary, f⟩ = u := by
  unfold outputInteger
  simp only [if_pos hl]
  exact binaryHolds_unique f _ _ (cmpLoad_holds f hw) hu

example : outputInteger false ⟨.binary, ⟨{ digits := 18, haveSign := true, swap := true }, [0x80, 0, 0, 0, 0, 0, 0, 0]⟩⟩ = -2 ^ 63 := by
  decide +kernel

/-- **C59** (finding) The decimals of a binary item are not taken off: a PIC 9(3)V9 COMP item holding
1.2, used as a subscript, counts as 12. -/
theorem C59_finding_scaled_binary :
    let it : Item := ⟨.binary, ⟨{ digits := 4, scale := 1, swap := true }, [0, 12]⟩⟩
    (readItem false it).1 = some ⟨12, 1⟩ ∧ outputInteger false it = 12 := by decide +kernel

/-! ### Expressions -/

/-- The integer an expression of sums, differences and products stands for: its items stand for the
integer part of the number they hold. -/
inductive IntMeans (ebc : Bool) : IExp → Int → Prop
  | lit (n : Int) (h : -2147483648 ≤ n ∧ n < 2147483648) : IntMeans ebc (.lit n) n
  | item (it : Item) (x : ℚ) (v : Int) (hw : WFItem it) (hx : Holds ebc it x) (hr : IntReadable it)
      (hfit : |x| < 2147483648) (hv : IsTrunc x v) : IntMeans ebc (.item it) v
  | add {a b : IExp} {v w : Int} : IntMeans ebc a v → IntMeans ebc b w → IntMeans ebc (.op .add a b) (v + w)
  | sub {a b : IExp} {v w : Int} : IntMeans ebc a v → IntMeans ebc b w → IntMeans ebc (.op .sub a b) (v - w)
  | mul {a b : IExp} {v w : Int} : IntMeans ebc a v → IntMeans ebc b w → IntMeans ebc (.op .mul a b) (v * w)

theorem conv_mod (t : CTy) (z : Int) : t.conv z % 4294967296 = z % 4294967296 := by
  cases t <;> simp only [CTy.conv, toCInt] <;> omega

theorem IntMeans.mod {ebc : Bool} {e : IExp} {v : Int} (h : IntMeans ebc e v) :
    (e.run ebc).2 % 4294967296 = v % 4294967296 := by
  induction h with
  | lit n h => simp only [IExp.run]; exact conv_mod .int n
  | item it x v hw hx hr hfit hv =>
    simp only [IExp.run]
    rw [isTrunc_unique x _ _ (C59_item ebc it hw x hx hr hfit).1 hv]
  | add _ _ iha ihb =>
    simp only [IExp.run, IOp.run, conv_mod]
    rw [Int.add_emod, conv_mod, conv_mod, iha, ihb, ← Int.add_emod]
  | sub _ _ iha ihb =>
    simp only [IExp.run, IOp.run, conv_mod]
    rw [Int.sub_emod, conv_mod, conv_mod, iha, ihb, ← Int.sub_emod]
  | mul _ _ iha ihb =>
    simp only [IExp.run, IOp.run, conv_mod]
    rw [Int.mul_emod, conv_mod, conv_mod, iha, ihb, ← Int.mul_emod]

/-- **C59** An expression of sums, differences and products of items and integers in an integer context,
taken as the C `int` it is passed as, is the exact value, if that fits: whatever the usages, sizes and
signs of the items, which decide the C types used on the way. -/
theorem C59_expression (ebc : Bool) (e : IExp) (v : Int) (h : IntMeans ebc e v)
    (hfit : -2147483648 ≤ v ∧ v < 2147483648) : CTy.int.conv (e.run ebc).2 = v := by
  have := h.mod
  simp only [CTy.conv, toCInt]
  omega

example : CTy.int.conv (IExp.run false (.op .sub
    (.item ⟨.binary, ⟨{ digits := 9, swap := true }, [0, 0, 0, 2]⟩⟩) (.lit 5))).2 = -3 := by decide +kernel

/-- **C59** (finding) Division is carried out on integers, at each step: `A / 2 * 2` with A = 3 is 2. -/
theorem C59_finding_division :
    (IExp.run false (.op .mul (.op .div (.item ⟨.display, ⟨{ digits := 1 }, [51]⟩⟩) (.lit 2)) (.lit 2))).2 = 2 := by
  decide +kernel

/-- **C59** (finding) With an unsigned four-byte binary item negative intermediate results are large
positive numbers when divided: `(A - 5) / 2` with A = 1 is 2147483646, not -2. -/
theorem C59_finding_unsigned :
    (IExp.run false (.op .div (.op .sub (.item ⟨.binary, ⟨{ digits := 9, swap := true }, [0, 0, 0, 1]⟩⟩)
      (.lit 5)) (.lit 2))).2 = 2147483646 := by decide +kernel

/-- An unsigned binary item of more than two bytes occurs. -/
def IExp.hasUnsigned : IExp → Bool
  | .lit _ => false
  | .item it => it.usage == .binary && !it.field.attr.haveSign && it.field.data.length != 1 && it.field.data.length != 2
  | .op _ a b => a.hasUnsigned || b.hasUnsigned

/-- A binary item of eight bytes occurs. -/
def IExp.hasWide : IExp → Bool
  | .lit _ => false
  | .item it => it.usage == .binary && it.field.data.length == 8
  | .op _ a b => a.hasWide || b.hasWide

/-- The number can be had on the way to the value of `e`: 32 bits, or 64 if there is an item of eight bytes; where an unsigned item takes
part it may not be negative. -/
def InInt (e : IExp) (v : Int) : Prop :=
  (if e.hasWide then -9223372036854775808 ≤ v ∧ v < 9223372036854775808 else -2147483648 ≤ v ∧ v < 2147483648) ∧
    (e.hasUnsigned = true → 0 ≤ v)

/-- The integer an expression with divisions stands for, each quotient truncated; the numbers on the way fit. -/
inductive IntStep (ebc : Bool) : IExp → Int → Prop
  | lit (n : Int) (h : -2147483648 ≤ n ∧ n < 2147483648) : IntStep ebc (.lit n) n
  | item (it : Item) (x : ℚ) (v : Int) (hw : WFItem it) (hx : Holds ebc it x) (hr : IntReadable it)
      (hfit : |x| < 2147483648) (hv : IsTrunc x v) : IntStep ebc (.item it) v
  | wide (f : Field) (v : Int) (hw : WFBinary f) (hu : HoldsUnits ebc ⟨.binary, f⟩ v) (hs : f.attr.scale = 0) (hl : f.data.length = 8) :
      IntStep ebc (.item ⟨.binary, f⟩) v
  | add {a b : IExp} {v w : Int} : IntStep ebc a v → IntStep ebc b w →
      InInt (.op .add a b) v → InInt (.op .add a b) w → InInt (.op .add a b) (v + w) → IntStep ebc (.op .add a b) (v + w)
  | sub {a b : IExp} {v w : Int} : IntStep ebc a v → IntStep ebc b w →
      InInt (.op .sub a b) v → InInt (.op .sub a b) w → InInt (.op .sub a b) (v - w) → IntStep ebc (.op .sub a b) (v - w)
  | mul {a b : IExp} {v w : Int} : IntStep ebc a v → IntStep ebc b w →
      InInt (.op .mul a b) v → InInt (.op .mul a b) w → InInt (.op .mul a b) (v * w) → IntStep ebc (.op .mul a b) (v * w)
  | div {a b : IExp} {v w q : Int} : IntStep ebc a v → IntStep ebc b w →
      InInt (.op .div a b) v → InInt (.op .div a b) w → InInt (.op .div a b) q →
      w ≠ 0 → IsTrunc ((v : ℚ) / w) q → IntStep ebc (.op .div a b) q

theorem run_unsigned (ebc : Bool) (e : IExp) : e.hasUnsigned = false → (e.run ebc).1 = .int ∨ (e.run ebc).1 = .llong := by
  induction e with
  | lit n => intro _; exact Or.inl rfl
  | item it =>
    intro h
    simp only [IExp.run, itemTy]
    split
    · rename_i hu
      simp only [IExp.hasUnsigned, hu, beq_self_eq_true, Bool.true_and, Bool.and_eq_false_iff, Bool.not_eq_false', bne_eq_false_iff_eq] at h
      split
      · simp
      · split
        · split
          · simp
          · simp_all
        · split
          · simp
          · simp_all
    · simp
  | op o a b iha ihb =>
    intro h
    simp only [IExp.hasUnsigned, Bool.or_eq_false_iff] at h
    rcases iha h.1 with ha | ha <;> rcases ihb h.2 with hb | hb <;> simp [IExp.run, ha, hb, CTy.join]

theorem run_wide (ebc : Bool) (e : IExp) : e.hasWide = true → (e.run ebc).1 = .llong ∨ (e.run ebc).1 = .ullong := by
  induction e with
  | lit n => intro h; cases h
  | item it =>
    intro h
    simp only [IExp.hasWide, Bool.and_eq_true, beq_iff_eq] at h
    simp only [IExp.run, itemTy, h.1, h.2]
    cases it.field.attr.haveSign <;> simp
  | op o a b iha ihb =>
    intro h
    simp only [IExp.hasWide, Bool.or_eq_true] at h
    simp only [IExp.run]
    generalize (a.run ebc).1 = s at *
    generalize (b.run ebc).1 = t at *
    rcases h with h | h
    · rcases iha h with rfl | rfl <;> cases t <;> simp [CTy.join]
    · rcases ihb h with rfl | rfl <;> cases s <;> simp [CTy.join]

theorem conv_in {ebc : Bool} {e : IExp} {v : Int} (h : InInt e v) : (e.run ebc).1.conv v = v := by
  obtain ⟨h1, h2⟩ := h
  have hu := run_unsigned ebc e
  have hw := run_wide ebc e
  generalize (e.run ebc).1 = t at *
  cases hU : e.hasUnsigned <;> cases hW : e.hasWide <;> rw [hU] at hu h2 <;> rw [hW] at hw h1 <;>
    simp only [if_true, Bool.false_eq_true, if_false, forall_const, false_implies] at h1 h2 hu hw <;>
    cases t <;> simp only [CTy.conv, toCInt] <;> first | omega | (exfalso; simp at hu; done) | (exfalso; simp at hw; done)

/-- **C59** With divisions: every quotient is truncated, and the value is exact as long as the numbers on the way fit (32 bits, or 64 if a binary
item of eight bytes takes part; where an unsigned binary item takes part, not negative). -/
theorem C59_division (ebc : Bool) (e : IExp) (v : Int) (h : IntStep ebc e v) : (e.run ebc).2 = v := by
  induction h with
  | lit n h => simp only [IExp.run, toCInt]; omega
  | item it x v hw hx hr hfit hv => exact isTrunc_unique x _ _ (C59_item ebc it hw x hx hr hfit).1 hv
  | wide f v hw hu hs hl => exact C59_binary ebc f hw v hu (by omega)
  | @add a b v w _ _ h1 h2 h3 iha ihb =>
    have e1 := conv_in (ebc := ebc) h1
    have e2 := conv_in (ebc := ebc) h2
    have e3 := conv_in (ebc := ebc) h3
    simp only [IExp.run] at e1 e2 e3 ⊢
    rw [iha, ihb, e1, e2]
    exact e3
  | @sub a b v w _ _ h1 h2 h3 iha ihb =>
    have e1 := conv_in (ebc := ebc) h1
    have e2 := conv_in (ebc := ebc) h2
    have e3 := conv_in (ebc := ebc) h3
    simp only [IExp.run] at e1 e2 e3 ⊢
    rw [iha, ihb, e1, e2]
    exact e3
  | @mul a b v w _ _ h1 h2 h3 iha ihb =>
    have e1 := conv_in (ebc := ebc) h1
    have e2 := conv_in (ebc := ebc) h2
    have e3 := conv_in (ebc := ebc) h3
    simp only [IExp.run] at e1 e2 e3 ⊢
    rw [iha, ihb, e1, e2]
    exact e3
  | @div a b v w q _ _ h1 h2 h3 hw hq iha ihb =>
    have e1 := conv_in (ebc := ebc) h1
    have e2 := conv_in (ebc := ebc) h2
    have e3 := conv_in (ebc := ebc) h3
    simp only [IExp.run] at e1 e2 e3 ⊢
    rw [iha, ihb, e1, e2]
    have e : IOp.div.run v w = q := isTrunc_unique _ _ _ (isTrunc_tdiv v w hw) hq
    rw [e]
    exact e3

example : IntStep false (.op .div (.lit (-7)) (.lit 2)) (-3) := by
  refine .div (.lit _ (by decide)) (.lit _ (by decide)) ?_ ?_ ?_ (by decide) ?_
  · exact ⟨by decide, by decide⟩
  · exact ⟨by decide, by decide⟩
  · exact ⟨by decide, by decide⟩
  · exact isTrunc_tdiv (-7) 2 (by decide)

/- A PIC S9(18) COMP item holding 5000000000, divided by 1000. -/
example : (IExp.run false (.op .div (.item ⟨.binary, ⟨{ digits := 18, haveSign := true, swap := true }, [0, 0, 0, 1, 0x2a, 0x05, 0xf2, 0]⟩⟩)
    (.lit 1000))).2 = 5000000 := by decide +kernel
example : InInt (.op .div (.item ⟨.binary, ⟨{ digits := 18, haveSign := true, swap := true }, [0, 0, 0, 1, 0x2a, 0x05, 0xf2, 0]⟩⟩)
    (.lit 1000)) 5000000000 := ⟨by decide, by decide⟩

end Cob
