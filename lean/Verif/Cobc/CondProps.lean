import Verif.Cobc.Cond
import Verif.Cobc.MoveProps
import Verif.Num.CondProps
import Verif.Cmp.CompareProps
/-
C60: relations between items, literals and constants, condition-names and SET ... TO TRUE.
-/
namespace Cob

/-! ### Specification -/

/-- The number a numeric operand stands for. -/
def COpnd.Number (ebc : Bool) : COpnd → ℚ → Prop
  | .numItem it, X => WFItem it ∧ Holds ebc it X ∧ (it.usage = .packed → it.field.attr.digits ≤ 38)
  | .numLit l, X => l.Proper ∧ 0 ≤ l.scale ∧ X = l.value
  | .zero, X => X = 0
  | _, _ => False

/-- Is the operand a numeric item (whose contents are then only known at run time)? -/
def COpnd.IsNumItem : COpnd → Prop
  | .numItem _ => True
  | _ => False

/-- The items read correctly by the generated code, see C49: a right operand with a `P` picture only if it is
zoned and within the range of an `int`, or too wide for one; and the number -2147483648 is not read from an item on the right. -/
def COpnd.ReadableRight (Y : ℚ) : COpnd → Prop
  | .numItem it => RightOk (.item it) Y ∧ Y ≠ -2147483648
  | _ => True

/-- See C49: a packed item holding a negative zero. -/
def COpnd.NotNegativeZero (X Y : ℚ) : COpnd → Prop
  | .numItem it => it.usage = .packed → X = 0 → Y = 0 → it.field.data.getLast? ≠ some 0x0D
  | _ => True

/-- The characters a text operand stands for, when the other operand has `n` characters. -/
def COpnd.shown (n : Nat) : COpnd → List Nat
  | .text _ _ _ b => b
  | .lit b => b
  | .numLit l => l.data
  | .all b => repeated b n
  | .fig c => List.replicate n c
  | .zero => List.replicate n 48
  | .numItem _ => []

/-- Its number of characters; ALL literals and figurative constants adapt to the other operand. -/
def COpnd.len : COpnd → Option Nat
  | .text _ _ _ b => some b.length
  | .lit b => some b.length
  | .numLit l => some l.data.length
  | _ => none

/-- Text operands: what the compiler knows of the size is right; ALL literals are not empty; numeric literals have
digits and no sign. -/
def COpnd.TextOk : COpnd → Prop
  | .text _ size odo b => ∀ n, size = some n → odo = false ∨ n = 1 → b.length = n
  | .numLit l => l.Proper ∧ l.sign = 0
  | .all b => b ≠ []
  | .numItem _ => False
  | _ => True

/-! ### Numbers -/

theorem ordInt_swap (o : Ordering) : -ordInt o = ordInt o.swap := by cases o <;> rfl

theorem compare_swapQ (x y : ℚ) : (compare x y).swap = compare y x := by
  rcases lt_trichotomy x y with h | h | h
  · rw [compare_lt_iff_lt.mpr h, compare_gt_iff_gt.mpr h]; rfl
  · subst h; simp
  · rw [compare_gt_iff_gt.mpr h, compare_lt_iff_lt.mpr h]; rfl

theorem zeroItem_holds (ebc : Bool) : WFItem ⟨.display, ⟨{ digits := 1 }, [48]⟩⟩ ∧
    Holds ebc ⟨.display, ⟨{ digits := 1 }, [48]⟩⟩ 0 := by
  refine ⟨⟨by simp, by simp⟩, 0, ⟨false, [0], ?_, by simp, by simp, ?_⟩, by simp⟩
  · rfl
  · rfl

theorem lit_small (l : NumLit) (h : l.Proper) (hf : l.fitsInt = true) (hs : 0 ≤ l.scale) :
    l.getInt.natAbs < 10 ^ 9 ∧ (l.getInt : ℚ) = l.value := by
  unfold NumLit.fitsInt at hf
  simp only [decide_eq_true_eq] at hf
  have h0 : l.scale = 0 := by omega
  obtain ⟨ds, he, hne, hd, hm⟩ := lit_digits l h
  have hu : l.units.natAbs = digitsVal ds := by
    unfold NumLit.units
    rw [hm]
    split <;> simp
  refine ⟨?_, ?_⟩
  · rw [getInt_units l h, hu]
    have h1 := digitsVal_lt ds hd
    have h2 : ds.length ≤ 9 := by
      have := hf.2
      rw [he, List.length_map] at this
      omega
    exact lt_of_lt_of_le h1 (Nat.pow_le_pow_right (by decide) h2)
  · rw [getInt_units l h]
    unfold NumLit.value
    rw [h0]
    simp

/-- C60: a relation between numeric operands - items, literals, ZERO, at least one of them an item - through
whatever routine the compiler selects, compares the numbers: any usage, size, sign and byte order, any scale, any
history of earlier comparisons, with the check of subscripts on or off.  Beyond C49 this covers literals with
decimals, ZERO, and literals on the left. -/
theorem C60_number (env : CondEnv) (c : CmpCache) (hc : CacheOk c) (x y : COpnd) (X Y : ℚ)
    (hx : x.Number env.ebc X) (hy : y.Number env.ebc Y) (hi : x.IsNumItem ∨ y.IsNumItem)
    (hr : y.ReadableRight Y) (hz : x.NotNegativeZero X Y) :
    (condRun env c x y).1 = some (ordInt (compare X Y)) ∧ CacheOk (condRun env c x y).2 := by
  have hcob : cobCmp env.ebc env.col x.opnd y.opnd = some (ordInt (compare X Y)) := by
    cases x with
    | numItem it =>
      cases y with
      | numItem jt =>
        simp [COpnd.opnd, cobCmp, (C09_items env.ebc it jt hx.1 hy.1 X Y hx.2.1 hy.2.1).1]
      | numLit l =>
        obtain ⟨w1, w2, w3, w4⟩ := lit_holds env.ebc l hy.1
        rw [← hy.2.2] at w3
        simp [COpnd.opnd, cobCmp, (C09_items env.ebc it l.item hx.1 w1 X Y hx.2.1 w3).1]
      | zero =>
        cases hy
        have := (C09_items env.ebc it it hx.1 hx.1 X X hx.2.1 hx.2.1).2 0
        simp only [Int.cast_zero] at this
        simp [COpnd.opnd, cobCmp, this]
      | _ => exact hy.elim
    | numLit l =>
      obtain ⟨w1, w2, w3, w4⟩ := lit_holds env.ebc l hx.1
      rw [← hx.2.2] at w3
      cases y with
      | numItem jt =>
        simp [COpnd.opnd, cobCmp, (C09_items env.ebc l.item jt w1 hy.1 X Y w3 hy.2.1).1]
      | numLit l => rcases hi with h | h <;> exact h.elim
      | zero => rcases hi with h | h <;> exact h.elim
      | _ => exact hy.elim
    | zero =>
      cases hx
      cases y with
      | numItem jt =>
        have := (C09_items env.ebc jt jt hy.1 hy.1 Y Y hy.2.1 hy.2.1).2 0
        simp only [Int.cast_zero] at this
        simp [COpnd.opnd, cobCmp, this, ordInt_swap, compare_swapQ]
      | numLit l => rcases hi with h | h <;> exact h.elim
      | zero => rcases hi with h | h <;> exact h.elim
      | _ => exact hy.elim
    | _ => exact hx.elim
  by_cases hsub : env.subscripts = true
  · unfold condRun
    rw [if_pos hsub]
    exact ⟨hcob, hc⟩
  -- a constant on the left
  have hleft : ∀ (it : Item) (jt : Item), WFItem it → Holds env.ebc it X → y = .numItem jt →
      Cob.fitsInt (.item jt) = true →
      (if isUnsignedBinary (.item jt) then
        ((cmpInt env.ebc it (operandInt env.ebc (.item jt) % 4294967296)).map ordInt, c)
      else ((cmpInt env.ebc it (toCInt (operandInt env.ebc (.item jt)))).map ordInt, c)) =
        (some (ordInt (compare X Y)), c) := by
    intro it jt hw hh hyj hf
    subst hyj
    obtain ⟨hval, hub, hsb⟩ := operandInt_value env.ebc (.item jt) Y hf ⟨hy.1, hy.2.1⟩ (rightOk_readable _ _ hr.1 hf)
    by_cases hu : isUnsignedBinary (.item jt) = true
    · have := hub hu
      rw [if_pos hu, Int.emod_eq_of_lt this.1 this.2, cmpInt_value env.ebc it hw X hh, hval]
      rfl
    · have := hsb (by simpa using hu)
      rw [if_neg hu, toCInt_id _ this.1 this.2, cmpInt_value env.ebc it hw X hh, hval]
      rfl
  cases x with
  | numItem it =>
    cases y with
    | numItem jt =>
      have h49 := C49_condition env.ebc c hc it hx.1 X hx.2.1 hx.2.2 (.item jt) Y ⟨hy.1, hy.2.1⟩ hr.1 hr.2 hz
      unfold numCond at h49
      unfold condRun
      rw [if_neg hsub]
      by_cases hk : chkNumCond it (.item jt) = true
      · rw [if_pos hk] at h49
        rw [if_pos (by exact hk)]
        have h1 := h49.1
        simp only [Option.some.injEq] at h1
        exact ⟨by simp [COpnd.storage, h1], hc⟩
      · rw [if_neg hk] at h49
        rw [if_neg (by exact hk)]
        by_cases hf : Cob.fitsInt (.item jt) = true
        · rw [if_pos hf] at h49
          rw [if_pos (by simpa [COpnd.isNumeric, COpnd.fits] using hf)]
          exact ⟨by simp [COpnd.operand, optimCondAny, h49.1], h49.2⟩
        · rw [if_neg (by simpa [COpnd.isNumeric, COpnd.fits] using hf)]
          simp only [COpnd.oneChar, COpnd.alphaSize]
          simp only [COpnd.isZero, Bool.and_false, Bool.false_eq_true, if_false]
          exact ⟨hcob, hc⟩
    | numLit l =>
      unfold condRun
      rw [if_neg hsub, if_neg (by simp [COpnd.numCond])]
      by_cases hf : l.fitsInt = true
      · obtain ⟨s1, s2⟩ := lit_small l hy.1 hf hy.2.1
        have hY : Y = (l.getInt : ℚ) := by rw [s2]; exact hy.2.2
        have h49 := C49_condition env.ebc c hc it hx.1 X hx.2.1 hx.2.2 (.lit l.getInt) Y hY
          trivial (by
            rw [hY]
            intro h
            have : l.getInt = -2147483648 := by exact_mod_cast h
            rw [this] at s1
            revert s1
            decide) hz
        unfold numCond at h49
        rw [if_neg (by simp [chkNumCond]), if_pos (by simpa [Cob.fitsInt] using s1)] at h49
        rw [if_pos (by simpa [COpnd.isNumeric, COpnd.fits] using hf)]
        exact ⟨by simp [COpnd.operand, hf, optimCondAny, h49.1], by
          simp only [COpnd.operand, hf, optimCondAny, if_true]; exact h49.2⟩
      · rw [if_neg (by simpa [COpnd.isNumeric, COpnd.fits] using hf)]
        simp only [COpnd.oneChar, COpnd.alphaSize]
        simp only [COpnd.isZero, Bool.and_false, Bool.false_eq_true, if_false]
        exact ⟨hcob, hc⟩
    | zero =>
      cases hy
      have h49 := C49_condition env.ebc c hc it hx.1 X hx.2.1 hx.2.2 (.lit 0) 0 (by simp [OperandHolds])
        trivial (by norm_num) hz
      unfold numCond at h49
      rw [if_neg (by simp [chkNumCond]), if_pos (by decide)] at h49
      unfold condRun
      rw [if_neg hsub, if_neg (by simp [COpnd.numCond]), if_neg (by simp [COpnd.fits])]
      simp only [COpnd.oneChar, COpnd.alphaSize]
      rw [if_pos (by simp [COpnd.isNumeric, COpnd.isZero])]
      exact ⟨by simp [optimCondAny, h49.1], h49.2⟩
    | _ => exact hy.elim
  | numLit l =>
    obtain ⟨w1, w2, w3, w4⟩ := lit_holds env.ebc l hx.1
    rw [← hx.2.2] at w3
    cases y with
    | numItem jt =>
      unfold condRun
      rw [if_neg hsub, if_neg (by simp [COpnd.numCond])]
      by_cases hf : Cob.fitsInt (.item jt) = true
      · rw [if_pos (by simpa [COpnd.isNumeric, COpnd.fits] using hf)]
        simp only [COpnd.operand, optimCondAny, COpnd.leftItem]
        rw [hleft l.item jt w1 w3 rfl hf]
        exact ⟨rfl, hc⟩
      · rw [if_neg (by simpa [COpnd.isNumeric, COpnd.fits] using hf)]
        simp only [COpnd.oneChar]
        have ha : COpnd.alphaSize env.alphabets (.numItem jt) = none := rfl
        rw [ha]
        simp only [COpnd.isZero, Bool.and_false, Bool.false_eq_true, if_false]
        generalize COpnd.alphaSize env.alphabets (.numLit l) = o
        rcases o with _ | _ | _ | _ <;> exact ⟨hcob, hc⟩
    | numLit l => rcases hi with h | h <;> exact h.elim
    | zero => rcases hi with h | h <;> exact h.elim
    | _ => exact hy.elim
  | zero =>
    have hx' : X = 0 := hx
    obtain ⟨w1, w3⟩ := zeroItem_holds env.ebc
    rw [← hx'] at w3
    cases y with
    | numItem jt =>
      unfold condRun
      rw [if_neg hsub, if_neg (by simp [COpnd.numCond])]
      by_cases hf : Cob.fitsInt (.item jt) = true
      · rw [if_pos (by simpa [COpnd.isNumeric, COpnd.fits] using hf)]
        simp only [COpnd.operand, optimCondAny, COpnd.leftItem]
        rw [hleft _ jt w1 w3 rfl hf]
        exact ⟨rfl, hc⟩
      · rw [if_neg (by simpa [COpnd.isNumeric, COpnd.fits] using hf)]
        simp only [COpnd.oneChar, COpnd.alphaSize]
        simp only [COpnd.isZero, Bool.and_false, Bool.false_eq_true, if_false]
        exact ⟨hcob, hc⟩
    | numLit l => rcases hi with h | h <;> exact h.elim
    | zero => rcases hi with h | h <;> exact h.elim
    | _ => exact hy.elim
  | _ => exact hx.elim

/-! ### Text -/

theorem lit_text (ebc : Bool) (l : NumLit) (h : l.sign = 0) :
    cmpText ebc (.num l.item) = l.data ∧ rawBytes (.num l.item) = l.data ∧ stripped ebc (.num l.item) = l.data := by
  unfold NumLit.item
  simp [h, cmpText, rawBytes, stripped, Field.getSign]

theorem repeated_one (c n : Nat) : repeated [c] n = List.replicate n c := by
  apply List.ext_getElem
  · simp [repeated]
  · intro i h1 h2; simp [repeated, Nat.mod_one]

theorem repeated_self (b : List Nat) : repeated b b.length = b := by
  apply List.ext_getElem
  · simp [repeated]
  · intro i h1 h2
    simp [repeated, Nat.mod_eq_of_lt h2, h2]

/-- What `cob_cmp` answers for text operands. -/
theorem cmp_shown (ebc : Bool) (col : Option (Nat → Nat)) (x y : COpnd) (hx : x.TextOk) (hy : y.TextOk)
    (hl : x.len.isSome = true ∨ y.len.isSome = true) (hn : ¬ (x.isNumeric = true ∧ y.isNumeric = true)) :
    cobCmp ebc col x.opnd y.opnd =
      some (cmpSimple col (x.shown (y.len.getD 0)) (y.shown (x.len.getD 0))) := by
  have hT : ∀ a b : List Nat, b ≠ [] → cmpWithAll ebc col (.text a) b = cmpSimple col a (repeated b a.length) :=
    fun a b h => cmpWithAll_spec ebc col (.text a) b h rfl
  have hG : ∀ a b : List Nat, b ≠ [] → cmpWithAll ebc col (.group a) b = cmpSimple col a (repeated b a.length) :=
    fun a b h => cmpWithAll_spec ebc col (.group a) b h rfl
  have hN : ∀ (l : NumLit) (b : List Nat), l.sign = 0 → b ≠ [] →
      cmpWithAll ebc col (.num l.item) b = cmpSimple col l.data (repeated b l.data.length) := by
    intro l b hl h
    have := cmpWithAll_spec ebc col (.num l.item) b h rfl
    rw [(lit_text ebc l hl).2.2] at this
    exact this
  have ct : ∀ a, cmpText ebc (.text a) = a := fun _ => rfl
  have rt : ∀ a, rawBytes (.text a) = a := fun _ => rfl
  have rg : ∀ a, rawBytes (.group a) = a := fun _ => rfl
  have n1 : ∀ c : Nat, [c] ≠ [] := by simp
  cases x with
  | numItem it => exact hx.elim
  | numLit l =>
    obtain ⟨l1, l2, l3⟩ := lit_text ebc l hx.2
    cases y with
    | numItem it => exact hy.elim
    | numLit l => exact absurd ⟨rfl, rfl⟩ hn
    | zero => exact absurd ⟨rfl, rfl⟩ hn
    | text g s o b => cases g <;> simp [COpnd.opnd, cobCmp, l1, l2, COpnd.shown, ct, rt, rg]
    | lit b => simp [COpnd.opnd, cobCmp, l1, COpnd.shown, ct, rt, rg]
    | all b => simp [COpnd.opnd, cobCmp, hN _ _ hx.2 hy, COpnd.shown, COpnd.len]
    | fig c => simp [COpnd.opnd, cobCmp, hN _ _ hx.2 (n1 c), COpnd.shown, COpnd.len, repeated_one]
  | zero =>
    cases y with
    | numItem it => exact hy.elim
    | numLit l => exact absurd ⟨rfl, rfl⟩ hn
    | text g s o b =>
      cases g <;> simp [COpnd.opnd, cobCmp, hT _ _ (n1 48), hG _ _ (n1 48), COpnd.shown, COpnd.len, repeated_one,
        ← cmpSimple_anti]
    | lit b =>
      simp [COpnd.opnd, cobCmp, hT _ _ (n1 48), hG _ _ (n1 48), COpnd.shown, COpnd.len, repeated_one,
        ← cmpSimple_anti]
    | _ => simp [COpnd.len] at hl
  | text g s o a =>
    cases y with
    | numItem it => exact hy.elim
    | numLit l =>
      obtain ⟨l1, l2, l3⟩ := lit_text ebc l hy.2
      cases g <;> simp [COpnd.opnd, cobCmp, l1, l2, COpnd.shown, ct, rt, rg]
    | zero =>
      cases g <;> simp [COpnd.opnd, cobCmp, hT _ _ (n1 48), hG _ _ (n1 48), COpnd.shown, COpnd.len, repeated_one]
    | text g' s' o' b => cases g <;> cases g' <;> simp [COpnd.opnd, cobCmp, COpnd.shown, ct, rt, rg]
    | lit b => cases g <;> simp [COpnd.opnd, cobCmp, COpnd.shown, ct, rt, rg]
    | all b => cases g <;> simp [COpnd.opnd, cobCmp, hT _ _ hy, hG _ _ hy, COpnd.shown, COpnd.len]
    | fig c =>
      cases g <;> simp [COpnd.opnd, cobCmp, hT _ _ (n1 c), hG _ _ (n1 c), COpnd.shown, COpnd.len, repeated_one]
  | lit a =>
    cases y with
    | numItem it => exact hy.elim
    | numLit l =>
      obtain ⟨l1, l2, l3⟩ := lit_text ebc l hy.2
      simp [COpnd.opnd, cobCmp, l1, COpnd.shown, ct, rt, rg]
    | zero => simp [COpnd.opnd, cobCmp, hT _ _ (n1 48), hG _ _ (n1 48), COpnd.shown, COpnd.len, repeated_one]
    | text g' s' o' b => cases g' <;> simp [COpnd.opnd, cobCmp, COpnd.shown, ct, rt, rg]
    | lit b => simp [COpnd.opnd, cobCmp, COpnd.shown, ct, rt, rg]
    | all b => simp [COpnd.opnd, cobCmp, hT _ _ hy, hG _ _ hy, COpnd.shown, COpnd.len]
    | fig c => simp [COpnd.opnd, cobCmp, hT _ _ (n1 c), hG _ _ (n1 c), COpnd.shown, COpnd.len, repeated_one]
  | all a =>
    cases y with
    | numItem it => exact hy.elim
    | numLit l =>
      obtain ⟨l1, l2, l3⟩ := lit_text ebc l hy.2
      simp [COpnd.opnd, cobCmp, hN _ _ hy.2 hx, COpnd.shown, COpnd.len, ← cmpSimple_anti]
    | text g s o b =>
      cases g <;> simp [COpnd.opnd, cobCmp, hT _ _ hx, hG _ _ hx, COpnd.shown, COpnd.len, ← cmpSimple_anti]
    | lit b => simp [COpnd.opnd, cobCmp, hT _ _ hx, hG _ _ hx, COpnd.shown, COpnd.len, ← cmpSimple_anti]
    | _ => simp [COpnd.len] at hl
  | fig a =>
    cases y with
    | numItem it => exact hy.elim
    | numLit l =>
      obtain ⟨l1, l2, l3⟩ := lit_text ebc l hy.2
      simp [COpnd.opnd, cobCmp, hN _ _ hy.2 (n1 a), COpnd.shown, COpnd.len, repeated_one, ← cmpSimple_anti]
    | text g s o b =>
      cases g <;> simp [COpnd.opnd, cobCmp, hT _ _ (n1 a), hG _ _ (n1 a), COpnd.shown, COpnd.len, repeated_one,
        ← cmpSimple_anti]
    | lit b =>
      simp [COpnd.opnd, cobCmp, hT _ _ (n1 a), hG _ _ (n1 a), COpnd.shown, COpnd.len, repeated_one,
        ← cmpSimple_anti]
    | _ => simp [COpnd.len] at hl

/-- memcmp gives the order of the characters. -/
theorem byteCmp_simple : ∀ a b : List Nat, a.length = b.length →
    (ordInt (byteCmp a b) < 0 ↔ cmpSimple none a b < 0) ∧ (0 < ordInt (byteCmp a b) ↔ 0 < cmpSimple none a b)
  | [], [], _ => by simp [byteCmp, ordInt, cmpSimple, alnumCmps]
  | [], _ :: _, h => by simp at h
  | _ :: _, [], h => by simp at h
  | a :: as, b :: bs, h => by
    have hl : as.length = bs.length := by simpa using h
    have hs : cmpSimple none (a :: as) (b :: bs) =
        if (a : Int) - b ≠ 0 then (a : Int) - b else cmpSimple none as bs := by
      unfold cmpSimple
      simp only [List.length_cons, hl, Nat.min_self, alnumCmps, weight, lt_self_iff_false, if_false]
      by_cases hab : (a : Int) - b = 0
      · simp [hab]
      · simp [hab]
    rw [hs, byteCmp]
    by_cases hab : a = b
    · subst hab
      simp only [if_true, sub_self, ne_eq, not_true_eq_false, if_false]
      exact byteCmp_simple as bs hl
    · rw [if_neg hab, if_pos (by omega)]
      rcases lt_trichotomy a b with h1 | h1 | h1
      · rw [compare_lt_iff_lt.mpr h1]; simp only [ordInt]; omega
      · exact absurd h1 hab
      · rw [compare_gt_iff_gt.mpr h1]; simp only [ordInt]; omega

theorem alpha_shown (x : COpnd) (hx : x.TextOk) (al : Bool) (n : Nat) (h : x.alphaSize al = some n) :
    al = false ∧ (x.len = some n ∨ x.len = none) ∧ x.shown n = x.storage.take n ∧ (x.shown n).length = n ∧
      (x.len = some n → ∀ k, x.shown k = x.shown n) := by
  cases x with
  | text g s o b =>
    cases s with
    | none => simp [COpnd.alphaSize] at h
    | some m =>
      cases o with
      | true => simp [COpnd.alphaSize] at h
      | false =>
        simp only [COpnd.alphaSize] at h
        split at h
        · cases h
        · rename_i hal
          cases h
          have hb : b.length = n := hx n rfl (Or.inl rfl)
          refine ⟨by simpa using hal, Or.inl (congrArg some hb), ?_, hb, fun _ _ => rfl⟩
          show b = b.take n
          rw [← hb, List.take_length]
  | numLit l =>
    simp only [COpnd.alphaSize] at h
    split at h
    · cases h
    · rename_i hal
      cases h
      refine ⟨by simpa using hal, Or.inl rfl, ?_, rfl, fun _ _ => rfl⟩
      show l.data = (l.data ++ _).take _
      simp
  | lit b =>
    simp only [COpnd.alphaSize] at h
    split at h
    · cases h
    · rename_i hal
      cases h
      simp [COpnd.len, COpnd.shown, COpnd.storage]
      simpa using hal
  | all b =>
    simp only [COpnd.alphaSize] at h
    split at h
    · cases h
    · rename_i hal
      cases h
      simp [COpnd.len, COpnd.shown, COpnd.storage, repeated_self]
      simpa using hal
  | _ => simp [COpnd.alphaSize] at h

theorem take_one (l : List Nat) (h : l.length = 1) : l = [l.getD 0 0] := by
  obtain ⟨a, rfl⟩ := List.length_eq_one_iff.mp h
  rfl

theorem simple_one (a b : Nat) :
    ((a : Int) - b < 0 ↔ cmpSimple none [a] [b] < 0) ∧ (0 < (a : Int) - b ↔ 0 < cmpSimple none [a] [b]) := by
  have : cmpSimple none [a] [b] = (a : Int) - b := by
    unfold cmpSimple
    simp only [List.length_cons, List.length_nil, Nat.zero_add, Nat.min_self, alnumCmps, weight]
    by_cases h : (a : Int) - b = 0 <;> simp [h]
  rw [this]
  exact ⟨Iff.rfl, Iff.rfl⟩

/-- C60: a relation between text operands - items, groups, literals, ALL literals, figurative constants, ZERO,
unsigned numeric literals, at least one with a length of its own and not both numeric - through whatever code the
compiler selects (the difference of two characters, memcmp, the library), compares the texts as if the shorter one
were extended with spaces and the constants repeated, in the collating sequence of the program: any sizes and
contents, with the check of subscripts on or off. -/
theorem C60_text (env : CondEnv) (hcol : env.alphabets = false → env.col = none) (c : CmpCache) (x y : COpnd)
    (hx : x.TextOk) (hy : y.TextOk) (hl : x.len.isSome = true ∨ y.len.isSome = true)
    (hn : ¬ (x.isNumeric = true ∧ y.isNumeric = true)) :
    let a := x.shown (y.len.getD 0)
    let b := y.shown (x.len.getD 0)
    ∃ r, condRun env c x y = (some r, c) ∧
      (r < 0 ↔ Before (weight env.col) (cell a) (cell b)) ∧
      (0 < r ↔ Before (weight env.col) (cell b) (cell a)) ∧
      (r = 0 ↔ ∀ i, weight env.col (cell a i) = weight env.col (cell b i)) := by
  intro a b
  suffices h : ∃ r, condRun env c x y = (some r, c) ∧ (r < 0 ↔ cmpSimple env.col a b < 0) ∧
      (0 < r ↔ 0 < cmpSimple env.col a b) by
    obtain ⟨r, h1, h2, h3⟩ := h
    obtain ⟨q, q0, q1, q2, q3⟩ := C23_text env.ebc env.col a b (.text a) (.text b) (Or.inl rfl) (Or.inl rfl)
    have hq : q = cmpSimple env.col a b := by
      simp only [cobCmp, Option.some.injEq] at q0
      exact q0.symm
    rw [← hq] at h2 h3
    exact ⟨r, h1, h2.trans q1, h3.trans q2, by rw [← q3]; omega⟩
  have hcob := cmp_shown env.ebc env.col x y hx hy hl hn
  unfold condRun
  by_cases hsub : env.subscripts = true
  · rw [if_pos hsub]
    exact ⟨_, by rw [hcob], Iff.rfl, Iff.rfl⟩
  rw [if_neg hsub]
  have hnc : x.numCond y = false := by
    cases x with
    | numItem it => exact hx.elim
    | _ => rfl
  rw [hnc, if_neg (by simp), if_neg (by
    intro h
    simp only [Bool.and_eq_true] at h
    exact hn h.1)]
  cases hone : x.oneChar env.alphabets y with
  | some ch =>
    simp only
    refine ⟨_, rfl, ?_⟩
    cases x with
    | text g s o bs =>
      have hs1 : s = some 1 := by
        rcases s with _ | _ | _ | n
        · simp [COpnd.oneChar] at hone
        · simp [COpnd.oneChar] at hone
        · rfl
        · simp [COpnd.oneChar] at hone
      subst hs1
      have hb : bs.length = 1 := hx 1 rfl (Or.inr rfl)
      have ha : a = [bs.getD 0 0] := take_one bs hb
      have hby : env.alphabets = false ∧ b = [ch] := by
        have hlen : (COpnd.text g (some 1) o bs).len.getD 0 = 1 := hb
        cases y with
        | fig k =>
          simp only [COpnd.oneChar] at hone
          split at hone
          · rename_i h1
            cases hone
            simp only [Bool.and_eq_true, Bool.not_eq_true'] at h1
            refine ⟨h1.1, ?_⟩
            show COpnd.shown _ (.fig ch) = _
            rw [hlen]; rfl
          · cases hone
        | zero =>
          simp only [COpnd.oneChar] at hone
          split at hone
          · cases hone
          · rename_i h1
            cases hone
            refine ⟨by simpa using h1, ?_⟩
            show COpnd.shown _ .zero = _
            rw [hlen]; rfl
        | _ => simp [COpnd.oneChar] at hone
      rw [hcol hby.1, ha, hby.2]
      exact simple_one _ _
    | _ => simp [COpnd.oneChar] at hone
  | none =>
    simp only
    -- equal sizes
    have heq : ∀ n, x.alphaSize env.alphabets = some n → y.alphaSize env.alphabets = some n →
        env.col = none ∧ a = x.storage.take n ∧ b = y.storage.take n ∧ a.length = n ∧ b.length = n := by
      intro n h1 h2
      obtain ⟨p1, p2, p3, p4, p5⟩ := alpha_shown x hx _ n h1
      obtain ⟨q1, q2, q3, q4, q5⟩ := alpha_shown y hy _ n h2
      have ha : a = x.shown n := by
        rcases p2 with h | h
        · exact p5 h _
        · rcases q2 with h' | h'
          · show x.shown (y.len.getD 0) = _
            rw [h']; rfl
          · rw [h, h'] at hl; simp at hl
      have hb : b = y.shown n := by
        rcases q2 with h | h
        · exact q5 h _
        · rcases p2 with h' | h'
          · show y.shown (x.len.getD 0) = _
            rw [h']; rfl
          · rw [h, h'] at hl; simp at hl
      exact ⟨hcol p1, by rw [ha, p3], by rw [hb, q3], by rw [ha, p4], by rw [hb, q4]⟩
    have hlast : (x.isNumeric && y.isZero) = false := by
      cases hxn : x.isNumeric
      · rfl
      · cases hyz : y.isZero
        · rfl
        · have hyn : y.isNumeric = true := by
            unfold COpnd.isZero at hyz
            split at hyz
            · rfl
            · cases hyz
          exact absurd ⟨hxn, hyn⟩ hn
    have hdone : ∃ r, (cobCmp env.ebc env.col x.opnd y.opnd, c) = (some r, c) ∧ (r < 0 ↔ cmpSimple env.col a b < 0) ∧
        (0 < r ↔ 0 < cmpSimple env.col a b) := ⟨_, by rw [hcob], Iff.rfl, Iff.rfl⟩
    split
    · rename_i h1 h2
      obtain ⟨e1, e2, e3, e4, e5⟩ := heq 1 h1 h2
      refine ⟨_, rfl, ?_⟩
      have hxs : x.storage.getD 0 0 = a.getD 0 0 := by
        rw [e2]; cases x.storage <;> rfl
      have hys : y.storage.getD 0 0 = b.getD 0 0 := by
        rw [e3]; cases y.storage <;> rfl
      rw [e1, hxs, hys, take_one a e4, take_one b e5]
      exact simple_one _ _
    · rename_i n m h1 h2 h3
      split
      · rename_i hnm
        obtain ⟨-, rfl⟩ := hnm
        obtain ⟨e1, e2, e3, e4, e5⟩ := heq n h2 h3
        refine ⟨_, rfl, ?_⟩
        rw [e1, ← e2, ← e3]
        exact byteCmp_simple a b (by rw [e4, e5])
      · exact hdone
    · rw [hlast]
      exact hdone

end Cob
