import Verif.Cobc.CheckMore
/-
C75: the checks for MOVE of an item to an item, of text, and the findings.
-/
namespace Cob

/-! ### Numeric items -/

/-- A picture without P. -/
def PlainPic (it : MvItem) (d s : Nat) : Prop := it.digits = d ∧ it.scale = s ∧ s ≤ d ∧ 0 < d

/-- **C75.** MOVE of a numeric item to a numeric item, pictures without P: the compiler is silent exactly when the receiver can
hold, but for the sign, every number the sender can hold. -/
theorem C75_item (strict : Bool) (src dst : MvItem) (d s d' s' : Nat) (hg : src.group = false ∧ dst.group = false)
    (hc : src.cat = .numeric ∧ dst.cat = .numeric) (hp : PlainPic src d s) (hp' : PlainPic dst d' s') :
    checkItem strict src dst = [] ↔ ∀ x, CanHold d s x → CanHold d' s' x := by
  obtain ⟨a1, a2, a3, a4⟩ := hp
  obtain ⟨b1, b2, b3, b4⟩ := hp'
  have hq : checkItem strict src dst = [] ↔ d - s ≤ d' - s' ∧ s ≤ s' := by
    unfold checkItem
    rw [if_neg (by rw [hg.1, hg.2]; simp), hc.1, hc.2]
    dsimp only
    unfold digitsCheck
    dsimp only
    have e1 : (if src.scale < 0 then (0 : Int) else src.scale) = s := by rw [if_neg (by omega)]; exact a2
    have e2 : (if dst.scale < 0 then (0 : Int) else dst.scale) = s' := by rw [if_neg (by omega)]; exact b2
    simp only [e1, e2, a1, b1]
    by_cases h : (d' : Int) - s' < d - s ∨ (s' : Int) < s
    · rw [if_pos h]
      simp only [List.cons_ne_nil, false_iff]
      omega
    · rw [if_neg h]
      simp only [true_iff]
      omega
  rw [hq]
  unfold CanHold
  constructor
  · rintro ⟨h1, h2⟩ x ⟨u, hu, hlt⟩
    refine ⟨u * 10 ^ (s' - s), ?_, ?_⟩
    · push_cast
      rw [← hu, zpow_natCast, zpow_natCast, mul_assoc, ← pow_add]
      congr 2
      omega
    · rw [Int.natAbs_mul, Int.natAbs_pow]
      have : u.natAbs * 10 ^ (s' - s) < 10 ^ d * 10 ^ (s' - s) := Nat.mul_lt_mul_of_pos_right hlt (Nat.pow_pos (by omega))
      rw [← pow_add] at this
      exact Nat.lt_of_lt_of_le this (Nat.pow_le_pow_right (by omega) (by omega))
  · intro h
    by_contra hcon
    by_cases hs : s ≤ s'
    · -- a digit in front is lost
      obtain ⟨w, hw, hlt⟩ := h ((10 : ℚ) ^ (d - 1) / (10 : ℚ) ^ s) ⟨10 ^ (d - 1), by
          rw [zpow_natCast, div_mul_cancel₀ _ (pow_ne_zero _ (by norm_num))]; push_cast; rfl, by
          rw [Int.natAbs_pow]; exact Nat.pow_lt_pow_right (by omega) (by omega)⟩
      have e : ((10 : ℚ) ^ (d - 1) / (10 : ℚ) ^ s) * (10 : ℚ) ^ (s' : Int) = (10 : ℚ) ^ (d - 1 + (s' - s)) := by
        rw [zpow_natCast, div_mul_eq_mul_div, div_eq_iff (pow_ne_zero _ (by norm_num)), ← pow_add, ← pow_add]
        congr 1
        omega
      rw [e] at hw
      have hw' : (10 : Int) ^ (d - 1 + (s' - s)) = w := by exact_mod_cast hw
      rw [← hw', Int.natAbs_pow] at hlt
      have := (Nat.pow_lt_pow_iff_right (by omega : 1 < 10)).mp hlt
      omega
    · -- a decimal is lost
      obtain ⟨w, hw, _⟩ := h (1 / (10 : ℚ) ^ s) ⟨1, by
          rw [zpow_natCast, one_div, inv_mul_cancel₀ (pow_ne_zero _ (by norm_num))]; simp, by
          have : 1 < 10 ^ d := Nat.one_lt_pow (by omega) (by omega)
          simpa using this⟩
      rw [zpow_natCast, one_div, inv_mul_eq_div, div_eq_iff (pow_ne_zero _ (by norm_num))] at hw
      have hw' : (10 : Int) ^ s' = w * 10 ^ s := by exact_mod_cast hw
      have e : (10 : Int) ^ s = 10 ^ s' * 10 ^ (s - s') := by rw [← pow_add]; congr 1; omega
      rw [e, show w * (10 ^ s' * 10 ^ (s - s')) = 10 ^ s' * (w * 10 ^ (s - s')) by ring] at hw'
      have h1 : (1 : Int) = w * 10 ^ (s - s') := by
        have hp : (10 : Int) ^ s' ≠ 0 := pow_ne_zero _ (by norm_num)
        apply mul_left_cancel₀ hp
        rw [mul_one]
        exact hw'
      obtain ⟨k, hk⟩ : ∃ k, s - s' = k + 1 := ⟨s - s' - 1, by omega⟩
      rw [hk, pow_succ, ← mul_assoc] at h1
      omega

/-- **C75.** No message, no loss: MOVE of a numeric item to a DISPLAY or COMP-3 item keeps the number, if the receiver has a sign
or the number is not negative. -/
theorem C75_item_kept (strict ebc cut : Bool) (src dst : Item) (hs : WFItem src) (hd : WFItem dst) (x : ℚ) (hx : Holds ebc src x)
    (hP : src.usage = .display → src.field.attr.digits = src.field.dsize) (hnb : dst.usage ≠ .binary)
    (ms md : MvItem) (d s d' s' : Nat) (hg : ms.group = false ∧ md.group = false) (hc : ms.cat = .numeric ∧ md.cat = .numeric)
    (hp : PlainPic ms d s) (hp' : PlainPic md d' s') (hs' : src.field.attr.scale = s) (hds : dst.field.attr.scale = s')
    (hpos : dst.positions = d') (hfit : ∀ u, HoldsUnits ebc src u → u.natAbs < 10 ^ d)
    (hsgn : dst.field.attr.haveSign = true ∨ 0 ≤ x) (hm : checkItem strict ms md = []) :
    ∃ it, cobMoveNum ebc cut src dst = .done it ∧ it.usage = dst.usage ∧ it.field.attr = dst.field.attr ∧ WFItem it ∧
      Holds ebc it x := by
  have hall := (C75_item strict ms md d s d' s' hg hc hp hp').1 hm
  obtain ⟨u, hu, hxu⟩ := hx
  have hh : CanHold d s x := by
    refine ⟨u, ?_, hfit u hu⟩
    rw [hxu, hs', div_mul_cancel₀ _ (zpow_ne_zero _ (by norm_num))]
  obtain ⟨w, hw, hlt⟩ := hall x hh
  refine C17_preserves ebc cut src dst hs hd x ⟨u, hu, hxu⟩ hP hnb w (by rw [hds]; exact hw) (by rw [hpos]; exact hlt) ?_
  rcases hsgn with h | h
  · exact .inl h
  · right
    have : (0 : ℚ) ≤ (w : ℚ) := by
      rw [← hw]
      exact mul_nonneg h (zpow_nonneg (by norm_num) _)
    exact_mod_cast this

/-- PIC 9(3)V9 to PIC 9(5)V99 is silent, to PIC 9(3) it is not. -/
example : let a : MvItem := { cat := .numeric, digits := 4, scale := 1 }
    let b : MvItem := { cat := .numeric, digits := 7, scale := 2 }
    let c : MvItem := { cat := .numeric, digits := 3 }
    PlainPic a 4 1 ∧ PlainPic b 7 2 ∧ checkItem false a b = [] ∧ checkItem false a c = [.digitsLost] := by
  dsimp only [PlainPic]
  decide +kernel

/-! ### Categories and text -/

/-- **C75.** Between elementary items a MOVE is refused exactly when the table of the standard has no such MOVE; one with a group
is never refused. -/
theorem C75_refused (strict : Bool) (src dst : MvItem) :
    (MvMsg.invalid ∈ checkItem strict src dst) ↔
      src.group = false ∧ dst.group = false ∧ ¬ MoveAllowed strict src.cat (decide (0 < src.scale)) dst.cat := by
  have hl : ∀ a b, MvMsg.invalid ∉ lengthCheck a b := by
    intro a b; unfold lengthCheck; split <;> simp
  have hdg : MvMsg.invalid ∉ digitsCheck src dst := by
    unfold digitsCheck; dsimp only; split <;> simp
  unfold checkItem
  by_cases hg : src.group = true ∨ dst.group = true
  · rw [if_pos hg]
    constructor
    · intro h; exact absurd h (hl _ _)
    · rintro ⟨a, b, _⟩
      rcases hg with h | h
      · rw [h] at a; cases a
      · rw [h] at b; cases b
  · rw [if_neg hg]
    have g1 : src.group = false := by cases h : src.group with
      | false => rfl
      | true => exact absurd (.inl h) hg
    have g2 : dst.group = false := by cases h : dst.group with
      | false => rfl
      | true => exact absurd (.inr h) hg
    simp only [g1, g2, true_and]
    cases hs : src.cat <;> cases hd : dst.cat <;> simp only [MoveAllowed] <;>
      first
      | (simp [hl]; done)
      | (simp [hdg]; done)
      | (split <;> simp; done)
      | (by_cases hz : 0 < src.scale <;> simp [hz, hdg] <;> cases strict <;> simp)

/-- **C75.** An alphanumeric item or literal for an alphanumeric item: the compiler is silent exactly when the receiver has room
for all characters; likewise a group. -/
theorem C75_text (strict isValue : Bool) (src dst : MvItem) (l : TextLit) :
    ((src.group = true ∨ dst.group = true ∨ (src.cat = .alphanumeric ∧ dst.cat = .alphanumeric)) →
      (checkItem strict src dst = [] ↔ src.size ≤ dst.size)) ∧
    (dst.cat = .alphanumeric → (checkTextLit isValue l dst = [] ↔ l.data.length ≤ dst.size)) := by
  have hl : ∀ a b, lengthCheck a b = [] ↔ a ≤ b := by
    intro a b; unfold lengthCheck; split
    · simp; omega
    · simp; omega
  constructor
  · intro h
    unfold checkItem
    by_cases hg : src.group = true ∨ dst.group = true
    · rw [if_pos hg, hl]
    · rw [if_neg hg]
      rcases h with h | h | ⟨h1, h2⟩
      · exact absurd (.inl h) hg
      · exact absurd (.inr h) hg
      · rw [h1, h2]
        exact hl _ _
  · intro h
    unfold checkTextLit
    rw [h]
    simp

/-- **C75.** A literal that is accepted for an alphabetic item consists of letters and spaces and fits. -/
theorem C75_alphabetic (isValue : Bool) (l : TextLit) (dst : MvItem) (hc : dst.cat = .alphabetic) (hn : l.national = false)
    (h : ∀ c ∈ l.data, c < 9 ∨ 13 < c) :
    checkTextLit isValue l dst = [] ↔
      (∀ c ∈ l.data, c = 32 ∨ (65 ≤ c ∧ c ≤ 90) ∨ (97 ≤ c ∧ c ≤ 122)) ∧ l.data.length ≤ dst.size := by
  unfold checkTextLit
  rw [hc, hn]
  simp only [Bool.false_eq_true, false_and, if_false, true_and, reduceCtorEq]
  have key : l.data.any (fun c => !letterOrSpace c) = true ↔
      ¬ ∀ c ∈ l.data, c = 32 ∨ (65 ≤ c ∧ c ≤ 90) ∨ (97 ≤ c ∧ c ≤ 122) := by
    rw [List.any_eq_true]
    constructor
    · rintro ⟨c, h1, h2⟩ hall
      have := hall c h1
      simp [letterOrSpace] at h2
      omega
    · intro hn
      push Not at hn
      obtain ⟨c, h1, h2, h3, h4⟩ := hn
      refine ⟨c, h1, ?_⟩
      have := h c h1
      simp [letterOrSpace]
      omega
  by_cases hk : l.data.any (fun c => !letterOrSpace c) = true
  · rw [if_pos hk]
    have := key.1 hk
    simp [this]
  · rw [if_neg hk]
    have : ∀ c ∈ l.data, c = 32 ∨ (65 ≤ c ∧ c ≤ 90) ∨ (97 ≤ c ∧ c ≤ 122) := by
      by_contra hx
      exact hk (key.2 hx)
    by_cases hz : dst.size < l.data.length
    · rw [if_pos hz]; simp; omega
    · rw [if_neg hz]; simp only [true_iff]; exact ⟨this, by omega⟩

/-! ### Findings -/

/-- **C75, finding.** A sign `+` counts as a negative sign: VALUE +5 is refused for an unsigned item ("Data item not signed"), and
MOVE +5 warns "Ignoring negative sign". -/
theorem C75_finding_plus : let it : MvItem := { cat := .numeric, size := 1, digits := 1, picSize := 1 }
    checkNumLit true ⟨[53], 1, 0⟩ false it = [.notSigned] ∧ checkNumLit false ⟨[53], 1, 0⟩ false it = [.ignoringSign] := by
  decide +kernel

/-- **C75, finding.** The check for binary items without decimals ignores the decimal point of the literal: VALUE 1.5 is accepted
without a message for PIC 99 COMP-5, and VALUE 25.6 is refused for one byte as if it were 256. -/
theorem C75_finding_point : let it : MvItem := { cat := .numeric, size := 1, digits := 2, picSize := 2, bin := true }
    checkNumLit true ⟨[49, 53], 0, 1⟩ false it = [] ∧ checkNumLit true ⟨[50, 53, 54], 0, 1⟩ false it = [.literalExceeds] := by
  decide +kernel

/-- **C75, finding.** VALUE -9223372036854775808 is refused for an item of eight bytes with sign, which can hold it. -/
theorem C75_finding_least :
    let it : MvItem := { cat := .numeric, size := 8, digits := 18, picSize := 18, haveSign := true, bin := true }
    checkNumLit true ⟨[57, 50, 50, 51, 51, 55, 50, 48, 51, 54, 56, 53, 52, 55, 55, 53, 56, 48, 56], -1, 0⟩ false it =
      [.literalExceeds] ∧ InBytes 8 true (-9223372036854775808) := by
  refine ⟨by decide +kernel, ?_⟩
  unfold InBytes
  norm_num

/-- **C75, finding.** A COMP item of PIC 99 and two bytes: VALUE 12345 is accepted without a message. -/
theorem C75_finding_picture : let it : MvItem := { cat := .numeric, size := 2, digits := 2, picSize := 2, bin := true }
    checkNumLit true ⟨[49, 50, 51, 52, 53], 0, 0⟩ false it = [] := by decide +kernel

/-- **C75, finding.** Pictures with P: MOVE of PIC 9(6) to PIC 9(3)P(3) is silent though three figures are lost. -/
theorem C75_finding_scaled : let a : MvItem := { cat := .numeric, size := 6, digits := 6, picSize := 6 }
    let b : MvItem := { cat := .numeric, size := 3, digits := 6, scale := -3, picSize := 3 }
    checkItem false a b = [] ∧ PicShape b 3 ∧ CanHold 6 0 123456 ∧ ¬ CanHold 3 (-3) 123456 := by
  dsimp only
  refine ⟨by decide +kernel, ⟨rfl, by decide, by decide, .inr (.inl ⟨3, by decide, by decide, rfl, rfl⟩)⟩, ⟨123456, by norm_num, by norm_num⟩, ?_⟩
  rintro ⟨u, hu, _⟩
  have h : (123456 : ℚ) = u * 1000 := by
    rw [← hu]
    norm_num
  have : (123456 : Int) = u * 1000 := by exact_mod_cast h
  omega

/-- **C75, finding.** MOVE of PIC X(4) to PIC N(2): silent, though the four characters need eight bytes and two are lost. -/
theorem C75_finding_national : let a : MvItem := { cat := .alphanumeric, size := 4 }
    let b : MvItem := { cat := .national, size := 4 }
    checkItem false a b = [] := by decide +kernel

/-- **C75, finding.** MOVE of PIC N(1) to PIC NB: the free places of a NATIONAL EDITED picture are counted as none, so the
compiler always warns. -/
theorem C75_finding_national_edited : let a : MvItem := { cat := .national, size := 2 }
    let b : MvItem := { cat := .nationalEdited, size := 4, str := [(78, 1), (66, 1)] }
    checkItem false a b = [.sendingLarger] := by decide +kernel

end Cob
