import Verif.Cobc.CheckProps
/-
C75: silence of the compiler and the number that arrives; binary items, items to items, categories, findings.
-/
namespace Cob

/-- An accepted number arrives: units of the receiver. -/
theorem check_exact (dst : Item) (x : ℚ) (u w : Int) (hu : x * (10 : ℚ) ^ dst.field.attr.scale = w)
    (hfit : w.natAbs < 10 ^ dst.positions) (hsgn : dst.field.attr.haveSign = true ∨ 0 ≤ w) (hm : MovedUnits dst x u) : u = w := by
  obtain ⟨t, ht, hw⟩ := hm
  have htu : t = w := by
    refine (C05_spec_unique _ t w).1 ht ?_
    rw [hu]
    refine ⟨le_refl _, by linarith, mul_self_nonneg _⟩
  subst htu
  rw [hw]
  split
  · rcases Int.le_total 0 t with h0 | h0
    · rw [Int.tmod_eq_emod_of_nonneg h0]
      refine Int.emod_eq_of_lt h0 ?_
      have : (t.natAbs : Int) < ((10 ^ dst.positions : Nat) : Int) := by exact_mod_cast hfit
      rw [Int.natAbs_of_nonneg h0] at this
      exact_mod_cast this
    · obtain ⟨n, rfl⟩ : ∃ n : Int, t = -n := ⟨-t, by omega⟩
      rw [Int.neg_tmod, Int.tmod_eq_emod_of_nonneg (by omega)]
      rw [Int.emod_eq_of_lt (by omega)]
      have : ((-n).natAbs : Int) < ((10 ^ dst.positions : Nat) : Int) := by exact_mod_cast hfit
      rw [Int.natAbs_neg, Int.natAbs_of_nonneg (by omega)] at this
      exact_mod_cast this
  · rename_i hs
    have h0 : 0 ≤ t := hsgn.resolve_left hs
    rw [Nat.mod_eq_of_lt hfit]
    omega

/-- **C75.** No message means no loss: after MOVE of a numeric literal, or as initial value, a DISPLAY or COMP-3 item holds
exactly the number of the literal. -/
theorem C75_number_kept (isValue ebc cut : Bool) (l : NumLit) (h : l.Proper) (dst : Item) (hw : WFItem dst) (hnb : dst.usage ≠ .binary)
    (it : MvItem) (n : Nat) (hc : it.cat = .numeric) (hp : PicShape it n) (hr : it.real = false) (hbin : it.bin = false)
    (hn : dst.positions = n) (hs : dst.field.attr.scale = it.scale) (hsg : dst.field.attr.haveSign = it.haveSign)
    (hm : checkNumLit isValue l false it = []) :
    ∃ r, moveLit ebc cut l dst = .done r ∧ r.usage = dst.usage ∧ r.field.attr = dst.field.attr ∧ WFItem r ∧
      Holds ebc r l.value := by
  obtain ⟨a, w, hw1, hw2⟩ := (C75_number isValue l h it n hc hp ⟨hr, fun x => by rw [hbin] at x; cases x⟩).1 hm
  obtain ⟨r, u, c1, c2, c3, c4, c5, c6⟩ := C51_literal ebc cut l h dst hw (fun x => absurd x hnb)
  rw [← hs] at hw1
  have hsgn : dst.field.attr.haveSign = true ∨ 0 ≤ w := by
    by_cases hl : l.sign ≠ 0
    · left; rw [hsg]; exact a hl
    · right
      have h0 : 0 ≤ l.units := by
        unfold NumLit.units
        rw [if_neg (by omega)]
        omega
      have h1 : (0 : ℚ) ≤ l.value * (10 : ℚ) ^ dst.field.attr.scale := by
        unfold NumLit.value
        have h2 : (0 : ℚ) ≤ (l.units : ℚ) := by exact_mod_cast h0
        exact mul_nonneg (div_nonneg h2 (zpow_nonneg (by norm_num) _)) (zpow_nonneg (by norm_num) _)
      rw [hw1] at h1
      exact_mod_cast h1
  have huw := check_exact dst l.value u w hw1 (by rw [hn]; exact hw2) hsgn c6
  refine ⟨r, c1, c2, c3, c4, u, c5, ?_⟩
  rw [c3, huw, ← hw1]
  have : (10 : ℚ) ^ dst.field.attr.scale ≠ 0 := zpow_ne_zero _ (by norm_num)
  field_simp

example : ∃ r, moveLit false true ⟨[49, 50, 51, 52, 53], -1, 2⟩
    ⟨.display, ⟨{ digits := 5, scale := 2, haveSign := true }, [48, 48, 48, 48, 48]⟩⟩ = .done r := ⟨_, rfl⟩

/-! ### Binary items -/

theorem memGreater_iff : ∀ (p q : List Nat), p.length = q.length → (∀ b ∈ p, 48 ≤ b ∧ b ≤ 57) → (∀ b ∈ q, 48 ≤ b ∧ b ≤ 57) →
    (memGreater p q = true ↔ digitsVal (q.map (· - 48)) < digitsVal (p.map (· - 48))) := by
  intro p
  induction p with
  | nil =>
    intro q hl _ _
    cases q with
    | nil => simp [memGreater]
    | cons => simp at hl
  | cons a p ih =>
    intro q hl hp hq
    cases q with
    | nil => simp at hl
    | cons b q =>
      simp only [List.length_cons, Nat.add_right_cancel_iff] at hl
      have ha := hp a (by simp)
      have hb := hq b (by simp)
      have ihq := ih q hl (fun x hx => hp x (by simp [hx])) (fun x hx => hq x (by simp [hx]))
      have bnd : ∀ (d : List Nat), (∀ x ∈ d, 48 ≤ x ∧ x ≤ 57) → digitsVal (d.map (· - 48)) < 10 ^ d.length := by
        intro d hd
        have := digitsVal_below (d.map (· - 48)) (by
          intro x hx
          rw [List.mem_map] at hx
          obtain ⟨y, hy, rfl⟩ := hx
          have := hd y hy
          omega)
        simpa using this
      have bp := bnd p (fun x hx => hp x (by simp [hx]))
      have bq := bnd q (fun x hx => hq x (by simp [hx]))
      rw [memGreater]
      simp only [List.map_cons, digitsVal, List.length_map]
      rw [hl] at bp ⊢
      by_cases he : a = b
      · rw [if_pos he, ihq, he]
        omega
      · rw [if_neg he, decide_eq_true_eq]
        rcases Nat.lt_or_gt_of_ne he with hlt | hgt
        · have h1 : (a - 48 + 1) * 10 ^ q.length ≤ (b - 48) * 10 ^ q.length := Nat.mul_le_mul_right _ (by omega)
          rw [Nat.add_mul] at h1
          omega
        · have h1 : (b - 48 + 1) * 10 ^ q.length ≤ (a - 48) * 10 ^ q.length := Nat.mul_le_mul_right _ (by omega)
          rw [Nat.add_mul] at h1
          omega

theorem foldl_digits : ∀ (d : List Nat) (v : Int), (∀ b ∈ d, 48 ≤ b ∧ b ≤ 57) →
    d.foldl (fun (v : Int) (b : Nat) => v * 10 + ((b : Int) - 48)) v = v * 10 ^ d.length + digitsVal (d.map (· - 48)) := by
  intro d
  induction d with
  | nil => intro v _; simp [digitsVal]
  | cons b d ih =>
    intro v h
    have hb := h b (by simp)
    rw [List.foldl_cons, ih _ (fun x hx => h x (by simp [hx]))]
    simp only [List.map_cons, digitsVal, List.length_map, List.length_cons, pow_succ]
    have : ((b - 48 : Nat) : Int) = (b : Int) - 48 := by omega
    push_cast
    rw [this]
    ring

theorem drop_zeros (l : NumLit) : l.data.dropWhile (· == 48) = l.data.drop (zerosAt l.data) := by
  unfold zerosAt
  generalize l.data = d
  induction d with
  | nil => rfl
  | cons x d ih =>
    by_cases hx : x = 48
    · subst hx; simp [ih]
    · have : (x == 48) = false := by simp [hx]
      simp [this]

theorem digits_drop (l : NumLit) : digitsVal ((l.data.drop (zerosAt l.data)).map (· - 48)) = l.digitsNat := by
  unfold NumLit.digitsNat
  rcases zerosAt_split l.data with ⟨a, b⟩ | ⟨c, t, _, h2⟩
  · rw [a, List.drop_length, b]
    simp [digitsVal_zeros, digitsVal]
  · have h3 : l.data.map (· - 48) = (List.replicate (zerosAt l.data) 48).map (· - 48) ++
        (l.data.drop (zerosAt l.data)).map (· - 48) := by
      rw [← List.map_append]
      congr 1
      conv_lhs => rw [← List.take_append_drop (zerosAt l.data) l.data]
      congr 1
      have := congrArg (List.take (zerosAt l.data)) h2
      rw [List.take_left' (by simp)] at this
      exact this
    rw [h3, digitsVal_append, List.map_replicate, digitsVal_zeros]
    simp

theorem getLong_units (l : NumLit) (h : l.Proper) : l.getLong = l.units := by
  unfold NumLit.getLong
  dsimp only
  rw [drop_zeros, foldl_digits _ _ (fun b hb => h.2 b (List.mem_of_mem_drop hb)), digits_drop]
  unfold NumLit.units NumLit.digitsNat
  simp

/-- **C75.** A whole number for a binary item without decimals, of 1 to 8 bytes: the compiler is silent exactly when the bytes
can hold the number and the item has a sign if the literal is written with one; only -2^63 is refused although eight bytes can
hold it. -/
theorem C75_binary (isValue : Bool) (l : NumLit) (h : l.Proper) (dst : MvItem) (hc : dst.cat = .numeric)
    (hb : dst.real = true ∨ dst.bin = true) (hs : dst.scale = 0) (hps : 0 ≤ dst.picSize) (hn : 1 ≤ dst.size ∧ dst.size ≤ 8) :
    checkNumLit isValue l false dst = [] ↔
      (l.sign ≠ 0 → dst.haveSign = true) ∧ InBytes dst.size dst.haveSign l.units ∧ ¬ (dst.size = 8 ∧ l.units = -2 ^ 63) := by
  have hlead := lit_leading l h
  have hua := units_abs l
  have hsgn : l.sign = 0 → 0 ≤ l.units := by
    intro h0
    unfold NumLit.units
    rw [if_neg (by omega)]
    omega
  have hbc : (l.sign ≠ 0 → dst.haveSign = true) → (binCheck l dst = [] ↔
      InBytes dst.size dst.haveSign l.units ∧ ¬ (dst.size = 8 ∧ l.units = -2 ^ 63)) := by
    intro hsn
    unfold binCheck
    dsimp only
    rw [getLong_units l h]
    by_cases h7 : 1 ≤ dst.size ∧ dst.size ≤ 7
    · rw [if_pos h7]
      have hbig : 18 < l.data.length - zerosAt l.data → 10 ^ 18 ≤ l.units.natAbs := by
        intro hx
        rcases hlead with ⟨a, _⟩ | ⟨_, a, _⟩
        · omega
        · rw [hua]
          exact Nat.le_trans (Nat.pow_le_pow_right (by omega) (by omega)) a
      have hneg : dst.haveSign = false → 0 ≤ l.units := by
        intro hf
        apply hsgn
        by_contra h0
        rw [hsn h0] at hf
        cases hf
      by_cases h18 : 18 < l.data.length - zerosAt l.data
      · rw [if_pos h18]
        have hx := hbig h18
        simp only [List.cons_ne_nil, false_iff, not_and]
        intro hin
        exfalso
        unfold InBytes at hin
        cases hv : dst.haveSign with
        | true =>
          rw [hv] at hin
          simp only [if_true] at hin
          have : (2 : Int) ^ (8 * dst.size - 1) ≤ 2 ^ 55 := pow_le_pow_right₀ (by norm_num) (by omega)
          have e : (2 : Int) ^ 55 = 36028797018963968 := by norm_num
          omega
        | false =>
          rw [hv] at hin
          simp only [Bool.false_eq_true, if_false] at hin
          have : (2 : Int) ^ (8 * dst.size) ≤ 2 ^ 56 := pow_le_pow_right₀ (by norm_num) (by omega)
          have e : (2 : Int) ^ 56 = 72057594037927936 := by norm_num
          have := hneg hv
          omega
      · rw [if_neg h18]
        have h8 : ¬ (dst.size = 8 ∧ l.units = -2 ^ 63) := fun hx => by omega
        have hcases : dst.size = 1 ∨ dst.size = 2 ∨ dst.size = 3 ∨ dst.size = 4 ∨ dst.size = 5 ∨ dst.size = 6 ∨ dst.size = 7 := by
          omega
        unfold InBytes
        rcases hcases with e | e | e | e | e | e | e <;> rw [e] <;> cases dst.haveSign <;> norm_num [binLimits] <;> omega
    · rw [if_neg h7]
      have e8 : dst.size = 8 := by omega
      rw [e8]
      unfold InBytes
      have hne : zerosAt l.data < l.data.length → (if zerosAt l.data = l.data.length then l.data else l.data.drop (zerosAt l.data)) =
          l.data.drop (zerosAt l.data) := fun hx => if_neg (by omega)
      have hmem : ∀ b ∈ l.data.drop (zerosAt l.data), 48 ≤ b ∧ b ≤ 57 := fun b hb => h.2 b (List.mem_of_mem_drop hb)
      generalize hk : l.data.length - zerosAt l.data = k at *
      cases hv : dst.haveSign with
      | true =>
        simp only [if_true]
        by_cases k1 : k < 19
        · rw [if_pos k1]
          have : l.units.natAbs < 10 ^ 18 := by
            rw [hua]
            rcases hlead with ⟨_, a⟩ | ⟨_, _, a⟩
            · rw [a]; norm_num
            · exact Nat.lt_of_lt_of_le a (Nat.pow_le_pow_right (by omega) (by omega))
          simp only [true_iff]
          norm_num
          omega
        · rw [if_neg k1]
          by_cases k2 : 19 < k
          · rw [if_pos k2]
            have : 10 ^ 19 ≤ l.units.natAbs := by
              rw [hua]
              rcases hlead with ⟨a, _⟩ | ⟨_, a, _⟩
              · omega
              · exact Nat.le_trans (Nat.pow_le_pow_right (by omega) (by omega)) a
            simp only [List.cons_ne_nil, false_iff]
            norm_num at this ⊢
            omega
          · rw [if_neg k2]
            have hz : zerosAt l.data < l.data.length := by omega
            rw [hne hz]
            have hg := memGreater_iff (l.data.drop (zerosAt l.data))
              [57, 50, 50, 51, 51, 55, 50, 48, 51, 54, 56, 53, 52, 55, 55, 53, 56, 48, 55] (by simp; omega) hmem (by decide)
            rw [digits_drop, ← hua] at hg
            have hd : digitsVal ([57, 50, 50, 51, 51, 55, 50, 48, 51, 54, 56, 53, 52, 55, 55, 53, 56, 48, 55].map (· - 48)) =
                9223372036854775807 := by decide +kernel
            rw [hd] at hg
            by_cases hm : memGreater (l.data.drop (zerosAt l.data))
                [57, 50, 50, 51, 51, 55, 50, 48, 51, 54, 56, 53, 52, 55, 55, 53, 56, 48, 55] = true
            · rw [if_pos hm]
              have := hg.1 hm
              simp only [List.cons_ne_nil, false_iff]
              norm_num
              omega
            · rw [if_neg hm]
              have : ¬ 9223372036854775807 < l.units.natAbs := fun x => hm (hg.2 x)
              simp only [true_iff]
              norm_num
              omega
      | false =>
        simp only [Bool.false_eq_true, if_false]
        have h0 : 0 ≤ l.units := by
          apply hsgn
          by_contra h0
          rw [hsn h0] at hv
          cases hv
        by_cases k1 : k < 20
        · rw [if_pos k1]
          have : l.units.natAbs < 10 ^ 19 := by
            rw [hua]
            rcases hlead with ⟨_, a⟩ | ⟨_, _, a⟩
            · rw [a]; norm_num
            · exact Nat.lt_of_lt_of_le a (Nat.pow_le_pow_right (by omega) (by omega))
          simp only [true_iff]
          norm_num at this ⊢
          omega
        · rw [if_neg k1]
          by_cases k2 : 20 < k
          · rw [if_pos k2]
            have : 10 ^ 20 ≤ l.units.natAbs := by
              rw [hua]
              rcases hlead with ⟨a, _⟩ | ⟨_, a, _⟩
              · omega
              · exact Nat.le_trans (Nat.pow_le_pow_right (by omega) (by omega)) a
            simp only [List.cons_ne_nil, false_iff]
            norm_num at this ⊢
            omega
          · rw [if_neg k2]
            have hz : zerosAt l.data < l.data.length := by omega
            rw [hne hz]
            have hg := memGreater_iff (l.data.drop (zerosAt l.data))
              [49, 56, 52, 52, 54, 55, 52, 52, 48, 55, 51, 55, 48, 57, 53, 53, 49, 54, 49, 53] (by simp; omega) hmem (by decide)
            rw [digits_drop, ← hua] at hg
            have hd : digitsVal ([49, 56, 52, 52, 54, 55, 52, 52, 48, 55, 51, 55, 48, 57, 53, 53, 49, 54, 49, 53].map (· - 48)) =
                18446744073709551615 := by decide +kernel
            rw [hd] at hg
            by_cases hm : memGreater (l.data.drop (zerosAt l.data))
                [49, 56, 52, 52, 54, 55, 52, 52, 48, 55, 51, 55, 48, 57, 53, 53, 49, 54, 49, 53] = true
            · rw [if_pos hm]
              have := hg.1 hm
              simp only [List.cons_ne_nil, false_iff]
              norm_num
              omega
            · rw [if_neg hm]
              have : ¬ 18446744073709551615 < l.units.natAbs := fun x => hm (hg.2 x)
              simp only [true_iff]
              norm_num
              omega
  unfold checkNumLit
  rw [hc]
  simp only [Bool.false_eq_true, if_false]
  rw [if_neg (by omega), if_neg (by omega)]
  unfold signSizeCheck
  have hsz : sizeCheck l dst = binCheck l dst := by
    unfold sizeCheck
    rw [if_pos]
    rcases hb with x | x
    · exact .inl x
    · exact .inr ⟨x, hs⟩
  rw [hsz]
  by_cases h1 : l.sign ≠ 0 ∧ dst.haveSign = false
  · rw [if_pos h1]
    cases isValue <;> simp [h1.1, h1.2]
  · rw [if_neg h1]
    have hsn : (l.sign ≠ 0 → dst.haveSign = true) := by
      intro h2
      cases h3 : dst.haveSign with
      | true => rfl
      | false => exact absurd ⟨h2, h3⟩ h1
    rw [hbc hsn]
    exact ⟨fun x => ⟨hsn, x⟩, fun x => x.2⟩

/-- COMP-5 of two bytes: 32767 is accepted, 32768 is not. -/
example : let it : MvItem := { cat := .numeric, size := 2, digits := 4, picSize := 4, haveSign := true, bin := true }
    checkNumLit true ⟨[51, 50, 55, 54, 55], 0, 0⟩ false it = [] ∧
    checkNumLit true ⟨[51, 50, 55, 54, 56], 0, 0⟩ false it = [.literalExceeds] ∧
    checkNumLit true ⟨[51, 50, 55, 54, 56], -1, 0⟩ false it = [] := by decide +kernel

end Cob
