import Verif.Cobc.Move
import Verif.Num.CondProps
import Verif.Move.NumericProps
import Verif.Move.AlnumProps
/-
Property C51: a MOVE compiled to in-line code has the effect of the library routine, i.e. of the
MOVE rules C13 (numbers) and C14/C15 (text).
-/
namespace Cob
open Dec

/-! ### Specification -/

/-- A literal as the scanner delivers it: at least one digit. -/
def NumLit.Proper (l : NumLit) : Prop := l.data ≠ [] ∧ ∀ b ∈ l.data, 48 ≤ b ∧ b ≤ 57

/-- The integer written by the digits of the literal, without its decimal point, with the sign. -/
def NumLit.units (l : NumLit) : Int :=
  if l.sign < 0 then -(digitsVal (l.data.map (· - 48)) : Int) else digitsVal (l.data.map (· - 48))

/-- The number the literal denotes. -/
def NumLit.value (l : NumLit) : ℚ := (l.units : ℚ) / (10 : ℚ) ^ l.scale

/-! ### helper lemmas -/

theorem drop_digits (ds : List Nat) (hd : ∀ d ∈ ds, d ≤ 9) (k : Nat) (hk : k ≤ ds.length) :
    ds.drop (ds.length - k) = fixedDigits k (digitsVal ds) := by
  apply List.ext_getElem
  · rw [fixedDigits_length]; simp; omega
  · intro i h1 h2
    rw [fixedDigits_getElem, List.getElem_drop]
    rw [fixedDigits_length] at h2
    have := digits_getElem ds hd (ds.length - k + i) (by omega)
    rw [this]
    congr 2
    congr 1
    omega

theorem align_digits (ds : List Nat) (hd : ∀ d ∈ ds, d ≤ 9) (k : Nat) :
    (if k ≤ ds.length then ((ds.map (48 + ·)).drop (ds.length - k)).take k
      else List.replicate (k - ds.length) 48 ++ ds.map (48 + ·)) =
    (fixedDigits k (digitsVal ds)).map (48 + ·) := by
  by_cases h : k ≤ ds.length
  · rw [if_pos h, ← List.map_drop, drop_digits ds hd k h, List.take_of_length_le]
    rw [List.length_map, fixedDigits_length]
  · rw [if_neg h, fixedDigits_pad ds.length k _ (digitsVal_lt ds hd) (by omega),
      fixedDigits_digitsVal ds hd]
    simp

theorem lit_digits (l : NumLit) (h : l.Proper) : ∃ ds : List Nat, l.data = ds.map (48 + ·) ∧ ds ≠ [] ∧
    (∀ d ∈ ds, d ≤ 9) ∧ l.data.map (· - 48) = ds := by
  refine ⟨l.data.map (· - 48), ?_, ?_, ?_, rfl⟩
  · rw [List.map_map]
    conv_lhs => rw [← List.map_id l.data]
    apply List.map_congr_left
    intro b hb
    have := h.2 b hb
    simp; omega
  · simpa using h.1
  · intro d hd
    obtain ⟨b, hb, rfl⟩ := List.mem_map.mp hd
    have := h.2 b hb
    omega

theorem lit_item (ebc : Bool) (l : NumLit) (ds : List Nat)
    (he : l.data = ds.map (48 + ·)) :
    l.item = ⟨.display, ⟨l.item.field.attr, zonedImage l.item.field.attr ebc (decide (l.sign < 0)) ds⟩⟩ := by
  unfold NumLit.item zonedImage
  simp only [he]
  by_cases h0 : l.sign = 0
  · simp [h0]
  · by_cases h1 : l.sign < 0
    · simp [h0, h1]
    · have : l.sign > 0 := by omega
      simp [h0, h1, this]

theorem lit_attr (l : NumLit) : l.item.field.attr.scale = l.scale ∧
    l.item.field.attr.digits = l.data.length ∧ l.item.field.attr.haveSign = decide (l.sign ≠ 0) ∧
    l.item.field.attr.separate = decide (l.sign ≠ 0) ∧ l.item.field.attr.leading = false :=
  ⟨rfl, rfl, rfl, rfl, rfl⟩

/-- The constant for a literal holds the literal's value. -/
theorem lit_holds (ebc : Bool) (l : NumLit) (h : l.Proper) :
    WFItem l.item ∧ HoldsUnits ebc l.item l.units ∧ Holds ebc l.item l.value ∧
    l.item.field.attr.digits = l.item.field.dsize := by
  obtain ⟨ds, he, hne, hd, hm⟩ := lit_digits l h
  have hi := lit_item ebc l ds he
  have hlen : 0 < l.data.length := List.length_pos_iff.mpr h.1
  have hu : HoldsUnits ebc l.item l.units := by
    refine ⟨decide (l.sign < 0), ds, ?_, hne, hd, ?_⟩
    · rw [hi]
    · unfold NumLit.units
      rw [hm, (lit_attr l).2.2.1]
      by_cases h1 : l.sign < 0
      · have : l.sign ≠ 0 := by omega
        simp [h1, this]
      · simp [h1]
  refine ⟨⟨?_, ?_⟩, hu, ⟨_, hu, rfl⟩, ?_⟩
  · rw [(lit_attr l).2.2.1, (lit_attr l).2.2.2.1]; exact id
  · rw [(lit_attr l).2.2.2.1]
    show _ ≤ (l.data ++ _).length
    rw [List.length_append]
    by_cases h0 : l.sign = 0
    · simp [h0]; omega
    · simp only [h0, ne_eq, not_false_eq_true, decide_true, if_true]
      rcases lt_or_gt_of_ne h0 with h1 | h1
      · rw [if_pos h1]; simp; omega
      · rw [if_neg (by omega), if_pos h1]; simp; omega
  · unfold Field.dsize
    rw [(lit_attr l).2.1, (lit_attr l).2.2.2.1]
    show _ = (l.data ++ _).length - _
    rw [List.length_append]
    by_cases h0 : l.sign = 0
    · simp [h0]
    · rcases lt_or_gt_of_ne h0 with h1 | h1
      · simp [h0, h1]
      · simp [h0, h1, show ¬ l.sign < 0 by omega]

theorem litZoned_eq (ebc : Bool) (ds : List Nat) (hd : ∀ d ∈ ds, d ≤ 9) (sign : Int) (f : Field)
    (hf : WFDisplay f) (hl : f.attr.leading = false) (hs : f.attr.separate = false) :
    litZoned ebc (ds.map (48 + ·)) sign f =
      ⟨f.attr, zonedImage f.attr ebc (decide (sign < 0)) (fixedDigits f.dsize (digitsVal ds))⟩ := by
  have hsz : f.dsize = f.data.length := by unfold Field.dsize; simp [hs]
  have hst := store_image ebc f hf (fixedDigits f.dsize (digitsVal ds)) (fixedDigits_length _ _)
    (fixedDigits_le _ _) sign
  rw [← hst]
  have hA := align_digits ds hd f.data.length
  unfold litZoned
  simp only [List.length_map]
  rw [hA, hsz]
  set B := (fixedDigits f.data.length (digitsVal ds)).map (48 + ·) with hB
  have hBl : B.length = f.data.length := by rw [hB, List.length_map, fixedDigits_length]
  have hstore : f.storeDigits B = ⟨f.attr, B⟩ := by
    unfold Field.storeDigits Field.dataOff
    simp [hs, hBl]
  rw [hstore]
  unfold Field.putSign Field.signPos putSignByte
  simp only [hl, hs, hBl, Bool.false_eq_true, if_false]
  cases f.attr.haveSign
  · simp
  · cases ebc
    · simp only [if_true, Bool.false_eq_true, if_false, Bool.not_true]
      by_cases h : sign < 0
      · simp [h]
      · rw [if_neg h, if_neg h]
        congr 1
        by_cases hn : f.data.length - 1 < B.length
        · apply List.ext_getElem
          · simp
          · intro i h1 h2
            rw [List.getElem_set]
            split
            · rename_i hi
              subst hi
              simp [List.getD, List.getElem?_eq_getElem hn]
            · rfl
        · rw [List.set_eq_of_length_le (by omega)]
    · simp


/-- MOVE of a literal in line to a zoned item is, byte for byte, what the library does. -/
theorem litZoned_call (ebc cut : Bool) (l : NumLit) (h : l.Proper) (f : Field) (hf : WFDisplay f)
    (hsc : f.attr.scale = l.scale) (hl : f.attr.leading = false) (hs : f.attr.separate = false) :
    l.call ebc cut ⟨.display, f⟩ = .done ⟨.display, litZoned ebc l.data l.sign f⟩ := by
  obtain ⟨ds, he, hne, hd, hm⟩ := lit_digits l h
  have hi := lit_item ebc l ds he
  unfold NumLit.call cobMoveNum moveFromDisp
  rw [hi]
  simp only
  obtain ⟨h1, h2, h3, h4, h5, h6⟩ := image_getSign ebc l.item.field.attr (decide (l.sign < 0)) ds
    (by rw [(lit_attr l).2.2.1, (lit_attr l).2.2.2.1]; exact id) hne hd
  simp only [moveDispDisp, h2]
  rw [region_holds ebc f hf ds hd, (lit_attr l).1, hsc, rescale_self, he, litZoned_eq ebc ds hd l.sign f hf hl hs]
  congr 5
  rw [h1, (lit_attr l).2.2.1]
  by_cases h0 : l.sign = 0
  · simp [h0]
  · by_cases h1 : l.sign < 0 <;> simp [h0, h1]

theorem getInt_units (l : NumLit) (h : l.Proper) : l.getInt = l.units := by
  obtain ⟨ds, he, hne, hd, hm⟩ := lit_digits l h
  unfold NumLit.getInt NumLit.units
  rw [hm]
  simp only [he, foldDigits]
  simp

theorem divTens_eq (k : Nat) : ∀ v : Int, divTens k v = v.tdiv (10 ^ k) := by
  induction k with
  | zero => intro v; simp [divTens]
  | succ k ih =>
    intro v
    rw [divTens, ih, pow_succ']
    have key (n : Nat) : ((n : Int).tdiv 10).tdiv (10 ^ k) = (n : Int).tdiv (10 * 10 ^ k) := by
      rw [Int.tdiv_eq_ediv_of_nonneg (a := (n : Int)) (b := 10) (by omega),
        Int.tdiv_eq_ediv_of_nonneg (by omega), Int.tdiv_eq_ediv_of_nonneg (by omega), Int.ediv_ediv_of_nonneg (by norm_num)]
    obtain ⟨n, rfl | rfl⟩ := Int.eq_nat_or_neg v
    · exact key n
    · rw [Int.neg_tdiv, Int.neg_tdiv, Int.neg_tdiv, key n]

/-- The digits of the literal. -/
def NumLit.digitsNat (l : NumLit) : Nat := digitsVal (l.data.map (· - 48))

theorem align_eq (l : NumLit) (h : l.Proper) (s2 : Int) :
    alignVal l.getInt (s2 - l.scale) =
      if l.sign < 0 then -(rescale l.digitsNat l.scale s2 : Int) else rescale l.digitsNat l.scale s2 := by
  rw [getInt_units l h]
  unfold alignVal rescale NumLit.units NumLit.digitsNat
  by_cases hn : l.scale ≤ s2
  · rw [if_pos (by omega), if_pos hn]
    split <;> push_cast <;> ring
  · rw [if_neg (by omega), if_neg hn, divTens_eq, show -(s2 - l.scale) = l.scale - s2 by omega]
    split
    · rw [Int.neg_tdiv]; norm_cast
    · norm_cast

theorem lit_moved (l : NumLit) (dst : Item) (t : Int)
    (ht : t = if l.sign < 0 then -(rescale l.digitsNat l.scale dst.field.attr.scale : Int)
      else rescale l.digitsNat l.scale dst.field.attr.scale)
    (hfit : t.natAbs < 10 ^ dst.positions) (hs : dst.field.attr.haveSign = true ∨ 0 ≤ t) :
    MovedUnits dst l.value t := by
  have := movedUnits_of dst (decide (l.sign < 0)) l.digitsNat l.scale
  unfold NumLit.value NumLit.units
  have hv : ((if l.sign < 0 then -(digitsVal (l.data.map (· - 48)) : Int) else digitsVal (l.data.map (· - 48)) : Int) : ℚ)
      = ((if decide (l.sign < 0) = true then -(l.digitsNat : Int) else l.digitsNat : Int) : ℚ) := by
    simp [NumLit.digitsNat]
  rw [hv]
  convert this using 1
  rw [ht] at hfit hs ⊢
  generalize rescale l.digitsNat l.scale dst.field.attr.scale = R at *
  have hR : R < 10 ^ dst.positions := by
    split at hfit <;> simpa using hfit
  rw [Nat.mod_eq_of_lt hR]
  by_cases hn : l.sign < 0
  · simp only [hn, if_true, decide_true, Bool.and_true] at hs ⊢
    rcases hs with hs | hs
    · simp [hs]
    · have : R = 0 := by omega
      simp [this]
  · simp [hn]

theorem lit_isTrunc (l : NumLit) (s2 t : Int) (hI : IsTrunc (l.value * (10 : ℚ) ^ s2) t) :
    t = if l.sign < 0 then -(rescale l.digitsNat l.scale s2 : Int) else rescale l.digitsNat l.scale s2 := by
  obtain ⟨h1, h2, h3⟩ := rescale_shift l.units l.scale s2
  have h5 := (C05_truncates ⟨l.units, l.scale⟩ s2).2
  have ht : t = ((⟨l.units, l.scale⟩ : Dec).toFieldScale s2 false).value := isTrunc_unique _ _ _ hI h5
  rw [← ht] at h1 h2 h3
  have hm : l.units.natAbs = l.digitsNat := by
    unfold NumLit.units NumLit.digitsNat; split <;> simp
  rw [hm] at h1
  unfold NumLit.units at h2 h3
  split
  · rename_i hn
    rw [if_pos hn] at h3
    have := h3 (by omega)
    omega
  · rename_i hn
    rw [if_neg hn] at h2
    have := h2 (by omega)
    omega


/-! ### the packed constant -/

theorem setPackedLoop_eq (k : Nat) : ∀ n : Nat,
    (setPackedLoop k n).reverse = packNibbles (fixedDigits (2 * k) n) := by
  induction k with
  | zero => intro n; rfl
  | succ k ih =>
    intro n
    have hexp : packNibbles (fixedDigits (2 * (k + 1)) n) =
        packNibbles (fixedDigits (2 * k) (n / 100)) ++ [n % 100 / 10 * 16 + n % 100 % 10] := by
      rw [show 2 * (k + 1) = 2 * k + 1 + 1 by omega, fixedDigits, fixedDigits, List.append_assoc,
        packNibbles_append _ _ (by rw [fixedDigits_length]; omega)]
      have e1 : n / 10 / 10 = n / 100 := by omega
      have e2 : 16 * (n / 10 % 10) + n % 10 = n % 100 / 10 * 16 + n % 100 % 10 := by omega
      simp [packNibbles, e1, e2]
    rw [hexp, setPackedLoop]
    split
    · rename_i h0
      subst h0
      rw [← ih]
      simp only [Nat.zero_div, Nat.zero_mod, zero_mul, add_zero, List.reverse_replicate]
      have hz : ∀ k, setPackedLoop k 0 = List.replicate k 0 := by
        intro k; cases k <;> simp [setPackedLoop]
      rw [hz, List.reverse_replicate, List.replicate_succ']
    · rw [List.reverse_cons, ih]

theorem setPackedInt_eq (f : Field) (hf : WFPacked f) (val : Int) :
    setPackedInt f val = ⟨f.attr, packedImage f.attr.digits val.natAbs
      (signNibble f.attr (decide (val < 0)))⟩ := by
  obtain ⟨hD, hlen⟩ := hf
  unfold setPackedInt
  simp only
  congr 1
  rw [hlen, show f.attr.digits / 2 + 1 - 1 = f.attr.digits / 2 by omega, setPackedLoop_eq]
  have hnib : (if (!f.attr.haveSign) = true then 15 else if val < 0 then 13 else 12) =
      signNibble f.attr (decide (val < 0)) := by
    unfold signNibble; simp
  rw [hnib]
  generalize signNibble f.attr (decide (val < 0)) = s
  generalize val.natAbs = n
  generalize f.attr.digits = D at *
  obtain ⟨k, rfl⟩ : ∃ k, D = k + 1 := ⟨D - 1, by omega⟩
  have himg : packedImage (k + 1) n s =
      packNibbles ((if (k + 1) % 2 = 0 then [0] else []) ++ fixedDigits k (n / 10)) ++ [16 * (n % 10) + s] := by
    rw [packedImage, fixedDigits]
    rw [show (if (k + 1) % 2 = 0 then [0] else []) ++ (fixedDigits k (n / 10) ++ [n % 10]) ++ [s] =
      ((if (k + 1) % 2 = 0 then [0] else []) ++ fixedDigits k (n / 10)) ++ [n % 10, s] by simp,
      packNibbles_append]
    · simp [packNibbles]
    · split <;> simp [fixedDigits_length] <;> omega
  rw [himg]
  by_cases hp : (k + 1) % 2 = 0
  · rw [if_pos hp, if_pos hp]
    obtain ⟨j, rfl⟩ : ∃ j, k = 2 * j + 1 := ⟨k / 2, by omega⟩
    rw [show 2 * ((2 * j + 1 + 1) / 2) = 2 * j + 1 + 1 by omega]
    have hsplit : ∀ m N, fixedDigits (m + 1) N = [N / 10 ^ m % 10] ++ fixedDigits m N := by
      intro m N
      apply List.ext_getElem
      · simp [fixedDigits_length]
      · intro i h1 h2
        rw [fixedDigits_getElem, List.getElem_append]
        split
        · rename_i hi
          simp at hi; subst hi
          simp
        · rw [fixedDigits_getElem]
          simp only [List.length_singleton]
          rename_i hi
          simp only [List.length_singleton] at hi
          congr 3
          omega
    rw [hsplit (2 * j + 1), hsplit (2 * j)]
    simp only [List.cons_append, List.nil_append, packNibbles]
    have : ∀ a b : Nat, b ≤ 9 → (16 * a + b) % 16 = b := by intro a b hb; omega
    simp [mul_comm]
    have : n / 10 / 10 ^ (j * 2) % 10 < 10 := Nat.mod_lt _ (by norm_num)
    omega
  · rw [if_neg hp, if_neg hp]
    rw [show 2 * ((k + 1) / 2) = k by omega, mul_comm (n % 10) 16]
    rfl


/-! ### zero -/

theorem leBytes_zero (k : Nat) : leBytes k 0 = List.replicate k 0 := by
  induction k with
  | zero => rfl
  | succ k ih => simp [leBytes, ih, List.replicate_succ]

theorem binSet_zero (f : Field) (h8 : f.data.length ≤ 8) :
    binSet f 0 = { f with data := List.replicate f.data.length 0 } := by
  obtain ⟨h1, h2⟩ := binSet_data f 0 h8
  generalize binSet f 0 = g at h1 h2
  obtain ⟨a, d⟩ := g
  subst h1
  subst h2
  simp [leBytes_zero]

theorem fixedDigits_zero (k : Nat) : fixedDigits k 0 = List.replicate k 0 := by
  induction k with
  | zero => rfl
  | succ k ih => simp [fixedDigits, ih, List.replicate_succ']

theorem zonedImage_zero (ebc : Bool) (a : Attr) (k : Nat) (hs : a.separate = false)
    (he : ¬ (ebc = true ∧ a.haveSign = true)) :
    zonedImage a ebc false (List.replicate k 0) = List.replicate k 48 := by
  unfold zonedImage
  cases hg : a.haveSign
  · simp
  · have he' : ebc = false := by
      cases ebc
      · rfl
      · exact absurd ⟨rfl, hg⟩ he
    subst he'
    cases k with
    | zero => cases a.leading <;> simp [hs]
    | succ k =>
      cases a.leading
      · simp [hs, List.replicate_succ', overpunch]
      · simp [hs, List.replicate_succ, overpunch]

theorem packedImage_zero (f : Field) (hf : WFPacked f) :
    setPackedZero f = ⟨f.attr, packedImage f.attr.digits 0 (signNibble f.attr false)⟩ := by
  obtain ⟨hD, hlen⟩ := hf
  unfold setPackedZero
  congr 1
  rw [packedImage_bytes _ _ _ hD (by positivity), hlen, Nat.zero_div, fixedDigits_zero]
  have : ∀ k, packNibbles (List.replicate (2 * k) 0) = List.replicate k 0 := by
    intro k
    induction k with
    | zero => rfl
    | succ k ih => rw [show 2 * (k + 1) = 2 * k + 1 + 1 by omega]; simp [List.replicate_succ, packNibbles, ih]
  rw [this, List.replicate_succ']
  simp [signNibble]
  cases f.attr.haveSign <;> rfl

theorem moveDispPacked_eq (ebc : Bool) (a : Attr) (neg : Bool) (ds : List Nat)
    (hs : a.separate = true → a.haveSign = true) (hne : ds ≠ []) (hd : ∀ d ∈ ds, d ≤ 9)
    (hP : a.digits = ds.length) (f2 : Field) (hf : WFPacked f2) :
    (moveDispPacked ebc ⟨a, zonedImage a ebc neg ds⟩ f2).2 = some ⟨f2.attr,
        packedImage f2.attr.digits (rescale (digitsVal ds) a.scale f2.attr.scale)
          (signNibble f2.attr (a.haveSign && neg))⟩ := by
  obtain ⟨h1, h2, h3, h4, h5, h6⟩ := image_getSign ebc a neg ds hs hne hd
  have hnull := not_null ebc a neg ds hs hne hd
  obtain ⟨hD, hlen⟩ := hf
  set f1 : Field := ⟨a, zonedImage a ebc neg ds⟩ with hf1
  have hneg : decide ((f1.getSign ebc).1 < 0) = (a.haveSign && neg) := by
    rw [h1]
    cases a.haveSign <;> cases neg <;> simp
  unfold moveDispPacked
  simp only [h2]
  rw [show f1.attr = a from rfl, hP, hnull]
  simp only [Bool.false_eq_true, false_and, if_false]
  rw [mapM_digits ds hd a.scale f2.attr.scale f2.attr.digits]
  simp only [Option.map_some]
  rw [hlen, pack_move_image _ _ _ hD]
  have : (if (!f2.attr.haveSign) = true then 15 else if (f1.getSign ebc).1 < 0 then 13 else 12) =
      signNibble f2.attr (a.haveSign && neg) := by
    unfold signNibble
    rw [← hneg]
    simp only [decide_eq_true_eq]
  rw [this]

/-- C51 (MOVE ZERO TO a number): the in-line code leaves exactly the bytes the library leaves. -/
theorem C51_zero (ebc cut : Bool) (dst : Item) (hw : WFItem dst)
    (hb : dst.usage = .binary → 0 ≤ 18 + dst.field.attr.scale) :
    moveNumZero ebc cut dst = moveZeroCall ebc cut dst := by
  obtain ⟨us, f⟩ := dst
  set a : Attr := { digits := 18 } with ha
  set ds : List Nat := List.replicate 18 0 with hds
  have hne : ds ≠ [] := by simp [hds]
  have hd : ∀ d ∈ ds, d ≤ 9 := by intro d h; have := (List.mem_replicate.mp h).2; omega
  have hz : (⟨a, List.replicate 18 48⟩ : Field) = ⟨a, zonedImage a ebc false ds⟩ := rfl
  have hv : digitsVal ds = 0 := by decide
  have hsep : a.separate = true → a.haveSign = true := by simp [ha]
  obtain ⟨h1, h2, h3, h4, h5, h6⟩ := image_getSign ebc a false ds hsep hne hd
  have hnull := not_null ebc a false ds hsep hne hd
  have hr : ∀ s, rescale 0 0 s = 0 := by intro s; unfold rescale; split <;> simp
  cases us with
  | display =>
    unfold moveNumZero
    simp only
    split
    · rfl
    split
    · rfl
    rename_i g1 g2
    unfold moveZeroCall cobMoveNum moveFromDisp
    simp only [← ha]
    rw [hz]
    simp only [moveDispDisp, h2, h1]
    rw [region_holds ebc f hw ds hd, hv, show a.scale = 0 from rfl, hr, fixedDigits_zero]
    have : f.dsize = f.data.length := by unfold Field.dsize; simp [g1]
    simp only [this]
    rw [show decide ((if a.haveSign = true then if false = true then (-1 : Int) else 1 else 0) < 0) = false from rfl,
      zonedImage_zero ebc f.attr _ (by simpa using g1) g2]
  | packed =>
    unfold moveNumZero moveZeroCall cobMoveNum moveFromDisp
    simp only [← ha]
    rw [packedImage_zero f hw, hz]
    rw [moveDispPacked_eq ebc a false ds hsep hne hd (by simp [ha, hds]) f hw, hv,
      show a.scale = 0 from rfl, hr]
    rfl
  | binary =>
    have hsz : 0 ≤ 18 + f.attr.scale := hb rfl
    unfold moveNumZero moveZeroCall cobMoveNum moveFromDisp
    simp only [← ha]
    rw [hz]
    have hacc := accLL_rescale ds hd 0 f.attr.scale (by simp [hds]; exact hsz) (by rw [hv, hr]; norm_num)
    have : (moveDispBin ebc cut ⟨a, zonedImage a ebc false ds⟩ f).2 = .done (binSet f 0) := by
      unfold moveDispBin
      simp only [h2, h6, hnull, Bool.false_eq_true, if_false]
      rw [if_neg (by simp [ha, hds]; omega), show a.scale = 0 from rfl, hacc]
      simp [hv, hr]
    rw [this, binSet_zero f hw.2.1]


example : moveNumZero true true ⟨.display, ⟨{ digits := 3, haveSign := true }, [49, 50, 51]⟩⟩ =
    .done ⟨.display, ⟨{ digits := 3, haveSign := true }, [48, 48, 123]⟩⟩ := by decide +kernel

/-! ### numeric literals -/

theorem store_native (f : Field) (hw : WFBinary f) (sw : Bool)
    (hsw : sw = f.attr.swap ∨ f.data.length = 1) (v : Int)
    (hr : InRange f.attr.haveSign f.data.length v) :
    WFBinary { f with data := regStore sw f.data.length v } ∧
    binaryHolds { f with data := regStore sw f.data.length v } v := by
  obtain ⟨h1, h8, hb⟩ := hw
  obtain ⟨s1, s2, s3⟩ := regStore_spec sw f.data.length h8 v
  have hone : ∀ bs : List Nat, bs.length = 1 → ∀ x y, bytesVal x bs = bytesVal y bs := by
    intro bs hbs x y
    obtain ⟨b, rfl⟩ := List.length_eq_one_iff.mp hbs
    cases x <;> cases y <;> simp [bytesVal]
  refine ⟨⟨by simp only; omega, by simp only; omega, s2⟩, ?_⟩
  apply holds_of_mod
  · simp only; omega
  · simp only; rw [s1]; exact hr
  · simp only
    rw [s1]
    rcases hsw with h | h
    · rw [← h]; exact s3
    · rw [hone _ (by omega) _ sw]; exact s3

theorem inRange_of (f : Field) (hroom : BinaryHasRoom f) (t : Int)
    (h : t.natAbs < 10 ^ f.attr.digits) (hs : f.attr.haveSign = true ∨ 0 ≤ t) :
    InRange f.attr.haveSign f.data.length t := by
  unfold BinaryHasRoom at hroom
  unfold InRange
  cases hg : f.attr.haveSign
  · simp only [hg, Bool.false_eq_true, if_false, Nat.sub_zero, false_or] at hroom hs ⊢
    refine ⟨hs, ?_⟩
    have : t.natAbs < 2 ^ (8 * f.data.length) := by omega
    have h2 : ((t.natAbs : Nat) : Int) < ((2 ^ (8 * f.data.length) : Nat) : Int) := by exact_mod_cast this
    push_cast at h2
    rwa [abs_of_nonneg hs] at h2
  · simp only [hg, if_true] at hroom ⊢
    have : t.natAbs < 2 ^ (8 * f.data.length - 1) := by omega
    have h2 : ((t.natAbs : Nat) : Int) < ((2 ^ (8 * f.data.length - 1) : Nat) : Int) := by exact_mod_cast this
    push_cast at h2
    have := abs_lt.mp h2
    exact ⟨by omega, this.2⟩

/-- C51 (numeric literal TO number): whichever way the compiler chooses, the receiver ends up
with the digits of the literal that fall in the receiver's positions and the sign if the receiver is
signed — the rule `MovedUnits` that `C13_move` proves of the library.  For a binary receiver the
literal has to fit its PICTURE (see `C51_finding_no_truncation`, `C51_finding_negative`). -/
theorem C51_literal (ebc cut : Bool) (l : NumLit) (h : l.Proper) (dst : Item) (hw : WFItem dst)
    (hb : dst.usage = .binary → cut = true ∧ BinaryHasRoom dst.field ∧ dst.field.attr.digits ≤ 18 ∧
      0 ≤ (l.data.length : Int) - l.scale + dst.field.attr.scale ∧
      ∀ t, IsTrunc (l.value * (10 : ℚ) ^ dst.field.attr.scale) t →
        t.natAbs < 10 ^ dst.field.attr.digits ∧ (dst.field.attr.haveSign = true ∨ 0 ≤ t)) :
    ∃ it u, moveLit ebc cut l dst = .done it ∧
      it.usage = dst.usage ∧ it.field.attr = dst.field.attr ∧ WFItem it ∧ HoldsUnits ebc it u ∧
      MovedUnits dst l.value u := by
  obtain ⟨w1, w2, w3, w4⟩ := lit_holds ebc l h
  have hdsize : l.item.field.dsize = l.data.length := by rw [← w4]; rfl
  -- the library call
  have hcall : ∃ it u, l.call ebc cut dst = .done it ∧
      it.usage = dst.usage ∧ it.field.attr = dst.field.attr ∧ WFItem it ∧ HoldsUnits ebc it u ∧
      MovedUnits dst l.value u := by
    apply C13_move ebc cut l.item dst w1 hw l.value w3 (fun _ => w4)
    intro hu
    obtain ⟨b1, b2, b3, b4, b5⟩ := hb hu
    refine ⟨b1, b2, ?_, ?_⟩
    · show 0 ≤ ((l.item.field.dsize : Nat) : Int) - l.scale + _
      rw [hdsize]; exact b4
    · intro t ht
      have h1 := (b5 t ht).1
      have h2 : 10 ^ dst.field.attr.digits ≤ 10 ^ 18 := Nat.pow_le_pow_right (by norm_num) b3
      have h3 : (10 : Nat) ^ 18 < 2 ^ 63 := by norm_num
      omega
  -- the value in units of the receiver
  obtain ⟨tv, htv⟩ : ∃ t, t = alignVal l.getInt (dst.field.attr.scale - l.scale) := ⟨_, rfl⟩
  have hal := align_eq l h dst.field.attr.scale
  rw [← htv] at hal
  have hI : IsTrunc (l.value * (10 : ℚ) ^ dst.field.attr.scale) tv := by
    have h5 := (C05_truncates ⟨l.units, l.scale⟩ dst.field.attr.scale).2
    rw [hal, ← lit_isTrunc l _ _ h5]
    exact h5
  obtain ⟨us, f⟩ := dst
  unfold moveLit
  simp only
  split
  · rename_i hc
    obtain ⟨c1, c2, c3, c4⟩ := hc
    subst c1
    rw [litZoned_call ebc cut l h f hw c2 c3 c4] at hcall
    exact hcall
  simp only at htv hal hI
  rw [← htv]
  split
  · rename_i hc
    obtain ⟨c1, c2, c3⟩ := hc
    subst c3
    obtain ⟨b1, b2, b3, b4, b5⟩ := hb rfl
    simp only at b2 b3 b4 b5
    obtain ⟨e1, e2⟩ := b5 tv hI
    have hmv : MovedUnits ⟨.binary, f⟩ l.value tv := lit_moved l ⟨.binary, f⟩ tv hal e1 e2
    have hr := inRange_of f b2 tv e1 e2
    have hw' : WFBinary f := hw
    split
    · exact hcall
    split
    · rename_i h0
      obtain ⟨x1, x2⟩ := binSet_holds f hw' 0 0 (by unfold binFits; split <;> simp) rfl
      rw [binSet_zero f hw'.2.1] at x1 x2
      exact ⟨_, tv, rfl, rfl, rfl, x1, h0 ▸ x2.2, hmv⟩
    split
    · rename_i h1
      obtain ⟨x1, x2⟩ := store_native f hw' false (Or.inr h1) tv hr
      rw [h1] at x1 x2
      exact ⟨_, tv, rfl, rfl, rfl, x1, x2, hmv⟩
    split
    · rename_i h1
      obtain ⟨x1, x2⟩ := store_native f hw' true (Or.inl h1.symm) tv hr
      exact ⟨_, tv, rfl, rfl, rfl, x1, x2, hmv⟩
    split
    · rename_i hsw _
      obtain ⟨x1, x2⟩ := store_native f hw' false (Or.inl (by simpa using hsw)) tv hr
      exact ⟨_, tv, rfl, rfl, rfl, x1, x2, hmv⟩
    · exact hcall
  split
  · rename_i hc
    obtain ⟨c1, c2⟩ := hc
    subst c2
    have hw' : WFPacked f := hw
    split
    · exact hcall
    split
    · exact hcall
    -- the packed image of the value
    have hmu := movedUnits_of ⟨.packed, f⟩ (decide (l.sign < 0)) l.digitsNat l.scale
    have hv : ((if decide (l.sign < 0) = true then -(l.digitsNat : Int) else l.digitsNat : Int) : ℚ)
        / (10 : ℚ) ^ l.scale = l.value := by
      unfold NumLit.value NumLit.units NumLit.digitsNat
      simp
    rw [hv] at hmu
    simp only [Item.positions] at hmu
    set R := rescale l.digitsNat l.scale f.attr.scale with hR
    split
    · rename_i h0
      have hR0 : R = 0 := by rw [h0] at hal; split at hal <;> omega
      rw [hR0] at hmu
      refine ⟨_, 0, rfl, rfl, ?_, ?_, ⟨false, 0, by positivity, ?_, by simp⟩, by simpa using hmu⟩
      · rfl
      · refine ⟨hw'.1, ?_⟩
        simp only [setPackedZero, List.length_set, List.length_replicate]
        exact hw'.2
      · simp only [packedImage_zero f hw']
    · rename_i h0
      have hneg : decide (tv < 0) = decide (l.sign < 0) := by
        by_cases hn : l.sign < 0
        · rw [if_pos hn] at hal
          simp [hn]; omega
        · rw [if_neg hn] at hal
          simp [hn]; omega
      have habs : tv.natAbs = R := by rw [hal]; split <;> simp
      have himg : packedImage f.attr.digits R (signNibble f.attr (decide (l.sign < 0))) =
          packedImage f.attr.digits (R % 10 ^ f.attr.digits) (signNibble f.attr (decide (l.sign < 0))) := by
        unfold packedImage
        rw [fixedDigits_mod]
      have heq := setPackedInt_eq f hw' tv
      rw [hneg, habs] at heq
      refine ⟨_, _, rfl, rfl, ?_, ?_, ⟨decide (l.sign < 0), R % 10 ^ f.attr.digits,
        Nat.mod_lt _ (by positivity), ?_, rfl⟩, hmu⟩
      · rfl
      · refine ⟨hw'.1, ?_⟩
        simp only [heq]
        rw [← pack_move_image _ _ _ hw'.1]
        unfold setSignNibble
        rw [List.length_set, packNibLoop_length]
        simp
      · simp only [heq]
        exact himg
  · exact hcall

example : (⟨[49, 50], -1, 0⟩ : NumLit).Proper ∧
    moveLit false true ⟨[49, 50], -1, 0⟩ ⟨.packed, ⟨{ digits := 4, scale := 1, haveSign := true }, [9, 9, 9]⟩⟩ =
    .done ⟨.packed, ⟨{ digits := 4, scale := 1, haveSign := true }, [0, 0x12, 0x0D]⟩⟩ := by
  refine ⟨⟨by simp, by decide⟩, by decide +kernel⟩


theorem inRange_of_fits (f : Field) (t : Int) (h : binFits f t) :
    InRange f.attr.haveSign f.data.length t := by
  unfold binFits at h
  unfold InRange
  have cast : ∀ k, t.natAbs < 2 ^ k → |t| < (2 : Int) ^ k := by
    intro k hk
    have h2 : ((t.natAbs : Nat) : Int) < ((2 ^ k : Nat) : Int) := by exact_mod_cast hk
    push_cast at h2
    exact h2
  split at h
  · rename_i hs
    rw [if_pos hs]
    have := abs_lt.mp (cast _ h)
    exact ⟨by omega, this.2⟩
  · rename_i hs
    rw [if_neg hs]
    refine ⟨h.1, ?_⟩
    have := cast _ h.2
    rwa [abs_of_nonneg h.1] at this

/-- C51 for a binary receiver without truncation to the PICTURE (COMP-5, COMP-X, or
`binary-truncate: no`): a literal whose value fits the storage is stored exactly. -/
theorem C51_literal_native (ebc : Bool) (l : NumLit) (h : l.Proper) (f : Field) (hw : WFBinary f)
    (hsz : 0 ≤ (l.data.length : Int) - l.scale + f.attr.scale) (t : Int)
    (ht : IsTrunc (l.value * (10 : ℚ) ^ f.attr.scale) t) (h63 : t.natAbs < 2 ^ 63)
    (hfit : binFits f t) :
    ∃ r, moveLit ebc false l ⟨.binary, f⟩ = .done ⟨.binary, r⟩ ∧ r.attr = f.attr ∧ WFBinary r ∧
      binaryHolds r t := by
  obtain ⟨ds, he, hne, hd, hm⟩ := lit_digits l h
  have hi := lit_item ebc l ds he
  obtain ⟨w1, w2, w3, w4⟩ := lit_holds ebc l h
  have habs : (if f.attr.haveSign then t else |t|) = t := by
    split
    · rfl
    · rename_i hs
      unfold binFits at hfit
      rw [if_neg hs] at hfit
      exact abs_of_nonneg hfit.1
  have hlen : l.data.length = ds.length := by rw [he]; simp
  have hcall : ∃ r, l.call ebc false ⟨.binary, f⟩ = .done ⟨.binary, r⟩ ∧ r.attr = f.attr ∧ WFBinary r ∧
      binaryHolds r t := by
    have hx := w3
    rw [hi] at hx
    obtain ⟨r, r1, r2, r3, r4⟩ := C13_move_native ebc l.item.field.attr (decide (l.sign < 0)) ds
      (by rw [(lit_attr l).2.2.1, (lit_attr l).2.2.2.1]; exact id) hne hd f hw l.value hx
      (by rw [(lit_attr l).1, ← hlen]; exact hsz) t ht h63 (by rw [habs]; exact hfit)
    refine ⟨r, ?_, r2, r3, by rw [habs] at r4; exact r4⟩
    unfold NumLit.call cobMoveNum moveFromDisp
    rw [hi]
    simp only
    rw [r1]
  have hal := align_eq l h f.attr.scale
  rw [← lit_isTrunc l _ _ ht] at hal
  have hr := inRange_of_fits f t hfit
  unfold moveLit
  simp only [reduceCtorEq, false_and, if_false, and_true, and_false, hal]
  split
  · split
    · exact hcall
    split
    · rename_i h0
      obtain ⟨x1, x2⟩ := binSet_holds f hw 0 0 (by unfold binFits; split <;> simp) rfl
      rw [binSet_zero f hw.2.1] at x1 x2
      exact ⟨_, rfl, rfl, x1, h0 ▸ x2.2⟩
    split
    · rename_i h1
      obtain ⟨x1, x2⟩ := store_native f hw false (Or.inr h1) t hr
      rw [h1] at x1 x2
      exact ⟨_, rfl, rfl, x1, x2⟩
    split
    · rename_i h1
      obtain ⟨x1, x2⟩ := store_native f hw true (Or.inl h1.symm) t hr
      exact ⟨_, rfl, rfl, x1, x2⟩
    split
    · rename_i hsw _
      obtain ⟨x1, x2⟩ := store_native f hw false (Or.inl (by simpa using hsw)) t hr
      exact ⟨_, rfl, rfl, x1, x2⟩
    · exact hcall
  · exact hcall

example : moveLit false false ⟨[50, 48, 48], 1, 0⟩ ⟨.binary, ⟨{ digits := 2 }, [0]⟩⟩ =
    .done ⟨.binary, ⟨{ digits := 2 }, [200]⟩⟩ := by decide +kernel

/-- C51, as the user sees it: the compiled MOVE of a literal and the general routine leave the same
number in the receiver. -/
theorem C51_literal_same (ebc cut : Bool) (l : NumLit) (h : l.Proper) (dst : Item) (hw : WFItem dst)
    (hb : dst.usage = .binary → cut = true ∧ BinaryHasRoom dst.field ∧ dst.field.attr.digits ≤ 18 ∧
      0 ≤ (l.data.length : Int) - l.scale + dst.field.attr.scale ∧
      ∀ t, IsTrunc (l.value * (10 : ℚ) ^ dst.field.attr.scale) t →
        t.natAbs < 10 ^ dst.field.attr.digits ∧ (dst.field.attr.haveSign = true ∨ 0 ≤ t)) :
    ∃ it it' u, moveLit ebc cut l dst = .done it ∧ cobMoveNum ebc cut l.item dst = .done it' ∧
      HoldsUnits ebc it u ∧ HoldsUnits ebc it' u := by
  obtain ⟨it, u, a1, a2, a3, a4, a5, t, a6, a7⟩ := C51_literal ebc cut l h dst hw hb
  obtain ⟨w1, w2, w3, w4⟩ := lit_holds ebc l h
  have hdsize : l.item.field.dsize = l.data.length := by rw [← w4]; rfl
  obtain ⟨it', u', c1, c2, c3, c4, c5, t', c6, c7⟩ := C13_move ebc cut l.item dst w1 hw l.value w3
    (fun _ => w4) (by
      intro hu
      obtain ⟨b1, b2, b3, b4, b5⟩ := hb hu
      refine ⟨b1, b2, ?_, ?_⟩
      · show 0 ≤ ((l.item.field.dsize : Nat) : Int) - l.scale + _
        rw [hdsize]; exact b4
      · intro t ht
        have h1 := (b5 t ht).1
        have h2 : 10 ^ dst.field.attr.digits ≤ 10 ^ 18 := Nat.pow_le_pow_right (by norm_num) b3
        have h3 : (10 : Nat) ^ 18 < 2 ^ 63 := by norm_num
        omega)
  have := isTrunc_unique _ _ _ a6 c6
  subst this
  rw [← a7] at c7
  subst c7
  exact ⟨it, it', u', a1, c1, a5, c5⟩

/-- For a zoned receiver the bytes are the same, in every case. -/
theorem C51_literal_zoned (ebc cut : Bool) (l : NumLit) (h : l.Proper) (f : Field) (hf : WFDisplay f) :
    moveLit ebc cut l ⟨.display, f⟩ = cobMoveNum ebc cut l.item ⟨.display, f⟩ := by
  unfold moveLit
  simp only [reduceCtorEq, and_false, if_false]
  split
  · rename_i hc
    exact (litZoned_call ebc cut l h f hf hc.2.1 hc.2.2.1 hc.2.2.2).symm
  · rfl

/-! ### items -/

theorem tmod_of_small (v : Int) (k : Nat) (h : v.natAbs < 10 ^ k) : v.tmod (10 ^ k) = v := by
  obtain ⟨n, rfl | rfl⟩ := Int.eq_nat_or_neg v
  · rw [Int.tmod_eq_emod_of_nonneg (by omega)]
    apply Int.emod_eq_of_lt (by omega)
    have : n < 10 ^ k := by simpa using h
    exact_mod_cast this
  · rw [Int.neg_tmod, Int.tmod_eq_emod_of_nonneg (by omega)]
    congr 1
    apply Int.emod_eq_of_lt (by omega)
    have : n < 10 ^ k := by simpa using h
    exact_mod_cast this

theorem holds_unsigned_nonneg (ebc : Bool) (it : Item) (v : Int) (hv : HoldsUnits ebc it v)
    (hs : it.field.attr.haveSign = false) : 0 ≤ v := by
  unfold HoldsUnits at hv
  split at hv
  · obtain ⟨ng, ds, -, -, -, h⟩ := hv
    rw [h, hs]; simp
  · obtain ⟨ng, n, -, -, h⟩ := hv
    rw [h, hs]; simp
  · unfold binaryHolds at hv
    simp only [hs, Bool.false_eq_true, if_false] at hv
    omega

/-- C51 (number TO number): also when the compiler copies the bytes, the receiver ends up as
`MovedUnits` says — provided the sender holds a number within its PICTURE. -/
theorem C51_field (ebc cut same : Bool) (src dst : Item) (hs : WFItem src) (hd : WFItem dst) (v : Int)
    (hv : HoldsUnits ebc src v) (hpic : v.natAbs < 10 ^ src.positions)
    (hP : src.usage = .display → src.field.attr.digits = src.field.dsize)
    (hb : dst.usage = .binary → cut = true ∧ BinaryHasRoom dst.field ∧
      0 ≤ (src.sent : Int) - src.field.attr.scale + dst.field.attr.scale ∧
      ∀ t, IsTrunc ((v : ℚ) / (10 : ℚ) ^ src.field.attr.scale * (10 : ℚ) ^ dst.field.attr.scale) t →
        t.natAbs < 2 ^ 63) :
    ∃ it u, moveNumField ebc cut same src dst = .done it ∧
      it.usage = dst.usage ∧ it.field.attr = dst.field.attr ∧ WFItem it ∧ HoldsUnits ebc it u ∧
      MovedUnits dst ((v : ℚ) / (10 : ℚ) ^ src.field.attr.scale) u := by
  unfold moveNumField
  split
  · rename_i hc
    obtain ⟨-, c1, c2, c3⟩ := hc
    obtain ⟨us, f⟩ := src
    obtain ⟨us', g⟩ := dst
    simp only at c1 c2 c3
    subst c1
    have hg : ({ g with data := f.data.take g.data.length } : Field) = f := by
      obtain ⟨fa, fd⟩ := f
      obtain ⟨ga, gd⟩ := g
      simp only at c2 c3
      subst c3
      rw [List.take_of_length_le (by simp only; omega)]
    simp only [hg]
    refine ⟨_, v, rfl, rfl, c3, hs, hv, ?_⟩
    have hpos : Item.positions ⟨us, g⟩ = Item.positions ⟨us, f⟩ := by
      unfold Item.positions Field.dsize
      cases us <;> simp only [c3, c2]
    have hx : (v : ℚ) / (10 : ℚ) ^ f.attr.scale * (10 : ℚ) ^ g.attr.scale = v := by
      rw [← c3, div_mul_cancel₀]
      exact zpow_ne_zero _ (by norm_num)
    refine ⟨v, by simp only; rw [hx]; exact isTrunc_int v, ?_⟩
    rw [hpos]
    simp only
    split
    · rw [tmod_of_small v _ hpic]
    · rename_i hns
      rw [Nat.mod_eq_of_lt hpic]
      have := holds_unsigned_nonneg ebc ⟨us, f⟩ v hv (by simp only [c3]; simpa using hns)
      omega
  · exact C13_move ebc cut src dst hs hd _ ⟨v, hv, rfl⟩ hP hb


example : moveNumField false true true ⟨.packed, ⟨{ digits := 3, haveSign := true }, [0x12, 0x3D]⟩⟩
    ⟨.packed, ⟨{ digits := 3, haveSign := true }, [0, 0x0C]⟩⟩ =
    .done ⟨.packed, ⟨{ digits := 3, haveSign := true }, [0x12, 0x3D]⟩⟩ := by decide +kernel

/-! ### text -/

/-- C51 (figurative constants TO text), byte for byte. -/
theorem C51_figurative (ebc : Bool) (c : Nat) (r : TextRecv) :
    moveText ebc (.figurative c) r = textCall ebc (.figurative c) r := by
  simp only [moveText, textCall]
  rw [C15_one_byte]

/-- C51 (text literal TO text), byte for byte. -/
theorem C51_text_literal (ebc : Bool) (d : List Nat) (r : TextRecv) :
    moveText ebc (.text d) r = textCall ebc (.text d) r := by
  simp only [moveText, textCall]
  split
  · unfold litText moveAlnum
    cases r.just
    · simp
    · simp only [if_true]
  · rfl

/-- C51 (numeric literal TO text), byte for byte, when the receiver is not JUSTIFIED RIGHT
(see `C51_finding_justified`). -/
theorem C51_number_text (ebc : Bool) (l : NumLit) (h : l.Proper) (hsc : 0 ≤ l.scale) (r : TextRecv)
    (hj : r.just = false) : moveText ebc (.num l) r = textCall ebc (.num l) r := by
  simp only [moveText, textCall]
  split
  · obtain ⟨ds, he, hne, hd, hm⟩ := lit_digits l h
    have hi := lit_item ebc l ds he
    rw [hi]
    simp only
    rw [C14_display_to_text ebc l.item.field.attr (decide (l.sign < 0)) ds
      (by rw [(lit_attr l).2.2.1, (lit_attr l).2.2.2.1]; exact id) hne hd (by rw [(lit_attr l).1]; exact hsc)]
    rw [hj, he]
    unfold litText moveAlnum
    simp
  · rfl

/-- C51 (ALL literal TO text), byte for byte, for text below 0x81 (see `C51_finding_all`). -/
theorem C51_all (ebc : Bool) (d : List Nat) (hne : d ≠ []) (hb : ∀ b ∈ d, b < 0x81) (r : TextRecv) :
    moveText ebc (.all d) r = textCall ebc (.all d) r := by
  have hpos : 0 < d.length := List.length_pos_iff.mpr hne
  have hall : ∀ i, i < r.size → (moveAllAlnum r.just d r.size).length = r.size ∧
      (moveAllAlnum r.just d r.size)[i]? = d[i % d.length]? := fun i hi => C15_move_all r.just d hne hb r.size i hi
  simp only [moveText, litAll]
  split
  · rfl
  rcases Nat.eq_zero_or_pos r.size with h0 | hp
  · have e1 : moveAllAlnum r.just d 0 = [] := by
      unfold moveAllAlnum moveAlnum
      cases r.just <;> simp
    simp [textCall, h0, e1]
  have hlen : (moveAllAlnum r.just d r.size).length = r.size := (hall 0 hp).1
  split
  · rename_i h1
    obtain ⟨b, rfl⟩ := List.length_eq_one_iff.mp h1
    simp [textCall, C15_one_byte]
  split
  · rename_i h1 h2
    simp only [textCall]
    apply List.ext_getElem?
    intro i
    by_cases hi : i < r.size
    · rw [(hall i hi).2]
      have hm : i % d.length < d.length := Nat.mod_lt _ hpos
      rw [List.getElem?_eq_getElem hm, List.getElem?_replicate, if_pos hi]
      have := List.all_eq_true.mp h2 d[i % d.length] (List.getElem_mem hm)
      simp only [beq_iff_eq] at this
      rw [this]
    · rw [List.getElem?_eq_none (by simp; omega), List.getElem?_eq_none (by omega)]
  split
  · rfl
  · rename_i h1 h2 h3
    have hz : ((List.range r.size).map fun i => d.getD (i % d.length) 0).getD (r.size - 1) 0 < 0x81 := by
      have : r.size - 1 < r.size := by omega
      rw [List.getD_eq_getElem?_getD, List.getElem?_map, List.getElem?_range this]
      simp only [Option.map_some, Option.getD_some]
      have hm : (r.size - 1) % d.length < d.length := Nat.mod_lt _ hpos
      rw [List.getD_eq_getElem?_getD, List.getElem?_eq_getElem hm]
      exact hb _ (List.getElem_mem hm)
    rw [if_neg (by omega)]
    simp only [textCall]
    apply List.ext_getElem?
    intro i
    by_cases hi : i < r.size
    · rw [(hall i hi).2, List.getElem?_map, List.getElem?_range hi]
      have hm : i % d.length < d.length := Nat.mod_lt _ hpos
      simp [List.getD_eq_getElem?_getD, List.getElem?_eq_getElem hm]
    · rw [List.getElem?_eq_none (by simp; omega), List.getElem?_eq_none (by omega)]

/-- C51 (text item TO text), byte for byte. -/
theorem C51_text_item (ebc alph : Bool) (d : List Nat) (r : TextRecv) :
    moveText ebc (.item alph d) r = textCall ebc (.item alph d) r := by
  simp only [moveText, textCall]
  split
  · rename_i hc
    unfold moveAlnum
    rw [if_pos hc.1, hc.2.1]
    simp
  · rfl

/-- C51 (zoned item TO text), byte for byte. -/
theorem C51_zoned_item (ebc : Bool) (f : Field) (r : TextRecv) :
    moveText ebc (.zoned f) r = textCall ebc (.zoned f) r := by
  simp only [moveText, textCall]
  split
  · rename_i hc
    obtain ⟨c1, c2, c3, c4, c5⟩ := hc
    unfold moveDispAlnum Field.getSign
    simp only [c3, Bool.not_false, if_true]
    have hds : f.dsize = f.data.length := by unfold Field.dsize; simp [c5]
    rw [if_pos (by omega)]
    unfold Field.digitBytes Field.dataOff
    simp [c5, hds]
  · rfl

example : moveText false (.num ⟨[49, 50], -1, 0⟩) ⟨false, false, 4⟩ = [49, 50, 32, 32] ∧
    moveText false (.zoned ⟨{ digits := 3 }, [49, 50, 51]⟩) ⟨false, true, 2⟩ = [49, 50] ∧
    moveText false (.all [97, 98]) ⟨true, false, 3⟩ = [97, 98, 97] := by decide +kernel

/-! ### findings -/

/-- Finding: MOVE 200 TO a PIC 99 COMP item stores 200 — the in-line assignment does not truncate to
the PICTURE, the library routine (e.g. for an item holding 200) stores 0. -/
theorem C51_finding_no_truncation :
    moveLit false true ⟨[50, 48, 48], 0, 0⟩ ⟨.binary, ⟨{ digits := 2, swap := true }, [0]⟩⟩ =
      .done ⟨.binary, ⟨{ digits := 2, swap := true }, [200]⟩⟩ ∧
    cobMoveNum false true (⟨[50, 48, 48], 0, 0⟩ : NumLit).item ⟨.binary, ⟨{ digits := 2, swap := true }, [0]⟩⟩ =
      .done ⟨.binary, ⟨{ digits := 2, swap := true }, [0]⟩⟩ := by decide +kernel

/-- Finding: MOVE -5 TO an unsigned PIC 9(4) COMP item stores 65531; the library routine stores 5
(the compiler's warning says "Ignoring negative sign"). -/
theorem C51_finding_negative :
    moveLit false true ⟨[53], -1, 0⟩ ⟨.binary, ⟨{ digits := 4, swap := true }, [0, 0]⟩⟩ =
      .done ⟨.binary, ⟨{ digits := 4, swap := true }, [255, 251]⟩⟩ ∧
    cobMoveNum false true (⟨[53], -1, 0⟩ : NumLit).item ⟨.binary, ⟨{ digits := 4, swap := true }, [0, 0]⟩⟩ =
      .done ⟨.binary, ⟨{ digits := 4, swap := true }, [0, 5]⟩⟩ := by decide +kernel

/-- Finding: MOVE "-5" TO PIC S9(4): the bytes of the text literal are copied (`00-5`), while the
library routine for the same text converts it (-0005). -/
theorem C51_finding_text_number :
    (litZoned false [45, 53] 0 ⟨{ digits := 4, haveSign := true }, [48, 48, 48, 48]⟩).data = [48, 48, 45, 53] ∧
    moveAlnumDisp false 46 44 [45, 53] ⟨{ digits := 4, haveSign := true }, [48, 48, 48, 48]⟩ =
      .done ⟨{ digits := 4, haveSign := true }, [48, 48, 48, 117]⟩ := by decide +kernel

/-- Finding: MOVE 12 TO an item PIC X(4) JUSTIFIED RIGHT is right-aligned by the in-line code, and
left-aligned by the library; for PIC X(18) JUSTIFIED RIGHT the compiler calls the library. -/
theorem C51_finding_justified :
    moveText false (.num ⟨[49, 50], 0, 0⟩) ⟨false, true, 4⟩ = [32, 32, 49, 50] ∧
    textCall false (.num ⟨[49, 50], 0, 0⟩) ⟨false, true, 4⟩ = [49, 50, 32, 32] ∧
    moveText false (.num ⟨[49, 50], 0, 0⟩) ⟨false, true, 18⟩ = [49, 50] ++ List.replicate 16 32 := by
  decide +kernel

/-- Finding: MOVE ALL with a literal of equal bytes above 0x80 to an alphabetic item: the in-line code
does not blank the last byte, the library does. -/
theorem C51_finding_all :
    moveText false (.all [0x81, 0x81]) ⟨true, false, 3⟩ = [0x81, 0x81, 0x81] ∧
    textCall false (.all [0x81, 0x81]) ⟨true, false, 3⟩ = [0x81, 0x81, 32] := by decide +kernel

/-- Finding: the byte copy between equal binary items keeps a value beyond the PICTURE, which the
library routine would truncate. -/
theorem C51_finding_copy :
    moveNumField false true true ⟨.binary, ⟨{ digits := 2, swap := true }, [200]⟩⟩
        ⟨.binary, ⟨{ digits := 2, swap := true }, [0]⟩⟩ =
      .done ⟨.binary, ⟨{ digits := 2, swap := true }, [200]⟩⟩ ∧
    cobMoveNum false true ⟨.binary, ⟨{ digits := 2, swap := true }, [200]⟩⟩
        ⟨.binary, ⟨{ digits := 2, swap := true }, [0]⟩⟩ =
      .done ⟨.binary, ⟨{ digits := 2, swap := true }, [0]⟩⟩ := by decide +kernel

/-- C51 (ALL literal TO an ALPHABETIC item of at most 128 bytes): the literal over and over; only if the item ends in the first half of a
two-byte character (Shift_JIS 0x81 to 0x9F, 0xE0 to 0xFC) its last byte is a space - unless all bytes of the literal are the same. -/
theorem C51_all_alphabetic (ebc : Bool) (d : List Nat) (hne : d ≠ []) (r : TextRecv) (hr : r.alphabetic = true) (hs : r.size ≤ 128)
    (i : Nat) (hi : i < r.size) :
    (moveText ebc (.all d) r).length = r.size ∧
    (moveText ebc (.all d) r)[i]? =
      (d[i % d.length]?).map fun b =>
        if i + 1 = r.size ∧ ((0x81 ≤ b ∧ b ≤ 0x9F) ∨ (0xE0 ≤ b ∧ b ≤ 0xFC)) ∧ (∃ x ∈ d, x ≠ b) then 32 else b := by
  have hpos : 0 < d.length := List.length_pos_iff.mpr hne
  have hm : i % d.length < d.length := Nat.mod_lt _ hpos
  have hg : ∀ j, j < d.length → d.getD j 0 = d[j]?.getD 0 := fun j _ => List.getD_eq_getElem?_getD
  simp only [moveText, litAll, hr, Bool.not_true, Bool.false_eq_true, if_false]
  rw [List.getElem?_eq_getElem hm]
  simp only [Option.map_some]
  have same : (∀ x ∈ d, x = d.getD 0 0) → (List.replicate r.size (d.getD 0 0)).length = r.size ∧
      (List.replicate r.size (d.getD 0 0))[i]? =
        some (if i + 1 = r.size ∧ ((0x81 ≤ d[i % d.length] ∧ d[i % d.length] ≤ 0x9F) ∨ (0xE0 ≤ d[i % d.length] ∧ d[i % d.length] ≤ 0xFC)) ∧
          (∃ x ∈ d, x ≠ d[i % d.length]) then 32 else d[i % d.length]) := by
    intro h
    have h1 := h _ (List.getElem_mem hm)
    refine ⟨by simp, ?_⟩
    rw [if_neg, List.getElem?_replicate, if_pos hi, h1]
    rintro ⟨-, -, x, hx, hxn⟩
    exact hxn (by rw [h x hx, h1])
  by_cases h1 : d.length = 1
  · rw [if_pos h1]
    obtain ⟨b, rfl⟩ := List.length_eq_one_iff.mp h1
    exact same (by simp)
  rw [if_neg h1]
  by_cases h2 : (d.all fun x => x == d.getD 0 0) = true
  · rw [if_pos h2]
    exact same fun x hx => by simpa using List.all_eq_true.mp h2 x hx
  rw [if_neg h2, if_neg (by omega)]
  have hex : ∀ b, ∃ x ∈ d, x ≠ b := by
    intro b
    by_cases hb : b = d.getD 0 0
    · subst hb
      simpa using h2
    · exact ⟨d.getD 0 0, by rw [hg 0 hpos, List.getElem?_eq_getElem hpos]; exact List.getElem_mem hpos, fun h => hb h.symm⟩
  have hl : ∀ j, j < r.size → ((List.range r.size).map fun i => d.getD (i % d.length) 0)[j]? = some (d.getD (j % d.length) 0) := by
    intro j hj
    simp [hj]
  have hb : d.getD (i % d.length) 0 = d[i % d.length] := by rw [hg _ hm, List.getElem?_eq_getElem hm]; rfl
  have hz : ((List.range r.size).map fun i => d.getD (i % d.length) 0).getD (r.size - 1) 0 = d.getD ((r.size - 1) % d.length) 0 := by
    rw [List.getD_eq_getElem?_getD, hl _ (by omega)]
    rfl
  rw [hz]
  split
  · rename_i hz2
    refine ⟨by simp, ?_⟩
    rw [List.getElem?_set]
    by_cases hlast : i + 1 = r.size
    · have e : r.size - 1 = i := by omega
      rw [e] at hz2
      rw [hb] at hz2
      rw [if_pos e, if_pos (by simp; omega), if_pos ⟨hlast, hz2, hex _⟩]
    · rw [if_neg (by omega), if_neg (by omega), hl i hi, hb]
  · rename_i hz2
    refine ⟨by simp, ?_⟩
    rw [hl i hi, hb, if_neg]
    rintro ⟨hlast, h3, -⟩
    have e : r.size - 1 = i := by omega
    rw [e, hb] at hz2
    exact hz2 h3

/- ALL of a two-byte character in five bytes: the half character at the end is a space. -/
example : moveText false (.all [0x83, 0x41]) { size := 5, just := false, alphabetic := true } = [0x83, 0x41, 0x83, 0x41, 32] := by
  decide +kernel

end Cob
