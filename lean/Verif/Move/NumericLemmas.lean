import Verif.Move.NumericSpec
import Verif.Num.ItemProps
import Verif.Num.AddPackedProps
/-
Helper lemmas for the numeric MOVE properties.
-/
namespace Cob
open Dec

theorem fixedDigits_getElem (k n j : Nat) (h : j < (fixedDigits k n).length) :
    (fixedDigits k n)[j] = n / 10 ^ (k - 1 - j) % 10 := by
  induction k generalizing n with
  | zero => simp [fixedDigits] at h
  | succ k ih =>
    have hl := fixedDigits_length (k + 1) n
    simp only [fixedDigits]
    rw [List.getElem_append]
    split
    · rename_i hj
      rw [ih]
      rw [fixedDigits_length] at hj
      rw [Nat.div_div_eq_div_mul, ← pow_succ']
      congr 3
      omega
    · rename_i hj
      rw [fixedDigits_length] at hj
      have : j = k := by omega
      subst this
      simp

theorem fixedDigits_digitsVal (ds : List Nat) (h : ∀ d ∈ ds, d ≤ 9) :
    fixedDigits ds.length (digitsVal ds) = ds := by
  induction ds using List.reverseRecOn with
  | nil => rfl
  | append_singleton t d ih =>
    rw [List.length_append, List.length_singleton, digitsVal_append]
    have hd := h d (by simp)
    have e : digitsVal [d] = d := by simp [digitsVal]
    simp only [fixedDigits, e, List.length_singleton, pow_one]
    rw [show (digitsVal t * 10 + d) / 10 = digitsVal t by omega,
      show (digitsVal t * 10 + d) % 10 = d by omega, ih (fun x hx => h x (by simp [hx]))]

theorem digits_getElem (ds : List Nat) (h : ∀ d ∈ ds, d ≤ 9) (j : Nat) (hj : j < ds.length) :
    ds[j] = digitsVal ds / 10 ^ (ds.length - 1 - j) % 10 := by
  have hl : j < (fixedDigits ds.length (digitsVal ds)).length := by rw [fixedDigits_length]; exact hj
  have h1 := fixedDigits_getElem ds.length (digitsVal ds) j hl
  rw [← h1]
  congr 1
  exact (fixedDigits_digitsVal ds h).symm

theorem digitsVal_lt (ds : List Nat) (h : ∀ d ∈ ds, d ≤ 9) : digitsVal ds < 10 ^ ds.length := by
  rw [← lsbVal_reverse]
  have := lsbVal_lt ds.reverse (by simpa using h)
  simpa using this

/-- The number `m` of units of `10^-s1` expressed in units of `10^-s2`, low digits cut off. -/
def rescale (m : Nat) (s1 s2 : Int) : Nat :=
  if s1 ≤ s2 then m * 10 ^ (s2 - s1).toNat else m / 10 ^ (s1 - s2).toNat

/-- The digit a source character stands for. -/
def charDigit (b : Nat) : Nat := if b = 32 then 0 else b - 48

theorem rescale_digit (m : Nat) (s1 s2 : Int) (w : Nat) : rescale m s1 s2 / 10 ^ w % 10 =
        if (w : Int) < s2 - s1 then 0 else m / 10 ^ ((w : Int) + s1 - s2).toNat % 10 := by
      unfold rescale
      split
      · rename_i hs
        split
        · rename_i hw
          have : (10 : Nat) ^ (s2 - s1).toNat = 10 ^ w * (10 * 10 ^ ((s2 - s1).toNat - w - 1)) := by
            rw [← pow_succ', ← pow_add]; congr 1; omega
          rw [this, ← mul_assoc, mul_comm m, mul_assoc, Nat.mul_div_cancel_left _ (by positivity)]
          rw [← mul_assoc, mul_comm m 10, mul_assoc, Nat.mul_mod_right]
        · rename_i hw
          have : (10 : Nat) ^ w = 10 ^ (s2 - s1).toNat * 10 ^ ((w : Int) + s1 - s2).toNat := by
            rw [← pow_add]; congr 1; omega
          rw [this, ← Nat.div_div_eq_div_mul, Nat.mul_div_cancel _ (by positivity)]
      · rename_i hs
        rw [if_neg (by omega), Nat.div_div_eq_div_mul, ← pow_add]
        congr 3
        omega

theorem mapM_some {α β : Type} (f : α → Option β) (g : α → β) (l : List α)
    (h : ∀ x ∈ l, f x = some (g x)) : l.mapM f = some (l.map g) := by
  induction l with
  | nil => rfl
  | cons a t ih =>
    rw [List.mapM_cons, h a (by simp), ih (fun x hx => h x (by simp [hx]))]
    rfl

theorem fixedDigits_range (D n : Nat) :
    fixedDigits D n = (List.range D).map fun k => n / 10 ^ (D - 1 - k) % 10 := by
  apply List.ext_getElem
  · simp [fixedDigits_length]
  · intro k h1 h2
    rw [fixedDigits_getElem]
    simp

theorem commonRegion_length (bs : List Nat) (s1 : Int) (n2 : Nat) (s2 : Int) :
    (commonRegion bs s1 n2 s2).length = n2 := by
  unfold commonRegion
  simp only
  split
  · simp
    omega
  · simp

theorem commonRegion_eq (bs : List Nat) (hb : ∀ b ∈ bs, b = 32 ∨ (48 ≤ b ∧ b ≤ 57)) (s1 : Int)
    (n2 : Nat) (s2 : Int) :
    commonRegion bs s1 n2 s2 =
      (fixedDigits n2 (rescale (digitsVal (bs.map charDigit)) s1 s2)).map (48 + ·) := by
  have hds : ∀ d ∈ bs.map charDigit, d ≤ 9 := by
    intro d hd
    obtain ⟨b, hb', rfl⟩ := List.mem_map.mp hd
    have := hb b hb'
    unfold charDigit
    split <;> omega
  have hlt := digitsVal_lt _ hds
  simp only [List.length_map] at hlt
  have hget : ∀ j (hj : j < bs.length), (if bs[j] = 32 then 48 else bs[j]) =
      48 + digitsVal (bs.map charDigit) / 10 ^ (bs.length - 1 - j) % 10 := by
    intro j hj
    have h1 := digits_getElem (bs.map charDigit) hds j (by simpa using hj)
    simp only [List.getElem_map, List.length_map] at h1
    rw [← h1]
    unfold charDigit
    have := hb bs[j] (List.getElem_mem hj)
    split <;> omega
  generalize digitsVal (bs.map charDigit) = m at *
  apply List.ext_getElem
  · rw [commonRegion_length]; simp [fixedDigits_length]
  · intro j h1 h2
    rw [commonRegion_length] at h1
    rw [List.getElem_map, fixedDigits_getElem]
    have hval := rescale_digit m s1 s2
    have hbig : ∀ w : Nat, bs.length ≤ w → m / 10 ^ w % 10 = 0 := by
      intro w hw
      rw [Nat.div_eq_of_lt]
      exact lt_of_lt_of_le hlt (Nat.pow_le_pow_right (by norm_num) hw)
    rw [hval]
    unfold commonRegion
    simp only
    split
    · rename_i hg
      rw [List.getElem_append]
      split
      · rename_i hj
        rw [List.getElem_append]
        split
        · rename_i hj2
          simp only [List.length_replicate] at hj2
          simp only [List.getElem_replicate]
          split
          · rfl
          · rw [hbig _ (by omega)]
        · rename_i hj2
          simp only [List.length_replicate] at hj2
          simp only [List.length_append, List.length_replicate, List.length_map, List.length_take, List.length_drop] at hj
          simp only [List.getElem_map, List.getElem_take, List.getElem_drop, List.length_replicate]
          rw [hget _ (by omega)]
          rw [if_neg (by omega)]
          congr 4
          omega
      · rename_i hj
        simp only [List.length_append, List.length_replicate, List.length_map, List.length_take, List.length_drop] at hj
        simp only [List.getElem_replicate]
        rw [if_pos (by omega)]
    · rename_i hg
      simp only [List.getElem_replicate]
      split
      · rfl
      · rw [hbig _ (by omega)]

theorem rescale_shift (v s1 s2 : Int) :
    ((⟨v, s1⟩ : Dec).toFieldScale s2 false).value.natAbs = rescale v.natAbs s1 s2 ∧
    (0 ≤ v → 0 ≤ ((⟨v, s1⟩ : Dec).toFieldScale s2 false).value) ∧
    (v ≤ 0 → ((⟨v, s1⟩ : Dec).toFieldScale s2 false).value ≤ 0) := by
  unfold toFieldScale rescale Dec.shift
  simp only [Bool.false_eq_true, false_and, if_false]
  by_cases h0 : s2 - s1 = 0
  · have : s1 ≤ s2 := by omega
    simp [h0, this]
  · rw [if_neg h0]
    by_cases hp : s2 - s1 > 0
    · rw [if_pos hp, if_pos (by omega)]
      simp only
      refine ⟨?_, ?_, ?_⟩
      · rw [Int.natAbs_mul, Int.natAbs_pow]; rfl
      · intro h; positivity
      · intro h; exact Int.mul_nonpos_of_nonpos_of_nonneg h (by positivity)
    · rw [if_neg hp, if_neg (by omega)]
      simp only
      have e : (-(s2 - s1)).toNat = (s1 - s2).toNat := by congr 1; ring
      rw [e]
      refine ⟨?_, ?_, ?_⟩
      · rw [Int.natAbs_tdiv, Int.natAbs_pow]; rfl
      · intro h; exact Int.tdiv_nonneg h (by positivity)
      · intro h
        have h1 := Int.tdiv_nonneg (a := -v) (b := 10 ^ (s1 - s2).toNat) (by omega) (by positivity)
        rw [Int.neg_tdiv] at h1
        omega

/-- The receiver value computed digit by digit is the specified one. -/
theorem movedUnits_of (dst : Item) (neg : Bool) (m : Nat) (s1 : Int) :
    MovedUnits dst (((if neg then -(m : Int) else m : Int) : ℚ) / (10 : ℚ) ^ s1)
      (if dst.field.attr.haveSign && neg then -((rescale m s1 dst.field.attr.scale % 10 ^ dst.positions : Nat) : Int)
        else ((rescale m s1 dst.field.attr.scale % 10 ^ dst.positions : Nat) : Int)) := by
  set v : Int := if neg then -(m : Int) else m with hv
  obtain ⟨h1, h2, h3⟩ := rescale_shift v s1 dst.field.attr.scale
  have hm : v.natAbs = m := by rw [hv]; cases neg <;> simp
  rw [hm] at h1
  refine ⟨((⟨v, s1⟩ : Dec).toFieldScale dst.field.attr.scale false).value, ?_, ?_⟩
  · exact (C05_truncates ⟨v, s1⟩ dst.field.attr.scale).2
  · generalize ((⟨v, s1⟩ : Dec).toFieldScale dst.field.attr.scale false).value = t at *
    generalize rescale m s1 dst.field.attr.scale = R at *
    cases hs : dst.field.attr.haveSign
    · simp [h1]
    · simp only [Bool.true_and, if_true]
      cases neg
      · have := h2 (by rw [hv]; simp)
        have ht : t = (R : Int) := by omega
        rw [ht]
        simp only [Bool.false_eq_true, if_false]
        rw [Int.tmod_eq_emod_of_nonneg (by omega)]
        push_cast; rfl
      · have := h3 (by rw [hv]; simp)
        have ht : t = -(R : Int) := by omega
        rw [ht]
        simp only [if_true]
        rw [Int.neg_tmod, Int.tmod_eq_emod_of_nonneg (by omega)]
        push_cast; rfl

theorem charDigit_map (ds : List Nat) (h : ∀ d ∈ ds, d ≤ 9) :
    (ds.map (48 + ·)).map charDigit = ds := by
  rw [List.map_map]
  conv_rhs => rw [← List.map_id ds]
  apply List.map_congr_left
  intro d hd
  have := h d hd
  simp only [Function.comp, charDigit, id]
  rw [if_neg (by omega)]; omega

/-- Aligning digit characters into a zoned receiver. -/
theorem region_holds (ebc : Bool) (f2 : Field) (hf : WFDisplay f2) (ds : List Nat)
    (hd : ∀ d ∈ ds, d ≤ 9) (s1 sign : Int) :
    (storeCommonRegion f2 (ds.map (48 + ·)) s1).putSign ebc sign =
      ⟨f2.attr, zonedImage f2.attr ebc (decide (sign < 0))
        (fixedDigits f2.dsize (rescale (digitsVal ds) s1 f2.attr.scale))⟩ := by
  unfold storeCommonRegion
  rw [commonRegion_eq _ _ _ _ _, charDigit_map ds hd, store_image ebc f2 hf _ _ _]
  · rw [fixedDigits_length]
  · exact fixedDigits_le _ _
  · intro b hb
    obtain ⟨d, hd', rfl⟩ := List.mem_map.mp hb
    have := hd d hd'
    omega

theorem dsize_pos (f : Field) (hf : WFDisplay f) : 0 < f.dsize := by
  obtain ⟨h1, h2⟩ := hf
  unfold Field.dsize
  split at h2 <;> rename_i h <;> simp [h] <;> omega

theorem zoned_holds (ebc : Bool) (f2 : Field) (hf : WFDisplay f2) (neg : Bool) (R : Nat) :
    WFItem ⟨.display, ⟨f2.attr, zonedImage f2.attr ebc neg (fixedDigits f2.dsize R)⟩⟩ ∧
    HoldsUnits ebc ⟨.display, ⟨f2.attr, zonedImage f2.attr ebc neg (fixedDigits f2.dsize R)⟩⟩
      (if f2.attr.haveSign && neg then -((R % 10 ^ f2.dsize : Nat) : Int) else ((R % 10 ^ f2.dsize : Nat) : Int)) := by
  have hpos := dsize_pos f2 hf
  refine ⟨⟨hf.1, ?_⟩, neg, fixedDigits f2.dsize R, rfl, ?_, fixedDigits_le _ _, ?_⟩
  · simp only
    rw [zonedImage_length ebc f2 hf neg _ (fixedDigits_length _ _)]
    exact hf.2
  · intro h
    have := fixedDigits_length f2.dsize R
    rw [h] at this
    simp at this; omega
  · rw [digitsVal_fixedDigits]

theorem packNibbles_nib : ∀ (q : List Nat), q.length % 2 = 0 → (∀ x ∈ q, x < 16) → ∀ i, i < q.length →
    (if i % 2 = 0 then (packNibbles q).getD (i / 2) 0 / 16 else (packNibbles q).getD (i / 2) 0 % 16)
      = q.getD i 0
  | [], _, _, i, h => by simp at h
  | [a], h, _, _, _ => by simp at h
  | a :: b :: t, hl, hq, i, hi => by
    have ha := hq a (by simp)
    have hb := hq b (by simp)
    match i with
    | 0 => simp [packNibbles]; omega
    | 1 => simp [packNibbles]; omega
    | i + 2 =>
      have := packNibbles_nib t (by simp at hl ⊢; omega) (fun x hx => hq x (by simp [hx])) i (by simp at hi; omega)
      rw [show (i + 2) % 2 = i % 2 by omega, show (i + 2) / 2 = i / 2 + 1 by omega]
      simpa [packNibbles] using this

theorem unpack_image (a : Attr) (n s : Nat) (hs : s < 16) :
    unpackDigits ⟨a, packedImage a.digits n s⟩ = (fixedDigits a.digits n).map (48 + ·) := by
  unfold unpackDigits packedImage
  simp only
  apply List.ext_getElem
  · simp [fixedDigits_length]
  · intro k h1 h2
    simp only [List.length_map, List.length_range] at h1
    simp only [List.getElem_map, List.getElem_range]
    congr 1
    have hfl := fixedDigits_length a.digits n
    have hfle := fixedDigits_le a.digits n
    generalize fixedDigits a.digits n = F at *
    set q := (if a.digits % 2 = 0 then [0] else []) ++ F ++ [s] with hq
    have hql : q.length = (1 - a.digits % 2) + a.digits + 1 := by
      rw [hq]
      split <;> simp [hfl] <;> omega
    rw [packNibbles_nib q (by rw [hql]; omega) _ _ (by rw [hql]; omega)]
    · rw [hq]
      have hk : k < F.length := by omega
      split
      · rename_i he
        rw [he]
        simp [List.getElem?_append_left, hk]
      · rename_i he
        have : a.digits % 2 = 1 := by omega
        rw [this]
        simp [List.getElem?_append_left, hk]
    · intro x hx
      rw [hq] at hx
      simp only [List.mem_append, List.mem_singleton] at hx
      rcases hx with (hx | hx) | hx
      · split at hx <;> simp at hx; omega
      · have := hfle x hx; omega
      · omega

theorem packedGetSign_image (a : Attr) (neg : Bool) (n : Nat) :
    packedGetSign ⟨a, packedImage a.digits n (signNibble a neg)⟩ =
      if a.haveSign then (if neg then -1 else 1) else 0 := by
  have hsn : signNibble a neg < 16 := by unfold signNibble; split <;> [skip; split] <;> omega
  have hodd : ((if a.digits % 2 = 0 then [0] else []) ++ fixedDigits a.digits n).length % 2 = 1 := by
    split
    · simp [fixedDigits_length]; omega
    · simp [fixedDigits_length]; omega
  obtain ⟨c, _, h2⟩ := packNibbles_half _ (signNibble a neg) hodd
  unfold packedGetSign packedImage
  simp only
  rw [h2]
  generalize (packHalf ((if a.digits % 2 = 0 then [0] else []) ++ fixedDigits a.digits n)).dropLast = P
  have e : (List.getD (P ++ [16 * c + signNibble a neg])
    ((P ++ [16 * c + signNibble a neg]).length - 1) 0) % 16 = signNibble a neg := by
    simp; omega
  rw [e]
  unfold signNibble
  cases a.haveSign <;> cases neg <;> simp

theorem packNibLoop_eq : ∀ (ns : List Nat) (i : Nat) (data : List Nat), (∀ x ∈ ns, x ≤ 9) →
    packNibLoop ns i data = packLoop (ns.map (48 + ·)) i (i / 2) data
  | [], _, _, _ => rfl
  | n :: ns, i, data, h => by
    have hn := h n (by simp)
    have hns : ∀ x ∈ ns, x ≤ 9 := fun x hx => h x (by simp [hx])
    simp only [packNibLoop, packLoop, List.map_cons]
    split
    · rename_i he
      rw [packNibLoop_eq ns _ _ hns, show (i + 1) / 2 = i / 2 by omega]
      congr 2
      omega
    · rename_i he
      rw [packNibLoop_eq ns _ _ hns, show (i + 1) / 2 = i / 2 + 1 by omega]
      congr 3
      omega

theorem packNibLoop_length : ∀ (ns : List Nat) (i : Nat) (data : List Nat),
    (packNibLoop ns i data).length = data.length
  | [], _, _ => rfl
  | n :: ns, i, data => by
    simp only [packNibLoop]
    split <;> rw [packNibLoop_length] <;> simp

theorem pack_move_image (D R nib : Nat) (hD : 0 < D) :
    setSignNibble (packNibLoop (fixedDigits D R) (1 - D % 2) (List.replicate (D / 2 + 1) 0)) nib =
      packedImage D R nib := by
  rw [packNibLoop_eq _ _ _ (fixedDigits_le _ _)]
  have hl := packLoop_image D (fixedDigits D R) (fixedDigits_le _ _) (by rw [fixedDigits_length]; exact hD)
    (by rw [fixedDigits_length])
  rw [fixedDigits_length] at hl
  rw [show (1 - D % 2) / 2 = D / 2 - D / 2 by omega, hl]
  have hQ' : List.replicate ((if D % 2 = 0 then 1 else 0) + (D - D)) 0 ++ fixedDigits D R
      = (if D % 2 = 0 then [0] else []) ++ fixedDigits D R := by
    split <;> simp
  rw [hQ']
  have hodd : ((if D % 2 = 0 then [0] else []) ++ fixedDigits D R).length % 2 = 1 := by
    split
    · simp [fixedDigits_length]; omega
    · simp [fixedDigits_length]; omega
  obtain ⟨c, h1, h2⟩ := packNibbles_half _ nib hodd
  rw [h1, setSignNibble_last]
  unfold packedImage
  rw [h2]

/-- Digit `k` (from the left) of a number rescaled into `D` positions. -/
theorem mapM_digits (ds : List Nat) (hd : ∀ d ∈ ds, d ≤ 9) (s1 s2 : Int) (D : Nat) :
    (List.range D).mapM (fun k : Nat =>
      let p := (((ds.length : Int) - s1) - ((D : Int) - s2)) + k
      if p < 0 ∨ (ds.length : Int) ≤ p then some 0
      else ((ds.map (48 + ·))[p.toNat]?).map fun b => if b = 32 then 0 else (b + 256 - 48) % 256) =
    some (fixedDigits D (rescale (digitsVal ds) s1 s2)) := by
  have hlt := digitsVal_lt ds hd
  rw [fixedDigits_range]
  apply mapM_some
  intro k hk
  have hk : k < D := by simpa using hk
  simp only
  rw [rescale_digit]
  have hbig : ∀ w : Nat, ds.length ≤ w → digitsVal ds / 10 ^ w % 10 = 0 := by
    intro w hw
    rw [Nat.div_eq_of_lt]
    exact lt_of_lt_of_le hlt (Nat.pow_le_pow_right (by norm_num) hw)
  split
  · rename_i hp
    congr 1
    split
    · rfl
    · rw [hbig _ (by omega)]
  · rename_i hp
    have hlt' : ((ds.length : Int) - s1 - ((D : Int) - s2) + k).toNat < ds.length := by omega
    rw [List.getElem?_map, List.getElem?_eq_getElem hlt']
    simp only [Option.map_some]
    congr 1
    have h9 := hd _ (List.getElem_mem hlt')
    rw [if_neg (by omega), if_neg (by omega)]
    rw [digits_getElem ds hd _ hlt'] at h9 ⊢
    rw [show (ds.length - 1 - ((ds.length : Int) - s1 - ((D : Int) - s2) + k).toNat) = (((D - 1 - k : Nat) : Int) + s1 - s2).toNat by omega] at h9 ⊢
    omega

theorem accLL_eq (k : Nat) : ∀ (ds : List Nat) (v : Nat), (∀ d ∈ ds, d ≤ 9) →
    v * 10 ^ k + (if k ≤ ds.length then digitsVal ds / 10 ^ (ds.length - k)
      else digitsVal ds * 10 ^ (k - ds.length)) < 2 ^ 63 →
    accLL (ds.map (48 + ·)) k v = some ((v * 10 ^ k + (if k ≤ ds.length then
      digitsVal ds / 10 ^ (ds.length - k) else digitsVal ds * 10 ^ (k - ds.length)) : Nat) : Int) := by
  induction k with
  | zero =>
    intro ds v hd hlt
    have := digitsVal_lt ds hd
    simp only [accLL, Nat.zero_le, if_true, Nat.sub_zero, pow_zero, mul_one]
    rw [Nat.div_eq_of_lt this]
    rfl
  | succ k ih =>
    intro ds v hd hlt
    match ds, hd with
    | [], _ =>
      simp only [List.length_nil, digitsVal, Nat.zero_mul, Nat.zero_div, if_neg (Nat.not_succ_le_zero k), add_zero] at hlt ⊢
      have hh := ih [] (v * 10) (by simp)
      simp only [List.length_nil, digitsVal, Nat.zero_mul, Nat.zero_div, ite_self, add_zero] at hh
      have e : v * 10 ^ (k + 1) = v * 10 * 10 ^ k := by rw [pow_succ]; ring
      rw [e] at hlt ⊢
      have hle : v * 10 ≤ v * 10 * 10 ^ k := Nat.le_mul_of_pos_right _ (by positivity)
      simp only [List.map_nil, accLL, List.tail_nil]
      rw [if_pos (by constructor <;> push_cast <;> omega)]
      have := hh hlt
      push_cast at this ⊢
      exact this
    | d :: t, hd =>
      have hd9 := hd d (by simp)
      have ht : ∀ x ∈ t, x ≤ 9 := fun x hx => hd x (by simp [hx])
      have htl := digitsVal_lt t ht
      have key : v * 10 ^ (k + 1) + (if k + 1 ≤ (d :: t).length then digitsVal (d :: t) / 10 ^ ((d :: t).length - (k + 1))
          else digitsVal (d :: t) * 10 ^ (k + 1 - (d :: t).length)) =
          (v * 10 + d) * 10 ^ k + (if k ≤ t.length then digitsVal t / 10 ^ (t.length - k) else digitsVal t * 10 ^ (k - t.length)) := by
        simp only [List.length_cons, digitsVal, Nat.add_le_add_iff_right, Nat.add_sub_add_right]
        split
        · rename_i hk
          have e : 10 ^ t.length = 10 ^ k * 10 ^ (t.length - k) := by rw [← pow_add]; congr 1; omega
          rw [e, ← mul_assoc, Nat.mul_comm (d * 10 ^ k), Nat.mul_add_div (by positivity)]
          ring
        · rename_i hk
          have e : 10 ^ k = 10 ^ t.length * 10 ^ (k - t.length) := by rw [← pow_add]; congr 1; omega
          rw [pow_succ, e]
          ring
      rw [key] at hlt ⊢
      have hle : v * 10 + d ≤ (v * 10 + d) * 10 ^ k := Nat.le_mul_of_pos_right _ (by positivity)
      simp only [List.map_cons, accLL, List.tail_cons]
      rw [if_pos (by constructor <;> push_cast <;> omega)]
      have := ih t (v * 10 + d) ht hlt
      rw [← this]
      congr 1
      push_cast
      ring

theorem accLL_rescale (ds : List Nat) (hd : ∀ d ∈ ds, d ≤ 9) (s1 s2 : Int)
    (hs : 0 ≤ (ds.length : Int) - s1 + s2) (hlt : rescale (digitsVal ds) s1 s2 < 2 ^ 63) :
    accLL (ds.map (48 + ·)) ((ds.length : Int) - s1 + s2).toNat 0 =
      some ((rescale (digitsVal ds) s1 s2 : Nat) : Int) := by
  have e : (if ((ds.length : Int) - s1 + s2).toNat ≤ ds.length then digitsVal ds / 10 ^ (ds.length - ((ds.length : Int) - s1 + s2).toNat)
      else digitsVal ds * 10 ^ (((ds.length : Int) - s1 + s2).toNat - ds.length)) = rescale (digitsVal ds) s1 s2 := by
    unfold rescale
    by_cases h : s1 < s2
    · rw [if_neg (by omega), if_pos (by omega)]
      congr 2
      omega
    · rw [if_pos (by omega)]
      split
      · have : s1 = s2 := by omega
        subst this
        simp
      · congr 2
        omega
  have := accLL_eq ((ds.length : Int) - s1 + s2).toNat ds 0 hd (by rw [e]; simpa using hlt)
  rw [e] at this
  simpa using this

theorem not_null (ebc : Bool) (a : Attr) (neg : Bool) (ds : List Nat)
    (hs : a.separate = true → a.haveSign = true) (hne : ds ≠ []) (hd : ∀ d ∈ ds, d ≤ 9) :
    (((⟨a, zonedImage a ebc neg ds⟩ : Field).getSign ebc).2.data.take ds.length).all (· == 0) = false := by
  obtain ⟨h1, h2, h3, h4, h5, h6⟩ := image_getSign ebc a neg ds hs hne hd
  obtain ⟨d, t, rfl⟩ := List.exists_cons_of_ne_nil hne
  set g := ((⟨a, zonedImage a ebc neg (d :: t)⟩ : Field).getSign ebc).2 with hg
  have hga : g.attr = a := by
    rw [hg]; unfold Field.getSign; split
    · rfl
    · simp only; split <;> rfl
  by_cases hoff : a.separate = true ∧ a.leading = true
  · obtain ⟨o1, o2⟩ := hoff
    have hv := hs o1
    rw [hg]
    unfold Field.getSign zonedImage
    simp only [hv, o1, o2, Bool.not_true, Bool.false_eq_true, if_false, if_true]
    cases neg <;> simp
  · have ho : g.dataOff = 0 := by
      unfold Field.dataOff
      rw [hga]
      rw [if_neg (by simpa using hoff)]
    have hb : g.data.take g.dsize = (d :: t).map (48 + ·) := by
      rw [← h2]; unfold Field.digitBytes; rw [ho]; simp
    have hl : (d :: t).length ≤ g.dsize := by
      have := congrArg List.length hb
      simp at this
      simp; omega
    have : (g.data.take (d :: t).length) = (d :: t).map (48 + ·) := by
      have h7 : (g.data.take g.dsize).take (d :: t).length = g.data.take (d :: t).length := by
        rw [List.take_take, Nat.min_eq_left hl]
      rw [← h7, hb]
      apply List.take_of_length_le
      simp
    rw [this]
    simp

/-- Core: moving from a zoned item. -/
theorem moveFromDisp_spec (ebc cut : Bool) (a : Attr) (neg : Bool) (ds : List Nat)
    (hs : a.separate = true → a.haveSign = true) (hne : ds ≠ []) (hd : ∀ d ∈ ds, d ≤ 9)
    (hP : a.digits = ds.length) (dst : Item) (hw : WFItem dst)
    (hb : dst.usage = .binary → cut = true ∧ BinaryHasRoom dst.field ∧
      0 ≤ (ds.length : Int) - a.scale + dst.field.attr.scale ∧
      rescale (digitsVal ds) a.scale dst.field.attr.scale < 2 ^ 63) :
    ∃ it u, moveFromDisp ebc cut ⟨a, zonedImage a ebc neg ds⟩ dst = .done it ∧
      it.usage = dst.usage ∧ it.field.attr = dst.field.attr ∧ WFItem it ∧ HoldsUnits ebc it u ∧
      u = if dst.field.attr.haveSign && (a.haveSign && neg) then
          -((rescale (digitsVal ds) a.scale dst.field.attr.scale % 10 ^ dst.positions : Nat) : Int)
        else ((rescale (digitsVal ds) a.scale dst.field.attr.scale % 10 ^ dst.positions : Nat) : Int) := by
  obtain ⟨h1, h2, h3, h4, h5, h6⟩ := image_getSign ebc a neg ds hs hne hd
  have hnull := not_null ebc a neg ds hs hne hd
  set f1 : Field := ⟨a, zonedImage a ebc neg ds⟩ with hf1
  have hneg : decide ((f1.getSign ebc).1 < 0) = (a.haveSign && neg) := by
    rw [h1]
    cases a.haveSign <;> cases neg <;> simp
  obtain ⟨us, f2⟩ := dst
  cases us with
  | display =>
    refine ⟨⟨.display, (moveDispDisp ebc f1 f2).2⟩, _, rfl, rfl, ?_, ?_, ?_, rfl⟩
    all_goals
      simp only [moveDispDisp, h2]
      rw [region_holds ebc f2 hw ds hd, hneg]
    · exact (zoned_holds ebc f2 hw _ _).1
    · exact (zoned_holds ebc f2 hw _ _).2
  | packed =>
    obtain ⟨hD, hlen⟩ := hw
    simp only at hD hlen
    have hmove : (moveDispPacked ebc f1 f2).2 = some ⟨f2.attr,
        packedImage f2.attr.digits (rescale (digitsVal ds) a.scale f2.attr.scale)
          (signNibble f2.attr (a.haveSign && neg))⟩ := by
      unfold moveDispPacked
      simp only [h2]
      rw [show f1.attr = a from rfl, hP, hnull]
      simp only [Bool.false_eq_true, false_and, if_false]
      rw [mapM_digits ds hd a.scale f2.attr.scale f2.attr.digits]
      simp only [Option.map_some]
      rw [hlen, pack_move_image _ _ _ hD]
      have : (if (!f2.attr.haveSign) = true then 15 else if (f1.getSign ebc).1 < 0 then 13 else 12) =
          signNibble f2.attr (a.haveSign && neg) := by
        unfold signNibble
        rw [← hneg]
        simp only [decide_eq_true_eq]
      rw [this]
    unfold moveFromDisp
    simp only [hmove]
    set R := rescale (digitsVal ds) a.scale f2.attr.scale with hR
    have himg : packedImage f2.attr.digits R (signNibble f2.attr (a.haveSign && neg)) =
        packedImage f2.attr.digits (R % 10 ^ f2.attr.digits) (signNibble f2.attr (a.haveSign && neg)) := by
      unfold packedImage
      rw [fixedDigits_mod]
    refine ⟨_, _, rfl, rfl, rfl, ⟨hD, ?_⟩, ⟨(a.haveSign && neg), R % 10 ^ f2.attr.digits, ?_, himg, rfl⟩, ?_⟩
    · simp only
      have := pack_move_image f2.attr.digits R (signNibble f2.attr (a.haveSign && neg)) hD
      rw [← this]
      unfold setSignNibble
      rw [List.length_set, packNibLoop_length]
      simp
    · exact Nat.mod_lt _ (by positivity)
    · rfl
  | binary =>
    obtain ⟨rfl, hroom, hsz, hlt⟩ := hb rfl
    simp only at hroom hsz hlt
    set R := rescale (digitsVal ds) a.scale f2.attr.scale with hR
    have hacc := accLL_rescale ds hd a.scale f2.attr.scale hsz hlt
    set u : Int := if f2.attr.haveSign && (a.haveSign && neg) then -((R % 10 ^ f2.attr.digits : Nat) : Int)
        else ((R % 10 ^ f2.attr.digits : Nat) : Int) with hu
    have hmove : (moveDispBin ebc true f1 f2).2 = .done (binSet f2 u) := by
      unfold moveDispBin
      simp only [h2, h6, hnull, Bool.false_eq_true, if_false]
      rw [show f1.attr = a from rfl, if_neg (by omega), hacc]
      simp only [if_true]
      have : (if (f1.getSign ebc).1 < 0 ∧ f2.attr.haveSign = true then -((R : Nat) : Int) else ((R : Nat) : Int)).tmod (10 ^ f2.attr.digits) = u := by
        rw [hu, ← hneg]
        by_cases hc : (f1.getSign ebc).1 < 0 ∧ f2.attr.haveSign = true
        · rw [if_pos hc, Int.neg_tmod, Int.tmod_eq_emod_of_nonneg (by omega)]
          simp [hc.1, hc.2]
        · rw [if_neg hc, Int.tmod_eq_emod_of_nonneg (by omega), if_neg (by
            simp only [Bool.and_eq_true, decide_eq_true_eq]; tauto)]
          push_cast; rfl
      rw [this]
    unfold moveFromDisp
    simp only [hmove]
    have hm : R % 10 ^ f2.attr.digits < 10 ^ f2.attr.digits := Nat.mod_lt _ (by positivity)
    have hfit : binFits f2 u := by
      unfold binFits
      unfold BinaryHasRoom at hroom
      have hna : u.natAbs = R % 10 ^ f2.attr.digits := by
        rw [hu]; split <;> simp only [Int.natAbs_neg, Int.natAbs_natCast]
      cases hsg : f2.attr.haveSign
      · simp only [hsg, Bool.false_eq_true, if_false, Nat.sub_zero] at hroom ⊢
        refine ⟨?_, by omega⟩
        rw [hu, hsg]; simp only [Bool.false_and, Bool.false_eq_true, if_false]
        exact Int.natCast_nonneg _
      · simp only [hsg, if_true] at hroom ⊢
        omega
    obtain ⟨w1, w2, w3⟩ := binSet_holds f2 hw u u hfit rfl
    exact ⟨⟨.binary, binSet f2 u⟩, u, rfl, rfl, w2, w1, w3, rfl⟩


theorem binGet_holds (f : Field) (hf : WFBinary f) (v : Int) (h : binaryHolds f v) :
    let w := binGetInt64 f
    let neg : Bool := f.attr.haveSign && decide (w < 0)
    let val : Nat := if neg then w.natAbs else (w % 2 ^ 64).toNat
    neg = decide (v < 0) ∧ val = v.natAbs ∧ v.natAbs < 10 ^ 20 := by
  intro w neg val
  have hl := (C03_load f hf v).mpr h
  unfold decSetBinary at hl
  have hl := congrArg Dec.value hl
  simp only at hl
  have h8 := hf.2.1
  cases hs : f.attr.haveSign
  · simp only [hs, Bool.false_eq_true, if_false] at hl
    have hneg : neg = false := by simp [neg, hs]
    have hb : ∀ x ∈ List.replicate (8 - f.data.length) 0 ++ f.data, x < 256 := by
      intro x hx
      rcases List.mem_append.mp hx with hx | hx
      · have := List.eq_of_mem_replicate hx; omega
      · exact hf.2.2 x hx
    have hb' : ∀ x ∈ f.data ++ List.replicate (8 - f.data.length) 0, x < 256 := by
      intro x hx
      apply hb x
      rw [List.mem_append] at hx ⊢
      tauto
    have hu : (w % 2 ^ 64).toNat = binGetUint64 f ∧ binGetUint64 f < 2 ^ 64 := by
      simp only [w, binGetInt64, binGetUint64, hs, Bool.false_eq_true, if_false]
      have key : ∀ bs : List Nat, bs.length = 8 → (∀ x ∈ bs, x < 256) →
          (toInt64 (leVal bs) % 2 ^ 64).toNat = leVal bs ∧ leVal bs < 2 ^ 64 := by
        intro bs h1 h2
        have := leVal_lt bs h2
        rw [h1] at this
        norm_num at this
        unfold toInt64
        rw [Nat.mod_eq_of_lt (by omega)]
        constructor
        · split <;> omega
        · omega
      split
      · apply key
        · simp [bswapBytes]; omega
        · intro x hx
          exact hb x (by rw [bswapBytes, List.mem_reverse] at hx; exact hx)
      · apply key
        · simp; omega
        · exact hb'
    have hv0 : 0 ≤ v := by rw [← hl]; omega
    refine ⟨?_, ?_, ?_⟩
    · rw [hneg]; simp; omega
    · simp only [val, hneg, Bool.false_eq_true, if_false]
      rw [hu.1]; omega
    · have := hu.2
      omega
  · simp only [hs, if_true] at hl
    have hw : w = v := hl
    have hneg : neg = decide (v < 0) := by simp [neg, hs, hw]
    -- range of a signed item
    have hrange : v.natAbs ≤ 2 ^ 63 := by
      unfold binaryHolds at h
      simp only [hs, if_true] at h
      have hlt : bytesVal f.attr.swap f.data < 2 ^ (8 * f.data.length) := by
        rw [← pow256]
        cases f.attr.swap
        · rw [← leVal_eq]; exact leVal_lt _ hf.2.2
        · rw [← leVal_reverse]
          have := leVal_lt f.data.reverse (by intro x hx; exact hf.2.2 x (by simpa using hx))
          simpa using this
      have hpow : (2 : Nat) ^ (8 * f.data.length) ≤ 2 ^ 64 := Nat.pow_le_pow_right (by norm_num) (by omega)
      have hlt' : (bytesVal f.attr.swap f.data : Int) < 2 ^ (8 * f.data.length) := by exact_mod_cast hlt
      have hpow' : (2 : Int) ^ (8 * f.data.length) ≤ 2 ^ 64 := by exact_mod_cast hpow
      generalize (2 : Int) ^ (8 * f.data.length) = M at *
      split at h <;> omega
    refine ⟨hneg, ?_, by omega⟩
    simp only [val, hneg, hw]
    by_cases hv : v < 0
    · simp [hv]
    · simp only [hv, decide_false, Bool.false_eq_true, if_false]
      omega

theorem wf_temp (n : Nat) (hn : 0 < n) (s : Int) : WFDisplay (tempItem n s) := by
  unfold WFDisplay tempItem; simp; omega

theorem temp_dsize (n : Nat) (s : Int) : (tempItem n s).dsize = n := by
  simp [tempItem, Field.dsize]

/-- A numeric sender, brought to zoned form: the digits, the sign and the scale the rest of the
move works on. -/
theorem src_forms (ebc : Bool) (src : Item) (hw : WFItem src) (v : Int) (hv : HoldsUnits ebc src v) :
    match src.usage with
    | .display => ∃ neg ds, src.field.data = zonedImage src.field.attr ebc neg ds ∧ ds ≠ [] ∧
        (∀ d ∈ ds, d ≤ 9) ∧ src.field.dsize = ds.length ∧
        v = if src.field.attr.haveSign && neg then -(digitsVal ds : Int) else digitsVal ds
    | .packed => ∃ neg, v = (if neg then -(v.natAbs : Int) else v.natAbs) ∧ ∀ f2, WFDisplay f2 →
        movePackedDisp ebc src.field f2 = ⟨f2.attr, zonedImage f2.attr ebc neg
          (fixedDigits f2.dsize (rescale v.natAbs src.field.attr.scale f2.attr.scale))⟩ ∧
        v.natAbs < 10 ^ src.field.attr.digits
    | .binary => ∃ neg, v = (if neg then -(v.natAbs : Int) else v.natAbs) ∧ ∀ f2, WFDisplay f2 →
        moveBinDisp ebc src.field f2 = ⟨f2.attr, zonedImage f2.attr ebc neg
          (fixedDigits f2.dsize (rescale v.natAbs src.field.attr.scale f2.attr.scale))⟩ ∧
        v.natAbs < 10 ^ 20 := by
  obtain ⟨us, f⟩ := src
  obtain ⟨a, data⟩ := f
  cases us with
  | display =>
    obtain ⟨neg, ds, hd, hne, hle, hu⟩ := hv
    refine ⟨neg, ds, hd, hne, hle, ?_, hu⟩
    simp only at hd
    have := (image_getSign ebc a neg ds hw.1 hne hle).2.2.2.2.2
    simp only at this ⊢
    rw [hd]; exact this
  | packed =>
    obtain ⟨neg, n, hn, hd, hu⟩ := hv
    simp only at hn hd hu
    subst hd
    refine ⟨a.haveSign && neg, ?_, ?_⟩
    · rw [hu]; split <;> simp
    · have hvn : v.natAbs = n := by rw [hu]; split <;> simp
      intro f2 hf2
      refine ⟨?_, by rw [hvn]; exact hn⟩
      have hsn : signNibble a neg < 16 := by unfold signNibble; split <;> [skip; split] <;> omega
      unfold movePackedDisp
      simp only
      rw [unpack_image a n _ hsn, packedGetSign_image, region_holds ebc f2 hf2 _ (fixedDigits_le _ _)]
      rw [digitsVal_fixedDigits, Nat.mod_eq_of_lt hn, hvn]
      have : decide ((if a.haveSign = true then if neg = true then (-1 : Int) else 1 else 0) < 0) = (a.haveSign && neg) := by
        cases a.haveSign <;> cases neg <;> simp
      rw [this]
  | binary =>
    obtain ⟨g1, g2, g3⟩ := binGet_holds ⟨a, data⟩ hw v hv
    refine ⟨decide (v < 0), ?_, ?_⟩
    · by_cases h : v < 0
      · rw [if_pos (by simpa using h)]; omega
      · rw [if_neg (by simpa using h)]; omega
    · intro f2 hf2
      refine ⟨?_, g3⟩
      unfold moveBinDisp
      simp only
      rw [g2, g1]
      have hstr : (if v.natAbs = 0 then [] else decStr v.natAbs) =
          (if v.natAbs = 0 then [] else fixedDigits (decStr v.natAbs).length v.natAbs).map (48 + ·) := by
        split
        · rfl
        · exact decStr_eq_fixed _
      rw [hstr, region_holds ebc f2 hf2]
      · have hval : digitsVal (if v.natAbs = 0 then [] else fixedDigits (decStr v.natAbs).length v.natAbs) = v.natAbs := by
          split
          · rename_i h; rw [h]; rfl
          · rw [digitsVal_fixedDigits]
            apply Nat.mod_eq_of_lt
            exact (decStr_length_le _ _ (by rw [List.length_pos_iff]; exact decStr_ne_nil _)).mp (le_refl _)
        rw [hval]
        have : decide ((if decide (v < 0) = true then (-1 : Int) else 1) < 0) = decide (v < 0) := by
          by_cases h : v < 0 <;> simp [h]
        rw [this]
      · split
        · simp
        · exact fixedDigits_le _ _

theorem rescale_self (m : Nat) (s : Int) : rescale m s s = m := by simp [rescale]

end Cob
