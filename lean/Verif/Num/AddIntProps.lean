import Verif.Num.AddInt
import Verif.Num.ItemProps
/-
Property C10: the fast path for adding an integer to a DISPLAY item.
-/
namespace Cob

/-! ### helper lemmas -/

/-- The number written by digits, least significant first. -/
def lsbVal : List Nat → Nat
  | [] => 0
  | d :: t => d + 10 * lsbVal t

theorem lsbVal_lt (ds : List Nat) (h : ∀ d ∈ ds, d ≤ 9) : lsbVal ds < 10 ^ ds.length := by
  induction ds with
  | nil => simp [lsbVal]
  | cons d t ih =>
    have h1 := h d (by simp)
    have h2 := ih (fun x hx => h x (by simp [hx]))
    simp only [lsbVal, List.length_cons, pow_succ]
    omega

theorem lsbVal_append (a b : List Nat) : lsbVal (a ++ b) = lsbVal a + 10 ^ a.length * lsbVal b := by
  induction a with
  | nil => simp [lsbVal]
  | cons x t ih => simp only [List.cons_append, lsbVal, ih, List.length_cons, pow_succ]; ring

theorem lsbVal_reverse (ds : List Nat) : lsbVal ds.reverse = digitsVal ds := by
  induction ds with
  | nil => rfl
  | cons d t ih =>
    rw [List.reverse_cons, lsbVal_append, ih, digitsVal]
    simp [lsbVal]
    ring

/-- Result of a digit loop: digits `ds'` for the number `v` modulo the width. -/
def DigitsFor (len : Nat) (v : Int) (bs : List Nat) : Prop :=
  ∃ ds', bs = ds'.map (48 + ·) ∧ ds'.length = len ∧ (∀ d ∈ ds', d ≤ 9) ∧
    (lsbVal ds' : Int) = v % 10 ^ len

theorem digitsFor_cons (len : Nat) (v : Int) (bs : List Nat) (d : Nat) (hd : d ≤ 9)
    (h : DigitsFor len v bs) : DigitsFor (len + 1) (d + 10 * v) ((48 + d) :: bs) := by
  obtain ⟨ds', h1, h2, h3, h4⟩ := h
  refine ⟨d :: ds', by simp [h1], by simp [h2], ?_, ?_⟩
  · intro x hx
    rcases List.mem_cons.mp hx with rfl | hx
    · exact hd
    · exact h3 x hx
  · simp only [lsbVal]
    push_cast
    rw [h4, pow_succ, mul_comm ((10 : Int) ^ len) 10]
    have hpos : (0 : Int) < 10 ^ len := by positivity
    generalize (10 : Int) ^ len = M at *
    have e := Int.emod_add_mul_ediv v M
    have hr0 := Int.emod_nonneg v (ne_of_gt hpos)
    have hr1 := Int.emod_lt_of_pos v hpos
    have : (d : Int) + 10 * v = (d + 10 * (v % M)) + (10 * M) * (v / M) := by
      conv_lhs => rw [← e]
      ring
    rw [this, Int.add_mul_emod_self_left]
    exact (Int.emod_eq_of_lt (by omega) (by omega)).symm

theorem carryUp_spec (ds : List Nat) (h : ∀ d ∈ ds, d ≤ 9) :
    DigitsFor ds.length (lsbVal ds + 1) (carryUp (ds.map (48 + ·))).1 ∧
      (carryUp (ds.map (48 + ·))).2 = decide (10 ^ ds.length ≤ lsbVal ds + 1) := by
  induction ds with
  | nil => exact ⟨⟨[], by simp [carryUp], rfl, by simp, by simp [lsbVal]⟩, by simp [carryUp, lsbVal]⟩
  | cons d t ih =>
    have hd := h d (by simp)
    have ht : ∀ x ∈ t, x ≤ 9 := fun x hx => h x (by simp [hx])
    obtain ⟨ih1, ih2⟩ := ih ht
    have hlt := lsbVal_lt t ht
    rw [List.map_cons, carryUp]
    by_cases hb : d + 1 ≤ 9
    · rw [if_pos (by omega)]
      constructor
      · refine ⟨(d + 1) :: t, by simp; omega, by simp, ?_, ?_⟩
        · intro x hx
          rcases List.mem_cons.mp hx with rfl | hx
          · exact hb
          · exact ht x hx
        · simp only [lsbVal]
          rw [Int.emod_eq_of_lt (by positivity)]
          · push_cast; ring
          · have : d + 10 * lsbVal t + 1 < 10 ^ (t.length + 1) := by rw [pow_succ]; omega
            exact_mod_cast this
      · symm
        simp only [lsbVal, List.length_cons, pow_succ, decide_eq_false_iff_not]
        omega
    · have hd9 : d = 9 := by omega
      rw [if_neg (by omega)]
      constructor
      · have := digitsFor_cons t.length (lsbVal t + 1) _ 0 (by omega) ih1
        have e : ((0 : Nat) : Int) + 10 * ((lsbVal t : Int) + 1) = (lsbVal (d :: t) : Int) + 1 := by
          simp only [lsbVal]; push_cast; rw [hd9]; push_cast; ring
        rw [e] at this
        exact this
      · simp only [ih2, lsbVal, List.length_cons, pow_succ, hd9, decide_eq_decide]
        omega

theorem addLoop_spec (ds : List Nat) (h : ∀ d ∈ ds, d ≤ 9) (n c : Nat) (hc : c ≤ 1) :
    DigitsFor ds.length (lsbVal ds + n + c) (addLoop (ds.map (48 + ·)) n c).1 ∧
      (addLoop (ds.map (48 + ·)) n c).2 = decide (10 ^ ds.length ≤ lsbVal ds + n + c) := by
  induction ds generalizing n c with
  | nil =>
    have hmod : ∀ v : Int, DigitsFor 0 v [] := fun v =>
      ⟨[], rfl, rfl, by simp, by simp [lsbVal, Int.emod_one]⟩
    simp only [List.map_nil, addLoop, List.length_nil, lsbVal]
    split
    · split
      · refine ⟨hmod _, ?_⟩; simp; omega
      · refine ⟨hmod _, ?_⟩; simp [carryUp]; omega
    · refine ⟨hmod _, ?_⟩; simp; omega
  | cons d t ih =>
    have hd := h d (by simp)
    have ht : ∀ x ∈ t, x ≤ 9 := fun x hx => h x (by simp [hx])
    have hlt := lsbVal_lt (d :: t) h
    by_cases hn : n = 0
    · subst hn
      by_cases hc0 : c = 0
      · subst hc0
        simp only [List.map_cons, addLoop, if_true]
        refine ⟨⟨d :: t, by simp, rfl, h, ?_⟩, ?_⟩
        · rw [Int.emod_eq_of_lt (by positivity)]
          · simp
          · push_cast
            simpa using (by exact_mod_cast hlt : ((lsbVal (d :: t) : Nat) : Int) < 10 ^ (d :: t).length)
        · simpa using hlt
      · have hc1 : c = 1 := by omega
        subst hc1
        have := carryUp_spec (d :: t) h
        simp only [List.map_cons, addLoop, if_true] at this ⊢
        simpa using this
    · simp only [List.map_cons, addLoop, if_neg hn]
      have hb : (48 + d) % 16 = d := by omega
      rw [hb]
      set is := d + n % 10 + c with his
      have hcar : (if is > 9 then 1 else 0) = is / 10 := by split <;> omega
      rw [hcar]
      obtain ⟨i1, i2⟩ := ih ht (n / 10) (is / 10) (by omega)
      constructor
      · have hdig : (if is > 9 then 48 + is % 10 else 48 + is) = 48 + is % 10 := by
          split <;> omega
        rw [hdig]
        have := digitsFor_cons _ _ _ (is % 10) (by omega) i1
        have e : ((is % 10 : Nat) : Int) + 10 * ((lsbVal t : Int) + (n / 10 : Nat) + (is / 10 : Nat)) =
            (lsbVal (d :: t) : Int) + n + c := by
          simp only [lsbVal]
          push_cast
          omega
        rw [e] at this
        exact this
      · rw [i2]
        simp only [lsbVal, List.length_cons, pow_succ, decide_eq_decide]
        omega

theorem borrowUp_spec (ds : List Nat) (h : ∀ d ∈ ds, d ≤ 9) :
    DigitsFor ds.length (lsbVal ds - 1) (borrowUp (ds.map (48 + ·))).1 ∧
      (borrowUp (ds.map (48 + ·))).2 = decide (lsbVal ds < 1) := by
  induction ds with
  | nil => exact ⟨⟨[], by simp [borrowUp], rfl, by simp, by simp [lsbVal, Int.emod_one]⟩, by simp [borrowUp, lsbVal]⟩
  | cons d t ih =>
    have hd := h d (by simp)
    have ht : ∀ x ∈ t, x ≤ 9 := fun x hx => h x (by simp [hx])
    obtain ⟨ih1, ih2⟩ := ih ht
    have hlt := lsbVal_lt (d :: t) h
    rw [List.map_cons, borrowUp]
    have hb256 : (48 + d + 255) % 256 = 47 + d := by omega
    rw [hb256]
    by_cases hb : 1 ≤ d
    · rw [if_pos (by omega)]
      constructor
      · refine ⟨(d - 1) :: t, by simp; omega, by simp, ?_, ?_⟩
        · intro x hx
          rcases List.mem_cons.mp hx with rfl | hx
          · omega
          · exact ht x hx
        · simp only [lsbVal] at hlt ⊢
          have hlt' : ((d + 10 * lsbVal t : Nat) : Int) < 10 ^ (d :: t).length := by exact_mod_cast hlt
          push_cast at hlt'
          rw [Int.emod_eq_of_lt (by push_cast; omega) (by push_cast; omega)]
          push_cast; omega
      · symm
        apply decide_eq_false
        simp only [lsbVal]
        omega
    · have hd0 : d = 0 := by omega
      rw [if_neg (by omega)]
      constructor
      · have := digitsFor_cons t.length (lsbVal t - 1) _ 9 (by omega) ih1
        have e : ((9 : Nat) : Int) + 10 * ((lsbVal t : Int) - 1) = (lsbVal (d :: t) : Int) - 1 := by
          simp only [lsbVal]; push_cast; rw [hd0]; push_cast; ring
        rw [e] at this
        exact this
      · simp only [ih2, lsbVal, hd0, decide_eq_decide]
        omega

theorem subLoop_spec (ds : List Nat) (h : ∀ d ∈ ds, d ≤ 9) (n c : Nat) (hc : c ≤ 1) :
    DigitsFor ds.length (lsbVal ds - n - c) (subLoop (ds.map (48 + ·)) n c).1 ∧
      (subLoop (ds.map (48 + ·)) n c).2 = decide (lsbVal ds < n + c) := by
  induction ds generalizing n c with
  | nil =>
    have hmod : ∀ v : Int, DigitsFor 0 v [] := fun v =>
      ⟨[], rfl, rfl, by simp, by simp [lsbVal, Int.emod_one]⟩
    simp only [List.map_nil, subLoop, List.length_nil, lsbVal]
    split
    · split
      · refine ⟨hmod _, ?_⟩; simp; omega
      · refine ⟨hmod _, ?_⟩; simp [borrowUp]; omega
    · refine ⟨hmod _, ?_⟩; simp; omega
  | cons d t ih =>
    have hd := h d (by simp)
    have ht : ∀ x ∈ t, x ≤ 9 := fun x hx => h x (by simp [hx])
    have hlt := lsbVal_lt (d :: t) h
    by_cases hn : n = 0
    · subst hn
      by_cases hc0 : c = 0
      · subst hc0
        simp only [List.map_cons, subLoop, if_true]
        refine ⟨⟨d :: t, by simp, rfl, h, ?_⟩, by simp⟩
        have hlt' : ((lsbVal (d :: t) : Nat) : Int) < 10 ^ (d :: t).length := by exact_mod_cast hlt
        rw [Int.emod_eq_of_lt (by push_cast; omega) (by push_cast; omega)]
        simp
      · have hc1 : c = 1 := by omega
        subst hc1
        have := borrowUp_spec (d :: t) h
        simp only [List.map_cons, subLoop, if_true] at this ⊢
        simpa using this
    · simp only [List.map_cons, subLoop, if_neg hn]
      have hx : (48 + d + 256 - (n % 10 + c)) % 256 = 48 + d - (n % 10 + c) := by omega
      rw [hx]
      by_cases hbor : d < n % 10 + c
      · have h48 : 48 + d - (n % 10 + c) < 48 := by omega
        simp only [h48, if_true]
        obtain ⟨i1, i2⟩ := ih ht (n / 10) 1 (by omega)
        constructor
        · have hdig : (48 + d - (n % 10 + c) + 10) % 256 = 48 + (10 + d - (n % 10 + c)) := by omega
          rw [hdig]
          have := digitsFor_cons _ _ _ (10 + d - (n % 10 + c)) (by omega) i1
          have e : ((10 + d - (n % 10 + c) : Nat) : Int) + 10 * ((lsbVal t : Int) - (n / 10 : Nat) - (1 : Nat)) =
              (lsbVal (d :: t) : Int) - n - c := by
            simp only [lsbVal]
            omega
          rw [e] at this
          exact this
        · rw [i2]
          simp only [lsbVal]
          apply decide_eq_decide.mpr
          omega
      · have h48 : ¬ 48 + d - (n % 10 + c) < 48 := by omega
        simp only [h48, if_false]
        obtain ⟨i1, i2⟩ := ih ht (n / 10) 0 (by omega)
        constructor
        · have hdig : 48 + d - (n % 10 + c) = 48 + (d - (n % 10 + c)) := by omega
          rw [hdig]
          have := digitsFor_cons _ _ _ (d - (n % 10 + c)) (by omega) i1
          have e : ((d - (n % 10 + c) : Nat) : Int) + 10 * ((lsbVal t : Int) - (n / 10 : Nat) - (0 : Nat)) =
              (lsbVal (d :: t) : Int) - n - c := by
            simp only [lsbVal]
            omega
          rw [e] at this
          exact this
        · rw [i2]
          simp only [lsbVal]
          apply decide_eq_decide.mpr
          omega

/-- The same, most significant digit first. -/
def DigitsMsb (len : Nat) (v : Int) (bs : List Nat) : Prop :=
  ∃ ds', bs = ds'.map (48 + ·) ∧ ds'.length = len ∧ (∀ d ∈ ds', d ≤ 9) ∧
    (digitsVal ds' : Int) = v % 10 ^ len

theorem digitsMsb_of (len : Nat) (v : Int) (bs : List Nat) (h : DigitsFor len v bs) :
    DigitsMsb len v bs.reverse := by
  obtain ⟨ds', h1, h2, h3, h4⟩ := h
  refine ⟨ds'.reverse, by simp [h1], by simp [h2], by simpa using h3, ?_⟩
  rw [← lsbVal_reverse, List.reverse_reverse, h4]

theorem displayAddInt_spec (bt : Bool) (ds : List Nat) (h : ∀ d ∈ ds, d ≤ 9) (n : Nat) :
    DigitsMsb ds.length (digitsVal ds + n) (displayAddInt bt (ds.map (48 + ·)) n).1 ∧
      (displayAddInt bt (ds.map (48 + ·)) n).2 = (decide (10 ^ ds.length ≤ digitsVal ds + n) && bt) := by
  have := addLoop_spec ds.reverse (by simpa using h) n 0 (by omega)
  rw [lsbVal_reverse, List.length_reverse, List.map_reverse] at this
  unfold displayAddInt
  refine ⟨?_, by simp only [this.2]; simp⟩
  have h2 := digitsMsb_of _ _ _ this.1
  simpa using h2

theorem displaySubInt_spec (ds : List Nat) (h : ∀ d ∈ ds, d ≤ 9) (n : Nat) :
    DigitsMsb ds.length (digitsVal ds - n) (displaySubInt (ds.map (48 + ·)) n).1 ∧
      (displaySubInt (ds.map (48 + ·)) n).2 = decide (digitsVal ds < n) := by
  have := subLoop_spec ds.reverse (by simpa using h) n 0 (by omega)
  rw [lsbVal_reverse, List.length_reverse, List.map_reverse] at this
  unfold displaySubInt
  refine ⟨?_, by simp only [this.2]; simp⟩
  have h2 := digitsMsb_of _ _ _ this.1
  simpa using h2

theorem digitsVal_compl (ds : List Nat) (h : ∀ d ∈ ds, d ≤ 9) :
    (digitsVal (ds.map (9 - ·)) : Int) = 10 ^ ds.length - 1 - digitsVal ds := by
  induction ds with
  | nil => simp [digitsVal]
  | cons d t ih =>
    have hd := h d (by simp)
    have := ih (fun x hx => h x (by simp [hx]))
    simp only [List.map_cons, digitsVal, List.length_map, List.length_cons, pow_succ]
    push_cast [hd]
    rw [this]
    ring

/-! ### C10 -/

/-- A field's zoned image stored from digits and a sign. -/
theorem store_holds (ebc : Bool) (g : Field) (hg : WFDisplay g) (bs : List Nat) (v : Int)
    (h : DigitsMsb g.dsize v bs) (hpos : 0 < g.dsize) (sign : Int) :
    HoldsUnits ebc ⟨.display, (g.storeDigits bs).putSign ebc sign⟩
        (if g.attr.haveSign && decide (sign < 0) then -(v % 10 ^ g.dsize) else v % 10 ^ g.dsize) ∧
      ((g.storeDigits bs).putSign ebc sign).attr = g.attr := by
  obtain ⟨ds', h1, h2, h3, h4⟩ := h
  subst h1
  rw [store_image ebc g hg ds' h2 h3 sign]
  refine ⟨⟨decide (sign < 0), ds', rfl, ?_, h3, ?_⟩, rfl⟩
  · intro h; rw [h] at h2; simp at h2; omega
  · rw [h4]

/-- C10: let a zoned item hold `u` units and let `T = u + n * 10^scale` be the exact sum.
If `|T|` has no more digits than the item, then adding the integer stores `T` (its absolute
value in an unsigned item) and signals nothing. -/
theorem C10_add_int (ebc bt : Bool) (f : Field) (hf : WFDisplay f) (u n : Int)
    (hu : HoldsUnits ebc ⟨.display, f⟩ u) (hs : 0 ≤ f.attr.scale)
    (hfit : (u + n * 10 ^ f.attr.scale.toNat).natAbs < 10 ^ f.dsize) :
    let T := u + n * 10 ^ f.attr.scale.toNat
    (cobDisplayAddInt ebc bt f n).2 = false ∧
      (cobDisplayAddInt ebc bt f n).1.attr = f.attr ∧
      HoldsUnits ebc ⟨.display, (cobDisplayAddInt ebc bt f n).1⟩
        (if f.attr.haveSign then T else (T.natAbs : Int)) := by
  intro T
  obtain ⟨neg, ds, hd, hne, hle, hu⟩ := hu
  simp only at hd hu
  obtain ⟨a, data⟩ := f
  simp only at hd hu hs
  subst hd
  obtain ⟨g1, g2, g3, -, -, g6⟩ := image_getSign ebc a neg ds hf.1 hne hle
  set f : Field := ⟨a, zonedImage a ebc neg ds⟩ with hfdef
  set g := f.getSign ebc with hg
  have hgattr : g.2.attr = a := by
    simp only [hg, Field.getSign, hfdef]
    split
    · rfl
    · split <;> rfl
  have hglen : g.2.data.length = f.data.length := by
    simp only [hg, Field.getSign, hfdef]
    split
    · rfl
    · split <;> simp
  have hgwf : WFDisplay g.2 := by
    refine ⟨by rw [hgattr]; exact hf.1, ?_⟩
    rw [hglen, hgattr]; exact hf.2
  have hgds : g.2.dsize = ds.length := by
    rw [← g6]; unfold Field.dsize; rw [hglen, hgattr]
  have hpos : 0 < ds.length := List.length_pos_iff.mpr hne
  have hdlt : digitsVal ds < 10 ^ ds.length := by
    rw [← lsbVal_reverse, ← List.length_reverse]
    exact lsbVal_lt _ (by simpa using hle)
  rw [g6] at hfit
  have hfit' : |T| < 10 ^ ds.length := by
    rw [Int.abs_eq_natAbs]
    exact_mod_cast hfit
  set N := n * 10 ^ a.scale.toNat with hN
  -- value handled by the code and expected sign
  have hneg : (g.1 < 0) ↔ (a.haveSign = true ∧ neg = true) := by
    rw [g1]; cases a.haveSign <;> cases neg <;> simp
  set w : Int := if g.1 < 0 then -N else N with hw
  have hscaled : scaledInt a.scale (if g.1 < 0 then -n else n) = w := by
    unfold scaledInt
    rw [if_pos hs, hw, hN]
    split <;> ring
  set m : Int := ((digitsVal ds : Nat) : Int) with hm
  have hm0 : 0 ≤ m := by positivity
  have hmlt : m < 10 ^ ds.length := by rw [hm]; exact_mod_cast hdlt
  -- T in terms of m and w
  have hT : T = if g.1 < 0 then -(m + w) else m + w := by
    by_cases hc : g.1 < 0
    · have := hneg.mp hc
      simp only [T, hu, this.1, this.2, hc, if_true, Bool.and_self, hw]
      ring
    · have hb : (a.haveSign && neg) = false := by
        by_contra hx
        simp only [Bool.not_eq_false, Bool.and_eq_true] at hx
        exact hc (hneg.mpr hx)
      simp only [T, hu, hb, hc, if_false, hw, Bool.false_eq_true]
      rfl
  have habs : |m + w| < 10 ^ ds.length := by
    rw [hT] at hfit'
    split at hfit'
    · rwa [abs_neg] at hfit'
    · exact hfit'
  rw [abs_lt] at habs
  have hTu : ∀ r : Int, (if a.haveSign then T else (T.natAbs : Int)) = r ↔
      r = (if a.haveSign then T else (T.natAbs : Int)) := fun r => eq_comm
  -- evaluate the code
  have hcode : cobDisplayAddInt ebc bt f n =
      (if w > 0 then
        let r := displayAddInt bt (ds.map (48 + ·)) w.toNat
        if r.2 then (g.2.putSign ebc g.1, true)
        else ((g.2.storeDigits r.1).putSign ebc g.1, false)
      else if w < 0 then
        let r := displaySubInt (ds.map (48 + ·)) (-w).toNat
        if r.2 then
          let c := (displayAddInt bt (r.1.map (fun b => 48 + (9 - (b - 48)))) 1).1
          ((g.2.storeDigits c).putSign ebc (-g.1), false)
        else ((g.2.storeDigits r.1).putSign ebc g.1, false)
      else (g.2.putSign ebc g.1, false)) := by
    unfold cobDisplayAddInt
    simp only [← hg, g2]
    rw [show f.attr.scale = a.scale from rfl, hscaled]
  rw [hcode]
  -- sign facts
  have hg1cases : g.1 = 0 ∧ a.haveSign = false ∨ g.1 = 1 ∧ a.haveSign = true ∨ g.1 = -1 ∧ a.haveSign = true := by
    rw [g1]; cases a.haveSign <;> cases neg <;> simp
  have finish : ∀ (v r : Int) (sign : Int), v % 10 ^ ds.length = v →
      (if a.haveSign && decide (sign < 0) then -v else v) = r →
      r = (if a.haveSign then T else (T.natAbs : Int)) →
      ∀ bs, DigitsMsb ds.length v bs →
        (True ∧ ((g.2.storeDigits bs).putSign ebc sign).attr = f.attr ∧
        HoldsUnits ebc ⟨.display, (g.2.storeDigits bs).putSign ebc sign⟩
          (if f.attr.haveSign then T else (T.natAbs : Int))) := by
    intro v r sign hv hr hrT bs hbs
    have := store_holds ebc g.2 hgwf bs v (by rw [hgds]; exact hbs) (by omega) sign
    rw [hgattr, hgds, hv, hr, hrT] at this
    exact ⟨trivial, this.2, this.1⟩
  by_cases hwp : w > 0
  · simp only [hwp, if_true]
    obtain ⟨q1, q2⟩ := displayAddInt_spec bt ds hle w.toNat
    have hwn : (w.toNat : Int) = w := Int.toNat_of_nonneg (by omega)
    have hno : (displayAddInt bt (ds.map (48 + ·)) w.toNat).2 = false := by
      rw [q2]
      have : ¬ 10 ^ ds.length ≤ digitsVal ds + w.toNat := by
        intro hc
        have hc' : (10 : Int) ^ ds.length ≤ (digitsVal ds : Int) + (w.toNat : Int) := by exact_mod_cast hc
        rw [hwn] at hc'
        omega
      simp [this]
    simp only [hno, Bool.false_eq_true, if_false]
    rw [hwn] at q1
    refine finish (m + w) _ g.1 (Int.emod_eq_of_lt (by omega) (by omega)) rfl ?_ _ q1
    rcases hg1cases with ⟨e1, e2⟩ | ⟨e1, e2⟩ | ⟨e1, e2⟩
    · rw [hT]; simp only [e1, e2]; simp; first | rw [abs_of_nonneg (by omega)] | (rw [abs_of_nonpos (by omega)]; ring)
    · rw [hT]; simp [e1, e2]
    · rw [hT]; simp [e1, e2]
  · by_cases hwn : w < 0
    · simp only [hwp, hwn, if_true, if_false]
      obtain ⟨q1, q2⟩ := displaySubInt_spec ds hle (-w).toNat
      have hwv : ((-w).toNat : Int) = -w := Int.toNat_of_nonneg (by omega)
      rw [hwv] at q1
      by_cases hlt : digitsVal ds < (-w).toNat
      · have hyes : (displaySubInt (ds.map (48 + ·)) (-w).toNat).2 = true := by rw [q2]; simp [hlt]
        simp only [hyes, if_true]
        obtain ⟨es, p1, p2, p3, p4⟩ := q1
        have hml : m < -w := by omega
        have p4' : (digitsVal es : Int) = m + w + 10 ^ ds.length := by
          rw [p4, ← hm]
          have : m - -w = (m + w + 10 ^ ds.length) + 10 ^ ds.length * (-1) := by ring
          rw [this, Int.add_mul_emod_self_left]
          exact Int.emod_eq_of_lt (by omega) (by omega)
        have hcm : (displaySubInt (ds.map (48 + ·)) (-w).toNat).1.map (fun b => 48 + (9 - (b - 48))) =
            (es.map (9 - ·)).map (48 + ·) := by
          rw [p1, List.map_map, List.map_map]
          apply List.map_congr_left
          intro x _
          simp
        rw [hcm]
        have hcl : ∀ d ∈ es.map (9 - ·), d ≤ 9 := by
          intro d hd
          obtain ⟨x, _, rfl⟩ := List.mem_map.mp hd
          omega
        obtain ⟨c1, _⟩ := displayAddInt_spec bt (es.map (9 - ·)) hcl 1
        rw [digitsVal_compl es p3, List.length_map, p2, p4'] at c1
        have ev : (10 : Int) ^ ds.length - 1 - (m + w + 10 ^ ds.length) + ((1 : Nat) : Int) = -(m + w) := by
          push_cast; ring
        rw [ev] at c1
        refine finish (-(m + w)) _ (-g.1) (Int.emod_eq_of_lt (by omega) (by omega)) rfl ?_ _ c1
        rcases hg1cases with ⟨e1, e2⟩ | ⟨e1, e2⟩ | ⟨e1, e2⟩
        · rw [hT]; simp only [e1, e2]; simp; first | rw [abs_of_nonneg (by omega)] | (rw [abs_of_nonpos (by omega)]; ring)
        · rw [hT]; simp [e1, e2]
        · rw [hT]; simp [e1, e2]
      · have hno : (displaySubInt (ds.map (48 + ·)) (-w).toNat).2 = false := by rw [q2]; simp; omega
        simp only [hno, Bool.false_eq_true, if_false]
        have ev : (digitsVal ds : Int) - -w = m + w := by rw [← hm]; ring
        rw [ev] at q1
        refine finish (m + w) _ g.1 (Int.emod_eq_of_lt (by omega) (by omega)) rfl ?_ _ q1
        rcases hg1cases with ⟨e1, e2⟩ | ⟨e1, e2⟩ | ⟨e1, e2⟩
        · rw [hT]; simp only [e1, e2]; simp; first | rw [abs_of_nonneg (by omega)] | (rw [abs_of_nonpos (by omega)]; ring)
        · rw [hT]; simp [e1, e2]
        · rw [hT]; simp [e1, e2]
    · have hw0 : w = 0 := by omega
      simp only [hw0, gt_iff_lt, lt_irrefl, if_false]
      rw [g3]
      refine ⟨trivial, rfl, ⟨neg, ds, rfl, hne, hle, ?_⟩⟩
      rcases hg1cases with ⟨e1, e2⟩ | ⟨e1, e2⟩ | ⟨e1, e2⟩
      · rw [hT]; simp [e1, e2, hw0, hfdef]
        rw [abs_of_nonneg hm0]
      · rw [hT]
        have : neg = false := by
          by_contra hx
          have := hneg.mpr ⟨e2, by simpa using hx⟩
          omega
        simp [e1, e2, hw0, hfdef, this]
        exact hm
      · rw [hT]
        have : neg = true := (hneg.mp (by omega)).2
        simp [e1, e2, hw0, hfdef, this]
        exact hm

/-- C10 (overflow): when the integer has the direction of the item's sign (it increases the
magnitude), the result does not fit and the module truncates (`binTrunc`), the item keeps every
byte and the size exception is raised. -/
theorem C10_add_int_overflow (ebc : Bool) (f : Field) (hf : WFDisplay f) (u n : Int)
    (hu : HoldsUnits ebc ⟨.display, f⟩ u) (hs : 0 ≤ f.attr.scale)
    (hdir : (0 < n ∧ (f.getSign ebc).1 ≥ 0) ∨ (n < 0 ∧ (f.getSign ebc).1 < 0))
    (hov : 10 ^ f.dsize ≤ (u + n * 10 ^ f.attr.scale.toNat).natAbs) :
    cobDisplayAddInt ebc true f n = (f, true) := by
  obtain ⟨neg, ds, hd, hne, hle, hu⟩ := hu
  simp only at hd hu
  obtain ⟨a, data⟩ := f
  simp only at hd hu hs
  subst hd
  obtain ⟨g1, g2, g3, -, -, g6⟩ := image_getSign ebc a neg ds hf.1 hne hle
  set f : Field := ⟨a, zonedImage a ebc neg ds⟩ with hfdef
  set g := f.getSign ebc with hg
  rw [g6] at hov
  have hP : (0 : Int) < 10 ^ a.scale.toNat := by positivity
  set P : Int := 10 ^ a.scale.toNat with hPdef
  have hov' : (10 : Int) ^ ds.length ≤ |u + n * P| := by
    rw [Int.abs_eq_natAbs]; exact_mod_cast hov
  set w : Int := (if g.1 < 0 then -n else n) * P with hw
  have hscaled : scaledInt a.scale (if g.1 < 0 then -n else n) = w := by
    unfold scaledInt
    rw [if_pos hs]
  have hwpos : 0 < w := by
    rw [hw]
    apply mul_pos _ hP
    rcases hdir with ⟨h1, h2⟩ | ⟨h1, h2⟩
    · rw [if_neg (by omega)]; exact h1
    · rw [if_pos h2]; omega
  obtain ⟨q1, q2⟩ := displayAddInt_spec true ds hle w.toNat
  have hwn : (w.toNat : Int) = w := Int.toNat_of_nonneg (by omega)
  have hbig : 10 ^ ds.length ≤ digitsVal ds + w.toNat := by
    have : (10 : Int) ^ ds.length ≤ (digitsVal ds : Int) + (w.toNat : Int) := by
      rw [hwn]
      rcases hdir with ⟨h1, h2⟩ | ⟨h1, h2⟩
      · have hn : ¬ g.1 < 0 := by omega
        have hb : (a.haveSign && neg) = false := by
          by_contra hx
          simp only [Bool.not_eq_false, Bool.and_eq_true] at hx
          rw [g1] at hn
          simp [hx.1, hx.2] at hn
        rw [hu] at hov'
        simp only [hb, Bool.false_eq_true, if_false] at hov'
        rw [hw, if_neg hn]
        have : 0 ≤ (digitsVal ds : Int) + n * P := by positivity
        rwa [abs_of_nonneg this] at hov'
      · have hb : a.haveSign = true ∧ neg = true := by
          rw [g1] at h2
          cases hv : a.haveSign <;> cases hn : neg <;> simp_all
        rw [hu] at hov'
        simp only [hb.1, hb.2, Bool.and_self, if_true] at hov'
        rw [hw, if_pos h2]
        have e : -(digitsVal ds : Int) + n * P = -((digitsVal ds : Int) + -n * P) := by ring
        rw [e, abs_neg] at hov'
        have : 0 ≤ (digitsVal ds : Int) + -n * P := by
          have : 0 ≤ -n * P := mul_nonneg (by omega) (by omega)
          omega
        rwa [abs_of_nonneg this] at hov'
    exact_mod_cast this
  have hyes : (displayAddInt true (ds.map (48 + ·)) w.toNat).2 = true := by
    rw [q2]; simp [hbig]
  unfold cobDisplayAddInt
  simp only [← hg, g2]
  rw [show f.attr.scale = a.scale from rfl, hscaled]
  simp only [gt_iff_lt, hwpos, if_true, hyes, g3]

/-- Finding (C10): an integer that carries the value past zero and out of range is not
reported: S9 holding 5, SUBTRACT 23, stores -8 (the low digit of -18) without exception. -/
theorem C10_wraps_silently :
    cobDisplayAddInt false true ⟨{ digits := 1, haveSign := true }, [53]⟩ (-23) =
      (⟨{ digits := 1, haveSign := true }, [120]⟩, false) ∧
    (decSetDisplay false ⟨{ digits := 1, haveSign := true }, [120]⟩).1 = some ⟨-8, 0⟩ := by decide

/-- Finding (C10): in a module compiled without binary truncation an overflow is silent too:
9 holding 9, ADD 3, stores 2. -/
theorem C10_notrunc_wraps :
    cobDisplayAddInt false false ⟨{ digits := 1 }, [57]⟩ 3 = (⟨{ digits := 1 }, [50]⟩, false) := by decide

/-- Finding (C10): reaching zero from below leaves a negative zero in storage ("p"), which is
numerically zero but differs bytewise from the "0" the general path stores. -/
theorem C10_negative_zero :
    (cobDisplayAddInt false true ⟨{ digits := 1, haveSign := true }, [117]⟩ 5).1.data = [112] := by decide

/-- Non-vacuity: S9(3)V9 DISPLAY holding -12.3, ADD 20 gives 7.7. -/
example :
    let f : Field := ⟨{ digits := 4, scale := 1, haveSign := true }, [48, 49, 50, 115]⟩
    WFDisplay f ∧ HoldsUnits false ⟨.display, f⟩ (-123) ∧
      (-123 + 20 * 10 ^ (1 : Nat) : Int).natAbs < 10 ^ f.dsize ∧
      (cobDisplayAddInt false true f 20).1.data = [48, 48, 55, 55] := by
  refine ⟨⟨by decide, by decide⟩, ⟨true, [0, 1, 2, 3], by decide, by decide, by decide, by decide⟩,
    by decide, by decide⟩

/-- Non-vacuity of the overflow clause: 9(2) DISPLAY holding 95, ADD 7. -/
example :
    let f : Field := ⟨{ digits := 2 }, [57, 53]⟩
    WFDisplay f ∧ HoldsUnits false ⟨.display, f⟩ 95 ∧ (f.getSign false).1 ≥ 0 ∧
      10 ^ f.dsize ≤ (95 + 7 * 10 ^ (0 : Nat) : Int).natAbs := by
  refine ⟨⟨by decide, by decide⟩, ⟨false, [9, 5], by decide, by decide, by decide, by decide⟩,
    by decide, by decide⟩

end Cob
