import Verif.Num.ArithProps
/-
Property C80, continued: ADD and SUBTRACT of one operand.
-/
namespace Cob.Arith
open Dec

theorem natAbs_of_sign (b : Bool) (T : Int) (h : b = true ∨ 0 ≤ T) :
    (if b then T else (T.natAbs : Int)) = T := by
  cases b with
  | true => simp
  | false =>
    have : 0 ≤ T := by simpa using h
    simp only [Bool.false_eq_true, if_false]; omega

theorem addIntItem_scaled (ebc bt : Bool) (it : Item) (hw : WFItem it) (hs : 0 ≤ it.field.attr.scale)
    (hb : it.usage ≠ .binary) (u m : Int) (hu : HoldsUnits ebc it u)
    (opt : StoreOpt) (hf : Fits it opt (u + m * 10 ^ it.field.attr.scale.toNat))
    (hp : it.usage = .packed → (m * 10 ^ it.field.attr.scale.toNat).natAbs < 10 ^ it.field.attr.digits) :
    ∃ r, addIntItem ebc bt it m = some r ∧ r.usage = it.usage ∧ r.field.attr = it.field.attr ∧
      HoldsUnits ebc r (u + m * 10 ^ it.field.attr.scale.toNat) := by
  obtain ⟨us, f⟩ := it
  unfold addIntItem
  by_cases h0 : m = 0
  · rw [if_pos h0]
    refine ⟨_, rfl, rfl, rfl, ?_⟩
    subst h0
    simpa using hu
  · rw [if_neg h0]
    obtain ⟨f1, f2⟩ := hf
    have e := natAbs_of_sign f.attr.haveSign _ f1
    cases us with
    | binary => exact absurd rfl hb
    | packed =>
      refine ⟨_, rfl, rfl, ?_⟩
      have := C11_add_packed ebc f hw u m hu (hp rfl) f2
      simp only [e] at this
      exact this
    | display =>
      refine ⟨_, rfl, rfl, ?_⟩
      have := C10_add_int ebc bt f hw u m hu hs f2
      simp only [e] at this
      exact this.2

theorem read_units (ebc : Bool) (it : Item) (hw : WFItem it) (u : Int) (hu : HoldsUnits ebc it u) :
    readItem ebc it = (some ⟨u, it.field.attr.scale⟩, it) := by
  obtain ⟨t, ht, et, st⟩ := holds_read ebc it hw _ ⟨u, hu, rfl⟩
  have h10 : (10:ℚ) ^ it.field.attr.scale ≠ 0 := zpow_ne_zero _ (by norm_num)
  have : t.value = u := by
    unfold toRat at et
    rw [st] at et
    have := (div_left_inj' h10).mp et
    exact_mod_cast this
  obtain ⟨tv, ts⟩ := t
  simp only at this st
  rw [ht, this, st]

theorem room_of_fits (it : Item) (opt : StoreOpt) (u : Int) (h : Fits it opt u) : Room it u := by
  obtain ⟨h1, h2⟩ := h
  unfold Room
  cases hu : it.usage <;> simp only [hu] at h2 ⊢
  · exact h2
  · exact h2
  · have h2 := h2.1
    unfold binFits at h2
    unfold InRange
    by_cases hs : it.field.attr.haveSign = true
    · simp only [hs, if_true] at h2 ⊢
      have : ((u.natAbs : Nat) : Int) < ((2 ^ (8 * it.field.data.length - 1) : Nat) : Int) := by exact_mod_cast h2
      push_cast at this
      constructor
      · have := neg_abs_le u; omega
      · have := le_abs_self u; omega
    · simp only [hs, if_false, Bool.false_eq_true] at h2 ⊢
      have : ((u.natAbs : Nat) : Int) < ((2 ^ (8 * it.field.data.length) : Nat) : Int) := by exact_mod_cast h2.2
      push_cast at this
      refine ⟨h2.1, ?_⟩
      have := le_abs_self u
      omega

theorem fast_units (P : Prog) (o : Op) (it : Item) (hw : WFItem it)
    (hs : 0 ≤ it.field.attr.scale) (u n : Int) (hu : HoldsUnits P.ebc it u)
    (hn : n.natAbs < 2147483648) (opt : StoreOpt) (hopt : opt = ⟨false, false, false, P.binTrunc⟩)
    (m : Int) (hm : m = if o = .sub then -n else n)
    (hf : Fits it opt (u + m * 10 ^ it.field.attr.scale.toNat))
    (hp : it.usage = .packed → (n * 10 ^ it.field.attr.scale.toNat).natAbs < 10 ^ it.field.attr.digits) :
    ∃ r, fast P o it n = some r ∧ r.usage = it.usage ∧ r.field.attr = it.field.attr ∧
      HoldsUnits P.ebc r (u + m * 10 ^ it.field.attr.scale.toNat) := by
  have c1 : toCInt n = n := toCInt_id n (by omega) (by omega)
  have c2 : toCInt (-n) = -n := toCInt_id (-n) (by omega) (by omega)
  have hmp : it.usage = .packed → (m * 10 ^ it.field.attr.scale.toNat).natAbs < 10 ^ it.field.attr.digits := by
    intro h
    rw [hm]
    split
    · rw [Int.neg_mul, Int.natAbs_neg]; exact hp h
    · exact hp h
  unfold fast
  by_cases hb : it.usage = .binary ∧ it.field.attr.scale ≠ 0
  · rw [if_pos hb]
    simp only [c1, c2, ← hm]
    by_cases h0 : m = 0
    · rw [if_pos h0]
      refine ⟨_, rfl, rfl, rfl, ?_⟩
      rw [h0]; simpa using hu
    · rw [if_neg h0, read_units P.ebc it hw u hu]
      simp only
      refine ⟨_, rfl, store_usage .., ?_⟩
      have hnan : Dec.isNaN ⟨u + m * 10 ^ it.field.attr.scale.toNat, it.field.attr.scale⟩ = false :=
        nan_of_nonneg _ hs
      have h10 : (10:ℚ) ^ it.field.attr.scale ≠ 0 := zpow_ne_zero _ (by norm_num)
      have hwant : Wanted opt it (Dec.toRat ⟨u + m * 10 ^ it.field.attr.scale.toNat, it.field.attr.scale⟩)
          (u + m * 10 ^ it.field.attr.scale.toNat) := by
        have := wanted_toFieldScale opt it ⟨u + m * 10 ^ it.field.attr.scale.toNat, it.field.attr.scale⟩
        have e : (Dec.toFieldScale ⟨u + m * 10 ^ it.field.attr.scale.toNat, it.field.attr.scale⟩
          it.field.attr.scale opt.round).value = u + m * 10 ^ it.field.attr.scale.toNat := by
          rw [hopt]
          simp [Dec.toFieldScale, Dec.shift]
        rw [e] at this
        exact this
      have := C05_store_any_item P.ebc _ hnan it hw opt _ hwant hf
      rw [hopt] at this
      exact ⟨this.2.2.2.2.1, this.2.2.2.2.2⟩
  · rw [if_neg hb]
    have hsign := natAbs_of_sign it.field.attr.haveSign _ hf.1
    by_cases h0 : it.field.attr.scale = 0
    · have hroom := room_of_fits it opt _ hf
      simp only [h0, Int.toNat_zero, pow_zero, mul_one] at hsign hroom hp ⊢
      by_cases ho : o = .sub
      · rw [if_pos ho] at hm ⊢
        subst hm
        have := C50_sub_item P.ebc P.binTrunc it hw h0 u n hu (by omega) (by omega) hp
          (by rw [Int.sub_eq_add_neg]; exact hroom)
        rw [Int.sub_eq_add_neg, hsign] at this
        exact this
      · rw [if_neg ho] at hm ⊢
        subst hm
        have := C50_add_item P.ebc P.binTrunc it hw h0 u m hu (by omega) (by omega) hp hroom
        rw [hsign] at this
        exact this
    · have hnb : it.usage ≠ .binary := fun h => hb ⟨h, h0⟩
      have key := addIntItem_scaled P.ebc P.binTrunc it hw hs hnb u m hu opt hf hmp
      by_cases ho : o = .sub
      · rw [if_pos ho] at hm ⊢
        unfold optimSub
        simp only
        rw [if_neg (fun h => hnb h.1), c1, c2, ← hm]
        exact key
      · rw [if_neg ho] at hm ⊢
        unfold optimAdd
        simp only
        rw [if_neg (fun h => hnb h.1), if_neg (fun h => h0 h.2.1), c1, ← hm]
        exact key

theorem intOf_value (ebc : Bool) (σ : State) (vals : Nat → ℚ) (x : Opnd)
    (h : Readable ebc σ vals x) (hf : fits σ x = true) : x.val vals = (intOf ebc σ x : ℚ) := by
  cases x with
  | lit d =>
    simp only [fits, Bool.and_eq_true, decide_eq_true_eq] at hf
    simp [Opnd.val, intOf, hf.1]
  | var v =>
    obtain ⟨hw, hh, hs⟩ := h
    have h0 : (σ v).field.attr.scale = 0 := le_antisymm (scale_of_fits _ hf) hs
    exact (operandInt_value ebc (.item (σ v)) (vals v) hf ⟨hw, hh⟩ (Or.inl h0)).1.symm

theorem isTrunc_int (T u : Int) (x : ℚ) (hx : x = (T : ℚ)) (h : IsTrunc x u) : u = T := by
  subst hx
  have h2 : IsTrunc (T : ℚ) T := by
    have := isTrunc_tdiv T 1 (by norm_num)
    simpa using this
  exact isTrunc_unique _ _ _ h h2

theorem stepOne_good (P : Prog) (ph : Phrases) (o : Op) (x : Opnd) (σ : State) (r : Recv)
    (vals : Nat → ℚ) (hx : Readable P.ebc σ vals x) (hw : WFItem (σ r.v))
    (hs : 0 ≤ (σ r.v).field.attr.scale) (hh : Holds P.ebc (σ r.v) (vals r.v))
    (hsm : (∃ n : Int, x.val vals = n) → ph.onSize = false → r.rounded = false →
      (P.binTrunc = false ∨ P.native r.v = true) → SmallFor (σ r.v) (x.val vals)) :
    ∃ res, stepOne P ph o x () σ r = some (res, ()) ∧
      Good P ph (σ r.v) r (if o = .sub then vals r.v - x.val vals else vals r.v + x.val vals) res := by
  unfold stepOne
  simp only
  by_cases hc : (StoreOpt.isZero (storeOption P ph r) && fits σ x) = true
  · rw [if_pos hc]
    simp only [Bool.and_eq_true] at hc
    obtain ⟨hz, hf⟩ := hc
    have hzero : storeOption P ph r = ⟨false, false, false, P.binTrunc⟩ := by
      have hb := option_binTrunc P ph r
      generalize storeOption P ph r = o at hz hb
      obtain ⟨a, b, c, d⟩ := o
      simp only [StoreOpt.isZero, Bool.and_eq_true, Bool.not_eq_true'] at hz
      simp only at hb
      simp [hz.1.1, hz.1.2, hz.2, hb]
    have hround : r.rounded = false := by
      have := option_round P ph r
      rw [hzero] at this
      exact this.symm
    have hpr : ¬ Protected P ph r := by
      intro hne
      have := option_keep P ph r hne
      rw [hzero] at this
      simp at this
    have hos : ph.onSize = false := by
      by_contra hne
      exact hpr (Or.inl (by simpa using hne))
    have hnat : P.binTrunc = false ∨ P.native r.v = true := by
      by_contra hne
      push Not at hne
      obtain ⟨h1, h2⟩ := hne
      have h1 : P.binTrunc = true := by simpa using h1
      have h2 : P.native r.v = false := by simpa using h2
      simp only [storeOption, h1, h2, hos, Bool.false_eq_true, if_false, Bool.true_eq_false,
        Bool.false_or, hround] at hzero
      split at hzero <;> simp at hzero
    have hn := intOf_value P.ebc σ vals x hx hf
    set n := intOf P.ebc σ x with hndef
    obtain ⟨sm1, sm2, -⟩ := hsm ⟨n, hn⟩ hos hround hnat
    have hn31 : n.natAbs < 2147483648 := by
      rw [hn] at sm1
      have : ((|n| : Int) : ℚ) < 2147483648 := by push_cast; exact sm1
      have : |n| < 2147483648 := by exact_mod_cast this
      have h1 := le_abs_self n
      have h2 := neg_abs_le n
      omega
    obtain ⟨u0, hu0, hv0⟩ := hh
    obtain ⟨k, hk⟩ := Int.eq_ofNat_of_zero_le hs
    have h10 : (10:ℚ) ^ (σ r.v).field.attr.scale ≠ 0 := zpow_ne_zero _ (by norm_num)
    have hp10 : (10:ℚ) ^ (σ r.v).field.attr.scale = ((10 ^ (σ r.v).field.attr.scale.toNat : Int) : ℚ) := by
      rw [hk]; push_cast; simp
    have hpk : (σ r.v).usage = .packed →
        (n * 10 ^ (σ r.v).field.attr.scale.toNat).natAbs < 10 ^ (σ r.v).field.attr.digits := by
      intro hus
      have := sm2 hus
      rw [hn, hp10, ← Int.cast_abs, ← Int.cast_mul] at this
      have h2 : (|n| * 10 ^ (σ r.v).field.attr.scale.toNat : Int) < 10 ^ (σ r.v).field.attr.digits := by
        exact_mod_cast this
      have h3 : (n * 10 ^ (σ r.v).field.attr.scale.toNat).natAbs =
          (|n| * 10 ^ (σ r.v).field.attr.scale.toNat).natAbs := by
        rw [Int.natAbs_mul, Int.natAbs_mul, Int.natAbs_abs]
      rw [h3]
      have h4 : 0 ≤ |n| * 10 ^ (σ r.v).field.attr.scale.toNat := by positivity
      zify
      rw [abs_of_nonneg h4]
      exact h2
    have hmf : ∃ it, fast P o (σ r.v) n = some it := by
      unfold fast
      by_cases hb : (σ r.v).usage = .binary ∧ (σ r.v).field.attr.scale ≠ 0
      · rw [if_pos hb]
        simp only
        rw [read_units P.ebc _ hw u0 hu0]
        simp only
        split <;> split <;> exact ⟨_, rfl⟩
      · rw [if_neg hb]
        split
        · unfold optimSub addIntItem
          simp only
          split
          · exact ⟨_, rfl⟩
          · split
            · exact ⟨_, rfl⟩
            · cases hus : (σ r.v).usage <;> simp only
              · exact ⟨_, rfl⟩
              · exact ⟨_, rfl⟩
              · exfalso
                simp_all
        · unfold optimAdd addIntItem
          simp only
          split
          · exact ⟨_, rfl⟩
          · split
            · exact ⟨_, rfl⟩
            · split
              · exact ⟨_, rfl⟩
              · cases hus : (σ r.v).usage <;> simp only
                · exact ⟨_, rfl⟩
                · exact ⟨_, rfl⟩
                · exfalso
                  simp_all
    obtain ⟨it, hit⟩ := hmf
    refine ⟨⟨it, false, false⟩, by rw [hit]; rfl, ?_⟩
    intro u hu
    refine ⟨fun hr => ?_, fun ho => absurd ho hpr, fun hg => absurd (option_unguarded P ph r hg).2 (by rw [hzero]; simp)⟩
    have hfit := fits_room P ph (σ r.v) r u hr
    rw [hzero] at hfit
    unfold Units at hu
    simp only [hround, Bool.false_eq_true, if_false] at hu
    have hu' : u = u0 + (if o = .sub then -n else n) * 10 ^ (σ r.v).field.attr.scale.toNat := by
      apply isTrunc_int _ _ _ _ hu
      rw [hv0, hn]
      push_cast
      have := hp10
      push_cast at this
      split <;> (rw [this]; field_simp) <;> (try push_cast) <;> (try ring)
    rw [hu'] at hfit ⊢
    obtain ⟨it', e1, e2, e3, e4⟩ := fast_units P o (σ r.v) hw hs u0 n hu0 hn31 _ rfl _ rfl hfit hpk
    rw [hit] at e1
    obtain rfl := Option.some.inj e1
    exact ⟨rfl, e2, e3, e4⟩
  · rw [if_neg hc]
    obtain ⟨d1, r1, e1, s1⟩ := holds_read P.ebc (σ r.v) hw (vals r.v) hh
    obtain ⟨d2, r2, e2, s2⟩ := readOpnd_value P.ebc σ vals x hx
    have n1 := nan_of_nonneg d1 (by rw [s1]; exact hs)
    have n2 := nan_of_nonneg d2 s2
    rw [r1, r2]
    simp only
    refine ⟨_, rfl, ?_⟩
    split
    · have := C06_sub_exact d1 d2 n1 n2
      exact good_store P ph _ hw r _ _ this.2 (by rw [this.1, e1, e2])
    · have := C06_add_exact d1 d2 n1 n2
      exact good_store P ph _ hw r _ _ this.2 (by rw [this.1, e1, e2])

end Cob.Arith
