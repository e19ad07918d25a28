import Verif.Move.NumericLemmas
/-
Properties C13 and C17: MOVE between numeric items.
-/
namespace Cob
open Dec

/-- C13/C17: moving a numeric item of any usage that holds `x` to a numeric item of any usage
leaves in the receiver exactly the digits of `x` that fall in the receiver's positions, aligned
on the decimal point, with `x`'s sign if the receiver is signed.  Conditions: a zoned sender
has no `P` in its PICTURE; for a binary receiver, truncation to the PICTURE is on, the item is
large enough for its PICTURE, and the value aligned to the receiver fits 63 bits (beyond these
the code misbehaves: see the C13_ findings below). -/
theorem C13_move (ebc cut : Bool) (src dst : Item) (hs : WFItem src) (hd : WFItem dst) (x : ℚ)
    (hx : Holds ebc src x)
    (hP : src.usage = .display → src.field.attr.digits = src.field.dsize)
    (hb : dst.usage = .binary → cut = true ∧ BinaryHasRoom dst.field ∧
      0 ≤ (src.sent : Int) - src.field.attr.scale + dst.field.attr.scale ∧
      ∀ t, IsTrunc (x * (10 : ℚ) ^ dst.field.attr.scale) t → t.natAbs < 2 ^ 63) :
    ∃ it u, cobMoveNum ebc cut src dst = .done it ∧
      it.usage = dst.usage ∧ it.field.attr = dst.field.attr ∧ WFItem it ∧ HoldsUnits ebc it u ∧
      MovedUnits dst x u := by
  obtain ⟨v, hv, rfl⟩ := hx
  have hform := src_forms ebc src hs v hv
  have hbig : dst.usage = .binary → rescale v.natAbs src.field.attr.scale dst.field.attr.scale < 2 ^ 63 := by
    intro h
    obtain ⟨_, _, _, h4⟩ := hb h
    have h5 := (C05_truncates ⟨v, src.field.attr.scale⟩ dst.field.attr.scale).2
    have := h4 _ h5
    rw [(rescale_shift v src.field.attr.scale dst.field.attr.scale).1] at this
    exact this
  obtain ⟨us, f⟩ := src
  cases us with
  | display =>
    obtain ⟨neg, ds, h1, h2, h3, h4, h5⟩ := hform
    simp only at h1 h4 h5 hbig
    have hn : v.natAbs = digitsVal ds := by rw [h5]; split <;> simp
    rw [hn] at hbig
    have hP := hP rfl
    simp only at hP
    rw [h4] at hP
    obtain ⟨it, u, e1, e2, e3, e4, e5, e6⟩ := moveFromDisp_spec ebc cut f.attr neg ds hs.1 h2 h3 hP dst hd
      (fun h => ⟨(hb h).1, (hb h).2.1, by have := (hb h).2.2.1; simp only [Item.sent, h4] at this; exact this, hbig h⟩)
    refine ⟨it, u, ?_, e2, e3, e4, e5, ?_⟩
    · unfold cobMoveNum
      simp only
      rw [← e1, ← h1]
    · rw [e6]
      have := movedUnits_of dst (f.attr.haveSign && neg) (digitsVal ds) f.attr.scale
      rw [h5]
      simpa using this
  | packed =>
    obtain ⟨neg, h1, h2⟩ := hform
    simp only at h2 hbig
    by_cases hdu : dst.usage = .display
    · have hw : WFDisplay dst.field := by unfold WFItem at hd; rw [hdu] at hd; exact hd
      have hz := zoned_holds ebc dst.field hw neg (rescale v.natAbs f.attr.scale dst.field.attr.scale)
      refine ⟨⟨.display, movePackedDisp ebc f dst.field⟩,
        (if dst.field.attr.haveSign && neg then -((rescale v.natAbs f.attr.scale dst.field.attr.scale % 10 ^ dst.field.dsize : Nat) : Int) else ((rescale v.natAbs f.attr.scale dst.field.attr.scale % 10 ^ dst.field.dsize : Nat) : Int)), ?_, hdu.symm, ?_, ?_, ?_, ?_⟩
      · unfold cobMoveNum
        obtain ⟨du, df⟩ := dst
        simp only at hdu
        subst hdu
        rfl
      · rw [(h2 _ hw).1]
      · rw [(h2 _ hw).1]; exact hz.1
      · rw [(h2 _ hw).1]; exact hz.2
      · have := movedUnits_of dst neg v.natAbs f.attr.scale
        rw [← h1] at this
        unfold Item.positions at this
        rw [hdu] at this
        exact this
    · have hdig : 0 < f.attr.digits := hs.1
      have ht := wf_temp f.attr.digits hdig f.attr.scale
      obtain ⟨t1, t2⟩ := h2 _ ht
      rw [show (tempItem f.attr.digits f.attr.scale).attr.scale = f.attr.scale from rfl, rescale_self, temp_dsize] at t1
      have hval : digitsVal (fixedDigits f.attr.digits v.natAbs) = v.natAbs := by
        rw [digitsVal_fixedDigits, Nat.mod_eq_of_lt t2]
      obtain ⟨it, u, e1, e2, e3, e4, e5, e6⟩ := moveFromDisp_spec ebc cut (tempItem f.attr.digits f.attr.scale).attr neg
        (fixedDigits f.attr.digits v.natAbs) ht.1
        (by intro h; have := fixedDigits_length f.attr.digits v.natAbs; rw [h] at this; simp at this; omega)
        (fixedDigits_le _ _) (by rw [fixedDigits_length]; rfl) dst hd
        (fun h => ⟨(hb h).1, (hb h).2.1, by
          have := (hb h).2.2.1
          rw [fixedDigits_length]; exact this, by rw [hval]; exact hbig h⟩)
      refine ⟨it, u, ?_, e2, e3, e4, e5, ?_⟩
      · rw [← e1, ← t1]
        unfold cobMoveNum
        obtain ⟨du, df⟩ := dst
        cases du <;> first | rfl | exact absurd rfl hdu
      · rw [e6, hval]
        have := movedUnits_of dst neg v.natAbs f.attr.scale
        rw [← h1] at this
        simpa [tempItem] using this
  | binary =>
    obtain ⟨neg, h1, h2⟩ := hform
    simp only at h2 hbig
    by_cases hdu : dst.usage = .display
    · have hw : WFDisplay dst.field := by unfold WFItem at hd; rw [hdu] at hd; exact hd
      have hz := zoned_holds ebc dst.field hw neg (rescale v.natAbs f.attr.scale dst.field.attr.scale)
      refine ⟨⟨.display, moveBinDisp ebc f dst.field⟩,
        (if dst.field.attr.haveSign && neg then -((rescale v.natAbs f.attr.scale dst.field.attr.scale % 10 ^ dst.field.dsize : Nat) : Int) else ((rescale v.natAbs f.attr.scale dst.field.attr.scale % 10 ^ dst.field.dsize : Nat) : Int)), ?_, hdu.symm, ?_, ?_, ?_, ?_⟩
      · unfold cobMoveNum
        obtain ⟨du, df⟩ := dst
        simp only at hdu
        subst hdu
        rfl
      · rw [(h2 _ hw).1]
      · rw [(h2 _ hw).1]; exact hz.1
      · rw [(h2 _ hw).1]; exact hz.2
      · have := movedUnits_of dst neg v.natAbs f.attr.scale
        rw [← h1] at this
        unfold Item.positions at this
        rw [hdu] at this
        exact this
    · have ht := wf_temp 20 (by norm_num) f.attr.scale
      obtain ⟨t1, t2⟩ := h2 _ ht
      rw [show (tempItem 20 f.attr.scale).attr.scale = f.attr.scale from rfl, rescale_self, temp_dsize] at t1
      have hval : digitsVal (fixedDigits 20 v.natAbs) = v.natAbs := by
        rw [digitsVal_fixedDigits, Nat.mod_eq_of_lt t2]
      obtain ⟨it, u, e1, e2, e3, e4, e5, e6⟩ := moveFromDisp_spec ebc cut (tempItem 20 f.attr.scale).attr neg
        (fixedDigits 20 v.natAbs) ht.1
        (by intro h; have := fixedDigits_length 20 v.natAbs; rw [h] at this; simp at this)
        (fixedDigits_le _ _) (by rw [fixedDigits_length]; rfl) dst hd
        (fun h => ⟨(hb h).1, (hb h).2.1, by
          have := (hb h).2.2.1
          rw [fixedDigits_length]; exact this, by rw [hval]; exact hbig h⟩)
      refine ⟨it, u, ?_, e2, e3, e4, e5, ?_⟩
      · rw [← e1, ← t1]
        unfold cobMoveNum
        obtain ⟨du, df⟩ := dst
        cases du <;> first | rfl | exact absurd rfl hdu
      · rw [e6, hval]
        have := movedUnits_of dst neg v.natAbs f.attr.scale
        rw [← h1] at this
        simpa [tempItem] using this

/-- The hypotheses of `C13_move` are met: PIC S9(3)V99 COMP-3 holding -123.45 moved to
PIC S9(4)V9 COMP (4 bytes). -/
example :
    let src : Item := ⟨.packed, ⟨{ digits := 5, scale := 2, haveSign := true }, [0x12, 0x34, 0x5D]⟩⟩
    let dst : Item := ⟨.binary, ⟨{ digits := 5, scale := 1, haveSign := true, swap := true }, [0, 0, 0, 0]⟩⟩
    WFItem src ∧ WFItem dst ∧ HoldsUnits false src (-12345) ∧ BinaryHasRoom dst.field ∧
    cobMoveNum false true src dst = .done ⟨.binary, ⟨dst.field.attr, [255, 255, 0xFB, 0x2E]⟩⟩ := by
  refine ⟨by simp [WFItem, WFPacked], by simp [WFItem, WFBinary], ?_, by norm_num [BinaryHasRoom], by decide⟩
  exact ⟨true, 12345, by norm_num, by decide, by decide⟩

/-- C13: a zoned sender is left exactly as it was by every kind of numeric MOVE. -/
theorem C13_source_unchanged (ebc cut : Bool) (a : Attr) (neg : Bool) (ds : List Nat)
    (hs : a.separate = true → a.haveSign = true) (hne : ds ≠ []) (hd : ∀ d ∈ ds, d ≤ 9)
    (hP : a.digits = ds.length) (f2 : Field) :
    let f1 : Field := ⟨a, zonedImage a ebc neg ds⟩
    (moveDispDisp ebc f1 f2).1 = f1 ∧ (moveDispPacked ebc f1 f2).1 = f1 ∧
    (∀ r, (moveDispBin ebc cut f1 f2).2 = .done r → (moveDispBin ebc cut f1 f2).1 = f1) := by
  intro f1
  obtain ⟨h1, h2, h3, h4, h5, h6⟩ := image_getSign ebc a neg ds hs hne hd
  have hnull := not_null ebc a neg ds hs hne hd
  refine ⟨h3, ?_, ?_⟩
  · unfold moveDispPacked
    simp only
    rw [show f1.attr = a from rfl, hP, hnull]
    simp only [Bool.false_eq_true, false_and, if_false]
    exact h3
  · intro r hr
    unfold moveDispBin at hr ⊢
    simp only at hr ⊢
    have h6' : f1.dsize = ds.length := h6
    rw [h6', hnull] at hr ⊢
    simp only [Bool.false_eq_true, if_false] at hr ⊢
    split at hr
    · simp at hr
    · rename_i hsz
      rw [if_neg hsz]
      split at hr
      · simp at hr
      · rename_i v hv
        simp only
        exact h3

example : (moveDispDisp false ⟨{ digits := 2, haveSign := true }, [49, 114]⟩
    ⟨{ digits := 3, scale := 1, haveSign := true, separate := true }, [32, 32, 32, 32]⟩).2.data
    = [49, 50, 48, 45] := by decide

/-- C13 (native binary receivers: COMP-5, or modules compiled without binary truncation): the
receiver gets the whole aligned value when it fits its bytes. -/
theorem C13_move_native (ebc : Bool) (a : Attr) (neg : Bool) (ds : List Nat)
    (hs : a.separate = true → a.haveSign = true) (hne : ds ≠ []) (hd : ∀ d ∈ ds, d ≤ 9)
    (f2 : Field) (hw : WFBinary f2) (x : ℚ)
    (hx : Holds ebc ⟨.display, ⟨a, zonedImage a ebc neg ds⟩⟩ x)
    (hsz : 0 ≤ (ds.length : Int) - a.scale + f2.attr.scale) (t : Int)
    (ht : IsTrunc (x * (10 : ℚ) ^ f2.attr.scale) t) (h63 : t.natAbs < 2 ^ 63)
    (hfit : binFits f2 (if f2.attr.haveSign then t else |t|)) :
    ∃ r, (moveDispBin ebc false ⟨a, zonedImage a ebc neg ds⟩ f2).2 = .done r ∧ r.attr = f2.attr ∧
      WFBinary r ∧ binaryHolds r (if f2.attr.haveSign then t else |t|) := by
  obtain ⟨h1, h2, h3, h4, h5, h6⟩ := image_getSign ebc a neg ds hs hne hd
  have hnull := not_null ebc a neg ds hs hne hd
  set f1 : Field := ⟨a, zonedImage a ebc neg ds⟩ with hf1
  have hneg : decide ((f1.getSign ebc).1 < 0) = (a.haveSign && neg) := by
    rw [h1]
    cases a.haveSign <;> cases neg <;> simp
  -- the value held
  obtain ⟨w, hw', rfl⟩ := hx
  have hwv : w = if a.haveSign && neg then -(digitsVal ds : Int) else digitsVal ds := by
    have r1 := readItem_holds ebc ⟨.display, f1⟩ ⟨hs, by
      have : 0 < ds.length := List.length_pos_iff.mpr hne
      unfold Field.dsize at h6
      split at h6 <;> rename_i hsep
      · rw [if_pos hsep]; show 2 ≤ f1.data.length; omega
      · rw [if_neg hsep]; show 1 ≤ f1.data.length; omega⟩ w hw'
    have r2 := C01_load_image ebc a neg ds hs hne hd
    unfold readItem at r1
    simp only at r1
    have r1 := congrArg Prod.fst r1
    simp only at r1
    rw [r2] at r1
    simp only [Option.some.injEq, Dec.mk.injEq] at r1
    exact r1.1.symm
  simp only at ht
  have htr := isTrunc_unique _ _ _ (C05_truncates ⟨w, a.scale⟩ f2.attr.scale).2 ht
  obtain ⟨q1, q2, q3⟩ := rescale_shift w a.scale f2.attr.scale
  rw [htr] at q1 q2 q3
  have hwn : w.natAbs = digitsVal ds := by rw [hwv]; split <;> simp
  rw [hwn] at q1
  have hacc := accLL_rescale ds hd a.scale f2.attr.scale hsz (by omega)
  have hval : (if (f1.getSign ebc).1 < 0 ∧ f2.attr.haveSign = true then
      -((rescale (digitsVal ds) a.scale f2.attr.scale : Nat) : Int)
      else ((rescale (digitsVal ds) a.scale f2.attr.scale : Nat) : Int)) = (if f2.attr.haveSign then t else |t|) := by
    rw [← q1]
    cases hsg : f2.attr.haveSign
    · simp
    · simp only [and_true, if_true]
      by_cases hn : (f1.getSign ebc).1 < 0
      · rw [if_pos hn]
        have : (a.haveSign && neg) = true := by rw [← hneg]; simpa using hn
        rw [this] at hwv
        have := q3 (by rw [hwv]; simp)
        omega
      · rw [if_neg hn]
        have : (a.haveSign && neg) = false := by rw [← hneg]; simpa using hn
        rw [this] at hwv
        have := q2 (by rw [hwv]; simp)
        omega
  obtain ⟨w1, w2, w3⟩ := binSet_holds f2 hw _ _ hfit rfl
  refine ⟨binSet f2 (if f2.attr.haveSign then t else |t|), ?_, w2, w1, w3⟩
  unfold moveDispBin
  simp only [h2, h6, hnull, Bool.false_eq_true, if_false]
  rw [show f1.attr = a from rfl, if_neg (by omega), hacc]
  simp only
  rw [hval]

/-! ### findings -/

/-- Finding: MOVE of a one-digit zoned item to `PIC 9P(3) COMP`: the loop bound
`size1 - scale1 + scale2` is computed in `size_t` and wraps around (move.c:625). -/
theorem C13_runaway_loop :
    cobMoveNum false true ⟨.display, ⟨{ digits := 1 }, [53]⟩⟩
      ⟨.binary, ⟨{ digits := 4, scale := -3, swap := true }, [0, 0]⟩⟩ = .runaway := by decide

/-- Finding: MOVE of a zoned item of 20 digits to a small binary item overflows the 64-bit
accumulator although only the low-order digits are wanted (move.c:626-632). -/
theorem C13_wide_to_binary_overflows :
    cobMoveNum false true ⟨.display, ⟨{ digits := 20 }, List.replicate 20 57⟩⟩
      ⟨.binary, ⟨{ digits := 4, swap := true }, [0, 0]⟩⟩ = .overflow := by decide

/-- C17: a MOVE between zoned and packed items (either direction) preserves the value whenever the
receiver can represent it: `x` is a whole number `u` of units of the receiver's last place, within
its positions, and not negative if the receiver is unsigned.  (What happens otherwise is C13_move.) -/
theorem C17_preserves (ebc cut : Bool) (src dst : Item) (hs : WFItem src) (hd : WFItem dst) (x : ℚ)
    (hx : Holds ebc src x)
    (hP : src.usage = .display → src.field.attr.digits = src.field.dsize)
    (hnb : dst.usage ≠ .binary) (u : Int) (hu : x * (10 : ℚ) ^ dst.field.attr.scale = u)
    (hfit : u.natAbs < 10 ^ dst.positions) (hsgn : dst.field.attr.haveSign = true ∨ 0 ≤ u) :
    ∃ it, cobMoveNum ebc cut src dst = .done it ∧ it.usage = dst.usage ∧
      it.field.attr = dst.field.attr ∧ WFItem it ∧ Holds ebc it x := by
  obtain ⟨it, w, h1, h2, h3, h4, h5, t, ht, hw⟩ := C13_move ebc cut src dst hs hd x hx hP (fun h => absurd h hnb)
  refine ⟨it, h1, h2, h3, h4, w, h5, ?_⟩
  have htu : t = u := by
    refine (C05_spec_unique _ t u).1 ht ?_
    rw [hu]
    refine ⟨le_refl _, by linarith, mul_self_nonneg _⟩
  subst htu
  have hwt : w = t := by
    rw [hw]
    split
    · rename_i hh
      rcases Int.le_total 0 t with h0 | h0
      · rw [Int.tmod_eq_emod_of_nonneg h0]
        refine Int.emod_eq_of_lt h0 ?_
        have : (t.natAbs : Int) < ((10 ^ dst.positions : Nat) : Int) := by exact_mod_cast hfit
        rw [Int.natAbs_of_nonneg h0] at this
        exact_mod_cast this
      · obtain ⟨n, rfl⟩ : ∃ n : Int, t = -n := ⟨-t, by omega⟩
        rw [Int.neg_tmod, Int.tmod_eq_emod_of_nonneg (by omega)]
        rw [Int.emod_eq_of_lt (by omega)]
        have : ((-n).natAbs : Int) < ((10 ^ dst.positions : Nat) : Int) := by exact_mod_cast hfit
        rw [Int.natAbs_neg, Int.natAbs_of_nonneg (by omega)] at this
        exact_mod_cast this
    · rename_i hh
      rw [Nat.mod_eq_of_lt hfit]
      rcases hsgn with h | h
      · exact absurd h hh
      · exact Int.natAbs_of_nonneg h
  rw [hwt, h3, ← hu, mul_div_assoc, div_self (zpow_ne_zero _ (by norm_num)), mul_one]

/-- The hypotheses are met: +123.45 in PIC S9(3)V99 moved to PIC S9(5)V99 COMP-3. -/
example : cobMoveNum false true
    ⟨.display, ⟨{ digits := 5, scale := 2, haveSign := true }, [49, 50, 51, 52, 53]⟩⟩
    ⟨.packed, ⟨{ digits := 7, scale := 2, haveSign := true }, [0, 0, 0, 0]⟩⟩
    = .done ⟨.packed, ⟨{ digits := 7, scale := 2, haveSign := true }, [0, 0x12, 0x34, 0x5C]⟩⟩ := by decide

/-- Finding: MOVE of `PIC 9PP` (value 500, stored as "5", three digits counted) to
`PIC 9(3) COMP-3` reads beyond the sending item (move.c:436, 455-460 uses COB_FIELD_DIGITS). -/
theorem C17_p_picture_reads_outside :
    cobMoveNum false true ⟨.display, ⟨{ digits := 3, scale := -2 }, [53]⟩⟩
      ⟨.packed, ⟨{ digits := 3 }, [0, 0]⟩⟩ = .outside := by decide

/-- Finding: a zoned item filled with NULs is moved to COMP-3 as bytes 0, whose sign nibble 0
is not a sign (move.c:442-450). -/
theorem C17_nul_sender_gives_bad_packed :
    (moveDispPacked false ⟨{ digits := 2 }, [0, 0]⟩ ⟨{ digits := 2 }, [0x12, 0x3F]⟩).2
      = some ⟨{ digits := 2 }, [0, 0]⟩ := by decide

end Cob
