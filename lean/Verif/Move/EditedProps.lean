import Verif.Move.EditedFinish
import Verif.Move.EditedBack
import Verif.Move.NumericProps
/-
C16: MOVE to numeric-edited items.
-/
namespace Cob

/-- **C16** The digits `ds` with sign `neg` and scale `s`, moved to an item of the PICTURE, leave the
edited text of the number there. -/
theorem C16_edit (env : EditEnv) (he : EnvOk env) (heads cs tail : List Nat) (hp : EditPic env heads cs tail)
    (ds : List Nat) (hd : ∀ d ∈ ds, d ≤ 9) (s : Int) (hf : ValueFits env heads cs (digitsVal ds) s) (neg blankZero : Bool)
    (pic : List (Nat × Nat)) (hpic : expandPic pic = cs ++ tail) (old : List Nat)
    (hlen : old.length = cs.length + 2 * tail.length) :
    editDigits env blankZero neg pic (ds.map (48 + ·)) s old =
      some (editedText env blankZero heads cs tail neg (digitsVal ds) s) := by
  rw [edLoop_all env he heads cs tail hp ds hd s hf neg blankZero pic hpic old hlen]
  exact edFinish_text env he heads cs tail hp (digitsVal ds) s neg blankZero _ rfl rfl rfl rfl rfl rfl rfl rfl

/-- A zoned sender. -/
theorem moveDispEdited_text (ebc : Bool) (env : EditEnv) (he : EnvOk env) (heads cs tail : List Nat) (hp : EditPic env heads cs tail)
    (a : Attr) (sneg : Bool) (ds : List Nat) (hs : a.separate = true → a.haveSign = true) (hne : ds ≠ [])
    (hd : ∀ d ∈ ds, d ≤ 9) (hf : ValueFits env heads cs (digitsVal ds) a.scale) (blankZero : Bool)
    (pic : List (Nat × Nat)) (hpic : expandPic pic = cs ++ tail) (old : List Nat)
    (hlen : old.length = cs.length + 2 * tail.length) :
    moveDispEdited ebc env blankZero pic ⟨a, zonedImage a ebc sneg ds⟩ old =
      some (editedText env blankZero heads cs tail (a.haveSign && sneg) (digitsVal ds) a.scale) := by
  obtain ⟨h1, h2, _⟩ := image_getSign ebc a sneg ds hs hne hd
  unfold moveDispEdited
  simp only
  rw [h1, h2]
  have : decide ((if a.haveSign = true then if sneg = true then (-1 : Int) else 1 else 0) < 0) = (a.haveSign && sneg) := by
    cases a.haveSign <;> cases sneg <;> simp
  rw [this]
  exact C16_edit env he heads cs tail hp ds hd a.scale hf _ blankZero pic hpic old hlen

/-- **C16** MOVE of a numeric item of any usage that holds `v` units of its last decimal place leaves
the edited text of that number; for a zero the sign is the one stored in the item. -/
theorem C16_move (ebc : Bool) (env : EditEnv) (he : EnvOk env) (heads cs tail : List Nat) (hp : EditPic env heads cs tail)
    (src : Item) (hw : WFItem src) (v : Int) (hv : HoldsUnits ebc src v)
    (hf : ValueFits env heads cs v.natAbs src.field.attr.scale) (blankZero : Bool)
    (pic : List (Nat × Nat)) (hpic : expandPic pic = cs ++ tail) (old : List Nat)
    (hlen : old.length = cs.length + 2 * tail.length) :
    ∃ neg : Bool, (v < 0 → neg = true) ∧ (0 < v → neg = false) ∧
      cobMoveEdited ebc env blankZero pic src old =
        some (editedText env blankZero heads cs tail neg v.natAbs src.field.attr.scale) := by
  have hsf := src_forms ebc src hw v hv
  obtain ⟨us, f⟩ := src
  obtain ⟨a, data⟩ := f
  cases us with
  | display =>
    obtain ⟨neg, ds, hdat, hne, hd, _, hval⟩ := hsf
    simp only at hdat hval hf
    have hna : v.natAbs = digitsVal ds := by rw [hval]; split <;> simp
    refine ⟨a.haveSign && neg, ?_, ?_, ?_⟩
    · intro h; by_contra hc
      rw [if_neg hc] at hval; omega
    · intro h; by_contra hc
      rw [if_pos (by simpa using hc)] at hval; omega
    · unfold cobMoveEdited
      simp only
      rw [hdat, hna]
      rw [hna] at hf
      exact moveDispEdited_text ebc env he heads cs tail hp a neg ds hw.1 hne hd hf blankZero pic hpic old hlen
  | packed =>
    obtain ⟨neg, hval, hmv⟩ := hsf
    have hdg : 0 < a.digits := hw.1
    obtain ⟨hm, hlt⟩ := hmv (tempItem a.digits a.scale) (wf_temp a.digits hdg a.scale)
    simp only at hm hlt hf
    rw [temp_dsize] at hm
    have hsc : (tempItem a.digits a.scale).attr.scale = a.scale := rfl
    have hhs : (tempItem a.digits a.scale).attr.haveSign = true := rfl
    rw [hsc, rescale_self] at hm
    have hdv : digitsVal (fixedDigits a.digits v.natAbs) = v.natAbs := by
      rw [digitsVal_fixedDigits, Nat.mod_eq_of_lt hlt]
    refine ⟨neg, ?_, ?_, ?_⟩
    · intro h; by_contra hc
      rw [if_neg hc] at hval; omega
    · intro h; by_contra hc
      rw [if_pos (by simpa using hc)] at hval; omega
    · unfold cobMoveEdited
      simp only
      rw [hm]
      have := moveDispEdited_text ebc env he heads cs tail hp (tempItem a.digits a.scale).attr neg
        (fixedDigits a.digits v.natAbs) (by intro h; simp [tempItem] at h)
        (by
          intro h
          have := congrArg List.length h
          rw [fixedDigits_length, List.length_nil] at this
          omega)
        (fixedDigits_le _ _) (by rw [hdv]; exact hf) blankZero pic hpic old hlen
      rw [hdv, hhs, Bool.true_and] at this
      exact this
  | binary =>
    obtain ⟨neg, hval, hmv⟩ := hsf
    obtain ⟨hm, hlt⟩ := hmv (tempItem 20 a.scale) (wf_temp 20 (by omega) a.scale)
    simp only at hm hlt hf
    rw [temp_dsize] at hm
    have hsc : (tempItem 20 a.scale).attr.scale = a.scale := rfl
    have hhs : (tempItem 20 a.scale).attr.haveSign = true := rfl
    rw [hsc, rescale_self] at hm
    have hdv : digitsVal (fixedDigits 20 v.natAbs) = v.natAbs := by
      rw [digitsVal_fixedDigits, Nat.mod_eq_of_lt hlt]
    refine ⟨neg, ?_, ?_, ?_⟩
    · intro h; by_contra hc
      rw [if_neg hc] at hval; omega
    · intro h; by_contra hc
      rw [if_pos (by simpa using hc)] at hval; omega
    · unfold cobMoveEdited
      simp only
      rw [hm]
      have := moveDispEdited_text ebc env he heads cs tail hp (tempItem 20 a.scale).attr neg
        (fixedDigits 20 v.natAbs) (by intro h; simp [tempItem] at h)
        (by
          intro h
          have := congrArg List.length h
          rw [fixedDigits_length, List.length_nil] at this
          omega)
        (fixedDigits_le _ _) (by rw [hdv]; exact hf) blankZero pic hpic old hlen
      rw [hdv, hhs, Bool.true_and] at this
      exact this

/-! ### Every number stays inside the item -/

/-- The invariant of the loop. -/
structure Inside (size : Nat) (k : Nat) (e : Ed) : Prop where
  out : e.out.length = k
  hi : e.endp ≤ size
  lo : (size : Int) - k ≤ e.endp
  sym : e.signSym ≠ 0 ∨ e.currSym ≠ 0 → (size : Int) - k < e.endp ∧ 0 < k

theorem fetch_same (ds : List Nat) (e : Ed) : (e.fetch ds).2.out = e.out ∧ (e.fetch ds).2.endp = e.endp ∧
    (e.fetch ds).2.signSym = e.signSym ∧ (e.fetch ds).2.currSym = e.currSym := by
  unfold Ed.fetch
  generalize (if 0 ≤ e.src ∧ e.src < ds.length then ds.getD e.src.toNat 48 else 48) = x
  by_cases h : x = 48 <;> simp [h]

theorem inside_emit (size k : Nat) (e e0 : Ed) (b : Nat) (h : Inside size k e0) (hk : k < size)
    (h1 : e.out = e0.out)
    (h2 : e.endp = e0.endp ∨ (e.endp = e0.endp - 1 ∧ e.signSym = e0.signSym ∧ e.currSym = e0.currSym)) :
    ∃ e', e.emit size b = some e' ∧ Inside size (k + 1) e' := by
  obtain ⟨o, hi, lo, sy⟩ := h
  refine ⟨{ e with out := e.out ++ [b] }, by rw [emit_eq]; rw [h1, o]; exact hk, ?_, ?_, ?_, ?_⟩
  · simp [h1, o]
  · simp only; rcases h2 with h2 | ⟨h2, _, _⟩ <;> omega
  · simp only; rcases h2 with h2 | ⟨h2, _, _⟩ <;> push_cast <;> omega
  · simp only
    intro hs
    rcases h2 with h2 | ⟨h2, h3, h4⟩
    · push_cast; omega
    · rw [h3, h4] at hs
      have := sy hs
      push_cast; omega

theorem inside_step (env : EditEnv) (neg pLeft : Bool) (ds old : List Nat) (e : Ed) (c k : Nat)
    (hc : c ≠ 67 ∧ c ≠ 68 ∧ c ≠ 80 ∧ c ≠ 86) (h : Inside old.length k e) (hk : k < old.length) :
    ∃ e', edStep env neg pLeft ds old e c = some e' ∧ Inside old.length (k + 1) e' := by
  obtain ⟨f1, f2, f3, f4⟩ := fetch_same ds e
  rw [edStep.eq_def]
  by_cases h1 : c = 48 ∨ c = 47
  · rw [if_pos h1]; exact inside_emit _ k _ e _ h hk rfl (Or.inl rfl)
  rw [if_neg h1]
  by_cases h2 : c = 66
  · rw [if_pos h2]; exact inside_emit _ k _ e _ h hk rfl (Or.inl rfl)
  rw [if_neg h2, if_neg hc.2.2.1]
  by_cases h3 : c = 57
  · rw [if_pos h3]; exact inside_emit _ k _ e _ h hk f1 (Or.inl f2)
  rw [if_neg h3, if_neg hc.2.2.2]
  by_cases h4 : c = 46 ∨ c = 44
  · rw [if_pos h4]
    by_cases h5 : c = env.dp
    · rw [if_pos h5]; exact inside_emit _ k _ e _ h hk rfl (Or.inl rfl)
    · rw [if_neg h5]; exact inside_emit _ k _ e _ h hk rfl (Or.inl rfl)
  rw [if_neg h4, if_neg (by simp [hc.1, hc.2.1])]
  by_cases h5 : c = 90 ∨ c = 42
  · rw [if_pos h5]; exact inside_emit _ k _ e _ h hk f1 (Or.inl f2)
  rw [if_neg h5]
  generalize hr : e.fetch ds = r
  rw [hr] at f1 f2 f3 f4
  by_cases h6 : c = 43 ∨ c = 45
  · rw [if_pos h6]
    by_cases h7 : r.2.trailSign = true
    · rw [if_pos h7]; exact inside_emit _ k _ e _ h hk f1 (Or.inr ⟨by simp only [f2], f3, f4⟩)
    rw [if_neg h7]
    by_cases h8 : r.2.out.length = 0 ∨ r.2.supp = true
    · rw [if_pos h8]; exact inside_emit _ k _ e _ h hk f1 (Or.inl f2)
    · rw [if_neg h8]; exact inside_emit _ k _ e _ h hk f1 (Or.inl f2)
  rw [if_neg h6]
  by_cases h9 : c = env.cur
  · rw [if_pos h9]
    by_cases h7 : r.2.trailCurr = true
    · rw [if_pos h7]; exact inside_emit _ k _ e _ h hk f1 (Or.inr ⟨by simp only [f2], f3, f4⟩)
    rw [if_neg h7]
    by_cases h8 : r.2.out.length = 0 ∨ r.2.supp = true
    · rw [if_pos h8]; exact inside_emit _ k _ e _ h hk f1 (Or.inl f2)
    · rw [if_neg h8]; exact inside_emit _ k _ e _ h hk f1 (Or.inl f2)
  rw [if_neg h9]
  exact inside_emit _ k _ e _ h hk rfl (Or.inl rfl)

theorem inside_loop (env : EditEnv) (neg pLeft : Bool) (ds old cs : List Nat)
    (hc : ∀ c ∈ cs, c ≠ 67 ∧ c ≠ 68 ∧ c ≠ 80 ∧ c ≠ 86) (e : Ed) (k : Nat) (h : Inside old.length k e)
    (hk : k + cs.length ≤ old.length) :
    ∃ e', edLoop env neg pLeft ds old e cs = some e' ∧ Inside old.length (k + cs.length) e' := by
  induction cs generalizing e k with
  | nil => exact ⟨e, rfl, h⟩
  | cons c cs ih =>
    simp only [List.length_cons] at hk
    obtain ⟨e1, h1, h2⟩ := inside_step env neg pLeft ds old e c k (hc c (by simp)) h (by omega)
    obtain ⟨e2, h3, h4⟩ := ih (fun x hx => hc x (by simp [hx])) e1 (k + 1) h2 (by omega)
    refine ⟨e2, ?_, ?_⟩
    · simp only [edLoop, h1, Option.bind_some]; exact h3
    · have : k + (c :: cs).length = k + 1 + cs.length := by simp; omega
      rw [this]; exact h4

theorem edBlanks_length (pad : Nat) (seen : Bool) (n : Nat) (mem : List Nat) :
    (edBlanks pad seen n mem).length = mem.length := by
  induction mem generalizing seen n with
  | nil => cases n <;> rfl
  | cons b mem ih =>
    cases n with
    | zero => rfl
    | succ n => simp only [edBlanks]; split <;> simp [ih]

theorem inside_symbols (e : Ed) (mem m1 : List Nat) (hlen : m1.length = mem.length)
    (h : e.signSym ≠ 0 ∨ e.currSym ≠ 0 → 1 ≤ e.endp ∧ e.endp ≤ mem.length) :
    ∃ r, edSymbols e m1 = some r ∧ r.length = mem.length := by
  rw [edSymbols.eq_def]
  by_cases hs : e.signSym ≠ 0 ∨ e.currSym ≠ 0
  · have := h hs
    rw [if_pos hs, if_neg (by omega)]
    generalize edLastBlank m1 (e.endp - 1).toNat = k
    by_cases h2 : e.signSym ≠ 0 ∧ e.currSym ≠ 0
    · rw [if_pos h2]
      refine ⟨_, rfl, ?_⟩
      by_cases h3 : 1 ≤ k
      · rw [if_pos h3]; simp [hlen]
      · rw [if_neg h3]; simp [hlen]
    · rw [if_neg h2]
      by_cases h3 : e.signSym ≠ 0
      · rw [if_pos h3]; exact ⟨_, rfl, by simp [hlen]⟩
      · rw [if_neg h3]; exact ⟨_, rfl, by simp [hlen]⟩
  · rw [if_neg hs]; exact ⟨_, rfl, hlen⟩

theorem inside_finish (env : EditEnv) (blankZero : Bool) (e : Ed) (mem : List Nat)
    (h : e.signSym ≠ 0 ∨ e.currSym ≠ 0 → 1 ≤ e.endp ∧ e.endp ≤ mem.length) :
    ∃ r, edFinish env blankZero e mem = some r ∧ r.length = mem.length := by
  unfold edFinish
  split
  · split
    · exact ⟨_, rfl, by simp⟩
    · exact ⟨_, rfl, by simp⟩
  · cases hfr : e.frac with
    | none =>
      obtain ⟨r, h1, h2⟩ := inside_symbols e mem mem rfl h
      simp only [h1, Option.map_some]
      exact ⟨_, rfl, by rw [edBlanks_length, h2]⟩
    | some fr =>
      obtain ⟨r, h1, h2⟩ := inside_symbols e mem (edZeros fr e.endp mem) (by simp [edZeros]) h
      simp only [h1, Option.map_some]
      exact ⟨_, rfl, by rw [edBlanks_length, h2]⟩

/-- **C16** An editing MOVE writes the bytes of the item and no other, whatever the digits, their number and the
scale: for every PICTURE without `P` and `V`, with at most one CR or DB, at the end. -/
theorem C16_inside (env : EditEnv) (blankZero neg : Bool) (cs tail : List Nat)
    (hc : ∀ c ∈ cs, c ≠ 67 ∧ c ≠ 68 ∧ c ≠ 80 ∧ c ≠ 86) (ht : tail = [] ∨ tail = [67] ∨ tail = [68])
    (pic : List (Nat × Nat)) (hpic : expandPic pic = cs ++ tail) (ds : List Nat) (scale : Int) (old : List Nat)
    (hlen : old.length = cs.length + 2 * tail.length) :
    ∃ r, editDigits env blankZero neg pic ds scale old = some r ∧ r.length = old.length := by
  unfold editDigits
  simp only [hpic]
  generalize editCount env (cs ++ tail) true true 0 = cnt
  rw [edLoop_append]
  obtain ⟨e1, h1, h2⟩ := inside_loop env neg cnt.2 ds old cs hc
    { src := (ds.length : Int) - scale - cnt.1, endp := old.length } 0
    ⟨rfl, by simp, by simp, by simp⟩ (by omega)
  rw [h1, Option.bind_some]
  rw [Nat.zero_add] at h2
  obtain ⟨o, hi, lo, sy⟩ := h2
  rcases ht with h | h
  · subst h
    simp only [edLoop, Option.bind_some]
    obtain ⟨r, hr, hrl⟩ := inside_finish env blankZero e1 (e1.out ++ old.drop e1.out.length) (by
      intro hs
      have := sy hs
      simp at hlen
      simp only [List.length_append, List.length_drop]
      omega)
    refine ⟨r, hr, ?_⟩
    rw [hrl]; simp; omega
  · obtain ⟨t, ht, hts⟩ : ∃ t, (t = 67 ∨ t = 68) ∧ tail = [t] := by
      rcases h with h | h
      · exact ⟨67, Or.inl rfl, h⟩
      · exact ⟨68, Or.inr rfl, h⟩
    subst hts
    simp only [List.length_singleton] at hlen
    simp only [edLoop, edStep]
    rw [if_neg (by omega), if_neg (by omega), if_neg (by omega), if_neg (by omega), if_neg (by omega), if_neg (by omega),
      if_pos ht, emit_eq _ _ _ (by simp only; omega), Option.bind_some, emit_eq _ _ _ (by simp; omega), Option.bind_some,
      Option.bind_some]
    obtain ⟨r, hr, hrl⟩ := inside_finish env blankZero
      { e1 with
        endp := e1.out.length
        out := e1.out ++ [if neg = true then t else 32] ++ [if neg = true then if t = 67 then 82 else 66 else 32] }
      (e1.out ++ [if neg = true then t else 32] ++ [if neg = true then if t = 67 then 82 else 66 else 32] ++
        old.drop (e1.out ++ [if neg = true then t else 32] ++ [if neg = true then if t = 67 then 82 else 66 else 32]).length) (by
      intro hs
      have := sy hs
      simp only [List.length_append, List.length_drop, List.length_singleton]
      omega)
    refine ⟨r, hr, ?_⟩
    rw [hrl]; simp; omega

/-! ### And back -/

theorem fits_of_lt (env : EditEnv) (he : EnvOk env) (heads cs tail : List Nat) (hp : EditPic env heads cs tail) (m : Nat)
    (hm : m < 10 ^ (alignedBefore env cs cs.length - heads.length)) : ValueFits env heads cs m (fracPlaces env cs) := by
  have hsplit := aligned_split env he cs hp.onePoint
  have hlt : ∀ n : Nat, alignedBefore env cs cs.length - heads.length ≤ n → m / 10 ^ n = 0 := by
    intro n hn
    exact Nat.div_eq_of_lt (Nat.lt_of_lt_of_le hm (Nat.pow_le_pow_right (by omega) hn))
  have hal : ∀ k, alignedBefore env cs k ≤ k := by
    intro k
    unfold alignedBefore
    exact Nat.le_trans List.countP_le_length (by simp)
  constructor
  · intro i hi
    unfold digitAt
    split
    · rw [hlt _ (by
        unfold weightAt
        have := hal (i + 1)
        omega)]
    · rfl
  · rintro _ w hw
    unfold digitAt
    rw [if_neg]
    have hn : aligned env cs cs.length = false := by
      obtain ⟨_, hc1, hc2⟩ := he
      have : cs.getD cs.length 0 = 0 := by simp
      unfold aligned
      rw [this]
      simp only [List.mem_cons, not_or] at hc2
      have h0 : ¬ (0 = env.cur) := fun h => hc2.1 h.symm
      simp [isPlace, isSym, h0]
    unfold weightAt at hw
    rw [alignedBefore_succ, hn] at hw
    simp at hw
    omega

/-- **C16** A number that fits into the PICTURE, moved to the edited item and from there to a zoned item with the same decimal
places, arrives unchanged: `src` holds `v` units, it has the decimal places of the PICTURE, the PICTURE shows a sign
(or `v` is not negative), and the receiver has room for it. -/
theorem C16_roundtrip (ebc : Bool) (env : EditEnv) (he : EnvOk env) (heads cs tail : List Nat) (hp : EditPic env heads cs tail)
    (hD : DeEditable env cs) (hA : alignedBefore env cs cs.length ≤ 64)
    (pic : List (Nat × Nat)) (hpos : ∀ p ∈ pic, 0 < p.2) (hpic : expandPic pic = cs ++ tail)
    (src : Item) (hw : WFItem src) (v : Int) (hv : HoldsUnits ebc src v)
    (hscale : src.field.attr.scale = fracPlaces env cs)
    (hfit : v.natAbs < 10 ^ (alignedBefore env cs cs.length - heads.length))
    (hsign : v < 0 → signShown cs tail = true) (blankZero : Bool)
    (old : List Nat) (hlen : old.length = cs.length + 2 * tail.length)
    (f2 : Field) (hf2 : WFDisplay f2) (h2s : f2.attr.scale = fracPlaces env cs) (h2d : v.natAbs < 10 ^ f2.dsize)
    (h2n : v < 0 → f2.attr.haveSign = true) :
    ∃ text f3, cobMoveEdited ebc env blankZero pic src old = some text ∧
      moveEditedDisp ebc env pic text f2 = some f3 ∧ HoldsUnits ebc ⟨.display, f3⟩ v := by
  have hvf := fits_of_lt env he heads cs tail hp v.natAbs hfit
  obtain ⟨neg, hn1, hn2, hmv⟩ := C16_move ebc env he heads cs tail hp src hw v hv (by rw [hscale]; exact hvf) blankZero pic hpic old hlen
  rw [hscale] at hmv
  obtain ⟨neg', hn', hback⟩ := back_text ebc env he heads cs tail hp hD hA v.natAbs (fracPlaces env cs) hvf.1 neg blankZero
    pic hpos hpic f2 hf2
  refine ⟨_, _, hmv, hback, ?_⟩
  rw [rescale_self] at hn' ⊢
  have hmod : v.natAbs % 10 ^ alignedBefore env cs cs.length = v.natAbs :=
    Nat.mod_eq_of_lt (Nat.lt_of_lt_of_le hfit (Nat.pow_le_pow_right (by omega) (by omega)))
  rw [hmod] at hn' ⊢
  rw [h2s, rescale_self]
  have hds : 0 < f2.dsize := by
    obtain ⟨w1, w2⟩ := hf2
    unfold Field.dsize
    split <;> rename_i h <;> simp [h] at w2 <;> omega
  refine ⟨neg', fixedDigits f2.dsize v.natAbs, rfl, ?_, fixedDigits_le _ _, ?_⟩
  · intro h
    have := congrArg List.length h
    rw [fixedDigits_length, List.length_nil] at this
    omega
  · rw [digitsVal_fixedDigits, Nat.mod_eq_of_lt h2d]
    simp only
    rcases Int.lt_trichotomy v 0 with h | h | h
    · rw [hn' (by omega), hn1 h, hsign h, h2n h]
      simp only [Bool.and_self, if_true]; omega
    · subst h; simp
    · rw [hn' (by omega), hn2 h]
      simp only [Bool.false_and, Bool.and_false, Bool.false_eq_true, if_false]; omega

end Cob
