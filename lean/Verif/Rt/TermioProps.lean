import Verif.Rt.Termio
import Verif.Move.EditedExamples
import Verif.Move.AlnumProps
import Verif.Move.NumericProps
import Verif.Num.FastPathProps
/-
C52: what DISPLAY writes.
-/
namespace Cob

/-! ### Specification -/

/-- The character of the sign. -/
def signChar (neg : Bool) : Nat := if neg then 45 else 43

/-- The `n` low-order digits of `m` as characters. -/
def digitText (n m : Nat) : List Nat := (fixedDigits n m).map (48 + ·)

/-- A number in `k` decimals and `n` places before the decimal point, `m` in units of its last place: the
decimal point is only written when there are decimals. -/
def numberText (dp n k m : Nat) : List Nat :=
  digitText n (m / 10 ^ k) ++ (if k = 0 then [] else dp :: digitText k m)

/-- The number of `m` units of `10 ^ -s` in units of `10 ^ -k`, where `k` is `s` unless `s` is negative. -/
def wholeUnits (m : Nat) (s : Int) : Nat := m * 10 ^ (-s).toNat

/-- The text of a number with a decimal point: sign, integer part, decimals. -/
def prettyText (dp : Nat) (a : Attr) (neg : Bool) (m : Nat) : List Nat :=
  (if a.haveSign then [signChar neg] else []) ++
    numberText dp (a.digits - a.scale.toNat) a.scale.toNat (wholeUnits m a.scale)

/-- The text without a decimal point: the digits of the PICTURE, and the sign on the side of the item's sign. -/
def plainText (leading : Bool) (n : Nat) (signed neg : Bool) (m : Nat) : List Nat :=
  if !signed then digitText n m
  else if leading then signChar neg :: digitText n m
  else digitText n m ++ [signChar neg]

/-! ### Proofs -/

theorem zonedImage_sep (ebc lead signed neg : Bool) (d : Nat) (s : Int) (ds : List Nat) :
    zonedImage { digits := d, scale := s, haveSign := signed, separate := signed, leading := signed && lead } ebc neg ds =
      if !signed then ds.map (48 + ·) else if lead then signChar neg :: ds.map (48 + ·) else ds.map (48 + ·) ++ [signChar neg] := by
  unfold zonedImage signChar
  cases signed <;> cases lead <;> simp

/-- `display_numeric` of an item that holds `v` units. -/
theorem displayNumeric_text (ebc : Bool) (it : Item) (hw : WFItem it) (v : Int) (hv : HoldsUnits ebc it v)
    (hd : 0 < it.field.attr.digits) :
    ∃ neg : Bool, (v < 0 → neg = true) ∧ (0 < v → neg = false) ∧
      displayNumeric ebc it = some (plainText (it.field.attr.leading || it.usage == .binary) it.field.attr.digits
        it.field.attr.haveSign neg v.natAbs) := by
  have hsf := src_forms ebc it hw v hv
  have hne0 : it.field.data.length ≠ 0 := by
    obtain ⟨us, f⟩ := it
    cases us with
    | display => have := hw.2; simp only at this ⊢; split at this <;> omega
    | packed => have := hw.2; simp only at this ⊢; omega
    | binary => have := hw.1; simp only at this ⊢; omega
  unfold displayNumeric
  simp only
  rw [if_neg hne0]
  obtain ⟨us, f⟩ := it
  obtain ⟨a, data⟩ := f
  simp only at *
  set L : Bool := a.leading || us == .binary with hL
  set temp : Field := ⟨{ digits := a.digits, scale := a.scale, haveSign := a.haveSign, separate := a.haveSign, leading := a.haveSign && L },
    List.replicate (a.digits + if a.haveSign = true then 1 else 0) 0⟩ with htemp
  have hwt : WFDisplay temp := by
    refine ⟨fun h => h, ?_⟩
    simp only [htemp, List.length_replicate]
    cases a.haveSign <;> simp <;> omega
  have hds : temp.dsize = a.digits := by
    simp only [htemp, Field.dsize, List.length_replicate]
    cases a.haveSign <;> simp
  have himg : ∀ neg ds, zonedImage temp.attr ebc neg ds = if !a.haveSign then ds.map (48 + ·) else
      if L then signChar neg :: ds.map (48 + ·) else ds.map (48 + ·) ++ [signChar neg] :=
    fun neg ds => zonedImage_sep ebc L a.haveSign neg a.digits a.scale ds
  have htext : ∀ neg, zonedImage temp.attr ebc neg (fixedDigits temp.dsize (rescale v.natAbs a.scale temp.attr.scale)) =
      plainText L a.digits a.haveSign neg v.natAbs := by
    intro neg
    rw [himg, hds, show temp.attr.scale = a.scale from rfl, rescale_self]
    rfl
  cases us with
  | display =>
    obtain ⟨neg, ds, hdat, hne, hdg, hlen, hval⟩ := hsf
    obtain ⟨h1, h2, h3, h4, h5, h6⟩ := image_getSign ebc a neg ds hw.1 hne hdg
    have hmv : moveDispDisp ebc ⟨a, data⟩ temp = (⟨a, data⟩, ⟨temp.attr, zonedImage temp.attr ebc (a.haveSign && neg)
        (fixedDigits temp.dsize (rescale (digitsVal ds) a.scale temp.attr.scale))⟩) := by
      rw [hdat]
      unfold moveDispDisp
      simp only
      rw [h2, h3, region_holds ebc temp hwt ds hdg]
      congr 3
      rw [h1]
      cases a.haveSign <;> cases neg <;> simp
    refine ⟨a.haveSign && neg, ?_, ?_, ?_⟩
    · intro h
      by_contra hc
      rw [if_neg hc] at hval
      omega
    · intro h
      by_contra hc
      rw [if_pos (by simpa using hc)] at hval
      omega
    · have hm : digitsVal ds = v.natAbs := by
        rw [hval]; split <;> omega
      rw [hm] at hmv
      simp only [cobMoveNum, moveFromDisp]
      rw [hmv]
      simp only
      rw [htext]
  | packed =>
    obtain ⟨neg, hval, hmv⟩ := hsf
    refine ⟨neg, ?_, ?_, ?_⟩
    · intro h
      by_contra hc
      rw [if_neg hc] at hval; omega
    · intro h
      by_contra hc
      rw [if_pos (by simpa using hc)] at hval; omega
    · simp only [cobMoveNum]
      rw [(hmv temp hwt).1]
      simp only
      rw [htext]
  | binary =>
    obtain ⟨neg, hval, hmv⟩ := hsf
    refine ⟨neg, ?_, ?_, ?_⟩
    · intro h
      by_contra hc
      rw [if_neg hc] at hval; omega
    · intro h
      by_contra hc
      rw [if_pos (by simpa using hc)] at hval; omega
    · simp only [cobMoveNum]
      rw [(hmv temp hwt).1]
      simp only
      rw [htext]

/-- The PICTURE of `pretty_display_numeric`, one symbol per position. -/
def prettyCs (dp : Nat) (signed : Bool) (n k : Nat) : List Nat :=
  (if signed then [43] else []) ++ List.replicate n 57 ++ (if k = 0 then [] else dp :: List.replicate k 57)

section pretty
variable (env : EditEnv) (he : EnvOk env) (signed : Bool) (n k : Nat)

theorem prettyCs_length : (prettyCs env.dp signed n k).length = signed.toNat + n + (if k = 0 then 0 else 1 + k) := by
  unfold prettyCs
  cases signed <;> by_cases hk : k = 0 <;> simp [hk] <;> omega

theorem prettyCs_get (i : Nat) (hi : i < (prettyCs env.dp signed n k).length) :
    (prettyCs env.dp signed n k).getD i 0 =
      if i < signed.toNat then 43 else if i = signed.toNat + n then env.dp else 57 := by
  have hl := prettyCs_length env signed n k
  rw [List.getD, List.getElem?_eq_getElem hi, Option.getD_some]
  by_cases hk : k = 0
  · rw [hl, if_pos hk] at hi
    rw [if_neg (show ¬ i = signed.toNat + n by omega)]
    unfold prettyCs
    simp only [hk, if_true, List.append_nil]
    cases signed
    · simp
    · cases i with
      | zero => simp
      | succ i => simp
  · rw [hl, if_neg hk] at hi
    unfold prettyCs
    simp only [hk, if_false]
    cases signed
    · simp only [Bool.false_eq_true, if_false, List.nil_append, Bool.toNat_false, Nat.zero_add, Nat.not_lt_zero]
      rw [List.getElem_append]
      split
      · rename_i h
        rw [List.length_replicate] at h
        rw [if_neg (by omega), List.getElem_replicate]
      · rename_i h
        rw [List.length_replicate] at h
        by_cases hin : i = n
        · subst hin; simp
        · rw [if_neg hin]
          simp only [List.length_replicate]
          obtain ⟨j, hj⟩ : ∃ j, i - n = j + 1 := ⟨i - n - 1, by omega⟩
          simp [hj]
    · simp only [if_true, Bool.toNat_true]
      cases i with
      | zero => simp
      | succ i =>
        simp only [List.cons_append, List.nil_append, List.getElem_cons_succ]
        rw [if_neg (show ¬ i + 1 < 1 by omega), List.getElem_append]
        split
        · rename_i h
          rw [List.length_replicate] at h
          rw [if_neg (by omega), List.getElem_replicate]
        · rename_i h
          rw [List.length_replicate] at h
          by_cases hin : i = n
          · subst hin; simp [Nat.add_comm]
          · rw [if_neg (show ¬ i + 1 = 1 + n by omega)]
            simp only [List.length_replicate]
            obtain ⟨j, hj⟩ : ∃ j, i - n = j + 1 := ⟨i - n - 1, by omega⟩
            simp [hj]

theorem pretty_dp (he : EnvOk env) : env.dp ≠ 43 ∧ env.dp ≠ 57 ∧ isSym env env.dp = false ∧ isPlace env.dp = false ∧ isSym env 57 = false := by
  obtain ⟨hd, h1, h2⟩ := he
  simp only [List.mem_cons, List.not_mem_nil, or_false, not_or] at h2
  have h57 : env.cur ≠ 57 := by omega
  have h46 : env.cur ≠ 46 := h2.2.2.2.2.2.2.1
  have h44 : env.cur ≠ 44 := h2.2.2.2.2.1
  unfold isSym isPlace
  rcases hd with h | h <;> rw [h] <;> simp <;> omega

theorem pretty_point (he : EnvOk env) : pointPos env (prettyCs env.dp signed n k) = signed.toNat + n := by
  have hl := prettyCs_length env signed n k
  have hg := prettyCs_get env signed n k
  have hdp := pretty_dp env he
  unfold pointPos
  by_cases hk : k = 0
  · rw [if_pos hk] at hl
    rw [List.findIdx_eq_length.mpr, hl]
    · omega
    · intro x hx
      obtain ⟨i, hi, rfl⟩ := List.getElem_of_mem hx
      have := hg i hi
      rw [List.getD, List.getElem?_eq_getElem hi, Option.getD_some] at this
      rw [this, if_neg (show ¬ i = signed.toNat + n by omega)]
      have h1 := hdp.1
      have h2 := hdp.2.1
      split <;> simp <;> omega
  · rw [if_neg hk] at hl
    have hlt : signed.toNat + n < (prettyCs env.dp signed n k).length := by omega
    rw [List.findIdx_eq hlt]
    have g2 : ∀ i (hi : i < (prettyCs env.dp signed n k).length), (prettyCs env.dp signed n k)[i] =
        if i < signed.toNat then 43 else if i = signed.toNat + n then env.dp else 57 := by
      intro i hi
      have := hg i hi
      rwa [List.getD, List.getElem?_eq_getElem hi, Option.getD_some] at this
    refine ⟨?_, ?_⟩
    · rw [g2, if_neg (by omega), if_pos rfl]; simp
    · intro j hj
      rw [g2]
      have h1 := hdp.1
      have h2 := hdp.2.1
      split
      · simp; omega
      · rw [if_neg (by omega)]; simp; omega

theorem pretty_aligned (he : EnvOk env) (i : Nat) (hi : i < (prettyCs env.dp signed n k).length) :
    aligned env (prettyCs env.dp signed n k) i = decide (i ≠ signed.toNat + n) := by
  have hg := prettyCs_get env signed n k i hi
  have hdp := pretty_dp env he
  unfold aligned
  rw [hg]
  by_cases h1 : i < signed.toNat
  · rw [if_pos h1]
    have hs : signed = true := by cases signed <;> simp_all
    have h0 : i = 0 := by rw [hs] at h1; simpa using h1
    subst h0
    simp [isPlace, isSym, placeBefore, hs]; omega
  · rw [if_neg h1]
    by_cases h2 : i = signed.toNat + n
    · rw [if_pos h2]
      simp [hdp.2.2.1, hdp.2.2.2.1, h2]
    · rw [if_neg h2]
      simp [isPlace, h2]

theorem pretty_before (he : EnvOk env) (i : Nat) (hi : i ≤ (prettyCs env.dp signed n k).length) :
    alignedBefore env (prettyCs env.dp signed n k) i = if i ≤ signed.toNat + n then i else i - 1 := by
  induction i with
  | zero => simp [alignedBefore]
  | succ i ih =>
    rw [alignedBefore_succ, ih (by omega), pretty_aligned env signed n k he i (by omega)]
    by_cases h : i = signed.toNat + n
    · simp [h]
    · simp only [ne_eq, h, not_false_eq_true, decide_true, if_true]
      split <;> split <;> omega

theorem pretty_place (he : EnvOk env) (i : Nat) (hi : i < (prettyCs env.dp signed n k).length) :
    isSym env ((prettyCs env.dp signed n k).getD i 0) = true → i < signed.toNat ∧ (prettyCs env.dp signed n k).getD i 0 = 43 := by
  have hdp := pretty_dp env he
  rw [prettyCs_get env signed n k i hi]
  split
  · intro _; exact ⟨by assumption, rfl⟩
  · split
    · simp [hdp.2.2.1]
    · simp [hdp.2.2.2.2]

theorem pretty_trailing (he : EnvOk env) (i : Nat) (hi : i < (prettyCs env.dp signed n k).length) :
    trailingSym env (prettyCs env.dp signed n k) i = false := by
  unfold trailingSym
  by_cases h : isSym env ((prettyCs env.dp signed n k).getD i 0) = true
  · have := (pretty_place env signed n k he i hi h).1
    have h0 : i = 0 := by cases signed <;> simp_all
    subst h0
    simp [placeBefore]
  · simp only [Bool.not_eq_true] at h
    rw [h, Bool.false_and]

theorem pretty_editPic (he : EnvOk env) : EditPic env (if signed then [43] else []) (prettyCs env.dp signed n k) [] where
  legal := by
    intro c hc
    unfold prettyCs at hc
    obtain ⟨hd, _⟩ := he
    left
    simp only [List.mem_append, List.mem_replicate] at hc
    rcases hc with (hc | hc) | hc
    · cases signed <;> simp_all
    · simp [hc.2]
    · by_cases hk : k = 0
      · simp [hk] at hc
      · rw [if_neg hk] at hc
        simp only [List.mem_cons, List.mem_replicate] at hc
        rcases hc with hc | hc
        · rcases hd with h | h <;> simp [hc, h]
        · simp [hc.2]
  tailOk := Or.inl rfl
  headsOk := by cases signed <;> simp
  headsAre := by
    unfold prettyCs
    rw [List.append_assoc]
    exact List.prefix_append _ _
  floats := by
    intro i hi h _
    obtain ⟨h1, h2⟩ := pretty_place env signed n k he i hi h
    rw [h2]
    cases signed <;> simp_all
  onePoint := by
    intro i hi h
    rw [pretty_point env signed n k he]
    have hdp := pretty_dp env he
    rw [prettyCs_get env signed n k i hi] at h
    split at h
    · exact absurd h.symm hdp.1
    · split at h
      · assumption
      · exact absurd h.symm hdp.2.1
  oneFill := by
    left
    intro hc
    obtain ⟨i, hi, h⟩ := List.getElem_of_mem hc
    have := prettyCs_get env signed n k i hi
    rw [List.getD, List.getElem?_eq_getElem hi, Option.getD_some, h] at this
    obtain ⟨hd, _⟩ := he
    split at this
    · omega
    · split at this <;> omega
  trailEnd := by
    intro i j hij hj h
    rw [pretty_trailing env signed n k he i (by omega)] at h
    exact absurd h (by simp)
  trailTail := fun _ _ _ => rfl
  fracSep := by
    intro i hp hi
    rw [pretty_point env signed n k he] at hp
    rw [prettyCs_get env signed n k i hi, if_neg (by omega), if_neg (by omega)]
    simp

theorem digitAt_whole (m : Nat) (s : Int) (w : Nat) (j : Nat) (hj : (j : Int) = w + s.toNat) :
    digitAt m s w = wholeUnits m s / 10 ^ j % 10 := by
  unfold digitAt wholeUnits
  by_cases h0 : 0 ≤ s
  · rw [if_pos (by omega), show (-s).toNat = 0 by omega, pow_zero, Nat.mul_one]
    congr 3
    omega
  · have hr := rescale_digit m s 0 w
    unfold rescale at hr
    rw [if_pos (by omega)] at hr
    rw [show (0 - s).toNat = (-s).toNat by omega] at hr
    have hjw : j = w := by omega
    rw [hjw, hr]
    by_cases hw : (w : Int) < 0 - s
    · rw [if_pos hw, if_neg (by omega)]
    · rw [if_neg hw, if_pos (by omega)]
      congr 3
      omega

/-- The text of the edited item. -/
theorem pretty_edited (he : EnvOk env) (neg : Bool) (m : Nat) (s : Int) (hk : k = s.toNat) (hn : 0 < n + k) :
    editedText env false (if signed then [43] else []) (prettyCs env.dp signed n k) [] neg m s =
      (if signed then [signChar neg] else []) ++ numberText env.dp n k (wholeUnits m s) := by
  set cs := prettyCs env.dp signed n k with hcs
  have hl := prettyCs_length env signed n k
  rw [← hcs] at hl
  have hdp := pretty_dp env he
  have hget : ∀ i, i < cs.length → cs.getD i 0 = if i < signed.toNat then 43 else if i = signed.toNat + n then env.dp else 57 :=
    fun i hi => prettyCs_get env signed n k i hi
  have hpt : pointPos env cs = signed.toNat + n := pretty_point env signed n k he
  have hhl : (if signed = true then [43] else []).length = signed.toNat := by cases signed <;> rfl
  have h57 : 57 ∈ cs := by
    rw [hcs]
    unfold prettyCs
    by_cases h0 : n = 0
    · simp only [List.mem_append]
      right
      rw [if_neg (by omega)]
      simp
      omega
    · simp [h0]
  have hh0 : 0 < signed.toNat → signed.toNat = 1 := by cases signed <;> simp
  unfold editedText
  simp only [hhl]
  rw [if_neg (by simp [h57]), tailText2, List.append_nil]
  set dig := digitShown env cs signed.toNat m s with hdig
  -- the digits
  have hdigv : ∀ i, i < cs.length → signed.toNat ≤ i → i ≠ signed.toNat + n →
      dig i = wholeUnits m s / 10 ^ (signed.toNat + n + k + (if i < signed.toNat + n then 0 else 1) - (i + 1)) % 10 := by
    intro i hi h1 h2
    rw [hdig]
    unfold digitShown
    rw [if_pos ⟨by rw [hcs, pretty_aligned env signed n k he i hi]; simpa using h2, h1⟩]
    unfold weightAt
    rw [hpt, hcs, pretty_before env signed n k he _ (by rw [← hcs, hl]; omega), if_pos (Nat.le_refl _),
      pretty_before env signed n k he (i + 1) (by rw [← hcs]; omega)]
    by_cases hlt : i < signed.toNat + n
    · rw [if_pos (by omega), if_pos hlt]
      have : ((signed.toNat + n : Nat) : Int) - ((i + 1 : Nat) : Int) = ((signed.toNat + n - (i + 1) : Nat) : Int) := by omega
      rw [this, digitAt_whole m s _ (signed.toNat + n + k + 0 - (i + 1)) (by omega)]
    · rw [if_neg (by omega), if_neg hlt]
      -- a decimal: the scale is positive
      have hk0 : k ≠ 0 := by
        intro h0; rw [if_pos h0] at hl; omega
      have hik : i < signed.toNat + n + (1 + k) := by rw [if_neg hk0] at hl; omega
      unfold digitAt wholeUnits
      rw [if_pos (by omega), show (-s).toNat = 0 by omega, pow_zero, Nat.mul_one]
      congr 3
      omega
  have hbody : ∀ i, i < cs.length → signed.toNat ≤ i → bodyChar env cs dig neg i =
      if i = signed.toNat + n then env.dp else 48 + dig i := by
    intro i hi h1
    unfold bodyChar
    simp only
    have hgi : cs.getD i 0 = if i = signed.toNat + n then env.dp else 57 := by
      rw [hget i hi, if_neg (show ¬ i < signed.toNat by omega)]
    rw [hgi]
    by_cases h2 : i = signed.toNat + n
    · simp only [if_pos h2]
      rw [if_pos (by simp)]
    · simp only [if_neg h2]
      rw [if_neg (by have := hdp.2.1; omega), if_neg (by omega), if_neg (by omega)]
      rw [if_neg (by rw [hcs, pretty_trailing env signed n k he i hi]; simp), if_neg (by simp)]
  have hblank : signed = true → (blankPositions env cs dig).getLastD 0 = 0 := by
    intro hs
    have : ∀ i ∈ blankPositions env cs dig, i = 0 := by
      intro i hi
      unfold blankPositions at hi
      rw [hpt] at hi
      simp only [List.mem_filter, List.mem_range, Bool.and_eq_true] at hi
      obtain ⟨h1, ⟨⟨h2, _⟩, _⟩, _⟩ := hi
      by_contra h0
      unfold leadingZeros at h2
      rw [List.all_eq_true] at h2
      have h3 := h2 1 (by rw [List.mem_range]; omega)
      simp only [Bool.and_eq_true, bne_iff_ne, ne_eq] at h3
      apply h3.1
      have hs1 : signed.toNat = 1 := by rw [hs]; rfl
      rw [hget 1 (by rw [hl]; omega), if_neg (by omega), if_neg (by omega)]
    cases hb : blankPositions env cs dig with
    | nil => rfl
    | cons a t =>
      rw [List.getLastD_eq_getLast?, List.getLast?_eq_getLast_of_ne_nil (by simp), Option.getD_some]
      apply this
      rw [hb]
      exact List.getLast_mem _
  have hmap : ((List.range cs.length).map (bodyChar env cs dig neg)).drop signed.toNat = numberText env.dp n k (wholeUnits m s) := by
    apply List.ext_getElem
    · rw [List.length_drop, List.length_map, List.length_range, hl]
      unfold numberText digitText
      by_cases hk0 : k = 0 <;> simp [hk0, fixedDigits_length] <;> omega
    · intro j h1 h2
      rw [List.length_drop, List.length_map, List.length_range] at h1
      rw [List.getElem_drop, List.getElem_map, List.getElem_range, hbody _ (by omega) (by omega)]
      simp only [numberText, digitText]
      rw [List.getElem_append]
      by_cases hj : j < n
      · rw [dif_pos (by simpa [fixedDigits_length] using hj), if_neg (by omega), List.getElem_map, fixedDigits_getElem,
          hdigv _ (by omega) (by omega) (by omega), if_pos (by omega), Nat.div_div_eq_div_mul, ← pow_add]
        congr 4
        omega
      · rw [dif_neg (by simpa [fixedDigits_length] using hj)]
        have hk0 : k ≠ 0 := by
          intro h0; rw [if_pos h0] at hl; omega
        rw [if_neg hk0] at hl
        simp only [hk0, if_false]
        by_cases hjn : j = n
        · subst hjn
          simp [fixedDigits_length]
        · rw [if_neg (by omega)]
          obtain ⟨i, hi⟩ : ∃ i, j - n = i + 1 := ⟨j - n - 1, by omega⟩
          simp only [List.length_map, fixedDigits_length, hi, List.getElem_cons_succ, List.getElem_map]
          rw [fixedDigits_getElem, hdigv _ (by omega) (by omega) (by omega), if_neg (by omega)]
          congr 4
          omega
  cases hs : signed with
  | false =>
    subst hs
    simp only [Bool.false_eq_true, if_false, List.map_nil, putHeads, List.nil_append]
    simpa using hmap
  | true =>
    rw [hs] at hmap
    simp only [if_true, List.map_cons, List.map_nil, putHeads]
    rw [hblank hs, List.singleton_append, ← hmap]
    have hlen : 0 < ((List.range cs.length).map (bodyChar env cs dig neg)).length := by
      rw [List.length_map, List.length_range, hl, hs]; simp
    have hsym : symText env neg 43 = signChar neg := by
      obtain ⟨_, _, h2⟩ := he
      unfold symText signChar
      rw [if_neg (by intro h; rw [← h] at h2; simp at h2)]
      cases neg <;> simp
    rw [hsym]
    obtain ⟨x, l, hxl⟩ : ∃ x l, (List.range cs.length).map (bodyChar env cs dig neg) = x :: l := by
      cases h : (List.range cs.length).map (bodyChar env cs dig neg) with
      | nil => rw [h] at hlen; simp at hlen
      | cons x l => exact ⟨x, l, rfl⟩
    rw [hxl]
    rfl

end pretty

/-! ### C52 -/

theorem wf_nonempty (it : Item) (hw : WFItem it) : it.field.data.length ≠ 0 := by
  obtain ⟨us, f⟩ := it
  cases us with
  | display => have := hw.2; simp only at this ⊢; split at this <;> omega
  | packed => have := hw.2; simp only at this ⊢; omega
  | binary => have := hw.1; simp only at this ⊢; omega

/-- C52: DISPLAY of a number (the default, `pretty-display`), whatever its USAGE except COMP-5 and the like, writes
the sign if the item has one, the digits before the decimal point, and, if the item has decimals, the decimal
point of the program and the decimals, with the zeros of the PICTURE; provided the value is within the PICTURE. -/
theorem C52_pretty (env : TermEnv) (hp : env.pretty = true) (he : EnvOk env.edit) (real : Bool) (it : Item) (hw : WFItem it)
    (hreal : it.usage = .binary → real = false) (v : Int) (hv : HoldsUnits env.ebc it v)
    (hd : 0 < it.field.attr.digits) (hsc : it.field.attr.scale ≤ it.field.attr.digits)
    (hfit : wholeUnits v.natAbs it.field.attr.scale < 10 ^ it.field.attr.digits) :
    ∃ neg : Bool, (v < 0 → neg = true) ∧ (0 < v → neg = false) ∧
      displayOne env (.num real it) = some (prettyText env.edit.dp it.field.attr neg v.natAbs) := by
  set a := it.field.attr with ha
  set k := a.scale.toNat with hk
  set n := a.digits - k with hn
  have hnk : n + k = a.digits := by omega
  have hexp : expandPic (prettyPic env.edit a) = prettyCs env.edit.dp a.haveSign n k ++ [] := by
    unfold expandPic prettyPic prettyCs
    by_cases h : a.scale > 0
    · have hk0 : k ≠ 0 := by omega
      have : ((a.digits : Int) - a.scale).toNat = n := by omega
      simp only [if_pos h, this, if_neg hk0]
      cases a.haveSign <;> simp [← hk]
    · have hk0 : k = 0 := by omega
      have : n = a.digits := by omega
      simp only [if_neg h, if_pos hk0, this]
      cases a.haveSign <;> simp
  have hfits : ValueFits env.edit (if a.haveSign then [43] else []) (prettyCs env.edit.dp a.haveSign n k) v.natAbs a.scale := by
    refine ⟨?_, ?_⟩
    · intro i hi
      cases hs : a.haveSign with
      | false => rw [hs] at hi; simp at hi
      | true =>
        rw [hs] at hi
        have hi0 : i = 0 := by simpa using hi
        subst hi0
        have hl := prettyCs_length env.edit true n k
        unfold weightAt
        rw [pretty_point env.edit true n k he, pretty_before env.edit true n k he _ (by rw [hl]; omega), if_pos (Nat.le_refl _),
          pretty_before env.edit true n k he _ (by rw [hl]; simp; omega), if_pos (by simp)]
        have : ((true.toNat + n : Nat) : Int) - ((0 + 1 : Nat) : Int) = ((n : Nat) : Int) := by simp
        rw [this, digitAt_whole v.natAbs a.scale n a.digits (by omega), Nat.div_eq_of_lt hfit]
    · rintro ⟨i, hi, h⟩
      rw [pretty_trailing env.edit a.haveSign n k he i hi] at h
      exact absurd h (by simp)
  have hlen := prettyCs_length env.edit a.haveSign n k
  obtain ⟨neg, h1, h2, h3⟩ := C16_move env.ebc env.edit he _ _ _ (pretty_editPic env.edit a.haveSign n k he) it hw v hv hfits false
    (prettyPic env.edit a) hexp
    (List.replicate (a.digits + (if a.haveSign then 1 else 0) + (if a.scale > 0 then 1 else 0)) 0)
    (by
      rw [List.length_replicate, hlen]
      by_cases h : a.scale > 0
      · simp only [if_pos h, if_neg (show ¬ k = 0 by omega)]
        cases a.haveSign <;> simp <;> omega
      · simp only [if_neg h, if_pos (show k = 0 by omega)]
        cases a.haveSign <;> simp <;> omega)
  refine ⟨neg, h1, h2, ?_⟩
  unfold displayOne
  simp only
  rw [if_neg (by
    rintro ⟨hb, h | h⟩
    · rw [hreal hb] at h; exact absurd h (by simp)
    · rw [hp] at h; exact absurd h (by simp)), if_pos hp]
  unfold prettyDisplayNumeric
  simp only
  rw [if_neg (wf_nonempty it hw), ← ha, h3, pretty_edited env.edit a.haveSign n k he neg v.natAbs a.scale hk (by omega)]
  rfl

/-- C52: without `pretty-display` a zoned or packed number is written as its digits, with the sign before or behind them
as in the item (the point is not shown). -/
theorem C52_plain (env : TermEnv) (hp : env.pretty = false) (real : Bool) (it : Item) (hw : WFItem it)
    (hu : it.usage ≠ .binary) (v : Int) (hv : HoldsUnits env.ebc it v) (hd : 0 < it.field.attr.digits) :
    ∃ neg : Bool, (v < 0 → neg = true) ∧ (0 < v → neg = false) ∧
      displayOne env (.num real it) =
        some (plainText it.field.attr.leading it.field.attr.digits it.field.attr.haveSign neg v.natAbs) := by
  obtain ⟨neg, h1, h2, h3⟩ := displayNumeric_text env.ebc it hw v hv hd
  refine ⟨neg, h1, h2, ?_⟩
  unfold displayOne
  simp only
  rw [if_neg (by simp [hu]), if_neg (by simp [hp]), h3]
  have hub : (it.usage == Usage.binary) = false := by
    cases hus : it.usage
    · rfl
    · rfl
    · exact absurd hus hu
  rw [hub, Bool.or_false]

/-- C52: a binary number that is not limited by its PICTURE (COMP-5 and the like, or any binary number without
`pretty-display`) is written in full whatever its bytes: a leading sign if it is signed, and as many digits as its
size can need. -/
theorem C52_binary (env : TermEnv) (real : Bool) (it : Item) (hw : WFItem it) (hu : it.usage = .binary)
    (hr : real = true ∨ env.pretty = false) (v : Int) (hv : HoldsUnits env.ebc it v) :
    v.natAbs < 10 ^ binDigits it.field.data.length ∧
    ∃ neg : Bool, (v < 0 → neg = true) ∧ (0 < v → neg = false) ∧
      displayOne env (.num real it) =
        some (plainText true (binDigits it.field.data.length) it.field.attr.haveSign neg v.natAbs) := by
  obtain ⟨us, f⟩ := it
  obtain ⟨a, data⟩ := f
  simp only at hu
  subst hu
  have hw' : WFBinary ⟨a, data⟩ := hw
  obtain ⟨hw1, hw2, hw3⟩ := hw'
  simp only at hw1 hw2 hw3 ⊢
  have hpos : 0 < binDigits data.length := by
    interval_cases data.length <;> decide
  refine ⟨?_, ?_⟩
  · have hb : binaryHolds ⟨a, data⟩ v := hv
    unfold binaryHolds at hb
    simp only at hb
    have hlt : bytesVal a.swap data < 2 ^ (8 * data.length) := bytesVal_lt a.swap data hw3
    have hlt2 : v.natAbs < 2 ^ (8 * data.length) := by
      have hlt3 : (bytesVal a.swap data : Int) < 2 ^ (8 * data.length) := by exact_mod_cast hlt
      have hgoal : (v.natAbs : Int) < 2 ^ (8 * data.length) := by
        split at hb
        · split at hb <;> omega
        · omega
      exact_mod_cast hgoal
    refine Nat.lt_of_lt_of_le hlt2 ?_
    interval_cases data.length <;> decide
  · obtain ⟨neg, h1, h2, h3⟩ := displayNumeric_text env.ebc ⟨.binary, ⟨{ a with digits := binDigits data.length }, data⟩⟩ hw v hv hpos
    refine ⟨neg, h1, h2, ?_⟩
    unfold displayOne
    simp only
    rw [if_pos ⟨trivial, hr⟩, h3]
    simp

/-- C52: and no more digits than that: one digit less could not show every number of that size. -/
theorem C52_binary_width (size : Nat) (h1 : 1 ≤ size) (h8 : size ≤ 8) :
    2 ^ (8 * size) ≤ 10 ^ binDigits size ∧ ∀ k, 2 ^ (8 * size) ≤ 10 ^ k → binDigits size ≤ k := by
  refine ⟨by interval_cases size <;> decide, fun k hk => ?_⟩
  by_contra hc
  have h2 : 10 ^ k ≤ 10 ^ (binDigits size - 1) := Nat.pow_le_pow_right (by decide) (by omega)
  have h3 : 10 ^ (binDigits size - 1) < 2 ^ (8 * size) := by interval_cases size <;> decide
  omega

/-- C52: text, groups and edited items are written byte for byte. -/
theorem C52_text (env : TermEnv) (bytes : List Nat) : displayOne env (.text bytes) = some bytes := rfl

/-- C52: the operands are written in order without anything between them, and a newline at the end unless NO
ADVANCING is said. -/
theorem C52_statement (env : TermEnv) (newline : Bool) (ops : List TermOperand) (texts : List (List Nat))
    (h : List.Forall₂ (fun op t => displayOne env op = some t) ops texts) :
    cobDisplay env newline ops = some (texts.flatten ++ if newline then [10] else []) := by
  have : ops.mapM (displayOne env) = some texts := by
    induction h with
    | nil => rfl
    | cons h1 _ ih => simp [h1, ih]
  unfold cobDisplay
  rw [this]
  rfl

theorem digitText_inj (n m m' : Nat) (h : m < 10 ^ n) (h' : m' < 10 ^ n) (he : digitText n m = digitText n m') : m = m' := by
  have h1 : fixedDigits n m = fixedDigits n m' := by
    unfold digitText at he
    exact List.map_injective_iff.mpr (fun a b hab => by simpa using hab) he
  have h2 : ∀ x, x < 10 ^ n → digitsVal (fixedDigits n x) = x := fun x hx => by
    rw [digitsVal_fixedDigits, Nat.mod_eq_of_lt hx]
  rw [← h2 m h, ← h2 m' h', h1]

/-- The number shown, read back from the text. -/
theorem numberText_inj (dp n k m m' : Nat) (h : m < 10 ^ (n + k)) (h' : m' < 10 ^ (n + k))
    (he : numberText dp n k m = numberText dp n k m') : m = m' := by
  unfold numberText at he
  have hl : (digitText n (m / 10 ^ k)).length = (digitText n (m' / 10 ^ k)).length := by
    simp [digitText, fixedDigits_length]
  obtain ⟨h1, h2⟩ := List.append_inj he hl
  have hq : ∀ x, x < 10 ^ (n + k) → x / 10 ^ k < 10 ^ n := fun x hx => by
    rw [Nat.div_lt_iff_lt_mul (by positivity), ← pow_add]; exact hx
  have e1 := digitText_inj n _ _ (hq m h) (hq m' h') h1
  by_cases hk : k = 0
  · subst hk; simpa using e1
  · rw [if_neg hk, if_neg hk] at h2
    have h3 : digitText k (m % 10 ^ k) = digitText k (m' % 10 ^ k) := by
      unfold digitText
      rw [fixedDigits_mod, fixedDigits_mod]
      exact (List.cons.inj h2).2
    have e2 := digitText_inj k _ _ (Nat.mod_lt _ (by positivity)) (Nat.mod_lt _ (by positivity)) h3
    rw [← Nat.div_add_mod m (10 ^ k), ← Nat.div_add_mod m' (10 ^ k), e1, e2]

/-- C52: what is written tells the value: two items with the same PICTURE for which DISPLAY writes the same text
hold the same number. -/
theorem C52_distinct (env : TermEnv) (hp : env.pretty = true) (he : EnvOk env.edit) (it it' : Item) (hw : WFItem it) (hw' : WFItem it')
    (ha : it'.field.attr = it.field.attr) (v v' : Int) (hv : HoldsUnits env.ebc it v) (hv' : HoldsUnits env.ebc it' v')
    (hd : 0 < it.field.attr.digits) (hsc : it.field.attr.scale ≤ it.field.attr.digits)
    (hs : it.field.attr.haveSign = false → 0 ≤ v ∧ 0 ≤ v')
    (hf : wholeUnits v.natAbs it.field.attr.scale < 10 ^ it.field.attr.digits)
    (hf' : wholeUnits v'.natAbs it.field.attr.scale < 10 ^ it.field.attr.digits)
    (heq : displayOne env (.num false it) = displayOne env (.num false it')) : v = v' := by
  obtain ⟨neg, h1, h2, h3⟩ := C52_pretty env hp he false it hw (fun _ => rfl) v hv hd hsc hf
  obtain ⟨neg', h1', h2', h3'⟩ := C52_pretty env hp he false it' hw' (fun _ => rfl) v' hv' (by rw [ha]; exact hd) (by rw [ha]; exact hsc)
    (by rw [ha]; exact hf')
  rw [h3, h3', ha] at heq
  have heq := Option.some.inj heq
  unfold prettyText at heq
  set a := it.field.attr
  have hnk : a.digits - a.scale.toNat + a.scale.toNat = a.digits := by omega
  have hm : ∀ h : numberText env.edit.dp (a.digits - a.scale.toNat) a.scale.toNat (wholeUnits v.natAbs a.scale) =
      numberText env.edit.dp (a.digits - a.scale.toNat) a.scale.toNat (wholeUnits v'.natAbs a.scale), v.natAbs = v'.natAbs := by
    intro h
    have := numberText_inj _ _ _ _ _ (by rw [hnk]; exact hf) (by rw [hnk]; exact hf') h
    unfold wholeUnits at this
    exact Nat.eq_of_mul_eq_mul_right (by positivity) this
  cases hsg : a.haveSign with
  | false =>
    simp only [hsg, Bool.false_eq_true, if_false, List.nil_append] at heq
    have := hm heq
    have := hs hsg
    omega
  | true =>
    simp only [hsg, if_true, List.singleton_append] at heq
    obtain ⟨e1, e2⟩ := List.cons.inj heq
    have e3 := hm e2
    have e4 : neg = neg' := by
      unfold signChar at e1
      cases neg <;> cases neg' <;> simp at e1 ⊢
    rcases Int.natAbs_eq_natAbs_iff.mp e3 with h | h
    · exact h
    · subst e4
      rcases Int.lt_trichotomy v 0 with hneg | hz | hpos
      · have hx := h1 hneg
        have hy := h2' (by omega)
        rw [hx] at hy
        exact absurd hy (by simp)
      · omega
      · have hx := h2 hpos
        have hy := h1' (by omega)
        rw [hx] at hy
        exact absurd hy (by simp)

/-- PIC S9(3)V99 holding -12.5; COMP-3; and PIC 9(2) written as the first of two operands. -/
example : displayOne {} (.num false ⟨.display, ⟨{ digits := 5, scale := 2, haveSign := true }, codes "0125p"⟩⟩) = some (codes "-012.50") ∧
    displayOne { edit := { dp := 44 } } (.num false ⟨.packed, ⟨{ digits := 3, scale := 1 }, [0x12, 0x3F]⟩⟩) = some (codes "12,3") ∧
    displayOne { pretty := false } (.num false ⟨.display, ⟨{ digits := 5, scale := 2, haveSign := true }, codes "0125p"⟩⟩) =
      some (codes "01250-") ∧
    displayOne {} (.num true ⟨.binary, ⟨{ digits := 4, haveSign := true }, [0xFF, 0xFF]⟩⟩) = some (codes "-00001") ∧
    displayOne {} (.num false ⟨.display, ⟨{ digits := 3, scale := -2 }, codes "7"⟩⟩) = some (codes "700") ∧
    cobDisplay {} true [.num false ⟨.display, ⟨{ digits := 2 }, codes "07"⟩⟩, .text (codes "ab")] = some (codes "07ab\n") := by
  decide +kernel

/-- The hypotheses of C52_pretty are met by the first of these items. -/
example : HoldsUnits false ⟨.display, ⟨{ digits := 5, scale := 2, haveSign := true }, codes "0125p"⟩⟩ (-1250) ∧
    wholeUnits (-1250 : Int).natAbs 2 < 10 ^ 5 ∧ EnvOk {} ∧
    prettyText 46 { digits := 5, scale := 2, haveSign := true } true 1250 = codes "-012.50" :=
  ⟨⟨true, [0, 1, 2, 5, 0], by decide +kernel, by decide, by decide, by decide⟩, by decide, envOk_default, by decide +kernel⟩

/-- Finding: a binary item that holds more than its PICTURE (possible with `binary-truncate: no`, or by a group MOVE) is
written without its high-order digits: PIC 9(2) COMP holding 255. -/
theorem C52_finding_cut :
    displayOne {} (.num false ⟨.binary, ⟨{ digits := 2, swap := true }, [0xFF]⟩⟩) = some (codes "55") ∧
    displayOne { pretty := false } (.num false ⟨.binary, ⟨{ digits := 2, swap := true }, [0xFF]⟩⟩) = some (codes "255") := by
  decide +kernel

/-- Finding: a decimal point is never shown for COMP-5 items: PIC 9(2)V99 COMP-5 holding 12.34 is written 01234. -/
theorem C52_finding_comp5_point :
    displayOne {} (.num true ⟨.binary, ⟨{ digits := 4, scale := 2 }, [0xD2, 0x04]⟩⟩) = some (codes "01234") := by
  decide +kernel

/-- Finding: a zero that carries a minus sign is written with it. -/
theorem C52_finding_minus_zero :
    displayOne {} (.num false ⟨.display, ⟨{ digits := 2, haveSign := true }, codes "0p"⟩⟩) = some (codes "-00") := by
  decide +kernel

end Cob
