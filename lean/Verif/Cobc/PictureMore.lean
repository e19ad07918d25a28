import Verif.Cobc.PictureAccept
import Verif.Move.EditedExamples
/-
C43: from the PICTURE string to the edited text; storage sizes; the PICTUREs the compiler takes for something else.
-/
namespace Cob

/-- **C43** A proper PICTURE without 'V': what the runtime gets is the expansion, CR and DB as one symbol; the item has
one byte for each character of the expansion. -/
theorem C43_runtime_picture (env : EditEnv) (he : PicEnvOk env) (lim : PicLimits) (str cs tail : List Nat)
    (hg : GoodPic env lim.alpha lim.sjis str cs tail) (hlen : (cs ++ tail).length < 536870912)
    (hV : 86 ∉ cs) (hS : 83 ∉ cs) (hN : 78 ∉ cs) :
    ∃ p, buildPicture env lim str = some p ∧ p.cat.toClass = picClass (cs ++ tail) ∧ p.size = (cs ++ tail).length ∧
      expandPic (p.str.map fun q => (q.1, q.2.toNat)) = cs ++ tail.take 1 := by
  have hcur : ∀ d ∈ [0, 40, 41, 42, 43, 44, 45, 46, 47, 48, 57, 65, 66, 67, 68, 78, 80, 82, 83, 86, 88, 90], ¬ d = env.cur :=
    fun d hd hh => he.2 (hh ▸ hd)
  obtain ⟨p, hp⟩ := C43_accepts env he lim str cs tail hg hlen
  have hcs : ∀ d ∈ cs, d ≠ 67 ∧ d ≠ 68 ∧ d ≠ 82 ∧ d ≠ 80 := by
    intro d hd
    rcases hg.syms d hd with h | h
    · refine ⟨?_, ?_, ?_, ?_⟩ <;> (rintro rfl; simp at h)
    · refine ⟨?_, ?_, ?_, ?_⟩ <;> (intro h2; rw [h] at h2)
      · exact hcur 67 (by simp) h2.symm
      · exact hcur 68 (by simp) h2.symm
      · exact hcur 82 (by simp) h2.symm
      · exact hcur 80 (by simp) h2.symm
  have n67 : 67 ∉ cs := fun h => (hcs _ h).1 rfl
  have n68 : 68 ∉ cs := fun h => (hcs _ h).2.1 rfl
  have n82 : 82 ∉ cs := fun h => (hcs _ h).2.2.1 rfl
  have n80 : 80 ∉ cs := fun h => (hcs _ h).2.2.2 rfl
  have ht : tail = [] ∨ tail = [67, 82] ∨ tail = [68, 66] := by
    rcases hg.ending with h | ⟨h | h, _⟩
    · exact Or.inl h
    · exact Or.inr (Or.inl h)
    · exact Or.inr (Or.inr h)
  have c67 : (cs ++ tail).count 67 ≤ 1 := by
    rw [List.count_append, List.count_eq_zero.2 n67]
    rcases ht with h | h | h <;> rw [h] <;> decide
  have c68 : (cs ++ tail).count 68 ≤ 1 := by
    rw [List.count_append, List.count_eq_zero.2 n68]
    rcases ht with h | h | h <;> rw [h] <;> decide
  have hD : 68 ∈ cs ++ tail → [68, 66] <:+ str := by
    intro h
    rw [List.mem_append] at h
    rcases h with h | h
    · exact absurd h n68
    · rcases hg.ending with h2 | ⟨h2 | h2, h3⟩
      · rw [h2] at h; simp at h
      · rw [h2] at h; simp at h
      · rw [h2] at h3; exact h3
  obtain ⟨v1, _, _, _, v5⟩ := C43_values env he lim str p hp _ hg.expands hlen c67 c68 hD
  have hcl := C43_category env he lim str p hp _ hg.expands hlen hD
  refine ⟨p, hp, hcl, ?_, ?_⟩
  · rw [v1]
    have hne : decide (p.cat = .nationalEdited) = false := by
      rw [decide_eq_false_iff_not]
      intro h
      rw [h] at hcl
      have hcl : PicClass.nationalEdited = picClass (cs ++ tail) := hcl
      unfold picClass at hcl
      have h78 : ¬ (List.contains (cs ++ tail) 78 = true) := by
        rw [List.contains_iff_mem, List.mem_append]
        rintro (h | h)
        · exact hN h
        · rcases ht with h2 | h2 | h2 <;> rw [h2] at h <;> simp at h
      rw [if_neg h78] at hcl
      repeat' split at hcl
      all_goals exact absurd hcl (by simp)
    rw [hne]
    unfold picSize
    have h1 : (cs ++ tail).countP (fun c => c != 83 && c != 86 && c != 80) = (cs ++ tail).length := by
      rw [List.countP_eq_length]
      intro x hx
      rw [List.mem_append] at hx
      rcases hx with hx | hx
      · have : x ≠ 83 ∧ x ≠ 86 ∧ x ≠ 80 := ⟨fun h => hS (h ▸ hx), fun h => hV (h ▸ hx), fun h => n80 (h ▸ hx)⟩
        simp [this]
      · rcases ht with h | h | h <;> rw [h] at hx <;> simp at hx
        · rcases hx with rfl | rfl <;> decide
        · rcases hx with rfl | rfl <;> decide
    have h2 : (cs ++ tail).count 78 = 0 := by
      rw [List.count_eq_zero, List.mem_append]
      rintro (h | h)
      · exact hN h
      · rcases ht with h2 | h2 | h2 <;> rw [h2] at h <;> simp at h
    rw [h1, h2]
    simp
  · rw [v5]
    have hnoS : ∀ l : List Nat, 83 ∉ l → picNoS l = l := by
      intro l hl
      unfold picNoS
      rw [List.filter_eq_self]
      intro x hx
      simp only [bne_iff_ne, ne_eq]
      exact fun h => hl (h ▸ hx)
    unfold picBody
    rcases ht with h | h | h
    · subst h
      rw [List.append_nil, if_neg, hnoS _ hS]
      · simp
      · rintro (h | h)
        · exact n67 (h.subset (by simp))
        · exact n68 (h.subset (by simp))
    · subst h
      rw [if_pos (Or.inl (List.suffix_append _ _)), show cs ++ [67, 82] = (cs ++ [67]) ++ [82] by simp, List.dropLast_concat,
        hnoS _ (by simp [hS])]
      rfl
    · subst h
      rw [if_pos (Or.inr (List.suffix_append _ _)), show cs ++ [68, 66] = (cs ++ [68]) ++ [66] by simp, List.dropLast_concat,
        hnoS _ (by simp [hS])]
      rfl

/-- **C43** From the PICTURE string to the text: the compiler accepts a proper numeric-edited PICTURE, and a number moved at
run time to the item it describes leaves there the text that the PICTURE means (C16). -/
theorem C43_edited_move (ebc : Bool) (env : EditEnv) (he : PicEnvOk env) (he2 : EnvOk env) (lim : PicLimits)
    (str heads cs tail : List Nat) (hg : GoodPic env lim.alpha lim.sjis str cs tail) (hlen : (cs ++ tail).length < 536870912)
    (hp : EditPic env heads cs (tail.take 1)) (blankZero : Bool) :
    ∃ p, buildPicture env lim str = some p ∧ p.size = (cs ++ tail).length ∧
      ∀ (src : Item) (v : Int), WFItem src → HoldsUnits ebc src v →
        ValueFits env heads cs v.natAbs src.field.attr.scale → ∀ old : List Nat, (old.length : Int) = p.size →
        ∃ neg : Bool, (v < 0 → neg = true) ∧ (0 < v → neg = false) ∧
          cobMoveEdited ebc env blankZero (p.str.map fun q => (q.1, q.2.toNat)) src old =
            some (editedText env blankZero heads cs (tail.take 1) neg v.natAbs src.field.attr.scale) := by
  have hcur : ∀ d ∈ [0, 40, 41, 42, 43, 44, 45, 46, 47, 48, 57, 65, 66, 67, 68, 78, 80, 82, 83, 86, 88, 90], ¬ d = env.cur :=
    fun d hd hh => he.2 (hh ▸ hd)
  have hn : ∀ d ∈ [86, 83, 78], d ∉ cs := by
    intro d hd hh
    rcases hp.legal d hh with h | h
    · simp only [List.mem_cons, List.not_mem_nil, or_false] at hd h
      omega
    · refine hcur d ?_ h
      simp only [List.mem_cons, List.not_mem_nil, or_false] at hd ⊢
      omega
  obtain ⟨p, h1, _, h3, h4⟩ := C43_runtime_picture env he lim str cs tail hg hlen (hn 86 (by simp)) (hn 83 (by simp)) (hn 78 (by simp))
  refine ⟨p, h1, h3, ?_⟩
  intro src v hw hv hf old hold
  refine C16_move ebc env he2 heads cs (tail.take 1) hp src hw v hv hf blankZero _ h4 old ?_
  rw [h3] at hold
  have : tail.length = 2 * (tail.take 1).length := by
    rcases hg.ending with h | ⟨h | h, _⟩ <;> rw [h] <;> rfl
  rw [List.length_append] at hold
  omega

/-! ### Storage sizes -/

/-- **C43** A binary item has room for every number of its digits, whatever the configuration. -/
theorem C43_binary_room (cfg : BinarySize) (real sepSign numeric haveSign : Bool) (n s : Nat)
    (h : elemSize cfg real sepSign .binary n numeric haveSign = some s) :
    (10 ^ n - 1 < 2 ^ (8 * s)) ∧ (haveSign = true → 10 ^ n - 1 < 2 ^ (8 * s - 1)) := by
  have hn : n ≤ 18 := by
    unfold elemSize at h
    simp only at h
    split at h
    · exact absurd h (by simp)
    · omega
  have key : ∀ n ≤ 18, ∀ real haveSign sepSign numeric : Bool, ∀ cfg ∈ [BinarySize.s248, .s1248, .s1to8],
      ((elemSize cfg real sepSign .binary n numeric haveSign).all
        fun s => decide (10 ^ n - 1 < 2 ^ (8 * s)) && (!haveSign || decide (10 ^ n - 1 < 2 ^ (8 * s - 1)))) = true := by
    decide +kernel
  have hk := key n hn real haveSign sepSign numeric cfg (by cases cfg <;> simp)
  rw [h] at hk
  simp only [Option.all_some, Bool.and_eq_true, Bool.or_eq_true, decide_eq_true_eq, Bool.not_eq_true'] at hk
  refine ⟨hk.1, fun hs => ?_⟩
  rcases hk.2 with h2 | h2
  · rw [hs] at h2; exact absurd h2 (by simp)
  · exact h2

/-- **C43** An unsigned COMP-X item of at most 18 digits has room for every number of its digits. -/
theorem C43_compx_room (cfg : BinarySize) (real sepSign numeric haveSign : Bool) (n s : Nat) (hn : n ≤ 18)
    (h : elemSize cfg real sepSign .compX n numeric haveSign = some s) : 10 ^ n - 1 < 2 ^ (8 * s) := by
  have key : ∀ n ≤ 18, ((elemSize .s248 false false .compX n false false).all fun s => decide (10 ^ n - 1 < 2 ^ (8 * s))) = true := by
    decide +kernel
  have hk := key n hn
  have he : elemSize .s248 false false .compX n false false = elemSize cfg real sepSign .compX n numeric haveSign := rfl
  rw [he, h] at hk
  simpa using hk

/-- The sizes in bytes the configuration option `binary-size` allows. -/
def allowedSizes (cfg : BinarySize) (real : Bool) : List Nat :=
  match cfg with
  | .s248 => if real then [1, 2, 4, 8] else [2, 4, 8]
  | .s1248 => [1, 2, 4, 8]
  | .s1to8 => [1, 2, 3, 4, 5, 6, 7, 8]

/-- **C43** A binary item is no larger than needed: its size is the least of the sizes allowed by
the configuration that have room for its digits. -/
theorem C43_binary_least (cfg : BinarySize) (real sepSign numeric haveSign : Bool) (n : Nat) (hn : n ≤ 18) :
    ∃ s, elemSize cfg real sepSign .binary n numeric haveSign = some s ∧ s ∈ allowedSizes cfg real ∧
      ∀ k ∈ allowedSizes cfg real, 10 ^ n - 1 < 2 ^ (8 * k - if haveSign then 1 else 0) → s ≤ k := by
  have key : ∀ n ≤ 18, ∀ real haveSign sepSign numeric : Bool, ∀ cfg ∈ [BinarySize.s248, .s1248, .s1to8],
      ((elemSize cfg real sepSign .binary n numeric haveSign).isSome &&
       (elemSize cfg real sepSign .binary n numeric haveSign).all
        fun s => decide (s ∈ allowedSizes cfg real) && (allowedSizes cfg real).all fun k =>
          decide (10 ^ n - 1 < 2 ^ (8 * k - if haveSign then 1 else 0) → s ≤ k)) = true := by
    decide +kernel
  have hk := key n hn real haveSign sepSign numeric cfg (by cases cfg <;> simp)
  simp only [Bool.and_eq_true, Option.isSome_iff_exists] at hk
  obtain ⟨⟨s, hs⟩, hk⟩ := hk
  rw [hs] at hk
  simp only [Option.all_some, Bool.and_eq_true, decide_eq_true_eq, List.all_eq_true] at hk
  exact ⟨s, hs, hk.1, hk.2⟩

/-- **C43** An unsigned COMP-X item of at most 18 digits has the least number of bytes with room. -/
theorem C43_compx_least (cfg : BinarySize) (real sepSign numeric haveSign : Bool) (n k : Nat) (hn : n ≤ 18) (hk1 : 1 ≤ k)
    (hk : 10 ^ n - 1 < 2 ^ (8 * k)) :
    ∃ s, elemSize cfg real sepSign .compX n numeric haveSign = some s ∧ s ≤ k := by
  have key : ∀ n ≤ 18, ∃ s, elemSize .s248 false false .compX n false false = some s ∧ 1 ≤ s ∧ (s = 1 ∨ 2 ^ (8 * (s - 1)) ≤ 10 ^ n - 1) := by
    intro n hn
    have : ∀ n ≤ 18, ((elemSize .s248 false false .compX n false false).isSome &&
      (elemSize .s248 false false .compX n false false).all fun s => decide (1 ≤ s ∧ (s = 1 ∨ 2 ^ (8 * (s - 1)) ≤ 10 ^ n - 1))) = true := by
      decide +kernel
    have h := this n hn
    simp only [Bool.and_eq_true, Option.isSome_iff_exists] at h
    obtain ⟨⟨s, hs⟩, h⟩ := h
    rw [hs] at h
    simp only [Option.all_some, decide_eq_true_eq] at h
    exact ⟨s, hs, h⟩
  obtain ⟨s, hs, h1, h2⟩ := key n hn
  have he : elemSize .s248 false false .compX n false false = elemSize cfg real sepSign .compX n numeric haveSign := rfl
  refine ⟨s, he ▸ hs, ?_⟩
  rcases h2 with h2 | h2
  · omega
  · by_contra hlt
    have : 2 ^ (8 * k) ≤ 2 ^ (8 * (s - 1)) := Nat.pow_le_pow_right (by omega) (by omega)
    omega

example : elemSize .s1to8 false false .binary 7 true true = some 4 := rfl

/-- **C43** A COMP-3 item has a nibble for each digit and one for the sign, and no byte too many; a DISPLAY item has a byte
for each digit and one for a separate sign. -/
theorem C43_decimal_room (cfg : BinarySize) (real sepSign numeric haveSign : Bool) (n : Nat) :
    (∃ s, elemSize cfg real sepSign .packed n numeric haveSign = some s ∧ n + 1 ≤ 2 * s ∧ 2 * s ≤ n + 2) ∧
    elemSize cfg real sepSign .display n numeric haveSign =
      some (n + if numeric = true ∧ haveSign = true ∧ sepSign = true then 1 else 0) := by
  refine ⟨⟨n / 2 + 1, rfl, by omega, by omega⟩, ?_⟩
  unfold elemSize
  simp only
  split <;> rfl

/-- **C43** (finding) A signed COMP-X item gets the size of an unsigned one: `S9(7)` has 3 bytes, and 9999999 is not a signed
number of 3 bytes. -/
theorem C43_compx_signed_no_room : ∃ s, elemSize .s248 false false .compX 7 true true = some s ∧ ¬ (10 ^ 7 - 1 < 2 ^ (8 * s - 1)) :=
  ⟨3, rfl, by decide⟩

/-! ### PICTUREs that are not what they say -/

/-- **C43** (finding) A repetition factor too large to be counted is marked by -1, but another symbol of the same kind after
it counts on from there: the item is accepted with one byte. -/
theorem C43_overflow_mark_lost :
    ∃ p, buildPicture {} {} (codes "X(9999999999)XX") = some p ∧ p.size = 1 ∧ p.cat = .alphanumeric :=
  ⟨⟨1, 0, 0, 0, .alphanumeric, [(88, 1)]⟩, by decide +kernel, rfl, rfl⟩

/-- **C43** (finding) For numeric items the mark is not looked at: a size of -1 byte and 255 digits. -/
theorem C43_overflow_numeric :
    ∃ p, buildPicture {} {} (codes "9(9999999999)") = some p ∧ p.size = -1 ∧ p.digits = 255 :=
  ⟨⟨-1, 255, 0, 0, .numeric, [(57, -1)]⟩, by decide +kernel, rfl, rfl⟩

/-- **C43** (finding) The sum of the digits overflows: 4294967294 digits are accepted as -2 bytes. -/
theorem C43_overflow_sum :
    ∃ p, buildPicture {} {} (codes "9(2147483647)V9(2147483647)") = some p ∧ p.size = -2 ∧ p.cat = .numeric :=
  ⟨⟨-2, 254, -1, 0, .numeric, [(57, 2147483647), (86, 1), (57, 2147483647)]⟩, by decide +kernel, rfl, rfl⟩

/-- **C43** (finding) The scale of a numeric-edited item with more than 127 decimals is negative. -/
theorem C43_scale_wraps : ∃ p, buildPicture {} {} (codes "9.9(140)") = some p ∧ p.scale = -116 :=
  ⟨⟨142, 141, -116, 0, .numericEdited, [(57, 1), (46, 1), (57, 140)]⟩, by decide +kernel, rfl⟩

/-- **C43** (finding) The floating signs after the decimal point are counted as digits but not as decimals. -/
theorem C43_float_no_decimals :
    ∃ p, buildPicture {} {} (codes "++.++") = some p ∧ p.digits = 3 ∧ p.scale = 0 :=
  ⟨⟨5, 3, 0, 2, .numericEdited, [(43, 2), (46, 1), (43, 2)]⟩, by decide +kernel, rfl, rfl⟩

/-- **C43** (finding) `9CCR` is accepted, with two bytes for each 'C'. -/
theorem C43_double_c : ∃ p, buildPicture {} {} (codes "9CCR") = some p ∧ p.size = 5 ∧ p.str = [(57, 1), (67, 2)] :=
  ⟨⟨5, 1, 0, 1, .numericEdited, [(57, 1), (67, 2)]⟩, by decide +kernel, rfl, rfl⟩

/-- **C43** (finding) `D(1)B` makes the item alphanumeric edited, `DB` numeric edited. -/
theorem C43_db_factor :
    (∃ p, buildPicture {} {} (codes "D(1)B") = some p ∧ p.cat = .alphanumericEdited) ∧
    (∃ p, buildPicture {} {} (codes "DB") = some p ∧ p.cat = .numericEdited) :=
  ⟨⟨⟨2, 0, 0, 1, .alphanumericEdited, [(68, 1)]⟩, by decide +kernel, rfl⟩,
   ⟨⟨2, 0, 0, 1, .numericEdited, [(68, 1)]⟩, by decide +kernel, rfl⟩⟩

/-- **C43** (finding) `PIC S` is accepted, an item of no bytes. -/
theorem C43_only_sign : ∃ p, buildPicture {} {} (codes "S") = some p ∧ p.size = 0 ∧ p.str = [] :=
  ⟨⟨0, 0, 0, 1, .numeric, []⟩, by decide +kernel, rfl, rfl⟩

/-- **C43** (finding) `PPV99` is rejected (the 'P's count as a decimal point), `PP99` and `VPP99` are not. -/
theorem C43_p_then_v :
    buildPicture {} {} (codes "PPV99") = none ∧ (buildPicture {} {} (codes "PP99")).isSome = true ∧
    (buildPicture {} {} (codes "VPP99")).isSome = true := by
  decide +kernel

/-! ### The hypotheses are met -/

theorem picEnvOk_default : PicEnvOk {} := by
  unfold PicEnvOk
  decide

/-- `$(2),$$9.9(2)CR` is a proper PICTURE. -/
theorem good_money : GoodPic {} 2147483647 1073741823 (codes "$(2),$$9.9(2)CR") (codes "$$,$$9.99") [67, 82] where
  short := by decide
  expands := by decide +kernel
  syms := by decide
  ending := Or.inr ⟨Or.inl rfl, ⟨codes "$(2),$$9.9(2)", by decide⟩⟩
  sign := by intro h; exact absurd h (by decide)
  letters := by intro h; exact absurd h (by decide)
  national := by intro h; exact absurd h (by decide)
  point := by decide
  nonempty := ⟨36, by decide⟩
  within := by
    have h : picClass (codes "$$,$$9.99" ++ [67, 82]) = .numericEdited := by decide
    unfold picWithin
    rw [h]
    decide

/-- `S9(5)V9(02)` is one. -/
theorem good_number : GoodPic {} 2147483647 1073741823 (codes "S9(5)V9(02)") (codes "S99999V99") [] where
  short := by decide
  expands := by decide +kernel
  syms := by decide
  ending := Or.inl rfl
  sign := by
    intro _
    exact ⟨rfl, codes "99999V99", by decide, by decide⟩
  letters := by intro h; exact absurd h (by decide)
  national := by intro h; exact absurd h (by decide)
  point := by decide
  nonempty := ⟨57, by decide⟩
  within := by
    have h : picClass (codes "S99999V99" ++ []) = .numeric := by decide
    unfold picWithin
    rw [h]
    decide

/-- What the specification says of it: 7 bytes, 7 digits, 2 of them decimals. -/
example : picSize false (codes "S99999V99") = 7 ∧ picSigned (codes "S99999V99") = true ∧ picDigits {} (codes "S99999V99") = 7 ∧
    picScale {} (codes "S99999V99") = 2 ∧ picClass (codes "S99999V99") = .numeric ∧ picScale {} (codes "VPP99") = 4 ∧
    picScale {} (codes "99PPP") = -3 ∧ picScale {} (codes "PPP99") = 5 := by decide +kernel

example : ∃ p, buildPicture {} {} (codes "S9(5)V9(02)") = some p ∧ p.size = 7 ∧ p.digits = 7 ∧ p.scale = 2 ∧ p.cat = .numeric := by
  obtain ⟨p, hp⟩ := C43_accepts {} picEnvOk_default {} _ _ _ good_number (by decide)
  obtain ⟨v1, _, v3, v4, _⟩ := C43_values {} picEnvOk_default {} _ p hp _ good_number.expands (by decide) (by decide) (by decide)
    (by intro h; exact absurd h (by decide))
  have hc := C43_category {} picEnvOk_default {} _ p hp _ good_number.expands (by decide) (by intro h; exact absurd h (by decide))
  have hcat : p.cat = .numeric := by
    have h2 : picClass (codes "S99999V99" ++ []) = .numeric := by decide
    rw [h2] at hc
    cases h : p.cat <;> rw [h] at hc <;> first | rfl | exact absurd hc (by decide)
  refine ⟨p, hp, ?_, ?_, ?_, hcat⟩
  · rw [v1, hcat]; decide
  · rw [v3 (Or.inl hcat)]; decide
  · rw [v4 (Or.inl hcat)]; decide

/-- -1234.56 in a COMP-3 item, moved to an item with the PICTURE `$(2),$$9.9(2)CR`. -/
example : ∃ p, buildPicture {} {} (codes "$(2),$$9.9(2)CR") = some p ∧ p.size = 11 ∧
    cobMoveEdited false {} false (p.str.map fun q => (q.1, q.2.toNat)) srcMoney (List.replicate 11 0) = some (codes "$1,234.56CR") := by
  refine ⟨⟨11, 6, 2, 1, .numericEdited, [(36, 2), (44, 1), (36, 2), (57, 1), (46, 1), (57, 2), (67, 1)]⟩, ?_, rfl, ?_⟩ <;> decide +kernel

end Cob
