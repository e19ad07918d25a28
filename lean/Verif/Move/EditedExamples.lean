import Verif.Move.EditedProps
/-
C16: concrete PICTUREs that satisfy the hypotheses of the theorems, what the specification says of well-known cases, and
the cases in which the runtime does not do what the PICTURE says.
-/
namespace Cob

/-- The codes of a text. -/
def codes (s : String) : List Nat := s.toList.map Char.toNat

/-- The bounded form of the two conditions of `EditPic` on pairs of positions. -/
theorem edit_pairs (n : Nat) (P : Nat → Nat → Prop) (h : ∀ j < n, ∀ i < j, P i j) : ∀ i j, i < j → j < n → P i j :=
  fun i j h1 h2 => h j h2 i h1

/-- `$$,$$9.99CR`. -/
def picMoney : List (Nat × Nat) := [(36, 2), (44, 1), (36, 2), (57, 1), (46, 1), (57, 2), (67, 1)]

theorem envOk_default : EnvOk {} := by
  unfold EnvOk
  decide

theorem editPic_money : EditPic {} [36] (codes "$$,$$9.99") [67] where
  legal := by decide
  tailOk := by decide
  headsOk := by decide
  headsAre := by decide
  floats := by decide
  onePoint := by decide
  oneFill := by decide
  trailEnd := edit_pairs _ _ (by decide)
  trailTail := by decide
  fracSep := fun i h1 h2 => (by decide : ∀ i < (codes "$$,$$9.99").length, pointPos {} (codes "$$,$$9.99") < i →
    (codes "$$,$$9.99").getD i 0 ≠ 46 ∧ ((codes "$$,$$9.99").getD i 0 = 44 ∨ (codes "$$,$$9.99").getD i 0 = 66 → 57 ∈ (codes "$$,$$9.99").take i)) i h2 h1

/-- `Z,ZZ9.99-`. -/
theorem editPic_trail : EditPic {} [] (codes "Z,ZZ9.99-") [] where
  legal := by decide
  tailOk := by decide
  headsOk := by decide
  headsAre := by decide
  floats := by decide
  onePoint := by decide
  oneFill := by decide
  trailEnd := edit_pairs _ _ (by decide)
  trailTail := by decide
  fracSep := fun i h1 h2 => (by decide : ∀ i < (codes "Z,ZZ9.99-").length, pointPos {} (codes "Z,ZZ9.99-") < i →
    (codes "Z,ZZ9.99-").getD i 0 ≠ 46 ∧ ((codes "Z,ZZ9.99-").getD i 0 = 44 ∨ (codes "Z,ZZ9.99-").getD i 0 = 66 → 57 ∈ (codes "Z,ZZ9.99-").take i)) i h2 h1

/-- 1234.56 fits into `$$,$$9.99CR`. -/
theorem fits_money : ValueFits {} [36] (codes "$$,$$9.99") 123456 2 :=
  fits_of_lt {} envOk_default [36] (codes "$$,$$9.99") [67] editPic_money 123456 (by decide)

/-- The specification, on the textbook cases. -/
example : editedText {} false [36] (codes "$$,$$9.99") [67] true 123456 2 = codes "$1,234.56CR" := by decide +kernel
example : editedText {} false [36] (codes "$$,$$9.99") [67] false 56 2 = codes "    $0.56  " := by decide +kernel
example : editedText {} false [] (codes "Z,ZZ9.99-") [] true 1234 2 = codes "   12.34-" := by decide +kernel
example : editedText {} false [] (codes "**,**9.99") [] false 1234 2 = codes "****12.34" := by decide +kernel
example : editedText {} false [] (codes "ZZ,ZZZ") [] false 0 0 = codes "      " := by decide +kernel
example : editedText {} false [] (codes "***.**") [] false 0 2 = codes "***.**" := by decide +kernel
example : editedText {} true [] (codes "ZZ9.99") [] false 0 2 = codes "      " := by decide +kernel
example : editedText {} false [43] (codes "+++9") [] false 42 0 = codes " +42" := by decide +kernel
example : editedText {} false [45] (codes "---9") [] true 7 0 = codes "  -7" := by decide +kernel
example : editedText {} false [] (codes "99/99/9999") [] false 31122024 0 = codes "31/12/2024" := by decide +kernel
example : editedText { dp := 44 } false [] (codes "Z.ZZ9,99") [] false 123456 2 = codes "1.234,56" := by decide +kernel

/-- `C16_edit` applies: -1234.56 to `$$,$$9.99CR`. -/
example (old : List Nat) (h : old.length = 11) :
    editDigits {} false true picMoney ([1, 2, 3, 4, 5, 6].map (48 + ·)) 2 old = some (codes "$1,234.56CR") := by
  rw [C16_edit {} envOk_default [36] (codes "$$,$$9.99") [67] editPic_money [1, 2, 3, 4, 5, 6] (by decide) 2
    (by have := fits_money; simpa [digitsVal] using this) true false picMoney (by decide) old (by rw [h]; decide)]
  decide +kernel

/-- A COMP-3 item with -1234.56, as sender. -/
def srcMoney : Item := ⟨.packed, ⟨{ digits := 7, scale := 2, haveSign := true }, [1, 35, 69, 109]⟩⟩

/-- `C16_move` and `C16_roundtrip` apply to it; from the text the receiver `S9(5)V99` gets -1234.56 back. -/
example : ∃ text f3,
    cobMoveEdited false {} false picMoney srcMoney (List.replicate 11 0) = some text ∧
    moveEditedDisp false {} picMoney text (tempItem 7 2) = some f3 ∧ HoldsUnits false ⟨.display, f3⟩ (-123456) := by
  refine C16_roundtrip false {} envOk_default [36] (codes "$$,$$9.99") [67] editPic_money
    ⟨by decide, fun _ => ⟨7, by decide, by decide, by decide⟩⟩ (by decide) picMoney (by decide) (by decide)
    srcMoney ⟨by decide, by decide⟩ (-123456) ?_ (by decide) (by decide) (by decide) false _ (by decide)
    (tempItem 7 2) (wf_temp 7 (by decide) 2) (by decide) ?_ (by decide)
  · exact ⟨true, 123456, by decide, by decide +kernel, by decide⟩
  · decide

/-- `C16_inside` applies, to digits that do not fit. -/
example : ∃ r, editDigits {} false true picMoney (codes "123456789") 0 (List.replicate 11 7) = some r ∧ r.length = 11 :=
  C16_inside {} false true (codes "$$,$$9.99") [67] (by decide) (by decide) picMoney (by decide) (codes "123456789") 0
    (List.replicate 11 7) (by decide)

/-! ### Findings -/

/-- DB is not recognised when the text is read back: -5 in an item `99DB`, moved to `S99`, arrives as 5.  (`signShown`
leaves DB out for this reason.) -/
theorem C16_finding_db_sign_lost :
    editDigits {} false true [(57, 2), (68, 1)] (codes "05") 0 (codes "    ") = some (codes "05DB") ∧
    (moveEditedDisp false {} [(57, 2), (68, 1)] (codes "05DB") (tempItem 2 0)).map (·.data) = some (codes "05") ∧
    (moveEditedDisp false {} [(57, 2), (67, 1)] (codes "05CR") (tempItem 2 0)).map (·.data) = some (codes "0u") := by
  decide +kernel

/-- More than 64 digits in the edited item overflow the buffer when it is read back. -/
theorem C16_finding_buffer (n : Nat) (h : 64 < n) (ebc : Bool) (pic : List (Nat × Nat)) (f2 : Field) :
    moveEditedDisp ebc {} pic (List.replicate n 57) f2 = none := by
  have : ∀ (k : Nat) (d : DeEd), ((List.replicate k 57).foldl (deEditStep {}) d).buff.length = d.buff.length + k := by
    intro k
    induction k with
    | zero => intro d; rfl
    | succ k ih =>
      intro d
      rw [List.replicate_succ, List.foldl_cons, ih]
      have h57 : isDigit 57 = true := by decide
      simp only [deEditStep, h57, if_true, List.length_append, List.length_singleton]
      omega
  unfold moveEditedDisp
  simp only
  rw [if_pos (by rw [this]; simpa using h)]

/-- A comma between suppressed places after the decimal point becomes a zero: 0.0012 in `ZZ.ZZ,ZZ`. -/
theorem C16_finding_comma_zero :
    editDigits {} false false [(90, 2), (46, 1), (90, 2), (44, 1), (90, 2)] (codes "000012") 4 (codes "        ") =
      some (codes "  .00012") := by decide +kernel

/-- With DECIMAL-POINT IS COMMA a period after the decimal comma is always replaced by a zero. -/
theorem C16_finding_period_zero :
    editDigits { dp := 44 } false false [(57, 1), (44, 1), (57, 2), (46, 1), (57, 2)] (codes "12345") 4 (codes "       ") =
      some (codes "1,23045") := by decide +kernel

/-- The trailing sign takes the next digit of the number for one of its own: -0.34 in `ZZ-` shows no digit but a sign,
although -0.04 shows nothing. -/
theorem C16_finding_trailing_sign_reads :
    editDigits {} false true [(90, 2), (45, 1)] (codes "034") 2 (codes "xxx") = some (codes "  -") ∧
    editDigits {} false true [(90, 2), (45, 1)] (codes "004") 2 (codes "xxx") = some (codes "   ") := by decide +kernel

/-- A digit cut off under a leading sign ends the suppression of zeros: 103 in `+Z9` is `+03`, 3 is ` +3`. -/
theorem C16_finding_cut_digit :
    editDigits {} false false [(43, 1), (90, 1), (57, 1)] (codes "103") 0 (codes "xxx") = some (codes "+03") ∧
    editDigits {} false false [(43, 1), (90, 1), (57, 1)] (codes "003") 0 (codes "xxx") = some (codes " +3") := by decide +kernel

/-- A single leading sign, which should stay at the left, moves over the suppressed zeros: 5 in `+ZZ9`. -/
theorem C16_finding_fixed_sign_floats :
    editDigits {} false false [(43, 1), (90, 2), (57, 1)] (codes "005") 0 (codes "xxxx") = some (codes "  +5") := by decide +kernel

/-- `VPP$99`: a byte outside the item is written. -/
theorem C16_finding_vpp :
    editDigits {} false false [(86, 1), (80, 2), (36, 1), (57, 2)] (codes "123") 5 (codes "xxx") = none := by decide +kernel

/-- An inserted '0' is read back as a digit: 12 in `990` arrives as 120. -/
theorem C16_finding_inserted_zero :
    editDigits {} false false [(57, 2), (48, 1)] (codes "12") 0 (codes "xxx") = some (codes "120") ∧
    (moveEditedDisp false {} [(57, 2), (48, 1)] (codes "120") (tempItem 3 0)).map (·.data) = some (codes "120") := by decide +kernel

/-- A PICTURE that ends with the decimal point is read back as if its places were decimals: 12 in `99.` arrives as 0.12. -/
theorem C16_finding_ending_point :
    editDigits {} false false [(57, 2), (46, 1)] (codes "12") 0 (codes "xxx") = some (codes "12.") ∧
    (moveEditedDisp false {} [(57, 2), (46, 1)] (codes "12.") (tempItem 4 2)).map (·.data) = some (codes "0012") := by decide +kernel

end Cob
