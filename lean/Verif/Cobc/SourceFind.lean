import Verif.Cobc.SourceMore
/-
C65: samples and findings.
-/
namespace Cob

def srcCfg : SCfg := ⟨72, 8, false, false, []⟩

/-- A line with a blank sequence number. -/
def srcLine (ind : Nat) (t : List Nat) : List Nat := List.replicate 6 32 ++ ind :: t

theorem star_of {l : List Nat} (h3 : findStar (l.drop 7) = none) : ∀ p, 7 ≤ p → ¬ (l[p]? = some 42 ∧ l[p + 1]? = some 62) := by
  intro p hp hx
  have key : ∀ (m : List Nat) (j : Nat), m[j]? = some 42 → m[j + 1]? = some 62 → findStar m ≠ none := by
    intro m
    induction m with
    | nil => intro j hj; simp at hj
    | cons a m ih =>
      intro j hj hj'
      cases j with
      | zero =>
        cases m with
        | nil => simp at hj'
        | cons b m =>
          simp only [List.getElem?_cons_zero, Option.some.injEq, List.getElem?_cons_succ] at hj hj'
          subst hj hj'
          simp [findStar]
      | succ j =>
        simp only [List.getElem?_cons_succ] at hj hj'
        have := ih j hj hj'
        rw [findStar.eq_def]
        split
        · simp
        · rename_i heq; injection heq with _ e; subst e
          simpa using this
        · rename_i heq; simp at heq
  refine key (l.drop 7) (p - 7) ?_ ?_ h3
  · rw [List.getElem?_drop, show 7 + (p - 7) = p by omega]; exact hx.1
  · rw [List.getElem?_drop, show 7 + (p - 7 + 1) = p + 1 by omega]; exact hx.2

/-- Decidable form of `SrcOk`, for samples. -/
theorem srcOk_of {l : List Nat} (h1 : l.length ≤ 255) (h2 : (l.all fun c => c != 9 && c != 10 && c != 13) = true)
    (h3 : findStar (l.drop 7) = none) (h4 : l[6]? ≠ some 36)
    (h5 : ((l.drop 7).dropWhile (· == 32)).take 2 ≠ [62, 62]) : SrcOk l := by
  refine ⟨h1, fun c hc => ?_, star_of h3, h4, fun _ n r hr => ?_⟩
  · have := List.all_eq_true.1 h2 c hc
    simp only [Bool.and_eq_true, bne_iff_ne] at this
    exact ⟨this.1.1, this.1.2, this.2⟩
  · apply h5
    rw [hr]
    induction n with
    | zero => simp
    | succ n ih => simp [List.replicate_succ]

/-! ### Samples -/

/-- A sample file: a comment line, text, a literal over two lines, an ordinary continuation, an ignored debugging line. -/
def srcSample : List (List Nat) :=
  [srcLine 42 (bytes "COMMENT"), srcLine 32 (bytes "MOVE A TO B."), bytes "", srcLine 32 (bytes "DISPLAY 'ABC"),
   srcLine 45 (bytes "    'DEF'."), srcLine 68 (bytes "DISPLAY X."), srcLine 32 (bytes "MO   "), srcLine 45 (bytes "   VE C")]

example : ∀ l ∈ srcSample, SrcOk l := by
  intro l hl
  simp only [srcSample, List.mem_cons, List.not_mem_nil, or_false] at hl
  rcases hl with rfl | rfl | rfl | rfl | rfl | rfl | rfl | rfl <;>
    exact srcOk_of (by decide +kernel) (by decide +kernel) (by decide +kernel) (by decide +kernel) (by decide +kernel)

example : ppSource srcCfg .fixed (fileOf srcSample) =
    some (bytes "\nMOVE A TO B.\n\nDISPLAY 'ABC" ++ List.replicate 53 32 ++ bytes "DEF'.\n\n\nMOVE C\n\n") := by decide +kernel

/-- Columns 1-6 and 73 on do not matter. -/
example : ppSource srcCfg .fixed (fileOf [bytes "000100 STOP RUN." ++ List.replicate 56 32 ++ bytes "PROGNAME"]) =
    ppSource srcCfg .fixed (fileOf [srcLine 32 (bytes "STOP RUN.")]) := by decide +kernel

/-- An indicator that is not defined, and a continued literal without the quotation mark, are errors. -/
example : ppSource srcCfg .fixed (fileOf [srcLine 88 (bytes "A")]) = none ∧
    ppSource srcCfg .fixed (fileOf [srcLine 32 (bytes "'A"), srcLine 45 (bytes "B'")]) = none := by decide +kernel

/-- A literal of three lines meets the hypotheses of `C65_continued_literal`. -/
example : ppSource srcCfg .fixed (fileOf [srcLine 32 (bytes "DISPLAY 'A" ++ List.replicate 55 66),
      srcLine 45 (bytes "    'C" ++ List.replicate 59 68), srcLine 45 (bytes "  'E'.")]) =
    some (bytes "DISPLAY 'A" ++ List.replicate 55 66 ++ (bytes "C" ++ List.replicate 59 68) ++ bytes "E'." ++ [10, 10, 10]) := by
  have h := C65_continued_literal srcCfg rfl rfl 39 (Or.inl rfl) (srcLine 32 (bytes "DISPLAY 'A" ++ List.replicate 55 66))
    (srcLine 45 (bytes "  'E'.")) (bytes "E'.")
    [(srcLine 45 (bytes "    'C" ++ List.replicate 59 68), bytes "C" ++ List.replicate 59 68)]
    (by
      intro l hl
      simp only [List.map_cons, List.map_nil, List.cons_append, List.nil_append, List.mem_cons, List.not_mem_nil, or_false] at hl
      rcases hl with rfl | rfl | rfl <;>
        exact srcOk_of (by decide +kernel) (by decide +kernel) (by decide +kernel) (by decide +kernel) (by decide +kernel))
    (by decide +kernel) (by decide +kernel) (by decide +kernel)
    (by
      intro m hm
      simp only [List.mem_singleton] at hm
      subst hm
      exact ⟨⟨by decide +kernel, 4, by decide +kernel⟩, by decide +kernel, by decide +kernel⟩)
    ⟨by decide +kernel, 2, by decide +kernel⟩
    (by
      intro n hn
      have ha : area (srcLine 45 (bytes "  'E'.")) = bytes "  'E'." := by decide +kernel
      have hl := congrArg List.length hn
      rw [ha] at hl
      simp [bytes] at hl
      have hn2 : n = 2 := by omega
      subst hn2
      decide +kernel)
  exact h.trans (by decide +kernel)

/-! ### Findings -/

/-- Finding: inside a literal with apostrophes, `*>` begins a comment: the rest of the literal is lost (with quotation marks it
is kept). -/
theorem C65_finding_comment_in_literal :
    ppSource srcCfg .fixed (fileOf [srcLine 32 (bytes "'A*>B'.")]) = some (bytes "'A" ++ List.replicate 63 32 ++ [10]) ∧
    ppSource srcCfg .fixed (fileOf [srcLine 32 (bytes "\"A*>B\".")]) = some (bytes "\"A*>B\".\n") := by decide +kernel

/-- Finding: a `*>` comment that has a quotation mark in it is not a comment: its text is passed on (the scanner has its own
rule for `*>`), and an unmatched mark in it opens a literal that a continuation line must continue. -/
theorem C65_finding_quote_in_comment :
    ppSource srcCfg .fixed (fileOf [srcLine 32 (bytes "ADD 1 TO *> 5\" DISK"), srcLine 45 (bytes "X.")]) = none ∧
    ppSource srcCfg .fixed (fileOf [srcLine 32 (bytes "ADD 1 TO *> 5' DISK"), srcLine 45 (bytes "X.")]) =
      some (bytes "ADD 1 TOX.\n\n") := by decide +kernel

/-- Finding: column 73 on is not ignored on a line longer than 256 characters: the rest of it is read as a new line. -/
theorem C65_finding_long_line :
    ppSource srcCfg .fixed (fileOf [srcLine 32 (bytes "A.") ++ List.replicate 254 32 ++ bytes "STOP RUN."]) =
      some (bytes "A.\nSTOP RUN.\n") := by decide +kernel

/-- Finding: a `>>D` line behind six comment lines is an error ("Invalid indicator"), behind five it is a comment. -/
theorem C65_finding_debug_directive :
    ppSource srcCfg .fixed (fileOf ([srcLine 32 (bytes "A.")] ++ List.replicate 6 (srcLine 42 []) ++ [srcLine 32 (bytes ">>D  B.")]))
      = none ∧
    (ppSource srcCfg .fixed (fileOf ([srcLine 32 (bytes "A.")] ++ List.replicate 5 (srcLine 42 []) ++ [srcLine 32 (bytes ">>D  B.")])))
      ≠ none := by decide +kernel

/-- Finding: a conditional directive loses lines from the count: the text of line 6 of the file stands on line 3. -/
theorem C65_finding_lost_lines :
    ppSource srcCfg .fixed (fileOf [srcLine 32 (bytes "A."), srcLine 32 (bytes "B."), srcLine 36 (bytes "IF X DEFINED"),
      srcLine 32 (bytes "C."), srcLine 36 (bytes "END"), srcLine 32 (bytes "D.")]) = some (bytes "A.\nB.\nD.\n") := by
  decide +kernel

/-- Finding: `>>SOURCE FORMAT` has its effect in a part that is not compiled: here the rest of the program is lost. -/
theorem C65_finding_format_in_false_part :
    ppSource srcCfg .fixed (fileOf [srcLine 32 (bytes "A."), srcLine 36 (bytes "IF X DEFINED"),
      srcLine 32 (bytes ">>SOURCE FORMAT FREE"), srcLine 36 (bytes "END"), srcLine 32 (bytes "D.")]) =
      some (bytes "A.\n\n\n") := by
  decide +kernel

/-- Finding: when a literal ends exactly in column 72, an ordinary word cannot be continued on the next line. -/
theorem C65_finding_edge :
    ppSource srcCfg .fixed (fileOf [srcLine 32 (List.replicate 62 65 ++ bytes "'B'"), srcLine 45 (bytes " TO X.")]) = none ∧
    (ppSource srcCfg .fixed (fileOf [srcLine 32 (List.replicate 61 65 ++ bytes "'B'"), srcLine 45 (bytes " TO X.")])).isSome := by
  decide +kernel

end Cob
