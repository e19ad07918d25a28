import Verif.Cobc.SourceFree
/-
C68, continued: `$SET SOURCEFORMAT(FIXED)` and `$SET SOURCEFORMAT(FREE_1COL_ASTER)`.
-/
namespace Cob

/-- A line of free format with `$` in column 1 whose words are `ws` but for the case of letters. -/
structure SetLine (l : List Nat) (ws : List (List Nat)) : Prop where
  len : l.length ≤ 254
  chars : ∀ c ∈ l, c ≠ 9 ∧ c ≠ 10 ∧ c ≠ 13 ∧ c ≠ 11 ∧ c ≠ 12
  star : NoStar l
  dollar : l.head? = some 36
  words : ∃ vs, HasWords l vs ∧ vs.length = ws.length ∧ ∀ p ∈ vs.zip ws, eqNoCase p.1 p.2 = true

/-- The directive in a line of fixed format. -/
theorem set_aster (cfg : SCfg) (hcol : cfg.textCol = 72) (st : SSt) (s : Lit) (nl : Nat) (h : Between st s nl) {l : List Nat}
    (hl : DirLine l [bytes "$SET", bytes "SOURCEFORMAT(FREE_1COL_ASTER)"]) :
    ∃ st', ppLine cfg st (l ++ [10]) = .out (List.replicate nl 10 ++ bytes "      *> DIRECTIVE\n") st' ∧ InAster st' := by
  obtain ⟨vs, h1, h2, h3, h4⟩ := dir_words hl
  have h6 : 6 < l.length := (List.getElem?_eq_some_iff.1 hl.dollar).1
  have hg : (l ++ [10]).getD 6 0 = 36 := by
    rw [getD_snoc l (by omega), getD_six l (by omega)]; exact hl.dollar
  have hdir : checkDirective cfg st (l ++ [10]) = (st, l ++ [10]) := by
    unfold checkDirective
    rw [if_pos ⟨h.fmt, .inr (by rw [hg]; omega)⟩]
  obtain ⟨v0, v1, rfl⟩ : ∃ a b, vs = [a, b] := by
    match vs, h2 with
    | [a, b], _ => exact ⟨a, b, rfl⟩
  simp only [List.zip_cons_cons, List.zip_nil_right, List.mem_cons, List.not_mem_nil, or_false, forall_eq_or_imp, forall_eq] at h3
  refine ⟨{ st with nl := 0, fmt := .aster, fmt1 := true }, ?_, rfl, rfl, h.status, rfl⟩
  have hdol : checkDollar cfg st (l ++ [10]) =
      ({ st with nl := 0, fmt := .aster, fmt1 := true }, List.replicate nl 10 ++ bytes "      *> DIRECTIVE\n") := by
    unfold checkDollar
    rw [if_neg (by rw [hg]; simp; omega), if_neg (by simp [h.fmt])]
    simp only [h.fmt, if_true, hcol, h1]
    rw [List.take_of_length_le (by simp), List.getD_cons_zero, List.getD_cons_succ, List.getD_cons_zero, if_pos h3.1,
      sameB_congr h3.2, sameB_congr h3.2, if_neg (by decide), if_neg (by decide), if_pos h3.2, h.nl]
    simp [SSt.setFmt]
  unfold ppLine
  rw [if_neg (by simp [h.fmt1]), cut_star hl.star, hdir]
  dsimp only
  rw [hdol]
  dsimp only
  rcases h.status with hs | hs <;> simp only [hs, reduceCtorEq, if_false]

/-- **C68** `$SET SOURCEFORMAT(FREE_1COL_ASTER)` changes to that format. -/
theorem C68_set_aster (cfg : SCfg) (hcol : cfg.textCol = 72) (hmf : cfg.mfcomment = false) (fixed : List (List Nat))
    (dir : List Nat) (lines texts : List (List Nat)) (hfix : ∀ l ∈ fixed, SrcOk l)
    (hdir : DirLine dir [bytes "$SET", bytes "SOURCEFORMAT(FREE_1COL_ASTER)"])
    (hok : ∀ l ∈ lines, AsterOk l) (h : List.Forall₂ AsterText lines texts) :
    ppSource cfg .fixed (fileOf (fixed ++ dir :: lines)) =
      (ppSource cfg .fixed (fileOf fixed)).map fun o => o ++ bytes "      *> DIRECTIVE\n" ++ fileOf texts := by
  have hlen : dir.length ≤ 255 := hdir.len
  have hch : ∀ c ∈ dir, c ≠ 9 ∧ c ≠ 10 ∧ c ≠ 13 :=
    fun c hc => by obtain ⟨a, b, c, _⟩ := hdir.chars c hc; exact ⟨a, b, c⟩
  have e : fileOf (fixed ++ dir :: lines) = fileOf fixed ++ (dir ++ 10 :: fileOf lines) := by simp [fileOf]
  unfold ppSource
  rw [e]
  rcases fixed_lines cfg hcol hmf (dir ++ 10 :: fileOf lines) fixed ((fileOf fixed ++ (dir ++ 10 :: fileOf lines)).length + 1)
    (startState .fixed) .closed 0 hfix ⟨rfl, rfl, .inl rfl, rfl, rfl, trivial, rfl⟩ (by omega) with ⟨i1, i2⟩ | ⟨fuel', st', s', nl', o, i1, i2, i3, i4⟩
  · rw [i1, i2 _ (Nat.lt_succ_self _)]; rfl
  · rw [i3, i4 _ (Nat.lt_succ_self _)]
    cases fuel' with
    | zero => simp at i1
    | succ fuel' =>
      obtain ⟨st2, hp, hfr⟩ := set_aster cfg hcol st' s' nl' i2 hdir
      have hd : decide (st'.fmt ≠ .fixed ∧ st'.fmt1 = false) = false := by simp [i2.fmt]
      rw [file_step cfg fuel' st' _ (fileOf lines) dir (by
        rw [hd]
        have := readChars_plain cfg.tab (fileOf lines) dir [] (by simpa using hlen) hch
        simpa using this), hp]
      have h2 := aster_lines cfg st2 hfr h hok fuel' (by simp at i1 ⊢; omega)
      cases h5 : ppFile cfg fuel' st2 (fileOf lines) with
      | none => rw [h5] at h2; simp at h2
      | some y =>
        rw [h5] at h2
        simp only [Option.map_some, Option.some.injEq] at h2
        simp only [h5, Option.map_some, List.flatten_cons, h2, List.append_assoc]

/-- The directive in a line of free format. -/
theorem set_fixed (cfg : SCfg) (hmf : cfg.mfcomment = false) (st : SSt) (h : InFree st) (hq : st.quote = 0) (hcs : st.consec = false)
    {l : List Nat} (hl : SetLine l [bytes "$SET", bytes "SOURCEFORMAT(FIXED)"]) :
    ∃ st', ppLine cfg st (freeLine l ++ [10]) = .skip st' ∧ Between st' .closed 1 := by
  obtain ⟨vs, h1, h2, h3⟩ := hl.words
  obtain ⟨v0, v1, rfl⟩ : ∃ a b, vs = [a, b] := by
    match vs, h2 with
    | [a, b], _ => exact ⟨a, b, rfl⟩
  simp only [List.zip_cons_cons, List.zip_nil_right, List.mem_cons, List.not_mem_nil, or_false, forall_eq_or_imp, forall_eq,
    eqNoCase_same] at h3
  obtain ⟨t, rfl⟩ : ∃ t, l = 36 :: t := by
    have := hl.dollar
    match l, this with
    | c :: t, hc => exact ⟨t, by simpa using hc⟩
  have hb : freeLine (36 :: t) ++ [10] = 32 :: 36 :: (t ++ [10]) := rfl
  have hscan : scanWords [] (32 :: 36 :: (t ++ [10])) = [v0, v1] := by
    have e1 := scan_blanks 1 (36 :: (t ++ [10]))
    rw [show List.replicate 1 32 ++ 36 :: (t ++ [10]) = 32 :: 36 :: (t ++ [10]) from rfl] at e1
    rw [e1, show 36 :: (t ++ [10]) = (36 :: t) ++ [10] from rfl, scan_snoc]
    exact scan_has h1 hl.chars
  refine ⟨{ st with nl := 1, fmt := .fixed }, ?_, rfl, h.fmt1, h.status, hq, hcs, trivial, rfl⟩
  unfold ppLine
  rw [if_neg (by simp [h.fmt1]), cut_whole (star_free hl.star)]
  have hd : checkDirective cfg st (freeLine (36 :: t) ++ [10]) = (st, freeLine (36 :: t) ++ [10]) := by
    unfold checkDirective
    rw [hb, if_neg (by simp [h.fmt])]
    simp [h.fmt]
  rw [hd]
  dsimp only
  have hdol : checkDollar cfg st (freeLine (36 :: t) ++ [10]) = ({ st with nl := 0, fmt := .fixed }, bytes "      *> DIRECTIVE\n") := by
    unfold checkDollar
    rw [hb, if_neg (by simp [h.fmt]), if_neg (by simp)]
    simp only [h.fmt, reduceCtorEq, if_false, hscan]
    rw [List.take_of_length_le (by simp), List.getD_cons_zero, List.getD_cons_succ, List.getD_cons_zero, if_pos h3.1,
      sameB_congr h3.2, if_neg (by decide), if_pos h3.2, h.nl]
    simp [SSt.setFmt]
  rw [hdol]
  dsimp only
  have hfix : fixedLine cfg { st with nl := 0, fmt := .fixed } (bytes "      *> DIRECTIVE\n") = .skip { st with nl := 1, fmt := .fixed } := by
    unfold fixedLine
    rw [if_neg (by decide), if_neg (by simp [hmf])]
    dsimp only
    rw [if_pos (by decide)]
  rcases h.status with hs | hs <;> rw [hs] at hfix ⊢ <;> exact hfix

/-- **C68** `$SET SOURCEFORMAT(FIXED)` in column 1 of a program of free format: the lines behind it are read in fixed format. -/
theorem C68_set_fixed (cfg : SCfg) (hcol : cfg.textCol = 72) (hmf : cfg.mfcomment = false) (lines texts : List (List Nat))
    (dir : List Nat) (fixed : List (List Nat)) (hok : ∀ l ∈ lines, FreeOk l) (h : List.Forall₂ FreeText lines texts)
    (hdir : SetLine dir [bytes "$SET", bytes "SOURCEFORMAT(FIXED)"]) (hfix : ∀ l ∈ fixed, SrcOk l) :
    ppSource cfg .free (fileOf (lines ++ dir :: fixed)) =
      (sourceText cfg.debugging (lines.length + 1) .closed fixed).map fun ps =>
        fileOf texts ++ layOut (lines.length + 1 + fixed.length) lines.length ps := by
  have e : fileOf (lines ++ dir :: fixed) = fileOf lines ++ (dir ++ 10 :: fileOf fixed) := by simp [fileOf]
  unfold ppSource
  rw [e]
  obtain ⟨fuel', h1, h2⟩ := free_lines cfg (dir ++ 10 :: fileOf fixed) h hok
    ((fileOf lines ++ (dir ++ 10 :: fileOf fixed)).length + 1) (startState .free) ⟨rfl, rfl, .inl rfl, rfl⟩ (by omega)
  rw [h2]
  cases fuel' with
  | zero => simp at h1
  | succ fuel' =>
    obtain ⟨st2, hp, hb⟩ := set_fixed cfg hmf (startState .free) ⟨rfl, rfl, .inl rfl, rfl⟩ rfl rfl hdir
    rw [file_step cfg fuel' (startState .free) _ (fileOf fixed) (freeLine dir) (by
      have := readChars_line cfg.tab (fileOf fixed) dir (by have := hdir.len; omega)
        (fun c hc => by obtain ⟨a, b, c, _⟩ := hdir.chars c hc; exact ⟨a, b, c⟩)
      simpa [startState] using this), hp]
    simp only
    rw [file_ok cfg hcol hmf fixed fuel' st2 .closed (lines.length + 1) lines.length hfix
      (by rw [show lines.length + 1 - lines.length = 1 by omega]; exact hb) (by omega) (by omega) (by simp at h1 ⊢; omega), Option.map_map]
    rfl

/-- Both at work. -/
example : SetLine (bytes "$set SourceFormat(fixed)") [bytes "$SET", bytes "SOURCEFORMAT(FIXED)"] ∧
    ppSource srcCfg .free (bytes "A.\n$set SourceFormat(fixed)\n       B.\n") = some (bytes " A.\n\nB.\n") ∧
    ppSource srcCfg .fixed (bytes "       A.\n      $SET SOURCEFORMAT(FREE_1COL_ASTER)\n* note\nB.\n") =
      some (bytes "A.\n      *> DIRECTIVE\n\nB.\n") := by
  refine ⟨⟨by decide +kernel, by decide +kernel, noStar_of (by decide +kernel), by decide +kernel, [bytes "$set", bytes "SourceFormat(fixed)"], ?_, by decide +kernel, by decide +kernel⟩,
    by decide +kernel, by decide +kernel⟩
  have e : bytes "$set SourceFormat(fixed)" = List.replicate 0 32 ++ bytes "$set" ++ 32 :: (List.replicate 0 32 ++ bytes "SourceFormat(fixed)") := by
    decide +kernel
  rw [e]
  exact HasWords.more 0 (bytes "$set") (_ ++ bytes "SourceFormat(fixed)") [bytes "SourceFormat(fixed)"] (by decide +kernel) (by decide +kernel)
    (HasWords.last 0 (bytes "SourceFormat(fixed)") (by decide +kernel) (by decide +kernel))

end Cob
