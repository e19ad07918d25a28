import Verif.Cobc.SourceFreeSpec
import Verif.Cobc.SourceIfProps
import Verif.Cobc.SourceFind
import Mathlib.Data.List.Forall2
/-
C68: free format, tabs, line ends and the directive that changes the format.
-/
namespace Cob

/-! ### Tabs and line ends -/

theorem readChars_tabs (tab : Nat) (eol rest : List Nat) (he : eol = [10] ∨ eol = [13, 10]) : ∀ (l acc : List Nat),
    acc.length + (untab tab acc.length l).length ≤ 255 → (∀ c ∈ l, c ≠ 10 ∧ c ≠ 13) →
    readChars false tab false acc (l ++ eol ++ rest) = (acc ++ untab tab acc.length l ++ [10], rest) := by
  intro l
  induction l with
  | nil =>
    intro acc hl _
    simp only [untab, List.length_nil, Nat.add_zero] at hl
    rcases he with rfl | rfl
    · simp [readChars, untab, show ¬ 256 ≤ acc.length by omega]
    · simp [readChars, untab, show ¬ 256 ≤ acc.length by omega]
  | cons c l ih =>
    intro acc hl hc
    obtain ⟨h2, h3⟩ := hc c (by simp)
    have hc' : ∀ x ∈ l, x ≠ 10 ∧ x ≠ 13 := fun x hx => hc x (by simp [hx])
    rw [untab] at hl
    rw [List.cons_append, List.cons_append, readChars, untab]
    by_cases h9 : c = 9
    · simp only [if_pos h9] at hl ⊢
      rw [List.length_append, List.length_replicate] at hl
      rw [if_neg (by omega)]
      simp only [Bool.false_eq_true, false_and, and_false, if_false, h3, h9, if_true]
      have := ih (acc ++ List.replicate (tab - acc.length % tab) 32) (by simp; omega) hc'
      rw [this]
      simp
    · simp only [if_neg h9] at hl ⊢
      rw [List.length_cons] at hl
      rw [if_neg (by omega)]
      simp only [Bool.false_eq_true, false_and, and_false, if_false, h3, h9, h2]
      have := ih (acc ++ [c]) (by simp; omega) hc'
      rw [this]
      simp

/-- The format stays. -/
def SRd.fmtIs : SRd → SFmt → Prop
  | .skip st, f => st.fmt = f
  | .out _ st, f => st.fmt = f
  | .stop, _ => True

theorem emit_fmt (cfg : SCfg) (st : SSt) (f : SFmt) (hf : st.fmt = f) (cont : Bool) (col : Nat) (t : List Nat) :
    (emitText cfg st cont col t).fmtIs f := by
  cases cont <;> simpa [emitText, SRd.fmtIs] using hf

theorem continue_fmt (cfg : SCfg) (st : SSt) (f : SFmt) (hf : st.fmt = f) (t : List Nat) : (continueLine cfg st t).fmtIs f := by
  unfold continueLine
  dsimp only
  split
  · split
    · split
      · exact emit_fmt _ { st with quote := 0, consec := false } _ hf _ _ _
      · trivial
    · trivial
  · split
    · split
      · split
        · exact emit_fmt _ _ _ hf _ _ _
        · trivial
      · trivial
    · exact emit_fmt _ _ _ hf _ _ _

theorem fixed_fmt (cfg : SCfg) (st : SSt) (f : SFmt) (hf : st.fmt = f) (b : List Nat) : (fixedLine cfg st b).fmtIs f := by
  unfold fixedLine
  by_cases h1 : b.length < 8
  · rw [if_pos h1]; exact hf
  rw [if_neg h1]
  by_cases h2 : cfg.mfcomment = true ∧ (b.getD 0 0 = 42 ∨ b.getD 0 0 = 47)
  · rw [if_pos h2]; exact hf
  rw [if_neg h2]
  dsimp only
  split
  · exact hf
  split
  · exact hf
  split
  · trivial
  generalize ((if cfg.textCol + 1 < b.length then b.take cfg.textCol ++ [10] else b).drop 7).takeWhile (· != 10) = t
  by_cases h3 : (t.all fun x => x == 32) = true
  · rw [if_pos h3]; exact hf
  rw [if_neg h3]
  by_cases h4 : b.getD 6 0 = 45
  · rw [if_pos h4]; exact continue_fmt _ _ _ hf _
  · rw [if_neg h4]; exact emit_fmt _ { st with quote := 0, consec := false } _ hf _ _ _

theorem fixed_stays (cfg : SCfg) (st : SSt) (hf : st.fmt = .fixed) (l : List Nat) (h : SrcOk l) :
    (ppLine cfg st (l ++ [10])).fmtIs .fixed := by
  unfold ppLine
  split
  · exact hf
  · rw [cut_plain h, directive_plain h cfg st hf]
    dsimp only
    rw [dollar_plain h cfg st hf]
    dsimp only
    have hx := fixed_fmt cfg st .fixed hf (l ++ [10])
    cases st.status <;> simp only [hf, if_true] <;> first | exact hx | exact hf | trivial

/-- A step of the reading. -/
theorem file_step (cfg : SCfg) (fuel : Nat) (st : SSt) (input rest b : List Nat)
    (h : readChars (decide (st.fmt ≠ .fixed ∧ st.fmt1 = false)) cfg.tab false [] input = (b ++ [10], rest)) :
    ppFile cfg (fuel + 1) st input =
      match ppLine cfg st (b ++ [10]) with
      | .skip st' => ppFile cfg fuel st' rest
      | .out t st' => (ppFile cfg fuel st' rest).map (t :: ·)
      | .stop => none := by
  rw [ppFile]
  simp only [h]
  rw [if_neg (by simp), show endLine (b ++ [10]) = b ++ [10] by simp [endLine]]
  cases ppLine cfg st (b ++ [10]) <;> rfl

theorem fileOf_cons (l : List Nat) (ls : List (List Nat)) : fileOf (l :: ls) = l ++ 10 :: fileOf ls := by simp [fileOf]

theorem tabs_file (cfg : SCfg) : ∀ (lines : List (List Nat × List Nat)) (st : SSt) (fuel fuel' : Nat),
    st.fmt = .fixed → (∀ p ∈ lines, (p.2 = [10] ∨ p.2 = [13, 10]) ∧ (∀ c ∈ p.1, c ≠ 10 ∧ c ≠ 13) ∧ SrcOk (untab cfg.tab 0 p.1)) →
    (rawFile lines).length < fuel → (fileOf (lines.map fun p => untab cfg.tab 0 p.1)).length < fuel' →
    ppFile cfg fuel st (rawFile lines) = ppFile cfg fuel' st (fileOf (lines.map fun p => untab cfg.tab 0 p.1)) := by
  intro lines
  induction lines with
  | nil =>
    intro st fuel fuel' hf _ h1 h2
    cases fuel with
    | zero => simp at h1
    | succ fuel =>
      cases fuel' with
      | zero => simp at h2
      | succ fuel' => simp [rawFile, fileOf, ppFile, readChars]
  | cons p lines ih =>
    intro st fuel fuel' hf hok h1 h2
    obtain ⟨he, hc, hs⟩ := hok p (by simp)
    cases fuel with
    | zero => simp at h1
    | succ fuel =>
      cases fuel' with
      | zero => simp at h2
      | succ fuel' =>
        have hfree : decide (st.fmt ≠ .fixed ∧ st.fmt1 = false) = false := by simp [hf]
        have e1 : rawFile (p :: lines) = p.1 ++ p.2 ++ rawFile lines := by simp [rawFile]
        have l1 : (rawFile lines).length < fuel := by
          rw [e1] at h1
          rcases he with he | he <;> rw [he] at h1 <;> simp at h1 <;> omega
        rw [List.map_cons, fileOf_cons] at h2 ⊢
        have l2 : (fileOf (lines.map fun p => untab cfg.tab 0 p.1)).length < fuel' := by simp at h2 ⊢; omega
        have r1 := readChars_tabs cfg.tab p.2 (rawFile lines) he p.1 [] (by have := hs.len; simpa using this) hc
        have r2 := readChars_plain cfg.tab (fileOf (lines.map fun p => untab cfg.tab 0 p.1)) (untab cfg.tab 0 p.1) []
          (by have := hs.len; simpa using this) hs.chars
        simp only [List.nil_append, List.length_nil] at r1 r2
        rw [e1, file_step cfg fuel st _ (rawFile lines) (untab cfg.tab 0 p.1) (by rw [hfree]; exact r1),
          file_step cfg fuel' st _ _ (untab cfg.tab 0 p.1) (by rw [hfree]; exact r2)]
        have hst := fixed_stays cfg st hf _ hs
        have hrest : ∀ q ∈ lines, (q.2 = [10] ∨ q.2 = [13, 10]) ∧ (∀ c ∈ q.1, c ≠ 10 ∧ c ≠ 13) ∧ SrcOk (untab cfg.tab 0 q.1) :=
          fun q hq => hok q (by simp [hq])
        cases hr : ppLine cfg st (untab cfg.tab 0 p.1 ++ [10]) with
        | skip st' => rw [hr] at hst; exact ih st' fuel fuel' hst hrest l1 l2
        | out t st' => rw [hr] at hst; simp only; rw [ih st' fuel fuel' hst hrest l1 l2]
        | stop => rfl

/-- **C68** Tabs and line ends: a fixed-format file whose lines end with CR LF or LF, in any mixture, and have tabs in them is
read as the file with the tabs expanded and LF line ends. -/
theorem C68_tabs (cfg : SCfg) (lines : List (List Nat × List Nat))
    (hok : ∀ p ∈ lines, (p.2 = [10] ∨ p.2 = [13, 10]) ∧ (∀ c ∈ p.1, c ≠ 10 ∧ c ≠ 13) ∧ SrcOk (untab cfg.tab 0 p.1)) :
    ppSource cfg .fixed (rawFile lines) = ppSource cfg .fixed (fileOf (lines.map fun p => untab cfg.tab 0 p.1)) := by
  unfold ppSource
  rw [tabs_file cfg lines (startState .fixed) _ _ rfl hok (Nat.lt_succ_self _) (Nat.lt_succ_self _)]

/-! ### Free format -/

theorem readChars_free (tab : Nat) (rest : List Nat) : ∀ (l acc : List Nat), acc ≠ [] → acc.length + l.length ≤ 255 →
    (∀ c ∈ l, c ≠ 9 ∧ c ≠ 10 ∧ c ≠ 13) → readChars true tab false acc (l ++ 10 :: rest) = (acc ++ l ++ [10], rest) := by
  intro l
  induction l with
  | nil =>
    intro acc ha hl _
    rw [List.nil_append, readChars, if_neg (by simp at hl; omega)]
    simp [ha]
  | cons c l ih =>
    intro acc ha hl hc
    obtain ⟨h1, h2, h3⟩ := hc c (by simp)
    simp only [List.length_cons] at hl
    rw [List.cons_append, readChars, if_neg (by omega)]
    simp only [Bool.false_eq_true, false_and, if_false, h1, h2, h3, ha]
    rw [ih (acc ++ [c]) (by simp) (by simp; omega) (fun x hx => hc x (by simp [hx]))]
    simp

theorem readChars_line (tab : Nat) (rest l : List Nat) (hl : l.length ≤ 254) (hc : ∀ c ∈ l, c ≠ 9 ∧ c ≠ 10 ∧ c ≠ 13) :
    readChars true tab false [] (l ++ 10 :: rest) = (freeLine l ++ [10], rest) := by
  cases l with
  | nil => simp [readChars, freeLine]
  | cons c l =>
    obtain ⟨h1, h2, h3⟩ := hc c (by simp)
    have hc' : ∀ x ∈ l, x ≠ 9 ∧ x ≠ 10 ∧ x ≠ 13 := fun x hx => hc x (by simp [hx])
    simp only [List.length_cons] at hl
    rw [List.cons_append, readChars, if_neg (by simp)]
    by_cases h : c = 32
    · subst h
      simp only [Bool.false_eq_true, ne_eq, not_true_eq_false, false_and, and_false, if_false, h2, h3, h1]
      rw [readChars_free tab rest l _ (by simp) (by simp; omega) hc']
      simp [freeLine]
    · simp only [Bool.false_eq_true, false_and, if_false, h1, h2, h3, h, ne_eq, not_false_eq_true, and_self, if_true]
      rw [readChars_free tab rest l _ (by simp) (by simp; omega) hc']
      simp [freeLine, h]

theorem star_none {l : List Nat} (h : NoStar l) : findStar (l ++ [10]) = none := by
  cases hf : findStar (l ++ [10]) with
  | none => rfl
  | some p =>
    obtain ⟨h1, h2⟩ := findStar_some _ p hf
    exact absurd ⟨getElem?_snoc h1 (by omega), getElem?_snoc h2 (by omega)⟩ (h p)

theorem findStar_at : ∀ (t c : List Nat), NoStar (t ++ [42]) → findStar (t ++ 42 :: 62 :: c) = some t.length
  | [], c, _ => by simp [findStar]
  | a :: t, c, h => by
    have ht : NoStar (t ++ [42]) := by
      intro p hp
      apply h (p + 1)
      simpa using hp
    have ih := findStar_at t c ht
    rw [findStar.eq_def]
    split
    · rename_i r heq
      exfalso
      apply h 0
      rw [List.cons_append, List.cons.injEq] at heq
      obtain ⟨rfl, heq⟩ := heq
      cases t with
      | nil => simp at heq
      | cons b t =>
        simp only [List.cons_append, List.cons.injEq] at heq
        simp [heq.1]
    · rename_i heq
      rw [List.cons_append, List.cons.injEq] at heq
      obtain ⟨_, rfl⟩ := heq
      rw [ih]; rfl
    · rename_i heq; simp at heq

theorem star_cons {l : List Nat} (h : NoStar l) : NoStar (32 :: l) := by
  intro p hp
  cases p with
  | zero => simp at hp
  | succ p => exact h p (by simpa using hp)

theorem star_free {l : List Nat} (h : NoStar l) : NoStar (freeLine l) := by
  unfold freeLine
  split
  · exact h
  · split
    · exact h
    · exact star_cons h

theorem freeLine_append (t : List Nat) (ht : t ≠ []) (c : List Nat) : freeLine (t ++ c) = freeLine t ++ c := by
  cases t with
  | nil => exact absurd rfl ht
  | cons a t =>
    simp only [freeLine, List.cons_append]
    split <;> simp

theorem cut_free {l x : List Nat} (h : FreeText l x) : cutComment (freeLine l ++ [10]) = x ++ [10] := by
  cases h with
  | plain l h =>
    unfold cutComment
    rw [star_none (star_free h)]
  | comment t c h hlen hc =>
    have ht : t ≠ [] := by rintro rfl; simp [freeLine] at hlen
    unfold cutComment
    rw [freeLine_append t ht, List.append_assoc]
    have hs : NoStar (freeLine t ++ [42]) := by rw [← freeLine_append t ht]; exact star_free h
    have := findStar_at (freeLine t) (c ++ [10]) hs
    simp only [List.cons_append] at this ⊢
    rw [this]
    simp only [List.drop_left, List.take_left]
    rw [if_pos]
    refine ⟨hlen, ?_⟩
    simp [hc]

theorem free_len (l : List Nat) : (freeLine l).length ≤ l.length + 1 := by
  unfold freeLine
  split
  · simp
  · split <;> simp

theorem freeText_begin {l x : List Nat} (h : FreeText l x) : x <+: freeLine l := by
  cases h with
  | plain l h => exact List.prefix_refl _
  | comment t c h hlen hc =>
    have ht : t ≠ [] := by rintro rfl; simp [freeLine] at hlen
    rw [freeLine_append t ht]
    exact List.prefix_append _ _

/-- A line of free format that is not a directive. -/
theorem free_directive (cfg : SCfg) (st : SSt) (hf : st.fmt ≠ .fixed) {l x : List Nat} (hok : FreeOk l) (hx : x <+: freeLine l) :
    checkDirective cfg st (x ++ [10]) = (st, x ++ [10]) := by
  unfold checkDirective
  rw [if_neg (fun h => hf h.1)]
  simp only [if_neg hf]
  rw [List.take_zero, List.drop_zero, List.nil_append, drop_takeWhile]
  split
  · rename_i s hs
    exfalso
    have hsp := takeWhile_split (x ++ [10])
    rw [hs] at hsp
    generalize ((x ++ [10]).takeWhile (· == 32)).length = n at hsp
    have hx2 : ∃ s', x = List.replicate n 32 ++ 62 :: 62 :: s' := by
      rcases List.eq_nil_or_concat s with rfl | ⟨s', y, rfl⟩
      · have := congrArg List.getLast? hsp
        simp [List.getLast?_append] at this
      · rw [List.concat_eq_append] at hsp
        refine ⟨s', ?_⟩
        have e : List.replicate n 32 ++ 62 :: 62 :: (s' ++ [y]) = (List.replicate n 32 ++ 62 :: 62 :: s') ++ [y] := by simp
        rw [e] at hsp
        exact List.append_inj_left' hsp rfl
    obtain ⟨s', rfl⟩ := hx2
    obtain ⟨z, hz⟩ := hx
    unfold freeLine at hz
    split at hz
    · simp at hz
    · rename_i c t
      split at hz
      · exact hok.direct n (s' ++ z) (by rw [← hz]; simp)
      · rename_i hne
        cases n with
        | zero => simp at hz
        | succ n =>
          rw [List.replicate_succ] at hz
          simp only [List.cons_append, List.cons.injEq, true_and] at hz
          exact hok.direct n (s' ++ z) (by rw [← hz]; simp)
  · rfl

theorem free_dollar (cfg : SCfg) (st : SSt) (hf : st.fmt ≠ .fixed) {l x : List Nat} (hok : FreeOk l) (hx : x <+: freeLine l) :
    checkDollar cfg st (x ++ [10]) = (st, x ++ [10]) := by
  unfold checkDollar
  rw [if_neg (fun h => hf h.1), if_pos]
  refine ⟨hf, fun h => ?_⟩
  obtain ⟨z, hz⟩ := hx
  match x, h with
  | [], h => simp at h
  | [a], h => simp at h
  | a :: b :: x, h =>
    apply hok.dollar
    simp only [List.cons_append, List.getD_cons_succ, List.getD_cons_zero] at h
    rw [← hz, h]; rfl

/-- The state in free format. -/
structure InFree (st : SSt) : Prop where
  fmt : st.fmt = .free
  fmt1 : st.fmt1 = false
  status : st.status = .none ∨ st.status = .tru
  nl : st.nl = 0

theorem free_line (cfg : SCfg) (st : SSt) (hst : InFree st) {l x : List Nat} (hok : FreeOk l) (hx : FreeText l x) :
    ppLine cfg st (freeLine l ++ [10]) = .out (x ++ [10]) st := by
  have hf : st.fmt ≠ .fixed := by rw [hst.fmt]; decide
  unfold ppLine
  rw [if_neg (by simp [hst.fmt1]), cut_free hx, free_directive cfg st hf hok (freeText_begin hx)]
  dsimp only
  rw [free_dollar cfg st hf hok (freeText_begin hx)]
  dsimp only
  rcases hst.status with h | h <;> simp only [h, hst.fmt, reduceCtorEq, if_false]

/-- Reading the lines of free format that are followed by `rest`. -/
theorem free_lines (cfg : SCfg) (rest : List Nat) {lines texts : List (List Nat)} (h : List.Forall₂ FreeText lines texts)
    (hok : ∀ l ∈ lines, FreeOk l) : ∀ (fuel : Nat) (st : SSt), InFree st → (fileOf lines ++ rest).length < fuel →
    ∃ fuel', rest.length < fuel' ∧ (ppFile cfg fuel st (fileOf lines ++ rest)).map List.flatten =
      ((ppFile cfg fuel' st rest).map List.flatten).map (fileOf texts ++ ·) := by
  induction h with
  | nil => intro fuel st _ hfu; exact ⟨fuel, by simpa [fileOf] using hfu, by simp [fileOf, Function.comp_def]⟩
  | cons hx _ ih =>
    rename_i l x ls xs hrest
    intro fuel st hst hfu
    have hl := hok l (by simp)
    cases fuel with
    | zero => simp at hfu
    | succ fuel =>
      rw [fileOf_cons, List.append_assoc] at hfu ⊢
      simp only [List.cons_append] at hfu ⊢
      have hd : decide (st.fmt ≠ .fixed ∧ st.fmt1 = false) = true := by simp [hst.fmt, hst.fmt1]
      rw [file_step cfg fuel st _ (fileOf ls ++ rest) (freeLine l)
        (by rw [hd]; exact readChars_line cfg.tab _ l hl.len hl.chars), free_line cfg st hst hl hx]
      obtain ⟨fuel', h1, h2⟩ := ih (fun y hy => hok y (by simp [hy])) fuel st hst (by simp at hfu ⊢; omega)
      refine ⟨fuel', h1, ?_⟩
      rw [fileOf_cons]
      simp only
      cases h5 : ppFile cfg fuel st (fileOf ls ++ rest) with
      | none => rw [h5] at h2; cases h6 : ppFile cfg fuel' st rest with
        | none => rfl
        | some y => rw [h6] at h2; simp at h2
      | some z => rw [h5] at h2; cases h6 : ppFile cfg fuel' st rest with
        | none => rw [h6] at h2; simp at h2
        | some y =>
          rw [h6] at h2
          simp only [Option.map_some, Option.some.injEq] at h2 ⊢
          simp [h2]

/-- **C68** A program in free format: line by line the text as written, with a space in front, comments cut off; no line is
lost or added. -/
theorem C68_free (cfg : SCfg) (lines texts : List (List Nat)) (hok : ∀ l ∈ lines, FreeOk l)
    (h : List.Forall₂ FreeText lines texts) : ppSource cfg .free (fileOf lines) = some (fileOf texts) := by
  obtain ⟨fuel', h1, h2⟩ := free_lines cfg [] h hok ((fileOf lines).length + 1) (startState .free) ⟨rfl, rfl, .inl rfl, rfl⟩ (by simp)
  rw [List.append_nil] at h2
  unfold ppSource
  rw [h2]
  cases fuel' with
  | zero => simp at h1
  | succ f => simp [ppFile, readChars, startState]

/-! ### The directive -/

theorem cut_whole {l : List Nat} (h : NoStar l) : cutComment (l ++ [10]) = l ++ [10] := by
  unfold cutComment; rw [star_none h]

/-- The words of the directive. -/
theorem format_words {start l : List Nat} {ws : List (List Nat)} (h : FormatLine start l ws) (h5 : ws.length ≤ 5) :
    ∃ n t vs, l = start ++ List.replicate n 32 ++ 62 :: 62 :: t ∧ t.head? ≠ some 68 ∧
      (scanWords [] (t ++ [10])).take 5 = vs ∧ vs.length = ws.length ∧ ∀ p ∈ vs.zip ws, sameB p.1 p.2 = true := by
  obtain ⟨n, t, vs, h1, h2, h3, h4, h6⟩ := h.text
  refine ⟨n, t, vs, h1, h2, ?_, h4, h6⟩
  have hp : Printable t := fun c hc => h.chars c (by rw [h1]; simp [hc])
  rw [scan_snoc, scan_has h3 hp, List.take_of_length_le (by omega)]

theorem source_format (st : SSt) (name : List Nat) (f : SFmt) (hn : ∀ w, sameB w name = true → fmtNamed w = some f)
    (hname : name ≠ bytes "FORMAT" ∧ name ≠ bytes "IS") {ws vs : List (List Nat)} (hw : ws ∈ formatWords name)
    (hl : vs.length = ws.length) (hv : ∀ p ∈ vs.zip ws, sameB p.1 p.2 = true) : sourceDirective st vs = st.setFmt f := by
  unfold sourceDirective
  simp only [formatWords, List.mem_cons, List.not_mem_nil, or_false] at hw
  rcases hw with rfl | rfl | rfl | rfl
  · obtain ⟨v0, v1, rfl⟩ : ∃ a b, vs = [a, b] := by
      match vs, hl with
      | [a, b], _ => exact ⟨a, b, rfl⟩
    simp only [List.zip_cons_cons, List.zip_nil_right, List.mem_cons, List.not_mem_nil, or_false, forall_eq_or_imp, forall_eq] at hv
    simp only [hv.1, Bool.not_true, Bool.false_eq_true, if_false, hn _ hv.2]
  · obtain ⟨v0, v1, v2, rfl⟩ : ∃ a b c, vs = [a, b, c] := by
      match vs, hl with
      | [a, b, c], _ => exact ⟨a, b, c, rfl⟩
    simp only [List.zip_cons_cons, List.zip_nil_right, List.mem_cons, List.not_mem_nil, or_false, forall_eq_or_imp, forall_eq] at hv
    simp only [hv.1, hv.2.1, Bool.not_true, Bool.false_eq_true, if_false, hn _ hv.2.2, Bool.true_or, if_true]
  · obtain ⟨v0, v1, v2, rfl⟩ : ∃ a b c, vs = [a, b, c] := by
      match vs, hl with
      | [a, b, c], _ => exact ⟨a, b, c, rfl⟩
    simp only [List.zip_cons_cons, List.zip_nil_right, List.mem_cons, List.not_mem_nil, or_false, forall_eq_or_imp, forall_eq] at hv
    simp only [hv.1, hv.2.1, Bool.not_true, Bool.false_eq_true, if_false, hn _ hv.2.2, Bool.or_true, if_true]
  · obtain ⟨v0, v1, v2, v3, rfl⟩ : ∃ a b c d, vs = [a, b, c, d] := by
      match vs, hl with
      | [a, b, c, d], _ => exact ⟨a, b, c, d, rfl⟩
    simp only [List.zip_cons_cons, List.zip_nil_right, List.mem_cons, List.not_mem_nil, or_false, forall_eq_or_imp, forall_eq] at hv
    simp only [hv.1, hv.2.1, hv.2.2.1, Bool.not_true, Bool.false_eq_true, if_false, hn _ hv.2.2.2, Bool.and_self, if_true]

theorem named_free (w : List Nat) (h : sameB w (bytes "FREE") = true) : fmtNamed w = some .free := by
  unfold fmtNamed
  rw [sameB_congr h, sameB_congr h, if_neg (by decide), if_pos (by decide)]

theorem named_fixed (w : List Nat) (h : sameB w (bytes "FIXED") = true) : fmtNamed w = some .fixed := by
  unfold fmtNamed
  rw [h]; rfl

theorem formatWords_len {f : List Nat} {ws : List (List Nat)} (h : ws ∈ formatWords f) : ws.length ≤ 5 := by
  simp only [formatWords, List.mem_cons, List.not_mem_nil, or_false] at h
  rcases h with rfl | rfl | rfl | rfl <;> simp

theorem blanks_then (n : Nat) (t : List Nat) :
    (List.replicate n 32 ++ 62 :: 62 :: t).takeWhile (· == 32) = List.replicate n 32 := by
  induction n with
  | zero => simp
  | succ n ih => simp [List.replicate_succ]

/-- The directive in a line of fixed format. -/
theorem to_free (cfg : SCfg) (st : SSt) (s : Lit) (nl : Nat) (h : Between st s nl) {six l : List Nat} (h6 : six.length = 6)
    {ws : List (List Nat)} (hw : ws ∈ formatWords (bytes "FREE")) (hl : FormatLine (six ++ [32]) l ws) :
    ∃ st', ppLine cfg st (l ++ [10]) = .out (List.replicate nl 10 ++ bytes "      *> DIRECTIVE\n") st' ∧ InFree st' := by
  obtain ⟨n, t, vs, e, hD, hscan, hlen, hv⟩ := format_words hl (formatWords_len hw)
  have hb : l ++ [10] = six ++ 32 :: (List.replicate n 32 ++ 62 :: 62 :: (t ++ [10])) := by rw [e]; simp
  refine ⟨{ st with nl := 0, fmt := .free }, ?_, rfl, h.fmt1, h.status, rfl⟩
  unfold ppLine
  rw [if_neg (by simp [h.fmt1]), cut_whole hl.star]
  have hd : checkDirective cfg st (l ++ [10]) = ({ st with nl := 0, fmt := .free }, List.replicate nl 10 ++ bytes "      *> DIRECTIVE\n") := by
    unfold checkDirective
    rw [hb, if_neg (by
      rintro ⟨-, h1 | h1⟩
      · simp [h6] at h1; omega
      · simp [List.getD_eq_getElem?_getD, List.getElem?_append_right, h6] at h1)]
    simp only [h.fmt, if_true]
    have e7 : (six ++ 32 :: (List.replicate n 32 ++ 62 :: 62 :: (t ++ [10]))).take 7 = six ++ [32] := by
      rw [show six ++ 32 :: (List.replicate n 32 ++ 62 :: 62 :: (t ++ [10])) = (six ++ [32]) ++ (List.replicate n 32 ++ 62 :: 62 :: (t ++ [10])) by simp,
        List.take_left' (by simp [h6])]
    have d7 : (six ++ 32 :: (List.replicate n 32 ++ 62 :: 62 :: (t ++ [10]))).drop 7 = List.replicate n 32 ++ 62 :: 62 :: (t ++ [10]) := by
      rw [show six ++ 32 :: (List.replicate n 32 ++ 62 :: 62 :: (t ++ [10])) = (six ++ [32]) ++ (List.replicate n 32 ++ 62 :: 62 :: (t ++ [10])) by simp,
        List.drop_left' (by simp [h6])]
    rw [e7, d7, blanks_then]
    have dd : (six ++ 32 :: (List.replicate n 32 ++ 62 :: 62 :: (t ++ [10]))).drop ((six ++ [32]) ++ List.replicate n 32).length =
        62 :: 62 :: (t ++ [10]) := by
      rw [show six ++ 32 :: (List.replicate n 32 ++ 62 :: 62 :: (t ++ [10])) = ((six ++ [32]) ++ List.replicate n 32) ++ 62 :: 62 :: (t ++ [10]) by simp,
        List.drop_left]
    rw [dd]
    simp only
    have hD' : (t ++ [10]).head? ≠ some 68 := by cases t <;> simp_all
    rw [if_neg hD', hscan, source_format _ (bytes "FREE") .free named_free (by decide) hw hlen hv, h.nl]
    simp [SSt.setFmt]
  rw [hd]
  dsimp only
  have hdol : checkDollar cfg { st with nl := 0, fmt := .free } (List.replicate nl 10 ++ bytes "      *> DIRECTIVE\n") =
      ({ st with nl := 0, fmt := .free }, List.replicate nl 10 ++ bytes "      *> DIRECTIVE\n") := by
    unfold checkDollar
    rw [if_neg (by simp), if_pos]
    refine ⟨by simp, ?_⟩
    match nl with
    | 0 => decide
    | 1 => decide
    | nl + 2 => simp [List.replicate_succ]
  rw [hdol]
  dsimp only
  rcases h.status with hs | hs <;> simp only [hs, reduceCtorEq, if_false]

/-- The directive in a line of free format. -/
theorem to_fixed (cfg : SCfg) (hmf : cfg.mfcomment = false) (st : SSt) (h : InFree st) (hq : st.quote = 0) (hcs : st.consec = false) {l : List Nat}
    {ws : List (List Nat)} (hw : ws ∈ formatWords (bytes "FIXED")) (hl : FormatLine [] l ws) :
    ∃ st', ppLine cfg st (freeLine l ++ [10]) = .skip st' ∧ Between st' .closed 1 := by
  obtain ⟨n, t, vs, e, hD, hscan, hlen, hv⟩ := format_words hl (formatWords_len hw)
  obtain ⟨m, hb⟩ : ∃ m, freeLine l ++ [10] = List.replicate m 32 ++ 62 :: 62 :: (t ++ [10]) := by
    rw [e]
    cases n with
    | zero => exact ⟨1, by simp [freeLine]⟩
    | succ n => exact ⟨n + 1, by simp [freeLine, List.replicate_succ]⟩
  refine ⟨{ st with nl := 1, fmt := .fixed }, ?_, rfl, h.fmt1, h.status, hq, hcs, trivial, rfl⟩
  unfold ppLine
  rw [if_neg (by simp [h.fmt1]), cut_whole (star_free hl.star)]
  have hd : checkDirective cfg st (freeLine l ++ [10]) = ({ st with nl := 0, fmt := .fixed }, bytes "      *> DIRECTIVE\n") := by
    unfold checkDirective
    rw [hb, if_neg (by simp [h.fmt])]
    simp only [h.fmt, reduceCtorEq, if_false, List.take_zero, List.drop_zero, List.nil_append]
    have dd : (List.replicate m 32 ++ 62 :: 62 :: (t ++ [10])).drop (List.replicate m 32).length = 62 :: 62 :: (t ++ [10]) :=
      List.drop_left
    rw [blanks_then, dd]
    simp only
    have hD' : (t ++ [10]).head? ≠ some 68 := by cases t <;> simp_all
    rw [if_neg hD', hscan, source_format _ (bytes "FIXED") .fixed named_fixed (by decide) hw hlen hv, h.nl]
    simp [SSt.setFmt]
  rw [hd]
  dsimp only
  have hdol : checkDollar cfg { st with nl := 0, fmt := .fixed } (bytes "      *> DIRECTIVE\n") =
      ({ st with nl := 0, fmt := .fixed }, bytes "      *> DIRECTIVE\n") := by
    unfold checkDollar
    rw [if_pos]
    refine ⟨rfl, .inr ?_⟩
    decide
  rw [hdol]
  dsimp only
  have hfix : fixedLine cfg { st with nl := 0, fmt := .fixed } (bytes "      *> DIRECTIVE\n") = .skip { st with nl := 1, fmt := .fixed } := by
    unfold fixedLine
    rw [if_neg (by decide), if_neg (by simp [hmf])]
    dsimp only
    rw [if_pos (by decide)]
  rcases h.status with hs | hs <;> rw [hs] at hfix ⊢ <;> exact hfix

/-- Lines of fixed format, followed by `rest`. -/
theorem fixed_lines (cfg : SCfg) (hcol : cfg.textCol = 72) (hmf : cfg.mfcomment = false) (rest : List Nat) :
    ∀ (lines : List (List Nat)) (fuel : Nat) (st : SSt) (s : Lit) (nl : Nat), (∀ l ∈ lines, SrcOk l) → Between st s nl →
    (fileOf lines ++ rest).length < fuel →
    ((ppFile cfg fuel st (fileOf lines ++ rest)).map List.flatten = none ∧
      ∀ fuel1, (fileOf lines).length < fuel1 → (ppFile cfg fuel1 st (fileOf lines)).map List.flatten = none) ∨
    ∃ fuel' st' s' nl' o, rest.length < fuel' ∧ Between st' s' nl' ∧
      (ppFile cfg fuel st (fileOf lines ++ rest)).map List.flatten = ((ppFile cfg fuel' st' rest).map List.flatten).map (o ++ ·) ∧
      ∀ fuel1, (fileOf lines).length < fuel1 →
        (ppFile cfg fuel1 st (fileOf lines)).map List.flatten = some (o ++ List.replicate nl' 10) := by
  intro lines
  induction lines with
  | nil =>
    intro fuel st s nl _ h hfu
    refine .inr ⟨fuel, st, s, nl, [], by simpa [fileOf] using hfu, h, by simp [fileOf, Function.comp_def], ?_⟩
    intro fuel1 h1
    cases fuel1 with
    | zero => simp at h1
    | succ f =>
      simp only [fileOf, List.map_nil, List.flatten_nil, ppFile, readChars, if_true, h.nl]
      by_cases h0 : nl = 0
      · rw [if_pos h0, h0]; rfl
      · rw [if_neg h0]; simp
  | cons l lines ih =>
    intro fuel st s nl hok h hfu
    have hl := hok l (by simp)
    have hlines : ∀ x ∈ lines, SrcOk x := fun x hx => hok x (by simp [hx])
    cases fuel with
    | zero => simp at hfu
    | succ fuel =>
      rw [fileOf_cons] at hfu ⊢
      have hd : decide (st.fmt ≠ .fixed ∧ st.fmt1 = false) = false := by simp [h.fmt]
      have step : ∀ f r, ppFile cfg (f + 1) st (l ++ 10 :: (fileOf lines ++ r)) =
          match ppLine cfg st (l ++ [10]) with
          | .skip st' => ppFile cfg f st' (fileOf lines ++ r)
          | .out t st' => (ppFile cfg f st' (fileOf lines ++ r)).map (t :: ·)
          | .stop => none := by
        intro f r
        refine file_step cfg f st _ _ l ?_
        rw [hd]
        have := readChars_plain cfg.tab (fileOf lines ++ r) l [] (by have := hl.len; simp; omega) hl.chars
        simpa using this
      have step0 : ∀ f, ppFile cfg (f + 1) st (l ++ 10 :: fileOf lines) =
          match ppLine cfg st (l ++ [10]) with
          | .skip st' => ppFile cfg f st' (fileOf lines)
          | .out t st' => (ppFile cfg f st' (fileOf lines)).map (t :: ·)
          | .stop => none := by
        intro f
        have := step f []
        simp only [List.append_nil] at this
        exact this
      rw [List.append_assoc] at hfu ⊢
      simp only [List.cons_append] at hfu ⊢
      rw [step]
      have hfu' : (fileOf lines ++ rest).length < fuel := by simp at hfu ⊢; omega
      have hl1 : ∀ f, (l ++ 10 :: fileOf lines).length < f + 1 → (fileOf lines).length < f := by intro f; simp; omega
      have hres := line_ok cfg hcol hmf st s nl h l hl
      have out_case : ∀ (t : List Nat) (st1 : SSt) (s1 : Lit) (nl1 : Nat), Between st1 s1 nl1 → ppLine cfg st (l ++ [10]) = .out t st1 →
          (((ppFile cfg fuel st1 (fileOf lines ++ rest)).map (t :: ·)).map List.flatten = none ∧
            ∀ fuel1, (l ++ 10 :: fileOf lines).length < fuel1 → (ppFile cfg fuel1 st (l ++ 10 :: fileOf lines)).map List.flatten = none) ∨
          ∃ fuel' st' s' nl' o, rest.length < fuel' ∧ Between st' s' nl' ∧
            ((ppFile cfg fuel st1 (fileOf lines ++ rest)).map (t :: ·)).map List.flatten =
              ((ppFile cfg fuel' st' rest).map List.flatten).map (o ++ ·) ∧
            ∀ fuel1, (l ++ 10 :: fileOf lines).length < fuel1 →
              (ppFile cfg fuel1 st (l ++ 10 :: fileOf lines)).map List.flatten = some (o ++ List.replicate nl' 10) := by
        intro t st1 s1 nl1 hb1 hpp
        have hm : ∀ x : Option (List (List Nat)), (x.map (t :: ·)).map List.flatten = (x.map List.flatten).map (t ++ ·) := by
          intro x; cases x <;> simp
        rcases ih fuel st1 s1 nl1 hlines hb1 hfu' with ⟨i1, i2⟩ | ⟨fuel', st', s', nl', o, i1, i2, i3, i4⟩
        · refine .inl ⟨by rw [hm, i1]; rfl, fun fuel1 hf1 => ?_⟩
          cases fuel1 with
          | zero => simp at hf1
          | succ f => rw [step0, hpp]; simp only; rw [hm, i2 f (hl1 f hf1)]; rfl
        · refine .inr ⟨fuel', st', s', nl', t ++ o, i1, i2, ?_, fun fuel1 hf1 => ?_⟩
          · rw [hm, i3, Option.map_map, Option.map_map, Option.map_map]
            congr 1
            funext x
            simp
          · cases fuel1 with
            | zero => simp at hf1
            | succ f => rw [step0, hpp]; simp only; rw [hm, i4 f (hl1 f hf1)]; simp
      generalize hg : ppLine cfg st (l ++ [10]) = res at hres
      cases hres with
      | skip st1 hst hi =>
        simp only
        rcases ih fuel st1 s (nl + 1) hlines hst hfu' with ⟨i1, i2⟩ | ⟨fuel', st', s', nl', o, i1, i2, i3, i4⟩
        · refine .inl ⟨i1, fun fuel1 hf1 => ?_⟩
          cases fuel1 with
          | zero => simp at hf1
          | succ f => rw [step0, hg]; exact i2 f (hl1 f hf1)
        · refine .inr ⟨fuel', st', s', nl', o, i1, i2, i3, fun fuel1 hf1 => ?_⟩
          cases fuel1 with
          | zero => simp at hf1
          | succ f => rw [step0, hg]; exact i4 f (hl1 f hf1)
      | bad hi h3 =>
        refine .inl ⟨rfl, fun fuel1 hf1 => ?_⟩
        cases fuel1 with
        | zero => simp at hf1
        | succ f => rw [step0, hg]; rfl
      | badCont hi hb h4 hc =>
        refine .inl ⟨rfl, fun fuel1 hf1 => ?_⟩
        cases fuel1 with
        | zero => simp at hf1
        | succ f => rw [step0, hg]; rfl
      | cont hi hb h4 p hc st1 hst => exact out_case _ st1 _ _ hst hg
      | normal hi hb h4 st1 hst => exact out_case _ st1 _ _ hst hg

/-- Lines of fixed format, a directive, lines of free format. -/
theorem fixed_then_free (cfg : SCfg) (hcol : cfg.textCol = 72) (hmf : cfg.mfcomment = false) (fixed : List (List Nat))
    (dir : List Nat) (lines texts : List (List Nat)) (hfix : ∀ l ∈ fixed, SrcOk l) (hlen : dir.length ≤ 255)
    (hch : ∀ c ∈ dir, c ≠ 9 ∧ c ≠ 10 ∧ c ≠ 13)
    (hto : ∀ (st : SSt) (s : Lit) (nl : Nat), Between st s nl →
      ∃ st', ppLine cfg st (dir ++ [10]) = .out (List.replicate nl 10 ++ bytes "      *> DIRECTIVE\n") st' ∧ InFree st')
    (hok : ∀ l ∈ lines, FreeOk l) (h : List.Forall₂ FreeText lines texts) :
    ppSource cfg .fixed (fileOf (fixed ++ dir :: lines)) =
      (ppSource cfg .fixed (fileOf fixed)).map fun o => o ++ bytes "      *> DIRECTIVE\n" ++ fileOf texts := by
  have e : fileOf (fixed ++ dir :: lines) = fileOf fixed ++ (dir ++ 10 :: fileOf lines) := by simp [fileOf]
  unfold ppSource
  rw [e]
  rcases fixed_lines cfg hcol hmf (dir ++ 10 :: fileOf lines) fixed ((fileOf fixed ++ (dir ++ 10 :: fileOf lines)).length + 1)
    (startState .fixed) .closed 0 hfix ⟨rfl, rfl, .inl rfl, rfl, rfl, trivial, rfl⟩ (by omega) with ⟨i1, i2⟩ | ⟨fuel', st', s', nl', o, i1, i2, i3, i4⟩
  · rw [i1, i2 _ (Nat.lt_succ_self _)]; rfl
  · rw [i3, i4 _ (Nat.lt_succ_self _)]
    cases fuel' with
    | zero => simp at i1
    | succ fuel' =>
      obtain ⟨st2, hp, hfr⟩ := hto st' s' nl' i2
      have hd : decide (st'.fmt ≠ .fixed ∧ st'.fmt1 = false) = false := by simp [i2.fmt]
      rw [file_step cfg fuel' st' _ (fileOf lines) dir (by
        rw [hd]
        have := readChars_plain cfg.tab (fileOf lines) dir [] (by simpa using hlen) hch
        simpa using this), hp]
      obtain ⟨fuel2, h1, h2⟩ := free_lines cfg [] h hok fuel' st2 hfr (by simp at i1 ⊢; omega)
      rw [List.append_nil] at h2
      cases fuel2 with
      | zero => simp at h1
      | succ f =>
        simp only [ppFile, readChars, if_true, hfr.nl, Option.map_some, List.flatten_nil, List.append_nil] at h2
        cases h5 : ppFile cfg fuel' st2 (fileOf lines) with
        | none => rw [h5] at h2; simp at h2
        | some y =>
          rw [h5] at h2
          simp only [Option.map_some, Option.some.injEq] at h2
          simp only [h5, Option.map_some, List.flatten_cons, h2, List.append_assoc]

/-- **C68** Behind `>>SOURCE FORMAT IS FREE` (FORMAT and IS may be left out) the lines are read in free format; the lines in
front of it are read as if the file ended there, and the directive takes one line. -/
theorem C68_fixed_to_free (cfg : SCfg) (hcol : cfg.textCol = 72) (hmf : cfg.mfcomment = false) (fixed : List (List Nat))
    (six dir : List Nat) (lines texts : List (List Nat)) (hfix : ∀ l ∈ fixed, SrcOk l) (h6 : six.length = 6)
    (ws : List (List Nat)) (hw : ws ∈ formatWords (bytes "FREE")) (hdir : FormatLine (six ++ [32]) dir ws)
    (hok : ∀ l ∈ lines, FreeOk l) (h : List.Forall₂ FreeText lines texts) :
    ppSource cfg .fixed (fileOf (fixed ++ dir :: lines)) =
      (ppSource cfg .fixed (fileOf fixed)).map fun o => o ++ bytes "      *> DIRECTIVE\n" ++ fileOf texts :=
  fixed_then_free cfg hcol hmf fixed dir lines texts hfix (by have := hdir.len; omega)
    (fun c hc => by obtain ⟨a, b, c, _⟩ := hdir.chars c hc; exact ⟨a, b, c⟩)
    (fun st s nl hb => to_free cfg st s nl hb h6 hw hdir) hok h

/-- `$SET SOURCEFORMAT(FREE)` in a line of fixed format. -/
theorem set_free (cfg : SCfg) (hcol : cfg.textCol = 72) (st : SSt) (s : Lit) (nl : Nat) (h : Between st s nl) {l : List Nat}
    (hl : DirLine l [bytes "$SET", bytes "SOURCEFORMAT(FREE)"]) :
    ∃ st', ppLine cfg st (l ++ [10]) = .out (List.replicate nl 10 ++ bytes "      *> DIRECTIVE\n") st' ∧ InFree st' := by
  obtain ⟨vs, h1, h2, h3, h4⟩ := dir_words hl
  have h6 : 6 < l.length := (List.getElem?_eq_some_iff.1 hl.dollar).1
  have hg : (l ++ [10]).getD 6 0 = 36 := by
    rw [getD_snoc l (by omega), getD_six l (by omega)]; exact hl.dollar
  have hdir : checkDirective cfg st (l ++ [10]) = (st, l ++ [10]) := by
    unfold checkDirective
    rw [if_pos ⟨h.fmt, .inr (by rw [hg]; omega)⟩]
  obtain ⟨v0, v1, rfl⟩ : ∃ a b, vs = [a, b] := by
    match vs, h2 with
    | [a, b], _ => exact ⟨a, b, rfl⟩
  simp only [List.zip_cons_cons, List.zip_nil_right, List.mem_cons, List.not_mem_nil, or_false, forall_eq_or_imp, forall_eq] at h3
  refine ⟨{ st with nl := 0, fmt := .free }, ?_, rfl, h.fmt1, h.status, rfl⟩
  have hdol : checkDollar cfg st (l ++ [10]) =
      ({ st with nl := 0, fmt := .free }, List.replicate nl 10 ++ bytes "      *> DIRECTIVE\n") := by
    unfold checkDollar
    rw [if_neg (by rw [hg]; simp; omega), if_neg (by simp [h.fmt])]
    simp only [h.fmt, if_true, hcol, h1]
    rw [List.take_of_length_le (by simp), List.getD_cons_zero, List.getD_cons_succ, List.getD_cons_zero, if_pos h3.1, if_pos h3.2, h.nl]
    simp [SSt.setFmt]
  unfold ppLine
  rw [if_neg (by simp [h.fmt1]), cut_star hl.star, hdir]
  dsimp only
  rw [hdol]
  dsimp only
  rcases h.status with hs | hs <;> simp only [hs, reduceCtorEq, if_false]

/-- **C68** `$SET SOURCEFORMAT(FREE)` does the same. -/
theorem C68_set_free (cfg : SCfg) (hcol : cfg.textCol = 72) (hmf : cfg.mfcomment = false) (fixed : List (List Nat))
    (dir : List Nat) (lines texts : List (List Nat)) (hfix : ∀ l ∈ fixed, SrcOk l)
    (hdir : DirLine dir [bytes "$SET", bytes "SOURCEFORMAT(FREE)"])
    (hok : ∀ l ∈ lines, FreeOk l) (h : List.Forall₂ FreeText lines texts) :
    ppSource cfg .fixed (fileOf (fixed ++ dir :: lines)) =
      (ppSource cfg .fixed (fileOf fixed)).map fun o => o ++ bytes "      *> DIRECTIVE\n" ++ fileOf texts :=
  fixed_then_free cfg hcol hmf fixed dir lines texts hfix hdir.len
    (fun c hc => by obtain ⟨a, b, c, _⟩ := hdir.chars c hc; exact ⟨a, b, c⟩)
    (fun st s nl hb => set_free cfg hcol st s nl hb hdir) hok h

/-- **C68** Behind `>>SOURCE FORMAT IS FIXED` in a program of free format the lines are read in fixed format, each on the line
with its number. -/
theorem C68_free_to_fixed (cfg : SCfg) (hcol : cfg.textCol = 72) (hmf : cfg.mfcomment = false) (lines texts : List (List Nat))
    (dir : List Nat) (fixed : List (List Nat)) (hok : ∀ l ∈ lines, FreeOk l) (h : List.Forall₂ FreeText lines texts)
    (ws : List (List Nat)) (hw : ws ∈ formatWords (bytes "FIXED")) (hdir : FormatLine [] dir ws) (hfix : ∀ l ∈ fixed, SrcOk l) :
    ppSource cfg .free (fileOf (lines ++ dir :: fixed)) =
      (sourceText cfg.debugging (lines.length + 1) .closed fixed).map fun ps =>
        fileOf texts ++ layOut (lines.length + 1 + fixed.length) lines.length ps := by
  have e : fileOf (lines ++ dir :: fixed) = fileOf lines ++ (dir ++ 10 :: fileOf fixed) := by simp [fileOf]
  unfold ppSource
  rw [e]
  obtain ⟨fuel', h1, h2⟩ := free_lines cfg (dir ++ 10 :: fileOf fixed) h hok
    ((fileOf lines ++ (dir ++ 10 :: fileOf fixed)).length + 1) (startState .free) ⟨rfl, rfl, .inl rfl, rfl⟩ (by omega)
  rw [h2]
  cases fuel' with
  | zero => simp at h1
  | succ fuel' =>
    obtain ⟨st2, hp, hb⟩ := to_fixed cfg hmf (startState .free) ⟨rfl, rfl, .inl rfl, rfl⟩ rfl rfl hw hdir
    rw [file_step cfg fuel' (startState .free) _ (fileOf fixed) (freeLine dir) (by
      have := readChars_line cfg.tab (fileOf fixed) dir (by have := hdir.len; omega)
        (fun c hc => by obtain ⟨a, b, c, _⟩ := hdir.chars c hc; exact ⟨a, b, c⟩)
      simpa [startState] using this), hp]
    simp only
    rw [file_ok cfg hcol hmf fixed fuel' st2 .closed (lines.length + 1) lines.length hfix
      (by rw [show lines.length + 1 - lines.length = 1 by omega]; exact hb) (by omega) (by omega) (by simp at h1 ⊢; omega), Option.map_map]
    rfl

/-! ### `*` in column 1 -/

theorem aster_begin {l x : List Nat} (h : AsterText l x) : x <+: l := by
  cases h with
  | aster c h => exact List.nil_prefix
  | plain l h h1 => exact List.prefix_refl _
  | comment t c h h1 hlen hc => exact List.prefix_append _ _

theorem aster_cut {l x : List Nat} (h : AsterText l x) : (l.head? = some 42 ∧ l[1]? ≠ some 62 ∧ x = []) ∨
    (l.head? ≠ some 42 ∧ cutComment (l ++ [10]) = x ++ [10]) := by
  cases h with
  | aster c h => exact .inl ⟨rfl, by rw [List.getElem?_cons_succ, ← List.head?_eq_getElem?]; exact h, rfl⟩
  | plain l h h1 => exact .inr ⟨h1, cut_whole h⟩
  | comment t c h h1 hlen hc =>
    refine .inr ⟨by cases x <;> simp_all, ?_⟩
    unfold cutComment
    rw [List.append_assoc]
    have := findStar_at x (c ++ [10]) h
    simp only [List.cons_append] at this ⊢
    rw [this]
    simp only [List.drop_left, List.take_left]
    rw [if_pos]
    exact ⟨hlen, by simp [hc]⟩

theorem aster_line (cfg : SCfg) (st : SSt) (hf : st.fmt = .aster) (hf1 : st.fmt1 = true) (hs : st.status = .none ∨ st.status = .tru)
    {l x : List Nat} (hok : AsterOk l) (hx : AsterText l x) : ppLine cfg st (l ++ [10]) = .out (x ++ [10]) st := by
  unfold ppLine
  rcases aster_cut hx with ⟨h1, h2, rfl⟩ | ⟨h1, h2⟩
  · rw [if_pos]
    · rfl
    · refine ⟨hf1, ?_⟩
      match l, h1 with
      | [a], h1 => simp at h1; simp [h1]
      | a :: b :: l, h1 => simp at h1 h2; simp [h1, h2]
  · rw [if_neg, h2]
    · have hd : checkDirective cfg st (x ++ [10]) = (st, x ++ [10]) := by
        unfold checkDirective
        rw [if_neg (by simp [hf])]
        simp only [hf, reduceCtorEq, if_false]
        rw [List.take_zero, List.drop_zero, List.nil_append, drop_takeWhile]
        split
        · rename_i s hs
          exfalso
          have hsp := takeWhile_split (x ++ [10])
          rw [hs] at hsp
          generalize ((x ++ [10]).takeWhile (· == 32)).length = n at hsp
          obtain ⟨z, hz⟩ := aster_begin hx
          rcases List.eq_nil_or_concat s with rfl | ⟨s', y, rfl⟩
          · have := congrArg List.getLast? hsp
            simp [List.getLast?_append] at this
          · rw [List.concat_eq_append] at hsp
            have e : List.replicate n 32 ++ 62 :: 62 :: (s' ++ [y]) = (List.replicate n 32 ++ 62 :: 62 :: s') ++ [y] := by simp
            rw [e] at hsp
            have := List.append_inj_left' hsp rfl
            exact hok.direct n (s' ++ z) (by rw [← hz, this]; simp)
        · rfl
      have hdol : checkDollar cfg st (x ++ [10]) = (st, x ++ [10]) := by
        unfold checkDollar
        rw [if_neg (by simp [hf]), if_pos]
        refine ⟨by simp [hf], fun h => ?_⟩
        obtain ⟨z, hz⟩ := aster_begin hx
        match x, h with
        | [], h => simp at h
        | [a], h => simp at h
        | a :: b :: x, h =>
          apply hok.dollar
          simp only [List.cons_append, List.getD_cons_succ, List.getD_cons_zero] at h
          rw [← hz, h]; rfl
      rw [hd]
      dsimp only
      rw [hdol]
      dsimp only
      rcases hs with hs | hs <;> simp only [hs, hf, reduceCtorEq, if_false]
    · rintro ⟨_, h, _⟩
      apply h1
      cases l with
      | nil => simp at h
      | cons a l => simp at h; simp [h]

/-- The state while lines of this format are read. -/
structure InAster (st : SSt) : Prop where
  fmt : st.fmt = .aster
  fmt1 : st.fmt1 = true
  status : st.status = .none ∨ st.status = .tru
  nl : st.nl = 0

theorem aster_lines (cfg : SCfg) (st : SSt) (hst : InAster st) {lines texts : List (List Nat)} (h : List.Forall₂ AsterText lines texts)
    (hok : ∀ l ∈ lines, AsterOk l) : ∀ (fuel : Nat), (fileOf lines).length < fuel →
    (ppFile cfg fuel st (fileOf lines)).map List.flatten = some (fileOf texts) := by
  induction h with
  | nil =>
    intro fuel hfu
    cases fuel with
    | zero => simp at hfu
    | succ f => simp [fileOf, ppFile, readChars, hst.nl]
  | cons hx _ ih =>
    rename_i l x ls xs hrest
    intro fuel hfu
    have hl := hok l (by simp)
    cases fuel with
    | zero => simp at hfu
    | succ fuel =>
      rw [fileOf_cons] at hfu ⊢
      rw [file_step cfg fuel st _ (fileOf ls) l (by
        have := readChars_plain cfg.tab (fileOf ls) l [] (by simpa using hl.len) hl.chars
        simpa [hst.fmt1] using this), aster_line cfg st hst.fmt hst.fmt1 hst.status hl hx]
      have h2 := ih (fun y hy => hok y (by simp [hy])) fuel (by simp at hfu ⊢; omega)
      rw [fileOf_cons]
      simp only
      cases h5 : ppFile cfg fuel st (fileOf ls) with
      | none => rw [h5] at h2; simp at h2
      | some z =>
        rw [h5] at h2
        simp only [Option.map_some, Option.some.injEq] at h2
        simp [h2]

/-- **C68** In the format FREE_1COL_ASTER the lines with `*` in column 1 are comments, the other lines are passed on as they
are; no line is lost or added. -/
theorem C68_aster (cfg : SCfg) (lines texts : List (List Nat)) (hok : ∀ l ∈ lines, AsterOk l)
    (h : List.Forall₂ AsterText lines texts) : ppSource cfg .aster (fileOf lines) = some (fileOf texts) :=
  aster_lines cfg _ ⟨rfl, rfl, .inl rfl, rfl⟩ h hok _ (Nat.lt_succ_self _)

theorem named_aster (w : List Nat) (h : sameB w (bytes "FREE_1COL_ASTER") = true) : fmtNamed w = some .aster := by
  unfold fmtNamed
  rw [sameB_congr h, sameB_congr h, h, if_neg (by decide), if_neg (by decide), if_pos rfl]

/-- The directive in a line of fixed format. -/
theorem to_aster (cfg : SCfg) (st : SSt) (s : Lit) (nl : Nat) (h : Between st s nl) {six l : List Nat} (h6 : six.length = 6)
    {ws : List (List Nat)} (hw : ws ∈ formatWords (bytes "FREE_1COL_ASTER")) (hl : FormatLine (six ++ [32]) l ws) :
    ∃ st', ppLine cfg st (l ++ [10]) = .out (List.replicate nl 10 ++ bytes "      *> DIRECTIVE\n") st' ∧ InAster st' := by
  obtain ⟨n, t, vs, e, hD, hscan, hlen, hv⟩ := format_words hl (formatWords_len hw)
  have hb : l ++ [10] = six ++ 32 :: (List.replicate n 32 ++ 62 :: 62 :: (t ++ [10])) := by rw [e]; simp
  refine ⟨{ st with nl := 0, fmt := .aster, fmt1 := true }, ?_, rfl, rfl, h.status, rfl⟩
  unfold ppLine
  rw [if_neg (by simp [h.fmt1]), cut_whole hl.star]
  have hd : checkDirective cfg st (l ++ [10]) = ({ st with nl := 0, fmt := .aster, fmt1 := true }, List.replicate nl 10 ++ bytes "      *> DIRECTIVE\n") := by
    unfold checkDirective
    rw [hb, if_neg (by
      rintro ⟨-, h1 | h1⟩
      · simp [h6] at h1; omega
      · simp [List.getD_eq_getElem?_getD, List.getElem?_append_right, h6] at h1)]
    simp only [h.fmt, if_true]
    have e7 : (six ++ 32 :: (List.replicate n 32 ++ 62 :: 62 :: (t ++ [10]))).take 7 = six ++ [32] := by
      rw [show six ++ 32 :: (List.replicate n 32 ++ 62 :: 62 :: (t ++ [10])) = (six ++ [32]) ++ (List.replicate n 32 ++ 62 :: 62 :: (t ++ [10])) by simp,
        List.take_left' (by simp [h6])]
    have d7 : (six ++ 32 :: (List.replicate n 32 ++ 62 :: 62 :: (t ++ [10]))).drop 7 = List.replicate n 32 ++ 62 :: 62 :: (t ++ [10]) := by
      rw [show six ++ 32 :: (List.replicate n 32 ++ 62 :: 62 :: (t ++ [10])) = (six ++ [32]) ++ (List.replicate n 32 ++ 62 :: 62 :: (t ++ [10])) by simp,
        List.drop_left' (by simp [h6])]
    rw [e7, d7, blanks_then]
    have dd : (six ++ 32 :: (List.replicate n 32 ++ 62 :: 62 :: (t ++ [10]))).drop ((six ++ [32]) ++ List.replicate n 32).length =
        62 :: 62 :: (t ++ [10]) := by
      rw [show six ++ 32 :: (List.replicate n 32 ++ 62 :: 62 :: (t ++ [10])) = ((six ++ [32]) ++ List.replicate n 32) ++ 62 :: 62 :: (t ++ [10]) by simp,
        List.drop_left]
    rw [dd]
    simp only
    have hD' : (t ++ [10]).head? ≠ some 68 := by cases t <;> simp_all
    rw [if_neg hD', hscan, source_format _ (bytes "FREE_1COL_ASTER") .aster named_aster (by decide) hw hlen hv, h.nl]
    simp [SSt.setFmt]
  rw [hd]
  dsimp only
  have hdol : checkDollar cfg { st with nl := 0, fmt := .aster, fmt1 := true } (List.replicate nl 10 ++ bytes "      *> DIRECTIVE\n") =
      ({ st with nl := 0, fmt := .aster, fmt1 := true }, List.replicate nl 10 ++ bytes "      *> DIRECTIVE\n") := by
    unfold checkDollar
    rw [if_neg (by simp), if_pos]
    refine ⟨by simp, ?_⟩
    match nl with
    | 0 => decide
    | 1 => decide
    | nl + 2 => simp [List.replicate_succ]
  rw [hdol]
  dsimp only
  rcases h.status with hs | hs <;> simp only [hs, reduceCtorEq, if_false]

/-- **C68** Behind `>>SOURCE FORMAT IS FREE_1COL_ASTER` the lines are read in that format; the lines in front of it are read as
if the file ended there, and the directive takes one line. -/
theorem C68_fixed_to_aster (cfg : SCfg) (hcol : cfg.textCol = 72) (hmf : cfg.mfcomment = false) (fixed : List (List Nat))
    (six dir : List Nat) (lines texts : List (List Nat)) (hfix : ∀ l ∈ fixed, SrcOk l) (h6 : six.length = 6)
    (ws : List (List Nat)) (hw : ws ∈ formatWords (bytes "FREE_1COL_ASTER")) (hdir : FormatLine (six ++ [32]) dir ws)
    (hok : ∀ l ∈ lines, AsterOk l) (h : List.Forall₂ AsterText lines texts) :
    ppSource cfg .fixed (fileOf (fixed ++ dir :: lines)) =
      (ppSource cfg .fixed (fileOf fixed)).map fun o => o ++ bytes "      *> DIRECTIVE\n" ++ fileOf texts := by
  have hlen : dir.length ≤ 255 := by have := hdir.len; omega
  have hch : ∀ c ∈ dir, c ≠ 9 ∧ c ≠ 10 ∧ c ≠ 13 :=
    fun c hc => by obtain ⟨a, b, c, _⟩ := hdir.chars c hc; exact ⟨a, b, c⟩
  have e : fileOf (fixed ++ dir :: lines) = fileOf fixed ++ (dir ++ 10 :: fileOf lines) := by simp [fileOf]
  unfold ppSource
  rw [e]
  rcases fixed_lines cfg hcol hmf (dir ++ 10 :: fileOf lines) fixed ((fileOf fixed ++ (dir ++ 10 :: fileOf lines)).length + 1)
    (startState .fixed) .closed 0 hfix ⟨rfl, rfl, .inl rfl, rfl, rfl, trivial, rfl⟩ (by omega) with ⟨i1, i2⟩ | ⟨fuel', st', s', nl', o, i1, i2, i3, i4⟩
  · rw [i1, i2 _ (Nat.lt_succ_self _)]; rfl
  · rw [i3, i4 _ (Nat.lt_succ_self _)]
    cases fuel' with
    | zero => simp at i1
    | succ fuel' =>
      obtain ⟨st2, hp, hfr⟩ := to_aster cfg st' s' nl' i2 h6 hw hdir
      have hd : decide (st'.fmt ≠ .fixed ∧ st'.fmt1 = false) = false := by simp [i2.fmt]
      rw [file_step cfg fuel' st' _ (fileOf lines) dir (by
        rw [hd]
        have := readChars_plain cfg.tab (fileOf lines) dir [] (by simpa using hlen) hch
        simpa using this), hp]
      have h2 := aster_lines cfg st2 hfr h hok fuel' (by simp at i1 ⊢; omega)
      cases h5 : ppFile cfg fuel' st2 (fileOf lines) with
      | none => rw [h5] at h2; simp at h2
      | some y =>
        rw [h5] at h2
        simp only [Option.map_some, Option.some.injEq] at h2
        simp only [h5, Option.map_some, List.flatten_cons, h2, List.append_assoc]

example : ppSource srcCfg .fixed (bytes "       A.\n       >>SOURCE FORMAT IS FREE_1COL_ASTER\n* note\nB.\n") =
    some (bytes "A.\n      *> DIRECTIVE\n\nB.\n") := by decide +kernel

/-! ### Samples -/

/-- Decidable form of `NoStar`. -/
theorem noStar_of {l : List Nat} (h : findStar l = none) : NoStar l := by
  intro p hp
  have := star_of (l := List.replicate 7 0 ++ l) (by simpa using h) (7 + p) (by omega)
  apply this
  rw [List.getElem?_append_right (by simp), List.getElem?_append_right (by simp; omega)]
  simp only [List.length_replicate, show 7 + p - 7 = p by omega, show 7 + p + 1 - 7 = p + 1 by omega]
  exact hp

theorem direct_of {l : List Nat} (h : (l.dropWhile (· == 32)).take 2 ≠ [62, 62]) : ∀ n r, l ≠ List.replicate n 32 ++ 62 :: 62 :: r := by
  rintro n r rfl
  apply h
  induction n with
  | zero => simp
  | succ n ih => simp [List.replicate_succ]

theorem chars_of {l : List Nat} (h : (l.all fun c => c != 9 && c != 10 && c != 13) = true) : ∀ c ∈ l, c ≠ 9 ∧ c ≠ 10 ∧ c ≠ 13 := by
  intro c hc
  have := List.all_eq_true.1 h c hc
  simp only [Bool.and_eq_true, bne_iff_ne] at this
  exact ⟨this.1.1, this.1.2, this.2⟩

/-- Tabs and CR LF. -/
example : ppSource srcCfg .fixed (rawFile [(bytes "\tMOVE\tA TO B.", [13, 10]), (bytes "*\tNOT CODE", [10]), (bytes "", [13, 10])]) =
    ppSource srcCfg .fixed (fileOf [List.replicate 8 32 ++ bytes "MOVE    A TO B.", bytes "*       NOT CODE", []]) := by
  rw [C68_tabs]
  · decide +kernel
  · intro p hp
    simp only [List.mem_cons, List.not_mem_nil, or_false] at hp
    rcases hp with rfl | rfl | rfl <;> refine ⟨by decide +kernel, by decide +kernel, ?_⟩ <;>
      exact srcOk_of (by decide +kernel) (by decide +kernel) (by decide +kernel) (by decide +kernel) (by decide +kernel)

/-- Free format. -/
example : ppSource srcCfg .free (fileOf [bytes "DISPLAY 'A'", [], bytes "  STOP RUN. *> done"]) =
    some (bytes " DISPLAY 'A'\n\n  STOP RUN. \n") := by
  rw [C68_free srcCfg _ [bytes " DISPLAY 'A'", [], bytes "  STOP RUN. "]]
  · decide +kernel
  · intro l hl
    simp only [List.mem_cons, List.not_mem_nil, or_false] at hl
    rcases hl with rfl | rfl | rfl <;>
      exact ⟨by decide +kernel, chars_of (by decide +kernel), by decide +kernel, direct_of (by decide +kernel)⟩
  · exact .cons (.plain _ (noStar_of (by decide +kernel))) (.cons (.plain [] (noStar_of rfl))
      (.cons (FreeText.comment (bytes "  STOP RUN. ") (bytes " done") (noStar_of (by decide +kernel)) (by decide +kernel) (by decide +kernel)) .nil))

/-- From fixed to free format. -/
example : ppSource srcCfg .fixed (fileOf ([srcLine 32 (bytes "A."), srcLine 42 (bytes "no")] ++
      srcLine 32 (bytes ">>source format is free") :: [bytes "B."])) = some (bytes "A.\n\n      *> DIRECTIVE\n B.\n") := by
  rw [C68_fixed_to_free srcCfg rfl rfl _ (List.replicate 6 32) _ _ [bytes " B."] ?_ (by decide)
    [bytes "SOURCE", bytes "FORMAT", bytes "IS", bytes "FREE"] (by decide +kernel)]
  · decide +kernel
  · refine ⟨by decide +kernel, by decide +kernel, noStar_of (by decide +kernel), 0, bytes "source format is free",
      [bytes "source", bytes "format", bytes "is", bytes "free"], by decide +kernel, by decide +kernel, ?_, by decide +kernel, by decide +kernel⟩
    exact HasWords.more 0 (bytes "source") (bytes "format is free") _ (by decide +kernel) (by decide +kernel)
      (HasWords.more 0 (bytes "format") (bytes "is free") _ (by decide +kernel) (by decide +kernel)
        (HasWords.more 0 (bytes "is") (bytes "free") _ (by decide +kernel) (by decide +kernel)
          (HasWords.last 0 (bytes "free") (by decide +kernel) (by decide +kernel))))
  · intro l hl
    simp only [List.mem_singleton] at hl
    subst hl
    exact ⟨by decide +kernel, chars_of (by decide +kernel), by decide +kernel, direct_of (by decide +kernel)⟩
  · exact .cons (.plain _ (noStar_of (by decide +kernel))) .nil
  · intro l hl
    simp only [List.mem_cons, List.not_mem_nil, or_false] at hl
    rcases hl with rfl | rfl <;>
      exact srcOk_of (by decide +kernel) (by decide +kernel) (by decide +kernel) (by decide +kernel) (by decide +kernel)

/-- `$SET SOURCEFORMAT(FREE)`. -/
example : ppSource srcCfg .fixed (fileOf ([srcLine 32 (bytes "A.")] ++ srcLine 36 (bytes "Set SourceFormat(Free)") :: [bytes "B."])) =
    some (bytes "A.\n      *> DIRECTIVE\n B.\n") := by
  rw [C68_set_free srcCfg rfl rfl _ _ _ [bytes " B."]]
  · decide +kernel
  · intro l hl
    simp only [List.mem_singleton] at hl
    subst hl
    exact srcOk_of (by decide +kernel) (by decide +kernel) (by decide +kernel) (by decide +kernel) (by decide +kernel)
  · refine ⟨by decide +kernel, by decide +kernel, star_of (by decide +kernel), by decide +kernel,
      [bytes "$Set", bytes "SourceFormat(Free)"], ?_, by decide +kernel, by decide +kernel⟩
    exact HasWords.more 0 (bytes "$Set") (bytes "SourceFormat(Free)") _ (by decide +kernel) (by decide +kernel)
      (HasWords.last 0 (bytes "SourceFormat(Free)") (by decide +kernel) (by decide +kernel))
  · intro l hl
    simp only [List.mem_singleton] at hl
    subst hl
    exact ⟨by decide +kernel, chars_of (by decide +kernel), by decide +kernel, direct_of (by decide +kernel)⟩
  · exact .cons (.plain _ (noStar_of (by decide +kernel))) .nil

/-- From free to fixed format. -/
example : ppSource srcCfg .free (fileOf ([bytes "A."] ++ bytes ">>SOURCE FIXED" :: [srcLine 42 (bytes "no"), srcLine 32 (bytes "B.")])) =
    some (bytes " A.\n\n\nB.\n") := by
  rw [C68_free_to_fixed srcCfg rfl rfl [bytes "A."] [bytes " A."] (bytes ">>SOURCE FIXED") _ ?_ ?_ [bytes "SOURCE", bytes "FIXED"] (by decide +kernel)]
  · decide +kernel
  · refine ⟨by decide +kernel, by decide +kernel, noStar_of (by decide +kernel), 0, bytes "SOURCE FIXED",
      [bytes "SOURCE", bytes "FIXED"], by decide +kernel, by decide +kernel, ?_, by decide +kernel, by decide +kernel⟩
    exact HasWords.more 0 (bytes "SOURCE") (bytes "FIXED") _ (by decide +kernel) (by decide +kernel)
      (HasWords.last 0 (bytes "FIXED") (by decide +kernel) (by decide +kernel))
  · intro l hl
    simp only [List.mem_cons, List.not_mem_nil, or_false] at hl
    rcases hl with rfl | rfl <;>
      exact srcOk_of (by decide +kernel) (by decide +kernel) (by decide +kernel) (by decide +kernel) (by decide +kernel)
  · intro l hl
    simp only [List.mem_singleton] at hl
    subst hl
    exact ⟨by decide +kernel, chars_of (by decide +kernel), by decide +kernel, direct_of (by decide +kernel)⟩
  · exact .cons (.plain _ (noStar_of (by decide +kernel))) .nil

/-- `*` in column 1. -/
example : ppSource srcCfg .aster (fileOf [bytes "* comment", bytes "DISPLAY A *> text", bytes "X."]) =
    some (bytes "\nDISPLAY A \nX.\n") := by
  rw [C68_aster srcCfg _ [[], bytes "DISPLAY A ", bytes "X."]]
  · decide +kernel
  · intro l hl
    simp only [List.mem_cons, List.not_mem_nil, or_false] at hl
    rcases hl with rfl | rfl | rfl <;>
      exact ⟨by decide +kernel, chars_of (by decide +kernel), by decide +kernel, direct_of (by decide +kernel)⟩
  · exact .cons (AsterText.aster (bytes " comment") (by decide +kernel))
      (.cons (AsterText.comment (bytes "DISPLAY A ") (bytes " text") (noStar_of (by decide +kernel)) (by decide +kernel) (by decide +kernel) (by decide +kernel))
        (.cons (.plain _ (noStar_of (by decide +kernel)) (by decide +kernel)) .nil))

/-! ### Findings -/

/-- Finding: in the format FREE_1COL_ASTER a `$` directive in column 1 is not seen (the line is passed on as text), one in
column 2 is. -/
theorem C68_finding_aster_dollar :
    ppSource srcCfg .aster (fileOf [bytes "$IF X DEFINED", bytes "A.", bytes "$END"]) = some (bytes "$IF X DEFINED\nA.\n$END\n") ∧
    ppSource srcCfg .aster (fileOf [bytes " $IF X DEFINED", bytes "A.", bytes " $END"]) = some (bytes "\n") := by
  decide +kernel

/-- Finding: in free format the lines of a part that is not compiled are not counted: the text of line 4 stands on line 1, and
the newline that is left over comes at the end of the program. -/
theorem C68_finding_lost_lines :
    ppSource srcCfg .free (fileOf [bytes "$IF X DEFINED", bytes "A.", bytes "$END", bytes "B."]) = some (bytes " B.\n\n") := by
  decide +kernel

/-- Finding: `>>D` lines in free format: with debugging the characters `>>D` are blanked, without it the line is a comment; but
any word that begins with D is taken for it: `>>DEFINE X` is not a directive that is passed over, it becomes `EFINE X`. -/
theorem C68_finding_debug_word :
    ppSource { srcCfg with debugging := true } .free (fileOf [bytes ">>DEFINE X"]) = some (bytes "    EFINE X\n") ∧
    ppSource srcCfg .free (fileOf [bytes ">>DEFINE X"]) = some (bytes "      *> DEBUG\n") := by decide +kernel

/-- Finding: in free format too, `*>` in a literal with apostrophes cuts the literal off. -/
theorem C68_finding_comment_in_literal :
    ppSource srcCfg .free (fileOf [bytes "DISPLAY 'A*>B'."]) = some (bytes " DISPLAY 'A\n") := by decide +kernel

end Cob
