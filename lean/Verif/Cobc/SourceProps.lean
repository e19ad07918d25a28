import Verif.Cobc.SourceSpec
/-
C65: fixed-format source lines.
-/
namespace Cob

/-! ### Reading a line -/

theorem readChars_plain (tab : Nat) (rest : List Nat) : ∀ (l acc : List Nat), acc.length + l.length ≤ 255 →
    (∀ c ∈ l, c ≠ 9 ∧ c ≠ 10 ∧ c ≠ 13) → readChars false tab false acc (l ++ 10 :: rest) = (acc ++ l ++ [10], rest) := by
  intro l
  induction l with
  | nil =>
    intro acc hl _
    rw [List.nil_append, readChars, if_neg (by simp at hl; omega)]
    simp
  | cons c l ih =>
    intro acc hl hc
    obtain ⟨h1, h2, h3⟩ := hc c (by simp)
    simp only [List.length_cons] at hl
    rw [List.cons_append, readChars, if_neg (by omega)]
    simp only [Bool.false_eq_true, false_and, and_false, if_false, h1, h2, h3]
    rw [ih (acc ++ [c]) (by simp; omega) (fun x hx => hc x (by simp [hx]))]
    simp

theorem findStar_some : ∀ (l : List Nat) (p : Nat), findStar l = some p → l[p]? = some 42 ∧ l[p + 1]? = some 62 := by
  intro l
  induction l with
  | nil => intro p h; simp [findStar] at h
  | cons c l ih =>
    intro p h
    rw [findStar.eq_def] at h
    split at h
    · rename_i heq
      simp only [List.cons.injEq] at heq
      obtain ⟨rfl, rfl⟩ := heq
      simp only [Option.some.injEq] at h
      subst h
      simp
    · rename_i heq
      simp only [List.cons.injEq] at heq
      obtain ⟨rfl, rfl⟩ := heq
      simp only [Option.map_eq_some_iff] at h
      obtain ⟨p', h1, rfl⟩ := h
      simpa using ih p' h1
    · rename_i heq; simp at heq

theorem getElem?_snoc {l : List Nat} {p c d : Nat} (h : (l ++ [d])[p]? = some c) (hne : c ≠ d) : l[p]? = some c := by
  rw [List.getElem?_append] at h
  split at h
  · exact h
  · rename_i hp
    by_cases hq : p - l.length = 0
    · rw [hq] at h; simp at h; exact absurd h.symm hne
    · rw [List.getElem?_eq_none (by simp; omega)] at h; simp at h

theorem cut_star {l : List Nat} (h : ∀ p, 7 ≤ p → ¬ (l[p]? = some 42 ∧ l[p + 1]? = some 62)) :
    cutComment (l ++ [10]) = l ++ [10] := by
  unfold cutComment
  cases hf : findStar (l ++ [10]) with
  | none => rfl
  | some p =>
    simp only
    rw [if_neg]
    rintro ⟨hp, -⟩
    obtain ⟨h1, h2⟩ := findStar_some _ _ hf
    exact h p hp ⟨getElem?_snoc h1 (by omega), getElem?_snoc h2 (by omega)⟩

theorem cut_plain {l : List Nat} (h : SrcOk l) : cutComment (l ++ [10]) = l ++ [10] := cut_star h.star

theorem getD_snoc (l : List Nat) (h : 7 ≤ l.length) : (l ++ [10]).getD 6 0 = l.getD 6 0 := by
  simp [List.getD_eq_getElem?_getD, List.getElem?_append, show 6 < l.length by omega]

theorem getD_six (l : List Nat) (h : 7 ≤ l.length) (c : Nat) : l.getD 6 0 = c ↔ l[6]? = some c := by
  rw [List.getD_eq_getElem?_getD, List.getElem?_eq_getElem (by omega)]; simp

theorem takeWhile_split (l : List Nat) : l = List.replicate (l.takeWhile (· == 32)).length 32 ++ l.dropWhile (· == 32) := by
  induction l with
  | nil => rfl
  | cons c l ih =>
    by_cases h : c = 32
    · subst h
      simp only [List.takeWhile_cons, List.dropWhile_cons, beq_self_eq_true, if_true, List.length_cons, List.replicate_succ,
        List.cons_append, ← ih]
    · simp [List.takeWhile_cons, List.dropWhile_cons, h]

theorem drop_takeWhile (l : List Nat) : l.drop (l.takeWhile (· == 32)).length = l.dropWhile (· == 32) := by
  conv => lhs; arg 2; rw [takeWhile_split l]
  rw [List.drop_append_of_le_length (by simp), List.drop_of_length_le (by simp)]
  rfl

theorem directive_plain {l : List Nat} (h : SrcOk l) (cfg : SCfg) (st : SSt) (hf : st.fmt = .fixed) :
    checkDirective cfg st (l ++ [10]) = (st, l ++ [10]) := by
  unfold checkDirective
  by_cases h1 : (l ++ [10]).length < 8 ∨ (l ++ [10]).getD 6 0 ≠ 32
  · rw [if_pos ⟨hf, h1⟩]
  · rw [if_neg (fun hh => h1 hh.2)]
    simp only [List.length_append, List.length_cons, List.length_nil] at h1
    have hlen : 7 ≤ l.length := by omega
    have hind : l[6]? = some 32 := by
      rw [← getD_six l hlen, ← getD_snoc l hlen]
      by_cases hh : (l ++ [10]).getD 6 0 = 32
      · exact hh
      · exact absurd (.inr hh) h1
    simp only [hf, if_true]
    have hd : (l ++ [10]).drop 7 = l.drop 7 ++ [10] := List.drop_append_of_le_length hlen
    have hk : (l ++ [10]).drop (((l ++ [10]).take 7) ++ ((l ++ [10]).drop 7).takeWhile (· == 32)).length =
        (l.drop 7 ++ [10]).dropWhile (· == 32) := by
      rw [List.length_append, List.length_take, Nat.min_eq_left (by simp; omega), ← List.drop_drop, hd, drop_takeWhile]
    rw [hk]
    split
    · rename_i s hs
      exfalso
      have hsp := takeWhile_split (l.drop 7 ++ [10])
      rw [hs] at hsp
      rcases List.eq_nil_or_concat s with rfl | ⟨s', x, rfl⟩
      · have := congrArg List.getLast? hsp
        simp [List.getLast?_append] at this
      · rw [List.concat_eq_append] at hsp
        have e : List.replicate ((l.drop 7 ++ [10]).takeWhile (· == 32)).length 32 ++ 62 :: 62 :: (s' ++ [x]) =
            (List.replicate ((l.drop 7 ++ [10]).takeWhile (· == 32)).length 32 ++ 62 :: 62 :: s') ++ [x] := by simp
        rw [e] at hsp
        exact h.direct hind _ _ (List.append_inj_left' hsp rfl)
    · rfl

theorem dollar_plain {l : List Nat} (h : SrcOk l) (cfg : SCfg) (st : SSt) (hf : st.fmt = .fixed) :
    checkDollar cfg st (l ++ [10]) = (st, l ++ [10]) := by
  unfold checkDollar
  rw [if_pos]
  refine ⟨hf, ?_⟩
  by_cases hlen : 7 ≤ l.length
  · refine .inr fun hh => h.dollar ?_
    rw [← getD_six l hlen, ← getD_snoc l hlen]; exact hh
  · left; simp; omega

theorem takeWhile_line (l : List Nat) (h : ∀ c ∈ l, c ≠ 10) : (l ++ [10]).takeWhile (· != 10) = l := by
  induction l with
  | nil => rfl
  | cons c l ih =>
    have := h c (by simp)
    simp [List.takeWhile_cons, this]
    exact ih (fun x hx => h x (by simp [hx]))

theorem area_line {l : List Nat} (h : SrcOk l) (hl : 7 ≤ l.length) :
    ((if 72 + 1 < (l ++ [10]).length then (l ++ [10]).take 72 ++ [10] else l ++ [10]).drop 7).takeWhile (· != 10) = area l := by
  have h10 : ∀ c ∈ l, c ≠ 10 := fun c hc => (h.chars c hc).2.1
  simp only [List.length_append, List.length_cons, List.length_nil]
  split
  · rw [List.take_append_of_le_length (by omega), List.drop_append_of_le_length (by simp; omega)]
    rw [show (l.take 72).drop 7 = area l by unfold area; rw [List.drop_take]]
    exact takeWhile_line _ fun c hc => h10 c (List.mem_of_mem_drop (List.mem_of_mem_take hc))
  · rw [List.drop_append_of_le_length hl, takeWhile_line _ fun c hc => h10 c (List.mem_of_mem_drop hc)]
    unfold area
    rw [List.take_of_length_le (by simp; omega)]

/-! ### Literals -/

/-- `quotation_mark` and `consecutive_quotation`. -/
def Lit.enc : Lit → Nat × Bool
  | .closed => (0, false)
  | .opened q => (q, false)
  | .edge q => (q, true)

/-- The mark is `'` or `"`. -/
def Lit.Good : Lit → Prop
  | .closed => True
  | .opened q => q = 39 ∨ q = 34
  | .edge q => q = 39 ∨ q = 34

theorem scan_after : ∀ (t : List Nat) (s : Lit) (col : Nat), s.Good → ((∃ q, s = .edge q) → t = []) → col + t.length ≤ 72 →
    scanQuotes 72 col s.enc.1 s.enc.2 t = (s.after col t).enc ∧ (s.after col t).Good := by
  intro t
  induction t with
  | nil => intro s col hs _ _; cases s <;> exact ⟨rfl, hs⟩
  | cons c t ih =>
    intro s col hs he hl
    simp only [List.length_cons] at hl
    cases s with
    | closed =>
      by_cases hc : c = 39 ∨ c = 34
      · have := ih (.opened c) (col + 1) hc (by simp) (by omega)
        simpa [scanQuotes, Lit.enc, Lit.after, hc] using this
      · have := ih .closed (col + 1) trivial (by simp) (by omega)
        simpa [scanQuotes, Lit.enc, Lit.after, hc] using this
    | opened q =>
      have hq : q ≠ 0 := by rcases hs with h | h <;> omega
      by_cases hc : c = q
      · subst hc
        by_cases h71 : col = 71
        · have ht : t = [] := List.length_eq_zero_iff.1 (by omega)
          subst ht
          have hs' : c = 39 ∨ c = 34 := hs
          subst h71
          simp [scanQuotes, Lit.enc, Lit.after, hs', hq, Lit.Good]
        · have hs' : c = 39 ∨ c = 34 := hs
          have := ih .closed (col + 1) trivial (by simp) (by omega)
          simpa [scanQuotes, Lit.enc, Lit.after, hs', hq, h71] using this
      · have := ih (.opened q) (col + 1) hs (by simp) (by omega)
        by_cases hc' : c = 39 ∨ c = 34
        · simpa [scanQuotes, Lit.enc, Lit.after, hc, hc', hq, Ne.symm hc] using this
        · simpa [scanQuotes, Lit.enc, Lit.after, hc, hc', hq] using this
    | edge q => exact absurd (he ⟨q, rfl⟩) (by simp)

theorem finish_visible (s : Lit) (hs : s.Good) (col : Nat) (t : List Nat) : finishText s.enc.1 col t = visible s col t := by
  cases s with
  | closed => rfl
  | opened q =>
    have hq : q ≠ 0 := by rcases hs with h | h <;> omega
    simp [finishText, visible, Lit.enc, hq]
  | edge q =>
    have hq : q ≠ 0 := by rcases hs with h | h <;> omega
    simp [finishText, visible, Lit.enc, hq]

/-! ### A line -/

/-- The state between two lines. -/
structure Between (st : SSt) (s : Lit) (nl : Nat) : Prop where
  fmt : st.fmt = .fixed
  fmt1 : st.fmt1 = false
  status : st.status = .none ∨ st.status = .tru
  quote : st.quote = s.enc.1
  consec : st.consec = s.enc.2
  good : s.Good
  nl : st.nl = nl

theorem emit_ok (cfg : SCfg) (hcol : cfg.textCol = 72) (st : SSt) (s : Lit) (nl : Nat) (h : Between st s nl) (cont : Bool)
    (col : Nat) (t : List Nat) (he : (∃ q, s = .edge q) → t = []) (hl : col + t.length ≤ 72) :
    ∃ st', emitText cfg st cont col t =
        .out ((if cont then [] else List.replicate nl 10) ++ visible (s.after col t) col t) st' ∧
      Between st' (s.after col t) (if cont then nl + 1 else 1) := by
  obtain ⟨h1, h2⟩ := scan_after t s col h.good he hl
  rw [← h.quote, ← h.consec] at h1
  unfold emitText
  rw [hcol, h1]
  dsimp only
  rw [finish_visible _ h2]
  cases cont with
  | true =>
    refine ⟨{ st with quote := (s.after col t).enc.1, consec := (s.after col t).enc.2, nl := st.nl + 1 }, by simp, ?_⟩
    exact ⟨h.fmt, h.fmt1, h.status, rfl, rfl, h2, by simp [h.nl]⟩
  | false =>
    refine ⟨{ st with quote := (s.after col t).enc.1, consec := (s.after col t).enc.2, nl := 1 }, by simp [h.nl], ?_⟩
    exact ⟨h.fmt, h.fmt1, h.status, rfl, rfl, h2, rfl⟩

/-- What one line gives. -/
inductive LineGives (dbg : Bool) (s : Lit) (nl : Nat) (l : List Nat) : SRd → Prop
  | skip (st : SSt) (h : Between st s (nl + 1)) (hi : ignored dbg l = true ∨
      (ignored dbg l = false ∧ (l[6]? = some 32 ∨ l[6]? = some 45 ∨ l[6]? = some 68 ∨ l[6]? = some 100) ∧ blankText l = true)) :
      LineGives dbg s nl l (.skip st)
  | bad (hi : ignored dbg l = false) (h : ¬ (l[6]? = some 32 ∨ l[6]? = some 45 ∨ l[6]? = some 68 ∨ l[6]? = some 100)) :
      LineGives dbg s nl l .stop
  | badCont (hi : ignored dbg l = false) (hb : blankText l = false) (h : l[6]? = some 45) (hc : contStart s (area l) = none) :
      LineGives dbg s nl l .stop
  | cont (hi : ignored dbg l = false) (hb : blankText l = false) (h : l[6]? = some 45) (p : Lit × Nat × List Nat)
      (hc : contStart s (area l) = some p) (st : SSt) (hst : Between st (p.1.after p.2.1 p.2.2) (nl + 1)) :
      LineGives dbg s nl l (.out (visible (p.1.after p.2.1 p.2.2) p.2.1 p.2.2) st)
  | normal (hi : ignored dbg l = false) (hb : blankText l = false) (h : l[6]? = some 32 ∨ l[6]? = some 68 ∨ l[6]? = some 100)
      (st : SSt) (hst : Between st (Lit.closed.after 7 (area l)) 1) :
      LineGives dbg s nl l (.out (List.replicate nl 10 ++ visible (Lit.closed.after 7 (area l)) 7 (area l)) st)

theorem area_len (l : List Nat) : (area l).length ≤ 65 := by simp [area]; omega

theorem cont_ok (cfg : SCfg) (hcol : cfg.textCol = 72) (st : SSt) (s : Lit) (nl : Nat) (h : Between st s nl) (t : List Nat)
    (hl : t.length ≤ 65) :
    (contStart s t = none ∧ continueLine cfg st t = .stop) ∨
    ∃ p st', contStart s t = some p ∧ continueLine cfg st t = .out (visible (p.1.after p.2.1 p.2.2) p.2.1 p.2.2) st' ∧
      Between st' (p.1.after p.2.1 p.2.2) (nl + 1) := by
  have hsp : (t.takeWhile (· == 32)).length + (t.drop (t.takeWhile (· == 32)).length).length ≤ 65 := by
    have : (t.takeWhile (· == 32)).length ≤ t.length := (List.takeWhile_prefix _).length_le
    rw [List.length_drop]; omega
  unfold continueLine contStart
  dsimp only
  revert hsp
  generalize (t.takeWhile (· == 32)).length = sp
  generalize t.drop sp = r
  intro hsp
  cases s with
  | closed =>
    right
    have e1 : st.consec = false := h.consec
    have e2 : st.quote = 0 := h.quote
    obtain ⟨st', h1, h2⟩ := emit_ok cfg hcol st .closed nl h true (7 + sp) r (by simp) (by omega)
    refine ⟨_, st', rfl, ?_, h2⟩
    simpa [e1, e2] using h1
  | opened q =>
    have e1 : st.consec = false := h.consec
    have e2 : st.quote = q := h.quote
    have hq : q ≠ 0 := by rcases h.good with h | h <;> omega
    cases r with
    | nil => left; simp [e1, e2, hq]
    | cons c r =>
      by_cases hc : c = q
      · right
        simp only [List.length_cons] at hsp
        obtain ⟨st', h1, h2⟩ := emit_ok cfg hcol st (.opened q) nl h true (7 + sp + 1) r (by simp) (by omega)
        refine ⟨_, st', if_pos hc, ?_, h2⟩
        simpa [e1, e2, hq, hc] using h1
      · left; simp [e1, e2, hq, hc]
  | edge q =>
    have e1 : st.consec = true := h.consec
    have e2 : st.quote = q := h.quote
    cases r with
    | nil => left; simp [e1]
    | cons c r =>
      cases r with
      | nil => left; simp [e1]
      | cons d r =>
        by_cases hc : c = q ∧ d = q
        · right
          simp only [List.length_cons] at hsp
          have hb : Between { st with quote := 0, consec := false } .closed nl :=
            ⟨h.fmt, h.fmt1, h.status, rfl, rfl, trivial, h.nl⟩
          obtain ⟨st', h1, h2⟩ := emit_ok cfg hcol _ .closed nl hb true (7 + sp + 1) (d :: r) (by simp) (by simp; omega)
          refine ⟨_, st', if_pos hc, ?_, h2⟩
          simp only [e1, if_true, e2, hc, and_self]
          simpa [hc] using h1
        · left; simp [e1, e2, hc]

theorem line_ok (cfg : SCfg) (hcol : cfg.textCol = 72) (hmf : cfg.mfcomment = false) (st : SSt) (s : Lit) (nl : Nat)
    (h : Between st s nl) (l : List Nat) (hok : SrcOk l) :
    LineGives cfg.debugging s nl l (ppLine cfg st (l ++ [10])) := by
  have hskip : Between { st with nl := st.nl + 1 } s (nl + 1) :=
    ⟨h.fmt, h.fmt1, h.status, h.quote, h.consec, h.good, by simp [h.nl]⟩
  unfold ppLine
  rw [if_neg (by simp [h.fmt1]), cut_plain hok, directive_plain hok cfg st h.fmt]
  dsimp only
  rw [dollar_plain hok cfg st h.fmt]
  suffices hx : LineGives cfg.debugging s nl l (fixedLine cfg st (l ++ [10])) by
    rcases h.status with hs | hs <;> simpa only [hs, h.fmt, if_true] using hx
  unfold fixedLine
  by_cases hlen : l.length < 7
  · rw [if_pos (by simp; omega)]
    exact .skip _ hskip (.inl (by simp [ignored, hlen]))
  · have hlen' : 7 ≤ l.length := by omega
    rw [if_neg (by simp; omega), if_neg (by simp [hmf])]
    simp only [hcol, ne_eq, getD_snoc l hlen', getD_six l hlen', area_line hok hlen']
    by_cases h1 : l[6]? = some 42 ∨ l[6]? = some 47
    · rw [if_pos h1]
      refine .skip _ hskip (.inl ?_)
      rcases h1 with h1 | h1 <;> simp [ignored, h1]
    · rw [if_neg h1]
      by_cases h2 : (l[6]? = some 68 ∨ l[6]? = some 100) ∧ cfg.debugging = false
      · rw [if_pos h2]
        refine .skip _ hskip (.inl ?_)
        obtain ⟨h2, h3⟩ := h2
        rcases h2 with h2 | h2 <;> simp [ignored, h2, h3]
      · rw [if_neg h2]
        have hi : ignored cfg.debugging l = false := by
          have e1 : l[6]? ≠ some 42 := fun h => h1 (.inl h)
          have e2 : l[6]? ≠ some 47 := fun h => h1 (.inr h)
          have e3 : (l[6]? == some 68 || l[6]? == some 100) = true → cfg.debugging = true := by
            intro hh
            cases hd : cfg.debugging
            · exact absurd ⟨by simpa using hh, hd⟩ h2
            · rfl
          unfold ignored
          rw [decide_eq_false hlen, beq_eq_false_iff_ne.2 e1, beq_eq_false_iff_ne.2 e2]
          cases hx : (l[6]? == some 68 || l[6]? == some 100)
          · rfl
          · rw [e3 hx]; rfl
        by_cases h3 : ¬ l[6]? = some 32 ∧ ¬ l[6]? = some 45 ∧ ¬ l[6]? = some 68 ∧ ¬ l[6]? = some 100
        · rw [if_pos h3]
          exact .bad hi (by rintro (h | h | h | h) <;> simp [h] at h3)
        · rw [if_neg h3]
          have h3' : l[6]? = some 32 ∨ l[6]? = some 45 ∨ l[6]? = some 68 ∨ l[6]? = some 100 := by
            by_cases a : l[6]? = some 32
            · exact .inl a
            · by_cases b : l[6]? = some 45
              · exact .inr (.inl b)
              · by_cases c : l[6]? = some 68
                · exact .inr (.inr (.inl c))
                · by_cases d : l[6]? = some 100
                  · exact .inr (.inr (.inr d))
                  · exact absurd ⟨a, b, c, d⟩ h3
          by_cases hb : (area l).all (· == 32) = true
          · rw [if_pos hb]
            exact .skip _ hskip (.inr ⟨hi, h3', hb⟩)
          · rw [if_neg hb]
            have hb' : blankText l = false := by simpa [blankText] using hb
            by_cases h4 : l[6]? = some 45
            · rw [if_pos h4]
              rcases cont_ok cfg hcol st s nl h (area l) (area_len l) with ⟨hc, he⟩ | ⟨p, st', hc, he, hst⟩
              · rw [he]; exact .badCont hi hb' h4 hc
              · rw [he]; exact .cont hi hb' h4 p hc st' hst
            · rw [if_neg h4]
              have hbt : Between { st with quote := 0, consec := false } .closed nl :=
                ⟨h.fmt, h.fmt1, h.status, rfl, rfl, trivial, h.nl⟩
              obtain ⟨st', he, hst⟩ := emit_ok cfg hcol _ .closed nl hbt false 7 (area l) (by simp)
                (by have := area_len l; omega)
              rw [he]
              refine .normal hi hb' ?_ st' hst
              rcases h3' with h | h | h
              · exact .inl h
              · exact absurd h h4
              · exact .inr h

/-! ### The file -/

theorem file_ok (cfg : SCfg) (hcol : cfg.textCol = 72) (hmf : cfg.mfcomment = false) : ∀ (lines : List (List Nat)) (fuel : Nat)
    (st : SSt) (s : Lit) (k done : Nat), (∀ l ∈ lines, SrcOk l) → Between st s (k - done) → done ≤ k → (k = done → k = 0) →
    (fileOf lines).length < fuel →
    (ppFile cfg fuel st (fileOf lines)).map List.flatten =
      (sourceText cfg.debugging k s lines).map (layOut (k + lines.length) done) := by
  intro lines
  induction lines with
  | nil =>
    intro fuel st s k done _ h hd hk hf
    cases fuel with
    | zero => simp at hf
    | succ fuel =>
      simp only [fileOf, List.map_nil, List.flatten_nil, ppFile, readChars, if_true, h.nl, sourceText, Option.map_some, layOut,
        List.length_nil, Nat.add_zero]
      by_cases h0 : k - done = 0
      · rw [if_pos h0, h0]; rfl
      · rw [if_neg h0]; simp
  | cons l lines ih =>
    intro fuel st s k done hok h hd hk hf
    cases fuel with
    | zero => simp at hf
    | succ fuel =>
      have hl := hok l (by simp)
      have hfile : fileOf (l :: lines) = l ++ 10 :: fileOf lines := by simp [fileOf]
      have hrest : (fileOf lines).length < fuel := by
        rw [hfile] at hf; simp at hf; omega
      have htot : k + (l :: lines).length = k + 1 + lines.length := by simp; omega
      rw [ppFile]
      simp only [h.fmt, ne_eq, not_true_eq_false, false_and, decide_false, hfile]
      rw [readChars_plain cfg.tab (fileOf lines) l [] (by have := hl.len; simp; omega) hl.chars]
      simp only [List.nil_append]
      rw [if_neg (by simp), show endLine (l ++ [10]) = l ++ [10] by simp [endLine]]
      rw [htot]
      have hlines : ∀ x ∈ lines, SrcOk x := fun x hx => hok x (by simp [hx])
      have hk1 : k + 1 - done = k - done + 1 := by omega
      have hres := line_ok cfg hcol hmf st s (k - done) h l hl
      revert hres
      generalize ppLine cfg st (l ++ [10]) = res
      intro hres
      cases hres with
      | skip st' hst hi =>
        simp only
        rw [ih fuel st' s (k + 1) done hlines (hk1 ▸ hst) (by omega) (by omega) hrest]
        rw [sourceText]
        rcases hi with hi | ⟨hi, h3, hb⟩
        · rw [if_pos hi]
        · rw [if_neg (by simp [hi]), if_neg (fun hn => hn h3), if_pos hb]
      | bad hi h3 => rw [sourceText, if_neg (by simp [hi]), if_pos h3]; rfl
      | badCont hi hb h4 hc =>
        rw [sourceText, if_neg (by simp [hi]), if_neg (by simp [h4]), if_neg (by simp [hb]), if_pos h4, hc]; rfl
      | cont hi hb h4 p hc st' hst =>
        simp only
        rw [sourceText, if_neg (by simp [hi]), if_neg (by simp [h4]), if_neg (by simp [hb]), if_pos h4, hc]
        simp only [Option.bind_some]
        have := ih fuel st' _ (k + 1) done hlines (hk1 ▸ hst) (by omega) (by omega) hrest
        rw [Option.map_map, Option.map_map]
        cases h5 : ppFile cfg fuel st' (fileOf lines) with
        | none => rw [h5] at this; cases h6 : sourceText cfg.debugging (k + 1) (p.1.after p.2.1 p.2.2) lines with
          | none => rfl
          | some x => rw [h6] at this; simp at this
        | some y => rw [h5] at this; cases h6 : sourceText cfg.debugging (k + 1) (p.1.after p.2.1 p.2.2) lines with
          | none => rw [h6] at this; simp at this
          | some x =>
            rw [h6] at this
            simp only [Option.map_some, Option.some.injEq] at this
            simp [layOut, this]
      | normal hi hb h4 st' hst =>
        simp only
        have hne : l[6]? ≠ some 45 := by rcases h4 with h | h | h <;> simp [h]
        rw [sourceText, if_neg (by simp [hi]), if_neg (by rcases h4 with h | h | h <;> simp [h]), if_neg (by simp [hb]), if_neg hne]
        have := ih fuel st' _ (k + 1) k hlines (by rw [show k + 1 - k = 1 by omega]; exact hst) (by omega) (by omega) hrest
        rw [Option.map_map, Option.map_map]
        cases h5 : ppFile cfg fuel st' (fileOf lines) with
        | none => rw [h5] at this; cases h6 : sourceText cfg.debugging (k + 1) (Lit.closed.after 7 (area l)) lines with
          | none => rfl
          | some x => rw [h6] at this; simp at this
        | some y => rw [h5] at this; cases h6 : sourceText cfg.debugging (k + 1) (Lit.closed.after 7 (area l)) lines with
          | none => rw [h6] at this; simp at this
          | some x =>
            rw [h6] at this
            simp only [Option.map_some, Option.some.injEq] at this
            simp [layOut, this]

/-! ### The theorems -/

/-- The scanner reads the texts of columns 8 to 72, each on the line with its number, continuation lines joined. -/
theorem C65_source (cfg : SCfg) (hcol : cfg.textCol = 72) (hmf : cfg.mfcomment = false) (lines : List (List Nat))
    (hok : ∀ l ∈ lines, SrcOk l) :
    ppSource cfg .fixed (fileOf lines) = (sourceText cfg.debugging 0 .closed lines).map (layOut lines.length 0) := by
  have := file_ok cfg hcol hmf lines ((fileOf lines).length + 1) (startState .fixed) .closed 0 0 hok
    ⟨rfl, rfl, .inl rfl, rfl, rfl, trivial, rfl⟩ (by omega) (by omega) (by omega)
  simpa [ppSource] using this

end Cob
