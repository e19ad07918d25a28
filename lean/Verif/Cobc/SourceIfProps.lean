import Verif.Cobc.SourceIfSpec
import Verif.Cobc.SourceProps
/-
C66: conditional compilation.
-/
namespace Cob

/-! ### Words -/

theorem eqNoCase_same (a b : List Nat) : eqNoCase a b = sameB a b := rfl

theorem sameB_iff (a b : List Nat) : sameB a b = true ↔ a.map lowB = b.map lowB := by
  unfold sameB; exact beq_iff_eq

theorem sameB_congr {a a' : List Nat} (h : sameB a a' = true) (b : List Nat) : sameB a b = sameB a' b := by
  unfold sameB at *; rw [beq_iff_eq.1 h]

theorem sameB_congr_right {a a' : List Nat} (h : sameB a a' = true) (b : List Nat) : sameB b a = sameB b a' := by
  unfold sameB at *; rw [beq_iff_eq.1 h]

theorem scan_blanks (n : Nat) (t : List Nat) : scanWords [] (List.replicate n 32 ++ t) = scanWords [] t := by
  induction n with
  | zero => rfl
  | succ n ih => rw [List.replicate_succ, List.cons_append, scanWords]; simpa using ih

/-- No separator but the space. -/
def Printable (t : List Nat) : Prop := ∀ c ∈ t, c ≠ 9 ∧ c ≠ 10 ∧ c ≠ 13 ∧ c ≠ 11 ∧ c ≠ 12

theorem scan_word : ∀ (w cur t : List Nat), Printable w → 32 ∉ w → scanWords cur (w ++ t) = scanWords (cur ++ w) t := by
  intro w
  induction w with
  | nil => intro cur t _ _; simp
  | cons c w ih =>
    intro cur t hp hs
    obtain ⟨h1, h2, h3, h4, h5⟩ := hp c (by simp)
    simp only [List.mem_cons, not_or] at hs
    rw [List.cons_append, scanWords, if_neg (by omega), ih _ _ (fun x hx => hp x (by simp [hx])) hs.2]
    simp

theorem scan_has {t : List Nat} {ws : List (List Nat)} (h : HasWords t ws) (hp : Printable t) : scanWords [] t = ws := by
  induction h with
  | none n =>
    have := scan_blanks n []
    simpa [scanWords] using this
  | last n w hw hs =>
    rw [scan_blanks]
    have := scan_word w [] [] (fun x hx => hp x (by simp [hx])) hs
    rw [List.append_nil] at this
    rw [this]; simp [scanWords, hw]
  | more n w rest ws hw hs hr ih =>
    rw [List.append_assoc, scan_blanks, scan_word w [] _ (fun x hx => hp x (by simp [hx])) hs, List.nil_append, scanWords]
    simp [hw, ih (fun x hx => hp x (by simp [hx]))]

theorem scan_snoc : ∀ (t cur : List Nat), scanWords cur (t ++ [10]) = scanWords cur t := by
  intro t
  induction t with
  | nil => intro cur; simp [scanWords]
  | cons c t ih => intro cur; rw [List.cons_append, scanWords, scanWords, ih, ih]

theorem has_nonempty {t : List Nat} {ws : List (List Nat)} (h : HasWords t ws) : ∀ v ∈ ws, v ≠ [] := by
  induction h with
  | none n => simp
  | last n w hw hs => simpa using hw
  | more n w rest ws hw hs hr ih =>
    intro v hv
    rcases List.mem_cons.1 hv with rfl | hv
    · exact hw
    · exact ih v hv

theorem dir_words {l : List Nat} {ws : List (List Nat)} (h : DirLine l ws) :
    ∃ vs, scanWords [] (((l ++ [10]).take 72).drop 6) = vs ∧ vs.length = ws.length ∧ (∀ p ∈ vs.zip ws, sameB p.1 p.2 = true) ∧
      ∀ v ∈ vs, v ≠ [] := by
  obtain ⟨vs, h1, h2, h3⟩ := h.words
  refine ⟨vs, ?_, h2, fun p hp => by rw [← eqNoCase_same]; exact h3 p hp, has_nonempty h1⟩
  have h6 : 6 < l.length := (List.getElem?_eq_some_iff.1 h.dollar).1
  have hpr : Printable ((l.drop 6).take 66) := fun c hc => h.chars c (List.mem_of_mem_drop (List.mem_of_mem_take hc))
  rw [← scan_has h1 hpr]
  by_cases hl : 72 ≤ l.length
  · rw [List.take_append_of_le_length hl, List.drop_take]
  · rw [List.take_of_length_le (by simp; omega), List.drop_append_of_le_length (by omega), scan_snoc,
      List.take_of_length_le (by simp; omega)]

/-! ### A directive line -/

def active (K : List CSt) : Bool := K.all fun c => c == .tru || c == .truElse

/-- The state between two lines, in the conditional parts `K`. -/
structure InPart (st : SSt) (s : Lit) (K : List CSt) : Prop where
  fmt : st.fmt = .fixed
  fmt1 : st.fmt1 = false
  status : if active K = true then st.status = .none ∨ st.status = .tru else st.status = .fls
  quote : st.quote = s.enc.1
  consec : st.consec = s.enc.2
  good : s.Good
  stack : st.stack = K

theorem dir_line (cfg : SCfg) (hcol : cfg.textCol = 72) (hmf : cfg.mfcomment = false) {l : List Nat} {ws : List (List Nat)}
    (h : DirLine l ws) (st : SSt) (s : Lit) (K K' : List CSt) (hst : InPart st s K) (h5 : ws.length ≤ 5)
    (hset : sameB (ws.getD 0 []) (bytes "$SET") = false) (hne : ws ≠ [])
    (hd : ∀ vs : List (List Nat), vs.length = ws.length → (∀ p ∈ vs.zip ws, sameB p.1 p.2 = true) →
      (∀ v ∈ vs, v ≠ []) → dollarStack cfg K vs = some K') :
    ∃ st', ppLine cfg st (l ++ [10]) = .skip st' ∧ InPart st' s K' ∧ st'.nl = 1 := by
  obtain ⟨vs, h1, h2, h3, h4⟩ := dir_words h
  have h6 : 6 < l.length := (List.getElem?_eq_some_iff.1 h.dollar).1
  have hg : (l ++ [10]).getD 6 0 = 36 := by
    rw [getD_snoc l (by omega), getD_six l (by omega)]; exact h.dollar
  have hdir : checkDirective cfg st (l ++ [10]) = (st, l ++ [10]) := by
    unfold checkDirective
    rw [if_pos ⟨hst.fmt, .inr (by rw [hg]; omega)⟩]
  have hset' : sameB (vs.getD 0 []) (bytes "$SET") = false := by
    cases vs with
    | nil => cases ws with
      | nil => exact absurd rfl hne
      | cons _ _ => simp at h2
    | cons v vs => cases ws with
      | nil => exact absurd rfl hne
      | cons w ws =>
        have := h3 (v, w) (by simp)
        simp only [List.getD_cons_zero] at hset ⊢
        rw [sameB_congr this]; exact hset
  have hdol : checkDollar cfg st (l ++ [10]) = (if active K' then
      ({ st with nl := 0, stack := K', status := if st.nl = 0 then .tru else .flsEnd }, List.replicate st.nl 10 ++ bytes "      *> DIRECTIVE\n")
      else ({ st with nl := 0, stack := K', status := .fls }, List.replicate st.nl 10 ++ bytes "      *> DIRECTIVE\n")) := by
    unfold checkDollar
    rw [if_neg (by rw [hg]; simp; omega), if_neg (by simp [hst.fmt])]
    simp only [hst.fmt, if_true, hcol, h1]
    rw [List.take_of_length_le (by omega), if_neg (by rw [hset']; exact Bool.false_ne_true), hst.stack, hd vs h2 h3 h4]
    rfl
  unfold ppLine
  rw [if_neg (by simp [hst.fmt1]), cut_star h.star, hdir]
  dsimp only
  rw [hdol]
  by_cases ha : active K' = true
  · rw [if_pos ha]
    by_cases h0 : st.nl = 0
    · refine ⟨{ st with nl := 1, stack := K', status := .tru }, ?_, ⟨hst.fmt, hst.fmt1, by simp [ha], hst.quote, hst.consec, hst.good, rfl⟩, rfl⟩
      simp only [h0, if_true, hst.fmt]
      unfold fixedLine
      rw [if_neg (by decide +kernel), if_neg (by simp [hmf])]
      rw [if_pos (.inl (by decide +kernel))]
    · refine ⟨{ st with nl := 1, stack := K', status := .none }, ?_, ⟨hst.fmt, hst.fmt1, by simp [ha], hst.quote, hst.consec, hst.good, rfl⟩, rfl⟩
      simp only [h0, if_false, Nat.zero_add]
  · rw [if_neg ha]
    exact ⟨{ st with nl := 1, stack := K', status := .fls }, rfl, ⟨hst.fmt, hst.fmt1, by simp [ha], hst.quote, hst.consec, hst.good, rfl⟩, rfl⟩

/-! ### The stack of conditions -/

theorem word_lit {v w : List Nat} (h : sameB v w = true) (x : List Nat) : sameB v x = sameB w x := sameB_congr h x

theorem len_of_same {v w : List Nat} (h : sameB v w = true) : v.length = w.length := by
  have := congrArg List.length ((sameB_iff v w).1 h); simpa using this

theorem lowB_quote {a : Nat} (h : lowB a = 34) : a = 34 := by
  unfold lowB at h; split at h <;> omega

theorem quote_lowB : lowB 34 = 34 := rfl

/-- A word that is a text in quotation marks but for the case of letters is a text in quotation marks. -/
theorem quoted_same {v t : List Nat} (h : sameB v (34 :: t ++ [34]) = true) :
    ∃ u, v = 34 :: u ++ [34] ∧ sameB u t = true := by
  rw [sameB_iff] at h
  cases v with
  | nil => simp at h
  | cons a v =>
    simp only [List.map_cons, List.cons_append, List.cons.injEq] at h
    have ha := lowB_quote h.1
    subst ha
    rcases List.eq_nil_or_concat v with rfl | ⟨u, x, rfl⟩
    · simp at h
    · rw [List.concat_eq_append] at h ⊢
      simp only [List.map_append, List.map_cons, List.map_nil] at h
      have h1 := List.append_inj_left' h.2 rfl
      have h2 := List.append_inj_right' h.2 rfl
      simp only [List.cons.injEq, and_true] at h2
      have := lowB_quote h2
      subst this
      exact ⟨u, by simp, (sameB_iff _ _).2 h1⟩

theorem no_quote_same {u t : List Nat} (h : sameB u t = true) (ht : 34 ∉ t) : 34 ∉ u := by
  intro hu
  rw [sameB_iff] at h
  have : lowB 34 ∈ u.map lowB := List.mem_map_of_mem hu
  rw [h] at this
  obtain ⟨x, hx, hx'⟩ := List.mem_map.1 this
  exact ht (lowB_quote hx' ▸ hx)

theorem find_filter {α : Type} (p : α → Bool) (l : List α) : l.find? p = (l.filter p).head? := by
  simp

theorem cond_ok (cfg : SCfg) (c : DirCond) (hc : c.Ok) (vs : List (List Nat))
    (hlen : vs.length = (bytes "$IF" :: c.words).length)
    (hs : ∀ p ∈ vs.zip (bytes "$IF" :: c.words), sameB p.1 p.2 = true) (hv : ∀ v ∈ vs, v ≠ []) :
    dollarCond cfg vs = some (c.holds cfg.consts) := by
  have hfind : ∀ (v n : List Nat), sameB v n = true →
      cfg.consts.find? (fun c => sameB c.1 v) = cfg.consts.find? (fun c => sameB c.1 n) := by
    intro v n h
    congr 1; funext c; exact sameB_congr_right h _
  have hany : ∀ n, cfg.consts.any (fun c => eqNoCase c.1 n) = (cfg.consts.find? fun c => sameB c.1 n).isSome := by
    intro n
    show cfg.consts.any (fun c => sameB c.1 n) = _
    generalize cfg.consts = l
    induction l with
    | nil => rfl
    | cons a l ih =>
      rw [List.any_cons, List.find?_cons, ih]
      cases sameB a.1 n <;> rfl
  have hD : sameB (bytes "DEFINED") (bytes "NOT") = false := by decide +kernel
  have hE : sameB (bytes "=") (bytes "NOT") = false := by decide +kernel
  have hED : sameB (bytes "=") (bytes "DEFINED") = false := by decide +kernel
  have hDD : sameB (bytes "DEFINED") (bytes "DEFINED") = true := by decide +kernel
  have hNN : sameB (bytes "NOT") (bytes "NOT") = true := by decide +kernel
  have hEE : sameB (bytes "=") (bytes "=") = true := by decide +kernel
  have hval : ∀ x t, sameB x (34 :: t ++ [34]) = true → t ≠ [] → 34 ∉ t →
      ¬ (x.length < 3 ∨ x.head? ≠ some 34 ∨ x.getLast? ≠ some 34 ∨ (x.drop 1).dropLast.contains 34 = true) ∧
      sameB (x.drop 1).dropLast t = true := by
    intro x t hx ht hq
    obtain ⟨u, rfl, hu⟩ := quoted_same hx
    have hul := len_of_same hu
    have hut : t.length ≠ 0 := fun h => ht (List.eq_nil_of_length_eq_zero h)
    have huq := no_quote_same hu hq
    simp only [List.cons_append, List.drop_succ_cons, List.drop_zero, List.dropLast_concat]
    refine ⟨?_, hu⟩
    rw [← List.cons_append, List.getLast?_append]
    simp [huq]; omega
  cases c with
  | defined neg n =>
    cases neg with
    | false =>
      match vs, hlen with
      | [v0, v1, v2], _ =>
        have e1 : sameB v1 n = true := hs (v1, n) (by simp [DirCond.words])
        have e2 : sameB v2 (bytes "DEFINED") = true := hs (v2, bytes "DEFINED") (by simp [DirCond.words])
        have n1 : v1 ≠ [] := hv v1 (by simp)
        unfold dollarCond
        simp [sameB_congr e2, hD, hDD, n1, hfind v1 n e1, DirCond.holds, hany]
        cases h : cfg.consts.find? (fun c => sameB c.1 n) <;> simp
    | true =>
      match vs, hlen with
      | [v0, v1, v2, v3], _ =>
        have e1 : sameB v1 n = true := hs (v1, n) (by simp [DirCond.words])
        have e2 : sameB v2 (bytes "NOT") = true := hs (v2, bytes "NOT") (by simp [DirCond.words])
        have e3 : sameB v3 (bytes "DEFINED") = true := hs (v3, bytes "DEFINED") (by simp [DirCond.words])
        have n1 : v1 ≠ [] := hv v1 (by simp)
        unfold dollarCond
        simp [sameB_congr e2, sameB_congr e3, hNN, hDD, n1, hfind v1 n e1, DirCond.holds, hany]
        cases h : cfg.consts.find? (fun c => sameB c.1 n) <;> simp
  | equals neg n t =>
    cases neg with
    | false =>
      match vs, hlen with
      | [v0, v1, v2, v3], _ =>
        have e1 : sameB v1 n = true := hs (v1, n) (by simp [DirCond.words])
        have e2 : sameB v2 (bytes "=") = true := hs (v2, bytes "=") (by simp [DirCond.words])
        have e3 : sameB v3 (34 :: t ++ [34]) = true := hs (v3, 34 :: t ++ [34]) (by simp [DirCond.words])
        have n1 : v1 ≠ [] := hv v1 (by simp)
        have n3 : v3 ≠ [] := hv v3 (by simp)
        obtain ⟨q1, q2⟩ := hval v3 t e3 hc.1 hc.2
        unfold dollarCond
        simp only [List.getD_cons_succ, List.getD_cons_zero, sameB_congr e2, hE, hED, hEE, n1, n3, if_false, Bool.false_eq_true,
          if_true, Nat.add_zero, hfind v1 n e1, q1, sameB_congr q2, DirCond.holds, or_self, and_false, Bool.true_eq_false,
          ← find_filter, eqNoCase_same, Bool.not_false]
        cases h : cfg.consts.find? (fun c => sameB c.1 n) with
        | none => rfl
        | some c =>
          obtain ⟨a, b⟩ := c
          cases b with
          | none => rfl
          | some v =>
            have : sameB t v = sameB v t := by unfold sameB; exact BEq.comm
            simp only [this]
            cases sameB v t <;> rfl
    | true =>
      match vs, hlen with
      | [v0, v1, v2, v3, v4], _ =>
        have e1 : sameB v1 n = true := hs (v1, n) (by simp [DirCond.words])
        have e2 : sameB v2 (bytes "NOT") = true := hs (v2, bytes "NOT") (by simp [DirCond.words])
        have e3 : sameB v3 (bytes "=") = true := hs (v3, bytes "=") (by simp [DirCond.words])
        have e4 : sameB v4 (34 :: t ++ [34]) = true := hs (v4, 34 :: t ++ [34]) (by simp [DirCond.words])
        have n1 : v1 ≠ [] := hv v1 (by simp)
        have n4 : v4 ≠ [] := hv v4 (by simp)
        obtain ⟨q1, q2⟩ := hval v4 t e4 hc.1 hc.2
        unfold dollarCond
        simp only [List.getD_cons_succ, List.getD_cons_zero, sameB_congr e2, sameB_congr e3, hNN, hED, hEE, n1, n4, if_false,
          Bool.false_eq_true, if_true, hfind v1 n e1, q1, sameB_congr q2, DirCond.holds, or_self, and_false,
          Bool.true_eq_false, ← find_filter, eqNoCase_same, Bool.not_true]
        cases h : cfg.consts.find? (fun c => sameB c.1 n) with
        | none => rfl
        | some c =>
          obtain ⟨a, b⟩ := c
          cases b with
          | none => rfl
          | some v =>
            have : sameB t v = sameB v t := by unfold sameB; exact BEq.comm
            simp only [this]
            cases sameB v t <;> rfl

theorem if_stack (cfg : SCfg) (c : DirCond) (hc : c.Ok) (K : List CSt) (hK : K.length < 10) (vs : List (List Nat))
    (hlen : vs.length = (bytes "$IF" :: c.words).length)
    (hs : ∀ p ∈ vs.zip (bytes "$IF" :: c.words), sameB p.1 p.2 = true) (hv : ∀ v ∈ vs, v ≠ []) :
    dollarStack cfg K vs = some ((if c.holds cfg.consts then .tru else .fls) :: K) := by
  unfold dollarStack
  rw [cond_ok cfg c hc vs hlen hs hv]
  cases vs with
  | nil => simp at hlen
  | cons v vs =>
    have : sameB v (bytes "$IF") = true := hs (v, bytes "$IF") (by simp)
    simp only [List.getD_cons_zero, this, if_true, if_neg (show ¬ 10 ≤ K.length by omega), Option.map_some]

theorem one_stack (cfg : SCfg) (w : List Nat) (K : List CSt) (vs : List (List Nat)) (hlen : vs.length = 1)
    (hs : ∀ p ∈ vs.zip [w], sameB p.1 p.2 = true) : dollarStack cfg K vs = dollarStack cfg K [w] ∨ sameB w (bytes "$IF") = true := by
  match vs, hlen with
  | [v], _ =>
    have e : sameB v w = true := hs (v, w) (by simp)
    cases hw : sameB w (bytes "$IF") with
    | true => exact .inr rfl
    | false =>
      left
      unfold dollarStack
      simp only [List.getD_cons_zero, sameB_congr e, hw, Bool.false_eq_true, if_false]

theorem else_stack (cfg : SCfg) (b : Bool) (K : List CSt) (vs : List (List Nat)) (hlen : vs.length = [bytes "$ELSE"].length)
    (hs : ∀ p ∈ vs.zip [bytes "$ELSE"], sameB p.1 p.2 = true) :
    dollarStack cfg ((if b then .tru else .fls) :: K) vs = some ((if b then .flsElse else .truElse) :: K) := by
  have h1 : sameB (bytes "$ELSE") (bytes "$IF") = false := by decide +kernel
  have h2 : sameB (bytes "$ELSE") (bytes "$ELSE") = true := by decide +kernel
  rcases one_stack cfg _ ((if b then CSt.tru else .fls) :: K) vs hlen hs with h | h
  · rw [h]
    unfold dollarStack
    simp only [List.getD_cons_zero, h1, h2, Bool.false_eq_true, if_false, if_true]
    cases b <;> rfl
  · rw [h1] at h; simp at h

theorem end_stack (cfg : SCfg) (x : CSt) (K : List CSt) (vs : List (List Nat)) (hlen : vs.length = [bytes "$END"].length)
    (hs : ∀ p ∈ vs.zip [bytes "$END"], sameB p.1 p.2 = true) : dollarStack cfg (x :: K) vs = some K := by
  have h1 : sameB (bytes "$END") (bytes "$IF") = false := by decide +kernel
  have h2 : sameB (bytes "$END") (bytes "$ELSE") = false := by decide +kernel
  have h3 : sameB (bytes "$END") (bytes "$END") = true := by decide +kernel
  rcases one_stack cfg _ (x :: K) vs hlen hs with h | h
  · rw [h]
    unfold dollarStack
    simp only [List.getD_cons_zero, h1, h2, h3, Bool.false_eq_true, if_false, if_true]
  · rw [h1] at h; simp at h

/-! ### Runs -/

/-- The lines are read one after the other, in fixed format. -/
inductive Runs (cfg : SCfg) : SSt → List (List Nat) → Option (List Nat × SSt) → Prop
  | nil (st : SSt) : Runs cfg st [] (some ([], st))
  | skip (st st' : SSt) (l : List Nat) (ls : List (List Nat)) (r : Option (List Nat × SSt)) (hf : st.fmt = .fixed)
      (hlen : l.length ≤ 255) (hch : ∀ c ∈ l, c ≠ 9 ∧ c ≠ 10 ∧ c ≠ 13) (h : ppLine cfg st (l ++ [10]) = .skip st')
      (hr : Runs cfg st' ls r) : Runs cfg st (l :: ls) r
  | out (st st' : SSt) (l t : List Nat) (ls : List (List Nat)) (r : Option (List Nat × SSt)) (hf : st.fmt = .fixed)
      (hlen : l.length ≤ 255) (hch : ∀ c ∈ l, c ≠ 9 ∧ c ≠ 10 ∧ c ≠ 13) (h : ppLine cfg st (l ++ [10]) = .out t st')
      (hr : Runs cfg st' ls r) : Runs cfg st (l :: ls) (r.map fun p => (t ++ p.1, p.2))
  | stop (st : SSt) (l : List Nat) (ls : List (List Nat)) (hf : st.fmt = .fixed)
      (hlen : l.length ≤ 255) (hch : ∀ c ∈ l, c ≠ 9 ∧ c ≠ 10 ∧ c ≠ 13) (h : ppLine cfg st (l ++ [10]) = .stop) :
      Runs cfg st (l :: ls) none

theorem runs_append {cfg : SCfg} {st : SSt} {a b : List (List Nat)} {r : Option (List Nat × SSt)} (h : Runs cfg st a r) :
    (r = none → Runs cfg st (a ++ b) none) ∧
    ∀ o st' r', r = some (o, st') → Runs cfg st' b r' → Runs cfg st (a ++ b) (r'.map fun p => (o ++ p.1, p.2)) := by
  induction h with
  | nil st =>
    refine ⟨by simp, ?_⟩
    rintro o st' r' h hr
    simp only [Option.some.injEq, Prod.mk.injEq] at h
    obtain ⟨rfl, rfl⟩ := h
    cases r' <;> simpa using hr
  | skip st st1 l ls r hf hl hc h hr ih =>
    exact ⟨fun e => .skip st st1 l _ _ hf hl hc h (ih.1 e), fun o st' r' e hr' => .skip st st1 l _ _ hf hl hc h (ih.2 o st' r' e hr')⟩
  | out st st1 l t ls r hf hl hc h hr ih =>
    refine ⟨fun e => ?_, fun o st' r' e hr' => ?_⟩
    · have := Runs.out st st1 l t _ _ hf hl hc h (ih.1 (by simpa using e))
      simpa using this
    · cases r with
      | none => simp at e
      | some p =>
        obtain ⟨p1, p2⟩ := p
        simp only [Option.map_some, Option.some.injEq, Prod.mk.injEq] at e
        obtain ⟨rfl, rfl⟩ := e
        have := Runs.out st st1 l t _ _ hf hl hc h (ih.2 p1 p2 r' rfl hr')
        rw [Option.map_map] at this
        simpa [Function.comp_def] using this
  | stop st l ls hf hl hc h => exact ⟨fun _ => .stop st l _ hf hl hc h, by simp⟩

theorem file_runs {cfg : SCfg} {st : SSt} {lines : List (List Nat)} {r : Option (List Nat × SSt)} (h : Runs cfg st lines r) :
    ∀ fuel, (fileOf lines).length < fuel →
    (ppFile cfg fuel st (fileOf lines)).map List.flatten = r.map fun p => p.1 ++ List.replicate p.2.nl 10 := by
  have step : ∀ (st : SSt) (l : List Nat) (ls : List (List Nat)) (fuel : Nat), st.fmt = .fixed → l.length ≤ 255 →
      (∀ c ∈ l, c ≠ 9 ∧ c ≠ 10 ∧ c ≠ 13) → ppFile cfg (fuel + 1) st (fileOf (l :: ls)) =
        match ppLine cfg st (l ++ [10]) with
        | .skip st' => ppFile cfg fuel st' (fileOf ls)
        | .out t st' => (ppFile cfg fuel st' (fileOf ls)).map (t :: ·)
        | .stop => none := by
    intro st l ls fuel hf hl hc
    have hfile : fileOf (l :: ls) = l ++ 10 :: fileOf ls := by simp [fileOf]
    rw [ppFile]
    simp only [hf, ne_eq, not_true_eq_false, false_and, decide_false, hfile]
    rw [readChars_plain cfg.tab (fileOf ls) l [] (by simp; omega) hc]
    simp only [List.nil_append]
    rw [if_neg (by simp), show endLine (l ++ [10]) = l ++ [10] by simp [endLine]]
    cases ppLine cfg st (l ++ [10]) <;> rfl
  have flen : ∀ (l : List Nat) (ls : List (List Nat)) fuel, (fileOf (l :: ls)).length < fuel + 1 → (fileOf ls).length < fuel := by
    intro l ls fuel h
    simp [fileOf] at h ⊢; omega
  induction h with
  | nil st =>
    intro fuel hf
    cases fuel with
    | zero => simp at hf
    | succ fuel =>
      simp only [fileOf, List.map_nil, List.flatten_nil, ppFile, readChars, if_true, Option.map_some]
      by_cases h0 : st.nl = 0
      · rw [if_pos h0, h0]; rfl
      · rw [if_neg h0]; simp
  | skip st st1 l ls r hf hl hc h hr ih =>
    intro fuel hfu
    cases fuel with
    | zero => simp at hfu
    | succ fuel =>
      rw [step st l ls fuel hf hl hc, h]
      exact ih fuel (flen l ls fuel hfu)
  | out st st1 l t ls r hf hl hc h hr ih =>
    intro fuel hfu
    cases fuel with
    | zero => simp at hfu
    | succ fuel =>
      rw [step st l ls fuel hf hl hc, h]
      have := ih fuel (flen l ls fuel hfu)
      simp only
      cases h5 : ppFile cfg fuel st1 (fileOf ls) with
      | none => rw [h5] at this; cases r with
        | none => rfl
        | some x => simp at this
      | some y => rw [h5] at this; cases r with
        | none => simp at this
        | some x => simp only [Option.map_some, Option.some.injEq] at this ⊢; simp [this]
  | stop st l ls hf hl hc h =>
    intro fuel hfu
    cases fuel with
    | zero => simp at hfu
    | succ fuel => rw [step st l ls fuel hf hl hc, h]; rfl

/-! ### Pieces -/

/-- The texts of lines, and the state of literals behind them. -/
def pieceRun (dbg : Bool) : Lit → List (List Nat) → Option (List (Bool × List Nat) × Lit)
  | s, [] => some ([], s)
  | s, l :: ls =>
    if ignored dbg l then pieceRun dbg s ls
    else if ¬ (l[6]? = some 32 ∨ l[6]? = some 45 ∨ l[6]? = some 68 ∨ l[6]? = some 100) then none
    else if blankText l then pieceRun dbg s ls
    else if l[6]? = some 45 then
      (contStart s (area l)).bind fun p =>
        let s' := p.1.after p.2.1 p.2.2
        (pieceRun dbg s' ls).map fun r => ((true, visible s' p.2.1 p.2.2) :: r.1, r.2)
    else
      let s' := Lit.closed.after 7 (area l)
      (pieceRun dbg s' ls).map fun r => ((false, visible s' 7 (area l)) :: r.1, r.2)

theorem pieceRun_append (dbg : Bool) : ∀ (a : List (List Nat)) (s : Lit) (b : List (List Nat)),
    pieceRun dbg s (a ++ b) = (pieceRun dbg s a).bind fun r => (pieceRun dbg r.2 b).map fun q => (r.1 ++ q.1, q.2) := by
  intro a
  induction a with
  | nil => intro s b; simp [pieceRun]
  | cons l a ih =>
    intro s b
    rw [List.cons_append, pieceRun, pieceRun]
    simp only [ih]
    split
    · rfl
    · split
      · rfl
      · split
        · rfl
        · split
          · cases contStart s (area l) with
            | none => rfl
            | some p =>
              simp only [Option.bind_some]
              cases pieceRun dbg (p.1.after p.2.1 p.2.2) a with
              | none => rfl
              | some r => simp only [Option.bind_some, Option.map_some, Option.map_map]; rfl
          · cases pieceRun dbg (Lit.closed.after 7 (area l)) a with
            | none => rfl
            | some r => simp only [Option.bind_some, Option.map_some, Option.map_map]; rfl

/-- The texts in order; a line that is not a continuation begins a new line, unless it is the first.  `a`, `b`: the newlines
counted before and behind. -/
inductive Laid : Nat → List (Bool × List Nat) → List Nat → Nat → Prop
  | nil (a b : Nat) (h : 1 ≤ a → 1 ≤ b) : Laid a [] [] b
  | cont (a b : Nat) (x : List Nat) (ps : List (Bool × List Nat)) (o : List Nat) (h : Laid 1 ps o b) :
      Laid a ((true, x) :: ps) (x ++ o) b
  | new (a b k : Nat) (x : List Nat) (ps : List (Bool × List Nat)) (o : List Nat) (hk : 1 ≤ a → 1 ≤ k) (h : Laid 1 ps o b) :
      Laid a ((false, x) :: ps) (List.replicate k 10 ++ x ++ o) b

theorem laid_weaken {a a' b : Nat} {ps : List (Bool × List Nat)} {o : List Nat} (h : Laid a ps o b) (ha : 1 ≤ a' → 1 ≤ a) :
    Laid a' ps o b := by
  cases h with
  | nil _ _ h => exact .nil _ _ fun x => h (ha x)
  | cont _ _ x ps o h => exact .cont _ _ x ps o h
  | new _ _ k x ps o hk h => exact .new _ _ k x ps o (fun y => hk (ha y)) h

theorem laid_append {a b c : Nat} {ps qs : List (Bool × List Nat)} {o o' : List Nat} (h : Laid a ps o b) (h' : Laid b qs o' c) :
    Laid a (ps ++ qs) (o ++ o') c := by
  induction h with
  | nil a b h => exact laid_weaken h' h
  | cont a b x ps o h ih => rw [List.append_assoc]; exact .cont _ _ x _ _ (ih h')
  | new a b k x ps o hk h ih => rw [List.append_assoc]; exact .new _ _ k x _ _ hk (ih h')

theorem lines_newlines (cur t : List Nat) : ∀ k, 1 ≤ k →
    srcLines cur (List.replicate k 10 ++ t) = (if cur = [] then [] else [cur]) ++ srcLines [] t := by
  intro k hk
  have h0 : ∀ k, srcLines [] (List.replicate k 10 ++ t) = srcLines [] t := by
    intro k
    induction k with
    | zero => rfl
    | succ k ih => rw [List.replicate_succ, List.cons_append, srcLines]; simpa using ih
  cases k with
  | zero => omega
  | succ k =>
    rw [List.replicate_succ, List.cons_append, srcLines, if_pos rfl, h0]
    by_cases hc : cur = [] <;> simp [hc]

theorem lines_zero (t : List Nat) (k : Nat) : srcLines [] (List.replicate k 10 ++ t) = srcLines [] t := by
  cases k with
  | zero => rfl
  | succ k => simpa using lines_newlines [] t (k + 1) (by omega)

theorem srcLines_congr : ∀ (x cur o o' : List Nat), (∀ cur, srcLines cur o = srcLines cur o') →
    srcLines cur (x ++ o) = srcLines cur (x ++ o') := by
  intro x
  induction x with
  | nil => intro cur o o' h; exact h cur
  | cons c x ih =>
    intro cur o o' h
    simp only [List.cons_append, srcLines, ih _ o o' h]

theorem laid_lines : ∀ (ps : List (Bool × List Nat)) (a b b' : Nat) (o o' cur : List Nat), (1 ≤ a ∨ cur = []) →
    Laid a ps o b → Laid a ps o' b' → srcLines cur (o ++ List.replicate b 10) = srcLines cur (o' ++ List.replicate b' 10) := by
  have hend : ∀ (cur : List Nat) k, srcLines cur (List.replicate k 10) = (if cur = [] then [] else [cur]) := by
    intro cur k
    cases k with
    | zero => simp [srcLines]
    | succ k => have := lines_newlines cur [] (k + 1) (by omega); simpa [srcLines] using this
  intro ps
  induction ps with
  | nil =>
    intro a b b' o o' cur _ h h'
    cases h; cases h'
    simp only [List.nil_append, hend]
  | cons p ps ih =>
    intro a b b' o o' cur hc h h'
    cases h with
    | cont _ _ x ps o h =>
      cases h' with
      | cont _ _ _ _ o' h' =>
        rw [List.append_assoc, List.append_assoc]
        exact srcLines_congr x cur _ _ fun cur => ih 1 b b' o o' cur (.inl (Nat.le_refl _)) h h'
    | new _ _ k x ps o hk h =>
      cases h' with
      | new _ _ k' _ _ o' hk' h' =>
        have key : srcLines [] (x ++ (o ++ List.replicate b 10)) = srcLines [] (x ++ (o' ++ List.replicate b' 10)) :=
          srcLines_congr x [] _ _ fun cur => ih 1 b b' o o' cur (.inl (Nat.le_refl _)) h h'
        simp only [List.append_assoc]
        by_cases hcur : cur = []
        · subst hcur; rw [lines_zero, lines_zero, key]
        · have ha : 1 ≤ a := hc.resolve_right hcur
          rw [lines_newlines _ _ k (hk ha), lines_newlines _ _ k' (hk' ha), key]

end Cob
