import Verif.Intr.Numval
import Verif.Intr.NumericProps
import Verif.Move.EditedExamples
import Mathlib.Tactic.SplitIfs
/-
C58: NUMVAL and NUMVAL-C give the number the text shows.
-/
namespace Cob

/-! ### Specification -/

/-- The digits a text shows, left to right. -/
def textDigits (x : List Nat) : List Nat := (x.filter fun c => 48 ≤ c && c ≤ 57).map (· - 48)

/-- A sign as it is written before or after a number. -/
inductive SignText
  | none | plus | minus
deriving DecidableEq

/-- Its characters. -/
def SignText.bytes : SignText → List Nat
  | .none => []
  | .plus => [43]
  | .minus => [45]

/-- `n` spaces. -/
def blanks (n : Nat) : List Nat := List.replicate n 32

/-- The characters of a number: `ws` are the digits before the point, `fs` those after it. -/
def numvalText (dp : Nat) (point : Bool) (ws fs : List Nat) : List Nat :=
  ws.map (· + 48) ++ (if point then [dp] else []) ++ fs.map (· + 48)

/-- The text arguments NUMVAL is defined for (without CR and DB): spaces, an optional sign, spaces,
digits with at most one decimal point, spaces; or the sign after the number.  `neg` says that the
number is negative. -/
structure NumvalText (dp : Nat) (x : List Nat) (neg : Bool) (ws fs : List Nat) : Prop where
  some : ws ++ fs ≠ []
  digits : ∀ d ∈ ws ++ fs, d ≤ 9
  form : ∃ (point : Bool) (m : SignText) (a b c : Nat), (fs ≠ [] → point = true) ∧ (neg = true ↔ m = .minus) ∧
    (x = blanks a ++ m.bytes ++ blanks b ++ numvalText dp point ws fs ++ blanks c ∨
     x = blanks a ++ numvalText dp point ws fs ++ blanks b ++ m.bytes ++ blanks c)

/-- The number shown: the digits with the point, and the sign. -/
def shownNumber (neg : Bool) (ws fs : List Nat) : ℚ :=
  (if neg then -1 else 1) * (digitsVal (ws ++ fs) : ℚ) / 10 ^ fs.length

/-- The decimal point of the program is a period or, with DECIMAL-POINT IS COMMA, a comma. -/
def PointOk (dp : Nat) : Prop := dp = 46 ∨ dp = 44

/-! ### The loop -/

theorem lowerC_eq {c : Nat} {l : Nat} (hl : 97 ≤ l ∧ l ≤ 122) (h : lowerC c = l) : c = l ∨ c + 32 = l := by
  unfold lowerC at h
  split at h <;> omega

theorem crdb_head {c : Nat} {r : List Nat} (h : c ≠ 67 ∧ c ≠ 99 ∧ c ≠ 68 ∧ c ≠ 100) : crdb (c :: r) = false := by
  unfold crdb
  by_cases h0 : c = 0
  · simp [h0]
  · simp only [List.takeWhile_cons, ne_eq, h0, not_false_eq_true, decide_true, if_true, List.map_cons]
    have h1 : lowerC c ≠ 99 := fun e => by have := lowerC_eq (by omega) e; omega
    have h2 : lowerC c ≠ 100 := fun e => by have := lowerC_eq (by omega) e; omega
    simp [h1, h2]

/-- The characters of `x` taken into the state, one after the other. -/
def nvChars (dp : Nat) (sym : Option Nat) (x : List Nat) (s : NV) : NV := x.foldl (fun s c => nvChar dp sym c s) s

/-- The number of digits in the state. -/
def NV.count (s : NV) : Nat := s.whole.length + s.frac.length

theorem textDigits_cons (c : Nat) (x : List Nat) :
    textDigits (c :: x) = (if 48 ≤ c ∧ c ≤ 57 then [c - 48] else []) ++ textDigits x := by
  unfold textDigits
  by_cases h : 48 ≤ c ∧ c ≤ 57 <;> simp [List.filter_cons, h]

theorem textDigits_append (x y : List Nat) : textDigits (x ++ y) = textDigits x ++ textDigits y := by
  unfold textDigits; simp

theorem nvChar_count (dp : Nat) (sym : Option Nat) (hd : PointOk dp) (hs : ∀ k, sym = some k → ¬ (48 ≤ k ∧ k ≤ 57))
    (c : Nat) (s : NV) : (nvChar dp sym c s).count = s.count + (textDigits [c]).length ∧
      (nvChar dp sym c s).ll = s.ll * 10 ^ (textDigits [c]).length + digitsVal (textDigits [c]) := by
  unfold PointOk at hd
  rw [textDigits_cons]
  by_cases h : 48 ≤ c ∧ c ≤ 57
  · have h1 : some c ≠ sym := fun e => hs c e.symm h
    simp only [if_pos h, nvChar, if_neg (show ¬ c = 32 by omega), if_neg (show ¬ c = 43 by omega),
      if_neg (show ¬ c = 45 by omega), if_neg (show ¬ c = dp by omega), if_neg h1, textDigits, List.filter_nil,
      List.map_nil, List.append_nil, List.length_singleton, pow_one, digitsVal]
    split <;> simp [NV.count] <;> omega
  · simp only [if_neg h, nvChar, textDigits, List.filter_nil, List.map_nil, List.append_nil, List.length_nil, digitsVal]
    split_ifs <;> simp [NV.count]

theorem digitsVal_snoc_append (a b : List Nat) : digitsVal (a ++ b) = digitsVal a * 10 ^ b.length + digitsVal b := by
  induction a with
  | nil => simp [digitsVal]
  | cons d ds ih => simp only [List.cons_append, digitsVal, ih, List.length_append, pow_add]; ring

theorem nvChars_count (dp : Nat) (sym : Option Nat) (hd : PointOk dp) (hs : ∀ k, sym = some k → ¬ (48 ≤ k ∧ k ≤ 57))
    (x : List Nat) : ∀ s : NV, (nvChars dp sym x s).count = s.count + (textDigits x).length ∧
      (nvChars dp sym x s).ll = s.ll * 10 ^ (textDigits x).length + digitsVal (textDigits x) := by
  induction x with
  | nil => intro s; simp [nvChars, textDigits, digitsVal]
  | cons c x ih =>
    intro s
    obtain ⟨h1, h2⟩ := ih (nvChar dp sym c s)
    obtain ⟨h3, h4⟩ := nvChar_count dp sym hd hs c s
    have ht : textDigits (c :: x) = textDigits [c] ++ textDigits x := textDigits_append [c] x
    have he : nvChars dp sym (c :: x) s = nvChars dp sym x (nvChar dp sym c s) := rfl
    rw [he, h1, h2, h3, h4, ht]
    refine ⟨by simp; omega, ?_⟩
    rw [digitsVal_snoc_append, List.length_append, pow_add]
    ring

/-- The sign and the decimals. -/
theorem nvChars_neg (dp : Nat) (sym : Option Nat) (hd : PointOk dp) (x : List Nat) :
    ∀ s : NV, (nvChars dp sym x s).neg = (s.neg || x.contains 45) := by
  induction x with
  | nil => intro s; simp [nvChars]
  | cons c x ih =>
    intro s
    have he : nvChars dp sym (c :: x) s = nvChars dp sym x (nvChar dp sym c s) := rfl
    rw [he, ih]
    unfold PointOk at hd
    by_cases h : c = 45
    · subst h; simp [nvChar]
    · have : (nvChar dp sym c s).neg = s.neg := by
        unfold nvChar; split_ifs <;> rfl
      rw [this]
      simp [Ne.symm h]

theorem nvChars_frac_seen (dp : Nat) (sym : Option Nat) (hd : PointOk dp) (hs : ∀ k, sym = some k → ¬ (48 ≤ k ∧ k ≤ 57))
    (x : List Nat) : ∀ s : NV, s.seen = true → (nvChars dp sym x s).frac.length = s.frac.length + (textDigits x).length := by
  induction x with
  | nil => intro s _; simp [nvChars, textDigits]
  | cons c x ih =>
    intro s hseen
    have he : nvChars dp sym (c :: x) s = nvChars dp sym x (nvChar dp sym c s) := rfl
    have hk : (nvChar dp sym c s).seen = true := by
      unfold nvChar; split_ifs <;> simp_all
    have hc := (nvChar_count dp sym hd hs c s).1
    have hw : (nvChar dp sym c s).whole = s.whole := by
      unfold nvChar; split_ifs <;> simp_all
    have ht : textDigits (c :: x) = textDigits [c] ++ textDigits x := textDigits_append [c] x
    rw [he, ih _ hk, ht, List.length_append]
    unfold NV.count at hc
    rw [hw] at hc
    omega

theorem nvChars_frac (dp : Nat) (sym : Option Nat) (hd : PointOk dp) (hs : ∀ k, sym = some k → ¬ (48 ≤ k ∧ k ≤ 57))
    (x : List Nat) : ∀ s : NV, s.seen = false → (nvChars dp sym x s).frac.length =
      s.frac.length + (textDigits (x.dropWhile (· ≠ dp))).length := by
  induction x with
  | nil => intro s _; simp [nvChars, textDigits]
  | cons c x ih =>
    intro s hseen
    have he : nvChars dp sym (c :: x) s = nvChars dp sym x (nvChar dp sym c s) := rfl
    by_cases h : c = dp
    · subst h
      have hd' := hd
      unfold PointOk at hd
      have hk : (nvChar c sym c s) = { s with seen := true } := by
        unfold nvChar
        rw [if_neg (by omega), if_neg (by omega), if_neg (by omega), if_pos rfl]
      rw [he, hk, nvChars_frac_seen c sym hd' hs x _ rfl]
      simp only [List.dropWhile_cons, ne_eq, not_true_eq_false, decide_false, Bool.false_eq_true, if_false,
        textDigits_cons]
      rw [if_neg (by omega)]
      simp
    · have hk : (nvChar dp sym c s).seen = false := by
        unfold nvChar; split_ifs <;> simp_all
      have hf : (nvChar dp sym c s).frac = s.frac := by
        unfold nvChar; split_ifs <;> simp_all
      rw [he, ih _ hk, hf]
      simp [h]

/-- No letter that could start CR or DB. -/
def NoCD (x : List Nat) : Prop := ∀ c ∈ x, c ≠ 67 ∧ c ≠ 99 ∧ c ≠ 68 ∧ c ≠ 100

theorem nvLoop_chars (dp : Nat) (sym : Option Nat) (hd : PointOk dp) (hs : ∀ k, sym = some k → ¬ (48 ≤ k ∧ k ≤ 57))
    (after : List Nat) (y x : List Nat) : ∀ s : NV, NoCD x → s.count + (textDigits x).length ≤ 30 →
      nvLoop dp sym after (x ++ y) s = nvLoop dp sym after y (nvChars dp sym x s) := by
  induction x with
  | nil => intro s _ _; rfl
  | cons c x ih =>
    intro s hn hc
    have h1 := (nvChar_count dp sym hd hs c s).1
    have ht : textDigits (c :: x) = textDigits [c] ++ textDigits x := textDigits_append [c] x
    rw [ht, List.length_append] at hc
    rw [List.cons_append, nvLoop, if_neg, if_neg, ih _ (fun c hc => hn c (List.mem_cons_of_mem _ hc)) (by omega)]
    · rfl
    · unfold NV.count at h1 hc; omega
    · rw [List.cons_append, crdb_head (hn c (by simp))]
      simp

/-! ### The result item -/

theorem nvResult_holds (ebc : Bool) (s : NV) (hc : s.count ≤ 18) (hl : s.ll < 10 ^ 18) :
    ∃ it, nvResult s = .exact it ∧ WFItem it ∧ it.field.attr.scale = s.frac.length ∧
      Holds ebc it ((if s.neg then -1 else 1) * (s.ll : ℚ) / 10 ^ s.frac.length) := by
  unfold nvResult NV.count at *
  simp only [if_pos hc]
  refine ⟨_, rfl, ?_, ?_, ?_⟩
  · refine ⟨by simp [newBinary, leBytes_length], by simp [newBinary, leBytes_length], ?_⟩
    intro b hb
    exact leBytes_lt _ _ b hb
  · have : schar (s.frac.length : Int) = s.frac.length := by
      unfold schar
      rw [Int.bmod_eq_of_le] <;> omega
    simpa [newBinary] using this
  · have hsc : schar (s.frac.length : Int) = s.frac.length := by
      unfold schar
      rw [Int.bmod_eq_of_le] <;> omega
    refine ⟨if s.neg then -(s.ll : Int) else s.ll, ?_, ?_⟩
    · simp only [HoldsUnits, newBinary]
      unfold binaryHolds
      simp only [bytesVal, Bool.false_eq_true, if_false, if_true, leBytes_length]
      have hv : ∀ l : List Nat, l.foldr (fun b n => b + 256 * n) 0 = leVal l := by
        intro l; induction l with
        | nil => rfl
        | cons a l ih => simp [leVal, ih]
      rw [hv, leVal_leBytes]
      generalize hgen : (if s.neg = true then -(s.ll : Int) else (s.ll : Int)) = v
      have hvb : -(10 : Int) ^ 18 < v ∧ v < 10 ^ 18 := by
        have : (s.ll : Int) < 10 ^ 18 := by exact_mod_cast hl
        subst hgen; split <;> constructor <;> omega
      have hm : ((v % 2 ^ 64).toNat % 256 ^ 8 : Nat) = (v % 2 ^ 64).toNat :=
        Nat.mod_eq_of_lt (by norm_num; omega)
      rw [hm]
      norm_num at hvb ⊢
      split_ifs <;> omega
    · simp only [newBinary, hsc, zpow_natCast]
      split <;> simp

/-! ### NUMVAL -/

theorem textDigits_none (x : List Nat) (h : ∀ c ∈ x, ¬ (48 ≤ c ∧ c ≤ 57)) : textDigits x = [] := by
  unfold textDigits
  rw [List.filter_eq_nil_iff.2]
  · rfl
  · intro c hc
    have := h c hc
    simp
    omega

theorem textDigits_map (ds : List Nat) (h : ∀ d ∈ ds, d ≤ 9) : textDigits (ds.map (· + 48)) = ds := by
  induction ds with
  | nil => rfl
  | cons d ds ih =>
    have h1 := h d (by simp)
    rw [List.map_cons, textDigits_cons, if_pos (by omega), ih (fun d hd => h d (by simp [hd]))]
    simp

theorem textDigits_number {dp : Nat} (hd : PointOk dp) (point : Bool) {ws fs : List Nat} (hdig : ∀ d ∈ ws ++ fs, d ≤ 9) :
    textDigits (numvalText dp point ws fs) = ws ++ fs := by
  unfold PointOk at hd
  unfold numvalText
  rw [textDigits_append, textDigits_append, textDigits_map ws (fun d h => hdig d (by simp [h])),
    textDigits_map fs (fun d h => hdig d (by simp [h])), textDigits_none]
  · simp
  · intro c hc; split at hc <;> simp at hc; omega

theorem textDigits_blanks (n : Nat) : textDigits (blanks n) = [] :=
  textDigits_none _ (by intro c hc; simp [blanks] at hc; omega)

theorem textDigits_sign (m : SignText) : textDigits m.bytes = [] :=
  textDigits_none _ (by intro c hc; cases m <;> simp [SignText.bytes] at hc <;> omega)

/-- What a text is taken for, character by character. -/
theorem nvChars_text (dp : Nat) (sym : Option Nat) (hd : PointOk dp) (hs : ∀ k, sym = some k → ¬ (48 ≤ k ∧ k ≤ 57))
    (x : List Nat) :
    (nvChars dp sym x {}).count = (textDigits x).length ∧
    (nvChars dp sym x {}).ll = digitsVal (textDigits x) ∧
    (nvChars dp sym x {}).neg = x.contains 45 ∧
    (nvChars dp sym x {}).frac.length = (textDigits (x.dropWhile (· ≠ dp))).length := by
  obtain ⟨h1, h2⟩ := nvChars_count dp sym hd hs x {}
  refine ⟨by rw [h1]; simp [NV.count], by rw [h2]; simp, by rw [nvChars_neg dp sym hd]; simp, ?_⟩
  rw [nvChars_frac dp sym hd hs x {} rfl]
  simp

theorem textDigits_le (x : List Nat) : ∀ d ∈ textDigits x, d ≤ 9 := by
  intro d hd
  simp [textDigits] at hd
  obtain ⟨c, hc, rfl⟩ := hd
  omega

/-- **C58** NUMVAL of any text without the letters of CR and DB and with at most 18 digits: the
digits of the text, whatever stands between them, are the number; those after the first decimal
point are its decimals; a minus anywhere makes it negative; other characters have no effect. -/
theorem C58_numval_any (ebc : Bool) (dp : Nat) (hd : PointOk dp) (after x : List Nat) (hx : NoCD x)
    (hn : (textDigits x).length ≤ 18) :
    ∃ it, intrNumval dp after x = .exact it ∧ WFItem it ∧
      it.field.attr.scale = (textDigits (x.dropWhile (· ≠ dp))).length ∧
      Holds ebc it ((if 45 ∈ x then -1 else 1) * (digitsVal (textDigits x) : ℚ) /
        10 ^ (textDigits (x.dropWhile (· ≠ dp))).length) := by
  obtain ⟨h1, h2, h3, h4⟩ := nvChars_text dp none hd (by simp) x
  have hloop := nvLoop_chars dp none hd (by simp) after [] x {} hx (by simp [NV.count]; omega)
  rw [List.append_nil] at hloop
  have hlt : digitsVal (textDigits x) < 10 ^ 18 :=
    lt_of_lt_of_le (digitsVal_lt _ (textDigits_le x)) (Nat.pow_le_pow_right (by omega) hn)
  obtain ⟨it, g1, g2, g3, g4⟩ := nvResult_holds ebc (nvChars dp none x {}) (by rw [h1]; exact hn) (by rw [h2]; exact hlt)
  refine ⟨it, ?_, g2, by rw [g3, h4], ?_⟩
  · unfold intrNumval
    rw [hloop]
    exact g1
  · rw [h2, h3, h4] at g4
    simpa using g4

/-- Characters around a number: spaces and signs. -/
def Around (p : List Nat) : Prop := ∀ c ∈ p, c = 32 ∨ c = 43 ∨ c = 45

theorem around_blanks (n : Nat) : Around (blanks n) := by
  intro c hc; simp [blanks] at hc; omega

theorem around_sign (m : SignText) : Around m.bytes := by
  intro c hc; cases m <;> simp [SignText.bytes] at hc <;> omega

theorem around_append {p q : List Nat} (hp : Around p) (hq : Around q) : Around (p ++ q) := by
  intro c hc
  rcases List.mem_append.1 hc with h | h
  · exact hp c h
  · exact hq c h

theorem numval_chars {dp : Nat} (point : Bool) {ws fs : List Nat} (hdig : ∀ d ∈ ws ++ fs, d ≤ 9) :
    ∀ c ∈ numvalText dp point ws fs, c = dp ∨ (48 ≤ c ∧ c ≤ 57) := by
  intro c hc
  simp only [numvalText, List.mem_append, List.mem_map] at hc
  rcases hc with (⟨d, hd1, rfl⟩ | hc) | ⟨d, hd1, rfl⟩
  · have := hdig d (by simp [hd1]); omega
  · split at hc <;> simp at hc; exact Or.inl hc
  · have := hdig d (by simp [hd1]); omega

theorem dropWhile_none {p : Nat → Bool} (x y : List Nat) (h : ∀ c ∈ x, p c = true) :
    (x ++ y).dropWhile p = y.dropWhile p := by
  induction x with
  | nil => rfl
  | cons c x ih =>
    rw [List.cons_append, List.dropWhile_cons, if_pos (h c (by simp)), ih (fun c hc => h c (by simp [hc]))]

/-- A number between spaces and signs: its digits, its decimals and its sign. -/
theorem text_parts {dp : Nat} (hd : PointOk dp) {point : Bool} {ws fs p q : List Nat} (hdig : ∀ d ∈ ws ++ fs, d ≤ 9)
    (hpt : fs ≠ [] → point = true) (hp : Around p) (hq : Around q) :
    textDigits (p ++ numvalText dp point ws fs ++ q) = ws ++ fs ∧
    textDigits ((p ++ numvalText dp point ws fs ++ q).dropWhile (· ≠ dp)) = fs ∧
    (45 ∈ p ++ numvalText dp point ws fs ++ q ↔ 45 ∈ p ++ q) ∧
    NoCD (p ++ numvalText dp point ws fs ++ q) := by
  have hnd : ∀ p, Around p → textDigits p = [] := fun p hp =>
    textDigits_none p (by intro c hc; have := hp c hc; omega)
  have hne : ∀ p, Around p → ∀ c ∈ p, decide (c ≠ dp) = true := by
    intro p hp c hc
    have := hp c hc
    unfold PointOk at hd
    simp
    omega
  have hch := numval_chars (dp := dp) point hdig
  refine ⟨?_, ?_, ?_, ?_⟩
  · rw [textDigits_append, textDigits_append, hnd p hp, hnd q hq, textDigits_number hd point hdig]; simp
  · rw [List.append_assoc, dropWhile_none p _ (hne p hp)]
    unfold numvalText
    have hws : ∀ c ∈ ws.map (· + 48), decide (c ≠ dp) = true := by
      intro c hc
      simp only [List.mem_map] at hc
      obtain ⟨d, h1, rfl⟩ := hc
      unfold PointOk at hd
      simp
      omega
    rw [List.append_assoc, List.append_assoc, dropWhile_none _ _ hws]
    cases point with
    | true =>
      simp only [if_true, List.singleton_append]
      rw [List.dropWhile_cons, if_neg (by simp), textDigits_cons, if_neg (by unfold PointOk at hd; omega),
        textDigits_append, textDigits_map fs (fun d h => hdig d (by simp [h])), hnd q hq]
      simp
    | false =>
      have : fs = [] := by
        by_contra h
        exact absurd (hpt h) (by simp)
      subst this
      have h0 := dropWhile_none q [] (hne q hq)
      rw [List.append_nil] at h0
      simp only [Bool.false_eq_true, if_false, List.map_nil, List.nil_append]
      rw [h0]
      rfl
  · simp only [List.mem_append]
    constructor
    · rintro ((h | h) | h)
      · exact Or.inl h
      · have := hch 45 h
        unfold PointOk at hd
        omega
      · exact Or.inr h
    · rintro (h | h)
      · exact Or.inl (Or.inl h)
      · exact Or.inr h
  · intro c hc
    simp only [List.mem_append] at hc
    unfold PointOk at hd
    rcases hc with (h | h) | h
    · have := hp c h; omega
    · have := hch c h; omega
    · have := hq c h; omega

theorem mem_sign {m : SignText} {a b : Nat} : 45 ∈ blanks a ++ m.bytes ++ blanks b ↔ m = .minus := by
  cases m <;> simp [SignText.bytes, blanks]

/-- A well-formed text is a number between spaces and signs. -/
theorem NumvalText.around {dp : Nat} {x : List Nat} {neg : Bool} {ws fs : List Nat} (h : NumvalText dp x neg ws fs) :
    ∃ point p q, (fs ≠ [] → point = true) ∧ Around p ∧ Around q ∧ x = p ++ numvalText dp point ws fs ++ q ∧
      (45 ∈ p ++ q ↔ neg = true) := by
  obtain ⟨point, m, a, b, c, h1, h2, h3⟩ := h.form
  rcases h3 with h3 | h3
  · refine ⟨point, blanks a ++ m.bytes ++ blanks b, blanks c, h1,
      around_append (around_append (around_blanks _) (around_sign _)) (around_blanks _), around_blanks _, h3, ?_⟩
    rw [h2, List.mem_append, mem_sign]
    simp [blanks]
  · refine ⟨point, blanks a, blanks b ++ m.bytes ++ blanks c, h1, around_blanks _,
      around_append (around_append (around_blanks _) (around_sign _)) (around_blanks _), ?_, ?_⟩
    · rw [h3]; simp only [List.append_assoc]
    · rw [h2, List.mem_append, mem_sign]
      simp [blanks]

/-- **C58** NUMVAL of a well-formed text with at most 18 digits is exactly the number shown: as an
exact item with the decimals of the text, whatever bytes follow the argument in storage. -/
theorem C58_numval (ebc : Bool) (dp : Nat) (hd : PointOk dp) (after x : List Nat) (neg : Bool) (ws fs : List Nat)
    (hx : NumvalText dp x neg ws fs) (hn : ws.length + fs.length ≤ 18) :
    ∃ it, intrNumval dp after x = .exact it ∧ WFItem it ∧ it.field.attr.scale = fs.length ∧
      Holds ebc it (shownNumber neg ws fs) := by
  obtain ⟨point, p, q, h1, h2, h3, rfl, h5⟩ := hx.around
  obtain ⟨t1, t2, t3, t4⟩ := text_parts hd hx.digits h1 h2 h3
  obtain ⟨it, g1, g2, g3, g4⟩ := C58_numval_any ebc dp hd after _ t4 (by rw [t1]; simpa using hn)
  rw [t1, t2] at g4
  rw [t2] at g3
  refine ⟨it, g1, g2, g3, ?_⟩
  unfold shownNumber
  have : (45 ∈ p ++ numvalText dp point ws fs ++ q) ↔ neg = true := t3.trans h5
  simpa only [this] using g4

example : NumvalText 46 (codes "  - 12.50 ") true [1, 2] [5, 0] :=
  ⟨by simp, by simp, true, .minus, 2, 1, 1, by simp, by simp, Or.inl (by decide)⟩

example : (match intrNumval 46 [] (codes "  - 12.50 ") with
    | .exact it => (readItem false it).1 | .float _ => none) = some ⟨-1250, 2⟩ := by decide +kernel

/-- **C58** A number followed by CR or DB, in capital or small letters, is negative, provided that
the letters are the last characters of the argument and that the byte behind the argument in storage
is NUL. -/
theorem C58_numval_credit (ebc : Bool) (dp : Nat) (hd : PointOk dp) (after x : List Nat) (ws fs : List Nat)
    (point : Bool) (a b : Nat) (l1 l2 : Nat) (hpt : fs ≠ [] → point = true) (hdig : ∀ d ∈ ws ++ fs, d ≤ 9)
    (hx : x = blanks a ++ numvalText dp point ws fs ++ blanks b ++ [l1, l2])
    (hl : [l1, l2] = codes "CR" ∨ [l1, l2] = codes "cr" ∨ [l1, l2] = codes "Cr" ∨ [l1, l2] = codes "cR" ∨
      [l1, l2] = codes "DB" ∨ [l1, l2] = codes "db" ∨ [l1, l2] = codes "Db" ∨ [l1, l2] = codes "dB")
    (hafter : after.head? = none ∨ after.head? = some 0)
    (hn : ws.length + fs.length ≤ 18) :
    ∃ it, intrNumval dp after x = .exact it ∧ WFItem it ∧ it.field.attr.scale = fs.length ∧
      Holds ebc it (shownNumber true ws fs) := by
  obtain ⟨t1, t2, t3, t4⟩ := text_parts hd hdig hpt (around_blanks a) (around_blanks b)
  obtain ⟨h1, h2, h3, h4⟩ := nvChars_text dp none hd (by simp) (blanks a ++ numvalText dp point ws fs ++ blanks b)
  have hloop := nvLoop_chars dp none hd (by simp) after [l1, l2] _ {} t4 (by rw [t1]; simp [NV.count]; omega)
  have hcr : crdb ([l1, l2] ++ after) = true := by
    have hcs : crdb ([l1, l2] ++ after) = crdb [l1, l2] := by
      have hl1 : l1 ≠ 0 ∧ l2 ≠ 0 := by
        simp [codes] at hl
        omega
      unfold crdb
      have : ([l1, l2] ++ after).takeWhile (· ≠ 0) = [l1, l2].takeWhile (· ≠ 0) := by
        have h0 : after.takeWhile (· ≠ 0) = [] := by
          cases after with
          | nil => rfl
          | cons c r =>
            simp at hafter
            simp [hafter]
        simp only [List.cons_append, List.nil_append, List.takeWhile_cons]
        simp [hl1.1, hl1.2] at h0 ⊢
        exact h0
      rw [this]
    rw [hcs]
    rcases hl with h | h | h | h | h | h | h | h <;> rw [h] <;> decide
  have hend : ∀ s, nvLoop dp none after [l1, l2] s = { s with neg := true } := by
    intro s
    rw [nvLoop, if_pos ⟨by simp, hcr⟩]
  rw [hend] at hloop
  have hlt : digitsVal (ws ++ fs) < 10 ^ 18 :=
    lt_of_lt_of_le (digitsVal_lt _ hdig) (Nat.pow_le_pow_right (by omega) (by simpa using hn))
  rw [t1] at h1 h2
  rw [t2] at h4
  obtain ⟨it, g1, g2, g3, g4⟩ := nvResult_holds ebc
    { nvChars dp none (blanks a ++ numvalText dp point ws fs ++ blanks b) {} with neg := true }
    (by show (nvChars _ _ _ _).count ≤ 18; rw [h1]; simpa using hn) (by show (nvChars _ _ _ _).ll < _; rw [h2]; exact hlt)
  refine ⟨it, ?_, g2, g3.trans (by rw [h4]), ?_⟩
  · unfold intrNumval
    rw [hx, hloop]
    exact g1
  · unfold shownNumber
    simp only [if_true] at g4 ⊢
    rw [h2, h4] at g4
    exact g4

example : (match intrNumval 46 [0] (codes "12.5 CR") with
    | .exact it => (readItem false it).1 | .float _ => none) = some ⟨-125, 1⟩ := by decide +kernel

/-- **C58** (finding) CR or DB is not seen when the byte behind the argument is not NUL, as when
another item follows it in the record: NUMVAL of `12CR` is then 12. -/
theorem C58_finding_credit_followed :
    (match intrNumval 46 (codes "X") (codes "12CR") with
      | .exact it => (readItem false it).1 | .float _ => none) = some ⟨12, 0⟩ := by decide +kernel

/-- **C58** (finding) CR or DB is not seen when spaces follow it, as in any item longer than the text:
NUMVAL of `12CR ` is 12. -/
theorem C58_finding_credit_spaces :
    (match intrNumval 46 [0] (codes "12CR ") with
      | .exact it => (readItem false it).1 | .float _ => none) = some ⟨12, 0⟩ := by decide +kernel

/-- **C58** (finding) Nothing is reported for a text that shows no number: `1A2-3.4.5` is taken as
-123.45. -/
theorem C58_finding_garbage :
    (match intrNumval 46 [0] (codes "1A2-3.4.5") with
      | .exact it => (readItem false it).1 | .float _ => none) = some ⟨-12345, 2⟩ := by decide +kernel

/-- **C58** (finding) Text behind the 31st digit is not looked at: the sign after 31 digits is lost. -/
theorem C58_finding_late_sign :
    intrNumval 46 [0] (List.replicate 31 49 ++ [45]) = .float (List.replicate 31 49 ++ [46, 48]) := by
  decide +kernel

/-! ### NUMVAL-C -/

/-- A whole part with separators between its digits: a comma, or a period when the decimal point is
a comma. -/
def Grouped (dp : Nat) (t ws : List Nat) : Prop :=
  (∀ c ∈ t, (c ≠ dp ∧ (c = 44 ∨ c = 46)) ∨ (48 ≤ c ∧ c ≤ 57)) ∧ textDigits t = ws

/-- The text arguments NUMVAL-C is defined for (without CR and DB): an optional sign, the currency
`k` (empty if not shown), the number with separators, with spaces between them; or the sign after the
number. -/
structure NumvalCText (dp : Nat) (k x : List Nat) (neg : Bool) (ws fs : List Nat) : Prop where
  some : ws ++ fs ≠ []
  digits : ∀ d ∈ fs, d ≤ 9
  form : ∃ (point : Bool) (m : SignText) (a b c d : Nat) (t : List Nat), (fs ≠ [] → point = true) ∧
    (neg = true ↔ m = .minus) ∧ Grouped dp t ws ∧
    (x = blanks a ++ m.bytes ++ blanks b ++ k ++ blanks c ++
        (t ++ (if point then [dp] else []) ++ fs.map (· + 48)) ++ blanks d ∨
     x = blanks a ++ k ++ blanks b ++
        (t ++ (if point then [dp] else []) ++ fs.map (· + 48)) ++ blanks c ++ m.bytes ++ blanks d)

/-- The currency sign of a program: not a digit, sign, space, decimal point, nor one of the letters
C and D. -/
def SymOk (dp k : Nat) : Prop :=
  ¬ (48 ≤ k ∧ k ≤ 57) ∧ k ≠ 43 ∧ k ≠ 45 ∧ k ≠ 32 ∧ k ≠ dp ∧ k ≠ 67 ∧ k ≠ 99 ∧ k ≠ 68 ∧ k ≠ 100

/-- A currency string: no NUL in it, and a first character that does not occur in numbers. -/
def CurOk (cs : List Nat) : Prop :=
  (∀ c ∈ cs, c ≠ 0) ∧ ∃ c r, cs = c :: r ∧ ¬ (48 ≤ c ∧ c ≤ 57) ∧ c ≠ 43 ∧ c ≠ 45 ∧ c ≠ 32 ∧ c ≠ 44 ∧ c ≠ 46

theorem nvChars_append (dp : Nat) (sym : Option Nat) (x y : List Nat) (s : NV) :
    nvChars dp sym (x ++ y) s = nvChars dp sym y (nvChars dp sym x s) := by
  unfold nvChars; rw [List.foldl_append]

theorem nvcLoop_chars (dp : Nat) (sym : Option Nat) (hd : PointOk dp) (hs : ∀ k, sym = some k → ¬ (48 ≤ k ∧ k ≤ 57))
    (cur : Option (List Nat)) (hcur : ∀ cs, cur = some cs → cs ≠ []) (after : List Nat) (y x : List Nat) :
    ∀ s : NV, NoCD x → (∀ cs, cur = some cs → ∀ c ∈ x, cs.head? ≠ some c) →
      s.count + (textDigits x).length ≤ 30 →
      nvcLoop dp sym cur after (x ++ y) 0 s = nvcLoop dp sym cur after y 0 (nvChars dp sym x s) := by
  induction x with
  | nil => intro s _ _ _; rfl
  | cons c x ih =>
    intro s hn hm hc
    have h1 := (nvChar_count dp sym hd hs c s).1
    have ht : textDigits (c :: x) = textDigits [c] ++ textDigits x := textDigits_append [c] x
    rw [ht, List.length_append] at hc
    have hih := ih (nvChar dp sym c s) (fun c hc => hn c (List.mem_cons_of_mem _ hc))
      (fun cs h c hc => hm cs h c (List.mem_cons_of_mem _ hc)) (by omega)
    have hgt : ¬ (nvChar dp sym c s).whole.length + (nvChar dp sym c s).frac.length > 30 := by
      unfold NV.count at h1 hc; omega
    have hcr : ¬ (x ++ y ≠ [] ∧ crdb (c :: (x ++ y) ++ after) = true) := by
      rw [List.cons_append, crdb_head (hn c (by simp))]
      simp
    rw [List.cons_append, nvcLoop.eq_def]
    simp only [if_neg hcr]
    cases cur with
    | none =>
      simp only [if_neg hgt]
      exact hih
    | some cs =>
      have hne : ¬ (cs.length < (c :: (x ++ y)).length ∧ (c :: (x ++ y)).take cs.length = cs) := by
        rintro ⟨-, h⟩
        have h2 := hm cs rfl c (by simp)
        cases cs with
        | nil => exact hcur _ rfl rfl
        | cons d ds =>
          simp at h h2
          exact h2 h.1.symm
      simp only [if_neg hne, if_neg hgt]
      exact hih

theorem nvcLoop_skip (dp : Nat) (sym : Option Nat) (cur : Option (List Nat)) (after y z : List Nat) (s : NV) :
    nvcLoop dp sym cur after (z ++ y) z.length s = nvcLoop dp sym cur after y 0 s := by
  induction z with
  | nil => rfl
  | cons c z ih => rw [List.cons_append, List.length_cons, nvcLoop]; exact ih

theorem crdb_digit (m a r : List Nat) (d : Nat) (hm : m = a ++ d :: r) (ha : ∀ c ∈ a, c ≠ 0) (hd : 48 ≤ d ∧ d ≤ 57) :
    crdb m = false := by
  have hmem : d ∈ m.takeWhile (· ≠ 0) := by
    rw [hm]
    clear hm
    induction a with
    | nil => simp [show d ≠ 0 by omega]
    | cons c a ih =>
      have := ha c (by simp)
      simp only [List.cons_append, List.takeWhile_cons]
      simp [this]
      have h2 := ih (fun c hc => ha c (by simp [hc]))
      simp at h2
      exact Or.inr h2
  unfold crdb
  have hl : lowerC d ∈ (m.takeWhile (· ≠ 0)).map lowerC := List.mem_map_of_mem hmem
  have hld : lowerC d = d := by unfold lowerC; rw [if_neg (by omega)]
  rw [hld] at hl
  simp only [Bool.or_eq_false_iff, beq_eq_false_iff_ne]
  constructor
  · intro h; rw [h] at hl; simp at hl; omega
  · intro h; rw [h] at hl; simp at hl; omega

theorem nvcLoop_currency (dp : Nat) (sym : Option Nat) (cs : List Nat) (hcs : CurOk cs) (after y : List Nat)
    (hy : ∀ c ∈ y, c ≠ 0) (hyd : ∃ d ∈ y, 48 ≤ d ∧ d ≤ 57) (s : NV) :
    nvcLoop dp sym (some cs) after (cs ++ y) 0 s = nvcLoop dp sym (some cs) after y 0 s := by
  obtain ⟨h0, c, r, rfl, -⟩ := hcs
  obtain ⟨d, hdy, hd⟩ := hyd
  obtain ⟨y1, y2, rfl⟩ := List.append_of_mem hdy
  have hcr : crdb (c :: (r ++ (y1 ++ d :: y2)) ++ after) = false := by
    refine crdb_digit _ (c :: r ++ y1) (y2 ++ after) d (by simp) ?_ hd
    intro k hk
    rcases List.mem_append.1 hk with h | h
    · exact h0 k h
    · exact hy k (by simp [h])
  rw [List.cons_append, nvcLoop.eq_def]
  simp only [hcr, Bool.false_eq_true, and_false, if_false]
  rw [if_pos, List.length_cons, Nat.add_sub_cancel]
  · exact nvcLoop_skip dp sym _ after _ r s
  · constructor
    · simp
    · rw [← List.cons_append, List.take_left']; rfl

/-- A grouped number between spaces and signs. -/
theorem text_parts_grouped {dp : Nat} (hd : PointOk dp) {point : Bool} {ws fs t p q : List Nat} (hdig : ∀ d ∈ fs, d ≤ 9)
    (ht : Grouped dp t ws) (hpt : fs ≠ [] → point = true) (hp : Around p) (hq : Around q) :
    textDigits (p ++ (t ++ (if point then [dp] else []) ++ fs.map (· + 48)) ++ q) = ws ++ fs ∧
    textDigits ((p ++ (t ++ (if point then [dp] else []) ++ fs.map (· + 48)) ++ q).dropWhile (· ≠ dp)) = fs ∧
    (45 ∈ p ++ (t ++ (if point then [dp] else []) ++ fs.map (· + 48)) ++ q ↔ 45 ∈ p ++ q) ∧
    (∀ c ∈ p ++ (t ++ (if point then [dp] else []) ++ fs.map (· + 48)) ++ q,
      c = 32 ∨ c = 43 ∨ c = 45 ∨ c = 44 ∨ c = 46 ∨ (48 ≤ c ∧ c ≤ 57)) := by
  have hnd : ∀ p, Around p → textDigits p = [] := fun p hp =>
    textDigits_none p (by intro c hc; have := hp c hc; omega)
  have hne : ∀ p, Around p → ∀ c ∈ p, decide (c ≠ dp) = true := by
    intro p hp c hc
    have := hp c hc
    unfold PointOk at hd
    simp
    omega
  have hfs : ∀ c ∈ fs.map (· + 48), 48 ≤ c ∧ c ≤ 57 := by
    intro c hc
    simp only [List.mem_map] at hc
    obtain ⟨d, h1, rfl⟩ := hc
    have := hdig d h1
    omega
  have hpd : ∀ c ∈ (if point then [dp] else []), c = dp := by
    intro c hc; split at hc <;> simp at hc; exact hc
  have hdp := hd
  unfold PointOk at hdp
  refine ⟨?_, ?_, ?_, ?_⟩
  · rw [textDigits_append, textDigits_append, textDigits_append, textDigits_append, hnd p hp, hnd q hq, ht.2,
      textDigits_map fs hdig, textDigits_none _ (by intro c hc; have := hpd c hc; omega)]
    simp
  · rw [List.append_assoc, dropWhile_none p _ (hne p hp)]
    have hws : ∀ c ∈ t, decide (c ≠ dp) = true := by
      intro c hc
      have := ht.1 c hc
      simp
      omega
    rw [List.append_assoc, List.append_assoc, dropWhile_none _ _ hws]
    cases point with
    | true =>
      simp only [if_true, List.singleton_append]
      rw [List.dropWhile_cons, if_neg (by simp), textDigits_cons, if_neg (by omega),
        textDigits_append, textDigits_map fs hdig, hnd q hq]
      simp
    | false =>
      have : fs = [] := by
        by_contra h
        exact absurd (hpt h) (by simp)
      subst this
      have h0 := dropWhile_none q [] (hne q hq)
      rw [List.append_nil] at h0
      simp only [Bool.false_eq_true, if_false, List.map_nil, List.nil_append]
      rw [h0]
      rfl
  · simp only [List.mem_append]
    constructor
    · rintro ((h | (h | h) | h) | h)
      · exact Or.inl h
      · have := ht.1 45 h; omega
      · have := hpd 45 h; omega
      · have := hfs 45 h; omega
      · exact Or.inr h
    · rintro (h | h)
      · exact Or.inl (Or.inl h)
      · exact Or.inr h
  · intro c hc
    simp only [List.mem_append] at hc
    rcases hc with (h | (h | h) | h) | h
    · have := hp c h; omega
    · have := ht.1 c h; omega
    · have := hpd c h; omega
    · have := hfs c h; omega
    · have := hq c h; omega

/-- A well-formed text with currency, taken apart at the currency. -/
theorem NumvalCText.around {dp : Nat} {k x : List Nat} {neg : Bool} {ws fs : List Nat} (h : NumvalCText dp k x neg ws fs) :
    ∃ point p p2 q t, (fs ≠ [] → point = true) ∧ Grouped dp t ws ∧ Around p ∧ Around p2 ∧ Around q ∧
      x = p ++ k ++ (p2 ++ (t ++ (if point then [dp] else []) ++ fs.map (· + 48)) ++ q) ∧
      (45 ∈ p ++ p2 ++ q ↔ neg = true) := by
  obtain ⟨point, m, a, b, c, d, t, h1, h2, h3, h4⟩ := h.form
  have hb : ∀ n, ¬ 45 ∈ blanks n := by intro n; simp [blanks]
  rcases h4 with h4 | h4
  · refine ⟨point, blanks a ++ m.bytes ++ blanks b, blanks c, blanks d, t, h1, h3,
      around_append (around_append (around_blanks _) (around_sign _)) (around_blanks _), around_blanks _, around_blanks _, ?_, ?_⟩
    · rw [h4]; simp only [List.append_assoc]
    · rw [h2, List.mem_append, List.mem_append, mem_sign]
      simp [hb]
  · refine ⟨point, blanks a, blanks b, blanks c ++ m.bytes ++ blanks d, t, h1, h3, around_blanks _, around_blanks _,
      around_append (around_append (around_blanks _) (around_sign _)) (around_blanks _), ?_, ?_⟩
    · rw [h4]; simp only [List.append_assoc]
    · rw [h2, List.mem_append, mem_sign]
      simp [hb]

/-- **C58** NUMVAL-C of a well-formed text with at most 18 digits is exactly the number shown. The
currency in the text is the second argument, or the currency sign of the program (if the second
argument does not start with it), or there is none; the digits may have separators. -/
theorem C58_numval_c (ebc : Bool) (dp sym : Nat) (hd : PointOk dp) (hsym : SymOk dp sym) (cur : Option (List Nat))
    (hcur : ∀ cs, cur = some cs → CurOk cs) (after x k : List Nat)
    (hk : k = [] ∨ cur = some k ∨ (k = [sym] ∧ ∀ cs, cur = some cs → cs.head? ≠ some sym)) (neg : Bool) (ws fs : List Nat)
    (hx : NumvalCText dp k x neg ws fs) (hn : ws.length + fs.length ≤ 18) :
    ∃ it, intrNumvalC dp sym cur after x = .exact it ∧ WFItem it ∧ it.field.attr.scale = fs.length ∧
      Holds ebc it (shownNumber neg ws fs) := by
  have hs : ∀ k, some sym = some k → ¬ (48 ≤ k ∧ k ≤ 57) := by
    intro k hk; cases hk; exact hsym.1
  obtain ⟨point, p, p2, q, t, h1, h2, h3, h4, h5, hxe, h6⟩ := hx.around
  have hp0 : textDigits p = [] := textDigits_none p (by intro c hc; have := h3 c hc; omega)
  obtain ⟨t1, t2, t3, t4⟩ := text_parts_grouped hd hx.digits h2 h1 (around_append h3 h4) h5
  generalize hB : t ++ (if point then [dp] else []) ++ fs.map (· + 48) = B at *
  have hpost : ∀ c ∈ p2 ++ B ++ q, c = 32 ∨ c = 43 ∨ c = 45 ∨ c = 44 ∨ c = 46 ∨ (48 ≤ c ∧ c ≤ 57) := by
    intro c hc
    apply t4 c
    simp only [List.mem_append] at hc ⊢
    tauto
  have hdig9 : ∀ d ∈ ws ++ fs, d ≤ 9 := by rw [← t1]; exact textDigits_le _
  have hpd : textDigits (p2 ++ B ++ q) = ws ++ fs := by
    have e : p ++ p2 ++ B ++ q = p ++ (p2 ++ B ++ q) := by simp only [List.append_assoc]
    rw [e, textDigits_append, hp0] at t1
    simpa using t1
  have hexd : ∃ d ∈ p2 ++ B ++ q, 48 ≤ d ∧ d ≤ 57 := by
    by_contra h
    have h' : ∀ c ∈ p2 ++ B ++ q, ¬ (48 ≤ c ∧ c ≤ 57) := fun c hc hh => h ⟨c, hc, hh⟩
    rw [textDigits_none _ h'] at hpd
    exact hx.some hpd.symm
  -- what the loop ends with
  have hloop : ∀ cur' : Option (List Nat), (∀ cs, cur' = some cs → CurOk cs) →
      (k = [] ∨ cur' = some k ∨ (k = [sym] ∧ ∀ cs, cur' = some cs → cs.head? ≠ some sym)) →
      nvcLoop dp (some sym) cur' after x 0 {} = nvChars dp (some sym) (p ++ p2 ++ B ++ q) {} := by
    intro cur' hcur' hk'
    have hcne : ∀ cs, cur' = some cs → cs ≠ [] := by
      intro cs h
      obtain ⟨-, c, r, rfl, -⟩ := hcur' cs h
      simp
    have hclash : ∀ z : List Nat, (∀ c ∈ z, c = 32 ∨ c = 43 ∨ c = 45 ∨ c = 44 ∨ c = 46 ∨ (48 ≤ c ∧ c ≤ 57)) →
        NoCD z ∧ ∀ cs, cur' = some cs → ∀ c ∈ z, cs.head? ≠ some c := by
      intro z hz
      refine ⟨fun c hc => by have := hz c hc; omega, ?_⟩
      intro cs h c hc he
      obtain ⟨-, c', r, rfl, h⟩ := hcur' cs h
      simp at he
      have := hz c hc
      omega
    have hpc := hclash p (fun c hc => by have := h3 c hc; omega)
    have hpo := hclash _ hpost
    have hpoc := (nvChars_count dp (some sym) hd hs p {}).1
    have hend : ∀ s : NV, s.count = 0 → nvcLoop dp (some sym) cur' after (p2 ++ B ++ q) 0 s =
        nvChars dp (some sym) (p2 ++ B ++ q) s := by
      intro s hs0
      have := nvcLoop_chars dp (some sym) hd hs cur' hcne after [] (p2 ++ B ++ q) s hpo.1 hpo.2
        (by rw [hs0, hpd]; simp; omega)
      rw [List.append_nil] at this
      rw [this]
      rfl
    have hcount : (nvChars dp (some sym) p {}).count = 0 := by rw [hpoc, hp0]; rfl
    have hjoin : nvChars dp (some sym) (p ++ p2 ++ B ++ q) {} =
        nvChars dp (some sym) (p2 ++ B ++ q) (nvChars dp (some sym) p {}) := by
      rw [← nvChars_append]; simp only [List.append_assoc]
    have hstart : nvcLoop dp (some sym) cur' after x 0 {} =
        nvcLoop dp (some sym) cur' after (k ++ (p2 ++ B ++ q)) 0 (nvChars dp (some sym) p {}) := by
      rw [hxe, List.append_assoc]
      exact nvcLoop_chars dp (some sym) hd hs cur' hcne after _ p {} hpc.1 hpc.2 (by rw [hp0]; simp [NV.count])
    rw [hstart, hjoin]
    by_cases hck : cur' = some k
    · subst hck
      rw [nvcLoop_currency dp (some sym) k (hcur' k rfl) after _ (fun c hc => by have := hpost c hc; omega) hexd]
      exact hend _ hcount
    · rcases hk' with rfl | h | ⟨rfl, hsame⟩
      · exact hend _ hcount
      · exact absurd h hck
      · have hkd : textDigits [sym] = [] := textDigits_none _ (by intro c hc; simp at hc; subst hc; exact hsym.1)
        have hstep := nvcLoop_chars dp (some sym) hd hs cur' hcne after (p2 ++ B ++ q) [sym] (nvChars dp (some sym) p {})
          (by intro c hc; simp at hc; subst hc; exact hsym.2.2.2.2.2)
          (by intro cs h c hc; simp at hc; subst hc; exact hsame cs h)
          (by rw [hcount, hkd]; simp)
        rw [hstep]
        have hid : nvChars dp (some sym) [sym] (nvChars dp (some sym) p {}) = nvChars dp (some sym) p {} := by
          obtain ⟨g1, g2, g3, g4, g5, -⟩ := hsym
          show nvChar dp (some sym) sym _ = _
          unfold nvChar
          simp [g2, g3, g4, g5]
        rw [hid]
        exact hend _ hcount
  have hlt : digitsVal (ws ++ fs) < 10 ^ 18 :=
    lt_of_lt_of_le (digitsVal_lt _ hdig9) (Nat.pow_le_pow_right (by omega) (by simpa using hn))
  obtain ⟨c1, c2, c3, c4⟩ := nvChars_text dp (some sym) hd hs (p ++ p2 ++ B ++ q)
  rw [t1] at c1 c2
  rw [t2] at c4
  obtain ⟨it, g1, g2, g3, g4⟩ := nvResult_holds ebc (nvChars dp (some sym) (p ++ p2 ++ B ++ q) {})
    (by rw [c1]; simpa using hn) (by rw [c2]; exact hlt)
  refine ⟨it, ?_, g2, by rw [g3, c4], ?_⟩
  · rw [← g1]
    unfold intrNumvalC
    cases cur with
    | none => exact congrArg nvResult (hloop none (by simp) (by simpa using hk))
    | some cs =>
      by_cases hlen : cs.length < x.length
      · simp only [if_pos hlen]
        exact congrArg nvResult (hloop (some cs) hcur hk)
      · simp only [if_neg hlen]
        refine congrArg nvResult (hloop none (by simp) ?_)
        rcases hk with h | h | ⟨h, -⟩
        · exact Or.inl h
        · exfalso
          cases h
          obtain ⟨d, hd1, -⟩ := hexd
          have := List.length_pos_of_mem hd1
          rw [hxe] at hlen
          simp only [List.length_append] at hlen this
          omega
        · exact Or.inr (Or.inr ⟨h, by simp⟩)
  · unfold shownNumber
    rw [c2, c3, c4] at g4
    have : (p ++ p2 ++ B ++ q).contains 45 = neg := by
      rw [Bool.eq_iff_iff, List.contains_iff_mem, t3, h6]
    rw [this] at g4
    exact g4

example : NumvalCText 46 (codes "EUR") (codes "- EUR 1,234.5") true [1, 2, 3, 4] [5] :=
  ⟨by simp, by simp, true, .minus, 0, 1, 1, 0, codes "1,234", by simp, by simp, ⟨by decide, by decide⟩, Or.inl (by decide)⟩

example : (match intrNumvalC 46 36 (some (codes "EUR")) [] (codes "- EUR 1,234.5") with
    | .exact it => (readItem false it).1 | .float _ => none) = some ⟨-12345, 1⟩ := by decide +kernel

/-- **C58** (finding) A currency string that starts with the currency sign and goes on with a digit
takes that digit out of the number. -/
theorem C58_finding_currency_digit :
    (match intrNumvalC 46 36 (some (codes "$1")) [] (codes "$12") with
      | .exact it => (readItem false it).1 | .float _ => none) = some ⟨2, 0⟩ := by decide +kernel

end Cob
