import Verif.Cobc.Literal
import Verif.Cobc.LiteralSpec
import Verif.Cobc.SourceIfProps
import Verif.Cobc.MoveProps
/-
C69: literals and constants in PICTURE strings.
-/
namespace Cob

/-! ### Literals between quotation marks -/

theorem readMarked_text (m : Nat) (rest : List Nat) (hr : rest.head? ≠ some m) : ∀ t : List Nat,
    readMarked m (doubled m t ++ m :: rest) = (t, rest) := by
  intro t
  induction t with
  | nil =>
    cases rest with
    | nil => simp [doubled, readMarked]
    | cons d rest =>
      have : d ≠ m := by simpa using hr
      simp [doubled, readMarked, this]
  | cons c t ih =>
    by_cases h : c = m
    · subst h
      simp [doubled, readMarked, ih]
    · simp only [doubled, if_neg h, List.cons_append]
      rw [readMarked.eq_def]
      simp only [if_neg h, ih]

theorem readMarked_back (m : Nat) (input : List Nat) : (∃ rest, readMarked m input = ((readMarked m input).1, rest) ∧
      rest.head? ≠ some m ∧ input = doubled m (readMarked m input).1 ++ m :: rest) ∨
    ((readMarked m input).2 = [] ∧ input = doubled m (readMarked m input).1) := by
  fun_induction readMarked m input with
  | case1 => right; simp [doubled]
  | case2 rest' ih =>
    rcases ih with ⟨r, h1, h2, h3⟩ | ⟨h1, h2⟩
    · left
      refine ⟨r, ?_, h2, ?_⟩
      · have := congrArg Prod.snd h1; simp only at this; rw [this]
      · simp only [doubled, if_true]
        conv_lhs => rw [h3]
        simp
    · right
      refine ⟨h1, ?_⟩
      simp only [doubled, if_true]
      conv_lhs => rw [h2]
  | case3 d rest' h =>
    left
    exact ⟨d :: rest', rfl, by simpa using h, by simp [doubled]⟩
  | case4 => left; exact ⟨[], rfl, by simp, by simp [doubled]⟩
  | case5 c rest h ih =>
    rcases ih with ⟨r, h1, h2, h3⟩ | ⟨h1, h2⟩
    · left
      refine ⟨r, ?_, h2, ?_⟩
      · have := congrArg Prod.snd h1; simp only at this; rw [this]
      · simp only [doubled, if_neg h]
        conv_lhs => rw [h3]
        simp
    · right
      refine ⟨h1, ?_⟩
      simp only [doubled, if_neg h]
      conv_lhs => rw [h2]

theorem allDouble_iff : ∀ t : List Nat, allDouble t = true ↔ DoubleBytes t
  | [] => by simp [allDouble, DoubleBytes.nil]
  | [a] => by
    simp only [allDouble, Bool.false_eq_true, false_iff]
    intro h; cases h
  | a :: b :: t => by
    have ih := allDouble_iff t
    simp only [allDouble, isDouble, Bool.and_eq_true, Bool.or_eq_true, decide_eq_true_eq, ih]
    constructor
    · rintro ⟨⟨h1, h2⟩, h3⟩
      exact .cons a b t h1 h2 h3
    · intro h
      cases h with
      | cons _ _ _ h1 h2 h3 => exact ⟨⟨h1, h2⟩, h3⟩

/-- **C69** A literal between quotation marks `m` is its text, with every `m` in it written twice; an empty literal is one
space.  The scanner goes on behind the closing mark.  It is a national literal exactly when it consists of double-byte
characters. -/
theorem C69_text (m : Nat) (t rest : List Nat) (hr : rest.head? ≠ some m) :
    ∃ nat, readLiteral m (doubled m t ++ m :: rest) = (⟨if t = [] then [32] else t, nat⟩, rest) ∧
      (nat = true ↔ t ≠ [] ∧ DoubleBytes t) := by
  unfold readLiteral
  rw [readMarked_text m rest hr]
  by_cases h : t = []
  · subst h
    exact ⟨_, rfl, by simp [allDouble]⟩
  · refine ⟨_, rfl, ?_⟩
    simp [h, allDouble_iff]

/-- **C69** There is no other way to write a literal: for every source text behind a quotation mark, the literal read and what
is left are the ones of `C69_text`, or the source text ends inside the literal. -/
theorem C69_text_only (m : Nat) (input : List Nat) :
    (∃ t rest, input = doubled m t ++ m :: rest ∧ rest.head? ≠ some m ∧ (readLiteral m input).2 = rest ∧
      (readLiteral m input).1.data = if t = [] then [32] else t) ∨
    (∃ t, input = doubled m t ∧ (readLiteral m input).2 = []) := by
  rcases readMarked_back m input with ⟨rest, h1, h2, h3⟩ | ⟨h1, h2⟩
  · left
    refine ⟨(readMarked m input).1, rest, h3, h2, ?_, rfl⟩
    have := congrArg Prod.snd h1
    exact this
  · right; exact ⟨_, h2, h1⟩

/-! ### Hexadecimal literals -/

theorem hexVal_iff (c v : Nat) : hexVal c = some v ↔ HexDigit c v := by
  unfold hexVal HexDigit upperC
  dsimp only
  split_ifs <;> simp only [Option.some.injEq, reduceCtorEq, false_iff] <;> omega

theorem hex_alnum {c v : Nat} (h : HexDigit c v) : isAlnumL c = true := by
  unfold HexDigit at h
  simp only [isAlnumL, Bool.or_eq_true, Bool.and_eq_true, decide_eq_true_eq]
  omega

theorem scanX_pairs (q : Nat) (hq : isAlnumL q = false) : ∀ (n : Nat) (t bs rest : List Nat), t.length ≤ n → (∀ c ∈ t, isAlnumL c = true) →
    (scanXLoop none (t ++ q :: rest) = some bs ↔ HexBytes t bs)
  | n, [], bs, rest, _, _ => by
    simp only [List.nil_append, scanXLoop, hq, Bool.false_eq_true, if_false, if_true, Option.some.injEq]
    constructor
    · rintro rfl; exact .nil
    · intro h; cases h; rfl
  | n, [a], bs, rest, _, ha => by
    have h1 := ha a (by simp)
    constructor
    · intro h
      simp only [List.cons_append, List.nil_append, scanXLoop, h1, if_true, hq, Bool.false_eq_true, if_false] at h
      split at h <;> simp at h
    · intro h; cases h
  | 0, a :: b :: t, bs, rest, hn, ha => by simp at hn
  | n + 1, a :: b :: t, bs, rest, hn, ha => by
    have h1 := ha a (by simp)
    have h2 := ha b (by simp)
    have ih := fun bs => scanX_pairs q hq n t bs rest (by simp at hn; omega) (fun c hc => ha c (by simp [hc]))
    simp only [List.cons_append, scanXLoop, h1, h2, if_true]
    constructor
    · intro h
      split at h
      · simp at h
      · rename_i u hu
        split at h
        · simp at h
        · rename_i v hv
          cases hx : scanXLoop none (t ++ q :: rest) with
          | none => rw [hx] at h; simp at h
          | some bs' =>
            rw [hx] at h
            simp only [Option.map_some, Option.some.injEq] at h
            rw [← h, Nat.mul_comm]
            exact .cons a b u v t bs' ((hexVal_iff a u).1 hu) ((hexVal_iff b v).1 hv) ((ih bs').1 hx)
    · intro h
      cases h with
      | cons _ _ u v _ bs' h3 h4 h5 =>
        rw [(hexVal_iff a u).2 h3, (hexVal_iff b v).2 h4, (ih bs').2 h5, Nat.mul_comm]
        rfl

/-- **C69** A literal `X"..."` of letters and digits is accepted exactly when it consists of pairs of hexadecimal digits; its
bytes are the ones the pairs write. -/
theorem C69_hex (q : Nat) (hq : q = 39 ∨ q = 34) (t bs : List Nat) (ht : ∀ c ∈ t, isAlnumL c = true) :
    scanX (t ++ [q]) = some ⟨bs, false⟩ ↔ HexBytes t bs := by
  have hq' : isAlnumL q = false := by rcases hq with rfl | rfl <;> rfl
  rw [← scanX_pairs q hq' t.length t bs [] (Nat.le_refl _) ht]
  unfold scanX
  cases scanXLoop none (t ++ [q]) <;> simp

theorem hexNumber_bound {t : List Nat} {n : Nat} (h : HexNumber t n) : n < 16 ^ t.length := by
  induction h with
  | nil => simp
  | snoc t n c v ht hc ih =>
    have : v < 16 := by unfold HexDigit at hc; omega
    rw [List.length_append, List.length_singleton, pow_succ]
    omega

theorem scanH_value {t : List Nat} {n : Nat} (h : HexNumber t n) : n < 2 ^ 63 →
    ∀ rest, scanHLoop 0 (t ++ rest) = scanHLoop n rest := by
  induction h with
  | nil => intro _ rest; rfl
  | snoc t n c v ht hc ih =>
    intro hn rest
    rw [List.append_assoc, ih (by omega), List.singleton_append, scanHLoop]
    have hne : ¬ (c = 39 ∨ c = 34) := by unfold HexDigit at hc; omega
    rw [if_neg hne, (hexVal_iff c v).2 hc]
    have hw : wrapLL ((n : Int) * 16 + (v : Int)) = ((16 * n + v : Nat) : Int) := by
      have e : (2 : Int) ^ 63 = 9223372036854775808 := by norm_num
      have e' : (2 : Int) ^ 64 = 18446744073709551616 := by norm_num
      have e2 : (2 : Nat) ^ 63 = 9223372036854775808 := by norm_num
      unfold wrapLL
      rw [e2] at hn
      rw [e, e']
      push_cast
      omega
    simp only [hw]

theorem printNat_ok : ∀ (f n : Nat), n < 10 ^ (f + 1) → printNat (f + 1) n ≠ [] ∧ (∀ b ∈ printNat (f + 1) n, 48 ≤ b ∧ b ≤ 57) ∧
    digitsVal ((printNat (f + 1) n).map (· - 48)) = n := by
  intro f
  induction f with
  | zero =>
    intro n hn
    have : n < 10 := by simpa using hn
    rw [printNat, if_pos this]
    simp [digitsVal]; omega
  | succ f ih =>
    intro n hn
    rw [printNat]
    by_cases h : n < 10
    · rw [if_pos h]; simp [digitsVal]; omega
    · rw [if_neg h]
      obtain ⟨h1, h2, h3⟩ := ih (n / 10) (by rw [Nat.div_lt_iff_lt_mul (by omega)]; rwa [← pow_succ])
      refine ⟨by simp, ?_, ?_⟩
      · intro b hb
        rcases List.mem_append.1 hb with hb | hb
        · exact h2 b hb
        · simp at hb; omega
      · rw [List.map_append, digitsVal_append, h3]
        simp [digitsVal]; omega

/-- **C69** A literal `H"..."` of hexadecimal digits below 2^63 is the unsigned number it writes. -/
theorem C69_hex_number (q : Nat) (hq : q = 39 ∨ q = 34) (t : List Nat) (n : Nat) (h : HexNumber t n) (hn : n < 2 ^ 63) :
    ∃ l, scanH (t ++ [q]) = some l ∧ l.Proper ∧ l.sign = 0 ∧ l.scale = 0 ∧ l.units = n := by
  unfold scanH
  rw [scanH_value h hn, scanHLoop, if_pos hq]
  have hp : ¬ (n : Int) < 0 := by omega
  obtain ⟨h1, h2, h3⟩ := printNat_ok 19 n (by omega)
  refine ⟨_, rfl, ⟨?_, ?_⟩, rfl, rfl, ?_⟩
  · simpa [printLL] using h1
  · simpa only [printLL, hp, if_false, List.nil_append, Int.natAbs_natCast] using h2
  · simp only [NumLit.units, printLL, hp, if_false, List.nil_append, Int.natAbs_natCast, h3]
    simp

/-! ### Numeric literals -/

theorem decNumber_eq (t : List Nat) (k : Nat) :
    t.foldl (fun n c => 10 * n + (c - 48)) k = k * 10 ^ t.length + digitsVal (t.map (· - 48)) := by
  induction t generalizing k with
  | nil => simp [digitsVal]
  | cons c t ih =>
    rw [List.foldl_cons, ih, List.map_cons, digitsVal, List.length_map, List.length_cons, pow_succ]
    ring

theorem decNumber_digits (t : List Nat) : decNumber t = digitsVal (t.map (· - 48)) := by
  unfold decNumber; rw [decNumber_eq]; simp

theorem takeWhile_point (point : Nat) (w r : List Nat) (hw : ∀ c ∈ w, c ≠ point) (hr : r = [] ∨ r.head? = some point) :
    (w ++ r).takeWhile (· != point) = w := by
  induction w with
  | nil =>
    rcases hr with rfl | hr
    · rfl
    · cases r with
      | nil => simp at hr
      | cons a r => simp at hr; simp [hr]
  | cons c w ih =>
    have : c ≠ point := hw c (by simp)
    simp [this, ih (fun x hx => hw x (by simp [hx]))]

theorem parts_drop (point : Nat) (hp : point = 46 ∨ point = 44) (p : NumberParts) (h : p.Ok) :
    let text := p.text point
    let sign : Int := if text.head? = some 43 then 1 else if text.head? = some 45 then -1 else 0
    sign = (if p.sign = some 43 then 1 else if p.sign = some 45 then -1 else 0) ∧
    (if sign = 0 then text else text.drop 1) = p.whole ++ p.fracText point := by
  dsimp only
  have hd : ∀ c, (p.whole ++ p.fracText point).head? = some c → c ≠ 43 ∧ c ≠ 45 := by
    intro c hc
    cases hw : p.whole with
    | cons a w =>
      rw [hw] at hc
      simp at hc
      have := h.whole a (by rw [hw]; simp)
      omega
    | nil =>
      rw [hw] at hc
      cases hf : p.frac with
      | none => simp [NumberParts.fracText, hf] at hc
      | some f => simp [NumberParts.fracText, hf] at hc; omega
  rcases h.sign with hs | hs | hs
  · simp only [NumberParts.text, hs, Option.toList_none, List.nil_append, reduceCtorEq, if_false]
    rw [if_neg (fun hx => (hd _ hx).1 rfl), if_neg (fun hx => (hd _ hx).2 rfl)]
    simp
  · simp [NumberParts.text, hs]
  · simp [NumberParts.text, hs]

/-- **C69** A numeric literal is the number it writes: the constant the program uses for it holds that number, with as many
decimals as there are digits behind the point. -/
theorem C69_number (ebc : Bool) (point : Nat) (hp : point = 46 ∨ point = 44) (p : NumberParts) (h : p.Ok) (hlen : p.decimals.length ≤ 127) :
    ∃ l, scanNumeric point (p.text point) = some l ∧ l.Proper ∧ l.scale = p.decimals.length ∧
      (l.sign < 0 ↔ p.sign = some 45) ∧ (l.sign = 0 ↔ p.sign = none) ∧ Holds ebc l.item p.value := by
  obtain ⟨h1, h2⟩ := parts_drop point hp p h
  have hw : ∀ c ∈ p.whole, c ≠ point := fun c hc => by have := h.whole c hc; omega
  have hscan : scanNumeric point (p.text point) =
      some ⟨p.whole ++ p.decimals, if p.sign = some 43 then 1 else if p.sign = some 45 then -1 else 0, p.decimals.length⟩ := by
    unfold scanNumeric
    dsimp only at h1 h2 ⊢
    rw [h2, h1]
    have hsc : wrapSC p.decimals.length = p.decimals.length := by unfold wrapSC; omega
    have hno : ∀ t : List Nat, (∀ c ∈ t, 48 ≤ c ∧ c ≤ 57) → (t.contains 46 || t.contains 44) = false := by
      intro t ht
      rw [Bool.or_eq_false_iff]
      constructor <;> rw [List.contains_eq_mem, decide_eq_false_iff_not] <;> intro hm <;> have := ht _ hm <;> omega
    have hall : ∀ c ∈ p.whole ++ p.decimals, 48 ≤ c ∧ c ≤ 57 := by
      intro c hc
      rcases List.mem_append.1 hc with hc | hc
      · exact h.whole c hc
      · exact h.frac c hc
    cases hf : p.frac with
    | none =>
      have hdec : p.decimals = [] := by simp [NumberParts.decimals, hf]
      simp only [NumberParts.fracText, hf, List.append_nil]
      have : p.whole.takeWhile (· != point) = p.whole := by simpa using takeWhile_point point p.whole [] hw (.inl rfl)
      rw [this]
      rw [hdec] at hsc hall ⊢
      rw [List.append_nil] at hall
      simp only [List.drop_length, List.length_nil, List.drop_nil, List.append_nil, hno _ hall]
      rfl
    | some f =>
      have hdec : p.decimals = f := by simp [NumberParts.decimals, hf]
      simp only [NumberParts.fracText, hf]
      rw [takeWhile_point point p.whole (point :: f) hw (.inr rfl), List.drop_left]
      rw [hdec] at hsc hall ⊢
      simp only [List.length_cons, Nat.add_sub_cancel, List.drop_succ_cons, List.drop_zero, hno _ hall, hsc]
      rfl
  refine ⟨_, hscan, ⟨h.digits, ?_⟩, rfl, ?_, ?_, ?_⟩
  · intro b hb
    rcases List.mem_append.1 hb with hb | hb
    · exact h.whole b hb
    · exact h.frac b hb
  · rcases h.sign with hs | hs | hs <;> simp [hs]
  · rcases h.sign with hs | hs | hs <;> simp [hs]
  · have hprop : NumLit.Proper ⟨p.whole ++ p.decimals, if p.sign = some 43 then 1 else if p.sign = some 45 then -1 else 0,
        p.decimals.length⟩ := by
      refine ⟨h.digits, ?_⟩
      intro b hb
      rcases List.mem_append.1 hb with hb | hb
      · exact h.whole b hb
      · exact h.frac b hb
    have hv := (lit_holds ebc _ hprop).2.2.1
    convert hv using 1
    unfold NumberParts.value NumLit.value NumLit.units
    simp only [List.map_append, digitsVal_append, List.length_map, decNumber_digits]
    have h10 : (10 : ℚ) ^ p.decimals.length ≠ 0 := by positivity
    rcases h.sign with hs | hs | hs <;> simp [hs] <;> field_simp

/-- **C69** A numeric literal with a second point, or with both kinds of point, is an error. -/
theorem C69_number_error (point : Nat) (text : List Nat) (h : 2 ≤ (text.filter fun c => c == 46 || c == 44).length) :
    scanNumeric point text = none := by
  unfold scanNumeric
  dsimp only
  generalize hs : (if text.head? = some 43 then (1 : Int) else if text.head? = some 45 then -1 else 0) = sign
  have h2 : 2 ≤ ((if sign = 0 then text else text.drop 1).filter fun c => c == 46 || c == 44).length := by
    by_cases h0 : sign = 0
    · rw [if_pos h0]; exact h
    · rw [if_neg h0]
      cases text with
      | nil => simp at h
      | cons a t =>
        simp only [List.head?_cons, Option.some.injEq] at hs
        have ha : a = 43 ∨ a = 45 := by
          by_contra hc
          rw [not_or] at hc
          rw [if_neg hc.1, if_neg hc.2] at hs
          exact h0 hs.symm
        have : (a == 46 || a == 44) = false := by rcases ha with rfl | rfl <;> rfl
        rw [List.filter_cons_of_neg (by rw [this]; exact Bool.false_ne_true)] at h
        simpa using h
  generalize (if sign = 0 then text else text.drop 1) = t at h2
  have hd : t.drop (t.takeWhile (· != point)).length = t.dropWhile (· != point) := by
    clear h2
    induction t with
    | nil => rfl
    | cons a t ih =>
      by_cases ha : (a != point) = true
      · rw [List.takeWhile_cons, List.dropWhile_cons, if_pos ha, if_pos ha, List.length_cons, List.drop_succ_cons, ih]
      · rw [List.takeWhile_cons, List.dropWhile_cons, if_neg ha, if_neg ha, List.length_nil, List.drop_zero]
  rw [if_pos]
  have hex : ∃ c ∈ t.takeWhile (· != point) ++ (t.drop (t.takeWhile (· != point)).length).drop 1, c = 46 ∨ c = 44 := by
    rw [hd]
    by_contra hc
    push Not at hc
    have e1 : ((t.takeWhile (· != point)) ++ (t.dropWhile (· != point)).drop 1).filter (fun c => c == 46 || c == 44) = [] := by
      rw [List.filter_eq_nil_iff]
      intro c hx
      have := hc c hx
      simp [this]
    rw [List.filter_append, List.append_eq_nil_iff] at e1
    have e2 : t.filter (fun c => c == 46 || c == 44) =
        (t.takeWhile (· != point)).filter (fun c => c == 46 || c == 44) ++ (t.dropWhile (· != point)).filter (fun c => c == 46 || c == 44) := by
      rw [← List.filter_append, List.takeWhile_append_dropWhile]
    rw [e2, e1.1, List.nil_append] at h2
    cases hr : t.dropWhile (· != point) with
    | nil => rw [hr] at h2; simp at h2
    | cons a r =>
      rw [hr] at h2 e1
      have e3 : r.filter (fun c => c == 46 || c == 44) = [] := by simpa using e1.2
      have := List.length_filter_le (fun c => c == 46 || c == 44) [a]
      rw [← List.singleton_append, List.filter_append, e3, List.append_nil] at h2
      simp at this
      omega
  obtain ⟨c, hc, hc2⟩ := hex
  rw [Bool.or_eq_true, List.contains_eq_mem, List.contains_eq_mem, decide_eq_true_eq, decide_eq_true_eq]
  rcases hc2 with rfl | rfl
  · exact .inl hc
  · exact .inr hc

/-! ### The text in the C program -/

theorem ctext_printable : ∀ s : List Nat, (∀ c ∈ s, isPrintC c = true) →
    CText (s.flatMap fun c => if c = 34 ∨ c = 92 then [92, c] else [c]) s := by
  intro s
  induction s with
  | nil => intro _; exact .nil
  | cons c s ih =>
    intro h
    have ih' := ih (fun x hx => h x (by simp [hx]))
    have hc := h c (by simp)
    simp only [isPrintC, Bool.and_eq_true, decide_eq_true_eq] at hc
    rw [List.flatMap_cons]
    by_cases h1 : c = 34
    · subst h1; exact .quote _ _ ih'
    · by_cases h2 : c = 92
      · subst h2; exact .backslash _ _ ih'
      · rw [if_neg (by omega)]
        exact .char c _ _ hc h1 h2 ih'

theorem ctext_octal : ∀ s : List Nat, (∀ c ∈ s, c < 256) →
    CText (s.flatMap fun c => [92, 48 + c / 64, 48 + c / 8 % 8, 48 + c % 8]) s := by
  intro s
  induction s with
  | nil => intro _; exact .nil
  | cons c s ih =>
    intro h
    have ih' := ih (fun x hx => h x (by simp [hx]))
    have hc := h c (by simp)
    rw [List.flatMap_cons]
    have := CText.octal (c / 64) (c / 8 % 8) (c % 8) _ _ (by omega) (by omega) (by omega) ih'
    rw [show 64 * (c / 64) + 8 * (c / 8 % 8) + c % 8 = c by omega] at this
    exact this

/-- **C69** The bytes of a literal, whatever they are, are the bytes of the C string that is written for it. -/
theorem C69_c_string (s : List Nat) (h : ∀ c ∈ s, c < 256) : ∃ t, outputString s = 34 :: t ++ [34] ∧ CText t s := by
  unfold outputString
  dsimp only
  refine ⟨_, rfl, ?_⟩
  cases hp : s.all isPrintC with
  | true =>
    simp only [if_true]
    exact ctext_printable s (fun c hc => List.all_eq_true.1 hp c hc)
  | false =>
    simp only [Bool.false_eq_true, if_false]
    exact ctext_octal s h

/-- A C string stands for one text only. -/
theorem CText.unique {t u v : List Nat} (h : CText t u) (h' : CText t v) : u = v := by
  induction h generalizing v with
  | nil => cases h'; rfl
  | char c t u h1 h2 h3 h ih =>
    cases h' with
    | char _ _ u' _ _ _ h' => rw [ih h']
    | quote => exact absurd rfl h3
    | backslash => exact absurd rfl h3
    | octal => exact absurd rfl h3
  | quote t u h ih =>
    generalize hx : 92 :: 34 :: t = x at h'
    cases h' with
    | nil => simp at hx
    | char c _ _ h1 h2 h3 _ => simp at hx; exact absurd hx.1.symm h3
    | quote t' u' h' => simp at hx; subst hx; rw [ih h']
    | backslash t' u' h' => simp at hx
    | octal a b c t' u' ha hb hc h' => simp at hx; omega
  | backslash t u h ih =>
    generalize hx : 92 :: 92 :: t = x at h'
    cases h' with
    | nil => simp at hx
    | char c _ _ h1 h2 h3 _ => simp at hx; exact absurd hx.1.symm h3
    | quote t' u' h' => simp at hx
    | backslash t' u' h' => simp at hx; subst hx; rw [ih h']
    | octal a b c t' u' ha hb hc h' => simp at hx; omega
  | octal a b c t u ha hb hc h ih =>
    generalize hx : 92 :: (48 + a) :: (48 + b) :: (48 + c) :: t = x at h'
    cases h' with
    | nil => simp at hx
    | char c _ _ h1 h2 h3 _ => simp at hx; exact absurd hx.1.symm h3
    | quote t' u' h' => simp at hx; omega
    | backslash t' u' h' => simp at hx; omega
    | octal a' b' c' t' u' ha' hb' hc' h' =>
      simp only [List.cons.injEq, true_and, Nat.add_left_cancel_iff] at hx
      obtain ⟨rfl, rfl, rfl, rfl⟩ := hx
      rw [ih h']

/-! ### Concatenation -/

/-- **C69** `a & b & c ...` of literals is the text of one after the other; SPACE, ZERO, QUOTE, LOW-VALUE and NULL count as one
character.  (For HIGH-VALUE see `C69_finding_high_value`.) -/
theorem C69_concat (a b : CatOp) (ha : a ≠ .fig .high) (hb : b ≠ .fig .high) :
    (concatLiterals a b).national = false ∧ (concatLiterals a b).data =
      (match a with
        | .lit d => d
        | .fig .space => [32]
        | .fig .zero => [48]
        | .fig .quote => [34]
        | .fig _ => [0]) ++
      (match b with
        | .lit d => d
        | .fig .space => [32]
        | .fig .zero => [48]
        | .fig .quote => [34]
        | .fig _ => [0]) := by
  refine ⟨rfl, ?_⟩
  unfold concatLiterals CatOp.data
  dsimp only
  congr 1
  · rcases a with d | f
    · rfl
    · cases f <;> first | rfl | exact absurd rfl ha
  · rcases b with d | f
    · rfl
    · cases f <;> first | rfl | exact absurd rfl hb

/-- Finding: HIGH-VALUE in a concatenation is the character X"AD", not X"FF". -/
theorem C69_finding_high_value : (concatLiterals (.lit [65]) (.fig .high)).data = [65, 0xAD] := rfl

/-! ### Constants in PICTURE strings -/

theorem wordC_iff (c : Nat) : isWordC c = true ↔ WordChar c := by
  simp only [isWordC, isAlnumL, WordChar, Bool.or_eq_true, Bool.and_eq_true, decide_eq_true_eq, beq_iff_eq]
  omega

theorem upper_same (a b : Nat) : upperC a = upperC b ↔ lowB a = lowB b := by
  unfold upperC lowB
  split_ifs <;> omega

theorem upper_word {a b : Nat} (h : upperC a = upperC b) (hb : WordChar b) : WordChar a := by
  unfold upperC at h
  unfold WordChar at hb ⊢
  split_ifs at h <;> omega

theorem begins_iff : ∀ (t name : List Nat), beginsNoCase t name = true ↔ sameB (t.take name.length) name = true
  | t, [] => by simp [beginsNoCase, sameB]
  | [], b :: u => by simp [beginsNoCase, sameB]
  | a :: t, b :: u => by
    have ih := begins_iff t u
    simp only [beginsNoCase, Bool.and_eq_true, beq_iff_eq, ih, List.length_cons, List.take_succ_cons, sameB, List.map_cons, List.cons.injEq,
      upper_same]

/-- At the beginning of a word the test is whether the word is the name. -/
theorem canReplace_word (prev : Option Nat) (hp : prev.any isWordC = false) (w t name : List Nat) (hw : ∀ c ∈ w, WordChar c)
    (ht : ∀ c, t.head? = some c → ¬ WordChar c) (hn : ∀ c ∈ name, WordChar c) :
    canReplace prev (w ++ t) name = eqNoCase w name := by
  rw [eqNoCase_same, Bool.eq_iff_iff]
  unfold canReplace
  rw [hp]
  simp only [Bool.not_false, Bool.and_true, Bool.and_eq_true, Bool.not_eq_true', begins_iff]
  constructor
  · rintro ⟨h1, h2⟩
    have hle : name.length ≤ (w ++ t).length := by
      have := congrArg List.length ((sameB_iff _ _).1 h1)
      simp at this ⊢; omega
    rcases Nat.lt_trichotomy name.length w.length with hl | hl | hl
    · exfalso
      rw [List.drop_append_of_le_length (by omega)] at h2
      cases hd : w.drop name.length with
      | nil => have := congrArg List.length hd; simp at this; omega
      | cons c r =>
        rw [hd] at h2
        have hc : WordChar c := hw c (List.mem_of_mem_drop (by rw [hd]; simp))
        simp [(wordC_iff c).2 hc] at h2
    · rw [hl, List.take_left] at h1; exact h1
    · exfalso
      cases t with
      | nil => simp at hle; omega
      | cons c t =>
        have hc := ht c rfl
        have hmap := (sameB_iff _ _).1 h1
        have hg := congrArg (fun l : List Nat => l[w.length]?) hmap
        simp only [List.getElem?_map, List.getElem?_take, hl, if_true, List.getElem?_append_right (Nat.le_refl _), Nat.sub_self,
          List.getElem?_cons_zero, Option.map_some] at hg
        rw [List.getElem?_eq_getElem hl] at hg
        simp only [Option.map_some, Option.some.injEq] at hg
        exact hc (upper_word ((upper_same _ _).2 hg) (hn _ (List.getElem_mem hl)))
  · intro h
    have hl : w.length = name.length := by
      have := congrArg List.length ((sameB_iff _ _).1 h)
      simpa using this
    rw [← hl, List.take_left, List.drop_left]
    refine ⟨h, ?_⟩
    cases t with
    | nil => rfl
    | cons c t =>
      have hc := ht c rfl
      rw [← wordC_iff] at hc
      simpa using hc

theorem canReplace_other (prev : Option Nat) (c : Nat) (t name : List Nat) (hc : ¬ WordChar c) (hne : name ≠ [])
    (hn : ∀ c ∈ name, WordChar c) : canReplace prev (c :: t) name = false := by
  cases name with
  | nil => exact absurd rfl hne
  | cons b u =>
    have : (upperC c == upperC b) = false := by
      rw [beq_eq_false_iff_ne]
      intro h
      exact hc (upper_word h (hn b (by simp)))
    simp [canReplace, beginsNoCase, this]

/-- Inside a word nothing is replaced. -/
theorem subst_inside (name value : List Nat) (rest : List Nat) : ∀ (w : List Nat) (p fuel : Nat), isWordC p = true →
    (∀ c ∈ w, WordChar c) → (w ++ rest).length < fuel → ∃ fuel' prev', rest.length < fuel' ∧
      substPic name value fuel (some p) (w ++ rest) = w ++ substPic name value fuel' prev' rest := by
  intro w
  induction w with
  | nil => intro p fuel _ _ hf; exact ⟨fuel, some p, by simpa using hf, rfl⟩
  | cons c w ih =>
    intro p fuel hp hw hf
    cases fuel with
    | zero => simp at hf
    | succ fuel =>
      obtain ⟨f', p', h1, h2⟩ := ih c fuel ((wordC_iff c).2 (hw c (by simp))) (fun x hx => hw x (by simp [hx]))
        (by simp at hf ⊢; omega)
      refine ⟨f', p', h1, ?_⟩
      have hcr : canReplace (some p) (c :: (w ++ rest)) name = false := by simp [canReplace, hp]
      rw [List.cons_append, substPic, hcr, if_neg Bool.false_ne_true, h2]
      rfl

theorem subst_ok (name value : List Nat) (hne : name ≠ []) (hn : ∀ c ∈ name, WordChar c) : ∀ (n fuel : Nat) (prev : Option Nat)
    (text : List Nat), text.length ≤ n → text.length < fuel →
    (∀ c, text.head? = some c → prev.any isWordC = false ∨ ¬ WordChar c) →
    ConstIn name value text (substPic name value fuel prev text) := by
  intro n
  induction n with
  | zero =>
    intro fuel prev text h1 h2 _
    have : text = [] := List.length_eq_zero_iff.1 (by omega)
    subst this
    cases fuel with
    | zero => simp at h2
    | succ f => rw [substPic]; exact .nil
  | succ n ih =>
    intro fuel prev text h1 h2 hb
    cases fuel with
    | zero => simp at h2
    | succ fuel =>
      cases text with
      | nil => rw [substPic]; exact .nil
      | cons c t =>
        simp only [List.length_cons] at h1 h2
        by_cases hc : WordChar c
        · have hp : prev.any isWordC = false := by
            rcases hb c rfl with h | h
            · exact h
            · exact absurd hc h
          have hsplit : (c :: t).takeWhile isWordC ++ (c :: t).dropWhile isWordC = c :: t := List.takeWhile_append_dropWhile
          have hwc : ∀ x ∈ (c :: t).takeWhile isWordC, WordChar x := fun x hx => (wordC_iff x).1 (List.all_eq_true.1 List.all_takeWhile x hx)
          have htc : ∀ x, ((c :: t).dropWhile isWordC).head? = some x → ¬ WordChar x := by
            intro x hx
            rw [← wordC_iff]
            have := List.head?_dropWhile_not isWordC (c :: t)
            rw [hx] at this
            simpa using this
          have hw0 : (c :: t).takeWhile isWordC = c :: t.takeWhile isWordC := by
            rw [List.takeWhile_cons_of_pos ((wordC_iff c).2 hc)]
          have hd0 : (c :: t).dropWhile isWordC = t.dropWhile isWordC := by
            rw [List.dropWhile_cons_of_pos ((wordC_iff c).2 hc)]
          have hlen : (t.takeWhile isWordC).length + (t.dropWhile isWordC).length = t.length := by
            rw [← List.length_append, List.takeWhile_append_dropWhile]
          have hcr := canReplace_word prev hp _ _ name hwc htc hn
          rw [hsplit] at hcr
          rw [substPic, hcr]
          cases he : eqNoCase ((c :: t).takeWhile isWordC) name with
          | true =>
            rw [if_pos rfl]
            have hl : ((c :: t).takeWhile isWordC).length = name.length := by
              rw [eqNoCase_same] at he
              have := congrArg List.length ((sameB_iff _ _).1 he)
              simpa using this
            have hdr : (c :: t).drop name.length = (c :: t).dropWhile isWordC := by
              conv_lhs => rw [← hsplit]
              rw [List.drop_left' hl]
            rw [hdr]
            have hrec := ih fuel ((c :: t).take name.length).getLast? ((c :: t).dropWhile isWordC) (by rw [hd0]; omega) (by rw [hd0]; omega)
              (fun x hx => .inr (htc x hx))
            have := ConstIn.word (name := name) (value := value) _ _ _ (by rw [hw0]; simp) hwc htc hrec
            rw [he, if_pos rfl, hsplit] at this
            exact this
          | false =>
            rw [if_neg Bool.false_ne_true]
            obtain ⟨f', p', h3, h4⟩ := subst_inside name value (t.dropWhile isWordC) (t.takeWhile isWordC) c fuel ((wordC_iff c).2 hc)
              (fun x hx => (wordC_iff x).1 (List.all_eq_true.1 List.all_takeWhile x hx)) (by rw [List.takeWhile_append_dropWhile]; omega)
            rw [List.takeWhile_append_dropWhile] at h4
            rw [h4]
            have hrec := ih f' p' (t.dropWhile isWordC) (by omega) h3 (fun x hx => .inr (htc x (by rw [hd0]; exact hx)))
            have := ConstIn.word (name := name) (value := value) _ _ _ (by rw [hw0]; simp) hwc (by rw [hd0] at htc; exact htc) hrec
            rw [he, if_neg Bool.false_ne_true, hw0] at this
            rw [show c :: t.takeWhile isWordC ++ t.dropWhile isWordC = c :: t by simp [List.takeWhile_append_dropWhile]] at this
            exact this
        · rw [substPic, canReplace_other prev c t name hc hne hn, if_neg Bool.false_ne_true]
          refine .other c t _ hc (ih fuel (some c) t (by omega) (by omega) ?_)
          intro x _
          left
          rw [← wordC_iff] at hc
          simpa using hc

theorem consts_ok : ∀ (consts : List (List Nat × List Nat)) (t : List Nat), (∀ c ∈ consts, c.1 ≠ [] ∧ ∀ x ∈ c.1, WordChar x) →
    ConstsIn consts t (consts.foldl (fun b c => substPic c.1 c.2 (b.length + 1) none b) t)
  | [], t, _ => .nil t
  | c :: cs, t, h => by
    rw [List.foldl_cons]
    obtain ⟨h1, h2⟩ := h c (by simp)
    exact .cons c cs t _ _ (subst_ok c.1 c.2 h1 h2 t.length _ none t (Nat.le_refl _) (Nat.lt_succ_self _) (fun _ _ => .inl rfl))
      (consts_ok cs _ (fun x hx => h x (by simp [hx])))

/-- **C69** In a PICTURE string each constant of level 78, one after the other, is replaced where it stands as a whole word;
letters become capitals, and a `.` or `,` at the end is not part of the PICTURE string. -/
theorem C69_picture (consts : List (List Nat × List Nat)) (text : List Nat)
    (h : ∀ c ∈ consts, c.1 ≠ [] ∧ ∀ x ∈ c.1, WordChar x) :
    (∀ t p, text = t ++ [p] → (p = 46 ∨ p = 44) →
      (scanPicture consts text).2 = some p ∧ ConstsIn consts (t.map fun c => if 97 ≤ c ∧ c ≤ 122 then c - 32 else c) (scanPicture consts text).1) ∧
    (text.getLast? ≠ some 46 → text.getLast? ≠ some 44 →
      (scanPicture consts text).2 = none ∧ ConstsIn consts (text.map fun c => if 97 ≤ c ∧ c ≤ 122 then c - 32 else c) (scanPicture consts text).1) := by
  constructor
  · rintro t p rfl hp
    have hl : (t ++ [p]).getLast? = some p := by simp
    unfold scanPicture
    dsimp only
    rw [hl, if_pos (by rcases hp with rfl | rfl <;> simp)]
    refine ⟨rfl, ?_⟩
    simp only [reduceCtorEq, if_false, List.dropLast_concat]
    exact consts_ok consts _ h
  · intro h1 h2
    unfold scanPicture
    dsimp only
    rw [if_neg (by rintro (h3 | h3); exact h1 h3; exact h2 h3)]
    refine ⟨rfl, ?_⟩
    simp only [if_true]
    exact consts_ok consts _ h

/-- Two texts with the constants replaced are the same: `ConstIn` determines the result. -/
theorem ConstIn.unique {name value t u v : List Nat} (h : ConstIn name value t u) (h' : ConstIn name value t v) : u = v := by
  induction h generalizing v with
  | nil =>
    generalize hx : ([] : List Nat) = x at h'
    cases h' with
    | nil => rfl
    | other => simp at hx
    | word w t' u' hw hc ht h' => simp at hx; exact absurd hx.1 hw
  | other c t u hc h ih =>
    generalize hx : c :: t = x at h'
    cases h' with
    | nil => simp at hx
    | other c' t' u' hc' h' => simp at hx; obtain ⟨rfl, rfl⟩ := hx; rw [ih h']
    | word w t' u' hw hc' ht h' =>
      cases w with
      | nil => exact absurd rfl hw
      | cons a w => simp at hx; exact absurd (hc' a (by simp)) (by rw [← hx.1]; exact hc)
  | word w t u hw hc ht h ih =>
    generalize hx : w ++ t = x at h'
    cases h' with
    | nil => simp at hx; exact absurd hx.1 hw
    | other c' t' u' hc' h' =>
      cases w with
      | nil => exact absurd rfl hw
      | cons a w => simp at hx; exact absurd (hc a (by simp)) (by rw [hx.1]; exact hc')
    | word w' t' u' hw' hc' ht' h' =>
      have key : ∀ (w w' t t' : List Nat), (∀ c ∈ w, WordChar c) → (∀ c ∈ w', WordChar c) → (∀ c, t.head? = some c → ¬ WordChar c) →
          (∀ c, t'.head? = some c → ¬ WordChar c) → w ++ t = w' ++ t' → w = w' ∧ t = t' := by
        intro w
        induction w with
        | nil =>
          intro w' t t' _ h2 h3 _ e
          cases w' with
          | nil => exact ⟨rfl, e⟩
          | cons a w' =>
            exfalso
            exact h3 a (by rw [List.nil_append] at e; rw [e]; rfl) (h2 a (by simp))
        | cons a w ih =>
          intro w' t t' h1 h2 h3 h4 e
          cases w' with
          | nil =>
            exfalso
            exact h4 a (by rw [List.nil_append] at e; rw [← e]; rfl) (h1 a (by simp))
          | cons b w' =>
            simp only [List.cons_append, List.cons.injEq] at e
            obtain ⟨e1, e2⟩ := ih w' t t' (fun c hc => h1 c (by simp [hc])) (fun c hc => h2 c (by simp [hc])) h3 h4 e.2
            exact ⟨by rw [e.1, e1], e2⟩
      obtain ⟨rfl, rfl⟩ := key w w' t t' hc hc' ht ht' hx
      rw [ih h']

/-! ### Samples -/

/-- `'IT''S'` followed by a period. -/
example : readLiteral 39 (bytes "IT''S'. ") = (⟨bytes "IT'S", false⟩, bytes ". ") := by decide +kernel

example : ∃ nat, readLiteral 39 (bytes "IT''S'. ") = (⟨bytes "IT'S", nat⟩, bytes ". ") ∧ (nat = true ↔ bytes "IT'S" ≠ [] ∧ DoubleBytes (bytes "IT'S")) := by
  have h := C69_text 39 (bytes "IT'S") (bytes ". ") (by decide +kernel)
  rw [if_neg (by decide +kernel)] at h
  exact h

/-- Two double-byte characters make a national literal, with a letter they do not. -/
example : readLiteral 34 [0x83, 0x41, 0x83, 0x42, 34] = (⟨[0x83, 0x41, 0x83, 0x42], true⟩, []) ∧
    readLiteral 34 [0x83, 0x41, 65, 34] = (⟨[0x83, 0x41, 65], false⟩, []) := by decide +kernel

example : scanX (bytes "4a4B\"") = some ⟨[0x4A, 0x4B], false⟩ :=
  (C69_hex 34 (.inr rfl) (bytes "4a4B") _ (by decide +kernel)).2
    (.cons 52 97 4 10 _ _ (by unfold HexDigit; omega) (by unfold HexDigit; omega)
      (.cons 52 66 4 11 _ _ (by unfold HexDigit; omega) (by unfold HexDigit; omega) .nil))

example : ∃ l, scanH (bytes "fF'") = some l ∧ l.Proper ∧ l.sign = 0 ∧ l.scale = 0 ∧ l.units = 255 :=
  C69_hex_number 39 (.inl rfl) (bytes "fF") 255
    (.snoc [102] 15 70 15 (.snoc [] 0 102 15 .nil (by unfold HexDigit; omega)) (by unfold HexDigit; omega)) (by norm_num)

/-- -12.50 -/
example : ∃ l, scanNumeric 46 (bytes "-12.50") = some l ∧ l.scale = 2 ∧ Holds false l.item (-12.5) := by
  obtain ⟨l, h1, _, h3, _, _, h6⟩ := C69_number false 46 (.inl rfl) ⟨some 45, bytes "12", some (bytes "50")⟩
    ⟨by simp, by decide +kernel, by decide +kernel, by decide +kernel⟩ (by decide +kernel)
  refine ⟨l, h1, h3, ?_⟩
  have : NumberParts.value ⟨some 45, bytes "12", some (bytes "50")⟩ = -12.5 := by
    have e1 : decNumber (bytes "12") = 12 := by decide +kernel
    have e2 : decNumber (NumberParts.decimals ⟨some 45, bytes "12", some (bytes "50")⟩) = 50 := by decide +kernel
    have e3 : (NumberParts.decimals ⟨some 45, bytes "12", some (bytes "50")⟩).length = 2 := by decide +kernel
    unfold NumberParts.value
    rw [e2, e3]
    simp only [e1]
    norm_num
  rw [this] at h6
  exact h6

example : scanNumeric 46 (bytes "1.2.3") = none := C69_number_error 46 _ (by decide +kernel)

example : outputString (bytes "a\"b") = bytes "\"a\\\"b\"" ∧ outputString [0, 65, 255] = bytes "\"\\000\\101\\377\"" := by decide +kernel

/-- PIC S9(LEN)V9(LEN-2). with two constants. -/
example : scanPicture [(bytes "len", bytes "7"), (bytes "LEN-2", bytes "2")] (bytes "s9(len)v9(Len-2).") = (bytes "S9(7)V9(2)", some 46) := by
  decide +kernel

/-! ### Findings -/

/-- Finding: an X literal ends at the first character that is not a letter or digit: `X"41 42"` is one byte, without a
message. -/
theorem C69_finding_hex_blank : scanX (bytes "41 42\"") = some ⟨[0x41], false⟩ := by decide +kernel

/-- Finding: an H literal of 16 digits with the first bit set gives a "digit" `-`, one of 17 digits loses the first. -/
theorem C69_finding_hex_number : scanH (bytes "FFFFFFFFFFFFFFFF'") = some ⟨bytes "-1", 0, 0⟩ ∧
    scanH (bytes "10000000000000001'") = some ⟨bytes "1", 0, 0⟩ := by decide +kernel

/-- Finding: a numeric literal with 128 decimals has the scale -128. -/
theorem C69_finding_scale : (scanNumeric 46 (46 :: List.replicate 128 49)).map (·.scale) = some (-128) := by decide +kernel

/-- Finding: the value of a constant is scanned again for the constants that come behind it. -/
theorem C69_finding_constants_again : (scanPicture [(bytes "A", bytes "B"), (bytes "B", bytes "3")] (bytes "9(A)")).1 = bytes "9(3)" := by
  decide +kernel

end Cob
