import Verif.Intr.NumvalProps
/-
C58, continued: numbers of more than 18 digits, and CR and DB in NUMVAL-C.
-/
namespace Cob

/-! ### More than 18 digits -/

/-- The digits before and behind the point, as they are copied. -/
theorem nvChars_buffs (dp : Nat) (sym : Option Nat) (hd : PointOk dp) (hs : ∀ k, sym = some k → ¬ (48 ≤ k ∧ k ≤ 57))
    (x : List Nat) : ∀ s : NV,
      (nvChars dp sym x s).whole = s.whole ++ (if s.seen then [] else (textDigits (x.takeWhile (· ≠ dp))).map (· + 48)) ∧
      (nvChars dp sym x s).frac = s.frac ++ (textDigits (if s.seen then x else x.dropWhile (· ≠ dp))).map (· + 48) := by
  induction x with
  | nil => intro s; cases s.seen <;> simp [nvChars, textDigits]
  | cons c x ih =>
    intro s
    have he : nvChars dp sym (c :: x) s = nvChars dp sym x (nvChar dp sym c s) := rfl
    obtain ⟨h1, h2⟩ := ih (nvChar dp sym c s)
    rw [he, h1, h2]
    have hdp := hd
    unfold PointOk at hdp
    by_cases h : c = dp
    · subst h
      have hk : nvChar c sym c s = { s with seen := true } := by
        unfold nvChar
        rw [if_neg (by omega), if_neg (by omega), if_neg (by omega), if_pos rfl]
      rw [hk]
      simp only [if_true, List.takeWhile_cons, List.dropWhile_cons]
      cases s.seen <;> simp [textDigits_cons, show ¬ (48 ≤ c ∧ c ≤ 57) by omega] <;> simp [textDigits]
    · by_cases hdg : 48 ≤ c ∧ c ≤ 57
      · have hk : some c ≠ sym := fun e => hs c e.symm hdg
        have hc : nvChar dp sym c s = if s.seen then { s with ll := s.ll * 10 + (c - 48), frac := s.frac ++ [c] }
            else { s with ll := s.ll * 10 + (c - 48), whole := s.whole ++ [c] } := by
          unfold nvChar
          rw [if_neg (by omega), if_neg (by omega), if_neg (by omega), if_neg h, if_neg hk, if_pos hdg]
        rw [hc]
        have h48 : c - 48 + 48 = c := by omega
        cases hseen : s.seen <;> simp [textDigits_cons, hdg, h, h48, hseen]
      · have hf : (nvChar dp sym c s).whole = s.whole ∧ (nvChar dp sym c s).frac = s.frac ∧ (nvChar dp sym c s).seen = s.seen := by
          unfold nvChar
          split_ifs <;> simp
        rw [hf.1, hf.2.1, hf.2.2]
        cases hseen : s.seen <;> simp [textDigits_cons, hdg, h]

/-- The text of a number with a point: a digit stands on both sides of it. -/
def pointText (neg : Bool) (ws fs : List Nat) : List Nat :=
  (if neg then [45] else []) ++ (if ws = [] then [48] else ws.map (· + 48)) ++ [46] ++
    (if fs = [] then [48] else fs.map (· + 48))

/-- **C58** NUMVAL of a well-formed text with 19 to 30 digits: the floating-point number whose text has exactly these digits, point and
sign. -/
theorem C58_numval_long (dp : Nat) (hd : PointOk dp) (after x : List Nat) (neg : Bool) (ws fs : List Nat)
    (hx : NumvalText dp x neg ws fs) (hn : 18 < ws.length + fs.length) (hn' : ws.length + fs.length ≤ 30) :
    intrNumval dp after x = .float (pointText neg ws fs) := by
  obtain ⟨point, p, q, h1, h2, h3, rfl, h5⟩ := hx.around
  obtain ⟨t1, t2, t3, t4⟩ := text_parts hd hx.digits h1 h2 h3
  generalize p ++ numvalText dp point ws fs ++ q = x at *
  obtain ⟨g1, g2, g3, g4⟩ := nvChars_text dp none hd (by simp) x
  obtain ⟨b1, b2⟩ := nvChars_buffs dp none hd (by simp) x {}
  have hloop := nvLoop_chars dp none hd (by simp) after [] x {} t4 (by rw [t1]; simp [NV.count]; omega)
  rw [List.append_nil] at hloop
  simp only [Bool.false_eq_true, if_false, List.nil_append] at b1 b2
  have hw : textDigits (x.takeWhile (· ≠ dp)) = ws := by
    have := textDigits_append (x.takeWhile (· ≠ dp)) (x.dropWhile (· ≠ dp))
    rw [List.takeWhile_append_dropWhile, t1, t2] at this
    exact (List.append_cancel_right this).symm
  rw [hw] at b1
  rw [t2] at b2
  unfold intrNumval
  rw [hloop]
  have hsg : (nvChars dp none x {}).neg = neg := by
    rw [g3, Bool.eq_iff_iff, List.contains_iff_mem, t3, h5]
  unfold nvResult
  show (if (nvChars dp none x {}).whole.length + (nvChars dp none x {}).frac.length ≤ 18 then _ else
    NVRes.float ((if (nvChars dp none x {}).neg then [45] else []) ++ (if (nvChars dp none x {}).whole = [] then [48] else (nvChars dp none x {}).whole)
      ++ [46] ++ (if (nvChars dp none x {}).frac = [] then [48] else (nvChars dp none x {}).frac))) = _
  rw [b1, b2, hsg, if_neg (by simp; omega)]
  unfold pointText
  simp only [List.map_eq_nil_iff]

example : intrNumval 46 [0] (codes " -123456789012345678.99 ") = .float (codes "-123456789012345678.99") := by decide +kernel
example : NumvalText 46 (codes "-123456789012345678.9") true [1, 2, 3, 4, 5, 6, 7, 8, 9, 0, 1, 2, 3, 4, 5, 6, 7, 8] [9] :=
  ⟨by simp, by simp, true, .minus, 0, 0, 0, by simp, by simp, Or.inl (by decide)⟩

/-- **C58** The 31st digit is the last character looked at: what follows has no effect. -/
theorem C58_numval_cut (dp : Nat) (hd : PointOk dp) (after after' y z : List Nat) (d : Nat) (hy : NoCD y) (h30 : (textDigits y).length = 30)
    (hdg : 48 ≤ d ∧ d ≤ 57) : intrNumval dp after (y ++ d :: z) = intrNumval dp after' (y ++ [d]) := by
  have e : ∀ a z, nvLoop dp none a (y ++ d :: z) {} = nvChar dp none d (nvChars dp none y {}) := by
    intro a z
    rw [nvLoop_chars dp none hd (by simp) a (d :: z) y {} hy (by rw [h30]; simp [NV.count])]
    have hc := (nvChar_count dp none hd (by simp) d (nvChars dp none y {})).1
    have hy30 := (nvChars_text dp none hd (by simp) y).1
    have h1 : (textDigits [d]).length = 1 := by rw [textDigits_cons, if_pos hdg]; simp [textDigits]
    rw [hy30, h30, h1] at hc
    unfold NV.count at hc
    rw [nvLoop, if_neg, if_pos (by omega)]
    rw [List.cons_append, crdb_head (by omega)]
    simp
  unfold intrNumval
  rw [e, e]

/-- **C58** (finding) So an integer of 32 digits becomes the one of its first 31. -/
theorem C58_finding_too_many_digits :
    intrNumval 46 [0] (List.replicate 32 49) = .float (List.replicate 31 49 ++ codes ".0") := by decide +kernel

/-! ### NUMVAL-C with CR and DB -/

theorem crdb_credit (l1 l2 : Nat) (after : List Nat) (hl : [l1, l2] = codes "CR" ∨ [l1, l2] = codes "cr" ∨ [l1, l2] = codes "Cr" ∨ [l1, l2] = codes "cR" ∨
      [l1, l2] = codes "DB" ∨ [l1, l2] = codes "db" ∨ [l1, l2] = codes "Db" ∨ [l1, l2] = codes "dB")
    (hafter : after.head? = none ∨ after.head? = some 0) : crdb ([l1, l2] ++ after) = true := by
  have hcs : crdb ([l1, l2] ++ after) = crdb [l1, l2] := by
    have hl1 : l1 ≠ 0 ∧ l2 ≠ 0 := by
      simp [codes] at hl
      omega
    unfold crdb
    have : ([l1, l2] ++ after).takeWhile (· ≠ 0) = [l1, l2].takeWhile (· ≠ 0) := by
      have h0 : after.takeWhile (· ≠ 0) = [] := by
        cases after with
        | nil => rfl
        | cons c r =>
          simp at hafter
          simp [hafter]
      simp only [List.cons_append, List.nil_append, List.takeWhile_cons]
      simp [hl1.1, hl1.2] at h0 ⊢
      exact h0
    rw [this]
  rw [hcs]
  rcases hl with h | h | h | h | h | h | h | h <;> rw [h] <;> decide

/-- **C58** NUMVAL-C: a number, with or without currency and separators, followed by CR or DB is negative, provided that the letters are the
last characters of the argument and that the byte behind the argument in storage is NUL. -/
theorem C58_numval_c_credit (ebc : Bool) (dp sym : Nat) (hd : PointOk dp) (hsym : SymOk dp sym) (cur : Option (List Nat))
    (hcur : ∀ cs, cur = some cs → CurOk cs) (after x k : List Nat)
    (hk : k = [] ∨ cur = some k ∨ (k = [sym] ∧ ∀ cs, cur = some cs → cs.head? ≠ some sym)) (ws fs : List Nat) (t : List Nat)
    (point : Bool) (a b c : Nat) (l1 l2 : Nat) (hsome : ws ++ fs ≠ []) (hpt : fs ≠ [] → point = true) (hdig : ∀ d ∈ fs, d ≤ 9)
    (ht : Grouped dp t ws)
    (hx : x = blanks a ++ k ++ blanks b ++ (t ++ (if point then [dp] else []) ++ fs.map (· + 48)) ++ blanks c ++ [l1, l2])
    (hl : [l1, l2] = codes "CR" ∨ [l1, l2] = codes "cr" ∨ [l1, l2] = codes "Cr" ∨ [l1, l2] = codes "cR" ∨
      [l1, l2] = codes "DB" ∨ [l1, l2] = codes "db" ∨ [l1, l2] = codes "Db" ∨ [l1, l2] = codes "dB")
    (hafter : after.head? = none ∨ after.head? = some 0) (hn : ws.length + fs.length ≤ 18) :
    ∃ it, intrNumvalC dp sym cur after x = .exact it ∧ WFItem it ∧ it.field.attr.scale = fs.length ∧
      Holds ebc it (shownNumber true ws fs) := by
  have hs : ∀ k, some sym = some k → ¬ (48 ≤ k ∧ k ≤ 57) := by
    intro k hk; cases hk; exact hsym.1
  have h3 := around_blanks a
  have h4 := around_blanks b
  have h5 := around_blanks c
  have hp0 : textDigits (blanks a) = [] := textDigits_blanks a
  obtain ⟨t1, t2, t3, t4⟩ := text_parts_grouped hd hdig ht hpt (around_append h3 h4) h5
  generalize hB : t ++ (if point then [dp] else []) ++ fs.map (· + 48) = B at *
  generalize blanks a = p at *
  generalize blanks b = p2 at *
  generalize blanks c = q at *
  have hpost : ∀ c ∈ p2 ++ B ++ q, c = 32 ∨ c = 43 ∨ c = 45 ∨ c = 44 ∨ c = 46 ∨ (48 ≤ c ∧ c ≤ 57) := by
    intro c hc
    apply t4 c
    simp only [List.mem_append] at hc ⊢
    rcases hc with (hc | hc) | hc
    · exact Or.inl (Or.inl (Or.inr hc))
    · exact Or.inl (Or.inr hc)
    · exact Or.inr hc
  have hdig9 : ∀ d ∈ ws ++ fs, d ≤ 9 := by rw [← t1]; exact textDigits_le _
  have hpd : textDigits (p2 ++ B ++ q) = ws ++ fs := by
    have e : p ++ p2 ++ B ++ q = p ++ (p2 ++ B ++ q) := by simp only [List.append_assoc]
    rw [e, textDigits_append, hp0] at t1
    simpa using t1
  have hexd : ∃ d ∈ p2 ++ B ++ q, 48 ≤ d ∧ d ≤ 57 := by
    by_contra h
    have h' : ∀ c ∈ p2 ++ B ++ q, ¬ (48 ≤ c ∧ c ≤ 57) := fun c hc hh => h ⟨c, hc, hh⟩
    rw [textDigits_none _ h'] at hpd
    exact hsome hpd.symm
  have hcr := crdb_credit l1 l2 after hl hafter
  have hl0 : l1 ≠ 0 ∧ l2 ≠ 0 := by
    simp [codes] at hl
    omega
  have hxe : x = p ++ (k ++ (p2 ++ B ++ q ++ [l1, l2])) := by rw [hx]; simp only [List.append_assoc]
  have hloop : ∀ cur' : Option (List Nat), (∀ cs, cur' = some cs → CurOk cs) →
      (k = [] ∨ cur' = some k ∨ (k = [sym] ∧ ∀ cs, cur' = some cs → cs.head? ≠ some sym)) →
      nvcLoop dp (some sym) cur' after x 0 {} = { nvChars dp (some sym) (p ++ p2 ++ B ++ q) {} with neg := true } := by
    intro cur' hcur' hk'
    have hcne : ∀ cs, cur' = some cs → cs ≠ [] := by
      intro cs h
      obtain ⟨-, c, r, rfl, -⟩ := hcur' cs h
      simp
    have hclash : ∀ z : List Nat, (∀ c ∈ z, c = 32 ∨ c = 43 ∨ c = 45 ∨ c = 44 ∨ c = 46 ∨ (48 ≤ c ∧ c ≤ 57)) →
        NoCD z ∧ ∀ cs, cur' = some cs → ∀ c ∈ z, cs.head? ≠ some c := by
      intro z hz
      refine ⟨fun c hc => by have := hz c hc; omega, ?_⟩
      intro cs h c hc he
      obtain ⟨-, c', r, rfl, h⟩ := hcur' cs h
      simp at he
      have := hz c hc
      omega
    have hpc := hclash p (fun c hc => by have := h3 c hc; omega)
    have hpo := hclash _ hpost
    have hpoc := (nvChars_count dp (some sym) hd hs p {}).1
    have hstop : ∀ s : NV, nvcLoop dp (some sym) cur' after [l1, l2] 0 s = { s with neg := true } := by
      intro s
      rw [nvcLoop.eq_def]
      simp only
      rw [if_pos ⟨by simp, hcr⟩]
    have hend : ∀ s : NV, s.count = 0 → nvcLoop dp (some sym) cur' after (p2 ++ B ++ q ++ [l1, l2]) 0 s =
        { nvChars dp (some sym) (p2 ++ B ++ q) s with neg := true } := by
      intro s hs0
      rw [nvcLoop_chars dp (some sym) hd hs cur' hcne after [l1, l2] (p2 ++ B ++ q) s hpo.1 hpo.2
        (by rw [hs0, hpd]; simp; omega), hstop]
    have hcount : (nvChars dp (some sym) p {}).count = 0 := by rw [hpoc, hp0]; rfl
    have hjoin : nvChars dp (some sym) (p ++ p2 ++ B ++ q) {} =
        nvChars dp (some sym) (p2 ++ B ++ q) (nvChars dp (some sym) p {}) := by
      rw [← nvChars_append]; simp only [List.append_assoc]
    have hstart : nvcLoop dp (some sym) cur' after x 0 {} =
        nvcLoop dp (some sym) cur' after (k ++ (p2 ++ B ++ q ++ [l1, l2])) 0 (nvChars dp (some sym) p {}) := by
      rw [hxe]
      exact nvcLoop_chars dp (some sym) hd hs cur' hcne after _ p {} hpc.1 hpc.2 (by rw [hp0]; simp [NV.count])
    rw [hstart, hjoin]
    by_cases hck : cur' = some k
    · subst hck
      rw [nvcLoop_currency dp (some sym) k (hcur' k rfl) after _ (fun c hc => by
          rcases List.mem_append.mp hc with hc | hc
          · have := hpost c hc; omega
          · simp at hc; omega) (by
          obtain ⟨d, h1, h2⟩ := hexd
          exact ⟨d, by rw [List.mem_append]; exact Or.inl h1, h2⟩)]
      exact hend _ hcount
    · rcases hk' with rfl | h | ⟨rfl, hsame⟩
      · exact hend _ hcount
      · exact absurd h hck
      · have hkd : textDigits [sym] = [] := textDigits_none _ (by intro c hc; simp at hc; subst hc; exact hsym.1)
        have hstep := nvcLoop_chars dp (some sym) hd hs cur' hcne after (p2 ++ B ++ q ++ [l1, l2]) [sym] (nvChars dp (some sym) p {})
          (by intro c hc; simp at hc; subst hc; exact hsym.2.2.2.2.2)
          (by intro cs h c hc; simp at hc; subst hc; exact hsame cs h)
          (by rw [hcount, hkd]; simp)
        rw [hstep]
        have hid : nvChars dp (some sym) [sym] (nvChars dp (some sym) p {}) = nvChars dp (some sym) p {} := by
          obtain ⟨g1, g2, g3, g4, g5, -⟩ := hsym
          show nvChar dp (some sym) sym _ = _
          unfold nvChar
          simp [g2, g3, g4, g5]
        rw [hid]
        exact hend _ hcount
  have hlt : digitsVal (ws ++ fs) < 10 ^ 18 :=
    lt_of_lt_of_le (digitsVal_lt _ hdig9) (Nat.pow_le_pow_right (by omega) (by simpa using hn))
  obtain ⟨c1, c2, c3, c4⟩ := nvChars_text dp (some sym) hd hs (p ++ p2 ++ B ++ q)
  rw [t1] at c1 c2
  rw [t2] at c4
  obtain ⟨it, g1, g2, g3, g4⟩ := nvResult_holds ebc { nvChars dp (some sym) (p ++ p2 ++ B ++ q) {} with neg := true }
    (by show (nvChars _ _ _ _).count ≤ 18; rw [c1]; simpa using hn) (by show (nvChars _ _ _ _).ll < _; rw [c2]; exact hlt)
  refine ⟨it, ?_, g2, g3.trans (by rw [c4]), ?_⟩
  · rw [← g1]
    unfold intrNumvalC
    cases cur with
    | none => exact congrArg nvResult (hloop none (by simp) (by simpa using hk))
    | some cs =>
      by_cases hlen : cs.length < x.length
      · simp only [if_pos hlen]
        exact congrArg nvResult (hloop (some cs) hcur hk)
      · simp only [if_neg hlen]
        refine congrArg nvResult (hloop none (by simp) ?_)
        rcases hk with h | h | ⟨h, -⟩
        · exact Or.inl h
        · exfalso
          cases h
          rw [hxe] at hlen
          simp only [List.length_append, List.length_cons] at hlen
          omega
        · exact Or.inr (Or.inr ⟨h, by simp⟩)
  · unfold shownNumber
    simp only [if_true] at g4 ⊢
    rw [c2, c4] at g4
    exact g4

example : (match intrNumvalC 46 36 (some (codes "EUR")) [0] (codes " EUR 1,234.5 DB") with
    | .exact it => (readItem false it).1 | .float _ => none) = some ⟨-12345, 1⟩ := by decide +kernel

end Cob
