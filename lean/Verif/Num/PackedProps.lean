import Verif.Num.DisplayProps
/-
Properties C02 (packed round trip) and C04 for PACKED receivers.
-/
namespace Cob

/-! ### helper lemmas -/

/-- Pair up nibbles, a last unpaired one going to the high half of the last byte. -/
def packHalf : List Nat → List Nat
  | [] => []
  | [a] => [16 * a]
  | a :: b :: t => (16 * a + b) :: packHalf t

theorem or_digit (a x : Nat) (hx : x ≤ 9) : (16 * a) ||| x = 16 * a + x := by
  have := Nat.shiftLeft_add_eq_or_of_lt (b := x) (i := 4) (by omega) a
  rw [Nat.shiftLeft_eq] at this
  have e : a * 2 ^ 4 = 16 * a := by ring
  rw [e] at this
  exact this.symm

theorem packLoop_even (q : List Nat) (hq : ∀ x ∈ q, x ≤ 9) :
    ∀ (i : Nat) (pre post : List Nat), i % 2 = 0 → (q.length + 1) / 2 ≤ post.length →
      (∀ b ∈ post, b = 0) →
      packLoop (q.map (48 + ·)) i pre.length (pre ++ post) =
        pre ++ packHalf q ++ post.drop ((q.length + 1) / 2) := by
  induction q using packHalf.induct with
  | case1 => intro i pre post _ _ _; simp [packLoop, packHalf]
  | case2 a =>
    intro i pre post hi hl _
    cases post with
    | nil => simp at hl
    | cons c post =>
      simp [packLoop, packHalf, hi]
      omega
  | case3 a b t ih =>
    intro i pre post hi hl hz
    cases post with
    | nil => simp at hl; omega
    | cons c post =>
      have hb : b ≤ 9 := hq b (by simp)
      have hs1 : (pre ++ c :: post).set pre.length ((48 + a - 48) * 16) = pre ++ (16 * a) :: post := by
        simp; omega
      have hg : (pre ++ (16 * a) :: post).getD pre.length 0 = 16 * a := by simp
      have hs2 : (pre ++ (16 * a) :: post).set pre.length (16 * a ||| (48 + b - 48)) =
          (pre ++ [16 * a + b]) ++ post := by
        rw [show 48 + b - 48 = b by omega, or_digit a b hb]
        simp
      have hi1 : ¬ (i + 1) % 2 = 0 := by omega
      have ih' := ih (fun x hx => hq x (by simp [hx])) (i + 1 + 1) (pre ++ [16 * a + b]) post
        (by omega) (by simp at hl; omega) (fun x hx => hz x (by simp [hx]))
      rw [List.map_cons, List.map_cons, packLoop, if_pos hi, packLoop, if_neg hi1, hs1, hg, hs2]
      have hlen : (pre ++ [16 * a + b]).length = pre.length + 1 := by simp
      rw [hlen] at ih'
      rw [ih', packHalf]
      have : (t.length + 1 + 1 + 1) / 2 = (t.length + 1) / 2 + 1 := by omega
      simp [this]

theorem packNibbles_half (q : List Nat) (s : Nat) (h : q.length % 2 = 1) :
    ∃ c, packHalf q = (packHalf q).dropLast ++ [16 * c] ∧
      packNibbles (q ++ [s]) = (packHalf q).dropLast ++ [16 * c + s] := by
  induction q using packHalf.induct with
  | case1 => simp at h
  | case2 a => exact ⟨a, by simp [packHalf], by simp [packHalf, packNibbles]⟩
  | case3 a b t ih =>
    obtain ⟨c, h1, h2⟩ := ih (by simp at h; omega)
    refine ⟨c, ?_, ?_⟩
    · have hne : packHalf t ≠ [] := by
        rw [h1]; simp
      rw [packHalf, List.dropLast_cons_of_ne_nil hne, List.cons_append, ← h1]
    · have hne : packHalf t ≠ [] := by
        rw [h1]; simp
      rw [packHalf, List.dropLast_cons_of_ne_nil hne, List.cons_append, List.cons_append, packNibbles, h2]
      simp

theorem packHalf_length (q : List Nat) : (packHalf q).length = (q.length + 1) / 2 := by
  induction q using packHalf.induct with
  | case1 => simp [packHalf]
  | case2 a => simp [packHalf]
  | case3 a b t ih => simp [packHalf, ih]; omega

theorem packHalf_zeros (k : Nat) (q : List Nat) :
    packHalf (List.replicate (2 * k) 0 ++ q) = List.replicate k 0 ++ packHalf q := by
  induction k with
  | zero => simp
  | succ k ih =>
    rw [show 2 * (k + 1) = 2 * k + 1 + 1 by ring, List.replicate_succ, List.replicate_succ]
    simp [packHalf, ih, List.replicate_succ]

theorem setSignNibble_last (pre : List Nat) (c s : Nat) :
    setSignNibble (pre ++ [16 * c]) s = pre ++ [16 * c + s] := by
  unfold setSignNibble
  simp
  omega

/-- The loop of `cob_decimal_get_packed` writes `q` right-adjusted in the nibbles. -/
theorem packLoop_image (digits : Nat) (q : List Nat) (hq : ∀ x ∈ q, x ≤ 9)
    (h0 : 0 < q.length) (hl : q.length ≤ digits) :
    packLoop (q.map (48 + ·)) (1 - q.length % 2) (digits / 2 - q.length / 2)
        (List.replicate (digits / 2 + 1) 0) =
      packHalf (List.replicate ((if digits % 2 = 0 then 1 else 0) + (digits - q.length)) 0 ++ q) := by
  rcases Nat.mod_two_eq_zero_or_one q.length with he | ho
  · -- even number of digits: first goes to a low nibble
    match q, h0, hq, he, hl with
    | x :: t, h0, hq, he, hl =>
      have hx : x ≤ 9 := hq x (by simp)
      simp only [List.length_cons] at *
      set p := digits / 2 - (t.length + 1) / 2 with hp
      have hd : digits / 2 + 1 = p + ((t.length + 1) / 2 + 1) := by omega
      rw [he, List.map_cons, packLoop, if_neg (by omega)]
      have hset : (List.replicate (digits / 2 + 1) 0).set p
          ((List.replicate (digits / 2 + 1) 0).getD p 0 ||| (48 + x - 48)) =
          (List.replicate p 0 ++ [x]) ++ List.replicate ((t.length + 1) / 2) 0 := by
        rw [hd, ← List.replicate_append_replicate, List.replicate_succ]
        have e1 : (List.replicate p 0 ++ 0 :: List.replicate ((t.length + 1) / 2) 0).getD p 0 = 0 := by
          simp [List.getD]
        rw [e1]
        rw [List.set_append_right _ _ (by simp)]
        simp
      rw [hset]
      have := packLoop_even t (fun y hy => hq y (by simp [hy])) (1 - 0 + 1)
        (List.replicate p 0 ++ [x]) (List.replicate ((t.length + 1) / 2) 0) (by omega) (by simp)
        (by simp)
      have hlen : (List.replicate p 0 ++ [x]).length = p + 1 := by simp
      rw [hlen] at this
      rw [this]
      have hpad : (if digits % 2 = 0 then 1 else 0) + (digits - (t.length + 1)) = 2 * p + 1 := by
        split <;> omega
      rw [hpad]
      have : List.replicate (2 * p + 1) 0 ++ x :: t = List.replicate (2 * p) 0 ++ (0 :: x :: t) := by
        rw [← List.replicate_append_replicate]; simp
      rw [this, packHalf_zeros, packHalf]
      simp
  · set p := digits / 2 - q.length / 2 with hp
    have hd : digits / 2 + 1 = p + (q.length + 1) / 2 := by omega
    rw [ho, hd, ← List.replicate_append_replicate]
    have := packLoop_even q hq (1 - 1) (List.replicate p 0) (List.replicate ((q.length + 1) / 2) 0)
      (by omega) (by simp) (by simp)
    rw [List.length_replicate] at this
    rw [this]
    have hpad : (if digits % 2 = 0 then 1 else 0) + (digits - q.length) = 2 * p := by
      split <;> omega
    rw [hpad, packHalf_zeros]
    simp

theorem fixedDigits_pad (k m n : Nat) (h : n < 10 ^ k) (hkm : k ≤ m) :
    fixedDigits m n = List.replicate (m - k) 0 ++ fixedDigits k n := by
  obtain ⟨e, rfl⟩ := Nat.exists_eq_add_of_le hkm
  rw [Nat.add_sub_cancel_left]
  clear hkm
  induction k generalizing n with
  | zero =>
    have : n = 0 := by simpa using h
    subst this
    simp only [fixedDigits, List.append_nil, Nat.zero_add]
    induction e with
    | zero => rfl
    | succ e ih => rw [fixedDigits, ih, List.replicate_succ']
  | succ k ih =>
    rw [show k + 1 + e = (k + e) + 1 by ring, fixedDigits, fixedDigits, ih _ (by rw [Nat.pow_succ] at h; omega)]
    simp

theorem decStr_eq_fixed (n : Nat) : decStr n = (fixedDigits (decStr n).length n).map (48 + ·) := by
  have := digitStr_eq (decStr n) (decStr_digit n)
  rw [strVal_decStr] at this
  exact this

/-- `packedAcc` reads digit pairs. -/
theorem packedAcc_eq (q : List Nat) (hq : ∀ x ∈ q, x ≤ 9) (s : Nat) (hs : s < 16) :
    ∀ (pre : List Nat) (val : Nat), q.length % 2 = 1 →
      packedAcc (pre ++ packNibbles (q ++ [s])) q.length pre.length val =
        val * 10 ^ q.length + digitsVal q := by
  induction q using packHalf.induct with
  | case1 => intro _ _ h; simp at h
  | case2 a =>
    intro pre val _
    simp [packNibbles, packedAcc, digitsVal]
    omega
  | case3 a b t ih =>
    intro pre val h
    have ha := hq a (by simp)
    have hb := hq b (by simp)
    have ih' := ih (fun x hx => hq x (by simp [hx])) (pre ++ [16 * a + b])
      (val * 100 + (a * 10 + b)) (by simp at h; omega)
    simp only [List.length_cons, List.cons_append, packNibbles]
    rw [packedAcc]
    have hg : (pre ++ (16 * a + b) :: packNibbles (t ++ [s])).getD pre.length 0 = 16 * a + b := by
      simp
    have e1 : (16 * a + b) / 16 = a := by omega
    have e2 : (16 * a + b) % 16 = b := by omega
    rw [hg, e1, e2]
    rw [List.length_append, List.length_singleton] at ih'
    have e3 : pre ++ [16 * a + b] ++ packNibbles (t ++ [s]) =
        pre ++ (16 * a + b) :: packNibbles (t ++ [s]) := by simp
    rw [e3] at ih'
    rw [ih']
    simp only [digitsVal, List.length_cons, pow_succ]
    ring

/-! ### C02 -/

/-- The sign nibble the format prescribes: C/D for signed items, F for unsigned ones. -/
def signNibble (a : Attr) (neg : Bool) : Nat :=
  if !a.haveSign then 15 else if neg then 13 else 12

/-- C02 (store): storing `v` writes exactly the packed image of its low-order digits with the
prescribed sign nibble (the unused high nibble, if any, being zero). -/
theorem C02_store_image (v : Int) (f : Field) (hf : WFPacked f) (opt : StoreOpt)
    (hk : opt.keep = false ∨ v.natAbs < 10 ^ f.attr.digits) :
    decGetPacked v f opt =
      ⟨{ f with data := packedImage f.attr.digits v.natAbs (signNibble f.attr (decide (v < 0))) },
        decide (10 ^ f.attr.digits ≤ v.natAbs), false⟩ := by
  obtain ⟨hd, hlen⟩ := hf
  set n := v.natAbs with hn
  set D := f.attr.digits with hD
  have hlenpos : 0 < (decStr n).length := by
    rw [List.length_pos_iff]; exact decStr_ne_nil n
  -- the digits actually written
  obtain ⟨k, hk1, hk2, hq⟩ : ∃ k, 0 < k ∧ k ≤ D ∧
      ((if decide (D < (decStr n).length) = true then (decStr n).drop ((decStr n).length - D) else decStr n)
        = (fixedDigits k n).map (48 + ·)) ∧
      fixedDigits D n = List.replicate (D - k) 0 ++ fixedDigits k n := by
    by_cases hov : D < (decStr n).length
    · refine ⟨D, hd, le_refl _, ?_, by simp⟩
      simp only [hov, decide_true, if_true]
      exact cut_eq D n (by omega)
    · refine ⟨(decStr n).length, hlenpos, by omega, ?_, ?_⟩
      · simp only [hov, decide_false, Bool.false_eq_true, if_false]
        exact decStr_eq_fixed n
      · exact fixedDigits_pad _ _ _ ((decStr_length_le n _ hlenpos).mp (le_refl _)) (by omega)
  have hoveq : decide (D < (decStr n).length) = decide (10 ^ D ≤ n) := by
    have := decStr_length_le n D hd
    by_cases h : n < 10 ^ D
    · simp [h, Nat.not_lt.mpr (this.mpr h)]
    · have h' : ¬ (decStr n).length ≤ D := fun x => h (this.mp x)
      have h1 : D < (decStr n).length := by omega
      have h2 : 10 ^ D ≤ n := by omega
      simp [h1, h2]
  have hnok : (decide (D < (decStr n).length) && opt.keep) = false := by
    rcases hk with h | h
    · simp [h]
    · rw [hoveq]; simp; intro h'; omega
  have hsgn : (v.sign < 0) = (v < 0) := by simp [Int.sign_neg_iff]
  have hl := packLoop_image D (fixedDigits k n) (fixedDigits_le _ _) (by rw [fixedDigits_length]; exact hk1)
    (by rw [fixedDigits_length]; exact hk2)
  rw [fixedDigits_length] at hl
  set Q := List.replicate ((if D % 2 = 0 then 1 else 0) + (D - k)) 0 ++ fixedDigits k n with hQ
  have hQ' : Q = (if D % 2 = 0 then [0] else []) ++ fixedDigits D n := by
    rw [hQ, hq.2, ← List.replicate_append_replicate]
    split <;> simp
  have hQodd : Q.length % 2 = 1 := by
    rw [hQ']
    split
    · simp [fixedDigits_length]; omega
    · simp [fixedDigits_length]; omega
  obtain ⟨c, hc1, hc2⟩ := packNibbles_half Q (signNibble f.attr (decide (v < 0))) hQodd
  unfold decGetPacked
  simp only [← hn, ← hD, hnok, Bool.false_eq_true, if_false, hq.1, List.length_map, fixedDigits_length, hlen]
  rw [hl, hc1, setSignNibble_last, hoveq]
  congr 2
  unfold packedImage
  rw [← hQ', hc2]
  congr 3
  unfold signNibble
  by_cases h : v < 0 <;> simp [h]

/-- C02 (load): a packed image is read as the signed number its digits write. -/
theorem C02_load_image (a : Attr) (hd : 0 < a.digits) (neg : Bool) (n : Nat) :
    decSetPacked ⟨a, packedImage a.digits n (signNibble a neg)⟩ =
      ⟨if a.haveSign && neg then -((n % 10 ^ a.digits : Nat) : Int) else (n % 10 ^ a.digits : Nat),
        a.scale⟩ := by
  have hsn : signNibble a neg < 16 := by unfold signNibble; split <;> [skip; split] <;> omega
  -- last nibble
  have hlast : ∀ q : List Nat, q.length % 2 = 1 → ∀ s, s < 16 →
      (packNibbles (q ++ [s])).getD ((packNibbles (q ++ [s])).length - 1) 0 % 16 = s := by
    intro q hq s hs
    obtain ⟨c, _, h2⟩ := packNibbles_half q s hq
    rw [h2]
    simp
    omega
  set s := signNibble a neg with hs
  have hodd : ((if a.digits % 2 = 0 then [0] else []) ++ fixedDigits a.digits n).length % 2 = 1 := by
    split
    · simp [fixedDigits_length]; omega
    · simp [fixedDigits_length]; omega
  have hsign : packedGetSign ⟨a, packedImage a.digits n s⟩ =
      if a.haveSign then (if neg then -1 else 1) else 0 := by
    unfold packedGetSign packedImage
    simp only
    rw [hlast _ hodd s hsn, hs]
    unfold signNibble
    cases a.haveSign <;> cases neg <;> simp
  have hm : (if a.digits % 2 = 0 then
      packedAcc (packedImage a.digits n s) (a.digits - 1) 1 ((packedImage a.digits n s).getD 0 0 % 16)
    else packedAcc (packedImage a.digits n s) a.digits 0 0) = n % 10 ^ a.digits := by
    unfold packedImage
    rw [← digitsVal_fixedDigits]
    have hfl := fixedDigits_length a.digits n
    have hfle := fixedDigits_le a.digits n
    generalize fixedDigits a.digits n = F at *
    by_cases he : a.digits % 2 = 0
    · simp only [he, if_true]
      match F, hfl, hfle with
      | [], hfl, _ => simp at hfl; omega
      | x :: t, hfl, hfle =>
        simp at hfl
        have hx : x ≤ 9 := hfle x (by simp)
        have e : packNibbles ([0] ++ (x :: t) ++ [s]) = [x] ++ packNibbles (t ++ [s]) := by
          simp [packNibbles]
        rw [e]
        have := packedAcc_eq t (fun y hy => hfle y (by simp [hy])) s hsn [x] x (by omega)
        have e2 : a.digits - 1 = t.length := by omega
        have e3 : ([x] ++ packNibbles (t ++ [s])).getD 0 0 % 16 = x := by simp; omega
        rw [e2, e3]
        rw [List.length_singleton] at this
        rw [this, digitsVal]
    · simp only [he, if_false]
      have := packedAcc_eq F hfle s hsn [] 0 (by omega)
      rw [hfl] at this
      simpa using this
  unfold decSetPacked
  simp only [hsign, hm]
  cases a.haveSign <;> cases neg <;> simp

/-- C02: a packed item that accepts `v` (its digits suffice, and it is signed or `v` is not
negative) reads back exactly `v`, whatever it held before. -/
theorem C02_roundtrip (v : Int) (f : Field) (hf : WFPacked f) (opt : StoreOpt)
    (hfit : v.natAbs < 10 ^ f.attr.digits) (hs : f.attr.haveSign = true ∨ 0 ≤ v) :
    (decGetPacked v f opt).raised = false ∧ (decGetPacked v f opt).failed = false ∧
      decSetPacked (decGetPacked v f opt).field = ⟨v, f.attr.scale⟩ := by
  rw [C02_store_image v f hf opt (Or.inr hfit)]
  have hl := C02_load_image f.attr hf.1 (decide (v < 0)) v.natAbs
  refine ⟨by simpa using hfit, rfl, ?_⟩
  simp only
  rw [hl, Nat.mod_eq_of_lt hfit]
  congr 1
  by_cases h : v < 0
  · have : f.attr.haveSign = true := by
      rcases hs with h' | h'
      · exact h'
      · omega
    simp only [this, h, decide_true, Bool.and_self, if_true]
    omega
  · simp only [h, decide_false, Bool.and_false, Bool.false_eq_true, if_false]
    omega

/-- C02 (overflow without ON SIZE ERROR): the low-order digits and the sign are kept and the
size exception is raised. -/
theorem C02_truncation (v : Int) (f : Field) (hf : WFPacked f) (opt : StoreOpt)
    (hk : opt.keep = false) (hov : 10 ^ f.attr.digits ≤ v.natAbs) :
    (decGetPacked v f opt).raised = true ∧
      decSetPacked (decGetPacked v f opt).field =
        ⟨(if f.attr.haveSign then v else (v.natAbs : Int)).tmod (10 ^ f.attr.digits), f.attr.scale⟩ := by
  rw [C02_store_image v f hf opt (Or.inl hk)]
  have hl := C02_load_image f.attr hf.1 (decide (v < 0)) v.natAbs
  refine ⟨by simpa using hov, ?_⟩
  simp only
  rw [hl]
  congr 1
  have key : ((v.natAbs % 10 ^ f.attr.digits : Nat) : Int) =
      ((v.natAbs : Nat) : Int).tmod (10 ^ f.attr.digits) := by
    rw [Int.ofNat_tmod]; push_cast; rfl
  by_cases h : v < 0
  · have hv : v = -(v.natAbs : Int) := by omega
    by_cases hsg : f.attr.haveSign = true
    · simp only [hsg, h, decide_true, Bool.and_self, if_true]
      rw [key]
      conv_rhs => rw [hv]
      rw [Int.neg_tmod]
    · simp only [hsg, Bool.false_and, Bool.false_eq_true, if_false]
      rw [key]
  · have hv : (v.natAbs : Int) = v := by omega
    simp only [h, decide_false, Bool.and_false, Bool.false_eq_true, if_false]
    rw [key]
    split
    · rw [hv]
    · rfl

/-- C04 for packed receivers: with ON SIZE ERROR (`keep`), a value that does not fit leaves the
item unchanged and reports the condition; one that fits is never refused. -/
theorem C04_packed_keep (v : Int) (f : Field) (hf : WFPacked f) (opt : StoreOpt)
    (hk : opt.keep = true) :
    (10 ^ f.attr.digits ≤ v.natAbs → decGetPacked v f opt = ⟨f, true, true⟩) ∧
    (v.natAbs < 10 ^ f.attr.digits →
      (decGetPacked v f opt).raised = false ∧ (decGetPacked v f opt).failed = false) := by
  constructor
  · intro h
    have := decStr_length_le v.natAbs f.attr.digits hf.1
    have h1 : f.attr.digits < (decStr v.natAbs).length := by
      by_contra hc
      have := this.mp (by omega)
      omega
    unfold decGetPacked
    simp [h1, hk]
  · intro h
    rw [C02_store_image v f hf opt (Or.inr h)]
    exact ⟨by simpa using h, rfl⟩

/-- Non-vacuity: S9(4) COMP-3 holding +0; storing -123 gives 00 12 3D. -/
example : WFPacked ⟨{ digits := 4, haveSign := true }, [0, 0, 12]⟩ ∧
    packedImage 4 123 13 = [0x00, 0x12, 0x3D] ∧ (-123 : Int).natAbs < 10 ^ 4 := by
  refine ⟨⟨by decide, by decide⟩, by decide, by decide⟩

/-- Non-vacuity for the overflow clauses: 123456 in 9(4) COMP-3. -/
example : WFPacked ⟨{ digits := 4 }, [0, 0, 15]⟩ ∧ 10 ^ 4 ≤ (123456 : Int).natAbs ∧
    packedImage 4 123456 15 = [0x03, 0x45, 0x6F] := by
  refine ⟨⟨by decide, by decide⟩, by decide, by decide⟩

end Cob
