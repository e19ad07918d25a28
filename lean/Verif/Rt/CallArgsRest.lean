import Verif.Rt.CallArgsMore
/-
C79, the other arguments: literals of text BY REFERENCE, results of FUNCTIONs, numbers BY VALUE with SIZE AUTO.
-/
namespace Cob.Args

theorem setup_const_past (junk : Nat → Nat → Nat) (m0 : Mem) (args : List Arg) :
    ∀ (n : Nat) (m : Mem) (j : Nat), j < n → setupFrom junk m0 n args m (.lit j) = m (.lit j) ∧
      setupFrom junk m0 n args m (.result j) = m (.result j) := by
  induction args with
  | nil => intro n m j _; exact ⟨rfl, rfl⟩
  | cons a l ih =>
    intro n m j hj
    rw [setupFrom]
    try dsimp only
    rw [(ih _ _ _ (by omega)).1, (ih _ _ _ (by omega)).2]
    cases a.x <;> cases contentOf (junk n) m0 a <;> simp [Mem.fill] <;> omega

theorem setup_const (junk : Nat → Nat → Nat) (m0 : Mem) (args : List Arg) :
    ∀ (n : Nat) (m : Mem) (i : Nat) (a : Arg), args[i]? = some a →
      (∀ bs, a.x = .alnumLit bs → setupFrom junk m0 n args m (.lit (n + i)) = bs ++ [0]) ∧
      (∀ bs, a.x = .func bs → setupFrom junk m0 n args m (.result (n + i)) = bs) := by
  induction args with
  | nil => intro n m i a h; simp at h
  | cons a0 l ih =>
    intro n m i a h
    cases i with
    | zero =>
      simp only [List.getElem?_cons_zero, Option.some.injEq] at h
      subst h
      rw [setupFrom]
      try dsimp only
      refine ⟨fun bs e => ?_, fun bs e => ?_⟩
      · rw [(setup_const_past _ _ _ _ _ _ (by omega)).1, e]; simp [Mem.fill]
      · rw [(setup_const_past _ _ _ _ _ _ (by omega)).2, e]; simp [Mem.fill]
    | succ i =>
      simp only [List.getElem?_cons_succ] at h
      rw [setupFrom]
      try dsimp only
      rw [show n + (i + 1) = n + 1 + i by omega]
      exact ih _ _ _ _ h

/-- C79: a literal of text passed BY REFERENCE: the parameter shows its characters (to a parameter that is not longer). -/
theorem C79_text_reference (ebc : Bool) (junk : Nat → Nat → Nat) (m : Mem) (args : List Arg)
    (ps : List PDecl) (i : Nat) (s : SizeSpec) (t : List Nat) (p : PDecl)
    (ha : args[i]? = some ⟨.reference, s, .alnumLit t⟩) (hp : ps[i]? = some p)
    (hb : p.byAddress) (hsz : p.size ≤ t.length) :
    Sees (enter ebc junk m args ps).1 ps (enter ebc junk m args ps).2 i (t.take p.size) := by
  refine ⟨.at ⟨.lit (i + 1), 0⟩, p, ?_, hp, ?_⟩
  · rw [enter_slot ebc junk m args ps i _ p ha hp]
    unfold PDecl.byAddress at hb
    simp [receive, hb, passArg]
  · unfold view Mem.read
    dsimp only
    have h : (enter ebc junk m args ps).2 (.lit (i + 1)) = t ++ [0] := by
      unfold enter
      rw [receiveAll_mem _ _ _ _ _ (by intros; simp), Nat.add_comm i 1]
      exact (setup_const junk m args 1 m i _ ha).1 t rfl
    rw [h, List.drop_zero, List.take_append_of_le_length hsz]

/-- C79: a FUNCTION passed BY REFERENCE or BY CONTENT: the parameter shows its result (to a parameter that is not longer). -/
theorem C79_function (ebc : Bool) (junk : Nat → Nat → Nat) (m : Mem) (args : List Arg)
    (ps : List PDecl) (i : Nat) (mode : Mode) (s : SizeSpec) (t : List Nat) (p : PDecl)
    (ha : args[i]? = some ⟨mode, s, .func t⟩) (hp : ps[i]? = some p) (hb : p.byAddress) :
    Sees (enter ebc junk m args ps).1 ps (enter ebc junk m args ps).2 i (t.take p.size) := by
  refine ⟨.at ⟨.result (i + 1), 0⟩, p, ?_, hp, ?_⟩
  · rw [enter_slot ebc junk m args ps i _ p ha hp]
    unfold PDecl.byAddress at hb
    cases mode <;> simp [receive, hb, passArg]
  · unfold view Mem.read
    dsimp only
    have h : (enter ebc junk m args ps).2 (.result (i + 1)) = t := by
      unfold enter
      rw [receiveAll_mem _ _ _ _ _ (by intros; simp), Nat.add_comm i 1]
      exact (setup_const junk m args 1 m i _ ha).2 t rfl
    rw [h, List.drop_zero]

/-- The bytes of the C integer of SIZE AUTO: the smallest of 1, 2, 4 and 8 that is not less than the number of the digits (zoned
and packed items) or bytes (binary items), where 8 is the largest. -/
def AutoSize (u : Usage) (digits bytes w : Nat) : Prop :=
  let n := if u = .binary then bytes else digits
  (w = 1 ∨ w = 2 ∨ w = 4 ∨ w = 8) ∧ (w < 8 → n ≤ w) ∧ (∀ k, (k = 1 ∨ k = 2 ∨ k = 4) → k < w → k < n)

theorem castInt_range (u : Bool) (w : Nat) (hw : w = 1 ∨ w = 2 ∨ w = 4 ∨ w = 8) (v : Int) :
    if u then 0 ≤ castInt u w v ∧ castInt u w v < 2 ^ (8 * w)
    else -2 ^ (8 * w - 1) ≤ castInt u w v ∧ castInt u w v < 2 ^ (8 * w - 1) := by
  cases u <;> rcases hw with h | h | h | h <;> subst h <;> simp only [castInt] <;> norm_num <;> omega

/-- C79: a whole number passed BY VALUE with SIZE AUTO is passed as a C integer of `AutoSize` bytes (at least four, C's rules)
that is equal to the number modulo the size: between 0 and the largest unsigned number for items with a sign, within
the range of signed numbers for items without. -/
theorem C79_value_auto (ebc : Bool) (m : Mem) (n : Nat) (unsigned : Bool) (off size decl : Nat) (u : Usage) (a : Attr) (z : Int)
    (hd : 1 ≤ a.digits) (hlen : off + decl ≤ (m .store).length)
    (hw : WFItem ⟨u, ⟨a, ((m .store).drop off).take decl⟩⟩) (hr : Readable u a decl)
    (hz : HoldsUnits ebc ⟨u, ⟨a, ((m .store).drop off).take decl⟩⟩ z) :
    ∃ w v, AutoSize u a.digits decl w ∧
      passArg ebc m n ⟨.value, ⟨0, unsigned⟩, .item off size decl (.num u a)⟩ = .int (max w 4) v ∧
      v % 2 ^ (8 * w) = z % 2 ^ (8 * w) ∧
      (if a.haveSign then 0 ≤ v ∧ v < 2 ^ (8 * w) else -2 ^ (8 * w - 1) ≤ v ∧ v < 2 ^ (8 * w - 1)) := by
  have hdl : (((m .store).drop off).take decl).length = decl := by simp; omega
  have hv := readable_value ebc u a (((m .store).drop off).take decl) z hw (by rw [hdl]; exact hr) hz
  have hsc := hr.1
  have hauto : ∀ k : Nat, 1 ≤ k → (autoWidth k = 1 ∧ k = 1) ∨ (autoWidth k = 2 ∧ k = 2) ∨ (autoWidth k = 4 ∧ (k = 3 ∨ k = 4)) ∨
      (autoWidth k = 8 ∧ 5 ≤ k) := by
    intro k hk
    unfold autoWidth
    by_cases h0 : k = 1
    · subst h0; left; simp
    by_cases h1 : k = 2
    · subst h1; right; left; simp
    by_cases h2 : k = 3
    · subst h2; right; right; left; simp
    by_cases h3 : k = 4
    · subst h3; right; right; left; simp
    right; right; right
    refine ⟨?_, by omega⟩
    rw [if_neg (by omega), if_neg (by omega), if_neg (by omega), if_neg (by omega), if_neg (by omega)]
  have hpass : passArg ebc m n ⟨.value, ⟨0, unsigned⟩, .item off size decl (.num u a)⟩ =
      .int (max (autoWidth (if u = .binary then (decl : Int) else (a.digits : Int))) 4)
        (castInt a.haveSign (autoWidth (if u = .binary then (decl : Int) else (a.digits : Int))) z) := by
    unfold passArg
    simp only
    unfold valueOf Mem.read
    simp only
    rw [hv, hdl, hsc]
    cases u <;> simp
  rw [hpass]
  have hk : 1 ≤ (if u = .binary then decl else a.digits) := by
    cases u with
    | display => simpa using hd
    | packed => simpa using hd
    | binary => have := hr.2; simp only at this; simp only [if_true]; omega
  have hcast : (if u = .binary then (decl : Int) else (a.digits : Int)) = ((if u = .binary then decl else a.digits : Nat) : Int) := by
    split <;> rfl
  rw [hcast]
  have h := hauto _ hk
  have hw4 : autoWidth ((if u = .binary then decl else a.digits : Nat) : Int) = 1 ∨
      autoWidth ((if u = .binary then decl else a.digits : Nat) : Int) = 2 ∨
      autoWidth ((if u = .binary then decl else a.digits : Nat) : Int) = 4 ∨
      autoWidth ((if u = .binary then decl else a.digits : Nat) : Int) = 8 := by
    rcases h with x | x | x | x
    · exact Or.inl x.1
    · exact Or.inr (Or.inl x.1)
    · exact Or.inr (Or.inr (Or.inl x.1))
    · exact Or.inr (Or.inr (Or.inr x.1))
  refine ⟨_, _, ?_, rfl, castInt_mod _ _ (by omega) _, castInt_range _ _ hw4 _⟩
  unfold AutoSize
  dsimp only
  refine ⟨hw4, ?_, ?_⟩
  · rcases h with x | x | x | x <;> omega
  · intro k hk3 hlt
    rcases h with x | x | x | x <;> omega

/-- Beside `C79_value_auto`: 9 in an unsigned zoned item of one digit is passed in one byte, which C makes four. -/
example : passArg false (fun _ => [57]) 1 ⟨.value, ⟨0, false⟩, .item 0 1 1 (.num .display { digits := 1 })⟩ = .int 4 9 ∧
    AutoSize .display 1 1 1 ∧ Readable .display { digits := 1 } 1 := by
  refine ⟨by decide +kernel, ?_, by decide⟩
  unfold AutoSize; simp

/-- C79, finding: with SIZE AUTO an unsigned COMP-5 item of one byte that holds 200 is passed as -56. -/
theorem C79_finding_auto_unsigned :
    passArg false (fun _ => [200]) 1 ⟨.value, ⟨0, true⟩, .item 0 1 1 (.num .binary { digits := 2 })⟩ = .int 4 (-56) := by
  decide +kernel

/-- Beside `C79_text_reference` and `C79_function`. -/
example :
    let args : List Arg := [⟨.reference, ⟨4, false⟩, .alnumLit [65, 66]⟩, ⟨.reference, ⟨4, false⟩, .func [49, 50, 51]⟩]
    let ps : List PDecl := [⟨1, false, false, ⟨4, false⟩, 2⟩, ⟨2, false, false, ⟨4, false⟩, 3⟩]
    let e := enter false (fun _ _ => 0) (fun _ => []) args ps
    (e.1.zip ps).map (fun x => view e.2 x.1 x.2.size) = [[65, 66], [49, 50, 51]] := by
  decide +kernel

end Cob.Args
