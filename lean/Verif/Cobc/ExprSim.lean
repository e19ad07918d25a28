import Verif.Cobc.ExprSpec
/-
The parser on the tokens of an expression: lemmas.
-/
namespace Cob

variable {L : Type}

/-- The tree of an arithmetic expression, with its parentheses. -/
def AExp.tree : AExp L → ETree L
  | .leaf num v => .leaf num v
  | .zero => .zero
  | .sgn minus a => if minus then .bin .sub .zero a.tree else a.tree
  | .bin o a b => .bin o a.tree b.tree
  | .paren a => .paren a.tree

/-- The tree of a condition; `last` is the last subject and operator. -/
def CExp.tree : CExp L → Option (ETree L × ROp) → Option (ETree L × Option (ETree L × ROp))
  | .rel l neg o r, _ =>
    let o := if neg then o.opp else o
    some (.rel o l.tree r.tree, some (l.tree, o))
  | .relop neg o r, some (l, _) =>
    let o := if neg then o.opp else o
    some (.rel o l r.tree, some (l, o))
  | .relop _ _ _, none => none
  | .obj r, some (l, o) => some (.rel o l r.tree, some (l, o))
  | .obj _, none => none
  | .cls a neg n, last => some (if neg then .not (.cls n a.tree) else .cls n a.tree, last)
  | .sign a neg o, last => some (if neg then .not (.rel o a.tree .zero) else .rel o a.tree .zero, last)
  | .cond c, last => some (.cond c, last)
  | .not c, last => (c.tree last).map fun p => (.not p.1, p.2)
  | .and a b, last => (a.tree last).bind fun p => (b.tree p.2).map fun q => (.and p.1 q.1, q.2)
  | .or a b, last => (a.tree last).bind fun p => (b.tree p.2).map fun q => (.or p.1 q.1, q.2)
  | .paren c, last => (c.tree last).map fun p => (.paren p.1, p.2)

/-! ### `expr_reduce` -/

theorem redStep_shrink {t : ETok} {s s' : ESt L} (h : redStep t s = .next s') :
    s'.stack.length < s.stack.length := by
  have len : ∀ (n : Nat), 2 ≤ n → s.tok (n - 1) ≠ .bottom → (s.stack.drop n).length + 1 < s.stack.length := by
    intro n hn ht
    have : n - 1 < s.stack.length := by
      apply Nat.lt_of_not_le
      intro hle
      apply ht
      simp [ESt.tok, ESt.at_, List.getD, List.getElem?_eq_none hle]
    rw [List.length_drop]
    omega
  have h2 : s.tok 1 ≠ .bottom → (s.stack.drop 2).length + 1 < s.stack.length := fun h => len 2 (by omega) h
  have h3 : s.tok 2 ≠ .bottom → (s.stack.drop 3).length + 1 < s.stack.length := fun h => len 3 (by omega) h
  unfold redStep at h
  split at h
  · split at h
    · cases h
    · split at h
      · cases h
      · rename_i hne
        cases h
        exact h3 (by intro hb; rw [hb] at hne; simp at hne)
    · rename_i ht
      split at h
      · cases h
      · cases h
        exact h2 (by rw [ht]; simp)
    · split at h
      · cases h
      · rename_i hne
        cases h
        exact h3 (by intro hb; rw [hb] at hne; simp at hne)
    · split at h
      · cases h
      · rename_i hne
        cases h
        exact h3 (by intro hb; rw [hb] at hne; simp at hne)
    · cases h
    · cases h
    · cases h
    · rename_i ht
      have h2' := h2 (by rw [ht]; simp)
      split at h
      · cases h
      · split at h
        · rename_i hx
          have h3' := h3 (by rw [hx]; simp)
          split at h <;> first | (cases h; exact h3') | cases h
        · split at h
          · cases h; exact h2'
          · split at h
            · cases h
            · cases h; exact h2'
        · split at h
          · cases h; exact h2'
          · split at h
            · cases h
            · cases h; exact h2'
        · cases h
  · cases h

theorem redLoop_fuel (t : ETok) : ∀ (n m : Nat) (s : ESt L), s.stack.length < n → s.stack.length < m →
    redLoop n t s = redLoop m t s
  | 0, _, _, h, _ => by omega
  | _ + 1, 0, _, _, h => by omega
  | n + 1, m + 1, s, hn, hm => by
    simp only [redLoop]
    cases hr : redStep t s with
    | done => rfl
    | quit s' => rfl
    | next s' =>
      have := redStep_shrink hr
      exact redLoop_fuel t n m s' (by omega) (by omega)

theorem reduce_next {t : ETok} {s s' : ESt L} (h : redStep t s = .next s') :
    exprReduce t s = exprReduce t s' := by
  have hl := redStep_shrink h
  unfold exprReduce
  have : redLoop (s.stack.length + 1) t s = redLoop (s'.stack.length + 1) t s' := by
    rw [redLoop, h]
    exact redLoop_fuel t _ _ s' (by omega) (by omega)
  rw [this]

theorem reduce_quit {t : ETok} {s s' : ESt L} (h : redStep t s = .quit s') : exprReduce t s = s' := by
  unfold exprReduce
  rw [redLoop, h]

theorem reduce_done {t : ETok} {s : ESt L} (h : redStep t s = .done) (ht : t ≠ .and) : exprReduce t s = s := by
  unfold exprReduce
  rw [redLoop, h]
  simp [ht]

/-- Nothing is reduced when the top is no operand. -/
theorem reduce_open {t : ETok} {s : ESt L} (ht : t ≠ .and) (h : s.tok 0 ≠ .x) : exprReduce t s = s := by
  have : redStep t s = .done ∨ redStep t s = .quit s := by
    unfold redStep
    split
    · right
      cases s.tok 1 <;> simp [h]
    · exact Or.inl rfl
  rcases this with g | g
  · exact reduce_done g ht
  · exact reduce_quit g

/-- The top of a stack. -/
def top (st : List (ETok × ETree L)) : ETok := (st.getD 0 (.bottom, .err)).1

/-- The one below. -/
def sec (st : List (ETok × ETree L)) : ETok := (st.getD 1 (.bottom, .err)).1

@[simp] theorem tok0_mk (t : ETok) (v : ETree L) (st lh op f) :
    ESt.tok ⟨(t, v) :: st, lh, op, f⟩ 0 = t := rfl
@[simp] theorem val0_mk (t : ETok) (v : ETree L) (st lh op f) :
    ESt.val ⟨(t, v) :: st, lh, op, f⟩ 0 = v := rfl
@[simp] theorem tok1_mk (t : ETok) (v : ETree L) (st lh op f) :
    ESt.tok ⟨(t, v) :: st, lh, op, f⟩ 1 = top st := rfl
@[simp] theorem tok2_mk (t u : ETok) (v w : ETree L) (st lh op f) :
    ESt.tok ⟨(t, v) :: (u, w) :: st, lh, op, f⟩ 2 = top st := rfl
@[simp] theorem val2_mk (t u : ETok) (v w : ETree L) (st lh op f) :
    ESt.val ⟨(t, v) :: (u, w) :: st, lh, op, f⟩ 2 = (st.getD 0 (.bottom, .err)).2 := rfl
@[simp] theorem top_cons (t : ETok) (v : ETree L) (st) : top ((t, v) :: st) = t := rfl
@[simp] theorem sec_cons (t : ETok) (v : ETree L) (st) : sec ((t, v) :: st) = top st := rfl
theorem tok0_st (st : List (ETok × ETree L)) (lh op f) : ESt.tok ⟨st, lh, op, f⟩ 0 = top st := rfl
theorem tok1_st (st : List (ETok × ETree L)) (lh op f) : ESt.tok ⟨st, lh, op, f⟩ 1 = sec st := rfl

/-- The loop stops in front of an operator that binds weaker. -/
theorem reduce_stop {t : ETok} {v : ETree L} {st lh op f} (ht : t ≠ .and) (h : prio t < prio (top st)) :
    exprReduce t ⟨(.x, v) :: st, lh, op, f⟩ = ⟨(.x, v) :: st, lh, op, f⟩ := by
  refine reduce_done ?_ ht
  unfold redStep
  rw [if_neg (by rw [tok1_mk]; omega)]

/-- The same for AND, when the operand is a condition or the operator is not OR. -/
theorem reduce_stop_and {v : ETree L} {st lh op f} (h : prio .and < prio (top st))
    (hv : v.isBool = true ∨ top st ≠ .or) :
    exprReduce .and ⟨(.x, v) :: st, lh, op, f⟩ = ⟨(.x, v) :: st, lh, op, f⟩ := by
  have hd : redStep .and ⟨(.x, v) :: st, lh, op, f⟩ = .done := by
    unfold redStep
    rw [if_neg (by rw [tok1_mk]; omega)]
  unfold exprReduce
  rw [redLoop, hd]
  simp only [tok1_mk, val0_mk]
  rw [if_neg]
  rintro ⟨-, h1, h2⟩
  rcases hv with hv | hv
  · rw [hv] at h2; cases h2
  · exact hv h1

/-- `op OR x AND`. -/
theorem reduce_or_and {v l : ETree L} {st op f} (h : top st = .or) (hv : v.isBool = false) :
    exprReduce .and ⟨(.x, v) :: st, some l, op, f⟩ = ⟨(.x, .rel op l v) :: st, some l, op, f⟩ := by
  have hd : redStep .and ⟨(.x, v) :: st, some l, op, f⟩ = .done := by
    unfold redStep
    rw [if_neg (by rw [tok1_mk, h]; simp [prio])]
  unfold exprReduce
  rw [redLoop, hd]
  simp only [tok1_mk, val0_mk]
  rw [if_pos ⟨trivial, h, hv⟩]
  rfl

theorem reduce_arith {t : ETok} {o : AOp} {a b w : ETree L} {st lh op f} (h : prio (.ar o) ≤ prio t)
    (ha : a.isNum = true) (hb : b.isNum = true) :
    exprReduce t ⟨(.x, b) :: (.ar o, w) :: (.x, a) :: st, lh, op, f⟩ =
      exprReduce t ⟨(.x, .bin o a b) :: st, lh, op, f⟩ := by
  refine reduce_next ?_
  unfold redStep
  simp only [tok1_mk, top_cons, if_pos h]
  simp [ESt.repl, mkArith, ha, hb]

theorem reduce_not {t : ETok} {b w : ETree L} {st lh op f} (h : 5 ≤ prio t)
    (hb : (complete lh op b).isBool = true) :
    exprReduce t ⟨(.x, b) :: (.not, w) :: st, lh, op, f⟩ =
      exprReduce t ⟨(.x, .not (complete lh op b)) :: st, lh, op, f⟩ := by
  refine reduce_next ?_
  unfold redStep
  simp only [tok1_mk, top_cons, show prio .not = 5 from rfl, if_pos h]
  simp [ESt.repl, mkNot, hb]

theorem reduce_and {t : ETok} {a b w : ETree L} {st lh op f} (h : 6 ≤ prio t)
    (ha : a.isBool = true) (hb : (complete lh op b).isBool = true) :
    exprReduce t ⟨(.x, b) :: (.and, w) :: (.x, a) :: st, lh, op, f⟩ =
      exprReduce t ⟨(.x, .and a (complete lh op b)) :: st, lh, op, f⟩ := by
  have hca : complete lh op a = a := by cases lh <;> simp [complete, ha]
  refine reduce_next ?_
  unfold redStep
  simp only [tok1_mk, top_cons, show prio .and = 6 from rfl, if_pos h]
  simp [ESt.repl, mkAnd, hb, hca, ha]

theorem reduce_or {t : ETok} {a b w : ETree L} {st lh op f} (h : 7 ≤ prio t)
    (ha : a.isBool = true) (hb : (complete lh op b).isBool = true) :
    exprReduce t ⟨(.x, b) :: (.or, w) :: (.x, a) :: st, lh, op, f⟩ =
      exprReduce t ⟨(.x, .or a (complete lh op b)) :: st, lh, op, f⟩ := by
  have hca : complete lh op a = a := by cases lh <;> simp [complete, ha]
  refine reduce_next ?_
  unfold redStep
  simp only [tok1_mk, top_cons, show prio .or = 7 from rfl, if_pos h]
  simp [ESt.repl, mkOr, hb, hca, ha]

/-- An operand of a relation: neither a condition nor an error. -/
def ETree.operand : ETree L → Bool
  | .leaf _ _ => true
  | .zero => true
  | .bin _ _ _ => true
  | .paren a => a.operand
  | _ => false

theorem operand_notBool {a : ETree L} (h : a.operand = true) : a.isBool = false := by
  induction a with
  | paren a ih => exact ih h
  | _ => first | rfl | cases h

theorem reduce_rel {t : ETok} {o : ROp} {a b w : ETree L} {st lh op f} (h : 4 ≤ prio t)
    (ha : a.operand = true) (hb : b.operand = true) :
    exprReduce t ⟨(.x, b) :: (.rel o, w) :: (.x, a) :: st, lh, op, f⟩ =
      exprReduce t ⟨(.x, .rel o a b) :: st, some a, o, f⟩ := by
  refine reduce_next ?_
  have hb' := operand_notBool hb
  unfold redStep
  simp only [tok1_mk, top_cons, show prio (.rel o) = 4 from rfl, if_pos h, tok0_mk, ne_eq, not_true_eq_false,
    if_false, tok2_mk, val2_mk, val0_mk, List.getD_cons_zero]
  cases a <;> first
    | (simp [ETree.operand] at ha; done)
    | (cases b <;> first
        | (simp [ETree.operand] at hb; done)
        | (simp only [ESt.repl, ETree.isBool] at hb' ⊢; simp [hb']))

theorem reduce_relop {t u : ETok} {o : ROp} {b l w w' : ETree L} {st op f} (h : 4 ≤ prio t)
    (hu : u = .and ∨ u = .or) (hb : b.operand = true) :
    exprReduce t ⟨(.x, b) :: (.rel o, w) :: (u, w') :: st, some l, op, f⟩ =
      exprReduce t ⟨(.x, .rel o l b) :: (u, w') :: st, some l, o, f⟩ := by
  refine reduce_next ?_
  have hb' := operand_notBool hb
  unfold redStep
  simp only [tok1_mk, top_cons, show prio (.rel o) = 4 from rfl, if_pos h, tok0_mk, ne_eq, not_true_eq_false,
    if_false, tok2_mk, val0_mk]
  rcases hu with rfl | rfl <;>
  · simp only
    cases b <;> first
      | (simp [ETree.operand] at hb; done)
      | (simp only [ESt.repl, ETree.isBool] at hb' ⊢; simp [hb'])

/-! ### Arithmetic expressions -/

/-- All the tokens of a list. -/
def feed (s : ESt L) (l : List (EIn L)) : ESt L := l.foldl exprStep s

theorem feed_nil (s : ESt L) : feed s [] = s := rfl
theorem feed_cons (s : ESt L) (i : EIn L) (l) : feed s (i :: l) = feed (exprStep s i) l := rfl
theorem feed_append (s : ESt L) (l l') : feed s (l ++ l') = feed (feed s l) l' := List.foldl_append

/-- Shifting an operator that is no relation. -/
theorem step_other {t : ETok} (ht : (∃ o, t = .ar o) ∨ t = .not ∨ t = .and ∨ t = .or) (s : ESt L) :
    exprStep s (.tok t) = (exprReduce t s).push t .err := by
  have h1 : joinOr t s = (t, s) := by
    unfold joinOr
    rw [if_neg]
    rintro ⟨h, _⟩
    rcases ht with ⟨o, rfl⟩ | rfl | rfl | rfl <;> cases h
  have h2 : joinNot t s = (t, s) := by
    unfold joinNot
    rcases ht with ⟨o, rfl⟩ | rfl | rfl | rfl <;> simp
  have : exprShift t s = (exprReduce (joinNot (joinOr t s).1 (joinOr t s).2).1
      (joinNot (joinOr t s).1 (joinOr t s).2).2).push (joinNot (joinOr t s).1 (joinOr t s).2).1 .err := by
    rcases ht with ⟨o, rfl⟩ | rfl | rfl | rfl <;> rfl
  simp only [exprStep]
  rw [this, h1]
  simp only [h2]

/-- Shifting a relational operator that follows neither NOT nor OR. -/
theorem step_rel {o : ROp} {s : ESt L} (h1 : s.tok 0 ≠ .not)
    (h2 : s.tok 0 = .or → s.tok 1 ≠ .rel .lt ∧ s.tok 1 ≠ .rel .gt) :
    exprStep s (.tok (.rel o)) = (exprReduce (.rel o) s).push (.rel o) .err := by
  have h1' : joinOr (.rel o) s = (.rel o, s) := by
    unfold joinOr
    rw [if_neg]
    rintro ⟨_, h, h'⟩
    rcases h' with h' | h'
    · exact (h2 h).1 h'
    · exact (h2 h).2 h'
  have h2' : joinNot (.rel o) s = (.rel o, s) := by
    unfold joinNot
    rw [if_neg h1]
  have : exprShift (.rel o) s = (exprReduce (joinNot (joinOr (.rel o) s).1 (joinOr (.rel o) s).2).1
      (joinNot (joinOr (.rel o) s).1 (joinOr (.rel o) s).2).2).push
        (joinNot (joinOr (.rel o) s).1 (joinOr (.rel o) s).2).1 .err := rfl
  simp only [exprStep]
  rw [this, h1']
  simp only [h2']

/-- Shifting a relational operator behind NOT. -/
theorem step_not_rel {o : ROp} {w : ETree L} {st lh op f} :
    exprStep ⟨(.not, w) :: st, lh, op, f⟩ (.tok (.rel o)) =
      (exprReduce (.rel o.opp) ⟨st, lh, op, f⟩).push (.rel o.opp) .err := by
  have h1' : joinOr (.rel o) (⟨(.not, w) :: st, lh, op, f⟩ : ESt L) = (.rel o, ⟨(.not, w) :: st, lh, op, f⟩) := by
    unfold joinOr
    rw [if_neg]
    rintro ⟨_, h, h'⟩
    cases h
  have h2' : joinNot (.rel o) (⟨(.not, w) :: st, lh, op, f⟩ : ESt L) = (.rel o.opp, ⟨st, lh, op, f⟩) := by
    unfold joinNot
    simp only [tok0_mk, if_true]
    rfl
  generalize (⟨(.not, w) :: st, lh, op, f⟩ : ESt L) = s at *
  have : exprShift (.rel o) s = (exprReduce (joinNot (joinOr (.rel o) s).1 (joinOr (.rel o) s).2).1
      (joinNot (joinOr (.rel o) s).1 (joinOr (.rel o) s).2).2).push
        (joinNot (joinOr (.rel o) s).1 (joinOr (.rel o) s).2).1 .err := rfl
  simp only [exprStep]
  rw [this, h1']
  simp only [h2']

/-- The registers behind an operand: a parenthesis behind a relational operator sets them. -/
def RegsA (st : List (ETok × ETree L)) (lh : Option (ETree L)) (op : ROp) (lh' : Option (ETree L))
    (op' : ROp) : Prop :=
  (lh' = lh ∧ op' = op) ∨
    ∃ o, top st = .rel o ∧ op' = o ∧ lh' = if sec st = .x then some (st.getD 1 (.bottom, .err)).2 else lh

/-- An operand, or an expression in parentheses. -/
def AExp.primary : AExp L → Bool
  | .leaf _ _ => true
  | .zero => true
  | .paren _ => true
  | _ => false

theorem prio_ar (o : AOp) : prio (.ar o) = o.prec := by cases o <;> rfl

theorem AOp.prec_le (o : AOp) : o.prec ≤ 3 := by cases o <;> decide
theorem AOp.prec_pos (o : AOp) : 1 ≤ o.prec := by cases o <;> decide

theorem AExp.prec_le (a : AExp L) : a.prec ≤ 3 := by
  cases a with
  | bin o _ _ => exact o.prec_le
  | _ => simp [AExp.prec]

theorem AExp.tree_num {a : AExp L} (hw : a.WF) (h : a.isNum = true) : a.tree.isNum = true := by
  induction a with
  | leaf num v => exact h
  | zero => rfl
  | sgn m a ih =>
    cases m with
    | true => rfl
    | false => exact ih hw.1 hw.2.1
  | bin o a b _ _ => rfl
  | paren a ih => exact ih hw h

theorem AExp.tree_operand (a : AExp L) : a.tree.operand = true := by
  induction a with
  | leaf num v => rfl
  | zero => rfl
  | sgn m a ih =>
    cases m with
    | true => rfl
    | false => exact ih
  | bin o a b _ _ => rfl
  | paren a ih => exact ih

theorem keepRel_regs (st : List (ETok × ETree L)) (lh op f) :
    ∃ lh' op', keepRel ⟨st, lh, op, f⟩ = ⟨st, lh', op', f⟩ ∧ RegsA st lh op lh' op' := by
  unfold keepRel
  rw [tok0_st]
  cases h : top st with
  | rel o => exact ⟨_, _, rfl, Or.inr ⟨o, h, rfl, rfl⟩⟩
  | _ => exact ⟨_, _, rfl, Or.inl ⟨rfl, rfl⟩⟩

/-- Pushing an operand on a stack that waits for one and has no sign on top. -/
theorem shiftVal_open {v : ETree L} {st lh op f} (h : top st ≠ .x)
    (hz : v = .zero → top st ≠ .not)
    (hu : (top st = .ar .add ∨ top st = .ar .sub) → sec st = .x) :
    shiftVal v ⟨st, lh, op, f⟩ = ⟨(.x, v) :: st, lh, op, f⟩ := by
  unfold shiftVal
  rw [if_neg, if_neg, reduce_open (by simp) (by rw [tok0_st]; exact h)]
  · rfl
  · rintro ⟨h1, h2⟩
    exact h2 (hu h1)
  · rintro ⟨h1, h2⟩
    rw [tok0_st] at h2
    rcases h2 with h2 | h2
    · exact h h2
    · refine hz ?_ h2
      cases v <;> first | rfl | cases h1

/-- Pushing an operand on a stack with a sign on top. -/
theorem shiftVal_sign {v w : ETree L} {m : Bool} {st lh op f} (h : top st ≠ .x) (hv : v.isNum = true) :
    shiftVal v ⟨(.ar (if m then .sub else .add), w) :: st, lh, op, f⟩ =
      ⟨(.x, if m then .bin .sub .zero v else v) :: st, lh, op, f⟩ := by
  unfold shiftVal
  have e : ESt.pop ⟨(ETok.ar (if m then .sub else .add), w) :: st, lh, op, f⟩ = ⟨st, lh, op, f⟩ := rfl
  simp only [tok0_mk, tok1_mk, e]
  rw [if_neg (by rintro ⟨_, h | h⟩ <;> cases h), if_pos ⟨by cases m <;> simp, h⟩]
  cases m with
  | false =>
    simp only [Bool.false_eq_true, if_false, ETok.ar.injEq, reduceCtorEq, Bool.or_false]
    rw [reduce_open (by simp) (by rw [tok0_st]; exact h)]
    rfl
  | true =>
    have : mkArith ETree.zero .sub v = (.bin .sub .zero v, false) := by
      simp [mkArith, hv, ETree.isNum]
    simp only [if_true, this, Bool.or_false]
    rw [reduce_open (by simp) (by rw [tok0_st]; exact h)]
    rfl

/-- What the parser has done behind an arithmetic expression. -/
def AfterA (st : List (ETok × ETree L)) (lh : Option (ETree L)) (op : ROp) (f : Bool) (a : AExp L)
    (s' : ESt L) : Prop :=
  s'.tok 0 = .x ∧ ∃ lh' op', RegsA st lh op lh' op' ∧
    ∀ t, a.prec ≤ prio t → exprReduce t s' = exprReduce t ⟨(.x, a.tree) :: st, lh', op', f⟩

theorem arith_both (a : AExp L) (hw : a.WF) :
    (a.primary = true → ∀ st lh op f, top st ≠ .x → (a.startsZero = true → top st ≠ .not) →
      ∃ lh' op', RegsA st lh op lh' op' ∧ feed ⟨st, lh, op, f⟩ a.toks = shiftVal a.tree ⟨st, lh', op', f⟩) ∧
    (∀ st lh op f, top st ≠ .x → (a.startsZero = true → top st ≠ .not) → a.prec < prio (top st) →
      ((top st = .ar .add ∨ top st = .ar .sub) → sec st = .x) →
      AfterA st lh op f a (feed ⟨st, lh, op, f⟩ a.toks)) := by
  -- an operand in parentheses, or a single one, is pushed as a whole
  have prim : ∀ a : AExp L, a.primary = true →
      (∀ st lh op f, top st ≠ .x → (a.startsZero = true → top st ≠ .not) →
        ∃ lh' op', RegsA st lh op lh' op' ∧ feed ⟨st, lh, op, f⟩ a.toks = shiftVal a.tree ⟨st, lh', op', f⟩) →
      ∀ st lh op f, top st ≠ .x → (a.startsZero = true → top st ≠ .not) → a.prec < prio (top st) →
        ((top st = .ar .add ∨ top st = .ar .sub) → sec st = .x) →
        AfterA st lh op f a (feed ⟨st, lh, op, f⟩ a.toks) := by
    intro a hp h st lh op f h1 h2 h3 h4
    obtain ⟨lh', op', hr, he⟩ := h st lh op f h1 h2
    rw [shiftVal_open h1 (by
      intro hz
      refine h2 ?_
      cases a <;> first | rfl | cases hz | cases hp) h4] at he
    rw [he]
    exact ⟨rfl, lh', op', hr, fun t _ => rfl⟩
  induction a with
  | leaf num v =>
    refine ⟨fun _ st lh op f _ _ => ⟨lh, op, Or.inl ⟨rfl, rfl⟩, rfl⟩, ?_⟩
    exact prim _ rfl (fun st lh op f _ _ => ⟨lh, op, Or.inl ⟨rfl, rfl⟩, rfl⟩)
  | zero =>
    refine ⟨fun _ st lh op f _ _ => ⟨lh, op, Or.inl ⟨rfl, rfl⟩, rfl⟩, ?_⟩
    exact prim _ rfl (fun st lh op f _ _ => ⟨lh, op, Or.inl ⟨rfl, rfl⟩, rfl⟩)
  | paren a ih =>
    have key : ∀ st lh op f, top st ≠ .x → ((AExp.paren a).startsZero = true → top st ≠ .not) →
        ∃ lh' op', RegsA st lh op lh' op' ∧
          feed ⟨st, lh, op, f⟩ (AExp.paren a).toks = shiftVal (AExp.paren a).tree ⟨st, lh', op', f⟩ := by
      intro st lh op f h1 _
      obtain ⟨lh1, op1, hk, hr⟩ := keepRel_regs st lh op f
      have hl : exprStep ⟨st, lh, op, f⟩ (.tok .lpar) = ⟨(.lpar, .err) :: st, lh1, op1, f⟩ := by
        simp only [exprStep, exprShift, hk]
        rw [reduce_open (by simp) (by rw [tok0_st]; exact h1)]
        rfl
      obtain ⟨h0, lh2, op2, hr2, hred⟩ := (ih hw).2 ((.lpar, .err) :: st) lh1 op1 f (by simp) (by simp)
        (by have := a.prec_le; simp [prio]; omega) (by simp)
      have hreg : lh2 = lh1 ∧ op2 = op1 := by
        rcases hr2 with h | ⟨o, h, _⟩
        · exact h
        · cases h
      refine ⟨lh1, op1, hr, ?_⟩
      simp only [AExp.toks, List.cons_append, feed_cons, hl, feed_append, feed_nil]
      generalize feed _ a.toks = s' at h0 hred
      simp only [exprStep, exprShift]
      rw [hred .rpar (by have := a.prec_le; simp [prio]; omega), reduce_stop (by simp) (by simp [prio]),
        hreg.1, hreg.2]
      rfl
    exact ⟨fun _ => key, prim _ rfl key⟩
  | sgn m a ih =>
    refine ⟨fun h => (by cases h), ?_⟩
    intro st lh op f h1 _ h3 _
    have hp : a.primary = true := by
      obtain ⟨_, _, h⟩ := hw
      cases a <;> first | rfl | exact h.elim
    have hl : exprStep ⟨st, lh, op, f⟩ (.tok (.ar (if m then .sub else .add))) =
        ⟨(.ar (if m then .sub else .add), .err) :: st, lh, op, f⟩ := by
      rw [step_other (Or.inl ⟨_, rfl⟩), reduce_open (by simp) (by rw [tok0_st]; exact h1)]
      rfl
    obtain ⟨lh2, op2, hr2, he⟩ := (ih hw.1).1 hp ((.ar (if m then .sub else .add), .err) :: st) lh op f
      (by simp) (by simp)
    have hreg : lh2 = lh ∧ op2 = op := by
      rcases hr2 with h | ⟨o, h, _⟩
      · exact h
      · cases h
    simp only [AExp.toks, feed_cons, hl]
    rw [he, shiftVal_sign h1 (AExp.tree_num hw.1 hw.2.1), hreg.1, hreg.2]
    exact ⟨rfl, lh, op, Or.inl ⟨rfl, rfl⟩, fun t _ => rfl⟩
  | bin o a b iha ihb =>
    refine ⟨fun h => (by cases h), ?_⟩
    intro st lh op f h1 h2 h3 h4
    obtain ⟨hwa, hwb, hpa, hpb, hna, hnb⟩ := hw
    have h3' : o.prec < prio (top st) := h3
    obtain ⟨ha0, lh1, op1, hr1, hred1⟩ := (iha hwa).2 st lh op f h1 h2 (by omega) h4
    simp only [AExp.toks, feed_append, feed_cons]
    generalize feed _ a.toks = s1 at ha0 hred1
    have hl : exprStep s1 (.tok (.ar o)) = ⟨(.ar o, .err) :: (.x, a.tree) :: st, lh1, op1, f⟩ := by
      rw [step_other (Or.inl ⟨_, rfl⟩), hred1 _ (by rw [prio_ar]; exact hpa), reduce_stop (by simp) (by rw [prio_ar]; exact h3')]
      rfl
    rw [hl]
    obtain ⟨hb0, lh2, op2, hr2, hred2⟩ := (ihb hwb).2 ((.ar o, .err) :: (.x, a.tree) :: st) lh1 op1 f
      (by simp) (by simp) (by rw [top_cons, prio_ar]; exact hpb) (by simp)
    have hreg : lh2 = lh1 ∧ op2 = op1 := by
      rcases hr2 with h | ⟨o, h, _⟩
      · exact h
      · cases h
    refine ⟨hb0, lh1, op1, hr1, fun t ht => ?_⟩
    have ht' : o.prec ≤ prio t := ht
    rw [hred2 t (by omega), hreg.1, hreg.2]
    exact reduce_arith (by rw [prio_ar]; exact ht') (AExp.tree_num hwa hna) (AExp.tree_num hwb hnb)

/-! ### Conditions -/

/-- The registers hold the last subject and operator. -/
def RegsFor (last : Option (ETree L × ROp)) (lh : Option (ETree L)) (op : ROp) : Prop :=
  lh = last.map (·.1) ∧ ∀ l o, last = some (l, o) → op = o

/-- What the parser has done behind a condition.  `v` is on the stack: the tree, or an object that is
still to be completed. -/
def AfterC (st : List (ETok × ETree L)) (f : Bool) (c : CExp L) (tr : ETree L)
    (last : Option (ETree L × ROp)) (s' : ESt L) : Prop :=
  s'.tok 0 = .x ∧ ∃ v lh' op', RegsFor last lh' op' ∧ complete lh' op' v = tr ∧
    (v = tr ∨ (v.isBool = false ∧ ∃ r, c = .obj r)) ∧
    ∀ t, c.prec ≤ prio t → exprReduce t s' = exprReduce t ⟨(.x, v) :: st, lh', op', f⟩

/-- The places where a condition can stand. -/
structure CtxC (st : List (ETok × ETree L)) (c : CExp L) : Prop where
  tops : top st = .bottom ∨ top st = .lpar ∨ top st = .and ∨ top st = .or ∨ top st = .not
  secs : top st = .and ∨ top st = .or → sec st = .x
  weak : c.prec < prio (top st)
  nots : top st = .not → c.afterNot = true
  fulls : c.full = false → top st = .and ∨ top st = .or ∨ top st = .not

theorem CExp.tree_bool : ∀ (c : CExp L) (last) (tr) (last'), c.tree last = some (tr, last') → tr.isBool = true
  | .rel _ _ _ _, _, _, _, h => by simp [CExp.tree] at h; rw [← h.1]; rfl
  | .relop _ _ _, some (l, o), _, _, h => by simp [CExp.tree] at h; rw [← h.1]; rfl
  | .relop _ _ _, none, _, _, h => by simp [CExp.tree] at h
  | .obj _, some (l, o), _, _, h => by simp [CExp.tree] at h; rw [← h.1]; rfl
  | .obj _, none, _, _, h => by simp [CExp.tree] at h
  | .cls _ neg _, _, _, _, h => by simp [CExp.tree] at h; rw [← h.1]; cases neg <;> rfl
  | .sign _ neg _, _, _, _, h => by simp [CExp.tree] at h; rw [← h.1]; cases neg <;> rfl
  | .cond _, _, _, _, h => by simp [CExp.tree] at h; rw [← h.1]; rfl
  | .not c, last, _, _, h => by
    simp only [CExp.tree, Option.map_eq_some_iff] at h
    obtain ⟨p, _, h⟩ := h
    cases h; rfl
  | .and a b, last, _, _, h => by
    simp only [CExp.tree, Option.bind_eq_some_iff, Option.map_eq_some_iff] at h
    obtain ⟨p, _, q, _, h⟩ := h
    cases h; rfl
  | .or a b, last, _, _, h => by
    simp only [CExp.tree, Option.bind_eq_some_iff, Option.map_eq_some_iff] at h
    obtain ⟨p, _, q, _, h⟩ := h
    cases h; rfl
  | .paren c, last, _, _, h => by
    simp only [CExp.tree, Option.map_eq_some_iff] at h
    obtain ⟨p, hp, h⟩ := h
    cases h
    exact CExp.tree_bool c last p.1 p.2 hp

theorem complete_bool {lh : Option (ETree L)} {op : ROp} {v : ETree L} (h : v.isBool = true) :
    complete lh op v = v := by
  cases lh <;> simp [complete, h]

theorem ctx_arith {st : List (ETok × ETree L)} {c : CExp L} (h : CtxC st c) (a : AExp L) :
    top st ≠ .x ∧ a.prec < prio (top st) ∧ ((top st = .ar .add ∨ top st = .ar .sub) → sec st = .x) := by
  have := a.prec_le
  rcases h.tops with g | g | g | g | g <;> rw [g] <;> simp [prio] <;> omega

theorem ctx_regs {st : List (ETok × ETree L)} {c : CExp L} (h : CtxC st c) {lh op lh' op'}
    (hr : RegsA st lh op lh' op') : lh' = lh ∧ op' = op := by
  rcases hr with g | ⟨o, g, _⟩
  · exact g
  · rcases h.tops with g' | g' | g' | g' | g' <;> rw [g'] at g <;> cases g

/-- `[NOT] op` behind a subject. -/
theorem neg_rel {st : List (ETok × ETree L)} {lh op f} {v : ETree L} {s1 : ESt L} {p : Nat} (hp : p ≤ 3)
    (h0 : s1.tok 0 = .x) (hred : ∀ t, p ≤ prio t → exprReduce t s1 = exprReduce t ⟨(.x, v) :: st, lh, op, f⟩)
    (neg : Bool) (o : ROp) (hw : 4 < prio (top st)) (hn : neg = true → 5 < prio (top st)) :
    feed s1 (notToks neg ++ [.tok (.rel o)]) =
      ⟨(.rel (if neg then o.opp else o), .err) :: (.x, v) :: st, lh, op, f⟩ := by
  cases neg with
  | false =>
    simp only [notToks, Bool.false_eq_true, if_false, List.nil_append, feed_cons, feed_nil]
    rw [step_rel (by rw [h0]; simp) (by rw [h0]; simp), hred _ (by simp [prio]; omega),
      reduce_stop (by simp) (by simpa [prio] using hw)]
    rfl
  | true =>
    simp only [notToks, if_true, List.cons_append, List.nil_append, feed_cons, feed_nil]
    rw [step_other (Or.inr (Or.inl rfl)), hred _ (by simp [prio]; omega),
      reduce_stop (by simp) (by simpa [prio] using hn rfl)]
    simp only [ESt.push]
    rw [step_not_rel, reduce_stop (by simp) (by simpa [prio] using hw)]
    rfl

/-- `[NOT] op` without a subject. -/
theorem neg_relop {st : List (ETok × ETree L)} {lh op f} (ht : top st = .and ∨ top st = .or) (hs : sec st = .x)
    (neg : Bool) (o : ROp) :
    feed ⟨st, lh, op, f⟩ (notToks neg ++ [.tok (.rel o)]) =
      ⟨(.rel (if neg then o.opp else o), .err) :: st, lh, op, f⟩ := by
  have hx : top st ≠ .x := by rcases ht with h | h <;> rw [h] <;> simp
  have hn : top st ≠ .not := by rcases ht with h | h <;> rw [h] <;> simp
  cases neg with
  | false =>
    simp only [notToks, Bool.false_eq_true, if_false, List.nil_append, feed_cons, feed_nil]
    rw [step_rel (by rw [tok0_st]; exact hn) (by rw [tok1_st, hs]; simp), reduce_open (by simp) (by rw [tok0_st]; exact hx)]
    rfl
  | true =>
    simp only [notToks, if_true, List.cons_append, List.nil_append, feed_cons, feed_nil]
    rw [step_other (Or.inr (Or.inl rfl)), reduce_open (by simp) (by rw [tok0_st]; exact hx)]
    simp only [ESt.push]
    rw [step_not_rel, reduce_open (by simp) (by rw [tok0_st]; exact hx)]
    rfl

/-- `[NOT]` and a test. -/
theorem neg_test {st : List (ETok × ETree L)} {lh op f} {v : ETree L} {s1 : ESt L} {p : Nat} (hp : p ≤ 3)
    (h0 : s1.tok 0 = .x) (hred : ∀ t, p ≤ prio t → exprReduce t s1 = exprReduce t ⟨(.x, v) :: st, lh, op, f⟩)
    (neg : Bool) (g : ETree L → ETree L) (hg : ∀ a, (g a).isBool = true) (i : EIn L)
    (hi : ∀ s : ESt L, s.tok 0 = .x ∨ s.tok 0 = .not → exprStep s i = shiftTest g s)
    (hw : 4 < prio (top st)) (hn : neg = true → 5 < prio (top st)) :
    feed s1 (notToks neg ++ [i]) =
      ⟨(.x, if neg then .not (g v) else g v) :: st, lh, op, f⟩ := by
  cases neg with
  | false =>
    simp only [notToks, Bool.false_eq_true, if_false, List.nil_append, feed_cons, feed_nil]
    rw [hi _ (Or.inl h0)]
    unfold shiftTest
    simp only [h0, reduceCtorEq, if_false]
    rw [hred _ (by simp [prio]; omega), reduce_stop (by simp) (by simpa [prio] using hw)]
    rfl
  | true =>
    simp only [notToks, if_true, List.cons_append, List.nil_append, feed_cons, feed_nil]
    rw [step_other (Or.inr (Or.inl rfl)), hred _ (by simp [prio]; omega),
      reduce_stop (by simp) (by simpa [prio] using hn rfl)]
    simp only [ESt.push]
    rw [hi _ (Or.inr rfl)]
    unfold shiftTest
    have e : ESt.pop ⟨(ETok.not, ETree.err) :: (.x, v) :: st, lh, op, f⟩ = ⟨(.x, v) :: st, lh, op, f⟩ := rfl
    simp only [tok0_mk, if_true, e]
    rw [reduce_stop (by simp) (by simpa [prio] using hw)]
    simp [mkNot, hg, ESt.repl]

theorem cond_after : ∀ (c : CExp L) (st lh op f last tr last'), c.WF → CtxC st c → RegsFor last lh op →
    c.tree last = some (tr, last') → AfterC st f c tr last' (feed ⟨st, lh, op, f⟩ c.toks)
  | .rel l neg o r, st, lh, op, f, last, tr, last', hw, hc, hr, ht => by
    obtain ⟨h1, h2, h3⟩ := ctx_arith hc l
    have hneg : top st = .not → neg = false ∧ l.startsZero = false := by
      intro h
      have := hc.nots h
      simpa [CExp.afterNot] using this
    obtain ⟨h0, lh1, op1, _, hred⟩ := (arith_both l hw.1).2 st lh op f h1
      (fun hz hn => by rw [(hneg hn).2] at hz; cases hz) h2 h3
    have hn5 : neg = true → 5 < prio (top st) := by
      intro hn
      rcases hc.tops with g | g | g | g | g <;> rw [g] <;> simp [prio]
      rw [(hneg g).1] at hn; cases hn
    have hw4 : 4 < prio (top st) := hc.weak
    simp only [CExp.toks]
    rw [show l.toks ++ notToks neg ++ EIn.tok (.rel o) :: r.toks =
      l.toks ++ ((notToks neg ++ [.tok (.rel o)]) ++ r.toks) by simp, feed_append, feed_append,
      neg_rel l.prec_le h0 hred neg o hw4 hn5]
    obtain ⟨g0, lh2, op2, _, hred2⟩ := (arith_both r hw.2).2
      ((.rel (if neg then o.opp else o), .err) :: (.x, l.tree) :: st) lh1 op1 f (by simp) (by simp)
      (by have := r.prec_le; simp [prio]; omega) (by simp)
    have ht' : tr = .rel (if neg then o.opp else o) l.tree r.tree ∧
        last' = some (l.tree, if neg then o.opp else o) := by
      simp only [CExp.tree, Option.some.injEq, Prod.mk.injEq] at ht
      exact ⟨ht.1.symm, ht.2.symm⟩
    refine ⟨g0, tr, some l.tree, if neg then o.opp else o, ?_, ?_, Or.inl rfl, ?_⟩
    · rw [ht'.2]
      refine ⟨rfl, ?_⟩
      intro l' o' h
      cases h; rfl
    · rw [ht'.1]; exact complete_bool rfl
    · intro t htt
      have htt' : 4 ≤ prio t := htt
      rw [hred2 t (by have := r.prec_le; omega),
        reduce_rel htt' l.tree_operand r.tree_operand, ht'.1]
  | .relop neg o r, st, lh, op, f, last, tr, last', hw, hc, hr, ht => by
    have htop : top st = .and ∨ top st = .or := by
      rcases hc.fulls rfl with g | g | g
      · exact Or.inl g
      · exact Or.inr g
      · have := hc.nots g; cases this
    cases last with
    | none => simp [CExp.tree] at ht
    | some p =>
      obtain ⟨l, o0⟩ := p
      have hlh : lh = some l := hr.1
      subst hlh
      have ht' : tr = .rel (if neg then o.opp else o) l r.tree ∧
          last' = some (l, if neg then o.opp else o) := by
        simp only [CExp.tree, Option.some.injEq, Prod.mk.injEq] at ht
        exact ⟨ht.1.symm, ht.2.symm⟩
      simp only [CExp.toks]
      rw [show notToks neg ++ EIn.tok (.rel o) :: r.toks = (notToks neg ++ [.tok (.rel o)]) ++ r.toks by simp,
        feed_append, neg_relop htop (hc.secs htop)]
      obtain ⟨g0, lh2, op2, hr2, hred2⟩ := (arith_both r hw).2
        ((.rel (if neg then o.opp else o), .err) :: st) (some l) op f (by simp) (by simp)
        (by have := r.prec_le; simp [prio]; omega) (by simp)
      have hlh2 : lh2 = some l := by
        rcases hr2 with h | ⟨o', _, _, h⟩
        · exact h.1
        · rw [h, if_neg]
          rcases htop with g | g <;> simp [g]
      subst hlh2
      refine ⟨g0, tr, some l, if neg then o.opp else o, ?_, ?_, Or.inl rfl, ?_⟩
      · rw [ht'.2]
        refine ⟨rfl, ?_⟩
        intro l' o' h
        cases h; rfl
      · rw [ht'.1]; exact complete_bool rfl
      · intro t htt
        have htt' : 4 ≤ prio t := htt
        cases st with
        | nil => rcases htop with g | g <;> cases g
        | cons q st =>
          obtain ⟨u, w⟩ := q
          rw [hred2 t (by have := r.prec_le; omega),
            reduce_relop (u := u) htt' htop r.tree_operand, ht'.1]
  | .obj r, st, lh, op, f, last, tr, last', hw, hc, hr, ht => by
    obtain ⟨h1, h2, h3⟩ := ctx_arith hc r
    cases last with
    | none => simp [CExp.tree] at ht
    | some p =>
      obtain ⟨l, o0⟩ := p
      have hlh : lh = some l := hr.1
      have hop : op = o0 := hr.2 _ _ rfl
      subst hlh hop
      have ht' : tr = .rel op l r.tree ∧ last' = some (l, op) := by
        simp only [CExp.tree, Option.some.injEq, Prod.mk.injEq] at ht
        exact ⟨ht.1.symm, ht.2.symm⟩
      obtain ⟨h0, lh1, op1, hr1, hred⟩ := (arith_both r hw).2 st (some l) op f h1
        (fun hz hn => by
          have := hc.nots hn
          simp [CExp.afterNot, hz] at this) h2 h3
      obtain ⟨e1, e2⟩ := ctx_regs hc hr1
      subst e1 e2
      have hnb := operand_notBool r.tree_operand
      refine ⟨h0, r.tree, some l, op1, ?_, ?_, Or.inr ⟨hnb, r, rfl⟩, ?_⟩
      · rw [ht'.2]; exact hr
      · rw [ht'.1]; simp [complete, hnb]
      · intro t htt
        have htt' : 4 ≤ prio t := htt
        exact hred t (by have := r.prec_le; omega)
  | .cls a neg n, st, lh, op, f, last, tr, last', hw, hc, hr, ht => by
    obtain ⟨num, v, rfl⟩ := hw
    obtain ⟨h1, h2, h3⟩ := ctx_arith hc (AExp.leaf num v)
    obtain ⟨h0, lh1, op1, hr1, hred⟩ := (arith_both (AExp.leaf num v) trivial).2 st lh op f h1 (by simp [AExp.startsZero]) h2 h3
    obtain ⟨e1, e2⟩ := ctx_regs hc hr1
    subst e1 e2
    have hn5 : neg = true → 5 < prio (top st) := by
      intro hn
      rcases hc.tops with g | g | g | g | g <;> rw [g] <;> simp [prio]
      have := hc.nots g
      simp [CExp.afterNot, hn] at this
    simp only [CExp.toks]
    rw [List.append_assoc, feed_append, neg_test (AExp.prec_le _) h0 hred neg (.cls n) (fun _ => rfl) (.cls n)
      (fun _ _ => rfl) hc.weak hn5]
    simp only [CExp.tree, Option.some.injEq, Prod.mk.injEq] at ht
    rw [← ht.2]
    refine ⟨rfl, tr, lh1, op1, hr, complete_bool (by rw [← ht.1]; cases neg <;> rfl), Or.inl rfl, ?_⟩
    intro t _
    rw [← ht.1]
  | .sign a neg o, st, lh, op, f, last, tr, last', hw, hc, hr, ht => by
    obtain ⟨h1, h2, h3⟩ := ctx_arith hc a
    have hneg : top st = .not → neg = false ∧ a.startsZero = false := by
      intro h
      have := hc.nots h
      simpa [CExp.afterNot] using this
    obtain ⟨h0, lh1, op1, hr1, hred⟩ := (arith_both a hw.1).2 st lh op f h1
      (fun hz hn => by rw [(hneg hn).2] at hz; cases hz) h2 h3
    obtain ⟨e1, e2⟩ := ctx_regs hc hr1
    subst e1 e2
    have hn5 : neg = true → 5 < prio (top st) := by
      intro hn
      rcases hc.tops with g | g | g | g | g <;> rw [g] <;> simp [prio]
      rw [(hneg g).1] at hn; cases hn
    simp only [CExp.toks]
    rw [List.append_assoc, feed_append, neg_test (AExp.prec_le _) h0 hred neg (fun a => .rel o a .zero) (fun _ => rfl)
      (signTok o) (by
        intro s hs
        rcases hw.2 with rfl | rfl | rfl
        · simp only [signTok, exprStep]
          unfold shiftVal
          rw [if_pos ⟨rfl, hs⟩]
        · rfl
        · rfl) hc.weak hn5]
    simp only [CExp.tree, Option.some.injEq, Prod.mk.injEq] at ht
    rw [← ht.2]
    refine ⟨rfl, tr, lh1, op1, hr, complete_bool (by rw [← ht.1]; cases neg <;> rfl), Or.inl rfl, ?_⟩
    intro t _
    rw [← ht.1]
  | .cond c, st, lh, op, f, last, tr, last', hw, hc, hr, ht => by
    obtain ⟨h1, h2, h3⟩ := ctx_arith hc (AExp.zero : AExp L)
    simp only [CExp.tree, Option.some.injEq, Prod.mk.injEq] at ht
    simp only [CExp.toks, feed_cons, feed_nil, exprStep]
    rw [shiftVal_open h1 (by intro h; cases h) h3, ← ht.2]
    refine ⟨rfl, tr, lh, op, hr, complete_bool (by rw [← ht.1]; rfl), Or.inl rfl, ?_⟩
    intro t _
    rw [← ht.1]
  | .not c, st, lh, op, f, last, tr, last', hw, hc, hr, ht => by
    obtain ⟨h1, _, _⟩ := ctx_arith hc (AExp.zero : AExp L)
    simp only [CExp.tree, Option.map_eq_some_iff] at ht
    obtain ⟨⟨tr1, last1⟩, ht1, he⟩ := ht
    cases he
    have hprec : c.prec = 4 := by
      have := hw.2
      cases c <;> first | rfl | cases this
    simp only [CExp.toks, feed_cons]
    rw [step_other (Or.inr (Or.inl rfl)), reduce_open (by simp) (by rw [tok0_st]; exact h1)]
    simp only [ESt.push]
    obtain ⟨h0, v, lh', op', hr', hv, hv', hred⟩ := cond_after c ((.not, .err) :: st) lh op f last tr1 last1 hw.1
      ⟨by simp, by simp, by rw [hprec]; simp [prio], fun _ => hw.2, fun _ => by simp⟩ hr ht1
    refine ⟨h0, .not tr1, lh', op', hr', complete_bool rfl, Or.inl rfl, ?_⟩
    intro t htt
    have htt' : 5 ≤ prio t := htt
    rw [hred t (by omega), reduce_not htt' (by rw [hv]; exact CExp.tree_bool _ _ _ _ ht1), hv]
  | .and a b, st, lh, op, f, last, tr, last', hw, hc, hr, ht => by
    obtain ⟨hwa, hwb, hpa, hpb⟩ := hw
    simp only [CExp.tree, Option.bind_eq_some_iff, Option.map_eq_some_iff] at ht
    obtain ⟨⟨tra, lasta⟩, hta, ⟨trb, lastb⟩, htb, he⟩ := ht
    cases he
    have hweak : 6 < prio (top st) := hc.weak
    have hnn : top st ≠ .not := by intro h; rw [h] at hweak; simp [prio] at hweak
    obtain ⟨h0, v, lh1, op1, hr1, hv, hv', hred⟩ := cond_after a st lh op f last tra lasta hwa
      ⟨hc.tops, hc.secs, by omega, fun h => absurd h hnn, hc.fulls⟩ hr hta
    have hba := CExp.tree_bool _ _ _ _ hta
    simp only [CExp.toks, feed_append, feed_cons]
    generalize feed _ a.toks = s1 at h0 hred
    have hs : exprStep s1 (.tok .and) = ⟨(.and, .err) :: (.x, tra) :: st, lh1, op1, f⟩ := by
      rw [step_other (Or.inr (Or.inr (Or.inl rfl))), hred .and hpa]
      rcases hv' with rfl | ⟨hnb, r, rfl⟩
      · rw [reduce_stop_and (by simpa [prio] using hweak) (Or.inl hba)]; rfl
      · have hor : top st = .or := by
          rcases hc.fulls rfl with g | g | g
          · rw [g] at hweak; simp [prio] at hweak
          · exact g
          · exact absurd g hnn
        cases last with
        | none => simp [CExp.tree] at hta
        | some p =>
          obtain ⟨l, o0⟩ := p
          simp only [CExp.tree, Option.some.injEq, Prod.mk.injEq] at hta
          have hlh : lh1 = some l := by rw [hr1.1, ← hta.2]; rfl
          subst hlh
          rw [reduce_or_and hor hnb]
          simp [complete, hnb] at hv
          rw [hv]; rfl
    rw [hs]
    obtain ⟨k0, w, lh2, op2, hr2, hw1, hw2, hred2⟩ := cond_after b ((.and, .err) :: (.x, tra) :: st) lh1 op1 f
      lasta trb lastb hwb ⟨by simp, by simp, by simpa [prio] using hpb, by simp, by simp⟩ hr1 htb
    refine ⟨k0, .and tra trb, lh2, op2, hr2, complete_bool rfl, Or.inl rfl, ?_⟩
    intro t htt
    have htt' : 6 ≤ prio t := htt
    rw [hred2 t (by omega), reduce_and htt' hba (by rw [hw1]; exact CExp.tree_bool _ _ _ _ htb), hw1]
  | .or a b, st, lh, op, f, last, tr, last', hw, hc, hr, ht => by
    obtain ⟨hwa, hwb, hpa, hpb⟩ := hw
    simp only [CExp.tree, Option.bind_eq_some_iff, Option.map_eq_some_iff] at ht
    obtain ⟨⟨tra, lasta⟩, hta, ⟨trb, lastb⟩, htb, he⟩ := ht
    cases he
    have hweak : 7 < prio (top st) := hc.weak
    have hnn : top st ≠ .not := by intro h; rw [h] at hweak; simp [prio] at hweak
    obtain ⟨h0, v, lh1, op1, hr1, hv, hv', hred⟩ := cond_after a st lh op f last tra lasta hwa
      ⟨hc.tops, hc.secs, by omega, fun h => absurd h hnn, hc.fulls⟩ hr hta
    have hba := CExp.tree_bool _ _ _ _ hta
    simp only [CExp.toks, feed_append, feed_cons]
    generalize feed _ a.toks = s1 at h0 hred
    have hs : exprStep s1 (.tok .or) = ⟨(.or, .err) :: (.x, tra) :: st, lh1, op1, f⟩ := by
      rw [step_other (Or.inr (Or.inr (Or.inr rfl))), hred .or hpa, reduce_stop (by simp) (by simpa [prio] using hweak)]
      rcases hv' with rfl | ⟨hnb, r, rfl⟩
      · rfl
      · exfalso
        rcases hc.fulls rfl with g | g | g <;> rw [g] at hweak <;> simp [prio] at hweak
    rw [hs]
    obtain ⟨k0, w, lh2, op2, hr2, hw1, hw2, hred2⟩ := cond_after b ((.or, .err) :: (.x, tra) :: st) lh1 op1 f
      lasta trb lastb hwb ⟨by simp, by simp, by simpa [prio] using hpb, by simp, by simp⟩ hr1 htb
    refine ⟨k0, .or tra trb, lh2, op2, hr2, complete_bool rfl, Or.inl rfl, ?_⟩
    intro t htt
    have htt' : 7 ≤ prio t := htt
    rw [hred2 t (by omega), reduce_or htt' hba (by rw [hw1]; exact CExp.tree_bool _ _ _ _ htb), hw1]
  | .paren c, st, lh, op, f, last, tr, last', hw, hc, hr, ht => by
    obtain ⟨h1, h2, h3⟩ := ctx_arith hc (AExp.zero : AExp L)
    simp only [CExp.tree, Option.map_eq_some_iff] at ht
    obtain ⟨⟨tr1, last1⟩, ht1, he⟩ := ht
    cases he
    have hk : keepRel (⟨st, lh, op, f⟩ : ESt L) = ⟨st, lh, op, f⟩ := by
      unfold keepRel
      rw [tok0_st]
      rcases hc.tops with g | g | g | g | g <;> rw [g]
    have hl : exprStep ⟨st, lh, op, f⟩ (.tok .lpar) = ⟨(.lpar, .err) :: st, lh, op, f⟩ := by
      simp only [exprStep, exprShift, hk]
      rw [reduce_open (by simp) (by rw [tok0_st]; exact h1)]
      rfl
    have hle : c.prec ≤ 7 := by cases c <;> simp [CExp.prec]
    obtain ⟨h0, v, lh', op', hr', hv, hv', hred⟩ := cond_after c ((.lpar, .err) :: st) lh op f last tr1 last1 hw.1
      ⟨by simp, by simp, by simp [prio]; omega, by simp, fun h => by rw [hw.2] at h; cases h⟩ hr ht1
    have hvt : v = tr1 := by
      rcases hv' with h | ⟨_, r, rfl⟩
      · exact h
      · cases hw.2
    subst hvt
    simp only [CExp.toks, List.cons_append, feed_cons, hl, feed_append, feed_nil]
    generalize feed _ c.toks = s1 at h0 hred
    have hs : exprStep s1 (.tok .rpar) = shiftVal (.paren v) ⟨st, lh', op', f⟩ := by
      simp only [exprStep, exprShift]
      rw [hred .rpar (by simp [prio]; omega), reduce_stop (by simp) (by simp [prio])]
      rfl
    rw [hs, shiftVal_open h1 (by intro h; cases h) h3]
    exact ⟨rfl, .paren v, lh', op', hr', complete_bool (show v.isBool = true from CExp.tree_bool c _ _ _ ht1),
      Or.inl rfl, fun t _ => rfl⟩

end Cob
