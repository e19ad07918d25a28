import Verif.Cobc.ExprProps
/- C56: whatever `cb_build_expr` accepts is typed. -/
namespace Cob
variable {L : Type}

/-- Arithmetic has numeric operands, NOT, AND and OR have conditions. -/
def ETree.Typed : ETree L → Prop
  | .bin _ a b => a.isNum = true ∧ b.isNum = true ∧ a.Typed ∧ b.Typed
  | .not a => a.isBool = true ∧ a.Typed
  | .and a b => a.isBool = true ∧ b.isBool = true ∧ a.Typed ∧ b.Typed
  | .or a b => a.isBool = true ∧ b.isBool = true ∧ a.Typed ∧ b.Typed
  | .rel _ a b => a.Typed ∧ b.Typed
  | .cls _ a => a.Typed
  | .paren a => a.Typed
  | _ => True

/-- Everything the parser keeps is typed. -/
def ESt.Typed (s : ESt L) : Prop := (∀ p ∈ s.stack, p.2.Typed) ∧ ∀ a, s.lh = some a → a.Typed

def RStep.Typed : RStep L → Prop
  | .done => True
  | .quit s => s.Typed
  | .next s => s.Typed

theorem typed_val {s : ESt L} (h : s.Typed) (i : Nat) : (s.val i).Typed := by
  unfold ESt.val ESt.at_
  by_cases hi : i < s.stack.length
  · have e : s.stack.getD i (ETok.bottom, ETree.err) = s.stack[i] := by rw [List.getD_eq_getElem?_getD, List.getElem?_eq_getElem hi]; rfl
    rw [e]
    exact h.1 _ (List.getElem_mem hi)
  · have e : s.stack.getD i (ETok.bottom, ETree.err) = (.bottom, .err) := by
      rw [List.getD_eq_getElem?_getD, List.getElem?_eq_none (by omega)]; rfl
    rw [e]
    trivial

theorem typed_st {s : ESt L} (h : s.Typed) (n : Nat) (t : ETok) (v : ETree L) (g : Option (ETree L)) (o : ROp) (b : Bool)
    (hv : v.Typed) (hg : ∀ a, g = some a → a.Typed) : ESt.Typed ⟨(t, v) :: s.stack.drop n, g, o, b⟩ := by
  refine ⟨fun p hp => ?_, hg⟩
  simp only [List.mem_cons] at hp
  rcases hp with rfl | hp
  · exact hv
  · exact h.1 p (List.mem_of_mem_drop hp)

theorem typed_complete {lh : Option (ETree L)} {op : ROp} {v : ETree L} (h : ∀ a, lh = some a → a.Typed) (hv : v.Typed) :
    (complete lh op v).Typed := by
  unfold complete
  cases lh with
  | none => exact hv
  | some a =>
    simp only
    split
    · exact hv
    · exact ⟨h a rfl, hv⟩

theorem typed_arith {a b : ETree L} (o : AOp) (ha : a.Typed) (hb : b.Typed) : (mkArith a o b).1.Typed := by
  unfold mkArith
  split
  · rename_i hn
    simp only [Bool.and_eq_true] at hn
    exact ⟨hn.1, hn.2, ha, hb⟩
  · trivial

theorem typed_not {a : ETree L} (ha : a.Typed) : (mkNot a).1.Typed := by
  unfold mkNot
  split
  · rename_i hn; exact ⟨hn, ha⟩
  · trivial

theorem typed_and {a b : ETree L} (ha : a.Typed) (hb : b.Typed) : (mkAnd a b).1.Typed := by
  unfold mkAnd
  split
  · rename_i hn
    simp only [Bool.and_eq_true] at hn
    exact ⟨hn.1, hn.2, ha, hb⟩
  · trivial

theorem typed_or {a b : ETree L} (ha : a.Typed) (hb : b.Typed) : (mkOr a b).1.Typed := by
  unfold mkOr
  split
  · rename_i hn
    simp only [Bool.and_eq_true] at hn
    exact ⟨hn.1, hn.2, ha, hb⟩
  · trivial

theorem typed_rel (o : ROp) {a b : ETree L} (ha : a.Typed) (hb : b.Typed) : (if b.isBool then b else .rel o a b).Typed := by
  split
  · exact hb
  · exact ⟨ha, hb⟩

theorem typed_redStep (t : ETok) (s : ESt L) (h : s.Typed) : (redStep t s).Typed := by
  have hv := typed_val h
  fun_cases redStep t s
  all_goals first
    | trivial
    | exact h
    | exact typed_st h 3 .x _ s.lh s.op _ (typed_arith _ (hv 2) (hv 0)) h.2
    | exact typed_st h 2 .x _ s.lh s.op _ (typed_not (typed_complete h.2 (hv 0))) h.2
    | exact typed_st h 3 .x _ s.lh s.op _ (typed_and (typed_complete h.2 (hv 2)) (typed_complete h.2 (hv 0))) h.2
    | exact typed_st h 3 .x _ s.lh s.op _ (typed_or (typed_complete h.2 (hv 2)) (typed_complete h.2 (hv 0))) h.2
    | exact typed_st h 3 .x .err s.lh s.op _ trivial h.2
    | exact typed_st h 2 .x .err s.lh s.op _ trivial h.2
    | skip
  · exact ⟨h.1, fun a ha => by injection ha with ha; subst ha; trivial⟩
  · exact ⟨h.1, fun a ha => by injection ha with ha; subst ha; exact hv 2⟩
  · exact typed_st h 3 .x _ (some (s.val 2)) _ _ (typed_rel _ (hv 2) (hv 0)) (fun a ha => by injection ha with ha; subst ha; exact hv 2)
  · rename_i l hl _
    exact typed_st h 2 .x _ s.lh _ _ (typed_rel _ (h.2 _ hl) (hv 0)) h.2
  · rename_i l hl _
    exact typed_st h 2 .x _ s.lh _ _ (typed_rel _ (h.2 _ hl) (hv 0)) h.2

theorem typed_redLoop (n : Nat) : ∀ (t : ETok) (s : ESt L), s.Typed → (redLoop n t s).1.Typed := by
  induction n with
  | zero => exact fun t s h => h
  | succ n ih =>
    intro t s h
    have := typed_redStep t s h
    unfold redLoop
    split
    · exact h
    · rename_i heq; rw [heq] at this; exact this
    · rename_i heq; rw [heq] at this; exact ih t _ this

theorem typed_reduce (t : ETok) (s : ESt L) (h : s.Typed) : (exprReduce t s).Typed := by
  have h1 := typed_redLoop (s.stack.length + 1) t s h
  unfold exprReduce
  split
  · rename_i s' heq
    rw [heq] at h1
    simp only at h1
    split
    · split
      · rename_i l hl
        exact typed_st h1 1 .x (.rel s'.op l (s'.val 0)) s'.lh s'.op _ ⟨h1.2 _ hl, typed_val h1 0⟩ h1.2
      · exact h1
    · exact h1
  · rename_i s' heq
    rw [heq] at h1
    exact h1

theorem typed_pop {s : ESt L} (h : s.Typed) : s.pop.Typed := ⟨fun p hp => h.1 p (List.mem_of_mem_drop hp), h.2⟩

theorem typed_push {s : ESt L} (h : s.Typed) (t : ETok) (v : ETree L) (hv : v.Typed) : (s.push t v).Typed := by
  refine ⟨fun p hp => ?_, h.2⟩
  simp only [ESt.push, List.mem_cons] at hp
  rcases hp with rfl | hp
  · exact hv
  · exact h.1 p hp

theorem typed_test (f : ETree L → ETree L) (hf : ∀ a, a.Typed → (f a).Typed) (s : ESt L) (h : s.Typed) : (shiftTest f s).Typed := by
  unfold shiftTest
  simp only
  have h1 : (if s.tok 0 = .not then s.pop else s).Typed := by
    split
    · exact typed_pop h
    · exact h
  generalize (if s.tok 0 = ETok.not then s.pop else s) = s1 at h1
  have h2 := typed_reduce (.rel .eq) s1 h1
  generalize exprReduce (.rel .eq) s1 = s2 at h2
  split
  · split
    · exact typed_st h2 1 .x _ s2.lh s2.op _ (typed_not (hf _ (typed_val h2 0))) h2.2
    · exact typed_st h2 1 .x _ s2.lh s2.op _ (hf _ (typed_val h2 0)) h2.2
  · exact h2

theorem typed_shiftVal (v : ETree L) (s : ESt L) (h : s.Typed) (hv : v.Typed) : (shiftVal v s).Typed := by
  unfold shiftVal
  have aux : ∀ (c : Prop) [Decidable c] (a b : ESt L), a.Typed → b.Typed → (if c then a else b).Typed := by
    intro c _ a b ha hb
    split
    · exact ha
    · exact hb
  refine aux _ _ _ ?_ ?_
  · exact typed_test (fun a => .rel .eq a .zero) (fun a ha => ⟨ha, trivial⟩) s h
  · split
    · simp only
      have hp : ∀ b : Bool, ESt.Typed ⟨s.pop.stack, s.pop.lh, s.pop.op, b⟩ := fun b => ⟨(typed_pop h).1, h.2⟩
      refine typed_push (typed_reduce .x _ (hp _)) _ _ ?_
      split
      · exact typed_arith _ trivial hv
      · exact hv
    · exact typed_push (typed_reduce _ _ h) _ _ hv

theorem typed_shift (t : ETok) (s : ESt L) (h : s.Typed) : (exprShift t s).Typed := by
  unfold exprShift
  split
  · refine typed_push (typed_reduce _ _ ?_) _ _ trivial
    unfold keepRel
    split
    · refine ⟨h.1, ?_⟩
      simp only
      split
      · intro a ha; injection ha with ha; subst ha; exact typed_val h 1
      · exact h.2
    · exact h
  · have h1 := typed_reduce .rpar s h
    simp only
    split
    · exact typed_shiftVal _ _ (typed_pop (typed_pop h1)) (typed_val h1 0)
    · exact typed_push (typed_reduce _ _ h1) _ _ trivial
  · simp only
    refine typed_push (typed_reduce _ _ ?_) _ _ trivial
    have hj : ∀ (t : ETok) (s : ESt L), s.Typed → (joinOr t s).2.Typed := by
      intro t s h
      unfold joinOr
      split
      · exact typed_pop (typed_pop h)
      · exact h
    have hn : ∀ (t : ETok) (s : ESt L), s.Typed → (joinNot t s).2.Typed := by
      intro t s h
      unfold joinNot
      split
      · split
        · exact typed_pop h
        · exact h
      · exact h
    exact hn _ _ (hj _ _ h)

theorem expand_isNum (a : ETree L) : a.expand.isNum = a.isNum := by
  induction a <;> simp_all [ETree.expand, ETree.isNum]

theorem expand_isBool (a : ETree L) : a.expand.isBool = a.isBool := by
  induction a <;> simp_all [ETree.expand, ETree.isBool]

theorem expand_typed (a : ETree L) (h : a.Typed) : a.expand.Typed := by
  induction a with
  | leaf => exact h
  | zero => exact h
  | cond => exact h
  | cls => exact h
  | err => exact h
  | bin o a b iha ihb =>
    exact ⟨by rw [expand_isNum]; exact h.1, by rw [expand_isNum]; exact h.2.1, iha h.2.2.1, ihb h.2.2.2⟩
  | rel o a b iha ihb => exact ⟨iha h.1, ihb h.2⟩
  | not a ih => exact ⟨by rw [expand_isBool]; exact h.1, ih h.2⟩
  | and a b iha ihb =>
    exact ⟨by rw [expand_isBool]; exact h.1, by rw [expand_isBool]; exact h.2.1, iha h.2.2.1, ihb h.2.2.2⟩
  | or a b iha ihb =>
    exact ⟨by rw [expand_isBool]; exact h.1, by rw [expand_isBool]; exact h.2.1, iha h.2.2.1, ihb h.2.2.2⟩
  | paren a ih => exact ih h

/-- An operand as the scanner gives it: a data item or literal, ZERO, a condition-name. -/
def EIn.Operand : EIn L → Prop
  | .val (.leaf _ _) => True
  | .val .zero => True
  | .val (.cond _) => True
  | .val _ => False
  | _ => True

theorem typed_step (s : ESt L) (i : EIn L) (hi : i.Operand) (h : s.Typed) : (exprStep s i).Typed := by
  cases i with
  | tok t => exact typed_shift t s h
  | val v =>
    refine typed_shiftVal v s h ?_
    cases v <;> first | trivial | exact hi.elim
  | cls n => exact typed_test (.cls n) (fun a ha => ha) s h
  | sign o => exact typed_test (fun a => .rel o a .zero) (fun a ha => ⟨ha, trivial⟩) s h

/-- **C56** Whatever tokens the program has: in an expression that is accepted arithmetic is done with numeric operands only, and NOT, AND
and OR connect conditions only. -/
theorem C56_accepted_typed (l : List (EIn L)) (hl : ∀ i ∈ l, i.Operand) (t : ETree L) (h : buildExpr l = some t) : t.Typed := by
  have hf : ∀ (l : List (EIn L)) (s : ESt L), (∀ i ∈ l, i.Operand) → s.Typed → (l.foldl exprStep s).Typed := by
    intro l
    induction l with
    | nil => exact fun s _ h => h
    | cons i l ih => exact fun s hl h => ih _ (fun j hj => hl j (by simp [hj])) (typed_step s i (hl i (by simp)) h)
  have h1 := typed_reduce .bottom _ (hf l ⟨[], none, .eq, false⟩ hl ⟨by simp, by simp⟩)
  unfold buildExpr at h
  simp only at h
  generalize exprReduce .bottom (l.foldl exprStep ⟨[], none, .eq, false⟩) = s at h h1
  split at h
  · rename_i v hs
    split at h
    · cases h
    · injection h with h
      subst h
      exact expand_typed v (h1.1 (.x, v) (by rw [hs]; simp))
  · cases h

/-- **C56** An arithmetic operator between two operands one of which is not numeric is an error; with numeric operands it is the operation. -/
theorem C56_operands (m n : Bool) (x y : L) (o : AOp) :
    buildExpr [.val (.leaf m x), .tok (.ar o), .val (.leaf n y)] =
      if m = true ∧ n = true then some (.bin o (.leaf m x) (.leaf n y)) else none := by
  cases m <;> cases n <;> cases o <;> simp [buildExpr, exprStep, shiftVal, exprShift, joinOr, joinNot, exprReduce, redLoop, redStep, ESt.tok, ESt.val, ESt.at_,
    ESt.push, prio, mkArith, ETree.isNum, ESt.repl, ETree.expand]

/- `A + B * C`, and `A + "x"` (operand 2 is not numeric). -/
example : buildExpr [.val (.leaf true 1), .tok (.ar .add), .val (.leaf true 2), .tok (.ar .mul), .val (.leaf true 3)] =
    some (.bin .add (.leaf true 1) (.bin .mul (.leaf true 2) (.leaf true 3))) := rfl

example : buildExpr [.val (.leaf true 1), .tok (.ar .add), .val (.leaf false 2), .tok (.rel .eq), .val (.leaf true 3)] =
    (none : Option (ETree Nat)) := rfl

/-- **C56** (finding) `( + )` counts as an operand; it has no value (a null pointer in the compiler). -/
theorem C56_finding_empty_parentheses : buildExpr [.tok .lpar, .tok (.ar .add), .tok .rpar] = some (.err : ETree Nat) := rfl

end Cob
