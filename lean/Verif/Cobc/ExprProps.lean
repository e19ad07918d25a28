import Verif.Cobc.ExprSim
/-
C56: expressions and conditions mean what their text says.
-/
namespace Cob

variable {L : Type}

/-! ### The trees mean the same as the text -/

theorem tree_value (m : Meaning L) : ∀ a : AExp L, a.tree.expand.value m = some (a.value m)
  | .leaf _ _ => rfl
  | .zero => rfl
  | .sgn minus a => by
    have := tree_value m a
    cases minus with
    | false => simpa [AExp.tree, AExp.value] using this
    | true => simp [AExp.tree, AExp.value, ETree.expand, ETree.value, this]
  | .bin o a b => by
    simp [AExp.tree, AExp.value, ETree.expand, ETree.value, tree_value m a, tree_value m b]
  | .paren a => by simpa [AExp.tree, AExp.value, ETree.expand] using tree_value m a

theorem opp_holds (o : ROp) (c : Int) : o.opp.holds c = !o.holds c := by
  cases o <;> simp only [ROp.opp, ROp.holds]
  · rfl
  · simp [bne]
  all_goals (rw [← decide_not]; congr 1; apply propext; omega)

theorem negate_holds (neg : Bool) (o : ROp) (c : Int) :
    (if neg then o.opp else o).holds c = xor neg (o.holds c) := by
  cases neg with
  | false => simp
  | true => simp [opp_holds]

/-- The remembered subject and operator mean the same. -/
def LastSame (m : Meaning L) : Option (ETree L × ROp) → Option (m.V × Bool × ROp) → Prop
  | none, none => True
  | some (l, o), some (x, neg, o') => l.expand.value m = some x ∧ ∀ c, o.holds c = xor neg (o'.holds c)
  | _, _ => False

theorem tree_truth (m : Meaning L) : ∀ (c : CExp L) (last last2) (tr : ETree L) (last'), c.WF →
    c.tree last = some (tr, last') → LastSame m last last2 →
    ∃ b last2', c.truth m last2 = some (b, last2') ∧ tr.expand.truth m = some b ∧ LastSame m last' last2'
  | .rel l neg o r, last, last2, tr, last', hw, ht, hl => by
    simp only [CExp.tree, Option.some.injEq, Prod.mk.injEq] at ht
    refine ⟨_, _, rfl, ?_, ?_⟩
    · rw [← ht.1]
      simp only [ETree.expand, ETree.truth, tree_value, Option.bind_some, Option.map_some, relHolds]
      rw [negate_holds]
    · rw [← ht.2]
      exact ⟨tree_value m l, fun c => negate_holds neg o c⟩
  | .relop neg o r, some (l, o0), some (x, n0, o1), tr, last', hw, ht, hl => by
    simp only [CExp.tree, Option.some.injEq, Prod.mk.injEq] at ht
    refine ⟨_, _, rfl, ?_, ?_⟩
    · rw [← ht.1]
      simp only [ETree.expand, ETree.truth, tree_value, hl.1, Option.bind_some, Option.map_some, relHolds]
      rw [negate_holds]
    · rw [← ht.2]
      exact ⟨hl.1, fun c => negate_holds neg o c⟩
  | .relop neg o r, none, _, tr, last', hw, ht, hl => by simp [CExp.tree] at ht
  | .relop neg o r, some _, none, tr, last', hw, ht, hl => hl.elim
  | .obj r, some (l, o0), some (x, n0, o1), tr, last', hw, ht, hl => by
    simp only [CExp.tree, Option.some.injEq, Prod.mk.injEq] at ht
    refine ⟨_, _, rfl, ?_, ?_⟩
    · rw [← ht.1]
      simp only [ETree.expand, ETree.truth, tree_value, hl.1, Option.bind_some, Option.map_some, relHolds]
      rw [hl.2]
    · rw [← ht.2]
      exact hl
  | .obj r, none, _, tr, last', hw, ht, hl => by simp [CExp.tree] at ht
  | .obj r, some _, none, tr, last', hw, ht, hl => hl.elim
  | .cls a neg n, last, last2, tr, last', hw, ht, hl => by
    obtain ⟨num, v, rfl⟩ := hw
    simp only [CExp.tree, Option.some.injEq, Prod.mk.injEq] at ht
    refine ⟨_, _, rfl, ?_, by rw [← ht.2]; exact hl⟩
    rw [← ht.1]
    cases neg <;> simp [ETree.expand, ETree.truth, AExp.tree, ETree.value, AExp.value]
  | .sign a neg o, last, last2, tr, last', hw, ht, hl => by
    simp only [CExp.tree, Option.some.injEq, Prod.mk.injEq] at ht
    refine ⟨_, _, rfl, ?_, by rw [← ht.2]; exact hl⟩
    rw [← ht.1]
    cases neg <;> simp [ETree.expand, ETree.truth, tree_value, ETree.value]
  | .cond c, last, last2, tr, last', hw, ht, hl => by
    simp only [CExp.tree, Option.some.injEq, Prod.mk.injEq] at ht
    refine ⟨_, _, rfl, by rw [← ht.1]; rfl, by rw [← ht.2]; exact hl⟩
  | .not c, last, last2, tr, last', hw, ht, hl => by
    simp only [CExp.tree, Option.map_eq_some_iff] at ht
    obtain ⟨p, hp, he⟩ := ht
    cases he
    obtain ⟨b, l2, h1, h2, h3⟩ := tree_truth m c last last2 p.1 p.2 hw.1 hp hl
    refine ⟨!b, l2, by simp [CExp.truth, h1], by simp [ETree.expand, ETree.truth, h2], h3⟩
  | .and a b, last, last2, tr, last', hw, ht, hl => by
    simp only [CExp.tree, Option.bind_eq_some_iff, Option.map_eq_some_iff] at ht
    obtain ⟨p, hp, q, hq, he⟩ := ht
    cases he
    obtain ⟨x, l2, h1, h2, h3⟩ := tree_truth m a last last2 p.1 p.2 hw.1 hp hl
    obtain ⟨y, l3, h4, h5, h6⟩ := tree_truth m b p.2 l2 q.1 q.2 hw.2.1 hq h3
    refine ⟨x && y, l3, by simp [CExp.truth, h1, h4], by simp [ETree.expand, ETree.truth, h2, h5], h6⟩
  | .or a b, last, last2, tr, last', hw, ht, hl => by
    simp only [CExp.tree, Option.bind_eq_some_iff, Option.map_eq_some_iff] at ht
    obtain ⟨p, hp, q, hq, he⟩ := ht
    cases he
    obtain ⟨x, l2, h1, h2, h3⟩ := tree_truth m a last last2 p.1 p.2 hw.1 hp hl
    obtain ⟨y, l3, h4, h5, h6⟩ := tree_truth m b p.2 l2 q.1 q.2 hw.2.1 hq h3
    refine ⟨x || y, l3, by simp [CExp.truth, h1, h4], by simp [ETree.expand, ETree.truth, h2, h5], h6⟩
  | .paren c, last, last2, tr, last', hw, ht, hl => by
    simp only [CExp.tree, Option.map_eq_some_iff] at ht
    obtain ⟨p, hp, he⟩ := ht
    cases he
    exact tree_truth m c last last2 p.1 p.2 hw.1 hp hl

/-! ### Omitted subjects -/

theorem known_tree : ∀ (c : CExp L) (last) (h : Bool), c.known last.isSome = some h →
    ∃ tr last', c.tree last = some (tr, last') ∧ last'.isSome = h
  | .rel l neg o r, last, h, hk => by
    simp only [CExp.known, Option.some.injEq] at hk
    exact ⟨_, _, rfl, hk⟩
  | .relop neg o r, last, h, hk => by
    cases last with
    | none => simp [CExp.known] at hk
    | some p => simp [CExp.known] at hk; exact ⟨_, _, rfl, by simpa using hk⟩
  | .obj r, last, h, hk => by
    cases last with
    | none => simp [CExp.known] at hk
    | some p => simp [CExp.known] at hk; exact ⟨_, _, rfl, by simpa using hk⟩
  | .cls a neg n, last, h, hk => by
    simp only [CExp.known, Option.some.injEq] at hk
    exact ⟨_, _, rfl, hk⟩
  | .sign a neg o, last, h, hk => by
    simp only [CExp.known, Option.some.injEq] at hk
    exact ⟨_, _, rfl, hk⟩
  | .cond c, last, h, hk => by
    simp only [CExp.known, Option.some.injEq] at hk
    exact ⟨_, _, rfl, hk⟩
  | .not c, last, h, hk => by
    obtain ⟨tr, last', h1, h2⟩ := known_tree c last h hk
    exact ⟨.not tr, last', by simp [CExp.tree, h1], h2⟩
  | .and a b, last, h, hk => by
    simp only [CExp.known, Option.bind_eq_some_iff] at hk
    obtain ⟨h', hk1, hk2⟩ := hk
    obtain ⟨tr, last', h1, h2⟩ := known_tree a last h' hk1
    rw [← h2] at hk2
    obtain ⟨tr2, last2, h3, h4⟩ := known_tree b last' h hk2
    exact ⟨.and tr tr2, last2, by simp [CExp.tree, h1, h3], h4⟩
  | .or a b, last, h, hk => by
    simp only [CExp.known, Option.bind_eq_some_iff] at hk
    obtain ⟨h', hk1, hk2⟩ := hk
    obtain ⟨tr, last', h1, h2⟩ := known_tree a last h' hk1
    rw [← h2] at hk2
    obtain ⟨tr2, last2, h3, h4⟩ := known_tree b last' h hk2
    exact ⟨.or tr tr2, last2, by simp [CExp.tree, h1, h3], h4⟩
  | .paren c, last, h, hk => by
    obtain ⟨tr, last', h1, h2⟩ := known_tree c last h hk
    exact ⟨.paren tr, last', by simp [CExp.tree, h1], h2⟩

theorem known_full : ∀ (c : CExp L) (h : Bool), c.known false = some h → c.full = true
  | .relop _ _ _, _, hk => by simp [CExp.known] at hk
  | .obj _, _, hk => by simp [CExp.known] at hk
  | .not c, h, hk => known_full c h hk
  | .and a _, h, hk => by
    simp only [CExp.known, Option.bind_eq_some_iff] at hk
    obtain ⟨h', hk1, _⟩ := hk
    exact known_full a h' hk1
  | .or a _, h, hk => by
    simp only [CExp.known, Option.bind_eq_some_iff] at hk
    obtain ⟨h', hk1, _⟩ := hk
    exact known_full a h' hk1
  | .rel _ _ _ _, _, _ => rfl
  | .cls _ _ _, _, _ => rfl
  | .sign _ _ _, _, _ => rfl
  | .cond _, _, _ => rfl
  | .paren _, _, _ => rfl

theorem reduce_bottom (v : ETree L) (lh op f) :
    exprReduce .bottom ⟨[(.x, v)], lh, op, f⟩ = ⟨[(.x, v)], lh, op, f⟩ := by
  refine reduce_quit ?_
  unfold redStep
  rw [if_pos (by exact Nat.le_refl _)]
  rfl

/-! ### The properties -/

/-- An arithmetic expression, written with the usual rules (`**`, then `*` and `/`, then `+` and `-`,
from left to right, signs, parentheses), is accepted, and the generated code computes the value the
text stands for, whatever the operands are and the operations do. -/
theorem C56_arithmetic (a : AExp L) (hw : a.WF) :
    ∃ t, buildExpr a.toks = some t ∧ ∀ m : Meaning L, t.value m = some (a.value m) := by
  obtain ⟨_, lh', op', _, hred⟩ := (arith_both a hw).2 [] none .eq false (by simp [top]) (by simp [top])
    (by have := a.prec_le; simp [top, prio]; omega) (by simp [top])
  refine ⟨a.tree.expand, ?_, fun m => tree_value m a⟩
  unfold buildExpr
  have := hred .bottom (by have := a.prec_le; simp [prio]; omega)
  unfold feed at this
  rw [this, reduce_bottom]
  rfl

/-- A condition, written with the usual rules (NOT, then AND, then OR, parentheses, abbreviated
relations), is accepted, and the generated code tests what the text stands for: an omitted subject is
that of the last relation in front of it, an omitted operator is the last one in front of it
(including its NOT).  This holds whatever the operands are and the comparisons and tests do. -/
theorem C56_condition (c : CExp L) (hw : c.WF) (hk : (c.known false).isSome = true) :
    ∃ t, buildExpr c.toks = some t ∧
      ∀ m : Meaning L, ∃ b last, c.truth m none = some (b, last) ∧ t.truth m = some b := by
  obtain ⟨h, hk⟩ := Option.isSome_iff_exists.mp hk
  obtain ⟨tr, last', ht, _⟩ := known_tree c none h hk
  have hfull := known_full c h hk
  have hle : c.prec ≤ 7 := by cases c <;> simp [CExp.prec]
  obtain ⟨_, v, lh', op', _, hv, hv', hred⟩ := cond_after c [] none .eq false none tr last' hw
    ⟨by simp [top], by simp [top], by simp [top, prio]; omega, by simp [top], fun h => by rw [hfull] at h; cases h⟩
    ⟨rfl, by simp⟩ ht
  have hvt : v = tr := by
    rcases hv' with h | ⟨_, r, rfl⟩
    · exact h
    · cases hfull
  subst hvt
  refine ⟨v.expand, ?_, fun m => ?_⟩
  · unfold buildExpr
    have := hred .bottom (by simp [prio]; omega)
    unfold feed at this
    rw [this, reduce_bottom]
    rfl
  · obtain ⟨b, l2, h1, h2, _⟩ := tree_truth m c none none v last' hw ht trivial
    exact ⟨b, l2, h1, h2⟩

/-- Two operands joined by AND or OR, without any relation, are refused. -/
theorem C56_no_condition (a b : AExp L) (ha : a.WF) (hb : b.WF) (t : ETok) (ht : t = .and ∨ t = .or) :
    buildExpr (a.toks ++ .tok t :: b.toks) = none := by
  have hp : 6 ≤ prio t := by rcases ht with rfl | rfl <;> simp [prio]
  have hp7 : prio t ≤ 7 := by rcases ht with rfl | rfl <;> simp [prio]
  have hpa := a.prec_le
  have hpb := b.prec_le
  obtain ⟨_, lh1, op1, hr1, hred1⟩ := (arith_both a ha).2 [] none .eq false (by simp [top]) (by simp [top])
    (by simp [top, prio]; omega) (by simp [top])
  have hlh : lh1 = none := by
    rcases hr1 with h | ⟨o, h, _⟩
    · exact h.1
    · simp [top] at h
  subst hlh
  have h1 : exprReduce t (feed ⟨[], none, .eq, false⟩ a.toks) = ⟨[(.x, a.tree)], none, op1, false⟩ := by
    rw [hred1 t (by omega)]
    rcases ht with rfl | rfl
    · exact reduce_stop_and (by simp [top, prio]) (Or.inr (by simp [top]))
    · exact reduce_stop (by simp) (by simp [top, prio])
  have h2 : feed ⟨[], none, .eq, false⟩ (a.toks ++ [.tok t]) = ⟨[(t, .err), (.x, a.tree)], none, op1, false⟩ := by
    rw [feed_append, feed_cons, feed_nil, step_other (ht.elim (fun h => Or.inr (Or.inr (Or.inl h))) fun h => Or.inr (Or.inr (Or.inr h))), h1]
    rfl
  have htop : top [(t, (.err : ETree L)), (.x, a.tree)] = t := rfl
  obtain ⟨_, lh2, op2, hr2, hred2⟩ := (arith_both b hb).2 [(t, .err), (.x, a.tree)] none op1 false
    (by rw [htop]; rcases ht with rfl | rfl <;> simp) (by rw [htop]; rcases ht with rfl | rfl <;> simp)
    (by rw [htop]; omega) (by rw [htop]; rcases ht with rfl | rfl <;> simp)
  have hlh : lh2 = none := by
    rcases hr2 with h | ⟨o, h, _⟩
    · exact h.1
    · rw [htop] at h; rcases ht with rfl | rfl <;> cases h
  subst hlh
  have hna := operand_notBool (AExp.tree_operand a)
  have h3 : exprReduce .bottom (feed ⟨[], none, .eq, false⟩ (a.toks ++ .tok t :: b.toks)) =
      ⟨[(.x, .err)], none, op2, true⟩ := by
    have he : a.toks ++ .tok t :: b.toks = (a.toks ++ [.tok t]) ++ b.toks := by simp
    rw [he, feed_append, h2, hred2 .bottom (by simp [prio]; omega)]
    have hs : redStep .bottom ⟨(.x, b.tree) :: [(t, .err), (.x, a.tree)], none, op2, false⟩ =
        .next ⟨[(.x, (.err : ETree L))], none, op2, true⟩ := by
      rcases ht with rfl | rfl <;>
      · unfold redStep
        rw [if_pos (by simp [prio])]
        simp [ESt.repl, mkAnd, mkOr, complete, hna]
    rw [reduce_next hs, reduce_bottom]
  unfold buildExpr
  unfold feed at h3
  rw [h3]
  rfl

/-! ### Examples -/

-- A ** 2 - B * - (C + D) / 3
example : (AExp.bin .sub (.bin .pow (.leaf true "A") (.leaf true "2"))
    (.bin .div (.bin .mul (.leaf true "B") (.sgn true (.paren (.bin .add (.leaf true "C") (.leaf true "D")))))
      (.leaf true "3"))).WF := by
  simp [AExp.WF, AExp.prec, AOp.prec, AExp.isNum]

/-- `A > B AND NOT < C OR D AND NOT E + 1` -/
def abbrevSample : CExp String :=
  .or (.and (.rel (.leaf true "A") false .gt (.leaf true "B")) (.relop true .lt (.leaf true "C")))
    (.and (.obj (.leaf true "D")) (.not (.obj (.bin .add (.leaf true "E") (.leaf true "1")))))

example : abbrevSample.WF ∧ (abbrevSample.known false).isSome = true := by
  simp [abbrevSample, CExp.WF, AExp.WF, CExp.prec, CExp.afterNot, AExp.startsZero, AExp.prec, AOp.prec,
    AExp.isNum, CExp.known]

-- A > B AND A >= C OR A >= D AND NOT A >= E + 1
example : buildExpr abbrevSample.toks = some
    (.or (.and (.rel .gt (.leaf true "A") (.leaf true "B")) (.rel .ge (.leaf true "A") (.leaf true "C")))
      (.and (.rel .ge (.leaf true "A") (.leaf true "D"))
        (.not (.rel .ge (.leaf true "A") (.bin .add (.leaf true "E") (.leaf true "1")))))) := by
  decide +kernel

/-! ### Findings -/

/-- `B = C AND NOT ZERO = A`: behind NOT the word ZERO is taken for a sign test and dropped together
with the NOT.  The compiler accepts the condition and generates `B = C AND B = A`. -/
theorem C56_finding_not_zero :
    buildExpr (CExp.and (.rel (.leaf true "B") false .eq (.leaf true "C"))
      (.not (.rel .zero false .eq (.leaf true "A")))).toks =
    some (.and (.rel .eq (.leaf true "B") (.leaf true "C")) (.rel .eq (.leaf true "B") (.leaf true "A"))) := by
  decide +kernel

/-- `A = B AND (C OR D > E)`: the object C in the parentheses is completed with the subject and the
operator of the relation behind it: `A = B AND (D > C OR D > E)`. -/
theorem C56_finding_parenthesized_object :
    buildExpr (CExp.and (.rel (.leaf true "A") false .eq (.leaf true "B"))
      (.paren (.or (.obj (.leaf true "C")) (.rel (.leaf true "D") false .gt (.leaf true "E"))))).toks =
    some (.and (.rel .eq (.leaf true "A") (.leaf true "B"))
      (.or (.rel .gt (.leaf true "D") (.leaf true "C")) (.rel .gt (.leaf true "D") (.leaf true "E")))) := by
  decide +kernel

/-- `A AND B = C` is accepted: the object A is completed with the subject and the operator of the relation
behind it: `B = A AND B = C`. -/
theorem C56_finding_object_first :
    buildExpr (CExp.and (.obj (.leaf true "A")) (.rel (.leaf true "B") false .eq (.leaf true "C"))).toks =
    some (.and (.rel .eq (.leaf true "B") (.leaf true "A")) (.rel .eq (.leaf true "B") (.leaf true "C"))) := by
  decide +kernel

/-- `NOT A NOT = B` is rejected. -/
theorem C56_finding_not_not :
    buildExpr (CExp.not (.rel (.leaf true "A") true .eq (.leaf true "B"))).toks = none := by
  decide +kernel

/-- `(A) IS NUMERIC`: the parentheses stay in the argument of the class test; the code generator
makes an arithmetic operation without a second operand of them. -/
theorem C56_finding_class_parentheses :
    buildExpr (CExp.cls (.paren (.leaf true "A")) false 9).toks = some (.cls 9 (.paren (.leaf true "A"))) := by
  decide +kernel

end Cob
