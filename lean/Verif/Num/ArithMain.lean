import Verif.Num.ArithFast
/-
Property C80, the theorems: ADD, SUBTRACT, MULTIPLY, DIVIDE and COMPUTE.
-/
namespace Cob.Arith
open Dec

/-! ### the three ways a statement is executed -/

theorem store_all (P : Prog) (ph : Phrases) (σ : State) (rs : List Recv) (d : Dec) (x : Recv → ℚ)
    (hnd : (rs.map (·.v)).Nodup)
    (hg : ∀ r ∈ rs, Good P ph (σ r.v) r (x r) (storeItem P.ebc d (σ r.v) (storeOption P ph r))) :
    ∃ σ' ress, each (stepStore P ph) rs d σ = some (σ', ress.any (·.raised)) ∧
      List.Forall₂ (fun r res => Good P ph (σ r.v) r (x r) res ∧ σ' r.v = res.item) rs ress ∧
      ∀ w, w ∉ rs.map (·.v) → σ' w = σ w := by
  apply each_spec (stepStore P ph) (fun d' => d' = d) (fun r res => Good P ph (σ r.v) r (x r) res) σ [] rs
  · intro r hr d' σ1 hd' h1 _
    subst hd'
    refine ⟨_, _, rfl, rfl, ?_⟩
    rw [h1]
    exact hg r hr
  · exact hnd
  · simp
  · rfl
  · intros; rfl
  · simp

/-- The operator applied to the receiver's number and the operand's. -/
def opVal (o : Op) (a b : ℚ) : ℚ :=
  match o with
  | .add => a + b | .sub => a - b | .mul => a * b | .div => a / b

theorem op_all (P : Prog) (ph : Phrases) (o : Op) (σ : State) (vals : Nat → ℚ) (rs : List Recv) (d : Dec)
    (y : ℚ) (hnd : (rs.map (·.v)).Nodup) (hd : d.toRat = y ∧ 0 ≤ d.scale)
    (hr : ∀ r ∈ rs, WFItem (σ r.v) ∧ 0 ≤ (σ r.v).field.attr.scale ∧ Holds P.ebc (σ r.v) (vals r.v))
    (hdiv : o = .div → y ≠ 0 ∧ ∀ r ∈ rs, (σ r.v).field.attr.scale ≤ 36) :
    ∃ σ' ress, each (stepOp P ph o) rs d σ = some (σ', ress.any (·.raised)) ∧
      List.Forall₂ (fun r res => Good P ph (σ r.v) r (opVal o (vals r.v) y) res ∧ σ' r.v = res.item) rs ress ∧
      ∀ w, w ∉ rs.map (·.v) → σ' w = σ w := by
  apply each_spec (stepOp P ph o) (fun d' => d'.toRat = y ∧ 0 ≤ d'.scale)
    (fun r res => Good P ph (σ r.v) r (opVal o (vals r.v) y) res) σ [] rs
  · intro r hrm d' σ1 hd' h1 _
    obtain ⟨w1, w2, w3⟩ := hr r hrm
    obtain ⟨t, ht, et, st⟩ := load_value P.ebc σ1 vals (.var r.v)
      (by unfold Readable; simp only; rw [h1]; exact ⟨w1, w3, w2⟩)
    have sh := opEffect_shared o t d'
    refine ⟨storeItem P.ebc (opEffect o t d').1 (σ1 r.v) (storeOption P ph r), (opEffect o t d').2,
      by simp only [stepOp, ht], ⟨by rw [sh.1]; exact hd'.1, sh.2 hd'.2⟩, ?_⟩
    rw [h1]
    have nt := nan_of_nonneg t st
    have nd := nan_of_nonneg d' hd'.2
    simp only [Opnd.val] at et
    cases o with
    | add =>
      have e := C06_add_exact t d' nt nd
      exact good_store P ph _ w1 r _ _ e.2 (by simp only [opEffect, opVal]; rw [e.1, et, hd'.1])
    | sub =>
      have e := C06_sub_exact t d' nt nd
      exact good_store P ph _ w1 r _ _ e.2 (by simp only [opEffect, opVal]; rw [e.1, et, hd'.1])
    | mul =>
      have e := C06_mul_exact t d' nt nd
      have hnm : (t.mul d').isNaN = false := e.2.mpr (by have := hd'.2; omega)
      exact good_store P ph _ w1 r _ _ hnm (by simp only [opEffect, opVal]; rw [e.1, et, hd'.1])
    | div =>
      obtain ⟨z1, z2⟩ := hdiv rfl
      have := good_div P ph _ w1 r t d' nt nd (by rw [hd'.1]; exact z1) (z2 r hrm)
      rw [et, hd'.1] at this
      exact this
  · exact hnd
  · simp
  · exact hd
  · intros; rfl
  · simp

theorem one_all (P : Prog) (ph : Phrases) (o : Op) (x : Opnd) (σ : State) (vals : Nat → ℚ) (rs : List Recv)
    (hnd : (rs.map (·.v)).Nodup) (hx : Readable P.ebc σ vals x)
    (hr : ∀ r ∈ rs, WFItem (σ r.v) ∧ 0 ≤ (σ r.v).field.attr.scale ∧ Holds P.ebc (σ r.v) (vals r.v))
    (hap : ∀ v, x = .var v → v ∉ (rs.dropLast).map (·.v))
    (hsm : (∃ n : Int, x.val vals = n) → ph.onSize = false → ∀ r ∈ rs, r.rounded = false →
      (P.binTrunc = false ∨ P.native r.v = true) → SmallFor (σ r.v) (x.val vals)) :
    ∃ σ' ress, each (stepOne P ph o x) rs () σ = some (σ', ress.any (·.raised)) ∧
      List.Forall₂ (fun r res => Good P ph (σ r.v) r
        (if o = .sub then vals r.v - x.val vals else vals r.v + x.val vals) res ∧ σ' r.v = res.item) rs ress ∧
      ∀ w, w ∉ rs.map (·.v) → σ' w = σ w := by
  apply each_spec (stepOne P ph o x) (fun _ => True) (fun r res => Good P ph (σ r.v) r
        (if o = .sub then vals r.v - x.val vals else vals r.v + x.val vals) res) σ
        (match x with | .var v => [v] | .lit _ => []) rs
  · intro r hrm d' σ1 _ h1 h2
    obtain ⟨w1, w2, w3⟩ := hr r hrm
    have hx1 : Readable P.ebc σ1 vals x := by
      cases x with
      | lit d => exact hx
      | var v =>
        unfold Readable at hx ⊢
        simp only at hx ⊢
        rw [h2 v (by simp)]
        exact hx
    obtain ⟨res, e1, e2⟩ := stepOne_good P ph o x σ1 r vals hx1 (by rw [h1]; exact w1) (by rw [h1]; exact w2)
      (by rw [h1]; exact w3) (by rw [h1]; intro a b c e; exact hsm a b r hrm c e)
    rw [h1] at e2
    exact ⟨res, (), e1, trivial, e2⟩
  · exact hnd
  · intro o' ho'
    cases x with
    | lit d => simp at ho'
    | var v =>
      simp only [List.mem_singleton] at ho'
      rw [ho']
      exact hap v rfl
  · trivial
  · intros; rfl
  · intros; rfl

theorem binaryList_bin (o : Op) (x y : Opnd) (ys : List Opnd) :
    ∃ a b, binaryList o x (y :: ys) = .bin o a b := by
  unfold binaryList
  rw [List.foldl_cons]
  generalize (Tree.leaf x) = t
  induction ys generalizing t y with
  | nil => exact ⟨_, _, rfl⟩
  | cons z zs ih => rw [List.foldl_cons]; exact ih z _

theorem opnd_readable {P : Prog} {ph : Phrases} {σ : State} {vals : Nat → ℚ} {s : Stmt}
    (h : Ready P ph σ vals s) (x : Opnd) (hx : x ∈ s.opnds) : Readable P.ebc σ vals x := by
  cases x with
  | lit d => exact h.lits d hx
  | var v => exact h.items v hx

/-- Evaluating a division-free expression. -/
theorem eval_tree (P : Prog) (σ : State) (vals : Nat → ℚ) (R : Regs) (t : Tree) (hd : t.noDiv)
    (h : ∀ x ∈ t.leaves, Readable P.ebc σ vals x) :
    ∃ e, resolve P.ebc σ t = some e ∧ (exec (compile e 0 1) R 0).toRat = t.val vals ∧
      0 ≤ (exec (compile e 0 1) R 0).scale := by
  obtain ⟨e, e1, e2, e3, e4⟩ := resolve_value P.ebc σ vals t hd h
  obtain ⟨v1, v2⟩ := dec_value e e2 e3
  refine ⟨e, e1, ?_, ?_⟩
  · rw [C46_registers, v1, e4]
  · rw [C46_registers]; exact v2

theorem giving_plain (P : Prog) (ph : Phrases) (R : Regs) (σ : State) (vals : Nat → ℚ) (rs : List Recv)
    (t : Tree) (hd : t.noDiv) (h : ∀ x ∈ t.leaves, Readable P.ebc σ vals x)
    (hnd : (rs.map (·.v)).Nodup) (hw : ∀ r ∈ rs, WFItem (σ r.v)) :
    ∃ e, resolve P.ebc σ t = some e ∧
    ∃ σ' ress, each (stepStore P ph) rs (exec (compile e 0 1) R 0) σ = some (σ', ress.any (·.raised)) ∧
      List.Forall₂ (fun r res => Good P ph (σ r.v) r (t.val vals) res ∧ σ' r.v = res.item) rs ress ∧
      ∀ w, w ∉ rs.map (·.v) → σ' w = σ w := by
  obtain ⟨e, e1, e2, e3⟩ := eval_tree P σ vals R t hd h
  refine ⟨e, e1, store_all P ph σ rs _ (fun _ => t.val vals) hnd ?_⟩
  intro r hr
  exact good_store P ph _ (hw r hr) r _ _ (nan_of_nonneg _ e3) e2

theorem giving_div (P : Prog) (ph : Phrases) (R : Regs) (σ : State) (vals : Nat → ℚ) (rs : List Recv)
    (x y : Tree) (hx : x.noDiv) (hy : y.noDiv) (hlx : ∀ z ∈ x.leaves, Readable P.ebc σ vals z)
    (hly : ∀ z ∈ y.leaves, Readable P.ebc σ vals z) (hnz : y.val vals ≠ 0)
    (hnd : (rs.map (·.v)).Nodup) (hw : ∀ r ∈ rs, WFItem (σ r.v))
    (hsc : ∀ r ∈ rs, (σ r.v).field.attr.scale ≤ 36) :
    ∃ e, resolve P.ebc σ (.bin .div x y) = some e ∧
    ∃ σ' ress, each (stepStore P ph) rs (exec (compile e 0 1) R 0) σ = some (σ', ress.any (·.raised)) ∧
      List.Forall₂ (fun r res => Good P ph (σ r.v) r (x.val vals / y.val vals) res ∧ σ' r.v = res.item) rs ress ∧
      ∀ w, w ∉ rs.map (·.v) → σ' w = σ w := by
  obtain ⟨a, a1, a2, a3, a4⟩ := resolve_value P.ebc σ vals x hx hlx
  obtain ⟨b, b1, b2, b3, b4⟩ := resolve_value P.ebc σ vals y hy hly
  obtain ⟨va, sa⟩ := dec_value a a2 a3
  obtain ⟨vb, sb⟩ := dec_value b b2 b3
  refine ⟨.bin .div a b, by simp [resolve, a1, b1], ?_⟩
  rw [C46_registers]
  apply store_all P ph σ rs _ (fun _ => x.val vals / y.val vals) hnd
  intro r hr
  have := good_div P ph _ (hw r hr) r a.dec b.dec (nan_of_nonneg _ sa) (nan_of_nonneg _ sb)
    (by rw [vb, b4]; exact hnz) (hsc r hr)
  rw [va, vb, a4, b4] at this
  exact this

theorem body_giving (P : Prog) (ph : Phrases) (R : Regs) (σ : State) (s : Stmt) (t : Tree) (e : Expr)
    (he : emit s = (s.recvs, none, t)) (hr : resolve P.ebc σ t = some e) :
    body P ph R s σ = each (stepStore P ph) s.recvs (exec (compile e 0 1) R 0) σ := by
  unfold body
  rw [he]
  simp only [hr]

theorem body_op (P : Prog) (ph : Phrases) (R : Regs) (σ : State) (s : Stmt) (o : Op) (t : Tree) (e : Expr)
    (he : emit s = (s.recvs, some o, t)) (hr : resolve P.ebc σ t = some e)
    (hno : (o = .add ∨ o = .sub) → ∃ q a b, t = .bin q a b) :
    body P ph R s σ = each (stepOp P ph o) s.recvs (exec (compile e 0 1) R 0) σ := by
  unfold body
  rw [he]
  simp only
  cases o with
  | add =>
    obtain ⟨q, a, b, rfl⟩ := hno (Or.inl rfl)
    simp only [hr]
  | sub =>
    obtain ⟨q, a, b, rfl⟩ := hno (Or.inr rfl)
    simp only [hr]
  | mul => simp only [hr]
  | div => simp only [hr]

/-! ### the statement as a whole -/

theorem statement_core (P : Prog) (ph : Phrases) (R : Regs) (σ : State) (vals : Nat → ℚ) (s : Stmt)
    (h : Ready P ph σ vals s) (hnz : s.divisor vals ≠ some 0) :
    ∃ σ' ress, body P ph R s σ = some (σ', ress.any (·.raised)) ∧
      List.Forall₂ (fun r res => Good P ph (σ r.v) r (s.result vals r.v) res ∧ σ' r.v = res.item) s.recvs ress ∧
      ∀ w, w ∉ s.recvs.map (·.v) → σ' w = σ w := by
  have hw : ∀ r ∈ s.recvs, WFItem (σ r.v) := fun r hr => (h.recvs r hr).1
  have hup : s.updates → ∀ r ∈ s.recvs,
      WFItem (σ r.v) ∧ 0 ≤ (σ r.v).field.attr.scale ∧ Holds P.ebc (σ r.v) (vals r.v) :=
    fun hu r hr => ⟨(h.recvs r hr).1, (h.recvs r hr).2, h.holds hu r hr⟩
  have hread := fun x hx => opnd_readable h x hx
  cases s with
  | addTo x xs rs =>
    cases xs with
    | nil =>
      have := one_all P ph .add x σ vals rs h.distinct (hread x (by simp [Stmt.opnds])) (hup trivial)
        (fun v hv => h.apart v (by rw [hv]; rfl)) (fun a b => h.small x rfl a b)
      simp only [Stmt.recvs, Stmt.result, total, List.map_cons, List.map_nil, List.sum_cons, List.sum_nil, add_zero]
      exact this
    | cons y ys =>
      obtain ⟨e, e1, e2, e3⟩ := eval_tree P σ vals R (binaryList .add x (y :: ys))
        (binaryList_noDiv _ (by simp) _ _) (by rw [binaryList_leaves]; exact hread)
      rw [body_op P ph R σ _ .add _ e rfl e1 (fun _ => by
        obtain ⟨a, b, hab⟩ := binaryList_bin .add x y ys; exact ⟨_, a, b, hab⟩)]
      have := op_all P ph .add σ vals rs _ _ h.distinct ⟨e2, e3⟩ (hup trivial) (by simp)
      rw [binaryList_add] at this
      exact this
  | subFrom x xs rs =>
    cases xs with
    | nil =>
      have := one_all P ph .sub x σ vals rs h.distinct (hread x (by simp [Stmt.opnds])) (hup trivial)
        (fun v hv => h.apart v (by rw [hv]; rfl)) (fun a b => h.small x rfl a b)
      simp only [Stmt.recvs, Stmt.result, total, List.map_cons, List.map_nil, List.sum_cons, List.sum_nil, add_zero]
      exact this
    | cons y ys =>
      obtain ⟨e, e1, e2, e3⟩ := eval_tree P σ vals R (binaryList .add x (y :: ys))
        (binaryList_noDiv _ (by simp) _ _) (by rw [binaryList_leaves]; exact hread)
      rw [body_op P ph R σ _ .sub _ e rfl e1 (fun _ => by
        obtain ⟨a, b, hab⟩ := binaryList_bin .add x y ys; exact ⟨_, a, b, hab⟩)]
      have := op_all P ph .sub σ vals rs _ _ h.distinct ⟨e2, e3⟩ (hup trivial) (by simp)
      rw [binaryList_add] at this
      exact this
  | addGiving x xs y rs =>
    obtain ⟨e, e1, e2⟩ := giving_plain P ph R σ vals rs (binaryList .add x (xs ++ y.toList))
        (binaryList_noDiv _ (by simp) _ _) (by rw [binaryList_leaves]; exact hread) h.distinct hw
    rw [body_giving P ph R σ _ _ e rfl e1]
    rw [binaryList_add] at e2
    cases y with
    | none => simpa [Stmt.recvs, Stmt.result] using e2
    | some y =>
      have : total vals (x :: (xs ++ (some y).toList)) = total vals (x :: xs) + y.val vals := by
        simp [total, add_assoc]
      rw [this] at e2
      exact e2
  | subGiving x xs y rs =>
    obtain ⟨e, e1, e2⟩ := giving_plain P ph R σ vals rs (binaryList .sub y (x :: xs))
        (binaryList_noDiv _ (by simp) _ _) (by rw [binaryList_leaves]; exact hread) h.distinct hw
    rw [body_giving P ph R σ _ _ e rfl e1]
    rw [binaryList_sub] at e2
    exact e2
  | mulBy x rs =>
    obtain ⟨e, e1, e2, e3⟩ := eval_tree P σ vals R (.leaf x) trivial hread
    rw [body_op P ph R σ _ .mul _ e rfl e1 (by simp)]
    exact op_all P ph .mul σ vals rs _ _ h.distinct ⟨e2, e3⟩ (hup trivial) (by simp)
  | mulGiving x y rs =>
    obtain ⟨e, e1, e2⟩ := giving_plain P ph R σ vals rs (.bin .mul (.leaf x) (.leaf y))
        ⟨trivial, trivial⟩ hread h.distinct hw
    rw [body_giving P ph R σ _ _ e rfl e1]
    exact e2
  | divInto x rs =>
    obtain ⟨e, e1, e2, e3⟩ := eval_tree P σ vals R (.leaf x) trivial hread
    rw [body_op P ph R σ _ .div _ e rfl e1 (by simp)]
    exact op_all P ph .div σ vals rs _ _ h.distinct ⟨e2, e3⟩ (hup trivial)
      (fun _ => ⟨fun hz => hnz (congrArg some hz), h.decimals (by simp [Stmt.divisor])⟩)
  | divIntoGiving x y rs =>
    obtain ⟨e, e1, e2⟩ := giving_div P ph R σ vals rs (.leaf y) (.leaf x) trivial trivial
        (fun z hz => hread z (by simp_all [Tree.leaves, Stmt.opnds]))
        (fun z hz => hread z (by simp_all [Tree.leaves, Stmt.opnds]))
        (fun hz => hnz (congrArg some hz)) h.distinct hw (h.decimals (by simp [Stmt.divisor]))
    rw [body_giving P ph R σ _ _ e rfl e1]
    exact e2
  | divByGiving x y rs =>
    obtain ⟨e, e1, e2⟩ := giving_div P ph R σ vals rs (.leaf x) (.leaf y) trivial trivial
        (fun z hz => hread z (by simp_all [Tree.leaves, Stmt.opnds]))
        (fun z hz => hread z (by simp_all [Tree.leaves, Stmt.opnds]))
        (fun hz => hnz (congrArg some hz)) h.distinct hw (h.decimals (by simp [Stmt.divisor]))
    rw [body_giving P ph R σ _ _ e rfl e1]
    exact e2
  | compute rs t =>
    by_cases hd : ∃ x y, t = .bin .div x y
    · obtain ⟨x, y, rfl⟩ := hd
      obtain ⟨p1, p2⟩ := h.plain
      obtain ⟨e, e1, e2⟩ := giving_div P ph R σ vals rs x y p1 p2
          (fun z hz => hread z (by simp_all [Tree.leaves, Stmt.opnds]))
          (fun z hz => hread z (by simp_all [Tree.leaves, Stmt.opnds]))
          (fun hz => hnz (congrArg some hz)) h.distinct hw (h.decimals (by simp [Stmt.divisor]))
      rw [body_giving P ph R σ _ _ e rfl e1]
      exact e2
    · have hp : t.noDiv := by
        have := h.plain
        unfold Stmt.plain at this
        cases t with
        | leaf x => trivial
        | bin o x y => cases o <;> first | exact this | exact absurd ⟨_, _, rfl⟩ hd
      obtain ⟨e, e1, e2⟩ := giving_plain P ph R σ vals rs t hp hread h.distinct hw
      rw [body_giving P ph R σ _ _ e rfl e1]
      exact e2

theorem forall2_pick {α β : Type} {Q : α → β → Prop} {as : List α} {bs : List β}
    (h : List.Forall₂ Q as bs) (a : α) (ha : a ∈ as) : ∃ b ∈ bs, Q a b := by
  induction h with
  | nil => simp at ha
  | @cons x y xs ys hd ht ih =>
    rcases List.mem_cons.mp ha with rfl | ha
    · exact ⟨y, by simp, hd⟩
    · obtain ⟨b, h1, h2⟩ := ih ha
      exact ⟨b, by simp [h1], h2⟩

theorem forall2_none {α : Type} {Q : α → ItemRes → Prop} {as : List α} {bs : List ItemRes}
    (h : List.Forall₂ Q as bs) (hq : ∀ a ∈ as, ∀ b, Q a b → b.raised = false) :
    bs.any (·.raised) = false := by
  induction h with
  | nil => rfl
  | @cons x y xs ys hd ht ih =>
    rw [List.any_cons, ih (fun a ha => hq a (by simp [ha])), hq x (by simp) y hd]
    rfl

/-- C80: every receiver of an arithmetic statement - however many, of any usage - is given the
result computed from the numbers the items held when the statement began, rounded or truncated to
its own decimals, if it has room for it; it is left unchanged, and ON SIZE ERROR is taken, if the
result is beyond it and the statement has the phrase; without a phrase (and with `binary-truncate`) a zoned or packed receiver
takes the low-order digits; no other item changes; and NOT ON SIZE ERROR is taken if all results have room. -/
theorem C80_statement (P : Prog) (ph : Phrases) (R : Regs) (σ : State) (vals : Nat → ℚ) (s : Stmt)
    (h : Ready P ph σ vals s) (hnz : s.divisor vals ≠ some 0) :
    ∃ σ' b, run P ph R s σ = some (σ', b) ∧
      (∀ r ∈ s.recvs, ∀ u, Units (σ r.v) r (s.result vals r.v) u →
        (HasRoom P ph r (σ r.v) u →
          (σ' r.v).usage = (σ r.v).usage ∧ (σ' r.v).field.attr = (σ r.v).field.attr ∧
          HoldsUnits P.ebc (σ' r.v) u) ∧
        (Protected P ph r → Exceeds P (σ r.v) u →
          σ' r.v = σ r.v ∧ b = if ph.onSize then .onSize else .neither) ∧
        (Unguarded P ph r →
          ((σ r.v).usage = .display →
            HoldsUnits P.ebc (σ' r.v) (lowDigits (σ r.v).field.attr.haveSign (σ r.v).field.dsize u)) ∧
          ((σ r.v).usage = .packed →
            HoldsUnits P.ebc (σ' r.v) (lowDigits (σ r.v).field.attr.haveSign (σ r.v).field.attr.digits u)))) ∧
      ((∀ r ∈ s.recvs, ∃ u, Units (σ r.v) r (s.result vals r.v) u ∧ HasRoom P ph r (σ r.v) u) →
        b = if ph.notOnSize then .notOnSize else .neither) ∧
      (∀ w, w ∉ s.recvs.map (·.v) → σ' w = σ w) := by
  obtain ⟨σ', ress, hb, hf, hw⟩ := statement_core P ph R σ vals s h hnz
  refine ⟨σ', branch ph (ress.any (·.raised)), by simp [run, hb], ?_, ?_, hw⟩
  · intro r hr u hu
    obtain ⟨res, hres, hgood, hit⟩ : ∃ res ∈ ress, Good P ph (σ r.v) r (s.result vals r.v) res ∧ σ' r.v = res.item :=
      forall2_pick hf r hr
    obtain ⟨g1, g2, g3⟩ := hgood u hu
    refine ⟨?_, ?_, fun hg => by rw [hit]; exact g3 hg⟩
    · intro hroom
      obtain ⟨-, a, b, c⟩ := g1 hroom
      rw [hit]
      exact ⟨a, b, c⟩
    · intro hp he
      have := g2 hp he
      constructor
      · rw [hit, this]
      · have hraise : ress.any (·.raised) = true := by
          rw [List.any_eq_true]
          exact ⟨res, hres, by rw [this]⟩
        rw [hraise]
        unfold branch
        cases ph.onSize <;> simp
  · intro hall
    have hnone : ress.any (·.raised) = false := by
      apply forall2_none hf
      intro r hr res hres
      obtain ⟨u, hu, hrm⟩ := hall r hr
      exact ((hres.1 u hu).1 hrm).1
    rw [hnone]
    unfold branch
    cases ph.onSize <;> cases ph.notOnSize <;> simp

/-! ### division by zero -/

theorem each_keep {D : Type} (step : D → State → Recv → Option (ItemRes × D)) (rs : List Recv) (d : D)
    (σ : State) (h : ∀ r ∈ rs, step d σ r = some (⟨σ r.v, true, true⟩, d)) (hne : rs ≠ []) :
    each step rs d σ = some (σ, true) := by
  have hput : ∀ r : Recv, put σ r.v (σ r.v) = σ := by
    intro r; funext w; unfold put; split <;> simp_all
  induction rs with
  | nil => exact absurd rfl hne
  | cons r rs ih =>
    simp only [each, h r (by simp), hput]
    cases rs with
    | nil => simp [each]
    | cons a as =>
      rw [ih (fun r' hr' => h r' (by simp [hr'])) (by simp)]
      simp

theorem giving_zero (P : Prog) (ph : Phrases) (R : Regs) (σ : State) (vals : Nat → ℚ) (rs : List Recv)
    (x y : Tree) (hx : x.noDiv) (hy : y.noDiv) (hlx : ∀ z ∈ x.leaves, Readable P.ebc σ vals z)
    (hly : ∀ z ∈ y.leaves, Readable P.ebc σ vals z) (hz : y.val vals = 0) (hne : rs ≠ []) :
    ∃ e, resolve P.ebc σ (.bin .div x y) = some e ∧
      each (stepStore P ph) rs (exec (compile e 0 1) R 0) σ = some (σ, true) := by
  obtain ⟨a, a1, a2, a3, a4⟩ := resolve_value P.ebc σ vals x hx hlx
  obtain ⟨b, b1, b2, b3, b4⟩ := resolve_value P.ebc σ vals y hy hly
  obtain ⟨va, sa⟩ := dec_value a a2 a3
  obtain ⟨vb, sb⟩ := dec_value b b2 b3
  refine ⟨.bin .div a b, by simp [resolve, a1, b1], ?_⟩
  rw [C46_registers]
  have hn := C07_div_by_zero a.dec b.dec (nan_of_nonneg _ sa) (nan_of_nonneg _ sb) (by rw [vb, b4, hz])
  apply each_keep _ _ _ _ _ hne
  intro r _
  unfold stepStore
  simp only [Expr.dec, opEffect]
  rw [C04_no_value P.ebc _ hn.2]

/-- C80: a division by zero leaves every item unchanged, takes the ON SIZE ERROR phrase if there is
one, and never takes NOT ON SIZE ERROR. -/
theorem C80_zero_divide (P : Prog) (ph : Phrases) (R : Regs) (σ : State) (vals : Nat → ℚ) (s : Stmt)
    (h : Ready P ph σ vals s) (hz : s.divisor vals = some 0) (hne : s.recvs ≠ []) :
    run P ph R s σ = some (σ, if ph.onSize then .onSize else .neither) := by
  have hread := fun x hx => opnd_readable h x hx
  have key : body P ph R s σ = some (σ, true) := by
    cases s with
    | divInto x rs =>
      obtain ⟨e, e1, e2, e3⟩ := eval_tree P σ vals R (.leaf x) trivial hread
      rw [body_op P ph R σ _ .div _ e rfl e1 (by simp)]
      apply each_keep _ _ _ _ _ hne
      intro r hr
      have hr' := h.recvs r hr
      obtain ⟨t, ht, et, st⟩ := load_value P.ebc σ vals (.var r.v) ⟨hr'.1, h.holds trivial r hr, hr'.2⟩
      simp only [stepOp, ht, opEffect]
      have hn := C07_div_by_zero t _ (nan_of_nonneg _ st) (nan_of_nonneg _ e3)
        (by rw [e2]; exact Option.some.inj hz)
      rw [C04_no_value P.ebc _ hn.2]
    | divIntoGiving x y rs =>
      obtain ⟨e, e1, e2⟩ := giving_zero P ph R σ vals rs (.leaf y) (.leaf x) trivial trivial
        (fun z hz => hread z (by simp_all [Tree.leaves, Stmt.opnds]))
        (fun z hz => hread z (by simp_all [Tree.leaves, Stmt.opnds])) (Option.some.inj hz) hne
      rw [body_giving P ph R σ _ _ e rfl e1]
      exact e2
    | divByGiving x y rs =>
      obtain ⟨e, e1, e2⟩ := giving_zero P ph R σ vals rs (.leaf x) (.leaf y) trivial trivial
        (fun z hz => hread z (by simp_all [Tree.leaves, Stmt.opnds]))
        (fun z hz => hread z (by simp_all [Tree.leaves, Stmt.opnds])) (Option.some.inj hz) hne
      rw [body_giving P ph R σ _ _ e rfl e1]
      exact e2
    | compute rs t =>
      obtain ⟨x, y, rfl⟩ : ∃ x y, t = .bin .div x y := by
        cases t with
        | leaf x => simp [Stmt.divisor] at hz
        | bin o x y => cases o <;> first | exact ⟨_, _, rfl⟩ | simp [Stmt.divisor] at hz
      obtain ⟨p1, p2⟩ := h.plain
      obtain ⟨e, e1, e2⟩ := giving_zero P ph R σ vals rs x y p1 p2
        (fun z hz => hread z (by simp_all [Tree.leaves, Stmt.opnds]))
        (fun z hz => hread z (by simp_all [Tree.leaves, Stmt.opnds])) (Option.some.inj hz) hne
      rw [body_giving P ph R σ _ _ e rfl e1]
      exact e2
    | _ => simp [Stmt.divisor] at hz
  simp only [run, key, Option.map_some, branch]
  cases ph.onSize <;> simp

/-! ### examples and findings -/

/-- A zoned unsigned item of two digits. -/
def two (a b : Nat) : Item := ⟨.display, ⟨{ digits := 2 }, [48 + a, 48 + b]⟩⟩

/-- A COMP-5 item of two bytes. -/
def half (n : Nat) : Item := ⟨.binary, ⟨{ digits := 4 }, leBytes 2 n⟩⟩

theorem two_holds (a b : Nat) (ha : a ≤ 9) (hb : b ≤ 9) :
    WFItem (two a b) ∧ Holds false (two a b) (10 * a + b) := by
  refine ⟨⟨by simp [two], by simp [two]⟩, ((10 * a + b : Nat) : Int), ⟨false, [a, b], ?_, by simp, ?_, ?_⟩, by simp [two]⟩
  · simp [two, zonedImage]
  · intro d hd; simp only [List.mem_cons, List.not_mem_nil, or_false] at hd; omega
  · simp [two, digitsVal]; omega

/-- The state of the examples: A = 10, B = 20, C = 05, D = 90, E = 00. -/
def sample : State
  | 0 => two 1 0 | 1 => two 2 0 | 2 => two 0 5 | 3 => two 9 0 | _ => two 0 0

/-- The numbers in `sample`. -/
def sampleVals : Nat → ℚ
  | 0 => 10 | 1 => 20 | 2 => 5 | 3 => 90 | _ => 0

theorem sample_holds (v : Nat) : WFItem (sample v) ∧ Holds false (sample v) (sampleVals v) ∧
    (sample v).field.attr.scale = 0 := by
  match v with
  | 0 => have := two_holds 1 0 (by omega) (by omega); exact ⟨this.1, by simpa [sampleVals, sample] using this.2, rfl⟩
  | 1 => have := two_holds 2 0 (by omega) (by omega); exact ⟨this.1, by norm_num at this; simpa [sampleVals, sample] using this.2, rfl⟩
  | 2 => have := two_holds 0 5 (by omega) (by omega); exact ⟨this.1, by simpa [sampleVals, sample] using this.2, rfl⟩
  | 3 => have := two_holds 9 0 (by omega) (by omega); exact ⟨this.1, by norm_num at this; simpa [sampleVals, sample] using this.2, rfl⟩
  | n + 4 => have := two_holds 0 0 (by omega) (by omega); exact ⟨this.1, by simpa [sampleVals, sample] using this.2, rfl⟩

/-- Non-vacuity: `ADD A B TO C D ON SIZE ERROR ... NOT ON SIZE ERROR ...` with the items of
`sample` is `Ready`; the results are 35 and 120, so C becomes 35, D stays, and ON SIZE ERROR is
taken. -/
example :
    let P : Prog := { native := fun _ => false }
    let ph : Phrases := ⟨true, true⟩
    let s : Stmt := .addTo (.var 0) [.var 1] [⟨2, false⟩, ⟨3, false⟩]
    Ready P ph sample sampleVals s ∧ s.divisor sampleVals ≠ some 0 ∧
      s.result sampleVals 2 = 35 ∧ s.result sampleVals 3 = 120 ∧
      (run P ph (fun _ => ⟨7, 3⟩) s sample).map (fun q => (q.1 2, q.1 3, q.1 0, q.2)) =
        some (two 3 5, two 9 0, two 1 0, .onSize) := by
  refine ⟨⟨?_, ?_, ?_, ?_, by decide, trivial, ?_, ?_, ?_⟩, by simp [Stmt.divisor], ?_, ?_, by decide +kernel⟩
  · intro v _
    have := sample_holds v
    exact ⟨this.1, this.2.1, by rw [this.2.2]⟩
  · intro d hd; simp [Stmt.opnds] at hd
  · intro r _
    have := sample_holds r.v
    exact ⟨this.1, by rw [this.2.2]⟩
  · intro _ r _
    exact (sample_holds r.v).2.1
  · intro hd; simp [Stmt.divisor] at hd
  · intro v hv; simp [Stmt.single] at hv
  · intro x hx; simp [Stmt.single] at hx
  · norm_num [Stmt.result, total, sampleVals, Opnd.val]
  · norm_num [Stmt.result, total, sampleVals, Opnd.val]

/-- Non-vacuity of `C80_zero_divide`: `DIVIDE E INTO A C` with E = 0. -/
example :
    let P : Prog := { native := fun _ => false }
    let s : Stmt := .divInto (.var 4) [⟨0, false⟩, ⟨2, true⟩]
    Ready P ⟨true, false⟩ sample sampleVals s ∧ s.divisor sampleVals = some 0 := by
  refine ⟨⟨?_, ?_, ?_, ?_, by decide, trivial, ?_, ?_, ?_⟩, by simp [Stmt.divisor, Opnd.val, sampleVals]⟩
  · intro v _
    have := sample_holds v
    exact ⟨this.1, this.2.1, by rw [this.2.2]⟩
  · intro d hd; simp [Stmt.opnds] at hd
  · intro r _
    have := sample_holds r.v
    exact ⟨this.1, by rw [this.2.2]⟩
  · intro _ r _
    exact (sample_holds r.v).2.1
  · intro _ r _; rw [(sample_holds r.v).2.2]; norm_num
  · intro v hv; simp [Stmt.single] at hv
  · intro x hx; simp [Stmt.single] at hx

/-- Finding (C80): with a single operand ADD reads it anew for every receiver: `ADD A TO A B` with
A = 1 and B = 0 doubles A and then adds the doubled A to B, so that B is 2 and not 1.  With two
operands (`ADD A 0 TO A B`) the sum is taken once and B is 1. -/
theorem C80_operand_read_again :
    let P : Prog := { native := fun _ => false }
    let σ : State := fun v => if v = 0 then two 0 1 else two 0 0
    let rs : List Recv := [⟨0, false⟩, ⟨1, false⟩]
    (run P {} (fun _ => ⟨0, 0⟩) (.addTo (.var 0) [] rs) σ).map (fun q => (q.1 0, q.1 1)) =
        some (two 0 2, two 0 2) ∧
      (run P {} (fun _ => ⟨0, 0⟩) (.addTo (.var 0) [.lit ⟨0, 0⟩] rs) σ).map (fun q => (q.1 0, q.1 1)) =
        some (two 0 2, two 0 1) := by
  decide +kernel

/-- Finding (C80): `ADD 1 TO N NOT ON SIZE ERROR ...` for an unsigned COMP-5 item of two bytes
holding 65535: the item wraps around to 0 and the NOT ON SIZE ERROR statements are executed. -/
theorem C80_native_wraps :
    let P : Prog := { native := fun _ => true }
    (run P ⟨false, true⟩ (fun _ => ⟨0, 0⟩) (.addTo (.lit ⟨1, 0⟩) [] [⟨0, false⟩]) (fun _ => half 65535)).map
      (fun q => (q.1 0, q.2)) = some (half 0, .notOnSize) := by
  decide +kernel

/-- Finding (C80): what a COMP-5 item can take depends on the phrases: COMPUTE of 12345 into PIC
9(4) COMP-5 is stored without them, and is a size error with ON SIZE ERROR (default
`binary-truncate`). -/
theorem C80_native_digits :
    let P : Prog := { native := fun _ => true }
    (run P {} (fun _ => ⟨0, 0⟩) (.compute [⟨0, false⟩] (.leaf (.lit ⟨12345, 0⟩))) (fun _ => half 7)).map
        (fun q => (q.1 0, q.2)) = some (half 12345, .neither) ∧
      (run P ⟨true, false⟩ (fun _ => ⟨0, 0⟩) (.compute [⟨0, false⟩] (.leaf (.lit ⟨12345, 0⟩))) (fun _ => half 7)).map
        (fun q => (q.1 0, q.2)) = some (half 7, .onSize) := by
  decide +kernel

end Cob.Arith
