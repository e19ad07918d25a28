import Verif.Num.ArithSpec
import Verif.Num.ComputeProps
import Verif.Num.CondProps
import Mathlib.Data.List.Forall2
/-
Property C80: the arithmetic statements.
-/
namespace Cob.Arith
open Dec

/-! ### the loop over the receivers -/

theorem put_same (σ : State) (v : Nat) (it : Item) : put σ v it v = it := by simp [put]

theorem put_other (σ : State) (v w : Nat) (it : Item) (h : w ≠ v) : put σ v it w = σ w := by
  simp [put, h]

theorem each_spec {D : Type} (step : D → State → Recv → Option (ItemRes × D)) (Inv : D → Prop)
    (Good : Recv → ItemRes → Prop) (σ0 : State) (ops : List Nat) (rs : List Recv)
    (H : ∀ r ∈ rs, ∀ d σ, Inv d → σ r.v = σ0 r.v → (∀ o ∈ ops, σ o = σ0 o) →
      ∃ res d', step d σ r = some (res, d') ∧ Inv d' ∧ Good r res)
    (hnd : (rs.map (·.v)).Nodup) (hops : ∀ o ∈ ops, o ∉ (rs.dropLast).map (·.v))
    (d : D) (hd : Inv d) (σ : State) (hrs : ∀ r ∈ rs, σ r.v = σ0 r.v)
    (hos : rs ≠ [] → ∀ o ∈ ops, σ o = σ0 o) :
    ∃ σ' ress, each step rs d σ = some (σ', ress.any (·.raised)) ∧
      List.Forall₂ (fun r res => Good r res ∧ σ' r.v = res.item) rs ress ∧
      ∀ w, w ∉ rs.map (·.v) → σ' w = σ w := by
  induction rs generalizing d σ with
  | nil => exact ⟨σ, [], rfl, .nil, fun _ _ => rfl⟩
  | cons r rs ih =>
    obtain ⟨res, d', hstep, hinv, hgood⟩ := H r (by simp) d σ hd (hrs r (by simp)) (hos (by simp))
    simp only [List.map_cons, List.nodup_cons] at hnd
    have hne : ∀ r' ∈ rs, r'.v ≠ r.v := fun r' hr' e =>
      hnd.1 (by rw [← e]; exact List.mem_map_of_mem hr')
    obtain ⟨σ', ress, he, hf, hw⟩ := ih (fun r' hr' => H r' (by simp [hr'])) hnd.2
      (by
        intro o ho hm
        apply hops o ho
        cases rs with
        | nil => simp at hm
        | cons a as => simp only [List.dropLast_cons_cons, List.map_cons, List.mem_cons]; exact Or.inr hm)
      d' hinv (put σ r.v res.item)
      (by
        intro r' hr'
        rw [put_other _ _ _ _ (hne r' hr')]
        exact hrs r' (by simp [hr']))
      (by
        intro hnil o ho
        have : o ≠ r.v := by
          intro e
          apply hops o ho
          cases rs with
          | nil => exact absurd rfl hnil
          | cons a as => simp [e]
        rw [put_other _ _ _ _ this]
        exact hos (by simp) o ho)
    refine ⟨σ', res :: ress, ?_, .cons ⟨hgood, ?_⟩ hf, ?_⟩
    · simp only [each, hstep, he, Option.map_some, List.any_cons]
    · rw [hw r.v hnd.1, put_same]
    · intro w hwm
      simp only [List.map_cons, List.mem_cons, not_or] at hwm
      rw [hw w hwm.2, put_other _ _ _ _ hwm.1]

/-! ### loading operands -/

/-- An operand that can be read: an item holding its number, or a literal, without `P`. -/
def Readable (ebc : Bool) (σ : State) (vals : Nat → ℚ) : Opnd → Prop
  | .lit d => 0 ≤ d.scale
  | .var v => WFItem (σ v) ∧ Holds ebc (σ v) (vals v) ∧ 0 ≤ (σ v).field.attr.scale

theorem scale_of_fits (it : Item) (h : fitsInt (.item it) = true) : it.field.attr.scale ≤ 0 := by
  unfold fitsInt at h
  simp only at h
  split at h <;> simp only [decide_eq_true_eq] at h <;> omega

theorem load_value (ebc : Bool) (σ : State) (vals : Nat → ℚ) (x : Opnd)
    (h : Readable ebc σ vals x) :
    ∃ d, load ebc σ x = some d ∧ d.toRat = x.val vals ∧ 0 ≤ d.scale := by
  cases x with
  | lit d => exact ⟨d, rfl, rfl, h⟩
  | var v =>
    obtain ⟨hw, hh, hs⟩ := h
    unfold load
    simp only
    by_cases hf : fitsInt (.item (σ v)) = true
    · rw [if_pos hf]
      refine ⟨_, rfl, ?_, le_refl _⟩
      have h0 : (σ v).field.attr.scale = 0 := le_antisymm (scale_of_fits _ hf) hs
      obtain ⟨e1, e2, e3⟩ := operandInt_value ebc (.item (σ v)) (vals v) hf ⟨hw, hh⟩ (Or.inl h0)
      simp only [operandInt] at e1 e2 e3
      obtain ⟨u, hu, hv⟩ := hh
      have hvu : vals v = (u : ℚ) := by rw [hv, h0]; simp
      have hou : outputInteger ebc (σ v) = u := by
        have : ((outputInteger ebc (σ v) : Int) : ℚ) = (u : ℚ) := by rw [e1, hvu]
        exact_mod_cast this
      have key : (if (σ v).field.attr.haveSign = true then toCInt (outputInteger ebc (σ v))
          else outputInteger ebc (σ v) % 4294967296) = u := by
        cases hub : isUnsignedBinary (.item (σ v)) with
        | true =>
          have := e2 hub
          have hns : (σ v).field.attr.haveSign = false := by
            simp only [isUnsignedBinary, Bool.and_eq_true, Bool.not_eq_true'] at hub
            exact hub.2
          rw [hns]
          simp only [Bool.false_eq_true, if_false]
          rw [hou] at this ⊢
          omega
        | false =>
          have := e3 hub
          by_cases hsn : (σ v).field.attr.haveSign = true
          · rw [if_pos hsn, toCInt_id _ this.1 this.2, hou]
          · rw [if_neg hsn]
            have := unsigned_nonneg ebc (σ v) u hu (by simpa using hsn)
            omega
      rw [key]
      simp [Dec.toRat, Opnd.val, hvu]
    · rw [if_neg hf]
      obtain ⟨t, ht, et, st⟩ := holds_read ebc (σ v) hw (vals v) hh
      exact ⟨t, by rw [ht], et, by rw [st]; exact hs⟩

theorem readOpnd_value (ebc : Bool) (σ : State) (vals : Nat → ℚ) (x : Opnd)
    (h : Readable ebc σ vals x) :
    ∃ d, readOpnd ebc σ x = some d ∧ d.toRat = x.val vals ∧ 0 ≤ d.scale := by
  cases x with
  | lit d => exact ⟨d, rfl, rfl, h⟩
  | var v =>
    obtain ⟨hw, hh, hs⟩ := h
    obtain ⟨t, ht, et, st⟩ := holds_read ebc (σ v) hw (vals v) hh
    exact ⟨t, by simp only [readOpnd, ht], et, by rw [st]; exact hs⟩

theorem resolve_value (ebc : Bool) (σ : State) (vals : Nat → ℚ) (t : Tree) (hd : t.noDiv)
    (h : ∀ x ∈ t.leaves, Readable ebc σ vals x) :
    ∃ e, resolve ebc σ t = some e ∧ e.noDiv ∧ e.plain ∧ e.value = t.val vals := by
  induction t with
  | leaf x =>
    obtain ⟨d, h1, h2, h3⟩ := load_value ebc σ vals x (h x (by simp [Tree.leaves]))
    exact ⟨.leaf d, by simp [resolve, h1], trivial, h3, h2⟩
  | bin o x y ihx ihy =>
    have hh : x.noDiv ∧ y.noDiv ∧ o ≠ .div := by
      cases o <;> simp_all [Tree.noDiv]
    obtain ⟨a, a1, a2, a3, a4⟩ := ihx hh.1 (fun z hz => h z (by simp [Tree.leaves, hz]))
    obtain ⟨b, b1, b2, b3, b4⟩ := ihy hh.2.1 (fun z hz => h z (by simp [Tree.leaves, hz]))
    refine ⟨.bin o a b, by simp [resolve, a1, b1], ?_, ⟨a3, b3⟩, ?_⟩
    · cases o <;> simp_all [Expr.noDiv]
    · cases o <;> simp_all [Expr.value, Tree.val]

/-! ### the lists of operands -/

theorem foldl_add (vals : Nat → ℚ) (xs : List Opnd) (t : Tree) :
    (xs.foldl (fun e y => Tree.bin .add e (.leaf y)) t).val vals = t.val vals + total vals xs := by
  induction xs generalizing t with
  | nil => simp [total]
  | cons x xs ih =>
    rw [List.foldl_cons, ih]
    simp only [Tree.val, total, List.map_cons, List.sum_cons]
    ring

theorem foldl_sub (vals : Nat → ℚ) (xs : List Opnd) (t : Tree) :
    (xs.foldl (fun e y => Tree.bin .sub e (.leaf y)) t).val vals = t.val vals - total vals xs := by
  induction xs generalizing t with
  | nil => simp [total]
  | cons x xs ih =>
    rw [List.foldl_cons, ih]
    simp only [Tree.val, total, List.map_cons, List.sum_cons]
    ring

theorem foldl_leaves (o : Op) (xs : List Opnd) (t : Tree) :
    (xs.foldl (fun e y => Tree.bin o e (.leaf y)) t).leaves = t.leaves ++ xs := by
  induction xs generalizing t with
  | nil => simp
  | cons x xs ih => rw [List.foldl_cons, ih]; simp [Tree.leaves]

theorem foldl_noDiv (o : Op) (ho : o ≠ .div) (xs : List Opnd) (t : Tree) (ht : t.noDiv) :
    (xs.foldl (fun e y => Tree.bin o e (.leaf y)) t).noDiv := by
  induction xs generalizing t with
  | nil => exact ht
  | cons x xs ih =>
    rw [List.foldl_cons]
    apply ih
    cases o <;> simp_all [Tree.noDiv]

theorem binaryList_leaves (o : Op) (x : Opnd) (xs : List Opnd) :
    (binaryList o x xs).leaves = x :: xs := by
  unfold binaryList; rw [foldl_leaves]; rfl

theorem binaryList_noDiv (o : Op) (ho : o ≠ .div) (x : Opnd) (xs : List Opnd) :
    (binaryList o x xs).noDiv := foldl_noDiv o ho xs _ trivial

theorem binaryList_add (vals : Nat → ℚ) (x : Opnd) (xs : List Opnd) :
    (binaryList .add x xs).val vals = total vals (x :: xs) := by
  unfold binaryList; rw [foldl_add]; simp [Tree.val, total]

theorem binaryList_sub (vals : Nat → ℚ) (x : Opnd) (xs : List Opnd) :
    (binaryList .sub x xs).val vals = x.val vals - total vals xs := by
  unfold binaryList; rw [foldl_sub]; simp [Tree.val]

/-! ### one receiver -/

/-- What must have become of receiver `r`, laid out and filled as `it` before, for the result
`x`. -/
def Good (P : Prog) (ph : Phrases) (it : Item) (r : Recv) (x : ℚ) (res : ItemRes) : Prop :=
  ∀ u, Units it r x u →
    (HasRoom P ph r it u → res.raised = false ∧ res.item.usage = it.usage ∧
      res.item.field.attr = it.field.attr ∧ HoldsUnits P.ebc res.item u) ∧
    (Protected P ph r → Exceeds P it u → res = ⟨it, true, true⟩) ∧
    (Unguarded P ph r →
      (it.usage = .display → HoldsUnits P.ebc res.item (lowDigits it.field.attr.haveSign it.field.dsize u)) ∧
      (it.usage = .packed → HoldsUnits P.ebc res.item (lowDigits it.field.attr.haveSign it.field.attr.digits u)))

theorem option_round (P : Prog) (ph : Phrases) (r : Recv) : (storeOption P ph r).round = r.rounded := by
  unfold storeOption; split <;> [rfl; split <;> [rfl; split <;> rfl]]

theorem option_binTrunc (P : Prog) (ph : Phrases) (r : Recv) :
    (storeOption P ph r).binTrunc = P.binTrunc := by
  unfold storeOption; split <;> [rfl; split <;> [rfl; split <;> rfl]]

theorem option_keep (P : Prog) (ph : Phrases) (r : Recv) (h : Protected P ph r) :
    (storeOption P ph r).keep = true := by
  unfold storeOption
  rcases h with h | ⟨h1, h2, h3⟩
  · simp [h]
  · simp [h1, h2, h3]

theorem wanted_units (P : Prog) (ph : Phrases) (it : Item) (r : Recv) (x : ℚ) (u : Int) :
    Wanted (storeOption P ph r) it x u ↔ Units it r x u := by
  unfold Wanted Units; rw [option_round]

theorem fits_room (P : Prog) (ph : Phrases) (it : Item) (r : Recv) (u : Int)
    (h : HasRoom P ph r it u) : Fits it (storeOption P ph r) u := by
  obtain ⟨h1, h2⟩ := h
  refine ⟨h1, ?_⟩
  cases hu : it.usage <;> simp only [hu] at h2 ⊢
  · exact h2
  · exact h2
  · obtain ⟨h2, h3⟩ := h2
    constructor
    · unfold binFits
      by_cases hs : it.field.attr.haveSign = true
      · simp only [hs, if_true] at h2 ⊢; exact h2
      · simp only [hs, if_false, Nat.sub_zero, Bool.false_eq_true] at h2 ⊢
        exact ⟨h1.resolve_left hs, h2⟩
    · intro ho hb
      rw [option_binTrunc] at hb
      apply h3 hb
      by_cases hn : P.native r.v = false
      · exact Or.inl hn
      · right
        simp only [Bool.not_eq_false] at hn
        simp only [storeOption, hn, if_true] at ho
        simpa using ho

theorem big_exceeds (P : Prog) (ph : Phrases) (it : Item) (r : Recv) (u : Int)
    (h : Exceeds P it u) : TooBig it (storeOption P ph r) u := by
  unfold Exceeds at h
  unfold TooBig
  rw [option_binTrunc]
  exact h

theorem store_usage (ebc : Bool) (d : Dec) (it : Item) (opt : StoreOpt) :
    (storeItem ebc d it opt).item.usage = it.usage := by
  unfold storeItem; split <;> rfl

/-- Storing without ON SIZE ERROR into a zoned or packed item keeps the low-order digits. -/
theorem store_low (ebc : Bool) (d : Dec) (hd : d.isNaN = false) (it : Item) (hw : WFItem it) (opt : StoreOpt)
    (hk : opt.keep = false) (u : Int) (hu : Wanted opt it d.toRat u) :
    (it.usage = .display → HoldsUnits ebc (storeItem ebc d it opt).item (lowDigits it.field.attr.haveSign it.field.dsize u)) ∧
    (it.usage = .packed → HoldsUnits ebc (storeItem ebc d it opt).item (lowDigits it.field.attr.haveSign it.field.attr.digits u)) := by
  have hv : (d.toFieldScale it.field.attr.scale opt.round).value = u :=
    wanted_unique opt it _ _ _ (wanted_toFieldScale opt it d) hu
  obtain ⟨us, f⟩ := it
  simp only [storeItem, hd, Bool.false_eq_true, if_false]
  simp only at hv
  rw [hv]
  constructor
  · intro h; subst h
    have hdpos : 0 < f.dsize := by
      have := hw.2
      unfold Field.dsize
      split <;> simp_all <;> omega
    simp only [C01_store_image ebc u f hw opt (Or.inl hk)]
    unfold HoldsUnits
    simp only
    refine ⟨decide (u < 0), fixedDigits f.dsize u.natAbs, rfl, ?_, fixedDigits_le _ _, ?_⟩
    · intro h
      have := fixedDigits_length f.dsize u.natAbs
      rw [h] at this; simp at this; omega
    · rw [digitsVal_fixedDigits]
      unfold lowDigits
      by_cases h : u < 0 <;> cases f.attr.haveSign <;> simp [h]
  · intro h; subst h
    simp only [C02_store_image u f hw opt (Or.inl hk)]
    unfold HoldsUnits
    simp only
    refine ⟨decide (u < 0), u.natAbs % 10 ^ f.attr.digits, Nat.mod_lt _ (by positivity), ?_, ?_⟩
    · unfold packedImage; simp [fixedDigits_mod]
    · unfold lowDigits
      by_cases h : u < 0 <;> cases f.attr.haveSign <;> simp [h]

theorem option_unguarded (P : Prog) (ph : Phrases) (r : Recv) (h : Unguarded P ph r) :
    (storeOption P ph r).keep = false ∧ (storeOption P ph r).trunc = true := by
  obtain ⟨h1, h2, h3, h4⟩ := h
  simp [storeOption, h1, h2, h3, h4]

theorem good_of_receives (P : Prog) (ph : Phrases) (it : Item) (hw : WFItem it) (r : Recv) (x : ℚ) (d : Dec)
    (hd : ∀ u, Wanted (storeOption P ph r) it x u → Wanted (storeOption P ph r) it d.toRat u ∧ d.isNaN = false)
    (h : Receives P.ebc (it, storeOption P ph r) x (storeItem P.ebc d it (storeOption P ph r))) :
    Good P ph it r x (storeItem P.ebc d it (storeOption P ph r)) := by
  intro u hu
  have hu' := (wanted_units P ph it r x u).mpr hu
  obtain ⟨h1, h2⟩ := h u hu'
  refine ⟨fun hr => ?_, fun ho he => h2 (option_keep P ph r ho) (big_exceeds P ph it r u he), fun hg => ?_⟩
  · obtain ⟨a, b, c⟩ := h1 (fits_room P ph it r u hr)
    exact ⟨a, store_usage .., b, c⟩
  · exact store_low P.ebc d (hd u hu').2 it hw _ (option_unguarded P ph r hg).1 u (hd u hu').1

theorem good_store (P : Prog) (ph : Phrases) (it : Item) (hw : WFItem it) (r : Recv) (x : ℚ) (d : Dec)
    (hn : d.isNaN = false) (hx : d.toRat = x) :
    Good P ph it r x (storeItem P.ebc d it (storeOption P ph r)) := by
  subst hx
  exact good_of_receives P ph it hw r _ d (fun u hu => ⟨hu, hn⟩) (store_receives P.ebc d hn (it, storeOption P ph r) hw)

theorem good_div (P : Prog) (ph : Phrases) (it : Item) (hw : WFItem it) (r : Recv) (d1 d2 : Dec)
    (h1 : d1.isNaN = false) (h2 : d2.isNaN = false) (hz : d2.toRat ≠ 0)
    (hs : it.field.attr.scale ≤ 36) :
    Good P ph it r (d1.toRat / d2.toRat) (storeItem P.ebc (d1.div d2).1 it (storeOption P ph r)) := by
  apply good_of_receives _ _ _ hw _ _ _ (fun u hu => wanted_div _ it d1 d2 h1 h2 hz hs u hu)
  intro u hu
  obtain ⟨w1, w2⟩ := wanted_div _ it d1 d2 h1 h2 hz hs u hu
  exact store_receives P.ebc _ w2 (it, storeOption P ph r) hw u w1

end Cob.Arith
