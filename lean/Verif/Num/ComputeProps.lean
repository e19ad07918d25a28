import Verif.Num.Compute
import Verif.Num.ItemProps
/-
Property C46: COMPUTE and multi-receiver arithmetic statements compute the value of the
expression.
-/
namespace Cob
open Dec

/-! ### specification -/

/-- The number an expression denotes (division is real division). -/
def Expr.value : Expr → ℚ
  | .leaf d => d.toRat
  | .bin .add x y => x.value + y.value
  | .bin .sub x y => x.value - y.value
  | .bin .mul x y => x.value * y.value
  | .bin .div x y => x.value / y.value

/-- No division in the expression. -/
def Expr.noDiv : Expr → Prop
  | .leaf _ => True
  | .bin .div _ _ => False
  | .bin _ x y => x.noDiv ∧ y.noDiv

/-- All operands have a non-negative scale (no `P` in their PICTURE). -/
def Expr.plain : Expr → Prop
  | .leaf d => 0 ≤ d.scale
  | .bin _ x y => x.plain ∧ y.plain

/-- The decimal the operations yield when nested directly. -/
def Expr.dec : Expr → Dec
  | .leaf d => d
  | .bin o x y => (opEffect o x.dec y.dec).1

/-! ### the register code computes the nested operations -/

theorem exec_append (a b : List Instr) (R : Regs) : exec (a ++ b) R = exec b (exec a R) := by
  induction a generalizing R with
  | nil => rfl
  | cons i a ih => cases i <;> simp [exec, ih]

/-- The code compiled for register `r` (with free registers from `n > r`) leaves in `r` the value
of the expression, and does not disturb the other registers below `n`. -/
theorem exec_compile (e : Expr) (r n : Nat) (h : r < n) (R : Regs) :
    exec (compile e r n) R r = e.dec ∧
      ∀ i, i < n → i ≠ r → exec (compile e r n) R i = R i := by
  induction e generalizing r n R with
  | leaf d =>
    simp only [compile, exec, Regs.put, Expr.dec]
    refine ⟨by simp, ?_⟩
    intro i _ hi
    simp [hi]
  | bin o x y ihx ihy =>
    simp only [compile, exec_append]
    set R1 := exec (compile x r (n + 1)) R with hR1
    obtain ⟨hx1, hx2⟩ := ihx r (n + 1) (by omega) R
    set R2 := exec (compile y n (n + 1)) R1 with hR2
    obtain ⟨hy1, hy2⟩ := ihy n (n + 1) (by omega) R1
    have hr : R2 r = x.dec := by rw [hR2, hy2 r (by omega) (by omega)]; exact hx1
    have hn : R2 n = y.dec := hy1
    simp only [exec, Regs.put]
    refine ⟨?_, ?_⟩
    · simp [hr, hn, Expr.dec]
    · intro i hi hne
      have hin : i ≠ n := by omega
      simp only [hne, hin, if_false]
      rw [hR2, hy2 i (by omega) hin, hR1, hx2 i (by omega) hne]

theorem align_nonneg (a b : Dec) (ha : 0 ≤ a.scale) (hb : 0 ≤ b.scale) :
    0 ≤ (Dec.align a b).1.scale := by
  unfold Dec.align
  split
  · rw [scale_shift]; omega
  · split <;> simpa using ha

theorem nan_of_nonneg (d : Dec) (h : 0 ≤ d.scale) : d.isNaN = false := by
  simp only [Dec.isNaN, Dec.nanScale, beq_eq_false_iff_ne]; omega

theorem dec_value (e : Expr) (h1 : e.noDiv) (h2 : e.plain) :
    e.dec.toRat = e.value ∧ 0 ≤ e.dec.scale := by
  induction e with
  | leaf d => exact ⟨rfl, h2⟩
  | bin o x y ihx ihy =>
    have nd : x.noDiv ∧ y.noDiv ∧ o ≠ .div := by
      cases o <;> simp_all [Expr.noDiv]
    obtain ⟨vx, sx⟩ := ihx nd.1 h2.1
    obtain ⟨vy, sy⟩ := ihy nd.2.1 h2.2
    have nx := nan_of_nonneg _ sx
    have ny := nan_of_nonneg _ sy
    cases o with
    | add =>
      have := (C06_add_exact _ _ nx ny).1
      refine ⟨by simp only [Expr.dec, opEffect, Expr.value, this, vx, vy], ?_⟩
      simp only [Expr.dec, opEffect, Dec.add, nx, ny, Bool.or_false, Bool.false_eq_true, if_false]
      exact align_nonneg _ _ sx sy
    | sub =>
      have := (C06_sub_exact _ _ nx ny).1
      refine ⟨by simp only [Expr.dec, opEffect, Expr.value, this, vx, vy], ?_⟩
      simp only [Expr.dec, opEffect, Dec.sub, nx, ny, Bool.or_false, Bool.false_eq_true, if_false]
      exact align_nonneg _ _ sx sy
    | mul =>
      have := (C06_mul_exact _ _ nx ny).1
      refine ⟨by simp only [Expr.dec, opEffect, Expr.value, this, vx, vy], ?_⟩
      simp only [Expr.dec, opEffect, Dec.mul, nx, ny, Bool.or_false, Bool.false_eq_true, if_false]
      omega
    | div => exact absurd rfl nd.2.2

/-! ### properties -/

/-- What a receiver must look like after a statement that assigns it the number `x`: the value
rounded or truncated to its decimals if it fits, unchanged and reported if it does not and the
statement has ON SIZE ERROR. -/
def Receives (ebc : Bool) (v : Item × StoreOpt) (x : ℚ) (r : ItemRes) : Prop :=
  ∀ u, Wanted v.2 v.1 x u →
    (Fits v.1 v.2 u → r.raised = false ∧ r.item.field.attr = v.1.field.attr ∧ HoldsUnits ebc r.item u) ∧
    (v.2.keep = true → TooBig v.1 v.2 u → r = ⟨v.1, true, true⟩)

theorem store_receives (ebc : Bool) (d : Dec) (hd : d.isNaN = false) (v : Item × StoreOpt)
    (hw : WFItem v.1) : Receives ebc v d.toRat (storeItem ebc d v.1 v.2) := by
  intro u hu
  constructor
  · intro hf
    have := C05_store_any_item ebc d hd v.1 hw v.2 u hu hf
    exact ⟨this.1, this.2.2.2.2.1, this.2.2.2.2.2⟩
  · intro hk hb
    exact C04_keep_any_item ebc d hd v.1 hw v.2 hk u hu hb

/-- C46 (COMPUTE): for every expression built from numbers with +, - and *, of any size and
nesting, whatever the decimal registers held before, every receiver gets the exact value of
the expression (rounded/truncated to its own decimals), or keeps its contents under ON SIZE
ERROR. -/
theorem C46_compute (ebc : Bool) (e : Expr) (h1 : e.noDiv) (h2 : e.plain)
    (vars : List (Item × StoreOpt)) (hv : ∀ v ∈ vars, WFItem v.1) (R : Regs) :
    List.Forall₂ (fun v r => Receives ebc v e.value r) vars (runCompute ebc e vars R) := by
  unfold runCompute
  simp only
  have hd := (exec_compile e 0 1 (by omega) R).1
  rw [hd]
  obtain ⟨ev, es⟩ := dec_value e h1 h2
  rw [List.forall₂_map_right_iff]
  apply List.forall₂_same.mpr
  intro v hvm
  rw [← ev]
  exact store_receives ebc e.dec (nan_of_nonneg _ es) v (hv v hvm)

/-- The compiled code of any expression (divisions included) computes the nested operations:
register allocation never clobbers a live value. -/
theorem C46_registers (e : Expr) (R : Regs) : exec (compile e 0 1) R 0 = e.dec :=
  (exec_compile e 0 1 (by omega) R).1

/-- C46 (a division by zero anywhere in the expression): no receiver changes and each reports
the condition. -/
theorem C46_zero_divide (ebc : Bool) (x y : Expr) (hx : x.dec.isNaN = false)
    (hy : y.dec.isNaN = false) (hz : y.dec.toRat = 0) (C : Expr → Expr)
    (hC : C = id ∨ (∃ o z, C = fun e => .bin o e z) ∨ (∃ o z, C = fun e => .bin o z e))
    (vars : List (Item × StoreOpt)) (R : Regs) :
    runCompute ebc (C (.bin .div x y)) vars R = vars.map fun v => ⟨v.1, true, true⟩ := by
  have hn : ((Expr.bin .div x y).dec).isNaN = true := (C07_div_by_zero _ _ hx hy hz).2
  have hc : (C (.bin .div x y)).dec.isNaN = true := by
    rcases hC with rfl | ⟨o, z, rfl⟩ | ⟨o, z, rfl⟩
    · exact hn
    · have := C06_nan_propagates (Expr.bin .div x y).dec z.dec (Or.inl hn)
      cases o <;> simp only [Expr.dec, opEffect] at this ⊢
      · exact this.1
      · exact this.2.1
      · exact this.2.2.1
      · exact this.2.2.2
    · have := C06_nan_propagates z.dec (Expr.bin .div x y).dec (Or.inr hn)
      cases o <;> simp only [Expr.dec, opEffect] at this ⊢
      · exact this.1
      · exact this.2.1
      · exact this.2.2.1
      · exact this.2.2.2
  unfold runCompute
  simp only
  rw [(exec_compile _ 0 1 (by omega) R).1]
  apply List.map_congr_left
  intro v _
  exact C04_no_value ebc _ hc v.1 v.2

/-- Rescaling the shared operand does not change the number it denotes. -/
theorem opEffect_shared (o : Op) (t d : Dec) :
    (opEffect o t d).2.toRat = d.toRat ∧ (0 ≤ d.scale → 0 ≤ (opEffect o t d).2.scale) := by
  have hal : (Dec.align t d).2.toRat = d.toRat ∧ (0 ≤ d.scale → 0 ≤ (Dec.align t d).2.scale) := by
    refine ⟨(align_spec t d).2.2, ?_⟩
    intro h
    unfold Dec.align
    split
    · exact h
    · split
      · rw [scale_shift]; omega
      · exact h
  cases o with
  | add => simp only [opEffect]; split <;> [exact ⟨rfl, id⟩; exact hal]
  | sub => simp only [opEffect]; split <;> [exact ⟨rfl, id⟩; exact hal]
  | mul => exact ⟨rfl, id⟩
  | div => exact ⟨rfl, id⟩

/-- C46 (several receivers, e.g. MULTIPLY x BY a b c): each receiver holding `xi` gets
`xi op x` for the same `x`, although the code rescales `x` in place between receivers. -/
theorem C46_multi (ebc : Bool) (o : Op) (ho : o ≠ .div) (vars : List (Item × StoreOpt))
    (xs : List ℚ) (d : Dec) (hd : 0 ≤ d.scale)
    (hv : List.Forall₂ (fun v x => WFItem v.1 ∧ Holds ebc v.1 x ∧ 0 ≤ v.1.field.attr.scale) vars xs) :
    ∃ rs, runMulti ebc o vars d = some rs ∧ rs.length = vars.length ∧
      ∀ i (h : i < vars.length) (h' : i < xs.length) (h'' : i < rs.length),
        Receives ebc vars[i] (match o with
          | .add => xs[i] + d.toRat | .sub => xs[i] - d.toRat
          | .mul => xs[i] * d.toRat | .div => xs[i] / d.toRat) rs[i] := by
  induction hv generalizing d with
  | nil => exact ⟨[], rfl, rfl, by intro i h; simp at h⟩
  | @cons v x vs xs' hhd htl ih =>
    obtain ⟨hw, hh, hs⟩ := hhd
    obtain ⟨t, ht, et, st⟩ := holds_read ebc v.1 hw x hh
    obtain ⟨sh1, sh2⟩ := opEffect_shared o t d
    obtain ⟨rs, hrs, hlen, hall⟩ := ih (opEffect o t d).2 (sh2 hd)
    have hts : 0 ≤ t.scale := by rw [st]; exact hs
    have hnt := nan_of_nonneg t hts
    have hnd := nan_of_nonneg d hd
    refine ⟨storeItem ebc (opEffect o t d).1 v.1 v.2 :: rs, by simp [runMulti, ht, hrs], by simp [hlen], ?_⟩
    intro i h h' h''
    cases i with
    | succ i =>
      have := hall i (by simpa using h) (by simpa using h') (by simpa using h'')
      rw [sh1] at this
      simpa using this
    | zero =>
      simp only [List.getElem_cons_zero]
      cases o with
      | div => exact absurd rfl ho
      | add =>
        have e := C06_add_exact t d hnt hnd
        have := store_receives ebc (t.add d) e.2 v hw
        rw [e.1, et] at this
        exact this
      | sub =>
        have e := C06_sub_exact t d hnt hnd
        have := store_receives ebc (t.sub d) e.2 v hw
        rw [e.1, et] at this
        exact this
      | mul =>
        have e := C06_mul_exact t d hnt hnd
        have hnm : (t.mul d).isNaN = false := e.2.mpr (by omega)
        have := store_receives ebc (t.mul d) hnm v hw
        rw [e.1, et] at this
        exact this

/-- Non-vacuity: (1.5 + 2) * 3 - 4 is 6.5, the expression satisfies the hypotheses, and the
compiled code leaves 65 with scale 1. -/
example :
    let e : Expr := .bin .sub (.bin .mul (.bin .add (.leaf ⟨15, 1⟩) (.leaf ⟨2, 0⟩)) (.leaf ⟨3, 0⟩)) (.leaf ⟨4, 0⟩)
    e.noDiv ∧ e.plain ∧ e.value = 65 / 10 ∧ exec (compile e 0 1) (fun _ => ⟨99, 7⟩) 0 = ⟨65, 1⟩ := by
  refine ⟨by simp [Expr.noDiv], by simp [Expr.plain], ?_, by decide⟩
  norm_num [Expr.value, Dec.toRat]

end Cob
