import Verif.Cobc.CondProps
/-
C60: condition-names (level 88) and SET ... TO TRUE.
-/
namespace Cob

/-! ### Specification -/

/-- The numeric constants: numeric literals and ZERO. -/
def COpnd.NumConst : COpnd → Prop
  | .numLit l => l.Proper ∧ 0 ≤ l.scale
  | .zero => True
  | _ => False

/-- The number a numeric constant denotes. -/
def COpnd.constVal : COpnd → ℚ
  | .numLit l => l.value
  | _ => 0

/-- The values of a condition-name are numeric constants. -/
def Val88.NumConst : Val88 → Prop
  | .one v => v.NumConst
  | .thru lo hi => lo.NumConst ∧ hi.NumConst

/-- The number `X` is one of the values, or in one of the ranges. -/
def Val88.HasNumber (X : ℚ) : Val88 → Prop
  | .one v => X = v.constVal
  | .thru lo hi => lo.constVal ≤ X ∧ X ≤ hi.constVal

/-- The values are text constants. -/
def Val88.TextConst : Val88 → Prop
  | .one v => v.TextOk
  | .thru lo hi => lo.TextOk ∧ hi.TextOk

/-- `a` does not come after `b` in the collating sequence (the shorter is extended with spaces). -/
def NotAfter (w : Nat → Int) (a b : List Nat) : Prop := ¬ Before w (cell b) (cell a)

/-- The text `a` equals one of the values, or lies in one of the ranges. -/
def Val88.HasText (w : Nat → Int) (a : List Nat) : Val88 → Prop
  | .one v => ∀ i, w (cell a i) = w (cell (v.shown a.length) i)
  | .thru lo hi => NotAfter w (lo.shown a.length) a ∧ NotAfter w a (hi.shown a.length)

/-! ### Evaluation -/

theorem NumConst.number {v : COpnd} (h : v.NumConst) (ebc : Bool) : v.Number ebc v.constVal := by
  cases v with
  | numLit l => exact ⟨h.1, h.2, rfl⟩
  | zero => rfl
  | _ => exact h.elim

theorem NumConst.readable {v : COpnd} (h : v.NumConst) (Y : ℚ) : v.ReadableRight Y ∧ ∀ X, v.NotNegativeZero X Y := by
  cases v with
  | numItem it => exact h.elim
  | _ => exact ⟨trivial, fun _ => trivial⟩

theorem ordInt_cmp (X Y : ℚ) : (ordInt (compare X Y) = 0 ↔ X = Y) ∧ (ordInt (compare X Y) ≤ 0 ↔ X ≤ Y) := by
  rcases lt_trichotomy X Y with h | h | h
  · rw [compare_lt_iff_lt.mpr h]
    exact ⟨⟨fun h' => by simp [ordInt] at h', fun h' => absurd h' h.ne⟩, ⟨fun _ => h.le, fun _ => by simp [ordInt]⟩⟩
  · subst h; simp [ordInt]
  · rw [compare_gt_iff_gt.mpr h]
    exact ⟨⟨fun h' => by simp [ordInt] at h', fun h' => absurd h' h.ne'⟩,
      ⟨fun h' => by simp [ordInt] at h', fun h' => absurd h' (not_le.mpr h)⟩⟩

/-- C60 (condition-names of numeric items): the condition-name is true exactly when the number in the item equals
one of the values or lies in one of the ranges, ends included: any usage, size and scale of the item, any number
of values with or without decimals, any history of earlier comparisons. -/
theorem C60_88_number (env : CondEnv) (it : Item) (X : ℚ) (hx : (COpnd.numItem it).Number env.ebc X)
    (hr : (COpnd.numItem it).ReadableRight X)
    (hz : it.usage = .packed → X = 0 → it.field.data.getLast? ≠ some 0x0D) (vals : List Val88)
    (hv : ∀ v ∈ vals, v.NumConst) (c : CmpCache) (hc : CacheOk c) :
    ∃ b, (cond88 env c (.numItem it) vals).1 = some b ∧ CacheOk (cond88 env c (.numItem it) vals).2 ∧
      (b = true ↔ ∃ v ∈ vals, v.HasNumber X) := by
  induction vals generalizing c with
  | nil => exact ⟨false, rfl, hc, by simp⟩
  | cons v vs ih =>
    have hone : ∃ b, (val88 env c (.numItem it) v).1 = some b ∧ CacheOk (val88 env c (.numItem it) v).2 ∧
        (b = true ↔ v.HasNumber X) := by
      have hvv := hv v (by simp)
      cases v with
      | one v =>
        obtain ⟨h1, h2⟩ := C60_number env c hc (.numItem it) v X v.constVal hx (NumConst.number hvv _) (Or.inl trivial)
          (NumConst.readable hvv _).1 (fun h0 h1 _ => hz h0 h1)
        refine ⟨_, by simp only [val88]; rw [h1]; rfl, h2, ?_⟩
        rw [beq_iff_eq, (ordInt_cmp X v.constVal).1]
        rfl
      | thru lo hi =>
        obtain ⟨h1, h2⟩ := C60_number env c hc lo (.numItem it) lo.constVal X (NumConst.number hvv.1 _) hx (Or.inr trivial)
          hr ((NumConst.readable hvv.1 _).2 _)
        simp only [val88, h1]
        by_cases hle : ordInt (compare lo.constVal X) ≤ 0
        · obtain ⟨h3, h4⟩ := C60_number env _ h2 (.numItem it) hi X hi.constVal hx (NumConst.number hvv.2 _) (Or.inl trivial)
            (NumConst.readable hvv.2 _).1 (fun h0 h1 _ => hz h0 h1)
          rw [if_pos hle]
          refine ⟨_, by rw [h3]; rfl, h4, ?_⟩
          rw [decide_eq_true_eq, (ordInt_cmp X hi.constVal).2]
          exact ⟨fun h => ⟨(ordInt_cmp _ _).2.mp hle, h⟩, fun h => h.2⟩
        · rw [if_neg hle]
          refine ⟨false, rfl, h2, ?_⟩
          simp only [Bool.false_eq_true, false_iff]
          exact fun h => hle ((ordInt_cmp _ _).2.mpr h.1)
    obtain ⟨b, h1, h2, h3⟩ := hone
    unfold cond88
    simp only [h1]
    cases b with
    | true => exact ⟨true, rfl, h2, by simp [h3.mp rfl]⟩
    | false =>
      obtain ⟨b', g1, g2, g3⟩ := ih (fun w hw => hv w (by simp [hw])) _ h2
      refine ⟨b', g1, g2, ?_⟩
      rw [g3]
      have hno : ¬ v.HasNumber X := fun h => by simpa using h3.mpr h
      simp [hno]

/-- C60 (condition-names of text items and groups): the condition-name is true exactly when the text equals one of
the values or lies in one of the ranges, in the collating sequence of the program, the shorter text extended with
spaces, figurative constants and ALL literals repeated. -/
theorem C60_88_text (env : CondEnv) (hcol : env.alphabets = false → env.col = none) (group : Bool) (size : Option Nat)
    (odo : Bool) (a : List Nat) (hx : (COpnd.text group size odo a).TextOk) (vals : List Val88)
    (hv : ∀ v ∈ vals, v.TextConst) (c : CmpCache) :
    ∃ b, cond88 env c (.text group size odo a) vals = (some b, c) ∧
      (b = true ↔ ∃ v ∈ vals, v.HasText (weight env.col) a) := by
  have hshown : ∀ k, (COpnd.text group size odo a).shown k = a := fun _ => rfl
  have hlen : (COpnd.text group size odo a).len.getD 0 = a.length := rfl
  induction vals with
  | nil => exact ⟨false, rfl, by simp⟩
  | cons v vs ih =>
    have hone : ∃ b, val88 env c (.text group size odo a) v = (some b, c) ∧
        (b = true ↔ v.HasText (weight env.col) a) := by
      have hvv := hv v (by simp)
      cases v with
      | one v =>
        obtain ⟨r, h1, _, _, h4⟩ := C60_text env hcol c (.text group size odo a) v hx hvv (Or.inl rfl)
          (by simp [COpnd.isNumeric])
        rw [hshown, hlen] at h4
        refine ⟨r == 0, by simp [val88, h1], ?_⟩
        rw [beq_iff_eq, h4]
        rfl
      | thru lo hi =>
        obtain ⟨r, h1, _, h3, _⟩ := C60_text env hcol c lo (.text group size odo a) hvv.1 hx (Or.inr rfl)
          (by simp [COpnd.isNumeric])
        obtain ⟨q, g1, _, g3, _⟩ := C60_text env hcol c (.text group size odo a) hi hx hvv.2 (Or.inl rfl)
          (by simp [COpnd.isNumeric])
        rw [hshown, hlen] at h3 g3
        have hr : r ≤ 0 ↔ NotAfter (weight env.col) (lo.shown a.length) a := by
          unfold NotAfter
          rw [← h3]; omega
        have hq : q ≤ 0 ↔ NotAfter (weight env.col) a (hi.shown a.length) := by
          unfold NotAfter
          rw [← g3]; omega
        by_cases hle : r ≤ 0
        · refine ⟨decide (q ≤ 0), by simp [val88, h1, hle, g1], ?_⟩
          rw [decide_eq_true_eq, hq]
          exact ⟨fun h => ⟨hr.mp hle, h⟩, fun h => h.2⟩
        · refine ⟨false, by simp [val88, h1, hle], ?_⟩
          simp only [Bool.false_eq_true, false_iff]
          exact fun h => hle (hr.mpr h.1)
    obtain ⟨b, h1, h3⟩ := hone
    unfold cond88
    simp only [h1]
    cases b with
    | true => exact ⟨true, rfl, by simp [h3.mp rfl]⟩
    | false =>
      obtain ⟨b', g1, g3⟩ := ih (fun w hw => hv w (by simp [hw]))
      refine ⟨b', g1, ?_⟩
      rw [g3]
      have hno : ¬ v.HasText (weight env.col) a := fun h => by simpa using h3.mpr h
      simp [hno]

/-! ### SET ... TO TRUE -/

/-- The first value of the condition-name (the low end, if it is a range). -/
def firstVal : List Val88 → Option COpnd
  | [] => none
  | .one v :: _ => some v
  | .thru lo _ :: _ => some lo

theorem set88_first (vals : List Val88) : set88 vals = firstVal vals := by
  rcases vals with _ | ⟨_ | _, _⟩ <;> rfl

/-- The value has room in the item: it is a multiple of the unit of the item's last digit, has no more digits than
the item, and is not negative if the item has no sign. -/
def FitsExactly (it : Item) (V : ℚ) : Prop :=
  ∃ t : Int, V * (10 : ℚ) ^ it.field.attr.scale = t ∧ t.natAbs < 10 ^ it.positions ∧
    (it.field.attr.haveSign = true ∨ 0 ≤ t)

theorem moved_exact {it r : Item} {ebc : Bool} {V : ℚ} {u : Int} (hf : FitsExactly it V)
    (ha : r.field.attr = it.field.attr) (hu : HoldsUnits ebc r u) (hm : MovedUnits it V u) : Holds ebc r V := by
  obtain ⟨t, h1, h2, h3⟩ := hf
  obtain ⟨t', h4, h5⟩ := hm
  rw [h1] at h4
  have ht : t' = t := isTrunc_unique _ _ _ h4 (isTrunc_int t)
  subst ht
  have hut : u = t' := by
    rw [h5]
    split
    · exact tmod_of_small _ _ h2
    · rename_i hs
      rcases h3 with h | h
      · exact absurd h hs
      · rw [Nat.mod_eq_of_lt h2]; omega
  refine ⟨u, hu, ?_⟩
  rw [hut, ha, ← h1, mul_div_assoc, div_self (zpow_ne_zero _ (by norm_num)), mul_one]

/-- C60 (SET condition-name TO TRUE, numeric item): the statement leaves the first value in the item, and then the
condition-name is true.  The value must have room in the item; binary items need a standard PICTURE.  A packed
item must not have been left with a negative zero (which the value ZERO never does). -/
theorem C60_set_true_number (env : CondEnv) (cut : Bool) (it : Item) (hw : WFItem it)
    (hd : it.usage = .packed → it.field.attr.digits ≤ 38) (vals : List Val88)
    (hv : ∀ v ∈ vals, v.NumConst) (v : COpnd) (hfirst : firstVal vals = some v)
    (hthru : ∀ lo hi, vals.head? = some (.thru lo hi) → lo.constVal ≤ hi.constVal)
    (hfit : FitsExactly it v.constVal)
    (hb : it.usage = .binary → cut = true ∧ BinaryHasRoom it.field ∧ it.field.attr.digits ≤ 18 ∧
      0 ≤ 18 + it.field.attr.scale ∧
      ∀ l, v = .numLit l → 0 ≤ (l.data.length : Int) - l.scale + it.field.attr.scale) :
    ∃ r, set88Num env.ebc cut vals it = .done r ∧ r.usage = it.usage ∧ r.field.attr = it.field.attr ∧ WFItem r ∧
      Holds env.ebc r v.constVal ∧ (v = .zero → it.usage = .packed → r.field.data.getLast? ≠ some 0x0D) ∧
      ((COpnd.numItem r).ReadableRight v.constVal →
        (r.usage = .packed → v.constVal = 0 → r.field.data.getLast? ≠ some 0x0D) →
        ∀ c, CacheOk c → (cond88 env c (.numItem r) vals).1 = some true) := by
  have hvc : v.NumConst := by
    rcases vals with _ | ⟨w | ⟨lo, hi⟩, vs⟩
    · cases hfirst
    · have := hv _ (List.mem_cons_self ..); cases hfirst; exact this
    · have := hv _ (List.mem_cons_self ..); cases hfirst; exact this.1
  have hhas : ∃ w ∈ vals, w.HasNumber v.constVal := by
    rcases vals with _ | ⟨w | ⟨lo, hi⟩, vs⟩
    · cases hfirst
    · cases hfirst; exact ⟨_, List.mem_cons_self .., rfl⟩
    · cases hfirst; exact ⟨_, List.mem_cons_self .., le_refl _, hthru _ _ rfl⟩
  -- the MOVE
  have hmove : ∃ r u, set88Num env.ebc cut vals it = .done r ∧ r.usage = it.usage ∧ r.field.attr = it.field.attr ∧
      WFItem r ∧ HoldsUnits env.ebc r u ∧ MovedUnits it v.constVal u := by
    unfold set88Num
    rw [set88_first, hfirst]
    have hsmall : it.usage = .binary → ∀ t, IsTrunc (v.constVal * (10 : ℚ) ^ it.field.attr.scale) t →
        t.natAbs < 10 ^ it.field.attr.digits ∧ (it.field.attr.haveSign = true ∨ 0 ≤ t) := by
      intro hu t ht
      obtain ⟨t', h1, h2, h3⟩ := hfit
      rw [h1] at ht
      rw [isTrunc_unique _ _ _ ht (isTrunc_int t')]
      refine ⟨?_, h3⟩
      unfold Item.positions at h2
      rw [hu] at h2
      exact h2
    cases v with
    | numLit l =>
      exact C51_literal env.ebc cut l hvc.1 it hw (fun hu => by
        obtain ⟨b1, b2, b3, _, b5⟩ := hb hu
        exact ⟨b1, b2, b3, b5 l rfl, hsmall hu⟩)
    | zero =>
      simp only
      have hb18 : it.usage = .binary → 0 ≤ 18 + it.field.attr.scale := fun hu => (hb hu).2.2.2.1
      rw [C51_zero env.ebc cut it hw hb18]
      set l : NumLit := ⟨List.replicate 18 48, 0, 0⟩ with hl
      have hp : l.Proper := ⟨by simp [hl], by
        intro b hb
        have := (List.mem_replicate.mp hb).2
        omega⟩
      obtain ⟨w1, w2, w3, w4⟩ := lit_holds env.ebc l hp
      have hval : l.value = 0 := by
        have : l.units = 0 := by decide
        unfold NumLit.value
        rw [this]; simp
      rw [hval] at w3
      have hi : l.item = ⟨.display, ⟨{ digits := 18 }, List.replicate 18 48⟩⟩ := by decide
      have := C13_move env.ebc cut l.item it w1 hw 0 w3 (fun _ => w4) (by
        intro hu
        obtain ⟨b1, b2, b3, b4, b5⟩ := hb hu
        refine ⟨b1, b2, ?_, ?_⟩
        · rw [hi]; simpa [Item.sent, Field.dsize] using b4
        · intro t ht
          have := (hsmall hu t ht).1
          have h18 : 10 ^ it.field.attr.digits ≤ 10 ^ 18 := Nat.pow_le_pow_right (by decide) b3
          have : (10 : Nat) ^ 18 < 2 ^ 63 := by norm_num
          omega)
      rw [hi] at this
      exact this
    | _ => exact hvc.elim
  obtain ⟨r, u, h1, h2, h3, h4, h5, h6⟩ := hmove
  have hholds := moved_exact hfit h3 h5 h6
  refine ⟨r, h1, h2, h3, h4, hholds, ?_, ?_⟩
  · intro hv0 hp
    subst hv0
    unfold set88Num at h1
    rw [set88_first, hfirst] at h1
    simp only [moveNumZero, hp] at h1
    cases h1
    simp only [setPackedZero]
    have hpos : 0 < it.field.data.length := by
      have hwp : WFPacked it.field := by
        have := hw; unfold WFItem at this; rw [hp] at this; exact this
      have := hwp.2
      omega
    rw [List.getLast?_eq_getElem?]
    simp only [List.length_set, List.length_replicate]
    rw [List.getElem?_set_self (by simpa using hpos)]
    split <;> simp
  · intro hr hz c hc
    obtain ⟨b, g1, _, g3⟩ := C60_88_number env r v.constVal ⟨h4, hholds, fun h => by rw [h3]; exact hd (h2 ▸ h)⟩ hr hz vals hv c hc
    rw [g1, g3.mpr hhas]

/-- The value has room in a text item: a literal is not longer than the item; a numeric literal has no sign; the
characters of an ALL literal are single-byte ones. -/
def COpnd.TextFits (n : Nat) : COpnd → Prop
  | .lit b => b.length ≤ n
  | .numLit l => l.data.length ≤ n ∧ 0 ≤ l.scale
  | .all b => ∀ x ∈ b, x < 0x81
  | .fig _ => True
  | .zero => True
  | _ => False

theorem cell_pad (b : List Nat) (k i : Nat) : cell (b ++ List.replicate k 32) i = cell b i := by
  unfold cell
  rw [List.getD_eq_getElem?_getD, List.getD_eq_getElem?_getD]
  by_cases h : i < b.length
  · rw [List.getElem?_append_left h]
  · rw [List.getElem?_append_right (by omega), List.getElem?_replicate, List.getElem?_eq_none (by omega)]
    split <;> rfl

theorem moveAlnum_cell (b : List Nat) (n : Nat) (h : b.length ≤ n) :
    (moveAlnum false b n).length = n ∧ ∀ i, cell (moveAlnum false b n) i = cell b i := by
  unfold moveAlnum
  simp only [Bool.false_eq_true, if_false]
  split
  · rename_i h'
    have : n = b.length := by omega
    subst this
    simp
  · refine ⟨by simp; omega, fun i => cell_pad b _ i⟩

theorem before_congr (w : Nat → Int) (x x' y : Nat → Nat) (h : ∀ i, x i = x' i) : Before w x y ↔ Before w x' y := by
  have : x = x' := funext h
  rw [this]

/-- C60 (SET condition-name TO TRUE, text item that is not JUSTIFIED RIGHT, or group): the statement fills the item
with the first value, and then the condition-name is true. -/
theorem C60_set_true_text (env : CondEnv) (hcol : env.col = none) (group alphabetic : Bool) (n : Nat) (vals : List Val88)
    (hv : ∀ v ∈ vals, v.TextConst) (v : COpnd) (hfirst : firstVal vals = some v) (hfit : v.TextFits n)
    (hthru : ∀ lo hi, vals.head? = some (.thru lo hi) → NotAfter (weight none) (lo.shown n) (hi.shown n)) :
    ∃ a, set88Text env.ebc vals ⟨alphabetic, false, n⟩ = some a ∧ a.length = n ∧
      (∀ i, cell a i = cell (v.shown n) i) ∧
      ∀ c, cond88 env c (.text group (some n) false a) vals = (some true, c) := by
  have hvc : v.TextOk := by
    rcases vals with _ | ⟨w | ⟨lo, hi⟩, vs⟩
    · cases hfirst
    · have := hv _ (List.mem_cons_self ..); cases hfirst; exact this
    · have := hv _ (List.mem_cons_self ..); cases hfirst; exact this.1
  have hmove : ∃ a, set88Text env.ebc vals ⟨alphabetic, false, n⟩ = some a ∧ a.length = n ∧
      ∀ i, cell a i = cell (v.shown n) i := by
    unfold set88Text
    rw [set88_first, hfirst]
    cases v with
    | lit b =>
      refine ⟨_, rfl, ?_⟩
      beta_reduce
      rw [C51_text_literal]
      exact moveAlnum_cell b n hfit
    | numLit l =>
      refine ⟨_, rfl, ?_⟩
      beta_reduce
      rw [C51_number_text env.ebc l hvc.1 hfit.2 ⟨alphabetic, false, n⟩ rfl]
      simp only [textCall]
      obtain ⟨ds, he, hne, hd, hm⟩ := lit_digits l hvc.1
      rw [lit_item env.ebc l ds he]
      simp only
      rw [C14_display_to_text env.ebc l.item.field.attr (decide (l.sign < 0)) ds
        (by rw [(lit_attr l).2.2.1, (lit_attr l).2.2.2.1]; exact id) hne hd (by rw [(lit_attr l).1]; exact hfit.2), ← he]
      exact moveAlnum_cell l.data n hfit.1
    | all b =>
      refine ⟨_, rfl, ?_⟩
      beta_reduce
      rw [C51_all _ b hvc hfit]
      simp only [textCall]
      have hlen : (moveAllAlnum false b n).length = n := by
        rcases Nat.eq_zero_or_pos n with h0 | hp
        · subst h0; unfold moveAllAlnum moveAlnum; simp
        · exact (C15_move_all false b hvc hfit n 0 hp).1
      refine ⟨hlen, fun i => ?_⟩
      unfold cell
      rw [List.getD_eq_getElem?_getD, List.getD_eq_getElem?_getD]
      have hpos : 0 < b.length := List.length_pos_iff.mpr hvc
      by_cases hi : i < n
      · rw [(C15_move_all false b hvc hfit n i hi).2]
        have hm : i % b.length < b.length := Nat.mod_lt _ hpos
        simp [COpnd.shown, repeated, hi, hm]
      · rw [List.getElem?_eq_none (by omega), List.getElem?_eq_none (by simp [COpnd.shown, repeated]; omega)]
    | fig k => exact ⟨_, rfl, by simp [moveText], fun i => rfl⟩
    | zero => exact ⟨_, rfl, by simp [moveText], fun i => rfl⟩
    | _ => exact hfit.elim
  obtain ⟨a, h1, h2, h3⟩ := hmove
  refine ⟨a, h1, h2, h3, fun c => ?_⟩
  obtain ⟨b, g1, g2⟩ := C60_88_text env (fun _ => hcol) group (some n) false a
    (fun m hm _ => by cases hm; exact h2) vals hv c
  rw [g1, g2.mpr]
  rw [hcol]
  rcases vals with _ | ⟨w | ⟨lo, hi⟩, vs⟩
  · cases hfirst
  · cases hfirst
    refine ⟨_, List.mem_cons_self .., fun i => ?_⟩
    rw [h2, h3 i]
  · cases hfirst
    refine ⟨_, List.mem_cons_self .., ?_, ?_⟩
    · unfold NotAfter
      rw [h2, before_congr _ _ _ _ h3]
      exact before_irrefl _ _ _ fun _ => rfl
    · have := hthru _ _ rfl
      unfold NotAfter at this ⊢
      rw [h2]
      have he : cell a = cell (v.shown n) := funext h3
      rw [he]
      exact this

/-! ### Examples -/

/-- 88 VALUE "A" THRU "F", "XY". -/
def letters88 : List Val88 := [.thru (.lit [65]) (.lit [70]), .one (.lit [88, 89])]

example : (∀ v ∈ letters88, v.TextConst) ∧ (COpnd.text false (some 2) false [67, 32]).TextOk ∧
    firstVal letters88 = some (.lit [65]) ∧ (COpnd.lit [65]).TextFits 2 := by
  refine ⟨?_, ?_, rfl, by simp [COpnd.TextFits]⟩
  · intro v hv
    simp only [letters88, List.mem_cons, List.not_mem_nil, or_false] at hv
    rcases hv with rfl | rfl <;> simp [Val88.TextConst, COpnd.TextOk]
  · intro n hn _
    cases hn
    rfl

example : (cond88 {} CmpCache.init (.text false (some 2) false [67, 32]) letters88).1 = some true ∧
    (cond88 {} CmpCache.init (.text false (some 2) false [88, 89]) letters88).1 = some true ∧
    (cond88 {} CmpCache.init (.text false (some 2) false [70, 48]) letters88).1 = some false := by decide +kernel

/-- 88 VALUE 1.5 THRU 2, ZERO, of a PIC S9V9 COMP-3 item. -/
def numbers88 : List Val88 := [.thru (.numLit ⟨[49, 53], 0, 1⟩) (.numLit ⟨[50], 0, 0⟩), .one .zero]

/-- An item PIC S9V9 COMP-3. -/
def packed88 (b1 b2 : Nat) : Item := ⟨.packed, ⟨{ digits := 2, scale := 1, haveSign := true }, [b1, b2]⟩⟩

example : (∀ v ∈ numbers88, v.NumConst) ∧ (COpnd.numItem (packed88 0x01 0x8c)).Number false (18 / 10) ∧
    (COpnd.numItem (packed88 0x01 0x8c)).ReadableRight (18 / 10) ∧ FitsExactly (packed88 0 0x0c) (3 / 2) ∧
    (COpnd.numLit ⟨[49, 53], 0, 1⟩).constVal = 3 / 2 := by
  refine ⟨?_, ⟨⟨by decide, by decide⟩, ⟨18, ⟨false, 18, by decide, by decide, by decide⟩, by norm_num [packed88]⟩,
    by decide⟩, ⟨fun h => absurd h (by decide), by norm_num⟩, ⟨15, by norm_num [packed88], by decide, by decide⟩, ?_⟩
  · intro v hv
    simp only [numbers88, List.mem_cons, List.not_mem_nil, or_false] at hv
    rcases hv with rfl | rfl <;> simp [Val88.NumConst, COpnd.NumConst, NumLit.Proper]
  · have : (⟨[49, 53], 0, 1⟩ : NumLit).units = 15 := by decide
    simp only [COpnd.constVal, NumLit.value, this]
    norm_num

example : (cond88 {} CmpCache.init (.numItem (packed88 0x01 0x8c)) numbers88).1 = some true ∧
    (cond88 {} CmpCache.init (.numItem (packed88 0x00 0x0c)) numbers88).1 = some true ∧
    (cond88 {} CmpCache.init (.numItem (packed88 0x02 0x1c)) numbers88).1 = some false ∧
    set88Num false true numbers88 (packed88 0 0x0c) = .done (packed88 0x01 0x5c) := by decide +kernel

/-! ### Findings -/

/-- A value longer than the item: 88 VALUE "ABC" of a PIC X(2) item.  SET ... TO TRUE leaves the condition false. -/
theorem C60_finding_set_too_long :
    set88Text false [.one (.lit [65, 66, 67])] ⟨false, false, 2⟩ = some [65, 66] ∧
    (cond88 {} CmpCache.init (.text false (some 2) false [65, 66]) [.one (.lit [65, 66, 67])]).1 = some false := by
  decide +kernel

/-- An item JUSTIFIED RIGHT: 88 VALUE "AB" of a PIC X(4) JUSTIFIED RIGHT item.  SET ... TO TRUE leaves the condition
false: the MOVE aligns right, the comparison left. -/
theorem C60_finding_set_justified :
    set88Text false [.one (.lit [65, 66])] ⟨false, true, 4⟩ = some [32, 32, 65, 66] ∧
    (cond88 {} CmpCache.init (.text false (some 4) false [32, 32, 65, 66]) [.one (.lit [65, 66])]).1 = some false := by
  decide +kernel

/-- Two numeric literals with the same number of digits, the second with decimals, are compared as text without the
decimal point: `IF 15 = 1.5` is true; with the check of subscripts on it is false. -/
theorem C60_finding_literals :
    (condRun {} CmpCache.init (.numLit ⟨[49, 53], 0, 0⟩) (.numLit ⟨[49, 53], 0, 1⟩)).1 = some 0 ∧
    (condRun { subscripts := true } CmpCache.init (.numLit ⟨[49, 53], 0, 0⟩) (.numLit ⟨[49, 53], 0, 1⟩)).1 = some 1 := by
  decide +kernel

/-- A group of two characters "12" and the literal +12: equal, because only the digits of the literal are looked at;
a group of three characters "12 " is not equal to it, because then the sign is a character too. -/
theorem C60_finding_signed_literal :
    (condRun {} CmpCache.init (.text true (some 2) false [49, 50]) (.numLit ⟨[49, 50], 1, 0⟩)).1 = some 0 ∧
    (condRun {} CmpCache.init (.text true (some 3) false [49, 50, 32]) (.numLit ⟨[49, 50], 1, 0⟩)).1 = some (-11) := by
  decide +kernel

end Cob
