import Verif.Intr.Select
import Verif.Intr.NumericProps
import Verif.Cmp.SortKeyProps
import Mathlib.Data.List.Sort
/-
Property C30: MIN, MAX, ORD-MIN, ORD-MAX, RANGE, MEDIAN, SUM.
-/
namespace Cob
open Dec

/-! ### Specification -/

/-- The order of operands: numbers by value, texts by the collating sequence (the shorter one
extended with spaces). -/
def OpndLt (ebc : Bool) (col : Option (Nat → Nat)) : Opnd → Opnd → Prop
  | .num a, .num b => ∃ x y, Holds ebc a x ∧ Holds ebc b y ∧ x < y
  | .text a, .text b => Before (weight col) (cell a) (cell b)
  | _, _ => False

/-- The arguments are all numeric items that hold numbers, or all alphanumeric. -/
def SameClass (ebc : Bool) (args : List Opnd) : Prop :=
  (∀ o ∈ args, ∃ it x, o = .num it ∧ WFItem it ∧ Holds ebc it x) ∨ (∀ o ∈ args, ∃ bs, o = .text bs)

/-- Position `k` (from 0) holds the first of the arguments that have nothing before them in the
order `lt`. -/
def FirstLeast (lt : Opnd → Opnd → Prop) (args : List Opnd) (k : Nat) (m : Opnd) : Prop :=
  args[k]? = some m ∧ (∀ a ∈ args, ¬ lt a m) ∧ (∀ (j : Nat) a, j < k → args[j]? = some a → lt m a)

/-! ### Lemmas -/

/-- What the loops need of a comparison. -/
structure Ordered (S : Opnd → Prop) (cmp : Opnd → Opnd → Option Int) (lt : Opnd → Opnd → Prop) : Prop where
  ok : ∀ a b, S a → S b → ∃ c, cmp a b = some c ∧ (c < 0 ↔ lt a b) ∧ (0 < c ↔ lt b a)
  irrefl : ∀ a, S a → ¬ lt a a
  trans : ∀ a b c, S a → S b → S c → ¬ lt b a → ¬ lt c b → ¬ lt c a

theorem Ordered.asymm {S cmp lt} (h : Ordered S cmp lt) {a b : Opnd} (ha : S a) (hb : S b) (hab : lt a b) : ¬ lt b a := by
  obtain ⟨c, _, h1, h2⟩ := h.ok a b ha hb
  intro hba
  have := h1.mpr hab
  have := h2.mpr hba
  omega

theorem Ordered.ltTrans {S cmp lt} (h : Ordered S cmp lt) {a b c : Opnd} (ha : S a) (hb : S b) (hc : S c)
    (hab : lt a b) (hcb : ¬ lt c b) : lt a c := by
  by_contra hn
  exact h.trans b c a hb hc ha hcb hn hab

theorem ordMinLoop_spec {S cmp lt} (h : Ordered S cmp lt) (rest : List Opnd) :
    ∀ (pre : List Opnd) (base : Opnd) (ord : Nat), (∀ a ∈ pre, S a) → (∀ a ∈ rest, S a) →
      FirstLeast lt pre ord base →
      ∃ k m, ordMinLoop cmp rest pre.length base ord = some k ∧ minLoop cmp rest base = some m ∧
        FirstLeast lt (pre ++ rest) k m := by
  induction rest with
  | nil =>
    intro pre base ord _ _ hf
    exact ⟨ord, base, rfl, rfl, by simpa using hf⟩
  | cons f fs ih =>
    intro pre base ord hp hr hf
    have hbm : base ∈ pre := List.mem_of_getElem? hf.1
    have hb := hp base hbm
    have hfS := hr f (by simp)
    obtain ⟨c, hc, h1, h2⟩ := h.ok f base hfS hb
    have hp' : ∀ a ∈ pre ++ [f], S a := by
      intro a ha
      simp at ha
      rcases ha with ha | rfl
      · exact hp a ha
      · exact hfS
    have hr' : ∀ a ∈ fs, S a := fun a ha => hr a (by simp [ha])
    rw [ordMinLoop, minLoop, hc]
    simp only
    by_cases hlt : c < 0
    · rw [if_pos hlt, if_pos hlt]
      have hfl : FirstLeast lt (pre ++ [f]) pre.length f := by
        refine ⟨by simp, ?_, ?_⟩
        · intro a ha
          simp at ha
          rcases ha with ha | rfl
          · intro hl
            exact hf.2.1 a ha (h.ltTrans (hp a ha) hfS hb hl (h.asymm hfS hb (h1.mp hlt)))
          · exact h.irrefl a hfS
        · intro j a hj ha
          rw [List.getElem?_append_left hj] at ha
          have ham := List.mem_of_getElem? ha
          exact h.ltTrans hfS hb (hp a ham) (h1.mp hlt) (hf.2.1 a ham)
      have := ih (pre ++ [f]) f pre.length hp' hr' hfl
      simpa using this
    · rw [if_neg hlt, if_neg hlt]
      have hnl : ¬ lt f base := fun hl => hlt (h1.mpr hl)
      have hk : ord < pre.length := by
        by_contra hc'
        have := hf.1
        rw [List.getElem?_eq_none (by omega)] at this
        simp at this
      have hfl : FirstLeast lt (pre ++ [f]) ord base := by
        refine ⟨by rw [List.getElem?_append_left hk]; exact hf.1, ?_, ?_⟩
        · intro a ha
          simp at ha
          rcases ha with ha | rfl
          · exact hf.2.1 a ha
          · exact hnl
        · intro j a hj ha
          rw [List.getElem?_append_left (by omega)] at ha
          exact hf.2.2 j a hj ha
      have := ih (pre ++ [f]) base ord hp' hr' hfl
      simpa using this

theorem ordMaxLoop_as_min (cmp : Opnd → Opnd → Option Int) (rest : List Opnd) :
    ∀ i base ord, ordMaxLoop cmp rest i base ord = ordMinLoop (fun a b => (cmp a b).map (- ·)) rest i base ord ∧
      maxLoop cmp rest base = minLoop (fun a b => (cmp a b).map (- ·)) rest base := by
  induction rest with
  | nil => intros; exact ⟨rfl, rfl⟩
  | cons f fs ih =>
    intro i base ord
    rw [ordMaxLoop, ordMinLoop, maxLoop, minLoop]
    cases cmp f base with
    | none => exact ⟨rfl, rfl⟩
    | some c =>
      simp only [Option.map_some]
      by_cases h : c > 0
      · rw [if_pos h, if_pos h, if_pos (by omega), if_pos (by omega)]
        exact ih _ _ _
      · rw [if_neg h, if_neg h, if_neg (by omega), if_neg (by omega)]
        exact ih _ _ _

theorem Ordered.rev {S cmp lt} (h : Ordered S cmp lt) :
    Ordered S (fun a b => (cmp a b).map (- ·)) (fun a b => lt b a) where
  ok a b ha hb := by
    obtain ⟨c, hc, h1, h2⟩ := h.ok a b ha hb
    exact ⟨-c, by simp [hc], by rw [← h2]; omega, by rw [← h1]; omega⟩
  irrefl a ha := h.irrefl a ha
  trans a b c ha hb hc h1 h2 := h.trans c b a hc hb ha h2 h1

theorem ordered_class (ebc : Bool) (col : Option (Nat → Nat)) (args : List Opnd) (hs : SameClass ebc args) :
    Ordered (· ∈ args) (cobCmp ebc col) (OpndLt ebc col) := by
  rcases hs with hs | hs
  · constructor
    · intro a b ha hb
      obtain ⟨i1, x, rfl, w1, h1⟩ := hs a ha
      obtain ⟨i2, y, rfl, w2, h2⟩ := hs b hb
      have := (C09_items ebc i1 i2 w1 w2 x y h1 h2).1
      refine ⟨ordInt (compare x y), by simp [cobCmp, this], ?_, ?_⟩
      · rw [(ordInt_compare x y).1]
        exact ⟨fun h => ⟨x, y, h1, h2, h⟩, fun ⟨x', y', h1', h2', h⟩ => by
          rwa [holds_unique ebc _ w1 x x' h1 h1', holds_unique ebc _ w2 y y' h2 h2']⟩
      · rw [(ordInt_compare x y).2]
        exact ⟨fun h => ⟨y, x, h2, h1, h⟩, fun ⟨y', x', h2', h1', h⟩ => by
          rwa [holds_unique ebc _ w1 x x' h1 h1', holds_unique ebc _ w2 y y' h2 h2']⟩
    · intro a ha
      obtain ⟨i1, x, rfl, w1, h1⟩ := hs a ha
      rintro ⟨x', y', h1', h2', h⟩
      rw [holds_unique ebc _ w1 x' y' h1' h2'] at h
      exact lt_irrefl _ h
    · intro a b c ha hb hc n1 n2
      obtain ⟨i1, x, rfl, w1, h1⟩ := hs a ha
      obtain ⟨i2, y, rfl, w2, h2⟩ := hs b hb
      obtain ⟨i3, z, rfl, w3, h3⟩ := hs c hc
      rintro ⟨z', x', h3', h1', h⟩
      rw [holds_unique ebc _ w3 z' z h3' h3, holds_unique ebc _ w1 x' x h1' h1] at h
      rcases lt_or_ge y x with h' | h'
      · exact n1 ⟨y, x, h2, h1, h'⟩
      · exact n2 ⟨z, y, h3, h2, lt_of_lt_of_le h h'⟩
  · constructor
    · intro a b ha hb
      obtain ⟨s1, rfl⟩ := hs a ha
      obtain ⟨s2, rfl⟩ := hs b hb
      obtain ⟨r, h, h1, h2, _⟩ := C23_text ebc col s1 s2 (.text s1) (.text s2) (Or.inl rfl) (Or.inl rfl)
      exact ⟨r, h, h1, h2⟩
    · intro a ha
      obtain ⟨s1, rfl⟩ := hs a ha
      exact before_irrefl _ _ _ (fun _ => rfl)
    · intro a b c ha hb hc n1 n2
      obtain ⟨s1, rfl⟩ := hs a ha
      obtain ⟨s2, rfl⟩ := hs b hb
      obtain ⟨s3, rfl⟩ := hs c hc
      exact before_trans _ _ _ _ n1 n2

theorem firstLeast_single (lt : Opnd → Opnd → Prop) (f : Opnd) (h : ¬ lt f f) : FirstLeast lt [f] 0 f := by
  refine ⟨rfl, ?_, ?_⟩
  · intro a ha
    simp at ha
    subst ha
    exact h
  · intro j a hj
    omega

/-! ### C30 -/

/-- C30: MIN returns the first argument with none below it, and (with two or more arguments)
ORD-MIN its position counted from 1. -/
theorem C30_min (ebc : Bool) (col : Option (Nat → Nat)) (f : Opnd) (fs : List Opnd) (hs : SameClass ebc (f :: fs)) :
    ∃ k m, intrMin (cobCmp ebc col) f fs = some m ∧ FirstLeast (OpndLt ebc col) (f :: fs) k m ∧
      (fs ≠ [] → intrOrdMin (cobCmp ebc col) (f :: fs) = some (k + 1)) := by
  have ho := ordered_class ebc col (f :: fs) hs
  obtain ⟨k, m, h1, h2, h3⟩ := ordMinLoop_spec ho fs [f] f 0 (by simp) (by simp_all)
    (firstLeast_single _ f (ho.irrefl f (by simp)))
  refine ⟨k, m, h2, h3, ?_⟩
  intro hne
  cases fs with
  | nil => exact absurd rfl hne
  | cons g gs =>
    rw [intrOrdMin]
    · simp only [List.length_singleton] at h1
      rw [h1]; rfl
    · simp

/-- C30: MAX returns the first argument with none above it, and (with two or more arguments)
ORD-MAX its position counted from 1. -/
theorem C30_max (ebc : Bool) (col : Option (Nat → Nat)) (f : Opnd) (fs : List Opnd) (hs : SameClass ebc (f :: fs)) :
    ∃ k m, intrMax (cobCmp ebc col) f fs = some m ∧ FirstLeast (fun a b => OpndLt ebc col b a) (f :: fs) k m ∧
      (fs ≠ [] → intrOrdMax (cobCmp ebc col) (f :: fs) = some (k + 1)) := by
  have ho := (ordered_class ebc col (f :: fs) hs).rev
  obtain ⟨k, m, h1, h2, h3⟩ := ordMinLoop_spec ho fs [f] f 0 (by simp) (by simp_all)
    (firstLeast_single _ f (ho.irrefl f (by simp)))
  refine ⟨k, m, ?_, h3, ?_⟩
  · unfold intrMax
    rw [(ordMaxLoop_as_min _ fs 0 f 0).2]; exact h2
  intro hne
  cases fs with
  | nil => exact absurd rfl hne
  | cons g gs =>
    rw [intrOrdMax]
    · simp only [List.length_singleton] at h1
      rw [(ordMaxLoop_as_min _ _ 1 f 0).1, h1]; rfl
    · simp

/-- Finding: ORD-MIN and ORD-MAX of a single argument are 0, not 1. -/
theorem C30_finding_single (cmp : Opnd → Opnd → Option Int) (f : Opnd) :
    intrOrdMin cmp [f] = some 0 ∧ intrOrdMax cmp [f] = some 0 := ⟨rfl, rfl⟩

/-! #### SUM -/

theorem add_scale (d1 d2 : Dec) (h1 : d1.isNaN = false) (h2 : d2.isNaN = false) :
    (d1.add d2).scale = max d1.scale d2.scale := by
  simp only [add, h1, h2, Bool.or_false, Bool.false_eq_true, if_false]
  unfold align
  split
  · simp only [scale_shift]; omega
  · split <;> simp only <;> omega

theorem sumLoop_spec (ebc : Bool) (args : List Item) :
    ∀ (xs : List ℚ) (scale : Int) (d : Dec), d.isNaN = false → d.scale = scale → 0 ≤ scale → scale ≤ 127 →
      List.Forall₂ (fun it x => WFItem it ∧ Holds ebc it x ∧ -128 < it.field.attr.scale ∧ it.field.attr.scale ≤ 127) args xs →
      ∃ s d', sumLoop ebc args scale d = some (s, d') ∧ d'.isNaN = false ∧ d'.scale = s ∧ 0 ≤ s ∧ s ≤ 127 ∧
        d'.toRat = d.toRat + xs.sum := by
  induction args with
  | nil =>
    intro xs scale d hd hs h0 h1 hf
    cases hf
    exact ⟨scale, d, rfl, hd, hs, h0, h1, by simp⟩
  | cons f fs ih =>
    intro xs scale d hd hs h0 h1 hf
    cases hf with
    | cons ha hr =>
      rename_i x xs
      obtain ⟨w, hx, s1, s2⟩ := ha
      obtain ⟨d2, r2, e2, sc2, m2⟩ := holds_read' ebc f w x hx (by omega)
      obtain ⟨a1, a2⟩ := C06_add_exact d d2 hd m2
      have a3 := add_scale d d2 hd m2
      rw [sumLoop, r2]
      simp only
      obtain ⟨s, d', q1, q2, q3, q4, q5, q6⟩ := ih xs (if f.field.attr.scale > scale then f.field.attr.scale else scale)
        (d.add d2) a2 (by rw [a3, hs, sc2]; split <;> omega) (by split <;> omega) (by split <;> omega) hr
      refine ⟨s, d', q1, q2, q3, q4, q5, ?_⟩
      rw [q6, a1, e2, List.sum_cons]; ring

theorem toRat_mul_scale (d : Dec) : d.toRat * (10 : ℚ) ^ d.scale = d.value := by
  unfold toRat
  have : (10 : ℚ) ^ d.scale ≠ 0 := zpow_ne_zero _ (by norm_num)
  field_simp

/-- C30: SUM is the exact sum of its arguments, however many there are, of whatever size, usage
and scale; no digit is lost. -/
theorem C30_sum (ebc trunc extra : Bool) (args : List Item) (xs : List ℚ)
    (h : List.Forall₂ (fun it x => WFItem it ∧ Holds ebc it x ∧ -128 < it.field.attr.scale ∧ it.field.attr.scale ≤ 127) args xs) :
    ∃ r, intrSum ebc trunc extra args = some r ∧ r.raised = false ∧ Holds ebc r.item xs.sum := by
  obtain ⟨s, d, h1, h2, h3, h4, h5, h6⟩ := sumLoop_spec ebc args xs 0 ⟨0, 0⟩ (by decide) rfl (by omega) (by omega) h
  have hz : Dec.toRat ⟨0, 0⟩ = 0 := by simp [toRat]
  rw [hz, zero_add] at h6
  unfold intrSum
  rw [h1]
  simp only
  obtain ⟨sz1, sz2⟩ := sizeBase10_spec extra d.value
  have hval : d.toRat * (10 : ℚ) ^ s = d.value := by rw [← h3]; exact toRat_mul_scale d
  have hback : (d.value : ℚ) / (10 : ℚ) ^ s = xs.sum := by rw [← h6, ← h3]; rfl
  by_cases hc : sizeBase10 extra d.value < 19
  · rw [if_pos hc]
    obtain ⟨z1, z2, z3, z4, z5⟩ := store_newBinary8 ebc trunc d h2 18 s (by omega) d.value (by rw [hval]; exact isTrunc_int _)
      (lt_of_lt_of_le sz1 (le_trans (Nat.pow_le_pow_right (by omega) (show sizeBase10 extra d.value ≤ 18 by omega)) (by norm_num)))
    rw [hback] at z5
    exact ⟨_, rfl, z1, z5⟩
  · rw [if_neg hc]
    obtain ⟨size, hsize, hle⟩ : ∃ size : Nat, size = (if s > ((if d.scale > (sizeBase10 extra d.value : Int) then d.scale.toNat else sizeBase10 extra d.value : Nat) : Int) then s.toNat
        else (if d.scale > (sizeBase10 extra d.value : Int) then d.scale.toNat else sizeBase10 extra d.value)) ∧ sizeBase10 extra d.value ≤ size := by
      refine ⟨_, rfl, ?_⟩
      split <;> split at * <;> omega
    rw [← hsize]
    have hsch : schar s = s := schar_id _ (by omega) (by omega)
    have hdz : (newZoned size s true).field.dsize = size := by simp [newZoned, Field.dsize]
    obtain ⟨a1, a2, a3, a4, a5, a6⟩ := C05_store_any_item ebc d h2 (newZoned size s true)
      (wf_newZoned size _ _ (by omega)) { binTrunc := trunc } d.value
      (by unfold Wanted
          simp only [Bool.false_eq_true, if_false]
          rw [show (newZoned size s true).field.attr.scale = s from hsch, hval]
          exact isTrunc_int _)
      ⟨Or.inl rfl, by
        show d.value.natAbs < 10 ^ (newZoned size s true).field.dsize
        rw [hdz]
        exact lt_of_lt_of_le sz1 (Nat.pow_le_pow_right (by omega) hle)⟩
    refine ⟨_, rfl, a1, d.value, a6, ?_⟩
    rw [a5, show (newZoned size s true).field.attr.scale = s from hsch, hback]

/-! #### RANGE -/

/-- Arguments as numbers. -/
def HoldNumbers (ebc : Bool) (args : List Item) (xs : List ℚ) : Prop :=
  List.Forall₂ (fun it x => WFItem it ∧ Holds ebc it x ∧ -128 < it.field.attr.scale ∧ it.field.attr.scale ≤ 127) args xs

theorem rangeLoop_spec (ebc : Bool) (args : List Item) :
    ∀ (xs : List ℚ) (lo hi : Item) (x y : ℚ), HoldNumbers ebc args xs →
      HoldNumbers ebc [lo, hi] [x, y] →
      ∃ lo' hi' x' y', rangeLoop ebc args lo hi = some (lo', hi') ∧ HoldNumbers ebc [lo', hi'] [x', y'] ∧
        (lo' = lo ∨ lo' ∈ args) ∧ (hi' = hi ∨ hi' ∈ args) ∧
        (x' = x ∨ x' ∈ xs) ∧ (y' = y ∨ y' ∈ xs) ∧ (x' ≤ x ∧ ∀ z ∈ xs, x' ≤ z) ∧ (y ≤ y' ∧ ∀ z ∈ xs, z ≤ y') := by
  induction args with
  | nil =>
    intro xs lo hi x y hx hb
    cases hx
    exact ⟨lo, hi, x, y, rfl, hb, Or.inl rfl, Or.inl rfl, Or.inl rfl, Or.inl rfl, ⟨le_refl _, by simp⟩, ⟨le_refl _, by simp⟩⟩
  | cons f fs ih =>
    intro xs lo hi x y hx hb
    cases hx with
    | cons ha hr =>
      rename_i z zs
      have hb' := hb
      unfold HoldNumbers at hb'
      simp only [List.forall₂_cons, List.forall₂_nil_left_iff, and_true] at hb'
      obtain ⟨hlo, hhi⟩ := hb'
      have c1 := (C09_items ebc f lo ha.1 hlo.1 z x ha.2.1 hlo.2.1).1
      have c2 := (C09_items ebc f hi ha.1 hhi.1 z y ha.2.1 hhi.2.1).1
      rw [rangeLoop, c1, c2]
      simp only
      obtain ⟨lo', hi', x', y', h1, h2, g3, g4, h3, h4, h5, h6⟩ := ih zs (if compare z x = .lt then f else lo) (if compare z y = .gt then f else hi)
        (min z x) (max z y) hr (by
          unfold HoldNumbers
          simp only [List.forall₂_cons, List.forall₂_nil_left_iff, and_true]
          constructor
          · by_cases h : z < x
            · rw [if_pos (compare_lt_iff_lt.mpr h), min_eq_left h.le]; exact ha
            · rw [if_neg (fun c => h (compare_lt_iff_lt.mp c)), min_eq_right (not_lt.mp h)]; exact hlo
          · by_cases h : y < z
            · rw [if_pos (compare_gt_iff_gt.mpr h), max_eq_left h.le]; exact ha
            · rw [if_neg (fun c => h (compare_gt_iff_gt.mp c)), max_eq_right (not_lt.mp h)]; exact hhi)
      refine ⟨lo', hi', x', y', h1, h2, ?_, ?_, ?_, ?_, ?_, ?_⟩
      · rcases g3 with h | h
        · split at h
          · right; rw [h]; simp
          · left; exact h
        · right; simp [h]
      · rcases g4 with h | h
        · split at h
          · right; rw [h]; simp
          · left; exact h
        · right; simp [h]
      · rcases h3 with h | h
        · rcases min_choice z x with e | e
          · right; rw [h, e]; simp
          · left; rw [h, e]
        · right; simp [h]
      · rcases h4 with h | h
        · rcases max_choice z y with e | e
          · right; rw [h, e]; simp
          · left; rw [h, e]
        · right; simp [h]
      · refine ⟨le_trans h5.1 (min_le_right z x), ?_⟩
        intro w hw
        rcases List.mem_cons.mp hw with rfl | hw
        · exact le_trans h5.1 (min_le_left _ x)
        · exact h5.2 w hw
      · refine ⟨le_trans (le_max_right z y) h6.1, ?_⟩
        intro w hw
        rcases List.mem_cons.mp hw with rfl | hw
        · exact le_trans (le_max_left _ y) h6.1
        · exact h6.2 w hw

/-- C30: RANGE is the largest argument minus the smallest, when it fits 18 digits. -/
theorem C30_range (ebc trunc : Bool) (f : Item) (fs : List Item) (x : ℚ) (xs : List ℚ)
    (h : HoldNumbers ebc (f :: fs) (x :: xs))
    (hfit : ∀ lo ∈ x :: xs, ∀ hi ∈ x :: xs, ∀ g ∈ f :: fs, |(hi - lo) * (10 : ℚ) ^ g.field.attr.scale| < 10 ^ 18) :
    ∃ r lo hi, intrRange ebc trunc f fs = some r ∧ r.raised = false ∧ lo ∈ x :: xs ∧ hi ∈ x :: xs ∧
      (∀ z ∈ x :: xs, lo ≤ z ∧ z ≤ hi) ∧ Holds ebc r.item (hi - lo) := by
  have hf : HoldNumbers ebc [f, f] [x, x] := by
    unfold HoldNumbers at h ⊢
    simp only [List.forall₂_cons, List.forall₂_nil_left_iff, and_true] at h ⊢
    exact ⟨h.1, h.1⟩
  have hr : HoldNumbers ebc fs xs := by
    unfold HoldNumbers at h ⊢
    simp only [List.forall₂_cons] at h
    exact h.2
  obtain ⟨lo, hi, a, b, h1, h2, g1, g2, h3, h4, h5, h6⟩ := rangeLoop_spec ebc fs xs f f x x hr hf
  have h2' := h2
  unfold HoldNumbers at h2'
  simp only [List.forall₂_cons, List.forall₂_nil_left_iff, and_true] at h2'
  obtain ⟨⟨wl, hl, sl⟩, ⟨wh, hh, sh⟩⟩ := h2'
  obtain ⟨d2, r2, e2, s2, m2⟩ := holds_read' ebc lo wl a hl (by omega)
  obtain ⟨d1, r1, e1, s1, m1⟩ := holds_read' ebc hi wh b hh (by omega)
  obtain ⟨t1, t2⟩ := C06_sub_exact d1 d2 m1 m2
  rw [e1, e2] at t1
  have ham : a ∈ x :: xs := by rcases h3 with h | h <;> simp [h]
  have hbm : b ∈ x :: xs := by rcases h4 with h | h <;> simp [h]
  have hmx : (if hi.field.attr.scale > lo.field.attr.scale then hi.field.attr.scale else lo.field.attr.scale) =
      max hi.field.attr.scale lo.field.attr.scale := by split <;> omega
  obtain ⟨u, hu⟩ : ∃ u : ℤ, (b - a) * (10 : ℚ) ^ max hi.field.attr.scale lo.field.attr.scale = u := by
    obtain ⟨k1, hk1⟩ : ∃ k : ℕ, max hi.field.attr.scale lo.field.attr.scale = hi.field.attr.scale + k :=
      ⟨(max hi.field.attr.scale lo.field.attr.scale - hi.field.attr.scale).toNat, by omega⟩
    obtain ⟨k2, hk2⟩ : ∃ k : ℕ, max hi.field.attr.scale lo.field.attr.scale = lo.field.attr.scale + k :=
      ⟨(max hi.field.attr.scale lo.field.attr.scale - lo.field.attr.scale).toNat, by omega⟩
    refine ⟨d1.value * 10 ^ k1 - d2.value * 10 ^ k2, ?_⟩
    have q1 : b * (10 : ℚ) ^ max hi.field.attr.scale lo.field.attr.scale = d1.value * 10 ^ k1 := by
      rw [hk1, zpow_add₀ (by norm_num), zpow_natCast, ← mul_assoc, ← e1, ← s1, toRat_mul_scale]
    have q2 : a * (10 : ℚ) ^ max hi.field.attr.scale lo.field.attr.scale = d2.value * 10 ^ k2 := by
      rw [hk2, zpow_add₀ (by norm_num), zpow_natCast, ← mul_assoc, ← e2, ← s2, toRat_mul_scale]
    rw [sub_mul, q1, q2]; push_cast; ring
  have hub : u.natAbs < 2 ^ 63 := by
    have hl' : lo ∈ f :: fs := by rcases g1 with h | h <;> simp [h]
    have hh' : hi ∈ f :: fs := by rcases g2 with h | h <;> simp [h]
    have hfit' : |(b - a) * (10 : ℚ) ^ max hi.field.attr.scale lo.field.attr.scale| < 10 ^ 18 := by
      rcases max_choice hi.field.attr.scale lo.field.attr.scale with e | e <;> rw [e]
      · exact hfit a ham b hbm hi hh'
      · exact hfit a ham b hbm lo hl'
    rw [hu] at hfit'
    have : |u| < 10 ^ 18 := by exact_mod_cast hfit'
    rw [abs_lt] at this
    omega
  obtain ⟨z1, z2, z3, z4, z5⟩ := store_newBinary8 ebc trunc (d1.sub d2) t2 18 (max hi.field.attr.scale lo.field.attr.scale)
    (by omega) u (by rw [t1, hu]; exact isTrunc_int _) hub
  have hback : (u : ℚ) / (10 : ℚ) ^ max hi.field.attr.scale lo.field.attr.scale = b - a := by
    rw [← hu]
    have : (10 : ℚ) ^ max hi.field.attr.scale lo.field.attr.scale ≠ 0 := zpow_ne_zero _ (by norm_num)
    field_simp
  rw [hback] at z5
  refine ⟨storeItem ebc (d1.sub d2) (newBinary 18 (max hi.field.attr.scale lo.field.attr.scale) true 8) { binTrunc := trunc },
    a, b, ?_, z1, ham, hbm, ?_, z5⟩
  · unfold intrRange
    rw [h1]
    simp only
    rw [r1, r2]
    simp only [hmx]
  · intro z hz
    rcases List.mem_cons.mp hz with rfl | hz
    · exact ⟨h5.1, h6.1⟩
    · exact ⟨h5.2 z hz, h6.2 z hz⟩

/-! #### MEDIAN -/

/-- The middle of a non-empty list of numbers in order. -/
def IsMedian (sorted : List ℚ) (m : ℚ) : Prop :=
  if sorted.length % 2 = 1 then sorted[sorted.length / 2]? = some m
  else ∃ a b, sorted[sorted.length / 2 - 1]? = some a ∧ sorted[sorted.length / 2]? = some b ∧ m = (a + b) / 2

theorem forall2_get {α β : Type} (R : α → β → Prop) (l1 : List α) (l2 : List β) (h : List.Forall₂ R l1 l2) (i : Nat) (b : β)
    (hb : l2[i]? = some b) : ∃ a, l1[i]? = some a ∧ R a b := by
  induction h generalizing i with
  | nil => simp at hb
  | cons hab _ ih =>
    cases i with
    | zero => simp at hb ⊢; subst hb; exact hab
    | succ i => simpa using ih i (by simpa using hb)

theorem div_two_exact (d : Dec) (hd : d.isNaN = false) : (d.div ⟨2, 0⟩).1.toRat = d.toRat / 2 := by
  by_cases h0 : d.value = 0
  · have : d.toRat = 0 := (toRat_zero_iff d).mpr h0
    rw [this]
    have h2 : (⟨2, 0⟩ : Dec).isNaN = false := by decide
    simp only [div, hd, h2, Bool.or_false, Bool.false_eq_true, if_false, h0, if_true]
    simp [toRat]
  · obtain ⟨k, hk⟩ : ∃ k : ℕ, (37 + (if d.scale - 0 < 0 then -(d.scale - 0) else 0)) = ((k + 1 : ℕ) : ℤ) := by
      refine ⟨(36 + (if d.scale - 0 < 0 then -(d.scale - 0) else 0)).toNat, ?_⟩
      split <;> omega
    have h2 : (⟨2, 0⟩ : Dec).isNaN = false := by decide
    have e : (d.div ⟨2, 0⟩).1 = ⟨(d.value * 10 ^ (k + 1)).tdiv 2, d.scale - 0 + ((k + 1 : ℕ) : ℤ)⟩ := by
      simp only [div, hd, h2, Bool.or_false, Bool.false_eq_true, if_false, h0, hk, shift_pos_value, scale_shift]
      simp
    rw [e]
    have hex : (d.value * 10 ^ (k + 1)).tdiv 2 = d.value * 10 ^ k * 5 := by
      rw [pow_succ, show d.value * (10 ^ k * 10) = d.value * 10 ^ k * 5 * 2 by ring]
      exact Int.mul_tdiv_cancel _ (by norm_num)
    rw [hex]
    unfold toRat
    simp only
    rw [sub_zero, zpow_add₀ (by norm_num), zpow_natCast, pow_succ]
    have : (10 : ℚ) ^ d.scale ≠ 0 := zpow_ne_zero _ (by norm_num)
    push_cast
    field_simp
    ring

theorem holdNumbers_map (ebc : Bool) (l : List Item) (ys : List ℚ) (hl : HoldNumbers ebc l ys) :
    ys = l.map (fun it => ((readItem ebc it).1.getD ⟨0, 0⟩).toRat) := by
  induction hl with
  | nil => rfl
  | cons hab _ ih =>
    obtain ⟨w, hx, s1, s2⟩ := hab
    obtain ⟨d, r, e, _, _⟩ := holds_read' ebc _ w _ hx (by omega)
    rw [List.map_cons, ← ih, r]
    simp [e]

/-- C30: MEDIAN.  Let `sargs` be any arrangement of the arguments that the library sort may leave:
a permutation with no argument comparing greater than a later one.  The result is the middle
one, or exactly half the sum of the two middle ones, of the numbers in ascending order. -/
theorem C30_median (ebc : Bool) (args sargs : List Item) (hne : args ≠ []) (xs : List ℚ)
    (hxs : HoldNumbers ebc args xs) (hperm : sargs.Perm args)
    (hsorted : sargs.Pairwise (fun a b => numericCmp ebc a b ≠ some .gt)) :
    ∃ sorted d, sorted.Perm xs ∧ sorted.Pairwise (· ≤ ·) ∧ medianOf ebc sargs = some d ∧ IsMedian sorted d.toRat := by
  have hall : ∀ it ∈ args, ∃ x, WFItem it ∧ Holds ebc it x ∧ -128 < it.field.attr.scale ∧ it.field.attr.scale ≤ 127 := by
    intro it hit
    obtain ⟨i, hi⟩ := List.getElem?_of_mem hit
    have hlt : i < xs.length := by
      rw [← List.Forall₂.length_eq hxs]
      exact (List.getElem?_eq_some_iff.mp hi).1
    obtain ⟨a, ha, hR⟩ := forall2_get _ _ _ hxs i _ (List.getElem?_eq_getElem hlt)
    rw [hi] at ha
    simp only [Option.some_inj] at ha
    subst ha
    exact ⟨_, hR⟩
  obtain ⟨sorted, h⟩ : ∃ sorted, HoldNumbers ebc sargs sorted := by
    have hall' : ∀ it ∈ sargs, ∃ x, WFItem it ∧ Holds ebc it x ∧ -128 < it.field.attr.scale ∧ it.field.attr.scale ≤ 127 :=
      fun it hit => hall it (hperm.mem_iff.mp hit)
    clear hperm hsorted
    induction sargs with
    | nil => exact ⟨[], List.Forall₂.nil⟩
    | cons a l ih =>
      obtain ⟨x, hx⟩ := hall' a (by simp)
      obtain ⟨ys, hys⟩ := ih (fun it hit => hall' it (by simp [hit]))
      exact ⟨x :: ys, List.Forall₂.cons hx hys⟩
  have hlen := List.Forall₂.length_eq h
  have hsort : sorted.Pairwise (· ≤ ·) := by
    clear hlen hperm
    induction h with
    | nil => exact List.Pairwise.nil
    | @cons a x l ys hab hl ih =>
      rw [List.pairwise_cons] at hsorted ⊢
      refine ⟨?_, ih hsorted.2⟩
      intro y hy
      obtain ⟨i, hi⟩ := List.getElem?_of_mem hy
      obtain ⟨b, hb, hR⟩ := forall2_get _ _ _ hl i _ hi
      have := hsorted.1 b (List.mem_of_getElem? hb)
      rw [(C09_items ebc a b hab.1 hR.1 x y hab.2.1 hR.2.1).1] at this
      by_contra hc
      apply this
      rw [compare_gt_iff_gt.mpr (not_le.mp hc)]
  have hpv : sorted.Perm xs := by
    rw [holdNumbers_map _ _ _ h, holdNumbers_map _ _ _ hxs]
    exact hperm.map _
  suffices hmed : ∃ d, medianOf ebc sargs = some d ∧ IsMedian sorted d.toRat by
    obtain ⟨d, h1, h2⟩ := hmed
    exact ⟨sorted, d, hpv, hsort, h1, h2⟩
  have hpos : 0 < sorted.length := by
    rw [← hlen, hperm.length_eq]
    exact List.length_pos_iff.mpr hne
  unfold medianOf IsMedian
  simp only
  rw [hlen]
  by_cases hodd : sorted.length % 2 = 1
  · simp only [if_pos hodd]
    obtain ⟨m, hm⟩ : ∃ m, sorted[sorted.length / 2]? = some m := ⟨_, List.getElem?_eq_getElem (by omega)⟩
    obtain ⟨it, hit, w, hx, s1, s2⟩ := forall2_get _ _ _ h _ _ hm
    obtain ⟨d, r, e, _, _⟩ := holds_read' ebc _ w _ hx (by omega)
    rw [hit]
    simp only
    rw [r]
    exact ⟨d, rfl, by rw [hm, e]⟩
  · simp only [if_neg hodd]
    obtain ⟨a, ha⟩ : ∃ m, sorted[sorted.length / 2 - 1]? = some m := ⟨_, List.getElem?_eq_getElem (by omega)⟩
    obtain ⟨b, hb⟩ : ∃ m, sorted[sorted.length / 2]? = some m := ⟨_, List.getElem?_eq_getElem (by omega)⟩
    obtain ⟨i1, hi1, w1, hx1, _, _⟩ := forall2_get _ _ _ h _ _ ha
    obtain ⟨i2, hi2, w2, hx2, _, _⟩ := forall2_get _ _ _ h _ _ hb
    obtain ⟨d1, r1, e1, _, m1⟩ := holds_read' ebc _ w1 _ hx1 (by omega)
    obtain ⟨d2, r2, e2, _, m2⟩ := holds_read' ebc _ w2 _ hx2 (by omega)
    rw [hi1, hi2]
    simp only
    rw [r1, r2]
    simp only
    obtain ⟨t1, t2⟩ := C06_add_exact d1 d2 m1 m2
    rw [e1, e2] at t1
    refine ⟨_, rfl, a, b, ha, hb, ?_⟩
    rw [← t1]
    exact div_two_exact _ t2


/-! non-vacuity -/
private def n3 : Item := ⟨.display, ⟨{ digits := 2, scale := 1, haveSign := true }, [48, 0x73]⟩⟩
private def n12 : Item := ⟨.display, ⟨{ digits := 2 }, [49, 50]⟩⟩

private theorem ex_numbers : HoldNumbers false [n12, n3] [12, -3 / 10] := by
  refine .cons ⟨⟨by decide, by decide⟩, ⟨12, ⟨false, [1, 2], by decide, by decide, by decide, by decide⟩, by norm_num [n12]⟩, by decide, by decide⟩
    (.cons ⟨⟨by decide, by decide⟩, ⟨-3, ⟨true, [0, 3], by decide, by decide, by decide, by decide⟩, by norm_num [n3]⟩, by decide, by decide⟩ .nil)

example : SameClass false [.num n12, .num n3] := by
  left
  have h := ex_numbers
  unfold HoldNumbers at h
  simp only [List.forall₂_cons, List.forall₂_nil_left_iff, and_true] at h
  intro o ho
  simp at ho
  rcases ho with rfl | rfl
  · exact ⟨n12, 12, rfl, h.1.1, h.1.2.1⟩
  · exact ⟨n3, _, rfl, h.2.1, h.2.2.1⟩

example : SameClass false [.text [66], .text [65]] ∧ intrOrdMin (cobCmp false none) [.text [66], .text [65], .text [65, 32]] = some 2 := by
  refine ⟨Or.inr (by simp), by decide⟩

example : (([n3, n12] : List Item).Pairwise (fun a b => numericCmp false a b ≠ some .gt)) ∧ List.Perm [n3, n12] [n12, n3] ∧
    medianOf false [n3, n12] = some ⟨585 * 10 ^ 36, 38⟩ := by
  refine ⟨by simp; decide, List.Perm.swap _ _ _, by decide⟩

end Cob
