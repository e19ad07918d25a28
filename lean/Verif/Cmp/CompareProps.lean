import Verif.Cmp.Compare
import Verif.Move.NumericProps
/-
Properties C23 (comparison), C24 (class conditions) and C25 (SORT keys).
-/
namespace Cob

/-! ### Specification -/

/-- The character at position `i` of a text extended with spaces. -/
def cell (s : List Nat) (i : Nat) : Nat := s.getD i 32

/-- `x` comes before `y`: at the first position where the characters differ in the collating
sequence, that of `x` is lower. -/
def Before (w : Nat → Int) (x y : Nat → Nat) : Prop :=
  ∃ i, (∀ j < i, w (x j) = w (y j)) ∧ w (x i) < w (y i)

/-- A literal repeated to `n` characters. -/
def repeated (lit : List Nat) (n : Nat) : List Nat :=
  (List.range n).map fun i => lit.getD (i % lit.length) 0

/-! ### Lemmas -/

theorem before_step (w : Nat → Int) (x y : Nat → Nat) :
    Before w x y ↔ w (x 0) < w (y 0) ∨ (w (x 0) = w (y 0) ∧ Before w (fun i => x (i + 1)) (fun i => y (i + 1))) := by
  constructor
  · rintro ⟨i, h1, h2⟩
    cases i with
    | zero => exact Or.inl h2
    | succ i =>
      exact Or.inr ⟨h1 0 (by omega), i, fun j hj => h1 (j + 1) (by omega), h2⟩
  · rintro (h | ⟨h0, i, h1, h2⟩)
    · exact ⟨0, by omega, h⟩
    · refine ⟨i + 1, ?_, h2⟩
      intro j hj
      cases j with
      | zero => exact h0
      | succ j => exact h1 j (by omega)

theorem before_irrefl (w : Nat → Int) (x y : Nat → Nat) (h : ∀ i, w (x i) = w (y i)) : ¬ Before w x y := by
  rintro ⟨i, _, h2⟩
  have := h i
  omega

theorem before_trans (w : Nat → Int) (x y z : Nat → Nat) (h1 : ¬ Before w y x) (h2 : ¬ Before w z y) : ¬ Before w z x := by
  rintro ⟨i, hi1, hi2⟩
  by_cases heq : ∀ j < i, w (x j) = w (y j)
  · rcases Int.lt_trichotomy (w (x i)) (w (y i)) with h | h | h
    · exact h2 ⟨i, fun j hj => by rw [hi1 j hj, heq j hj], by omega⟩
    · exact h2 ⟨i, fun j hj => by rw [hi1 j hj, heq j hj], by omega⟩
    · exact h1 ⟨i, fun j hj => (heq j hj).symm, h⟩
  · -- the first position where x and y differ
    have hex : ∃ j, j < i ∧ w (x j) ≠ w (y j) := by
      by_contra hcon
      exact heq fun j hj => by
        by_contra hne
        exact hcon ⟨j, hj, hne⟩
    obtain ⟨j, ⟨hj1, hj2⟩, hmin⟩ := Nat.find_spec hex |> fun h => (⟨Nat.find hex, h, fun m hm => Nat.find_min hex hm⟩ :
      ∃ j, (j < i ∧ w (x j) ≠ w (y j)) ∧ ∀ m < j, ¬ (m < i ∧ w (x m) ≠ w (y m)))
    have hpre : ∀ m < j, w (x m) = w (y m) := by
      intro m hm
      by_contra hne
      exact hmin m hm ⟨by omega, hne⟩
    rcases Int.lt_trichotomy (w (x j)) (w (y j)) with h | h | h
    · exact h2 ⟨j, fun m hm => by rw [hi1 m (by omega), hpre m hm], by rw [hi1 j hj1]; exact h⟩
    · exact hj2 h
    · exact h1 ⟨j, fun m hm => (hpre m hm).symm, h⟩

theorem before_total (w : Nat → Int) (x y : Nat → Nat) (h1 : ¬ Before w x y) (h2 : ¬ Before w y x) :
    ∀ i, w (x i) = w (y i) := by
  intro i
  induction i using Nat.strong_induction_on with
  | _ i ih =>
    rcases Int.lt_trichotomy (w (x i)) (w (y i)) with h | h | h
    · exact absurd ⟨i, ih, h⟩ h1
    · exact h
    · exact absurd ⟨i, fun j hj => (ih j hj).symm, h⟩ h2

theorem cmpSimple_nil (col : Option (Nat → Nat)) : cmpSimple col [] [] = 0 := by simp [cmpSimple, alnumCmps]

theorem cmpSimple_left (col : Option (Nat → Nat)) (b : Nat) (bs : List Nat) :
    cmpSimple col [] (b :: bs) = if weight col 32 - weight col b ≠ 0 then weight col 32 - weight col b else cmpSimple col [] bs := by
  have h0 : ∀ bs, cmpSimple col [] bs = -(cmpC col bs 32) := by
    intro bs
    cases bs <;> simp [cmpSimple, alnumCmps, cmpC]
  rw [h0, h0, cmpC]
  split <;> split <;> omega

theorem cmpSimple_right (col : Option (Nat → Nat)) (a : Nat) (as : List Nat) :
    cmpSimple col (a :: as) [] = if weight col a - weight col 32 ≠ 0 then weight col a - weight col 32 else cmpSimple col as [] := by
  have h0 : ∀ bs, cmpSimple col bs [] = cmpC col bs 32 := by
    intro bs
    cases bs <;> simp [cmpSimple, alnumCmps, cmpC]
  rw [h0, h0, cmpC]

theorem cmpSimple_cons (col : Option (Nat → Nat)) (a b : Nat) (as bs : List Nat) :
    cmpSimple col (a :: as) (b :: bs) = if weight col a - weight col b ≠ 0 then weight col a - weight col b else cmpSimple col as bs := by
  have hm : min (a :: as).length (b :: bs).length = min as.length bs.length + 1 := by simp [Nat.succ_min_succ]
  conv_lhs => unfold cmpSimple
  simp only [hm]
  rw [alnumCmps]
  by_cases h : weight col a - weight col b ≠ 0
  · rw [if_pos h, if_neg h]
    rw [if_pos h]
  · rw [if_neg h, if_neg h]
    unfold cmpSimple
    simp only [List.length_cons, Nat.add_lt_add_iff_right, List.drop_succ_cons]

/-- The sign of the comparison is the order of the space-extended texts. -/
theorem cmpSimple_spec (col : Option (Nat → Nat)) : ∀ a b : List Nat,
    (cmpSimple col a b < 0 ↔ Before (weight col) (cell a) (cell b)) ∧
    (0 < cmpSimple col a b ↔ Before (weight col) (cell b) (cell a)) := by
  have step : ∀ (a b : List Nat) (r : Int) (a' b' : List Nat),
      ((r < 0 ↔ Before (weight col) (cell a') (cell b')) ∧ (0 < r ↔ Before (weight col) (cell b') (cell a'))) →
      (∀ i, cell a (i + 1) = cell a' i) → (∀ i, cell b (i + 1) = cell b' i) →
      let q := if weight col (cell a 0) - weight col (cell b 0) ≠ 0 then weight col (cell a 0) - weight col (cell b 0) else r
      (q < 0 ↔ Before (weight col) (cell a) (cell b)) ∧ (0 < q ↔ Before (weight col) (cell b) (cell a)) := by
    intro a b r a' b' h ha hb
    simp only
    rw [before_step, before_step (weight col) (cell b)]
    rw [show (fun i => cell a (i + 1)) = cell a' from funext ha, show (fun i => cell b (i + 1)) = cell b' from funext hb,
      ← h.1, ← h.2]
    by_cases he : weight col (cell a 0) - weight col (cell b 0) ≠ 0
    · rw [if_pos he]
      constructor <;> constructor <;> intro hh <;> omega
    · rw [if_neg he]
      constructor <;> constructor <;> intro hh <;> omega
  intro a
  induction a with
  | nil =>
    intro b
    induction b with
    | nil =>
      rw [cmpSimple_nil]
      simp [before_irrefl]
    | cons b bs ih =>
      rw [cmpSimple_left]
      exact step [] (b :: bs) _ [] bs ih (fun i => by simp [cell]) (fun i => by simp [cell])
  | cons a as ih =>
    intro b
    cases b with
    | nil =>
      rw [cmpSimple_right]
      exact step (a :: as) [] _ as [] (ih []) (fun i => by simp [cell]) (fun i => by simp [cell])
    | cons b bs =>
      rw [cmpSimple_cons]
      exact step (a :: as) (b :: bs) _ as bs (ih bs) (fun i => by simp [cell]) (fun i => by simp [cell])

theorem cmpSimple_anti (col : Option (Nat → Nat)) : ∀ a b : List Nat, cmpSimple col b a = -cmpSimple col a b := by
  intro a
  induction a with
  | nil =>
    intro b
    induction b with
    | nil => simp [cmpSimple_nil]
    | cons b bs ih =>
      rw [cmpSimple_left, cmpSimple_right, ih]
      split <;> split <;> omega
  | cons a as ih =>
    intro b
    cases b with
    | nil => rw [cmpSimple_left, cmpSimple_right, ih]; split <;> split <;> omega
    | cons b bs => rw [cmpSimple_cons, cmpSimple_cons, ih]; split <;> split <;> omega

/-- For texts of the same length only the common part counts. -/
theorem cmpSimple_same (col : Option (Nat → Nat)) (a b : List Nat) (h : a.length = b.length) :
    cmpSimple col a b = alnumCmps col a b a.length := by
  unfold cmpSimple
  simp only [h, Nat.min_self, Nat.lt_irrefl, if_false]
  split
  · omega
  · rfl

theorem cmpSimple_append (col : Option (Nat → Nat)) : ∀ a b c d : List Nat, a.length = b.length →
    cmpSimple col (a ++ c) (b ++ d) = if cmpSimple col a b ≠ 0 then cmpSimple col a b else cmpSimple col c d := by
  intro a
  induction a with
  | nil =>
    intro b c d h
    have : b = [] := List.length_eq_zero_iff.mp h.symm
    subst this
    simp [cmpSimple_nil]
  | cons a as ih =>
    intro b c d h
    cases b with
    | nil => simp at h
    | cons b bs =>
      rw [List.cons_append, List.cons_append, cmpSimple_cons, cmpSimple_cons, ih bs c d (by simpa using h)]
      by_cases he : weight col a - weight col b ≠ 0
      · rw [if_pos he, if_pos he, if_pos he]
      · rw [if_neg he, if_neg he]

theorem repeated_length (lit : List Nat) (n : Nat) : (repeated lit n).length = n := by simp [repeated]

theorem repeated_short (lit : List Nat) (n : Nat) (h : n ≤ lit.length) : repeated lit n = lit.take n := by
  apply List.ext_getElem
  · simp [repeated]; omega
  · intro i h1 h2
    simp only [repeated, List.length_map, List.length_range] at h1
    simp only [repeated, List.getElem_map, List.getElem_range, List.getElem_take]
    rw [Nat.mod_eq_of_lt (by omega)]
    rw [List.getD_eq_getElem?_getD, List.getElem?_eq_getElem (by omega)]
    rfl

theorem repeated_long (lit : List Nat) (n : Nat) (h : lit.length ≤ n) :
    repeated lit n = lit ++ repeated lit (n - lit.length) := by
  have hs := repeated_short lit lit.length (le_refl _)
  rw [List.take_length] at hs
  unfold repeated
  conv_lhs => rw [show n = lit.length + (n - lit.length) by omega, List.range_add, List.map_append]
  congr 1
  rw [List.map_map]
  apply List.map_congr_left
  intro i _
  simp

theorem cmpRepeat_spec (col : Option (Nat → Nat)) (lit : List Nat) (hl : lit ≠ []) : ∀ (fuel : Nat) (data : List Nat),
    data.length < fuel → cmpRepeat col false lit fuel data = cmpSimple col data (repeated lit data.length) ∧
      cmpRepeat col true lit fuel data = cmpSimple col (repeated lit data.length) data := by
  have hpos := List.length_pos_iff.mpr hl
  have pre : ∀ (a b : List Nat) (n : Nat), n ≤ a.length → n ≤ b.length → alnumCmps col a b n = cmpSimple col (a.take n) (b.take n) := by
    intro a
    induction a with
    | nil => intro b n h _; have : n = 0 := by simpa using h
             subst this; simp [alnumCmps, cmpSimple_nil]
    | cons a as ih =>
      intro b n h1 h2
      cases n with
      | zero => simp [alnumCmps, cmpSimple_nil]
      | succ n =>
        cases b with
        | nil => simp at h2
        | cons b bs =>
          rw [alnumCmps, List.take_succ_cons, List.take_succ_cons, cmpSimple_cons, ih bs n (by simpa using h1) (by simpa using h2)]
  intro fuel
  induction fuel with
  | zero => intro data h; omega
  | succ fuel ih =>
    intro data h
    rw [cmpRepeat, cmpRepeat]
    simp only [if_true, Bool.false_eq_true, if_false]
    by_cases hle : lit.length ≤ data.length
    · rw [if_pos hle, if_pos hle, Nat.min_eq_left hle, repeated_long lit _ hle]
      obtain ⟨i1, i2⟩ := ih (data.drop lit.length) (by simp; omega)
      have hd : data.length - lit.length = (data.drop lit.length).length := by simp
      have hsplit : data = data.take lit.length ++ data.drop lit.length := (List.take_append_drop _ _).symm
      rw [pre data lit _ hle (le_refl _), pre lit data _ (le_refl _) hle, List.take_length, i1, i2, hd]
      constructor
      · conv_rhs => rw [hsplit]
        rw [cmpSimple_append _ _ _ _ _ (by simp; omega)]
        simp
      · conv_rhs => rw [hsplit]
        rw [cmpSimple_append _ _ _ _ _ (by simp; omega)]
        simp
    · rw [if_neg hle, if_neg hle, Nat.min_eq_right (by omega), repeated_short lit _ (by omega),
        pre data lit _ (le_refl _) (by omega), pre lit data _ (by omega) (le_refl _), List.take_length]
      exact ⟨rfl, rfl⟩

theorem cmpC_spec (col : Option (Nat → Nat)) (c : Nat) : ∀ data : List Nat,
    cmpC col data c = cmpSimple col data (repeated [c] data.length) := by
  intro data
  induction data with
  | nil => simp [cmpC, repeated, cmpSimple_nil]
  | cons b bs ih =>
    have : repeated [c] (b :: bs).length = c :: repeated [c] bs.length := by
      rw [repeated_long [c] _ (by simp)]
      simp
    rw [this, cmpSimple_cons, cmpC, ih]

/-- Comparison with an ALL literal, the other operand not being one. -/
theorem cmpWithAll_spec (ebc : Bool) (col : Option (Nat → Nat)) (f1 : Opnd) (lit : List Nat) (hl : lit ≠ [])
    (hf : isAll f1 = false) :
    cmpWithAll ebc col f1 lit = cmpSimple col (stripped ebc f1) (repeated lit (stripped ebc f1).length) := by
  unfold cmpWithAll
  split
  · rename_i h1
    obtain ⟨c, hc⟩ := List.length_eq_one_iff.mp h1
    subst hc
    exact cmpC_spec col c _
  · unfold cmpAll
    simp only [hf, Bool.false_and, Bool.false_eq_true, if_false]
    exact (cmpRepeat_spec col lit hl _ _ (by omega)).1

theorem cmpWithAll_all (ebc : Bool) (col : Option (Nat → Nat)) (f1 : Opnd) (l2 : List Nat) (hf : isAll f1 = true)
    (h1 : stripped ebc f1 ≠ []) (h2 : l2 ≠ []) :
    cmpWithAll ebc col f1 l2 =
      cmpSimple col (repeated (stripped ebc f1) (max (stripped ebc f1).length l2.length))
        (repeated l2 (max (stripped ebc f1).length l2.length)) := by
  generalize hl1 : stripped ebc f1 = l1 at *
  have p1 := List.length_pos_iff.mpr h1
  have hself : ∀ l : List Nat, repeated l l.length = l := by
    intro l; rw [repeated_short l _ (le_refl _), List.take_length]
  unfold cmpWithAll
  rw [hl1]
  split
  · rename_i h
    obtain ⟨c, hc⟩ := List.length_eq_one_iff.mp h
    subst hc
    rw [show max l1.length [c].length = l1.length by simp only [List.length_singleton]; omega, hself]
    exact cmpC_spec col c l1
  · unfold cmpAll
    simp only [hf, Bool.true_and, hl1]
    by_cases hlt : l1.length < l2.length
    · rw [if_pos (by simpa using hlt), (cmpRepeat_spec col l1 h1 _ _ (by omega)).2,
        show max l1.length l2.length = l2.length by omega, hself l2]
    · rw [if_neg (by simpa using hlt), (cmpRepeat_spec col l2 h2 _ _ (by omega)).1,
        show max l1.length l2.length = l1.length by omega, hself l1]

/-! ### C23 -/

/-- C23: comparing two alphanumeric operands (elementary or group): "less", "greater" and "equal"
are the lexicographic order of the space-extended texts in the collating sequence. -/
theorem C23_text (ebc : Bool) (col : Option (Nat → Nat)) (a b : List Nat) (f1 f2 : Opnd)
    (h1 : f1 = .text a ∨ f1 = .group a) (h2 : f2 = .text b ∨ f2 = .group b) :
    ∃ r, cobCmp ebc col f1 f2 = some r ∧
      (r < 0 ↔ Before (weight col) (cell a) (cell b)) ∧
      (0 < r ↔ Before (weight col) (cell b) (cell a)) ∧
      (r = 0 ↔ ∀ i, weight col (cell a i) = weight col (cell b i)) := by
  have hc : cobCmp ebc col f1 f2 = some (cmpSimple col a b) := by
    rcases h1 with h1 | h1 <;> rcases h2 with h2 | h2 <;> subst h1 <;> subst h2 <;> rfl
  obtain ⟨s1, s2⟩ := cmpSimple_spec col a b
  refine ⟨_, hc, s1, s2, ?_⟩
  constructor
  · intro h
    exact before_total _ _ _ (fun hb => by have := s1.mpr hb; omega) (fun hb => by have := s2.mpr hb; omega)
  · intro h
    have n1 := before_irrefl (weight col) _ _ h
    have n2 := before_irrefl (weight col) _ _ (fun i => (h i).symm)
    rw [← s1] at n1
    rw [← s2] at n2
    omega

/-- C23: trailing spaces are immaterial, and without a collating sequence equality is equality
of the texts up to trailing spaces. -/
theorem C23_equal_native (ebc : Bool) (a b : List Nat) :
    cobCmp ebc none (.text a) (.text b) = some 0 ↔
      ∃ k, a ++ List.replicate (k - a.length) 32 = b ++ List.replicate (k - b.length) 32 ∧ a.length ≤ k ∧ b.length ≤ k := by
  obtain ⟨r, h, _, _, h0⟩ := C23_text ebc none a b (.text a) (.text b) (Or.inl rfl) (Or.inl rfl)
  rw [h, Option.some_inj, h0]
  have hcell : ∀ (s : List Nat) (k i : Nat), i < k → (s ++ List.replicate (k - s.length) 32)[i]? = some (cell s i) := by
    intro s k i hi
    unfold cell
    by_cases hs : i < s.length
    · rw [List.getElem?_append_left hs, List.getD_eq_getElem?_getD, List.getElem?_eq_getElem hs]; rfl
    · rw [List.getElem?_append_right (by omega), List.getElem?_replicate, if_pos (by omega), List.getD_eq_getElem?_getD,
        List.getElem?_eq_none (by omega)]; rfl
  constructor
  · intro hw
    refine ⟨max a.length b.length, ?_, by omega, by omega⟩
    apply List.ext_getElem?
    intro i
    by_cases hi : i < max a.length b.length
    · rw [hcell _ _ _ hi, hcell _ _ _ hi]
      have := hw i
      simp only [weight] at this
      rw [Int.ofNat_inj.mp this]
    · rw [List.getElem?_eq_none (by simp; omega), List.getElem?_eq_none (by simp; omega)]
  · rintro ⟨k, he, ha, hb⟩ i
    by_cases hi : i < k
    · have : (a ++ List.replicate (k - a.length) 32)[i]? = (b ++ List.replicate (k - b.length) 32)[i]? := by rw [he]
      rw [hcell _ _ _ hi, hcell _ _ _ hi] at this
      rw [Option.some_inj.mp this]
    · simp only [cell]
      rw [List.getD_eq_getElem?_getD, List.getD_eq_getElem?_getD, List.getElem?_eq_none (by omega), List.getElem?_eq_none (by omega)]

/-- C23: the order of texts is a total preorder. -/
theorem C23_total_preorder (ebc : Bool) (col : Option (Nat → Nat)) :
    let le (a b : List Nat) : Prop := ∃ r, cobCmp ebc col (.text a) (.text b) = some r ∧ r ≤ 0
    (∀ a, le a a) ∧ (∀ a b, le a b ∨ le b a) ∧ (∀ a b c, le a b → le b c → le a c) := by
  intro le
  have hle : ∀ a b, le a b ↔ ¬ Before (weight col) (cell b) (cell a) := by
    intro a b
    obtain ⟨r, h, _, s2, _⟩ := C23_text ebc col a b (.text a) (.text b) (Or.inl rfl) (Or.inl rfl)
    rw [← s2]
    constructor
    · rintro ⟨q, h', hq⟩
      rw [h] at h'
      have := Option.some_inj.mp h'
      omega
    · intro hn
      exact ⟨r, h, by omega⟩
  refine ⟨?_, ?_, ?_⟩
  · intro a; rw [hle]; exact before_irrefl _ _ _ fun _ => rfl
  · intro a b
    rw [hle, hle]
    by_contra hcon
    simp only [not_or, not_not] at hcon
    obtain ⟨s1, s2⟩ := cmpSimple_spec col a b
    have e1 := s1.mpr hcon.2
    have e2 := s2.mpr hcon.1
    omega
  · intro a b c h1 h2
    rw [hle] at *
    exact before_trans _ _ _ _ h1 h2

/-- An operand as the compiler produces it: an ALL literal is not empty. -/
def OpndOk : Opnd → Prop
  | .all lit => lit ≠ []
  | _ => True

theorem align_swap_cmp (d1 d2 : Dec) : d2.cmp d1 = (d1.cmp d2).swap := by
  have key : ∀ a b : Int, compare b a = (compare a b).swap := by
    intro a b
    rw [Int.compare_swap]
  unfold Dec.cmp Dec.align
  simp only
  by_cases h1 : d1.scale < d2.scale
  · rw [if_neg (by omega), if_pos (by omega), if_pos h1]
    exact key _ _
  · by_cases h2 : d1.scale > d2.scale
    · rw [if_pos (by omega), if_neg h1, if_pos h2]
      exact key _ _
    · rw [if_neg (by omega), if_neg (by omega), if_neg h1, if_neg h2]
      exact key _ _

/-- C23: exchanging the operands, whatever their kinds, reverses the result. -/
theorem C23_antisymmetric (ebc : Bool) (col : Option (Nat → Nat)) (f1 f2 : Opnd) (h1 : OpndOk f1) (h2 : OpndOk f2) :
    cobCmp ebc col f2 f1 = (cobCmp ebc col f1 f2).map (fun r => -r) := by
  have hnum : ∀ x y : Item, (numericCmp ebc y x).map ordInt = ((numericCmp ebc x y).map ordInt).map (fun r => -r) := by
    intro x y
    unfold numericCmp
    rcases readItem ebc x with ⟨dx, ix⟩
    rcases readItem ebc y with ⟨dy, iy⟩
    cases dx with
    | none => cases dy <;> rfl
    | some dx =>
      cases dy with
      | none => rfl
      | some dy =>
        simp only [Option.map_some]
        rw [align_swap_cmp dx dy]
        cases dx.cmp dy <;> rfl
  have hall : ∀ g1 g2 : Opnd, isAll g1 = true → isAll g2 = true → stripped ebc g1 ≠ [] → stripped ebc g2 ≠ [] →
      cmpWithAll ebc col g2 (stripped ebc g1) = -cmpWithAll ebc col g1 (stripped ebc g2) := by
    intro g1 g2 i1 i2 n1 n2
    rw [cmpWithAll_all ebc col _ _ i2 n2 n1, cmpWithAll_all ebc col _ _ i1 n1 n2, cmpSimple_anti, Nat.max_comm]
  cases f1 with
  | text a => cases f2 <;> simp only [cobCmp, Option.map_some, Int.neg_neg, rawBytes] <;> rw [cmpSimple_anti]
  | group a => cases f2 <;> simp only [cobCmp, Option.map_some, Int.neg_neg, rawBytes] <;> rw [cmpSimple_anti]
  | all l1 =>
    cases f2 with
    | all l2 => simp only [cobCmp, Option.map_some]; exact congrArg some (hall (.all l1) (.all l2) rfl rfl h1 h2)
    | zero => simp only [cobCmp, Option.map_some]; exact congrArg some (hall (.all l1) .zero rfl rfl h1 (by simp [stripped]))
    | text b => simp [cobCmp]
    | group b => simp [cobCmp]
    | num y => simp [cobCmp]
  | zero =>
    cases f2 with
    | num y => simp only [cobCmp]; cases cmpInt ebc y 0 <;> simp
    | text b => simp [cobCmp]
    | group b => simp [cobCmp]
    | all l => simp only [cobCmp, Option.map_some]; exact congrArg some (hall .zero (.all l) rfl rfl (by simp [stripped]) h2)
    | zero => simp [cobCmp, cmpWithAll, cmpC, stripped]
  | num x =>
    cases f2 with
    | num y => simp only [cobCmp]; exact hnum x y
    | zero => simp only [cobCmp]; cases cmpInt ebc x 0 <;> simp
    | text b => simp only [cobCmp, Option.map_some]; rw [cmpSimple_anti]
    | group b => simp only [cobCmp, Option.map_some, rawBytes]; rw [cmpSimple_anti]
    | all l => simp [cobCmp]

/-- C23: comparing with an ALL literal (or figurative constant) is comparing with the literal repeated to the
length of the other operand. -/
theorem C23_all (ebc : Bool) (col : Option (Nat → Nat)) (a lit : List Nat) (hl : lit ≠ []) :
    cobCmp ebc col (.text a) (.all lit) = cobCmp ebc col (.text a) (.text (repeated lit a.length)) ∧
    cobCmp ebc col (.group a) (.all lit) = cobCmp ebc col (.text a) (.text (repeated lit a.length)) ∧
    cobCmp ebc col (.all lit) (.text a) = cobCmp ebc col (.text (repeated lit a.length)) (.text a) ∧
    cobCmp ebc col (.text a) .zero = cobCmp ebc col (.text a) (.text (List.replicate a.length 48)) := by
  have hz : repeated [48] a.length = List.replicate a.length 48 := by
    apply List.ext_getElem
    · simp [repeated]
    · intro i h1 h2; simp [repeated, Nat.mod_one]
  refine ⟨?_, ?_, ?_, ?_⟩
  · simp only [cobCmp, cmpWithAll_spec ebc col (.text a) lit hl rfl]; rfl
  · simp only [cobCmp, cmpWithAll_spec ebc col (.group a) lit hl rfl]; rfl
  · simp only [cobCmp, cmpWithAll_spec ebc col (.text a) lit hl rfl, cmpText, rawBytes]
    rw [cmpSimple_anti]
    simp [stripped]
  · rw [← hz]
    simp only [cobCmp, cmpWithAll_spec ebc col (.text a) [48] (by simp) rfl]; rfl

/-- "AB" against ALL "ABC", and a collating sequence that reverses the letters. -/
example : cobCmp false none (.text [65, 66, 32]) (.text [65, 66]) = some 0 ∧
    cobCmp false none (.text [65, 66]) (.all [65, 66, 67]) = some 0 ∧
    (∃ r, cobCmp false (some (fun b => 255 - b)) (.text [65, 66]) (.text [65, 67]) = some r ∧ 0 < r) := by
  refine ⟨by decide, by decide, 1, by decide, by decide⟩

theorem getSign_data_digits (ebc : Bool) (a : Attr) (neg : Bool) (ds : List Nat) (hsep : a.separate = false)
    (hne : ds ≠ []) (hd : ∀ d ∈ ds, d ≤ 9) :
    ((⟨a, zonedImage a ebc neg ds⟩ : Field).getSign ebc).2.data = ds.map (48 + ·) := by
  have h := (image_getSign ebc a neg ds (by simp [hsep]) hne hd).2.1
  have hattr : ((⟨a, zonedImage a ebc neg ds⟩ : Field).getSign ebc).2.attr = a := by
    unfold Field.getSign
    split
    · rfl
    · simp only [hsep, Bool.false_eq_true, if_false]
  unfold Field.digitBytes Field.dataOff Field.dsize at h
  rw [hattr] at h
  simpa [hsep] using h

/-- C23: a numeric operand with an alphanumeric one: what is compared are its digits, without
sign and decimal point.  (PICTUREs with `P` are excluded by `hp`; for a binary item the value must
fit the digits of its PICTURE.) -/
theorem C23_numeric_as_digits (ebc : Bool) (col : Option (Nat → Nat)) (it : Item) (hw : WFItem it) (u : Int)
    (hv : HoldsUnits ebc it u) (hp : it.usage = .display → it.field.dsize = it.field.attr.digits)
    (hn : it.usage ≠ .display → 0 < it.field.attr.digits ∧ it.field.attr.separate = false) (b : List Nat) :
    cobCmp ebc col (.num it) (.text b) =
      cobCmp ebc col (.text ((fixedDigits it.positions u.natAbs).map (48 + ·))) (.text b) := by
  suffices h : cmpText ebc (.num it) = (fixedDigits it.positions u.natAbs).map (48 + ·) by
    simp only [cobCmp, h]; rfl
  obtain ⟨us, f⟩ := it
  obtain ⟨a, data⟩ := f
  have hforms := src_forms ebc _ hw u hv
  cases us with
  | display =>
    obtain ⟨neg, ds, hd, hne, hle, hsz, hu⟩ := hforms
    simp only at hd hsz hu
    have hlen : a.digits = ds.length := by rw [← hsz]; exact (hp rfl).symm
    have hval : u.natAbs = digitsVal ds := by rw [hu]; split <;> simp
    have hpos : Item.positions ⟨.display, ⟨a, data⟩⟩ = ds.length := hsz
    have hfd : fixedDigits ds.length (digitsVal ds) = ds := fixedDigits_digitsVal ds hle
    rw [hpos, hval, hfd]
    unfold cmpText
    simp only
    have hspos := List.length_pos_iff.mpr hne
    by_cases hsep : a.separate = true
    · rw [if_pos hsep]
      unfold moveDispDisp
      simp only
      have hg := image_getSign ebc a neg ds hw.1 hne hle
      simp only at hg
      rw [hd, hg.1, hg.2.1]
      set temp : Field := ⟨{ digits := a.digits, scale := a.scale, haveSign := true }, List.replicate a.digits 48⟩ with htemp
      have hwt : WFDisplay temp := ⟨by simp [htemp], by simp [htemp]; omega⟩
      have hts : temp.dsize = ds.length := by simp [htemp, Field.dsize, hlen]
      rw [region_holds ebc temp hwt ds hle, hts]
      have hsc : rescale (digitsVal ds) a.scale temp.attr.scale = digitsVal ds := rescale_self _ _
      rw [hsc, hfd]
      exact getSign_data_digits ebc temp.attr _ ds rfl hne hle
    · rw [if_neg hsep, hd]
      exact getSign_data_digits ebc a neg ds (by simpa using hsep) hne hle
  | packed =>
    obtain ⟨neg, _, hmv⟩ := hforms
    obtain ⟨hdp, hsep⟩ := hn (by simp)
    simp only at hdp hsep
    have := (hmv ⟨{ a with haveSign := false }, List.replicate a.digits 48⟩ ⟨by simp [hsep], by simp [hsep]; omega⟩).1
    unfold cmpText
    simp only
    simp only at this
    rw [this]
    simp [Field.dsize, hsep, Item.positions, zonedImage, rescale_self]
  | binary =>
    obtain ⟨neg, _, hmv⟩ := hforms
    obtain ⟨hdp, hsep⟩ := hn (by simp)
    simp only at hdp hsep
    have := (hmv ⟨{ a with haveSign := false }, List.replicate a.digits 48⟩ ⟨by simp [hsep], by simp [hsep]; omega⟩).1
    unfold cmpText
    simp only
    simp only at this
    rw [this]
    simp [Field.dsize, hsep, Item.positions, zonedImage, rescale_self]

/-- C23: comparing does not change a zoned operand that holds a number. -/
theorem C23_operand_unchanged (ebc : Bool) (f : Field) (hw : WFDisplay f) (u : Int) (hv : HoldsUnits ebc ⟨.display, f⟩ u) :
    afterCmp ebc f = f := by
  obtain ⟨neg, ds, hd, hne, hle, _⟩ := hv
  obtain ⟨a, data⟩ := f
  simp only at hd
  subst hd
  exact (C45_sign_roundtrip ebc a neg ds hw.1 hne hle).2.2

/-- -12 in S9(3) against "012". -/
example : cobCmp false none (.num ⟨.display, ⟨{ digits := 3, haveSign := true }, [48, 49, 114]⟩⟩) (.text [48, 49, 50]) = some 0 := by
  decide

/-- Finding (C23): comparison of NATIONAL items in the SJIS build only ever answers "greater" or
"equal": a smaller item compares equal to a larger one. -/
theorem C23_national_never_less (a b : List Nat) : 0 ≤ nationalCmps a b := by
  fun_induction nationalCmps a b with
  | case1 a1 a2 as b1 b2 bs ret h => simp only [ret]; split <;> simp
  | case2 => assumption
  | case3 => simp

/-- Finding (C23): N"\x81\x40" < N"\x81\x41" is answered as equality, while the reverse
comparison gives "greater". -/
theorem C23_national_not_antisymmetric :
    nationalCmps [0x81, 0x40] [0x81, 0x41] = 0 ∧ nationalCmps [0x81, 0x41] [0x81, 0x40] = 1 := by decide

/-! ### C24 -/

/-- C24: ALPHABETIC, ALPHABETIC-UPPER and ALPHABETIC-LOWER hold exactly when every character is in
the class; the blanks accepted are all the characters of `isspace`. -/
theorem C24_alphabetic (bs : List Nat) :
    (isAlphabetic bs = true ↔ ∀ b ∈ bs, b = 32 ∨ (9 ≤ b ∧ b ≤ 13) ∨ (65 ≤ b ∧ b ≤ 90) ∨ (97 ≤ b ∧ b ≤ 122)) ∧
    (isAlphabeticUpper bs = true ↔ ∀ b ∈ bs, b = 32 ∨ (9 ≤ b ∧ b ≤ 13) ∨ (65 ≤ b ∧ b ≤ 90)) ∧
    (isAlphabeticLower bs = true ↔ ∀ b ∈ bs, b = 32 ∨ (9 ≤ b ∧ b ≤ 13) ∨ (97 ≤ b ∧ b ≤ 122)) := by
  refine ⟨?_, ?_, ?_⟩
  · induction bs with
    | nil => simp [isAlphabetic]
    | cons b bs ih =>
      unfold isAlphabetic
      simp only [List.mem_cons, forall_eq_or_imp, ← ih]
      cases isAlphabetic bs <;> simp [isSpace, isAlphaB, isUpperB, isLowerB]
      omega
  · induction bs with
    | nil => simp [isAlphabeticUpper]
    | cons b bs ih =>
      unfold isAlphabeticUpper
      simp only [List.mem_cons, forall_eq_or_imp, ← ih]
      cases isAlphabeticUpper bs <;> simp [isSpace, isUpperB]
      omega
  · induction bs with
    | nil => simp [isAlphabeticLower]
    | cons b bs ih =>
      unfold isAlphabeticLower
      simp only [List.mem_cons, forall_eq_or_imp, ← ih]
      cases isAlphabeticLower bs <;> simp [isSpace, isLowerB]
      omega

/-- Finding (C24): a text of tabs and line feeds counts as ALPHABETIC. -/
theorem C24_control_characters_alphabetic : isAlphabetic [9, 10, 65] = true := by decide

/-- C24: an alphanumeric item is NUMERIC exactly when all characters are digits, and the test does
not change it. -/
theorem C24_numeric_text (ebc nibC : Bool) (bs : List Nat) :
    ((isNumeric ebc nibC (.text bs)).1 = true ↔ ∀ b ∈ bs, 48 ≤ b ∧ b ≤ 57) ∧ (isNumeric ebc nibC (.text bs)).2 = .text bs := by
  refine ⟨?_, rfl⟩
  simp [isNumeric, rawBytes, isDigit]

/-- C24: every zoned item that holds a number (any sign convention) is NUMERIC and is not changed
by the test. -/
theorem C24_numeric_zoned_holds (ebc nibC : Bool) (f : Field) (hw : WFDisplay f) (u : Int)
    (hv : HoldsUnits ebc ⟨.display, f⟩ u) :
    isNumeric ebc nibC (.num ⟨.display, f⟩) = (true, .num ⟨.display, f⟩) := by
  obtain ⟨neg, ds, hd, hne, hle, _⟩ := hv
  obtain ⟨a, data⟩ := f
  simp only at hd
  subst hd
  have h := C45_sign_roundtrip ebc a neg ds hw.1 hne hle
  simp only at h
  unfold isNumeric
  simp only
  rw [h.2.1, h.2.2]
  refine Prod.ext ?_ rfl
  simp only [List.all_map, List.all_eq_true]
  intro d hd
  have := hle d hd
  simp [isDigit]
  omega

/-- C24: an unsigned zoned item is NUMERIC exactly when all its characters are digits. -/
theorem C24_numeric_zoned_unsigned (ebc nibC : Bool) (f : Field) (hs : f.attr.haveSign = false) (hsep : f.attr.separate = false) :
    ((isNumeric ebc nibC (.num ⟨.display, f⟩)).1 = true ↔ ∀ b ∈ f.data, 48 ≤ b ∧ b ≤ 57) ∧
    (isNumeric ebc nibC (.num ⟨.display, f⟩)).2 = .num ⟨.display, f⟩ := by
  have hg : f.getSign ebc = (0, f) := by simp [Field.getSign, hs]
  have hp : f.putSign ebc 0 = f := by simp [Field.putSign, hs]
  unfold isNumeric
  simp only [hg, hp, and_true]
  simp [Field.digitBytes, Field.dataOff, Field.dsize, hsep, isDigit]

/-- C24, ASCII sign convention, embedded trailing sign: NUMERIC exactly when the leading characters are
digits and the last is a digit, a blank, or a digit with the minus overpunch. -/
theorem C24_numeric_zoned_ascii (nibC : Bool) (a : Attr) (pre : List Nat) (s : Nat) (hs : a.haveSign = true)
    (hsep : a.separate = false) (hl : a.leading = false) (hb : s < 256) :
    ((isNumeric false nibC (.num ⟨.display, ⟨a, pre ++ [s]⟩⟩)).1 = true ↔
      (∀ b ∈ pre, 48 ≤ b ∧ b ≤ 57) ∧ ((48 ≤ s ∧ s ≤ 57) ∨ s = 32 ∨ (112 ≤ s ∧ s ≤ 121))) := by
  unfold isNumeric Field.getSign Field.signPos
  simp only [hs, hsep, hl, Bool.not_true, Bool.false_eq_true, if_false, List.length_append, List.length_singleton,
    Nat.add_sub_cancel]
  have hget : (pre ++ [s]).getD pre.length 0 = s := by simp
  have hset : ∀ c, (pre ++ [s]).set pre.length c = pre ++ [c] := by intro c; simp [List.set_append]
  simp only [hget, hset, Field.digitBytes, Field.dataOff, Field.dsize, hsep, Bool.false_and, Bool.false_eq_true, if_false,
    List.drop_zero, Nat.sub_zero, List.take_length]
  simp only [List.all_append, List.all_cons, List.all_nil, Bool.and_true, Bool.and_eq_true, List.all_eq_true, isDigit, decide_eq_true_eq]
  apply and_congr Iff.rfl
  unfold getSignByte
  simp only [Bool.false_eq_true, if_false]
  split
  · simp; omega
  · split
    · simp; omega
    · simp only; omega

/-- C24: a packed item is NUMERIC exactly when all its nibbles but the last are digits and the last
is a sign it may have: F, or C/D for signed items (C for unsigned items if configured). -/
theorem C24_numeric_packed (ebc nibC : Bool) (a : Attr) (pre : List Nat) (s : Nat) :
    ((isNumeric ebc nibC (.num ⟨.packed, ⟨a, pre ++ [s]⟩⟩)).1 = true ↔
      (∀ b ∈ pre, b / 16 ≤ 9 ∧ b % 16 ≤ 9) ∧ s / 16 ≤ 9 ∧
      (s % 16 = 15 ∨ (a.haveSign = true ∧ (s % 16 = 12 ∨ s % 16 = 13)) ∨ (a.haveSign = false ∧ nibC = true ∧ s % 16 = 12))) := by
  unfold isNumeric isNumericPacked
  simp only [List.length_append, List.length_singleton, Nat.add_sub_cancel]
  have hget : (pre ++ [s]).getD pre.length 0 = s := by simp
  rw [hget, List.take_left]
  by_cases hb : (pre.any fun b => decide (9 < b / 16) || decide (9 < b % 16)) = true
  · rw [if_pos hb]
    simp only [Bool.false_eq_true, false_iff]
    rintro ⟨h, _⟩
    simp only [List.any_eq_true, Bool.or_eq_true, decide_eq_true_eq] at hb
    obtain ⟨b, hb1, hb2⟩ := hb
    have := h b hb1
    omega
  · rw [if_neg hb]
    have hall : ∀ b ∈ pre, b / 16 ≤ 9 ∧ b % 16 ≤ 9 := by
      intro b hbm
      by_contra hc
      apply hb
      simp only [List.any_eq_true, Bool.or_eq_true, decide_eq_true_eq]
      exact ⟨b, hbm, by omega⟩
    by_cases h2 : 9 < s / 16
    · rw [if_pos h2]
      simp only [Bool.false_eq_true, false_iff]
      rintro ⟨_, h, _⟩
      omega
    · rw [if_neg h2]
      by_cases h3 : s % 16 = 15
      · rw [if_pos h3]
        simp only [true_iff]
        exact ⟨hall, by omega, Or.inl h3⟩
      · rw [if_neg h3]
        have h2' : s / 16 ≤ 9 := by omega
        cases hsg : a.haveSign <;> cases hnb : nibC <;> simp [h3, h2'] <;> exact fun _ => hall

/-- Finding (C24): the test changes the item: "12" followed by a blank in S9(3) is NUMERIC, and holds
"120" after the test. -/
theorem C24_numeric_test_changes_item :
    isNumeric false false (.num ⟨.display, ⟨{ digits := 3, haveSign := true }, [49, 50, 32]⟩⟩) =
      (true, .num ⟨.display, ⟨{ digits := 3, haveSign := true }, [49, 50, 48]⟩⟩) := by decide

/-- Finding (C24): the separate sign is not checked: "12*" in S9(2) SIGN TRAILING SEPARATE is
NUMERIC, and holds "12-" after the test. -/
theorem C24_separate_sign_not_checked :
    isNumeric false false (.num ⟨.display, ⟨{ digits := 2, haveSign := true, separate := true }, [49, 50, 42]⟩⟩) =
      (true, .num ⟨.display, ⟨{ digits := 2, haveSign := true, separate := true }, [49, 50, 45]⟩⟩) := by decide

/-- Finding (C24): with the EBCDIC sign convention any character is accepted in the sign position: "12*" is
NUMERIC, and holds "12{" (+120) after the test. -/
theorem C24_ebcdic_sign_not_checked :
    isNumeric true false (.num ⟨.display, ⟨{ digits := 3, haveSign := true }, [49, 50, 42]⟩⟩) =
      (true, .num ⟨.display, ⟨{ digits := 3, haveSign := true }, [49, 50, 123]⟩⟩) := by decide

end Cob
