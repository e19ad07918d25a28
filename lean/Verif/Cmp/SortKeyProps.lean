import Verif.Cmp.CompareProps
/-
Property C25: the order SORT uses.
-/
namespace Cob

/-! ### Specification -/

/-- The record has a proper value in the key: enough bytes, and a number in a numeric key. -/
def KeyValid (ebc : Bool) (k : SortKey) (r : List Nat) : Prop :=
  k.offset + k.size ≤ r.length ∧
  match k.numeric with
  | some (u, a) => WFItem ⟨u, ⟨a, keyBytes k r⟩⟩ ∧ ∃ x, Holds ebc ⟨u, ⟨a, keyBytes k r⟩⟩ x
  | none => True

/-- The key of `r1` is lower than that of `r2`: as a number, or as a text in the collating
sequence. -/
def KeyLower (ebc : Bool) (col : Option (Nat → Nat)) (k : SortKey) (r1 r2 : List Nat) : Prop :=
  match k.numeric with
  | some (u, a) => ∃ x y, Holds ebc ⟨u, ⟨a, keyBytes k r1⟩⟩ x ∧ Holds ebc ⟨u, ⟨a, keyBytes k r2⟩⟩ y ∧ x < y
  | none => Before (weight col) (cell (keyBytes k r1)) (cell (keyBytes k r2))

/-- `r1` must come before `r2` by key `k`: lower if ASCENDING, higher if DESCENDING. -/
def KeyBefore (ebc : Bool) (col : Option (Nat → Nat)) (k : SortKey) (r1 r2 : List Nat) : Prop :=
  if k.asc then KeyLower ebc col k r1 r2 else KeyLower ebc col k r2 r1

/-- `r1` must come before `r2`: the first key that distinguishes them says so. -/
def SortBefore (ebc : Bool) (col : Option (Nat → Nat)) (ks : List SortKey) (r1 r2 : List Nat) : Prop :=
  ∃ pre k post, ks = pre ++ k :: post ∧
    (∀ q ∈ pre, ¬ KeyLower ebc col q r1 r2 ∧ ¬ KeyLower ebc col q r2 r1) ∧ KeyBefore ebc col k r1 r2

/-- The record has proper values in all keys. -/
def RecValid (ebc : Bool) (ks : List SortKey) (r : List Nat) : Prop := ∀ k ∈ ks, KeyValid ebc k r

/-! ### Lemmas -/

theorem holds_unique (ebc : Bool) (it : Item) (hw : WFItem it) (x y : ℚ) (hx : Holds ebc it x) (hy : Holds ebc it y) : x = y := by
  obtain ⟨d1, h1, e1, _⟩ := holds_read ebc it hw x hx
  obtain ⟨d2, h2, e2, _⟩ := holds_read ebc it hw y hy
  rw [h1] at h2
  simp only [Prod.mk.injEq, Option.some_inj, and_true] at h2
  rw [← e1, ← e2, h2]

theorem ordInt_compare (x y : ℚ) : (ordInt (compare x y) < 0 ↔ x < y) ∧ (0 < ordInt (compare x y) ↔ y < x) := by
  rcases lt_trichotomy x y with h | h | h
  · rw [compare_lt_iff_lt.mpr h]; simp [ordInt, h, le_of_lt h]
  · rw [compare_eq_iff_eq.mpr h]; simp [ordInt, h]
  · rw [compare_gt_iff_gt.mpr h]; simp [ordInt, h, le_of_lt h]

theorem keyCmp_spec (ebc : Bool) (col : Option (Nat → Nat)) (k : SortKey) (r1 r2 : List Nat)
    (h1 : KeyValid ebc k r1) (h2 : KeyValid ebc k r2) :
    ∃ c, keyCmp ebc col k r1 r2 = some c ∧ (c < 0 ↔ KeyLower ebc col k r1 r2) ∧ (0 < c ↔ KeyLower ebc col k r2 r1) := by
  unfold KeyValid at h1 h2
  unfold keyCmp KeyLower
  cases hk : k.numeric with
  | none =>
    have l1 : (keyBytes k r1).length = k.size := by simp [keyBytes]; omega
    have l2 : (keyBytes k r2).length = k.size := by simp [keyBytes]; omega
    have := cmpSimple_same col (keyBytes k r1) (keyBytes k r2) (by omega)
    rw [l1] at this
    refine ⟨_, rfl, ?_⟩
    rw [← this]
    exact cmpSimple_spec col _ _
  | some ua =>
    obtain ⟨u, a⟩ := ua
    rw [hk] at h1 h2
    obtain ⟨_, w1, x, hx⟩ := h1
    obtain ⟨_, w2, y, hy⟩ := h2
    have hc := (C09_items ebc _ _ w1 w2 x y hx hy).1
    simp only at hc ⊢
    rw [hc]
    refine ⟨_, rfl, ?_, ?_⟩
    · rw [(ordInt_compare x y).1]
      exact ⟨fun h => ⟨x, y, hx, hy, h⟩, fun ⟨x', y', hx', hy', h⟩ => by
        rwa [holds_unique ebc _ w1 x x' hx hx', holds_unique ebc _ w2 y y' hy hy']⟩
    · rw [(ordInt_compare x y).2]
      exact ⟨fun h => ⟨y, x, hy, hx, h⟩, fun ⟨y', x', hy', hx', h⟩ => by
        rwa [holds_unique ebc _ w1 x x' hx hx', holds_unique ebc _ w2 y y' hy hy']⟩

theorem keyLower_neg_trans (ebc : Bool) (col : Option (Nat → Nat)) (k : SortKey) (a b c : List Nat)
    (ha : KeyValid ebc k a) (hb : KeyValid ebc k b) (hc : KeyValid ebc k c)
    (h1 : ¬ KeyLower ebc col k b a) (h2 : ¬ KeyLower ebc col k c b) : ¬ KeyLower ebc col k c a := by
  unfold KeyValid at ha hb hc
  unfold KeyLower at *
  cases hk : k.numeric with
  | none =>
    simp only [hk] at *
    exact before_trans _ _ _ _ h1 h2
  | some ua =>
    obtain ⟨u, at_⟩ := ua
    simp only [hk] at *
    obtain ⟨_, wa, x, hx⟩ := ha
    obtain ⟨_, wb, y, hy⟩ := hb
    obtain ⟨_, wc, z, hz⟩ := hc
    rintro ⟨z', x', hz', hx', hlt⟩
    rw [holds_unique ebc _ wc z' z hz' hz, holds_unique ebc _ wa x' x hx' hx] at hlt
    rcases lt_or_ge y x with h | h
    · exact h1 ⟨y, x, hy, hx, h⟩
    · exact h2 ⟨z, y, hz, hy, lt_of_lt_of_le hlt h⟩

theorem keyLower_asymm (ebc : Bool) (col : Option (Nat → Nat)) (k : SortKey) (a b : List Nat)
    (ha : KeyValid ebc k a) (hb : KeyValid ebc k b) (h : KeyLower ebc col k a b) : ¬ KeyLower ebc col k b a := by
  obtain ⟨c, _, h1, h2⟩ := keyCmp_spec ebc col k a b ha hb
  intro h'
  have e1 := h1.mpr h
  have e2 := h2.mpr h'
  omega

theorem sortBefore_cons (ebc : Bool) (col : Option (Nat → Nat)) (k : SortKey) (ks : List SortKey) (a b : List Nat) :
    SortBefore ebc col (k :: ks) a b ↔ KeyBefore ebc col k a b ∨
      (¬ KeyLower ebc col k a b ∧ ¬ KeyLower ebc col k b a ∧ SortBefore ebc col ks a b) := by
  constructor
  · rintro ⟨pre, q, post, he, hp, hb⟩
    cases pre with
    | nil =>
      simp only [List.nil_append, List.cons.injEq] at he
      exact Or.inl (he.1 ▸ hb)
    | cons p pre =>
      simp only [List.cons_append, List.cons.injEq] at he
      obtain ⟨h1, h2⟩ := hp p (by simp)
      rw [he.1]
      exact Or.inr ⟨h1, h2, pre, q, post, he.2, fun r hr => hp r (by simp [hr]), hb⟩
  · rintro (h | ⟨h1, h2, pre, q, post, he, hp, hb⟩)
    · exact ⟨[], k, ks, rfl, by simp, h⟩
    · refine ⟨k :: pre, q, post, by simp [he], ?_, hb⟩
      intro r hr
      rcases List.mem_cons.mp hr with h | h
      · rw [h]; exact ⟨h1, h2⟩
      · exact hp r h

/-! ### C25 -/

/-- C25: the comparison of two records with proper keys says "before" or "after" exactly when the
first key that distinguishes them does, ASCENDING or DESCENDING, and "equal" when none does. -/
theorem C25_lexicographic (ebc : Bool) (col : Option (Nat → Nat)) (ks : List SortKey) (a b : List Nat)
    (ha : RecValid ebc ks a) (hb : RecValid ebc ks b) :
    ∃ c, sortCompare ebc col ks a b = some c ∧ (c < 0 ↔ SortBefore ebc col ks a b) ∧ (0 < c ↔ SortBefore ebc col ks b a) := by
  induction ks with
  | nil =>
    refine ⟨0, rfl, ?_, ?_⟩ <;> simp [SortBefore]
  | cons k ks ih =>
    have va := ha k (by simp)
    have vb := hb k (by simp)
    obtain ⟨c, hc, c1, c2⟩ := keyCmp_spec ebc col k a b va vb
    obtain ⟨d, hd, d1, d2⟩ := ih (fun q hq => ha q (by simp [hq])) (fun q hq => hb q (by simp [hq]))
    rw [sortCompare, hc]
    simp only
    rw [sortBefore_cons, sortBefore_cons]
    unfold KeyBefore
    by_cases h0 : c ≠ 0
    · rw [if_pos h0]
      refine ⟨_, rfl, ?_⟩
      rw [← c1, ← c2]
      rcases Int.lt_or_gt_of_ne h0 with h | h
      · have n : ¬ 0 < c := by omega
        cases k.asc <;> simp [h, n]
      · have n : ¬ c < 0 := by omega
        cases k.asc <;> simp [h, n]
    · rw [if_neg h0]
      refine ⟨d, hd, ?_⟩
      rw [← c1, ← c2, ← d1, ← d2]
      have : c = 0 := by omega
      subst this
      cases k.asc <;> simp

/-- Two proper records are never each before the other, and "not after" is transitive: the order
is a total preorder. -/
theorem C25_total_preorder (ebc : Bool) (col : Option (Nat → Nat)) (ks : List SortKey) (a b c : List Nat)
    (ha : RecValid ebc ks a) (hb : RecValid ebc ks b) (hc : RecValid ebc ks c) :
    sortCompare ebc col ks a a = some 0 ∧
    (∃ x, sortCompare ebc col ks a b = some x ∧ ∃ y, sortCompare ebc col ks b a = some y ∧ (x < 0 ↔ 0 < y) ∧ (x = 0 ↔ y = 0)) ∧
    (∀ x y z, sortCompare ebc col ks a b = some x → sortCompare ebc col ks b c = some y → sortCompare ebc col ks a c = some z →
      x ≤ 0 → y ≤ 0 → z ≤ 0 ∧ (x < 0 ∨ y < 0 → z < 0)) := by
  have asym : ∀ r s, RecValid ebc ks r → RecValid ebc ks s → SortBefore ebc col ks r s → ¬ SortBefore ebc col ks s r := by
    intro r s hr hs h1 h2
    obtain ⟨x, _, e1, e2⟩ := C25_lexicographic ebc col ks r s hr hs
    have := e1.mpr h1
    have := e2.mpr h2
    omega
  -- negative transitivity
  have nt : ∀ ks : List SortKey, RecValid ebc ks a → RecValid ebc ks b → RecValid ebc ks c → ∀ r s t,
      (r = a ∨ r = b ∨ r = c) → (s = a ∨ s = b ∨ s = c) → (t = a ∨ t = b ∨ t = c) →
      ¬ SortBefore ebc col ks s r → ¬ SortBefore ebc col ks t s → ¬ SortBefore ebc col ks t r := by
    intro ks
    induction ks with
    | nil => intro _ _ _ r s t _ _ _ _ _; simp [SortBefore]
    | cons k ks ih =>
      intro va vb vc r s t hr hs ht h1 h2
      have ih' := ih (fun q hq => va q (by simp [hq])) (fun q hq => vb q (by simp [hq])) (fun q hq => vc q (by simp [hq])) r s t hr hs ht
      have kr : KeyValid ebc k r := by rcases hr with h | h | h <;> subst h <;> [exact va k (by simp); exact vb k (by simp); exact vc k (by simp)]
      have ks' : KeyValid ebc k s := by rcases hs with h | h | h <;> subst h <;> [exact va k (by simp); exact vb k (by simp); exact vc k (by simp)]
      have kt : KeyValid ebc k t := by rcases ht with h | h | h <;> subst h <;> [exact va k (by simp); exact vb k (by simp); exact vc k (by simp)]
      have lt3 : ∀ u v w, KeyValid ebc k u → KeyValid ebc k v → KeyValid ebc k w →
          ¬ KeyBefore ebc col k v u → ¬ KeyBefore ebc col k w v → ¬ KeyBefore ebc col k w u := by
        intro u v w vu vv vw g1 g2
        unfold KeyBefore at *
        cases hasc : k.asc
        · simp only [hasc, Bool.false_eq_true, if_false] at *
          exact keyLower_neg_trans ebc col k w v u vw vv vu g2 g1
        · simp only [hasc, if_true] at *
          exact keyLower_neg_trans ebc col k u v w vu vv vw g1 g2
      have sb : ∀ u v, SortBefore ebc col (k :: ks) u v ↔ KeyBefore ebc col k u v ∨
          (¬ KeyBefore ebc col k u v ∧ ¬ KeyBefore ebc col k v u ∧ SortBefore ebc col ks u v) := by
        intro u v
        rw [sortBefore_cons]
        unfold KeyBefore
        cases k.asc
        · simp only [Bool.false_eq_true, if_false]
          constructor
          · rintro (h | ⟨h1, h2, h3⟩)
            · exact Or.inl h
            · exact Or.inr ⟨h2, h1, h3⟩
          · rintro (h | ⟨h1, h2, h3⟩)
            · exact Or.inl h
            · exact Or.inr ⟨h2, h1, h3⟩
        · simp only [if_true]
      rw [sb] at h1 h2 ⊢
      have n1 : ¬ KeyBefore ebc col k s r := fun h => h1 (Or.inl h)
      have n2 : ¬ KeyBefore ebc col k t s := fun h => h2 (Or.inl h)
      rintro (h | ⟨g1, g2, g3⟩)
      · exact lt3 r s t kr ks' kt n1 n2 h
      · have m1 := lt3 s t r ks' kt kr n2 g2
        have m2 := lt3 t r s kt kr ks' g2 n1
        exact ih' (fun h => h1 (Or.inr ⟨n1, m1, h⟩)) (fun h => h2 (Or.inr ⟨n2, m2, h⟩)) g3
  have eqv : ∀ r s, RecValid ebc ks r → RecValid ebc ks s → ∀ x, sortCompare ebc col ks r s = some x →
      (x < 0 ↔ SortBefore ebc col ks r s) ∧ (0 < x ↔ SortBefore ebc col ks s r) := by
    intro r s hr hs x hx
    obtain ⟨x', hx', e⟩ := C25_lexicographic ebc col ks r s hr hs
    rw [hx] at hx'
    rw [Option.some_inj.mp hx']
    exact e
  refine ⟨?_, ?_, ?_⟩
  · obtain ⟨x, hx, e1, e2⟩ := C25_lexicographic ebc col ks a a ha ha
    rw [hx]
    have := asym a a ha ha
    congr 1
    by_contra hne
    rcases Int.lt_or_gt_of_ne hne with h | h
    · exact this (e1.mp h) (e1.mp h)
    · exact this (e2.mp h) (e2.mp h)
  · obtain ⟨x, hx, e1, e2⟩ := C25_lexicographic ebc col ks a b ha hb
    obtain ⟨y, hy, f1, f2⟩ := C25_lexicographic ebc col ks b a hb ha
    have i1 : x < 0 ↔ 0 < y := by rw [e1, f2]
    have i2 : 0 < x ↔ y < 0 := by rw [e2, f1]
    exact ⟨x, hx, y, hy, i1, by omega⟩
  · intro x y z hx hy hz h1 h2
    obtain ⟨x1, x2⟩ := eqv a b ha hb x hx
    obtain ⟨y1, y2⟩ := eqv b c hb hc y hy
    obtain ⟨z1, z2⟩ := eqv a c ha hc z hz
    have nba : ¬ SortBefore ebc col ks b a := by rw [← x2]; omega
    have ncb : ¬ SortBefore ebc col ks c b := by rw [← y2]; omega
    have nca := nt ks ha hb hc a b c (by simp) (by simp) (by simp) nba ncb
    refine ⟨by rw [← z2] at nca; omega, ?_⟩
    intro hor
    rw [z1]
    by_contra hac
    rcases hor with h | h
    · -- a before b; but then b is not after c and c not after a ...
      have := nt ks ha hb hc b c a (by simp) (by simp) (by simp) ncb hac
      exact this (x1.mp h)
    · have := nt ks ha hb hc c a b (by simp) (by simp) (by simp) hac nba
      exact this (y1.mp h)

/-- C25 (file SORT): records with equal keys are ordered by their release numbers, so that for
different numbers the answer is never "equal", and the answers for the two orders of the
operands are opposite. -/
theorem C25_ties_by_release (ebc : Bool) (col : Option (Nat → Nat)) (ks : List SortKey) (x y : Nat × List Nat)
    (hx : RecValid ebc ks x.2) (hy : RecValid ebc ks y.2) (hne : x.1 ≠ y.1) :
    ∃ c d, fileSortCompare ebc col ks x y = some c ∧ fileSortCompare ebc col ks y x = some d ∧ c ≠ 0 ∧ (c < 0 ↔ 0 < d) ∧
      (c < 0 ↔ SortBefore ebc col ks x.2 y.2 ∨ (¬ SortBefore ebc col ks y.2 x.2 ∧ x.1 < y.1)) := by
  have key : ∀ x y : Nat × List Nat, RecValid ebc ks x.2 → RecValid ebc ks y.2 →
      ∃ c, fileSortCompare ebc col ks x y = some c ∧ c ≠ 0 ∧
      (c < 0 ↔ SortBefore ebc col ks x.2 y.2 ∨ (¬ SortBefore ebc col ks y.2 x.2 ∧ x.1 < y.1)) := by
    intro x y hx hy
    obtain ⟨c, hc, e1, e2⟩ := C25_lexicographic ebc col ks x.2 y.2 hx hy
    unfold fileSortCompare
    rw [hc]
    simp only
    rw [← e1, ← e2]
    by_cases h0 : c ≠ 0
    · rw [if_pos h0]
      exact ⟨c, rfl, h0, by omega⟩
    · rw [if_neg h0]
      by_cases hlt : x.1 < y.1
      · rw [if_pos hlt]
        exact ⟨-1, rfl, by omega, by omega⟩
      · rw [if_neg hlt]
        exact ⟨1, rfl, by omega, by omega⟩
  obtain ⟨c, hc, c0, c1⟩ := key x y hx hy
  obtain ⟨d, hd, d0, d1⟩ := key y x hy hx
  refine ⟨c, d, hc, hd, c0, ?_, c1⟩
  obtain ⟨e, _, e1, e2⟩ := C25_lexicographic ebc col ks x.2 y.2 hx hy
  rw [← e1, ← e2] at c1 d1
  omega

/-- Records "A2", "A1" with keys byte 0 ascending, byte 1 (numeric) descending. -/
example : sortCompare false none [⟨none, 0, 1, true⟩, ⟨some (.display, { digits := 1 }), 1, 1, false⟩] [65, 50] [65, 49] = some (-1) ∧
    fileSortCompare false none [⟨none, 0, 1, true⟩] (4, [65, 50]) (5, [65, 49]) = some (-1) := by decide

end Cob
