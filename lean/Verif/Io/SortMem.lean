import Verif.Io.Sort
/-
Lemmas for C40: the merge sort of the queues in memory.
-/
namespace Cob

/-! ### Merging sorted lists -/

/-- `f` is a strict weak order on the elements with `P`. -/
structure SWO {α : Type} (f : α → α → Bool) (P : α → Prop) : Prop where
  asymm : ∀ x y, P x → P y → f x y = true → f y x = false
  ntrans : ∀ x y z, P x → P y → P z → f y x = false → f z y = false → f z x = false

/-- Ascending: no element is strictly before an earlier one. -/
def Asc {α : Type} (f : α → α → Bool) (l : List α) : Prop := l.Pairwise fun x y => f y x = false

theorem merge_nil_left {α : Type} (f : α → α → Bool) (l : List α) : List.merge [] l f = l := by
  cases l <;> simp

theorem merge_nil_right {α : Type} (f : α → α → Bool) (l : List α) : List.merge l [] f = l := by
  cases l <;> simp

theorem merge_cons_cons {α : Type} (f : α → α → Bool) (x y : α) (l m : List α) :
    List.merge (x :: l) (y :: m) f = if f x y then x :: List.merge l (y :: m) f
      else y :: List.merge (x :: l) m f := by
  rw [List.merge]

theorem mem_merge_of {α : Type} (f : α → α → Bool) (z : α) (l m : List α) (h : z ∈ List.merge l m f) :
    z ∈ l ∨ z ∈ m := by
  have := (List.merge_perm_append f (xs := l) (ys := m)).mem_iff.1 h
  simpa using this

theorem merge_asc {α : Type} (f : α → α → Bool) (P : α → Prop) (hf : SWO f P) : ∀ (n : Nat) (l m : List α),
    l.length + m.length ≤ n → (∀ x ∈ l, P x) → (∀ x ∈ m, P x) → Asc f l → Asc f m →
    Asc f (List.merge l m f) := by
  intro n
  induction n with
  | zero =>
    intro l m h _ _ hl hm
    have : l = [] := List.length_eq_zero_iff.1 (by omega)
    subst this
    rw [merge_nil_left]
    exact hm
  | succ n ih =>
    intro l m h pl pm hl hm
    cases l with
    | nil => rw [merge_nil_left]; exact hm
    | cons x l =>
      cases m with
      | nil => rw [merge_nil_right]; exact hl
      | cons y m =>
        rw [merge_cons_cons]
        simp only [List.length_cons] at h
        have px := pl x (by simp)
        have py := pm y (by simp)
        unfold Asc at hl hm ⊢
        cases hxy : f x y with
        | true =>
          simp only [if_true]
          rw [List.pairwise_cons]
          have hl' := List.pairwise_cons.1 hl
          have hm' := List.pairwise_cons.1 hm
          refine ⟨?_, ih l (y :: m) (by simp; omega) (fun z hz => pl z (by simp [hz])) pm hl'.2 hm⟩
          intro z hz
          have hyx := hf.asymm x y px py hxy
          rcases mem_merge_of f z _ _ hz with hz | hz
          · exact hl'.1 z hz
          · rcases List.mem_cons.1 hz with hz | hz
            · subst hz; exact hyx
            · exact hf.ntrans x y z px py (pm z (by simp [hz])) hyx (hm'.1 z hz)
        | false =>
          simp only [Bool.false_eq_true, if_false]
          rw [List.pairwise_cons]
          have hl' := List.pairwise_cons.1 hl
          have hm' := List.pairwise_cons.1 hm
          refine ⟨?_, ih (x :: l) m (by simp; omega) pl (fun z hz => pm z (by simp [hz])) hl hm'.2⟩
          intro z hz
          rcases mem_merge_of f z _ _ hz with hz | hz
          · rcases List.mem_cons.1 hz with hz | hz
            · subst hz; exact hxy
            · exact hf.ntrans y x z py px (pl z (by simp [hz])) hxy (hl'.1 z hz)
          · exact hm'.1 z hz

/-! ### Passes over lists of blocks -/

/-- The blocks that result from one pass. -/
def pairMerge {α : Type} (f : α → α → Bool) : List (List α) → List (List α) → List (List α)
  | a :: as, b :: bs => List.merge a b f :: pairMerge f as bs
  | as, [] => as
  | [], bs => bs

theorem pairMerge_nil_right {α : Type} (f : α → α → Bool) (as : List (List α)) : pairMerge f as [] = as := by
  cases as <;> rfl

theorem pairMerge_nil_left {α : Type} (f : α → α → Bool) (bs : List (List α)) : pairMerge f [] bs = bs := by
  cases bs <;> rfl

/-- Dealing the elements alternately. -/
def deal {α : Type} : List α → List α × List α
  | [] => ([], [])
  | x :: l => (x :: (deal l).2, (deal l).1)

theorem deal_length {α : Type} (l : List α) :
    (deal l).1.length = (l.length + 1) / 2 ∧ (deal l).2.length = l.length / 2 := by
  induction l with
  | nil => simp [deal]
  | cons x l ih => simp only [deal, List.length_cons]; omega

theorem deal_mem {α : Type} (l : List α) (x : α) : (x ∈ (deal l).1 ∨ x ∈ (deal l).2) ↔ x ∈ l := by
  induction l with
  | nil => simp [deal]
  | cons y l ih =>
    simp only [deal, List.mem_cons]
    rw [← ih]
    grind

theorem deal_perm {α : Type} (l : List (List α)) :
    ((deal l).1.flatten ++ (deal l).2.flatten).Perm l.flatten := by
  induction l with
  | nil => simp [deal]
  | cons x l ih =>
    simp only [deal, List.flatten_cons, List.append_assoc]
    exact List.Perm.append_left _ ((List.perm_append_comm).trans ih)

theorem pairMerge_perm {α : Type} (f : α → α → Bool) : ∀ as bs : List (List α),
    (pairMerge f as bs).flatten.Perm (as.flatten ++ bs.flatten)
  | [], bs => by rw [pairMerge_nil_left]; simp
  | a :: as, [] => by rw [pairMerge_nil_right]; simp
  | a :: as, b :: bs => by
    simp only [pairMerge, List.flatten_cons]
    have h1 := List.merge_perm_append f (xs := a) (ys := b)
    have h2 := pairMerge_perm f as bs
    refine (List.Perm.append h1 h2).trans ?_
    rw [List.append_assoc, List.append_assoc]
    refine List.Perm.append_left a ?_
    rw [← List.append_assoc, ← List.append_assoc]
    exact List.Perm.append_right _ List.perm_append_comm

theorem pairMerge_length {α : Type} (f : α → α → Bool) : ∀ as bs : List (List α),
    (pairMerge f as bs).length = max as.length bs.length
  | [], bs => by rw [pairMerge_nil_left]; simp
  | a :: as, [] => by rw [pairMerge_nil_right]; simp
  | a :: as, b :: bs => by
    simp only [pairMerge, List.length_cons, pairMerge_length f as bs]
    omega

theorem pairMerge_asc {α : Type} (f : α → α → Bool) (P : α → Prop) (hf : SWO f P) : ∀ as bs : List (List α),
    (∀ a ∈ as, Asc f a ∧ ∀ x ∈ a, P x) → (∀ a ∈ bs, Asc f a ∧ ∀ x ∈ a, P x) →
    ∀ a ∈ pairMerge f as bs, Asc f a ∧ ∀ x ∈ a, P x
  | [], bs, _, hb => by rw [pairMerge_nil_left]; exact hb
  | a :: as, [], ha, _ => by rw [pairMerge_nil_right]; exact ha
  | a :: as, b :: bs, ha, hb => by
    intro c hc
    simp only [pairMerge, List.mem_cons] at hc
    rcases hc with hc | hc
    · subst hc
      obtain ⟨a1, a2⟩ := ha a (by simp)
      obtain ⟨b1, b2⟩ := hb b (by simp)
      refine ⟨merge_asc f P hf _ a b (Nat.le_refl _) a2 b2 a1 b1, ?_⟩
      intro x hx
      rcases mem_merge_of f x _ _ hx with h | h
      · exact a2 x h
      · exact b2 x h
    · exact pairMerge_asc f P hf as bs (fun a h => ha a (by simp [h])) (fun a h => hb a (by simp [h])) c hc

theorem pairMerge_ne {α : Type} (f : α → α → Bool) : ∀ as bs : List (List α),
    (∀ a ∈ as, a ≠ []) → (∀ a ∈ bs, a ≠ []) → ∀ a ∈ pairMerge f as bs, a ≠ []
  | [], bs, _, hb => by rw [pairMerge_nil_left]; exact hb
  | a :: as, [], ha, _ => by rw [pairMerge_nil_right]; exact ha
  | a :: as, b :: bs, ha, hb => by
    intro c hc
    simp only [pairMerge, List.mem_cons] at hc
    rcases hc with hc | hc
    · subst hc
      have := ha a (by simp)
      intro h
      have hp := List.merge_perm_append f (xs := a) (ys := b)
      rw [h] at hp
      have := hp.length_eq
      simp at this
      exact ha a (by simp) (List.length_eq_zero_iff.1 (by omega))
    · exact pairMerge_ne f as bs (fun a h => ha a (by simp [h])) (fun a h => hb a (by simp [h])) c hc

/-! ### The queues -/

/-- The order does not look at the end-of-block flag. -/
def IgnoresEob (lt : SItem → SItem → Bool) : Prop :=
  ∀ x y b c, lt { x with eob := b } { y with eob := c } = lt x y

/-- A queue made of blocks. -/
def blks (bs : List (List SItem)) : List SItem := (bs.map markLast).flatten

theorem markLast_cons (x : SItem) (t : List SItem) :
    markLast (x :: t) = (if t.isEmpty then { x with eob := true } else x) :: markLast t := by
  cases t <;> rfl

theorem markLast_isEmpty (t : List SItem) : (markLast t).isEmpty = t.isEmpty := by
  cases t with
  | nil => rfl
  | cons x t => rw [markLast_cons]; rfl

/-- All flags are off. -/
def Off (b : List SItem) : Prop := ∀ x ∈ b, x.eob = false

theorem headEob (x : SItem) (t : List SItem) (h : x.eob = false) :
    (if t.isEmpty then { x with eob := true } else x).eob = t.isEmpty ∧
    { (if t.isEmpty then { x with eob := true } else x) with eob := false } = x := by
  obtain ⟨u, r, d, e⟩ := x
  simp only at h
  subst h
  cases t <;> simp

theorem headLt (lt : SItem → SItem → Bool) (hl : IgnoresEob lt) (x y : SItem) (t s : List SItem) :
    lt (if t.isEmpty then { x with eob := true } else x) (if s.isEmpty then { y with eob := true } else y) =
      lt x y := by
  have e1 : ∀ (x : SItem) (t : List SItem), (if t.isEmpty then { x with eob := true } else x) =
      { x with eob := if t.isEmpty then true else x.eob } := by
    intro x t; cases t <;> rfl
  rw [e1, e1, hl]

theorem mergeBlock_spec (lt : SItem → SItem → Bool) (hl : IgnoresEob lt) : ∀ (n : Nat) (b0 b1 A B acc : List SItem),
    b0.length + b1.length ≤ n → Off b0 → Off b1 →
    mergeBlock lt b0.isEmpty b1.isEmpty (markLast b0 ++ A) (markLast b1 ++ B) acc =
      some (A, B, acc ++ List.merge b0 b1 lt) := by
  intro n
  induction n with
  | zero =>
    intro b0 b1 A B acc h _ _
    have h0 : b0 = [] := List.length_eq_zero_iff.1 (by omega)
    have h1 : b1 = [] := List.length_eq_zero_iff.1 (by omega)
    subst h0 h1
    rw [merge_nil_left]
    simp [markLast, mergeBlock]
  | succ n ih =>
    intro b0 b1 A B acc h o0 o1
    cases b0 with
    | nil =>
      cases b1 with
      | nil =>
        rw [merge_nil_left]
        simp [markLast, mergeBlock]
      | cons y b1 =>
        simp only [List.length_cons] at h
        obtain ⟨g1, g2⟩ := headEob y b1 (o1 y (by simp))
        have := ih [] b1 A B (acc ++ [y]) (by simpa using by omega) o0 (fun z hz => o1 z (by simp [hz]))
        rw [markLast_cons]
        simp only [List.isEmpty_nil, List.isEmpty_cons, List.cons_append]
        rw [mergeBlock, g1, g2]
        simp only [List.isEmpty_nil] at this
        rw [this, merge_nil_left, merge_nil_left]
        simp
    | cons x b0 =>
      simp only [List.length_cons] at h
      obtain ⟨f1, f2⟩ := headEob x b0 (o0 x (by simp))
      cases b1 with
      | nil =>
        have := ih b0 [] A B (acc ++ [x]) (by simpa using by omega) (fun z hz => o0 z (by simp [hz])) o1
        rw [markLast_cons]
        simp only [List.isEmpty_nil, List.isEmpty_cons, List.cons_append]
        rw [mergeBlock, f1, f2]
        simp only [List.isEmpty_nil] at this
        rw [this, merge_nil_right, merge_nil_right]
        simp
      | cons y b1 =>
        simp only [List.length_cons] at h
        obtain ⟨g1, g2⟩ := headEob y b1 (o1 y (by simp))
        have i1 := ih b0 (y :: b1) A B (acc ++ [x]) (by simp; omega) (fun z hz => o0 z (by simp [hz])) o1
        have i2 := ih (x :: b0) b1 A B (acc ++ [y]) (by simp; omega) o0 (fun z hz => o1 z (by simp [hz]))
        rw [merge_cons_cons]
        rw [markLast_cons] at i1 i2 ⊢
        rw [markLast_cons y b1] at *
        simp only [List.isEmpty_cons, List.cons_append] at i1 i2 ⊢
        rw [mergeBlock, headLt lt hl, f1, f2, g1, g2]
        cases lt x y
        · simp only [Bool.false_eq_true, if_false]
          rw [i2]; simp
        · simp only [if_true]
          rw [i1]; simp

theorem blks_cons (b : List SItem) (bs : List (List SItem)) : blks (b :: bs) = markLast b ++ blks bs := rfl

theorem blks_isEmpty (bs : List (List SItem)) (h : ∀ b ∈ bs, b ≠ []) : (blks bs).isEmpty = bs.isEmpty := by
  cases bs with
  | nil => rfl
  | cons b bs =>
    cases b with
    | nil => exact absurd rfl (h [] (by simp))
    | cons x t => rw [blks_cons, markLast_cons]; rfl

theorem blks_append (a b : List (List SItem)) : blks (a ++ b) = blks a ++ blks b := by
  unfold blks; simp

theorem off_merge (lt : SItem → SItem → Bool) (a b : List SItem) (ha : Off a) (hb : Off b) :
    Off (List.merge a b lt) := by
  intro x hx
  rcases mem_merge_of lt x _ _ hx with h | h
  · exact ha x h
  · exact hb x h

theorem off_pairMerge (lt : SItem → SItem → Bool) : ∀ as bs : List (List SItem),
    (∀ a ∈ as, Off a) → (∀ a ∈ bs, Off a) → ∀ a ∈ pairMerge lt as bs, Off a
  | [], bs, _, hb => by rw [pairMerge_nil_left]; exact hb
  | a :: as, [], ha, _ => by rw [pairMerge_nil_right]; exact ha
  | a :: as, b :: bs, ha, hb => by
    intro c hc
    simp only [pairMerge, List.mem_cons] at hc
    rcases hc with hc | hc
    · subst hc
      exact off_merge lt a b (ha a (by simp)) (hb b (by simp))
    · exact off_pairMerge lt as bs (fun a h => ha a (by simp [h])) (fun a h => hb a (by simp [h])) c hc

theorem sortPass_spec (lt : SItem → SItem → Bool) (hl : IgnoresEob lt) : ∀ (fuel : Nat) (as bs : List (List SItem))
    (d d' : List SItem) (odd : Bool), max as.length bs.length < fuel →
    (∀ a ∈ as, a ≠ [] ∧ Off a) → (∀ a ∈ bs, a ≠ [] ∧ Off a) →
    sortPass lt fuel (blks as) (blks bs) d d' odd =
      some (if odd then (d' ++ blks (deal (pairMerge lt as bs)).2, d ++ blks (deal (pairMerge lt as bs)).1)
        else (d ++ blks (deal (pairMerge lt as bs)).1, d' ++ blks (deal (pairMerge lt as bs)).2)) := by
  intro fuel
  induction fuel with
  | zero => intro as bs d d' odd h; omega
  | succ fuel ih =>
    intro as bs d d' odd h ha hb
    rw [sortPass, blks_isEmpty as (fun a h => (ha a h).1), blks_isEmpty bs (fun a h => (hb a h).1)]
    cases as with
    | nil =>
      cases bs with
      | nil => cases odd <;> simp [pairMerge, deal, blks]
      | cons b bs =>
        simp only [List.length_cons, List.length_nil] at h
        have hm := mergeBlock_spec lt hl _ [] b [] (blks bs) [] (Nat.le_refl _) (by intro x hx; cases hx) (hb b (by simp)).2
        have hbe : b.isEmpty = false := by
          have := (hb b (by simp)).1
          cases b <;> simp_all
        have hi := ih [] bs d' (d ++ markLast (List.merge [] b lt)) (!odd) (by simp; omega) ha
          (fun a h => hb a (by simp [h]))
        rw [merge_nil_left] at hm hi
        rw [pairMerge_nil_left] at hi ⊢
        simp only [List.isEmpty_nil, List.isEmpty_cons, Bool.and_false, Bool.false_eq_true, if_false]
        rw [show blks ([] : List (List SItem)) = [] from rfl] at hi ⊢
        rw [show markLast ([] : List SItem) ++ [] = [] from rfl, hbe] at hm
        simp only [List.isEmpty_nil] at hm
        rw [blks_cons, hm]
        simp only [List.nil_append]
        rw [hi]
        cases odd <;> simp [deal, blks_cons]
    | cons a as =>
      have hae : a.isEmpty = false := by
        have := (ha a (by simp)).1
        cases a <;> simp_all
      cases bs with
      | nil =>
        simp only [List.length_cons, List.length_nil] at h
        have hm := mergeBlock_spec lt hl _ a [] (blks as) [] [] (Nat.le_refl _) (ha a (by simp)).2 (by intro x hx; cases hx)
        have hi := ih as [] d' (d ++ markLast (List.merge a [] lt)) (!odd) (by simp; omega)
          (fun a h => ha a (by simp [h])) hb
        rw [merge_nil_right] at hm hi
        rw [pairMerge_nil_right] at hi ⊢
        simp only [List.isEmpty_nil, List.isEmpty_cons, Bool.and_true, Bool.false_eq_true, if_false]
        rw [show blks ([] : List (List SItem)) = [] from rfl] at hi ⊢
        rw [show markLast ([] : List SItem) ++ [] = [] from rfl, hae] at hm
        simp only [List.isEmpty_nil] at hm
        rw [blks_cons, hm]
        simp only [List.nil_append]
        rw [hi]
        cases odd <;> simp [deal, blks_cons]
      | cons b bs =>
        simp only [List.length_cons] at h
        have hbe : b.isEmpty = false := by
          have := (hb b (by simp)).1
          cases b <;> simp_all
        have hm := mergeBlock_spec lt hl _ a b (blks as) (blks bs) [] (Nat.le_refl _) (ha a (by simp)).2 (hb b (by simp)).2
        have hi := ih as bs d' (d ++ markLast (List.merge a b lt)) (!odd) (by omega)
          (fun a h => ha a (by simp [h])) (fun a h => hb a (by simp [h]))
        simp only [List.isEmpty_cons, Bool.and_false, Bool.false_eq_true, if_false]
        rw [hae, hbe] at hm
        rw [blks_cons, blks_cons, hm]
        simp only [List.nil_append]
        rw [hi]
        cases odd <;> simp [pairMerge, deal, blks_cons]

/-- `cob_sort_queues` gives one ascending block with all the items. -/
theorem sortQueues_spec (lt : SItem → SItem → Bool) (hl : IgnoresEob lt) (P : SItem → Prop) (hs : SWO lt P) :
    ∀ (fuel : Nat) (as bs : List (List SItem)), as.length + bs.length + 2 ≤ fuel →
    bs.length ≤ as.length → as.length ≤ bs.length + 1 →
    (∀ a ∈ as, a ≠ [] ∧ Off a ∧ Asc lt a ∧ ∀ x ∈ a, P x) →
    (∀ a ∈ bs, a ≠ [] ∧ Off a ∧ Asc lt a ∧ ∀ x ∈ a, P x) →
    ∃ c, sortQueues lt fuel (blks as) (blks bs) = some (markLast c) ∧ Off c ∧ Asc lt c ∧
      c.Perm (as.flatten ++ bs.flatten) := by
  intro fuel
  induction fuel with
  | zero => intro as bs h; omega
  | succ fuel ih =>
    intro as bs h h1 h2 ha hb
    rw [sortQueues]
    have hbe := blks_isEmpty bs (fun a h => (hb a h).1)
    by_cases hb0 : bs.length = 0
    · have : bs = [] := List.length_eq_zero_iff.1 hb0
      subst this
      have hb0 : (blks ([] : List (List SItem))).length = 0 := rfl
      rw [if_pos hb0]
      cases as with
      | nil => exact ⟨[], rfl, (by intro x hx; cases hx), List.Pairwise.nil, by simp⟩
      | cons a as =>
        have : as = [] := List.length_eq_zero_iff.1 (by simp at h2; exact List.length_eq_zero_iff.2 h2)
        subst this
        obtain ⟨_, a2, a3, _⟩ := ha a (by simp)
        exact ⟨a, by simp [blks], a2, a3, by simp⟩
    · have hb1 : (blks bs).length ≠ 0 := by
        intro hc
        rw [List.length_eq_zero_iff] at hc
        rw [hc] at hbe
        cases bs
        · simp at hb0
        · simp at hbe
      rw [if_neg hb1]
      rw [sortPass_spec lt hl fuel as bs [] [] false (by omega) (fun a h => ⟨(ha a h).1, (ha a h).2.1⟩)
        (fun a h => ⟨(hb a h).1, (hb a h).2.1⟩)]
      simp only [Bool.false_eq_true, if_false, List.nil_append]
      have hL := pairMerge_length lt as bs
      obtain ⟨l1, l2⟩ := deal_length (pairMerge lt as bs)
      have hall : ∀ a ∈ pairMerge lt as bs, a ≠ [] ∧ Off a ∧ Asc lt a ∧ ∀ x ∈ a, P x := by
        intro a hm
        refine ⟨pairMerge_ne lt as bs (fun a h => (ha a h).1) (fun a h => (hb a h).1) a hm,
          off_pairMerge lt as bs (fun a h => (ha a h).2.1) (fun a h => (hb a h).2.1) a hm, ?_⟩
        exact pairMerge_asc lt P hs as bs (fun a h => (ha a h).2.2) (fun a h => (hb a h).2.2) a hm
      obtain ⟨c, c1, c2, c3, c4⟩ := ih (deal (pairMerge lt as bs)).1 (deal (pairMerge lt as bs)).2
        (by omega) (by omega) (by omega)
        (fun a h => hall a ((deal_mem _ a).1 (Or.inl h))) (fun a h => hall a ((deal_mem _ a).1 (Or.inr h)))
      exact ⟨c, c1, c2, c3, c4.trans ((deal_perm _).trans (pairMerge_perm lt as bs))⟩

end Cob
