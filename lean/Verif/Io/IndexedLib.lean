import Verif.Io.IndexedSpec
import Mathlib.Data.List.Lex
/- Sorted lists of index entries: where a key is, insertion and removal. -/
namespace Cob

instance (k : List Nat) (n : Nat) (k' : List Nat) (n' : Nat) : Decidable (IxBefore k n k' n') :=
  inferInstanceAs (Decidable (_ ∨ _))

theorem IxBefore.trans {k k' k'' : List Nat} {n n' n'' : Nat} (h : IxBefore k n k' n') (h' : IxBefore k' n' k'' n'') :
    IxBefore k n k'' n'' := by
  rcases h with h | ⟨rfl, h⟩
  · rcases h' with h' | ⟨rfl, h'⟩
    · exact Or.inl (lt_trans h h')
    · exact Or.inl h
  · rcases h' with h' | ⟨rfl, h'⟩
    · exact Or.inl h'
    · exact Or.inr ⟨rfl, by omega⟩

theorem IxBefore.irrefl (k : List Nat) (n : Nat) : ¬ IxBefore k n k n := by
  rintro (h | ⟨-, h⟩)
  · exact lt_irrefl _ h
  · omega

theorem ixBefore_total (k : List Nat) (n : Nat) (k' : List Nat) (n' : Nat) :
    IxBefore k n k' n' ∨ (k = k' ∧ n = n') ∨ IxBefore k' n' k n := by
  rcases lt_trichotomy k k' with h | rfl | h
  · exact Or.inl (Or.inl h)
  · rcases Nat.lt_trichotomy n n' with h | rfl | h
    · exact Or.inl (Or.inr ⟨rfl, h⟩)
    · exact Or.inr (Or.inl ⟨rfl, rfl⟩)
    · exact Or.inr (Or.inr (Or.inr ⟨rfl, h⟩))
  · exact Or.inr (Or.inr (Or.inl h))

/-- The order of entries. -/
def EntLt (a b : IxEnt) : Prop := IxBefore a.key a.dup b.key b.dup

/-- A predicate that holds for the beginning of a sorted list. -/
def Down (q : IxEnt → Bool) : Prop := ∀ a b, EntLt a b → q b = true → q a = true

/-- How many entries there are at the beginning. -/
def cut (q : IxEnt → Bool) (L : List IxEnt) : Nat := (L.takeWhile q).length

theorem cut_le (q : IxEnt → Bool) (L : List IxEnt) : cut q L ≤ L.length := List.Sublist.length_le (List.takeWhile_sublist q)

theorem cut_cons (q : IxEnt → Bool) (x : IxEnt) (L : List IxEnt) : cut q (x :: L) = if q x then cut q L + 1 else 0 := by
  unfold cut
  rw [List.takeWhile_cons]
  split <;> rfl

theorem cut_spec (q : IxEnt → Bool) (hq : Down q) : ∀ (L : List IxEnt), L.Pairwise EntLt → ∀ j e, L[j]? = some e →
    (q e = true ↔ j < cut q L)
  | [], _, j, e, h => by simp at h
  | x :: L, hs, j, e, h => by
    rw [List.pairwise_cons] at hs
    rw [cut_cons]
    cases j with
    | zero =>
      simp only [List.getElem?_cons_zero, Option.some.injEq] at h
      subst h
      by_cases hx : q x = true <;> simp [hx]
    | succ j =>
      simp only [List.getElem?_cons_succ] at h
      have ih := cut_spec q hq L hs.2 j e h
      by_cases hx : q x = true
      · rw [if_pos hx, ih]; omega
      · rw [if_neg hx]
        constructor
        · intro he
          exact absurd (hq x e (hs.1 e (List.mem_of_getElem? h)) he) hx
        · intro h; omega

theorem findIdx_cut (q : IxEnt → Bool) : ∀ (L : List IxEnt), L.findIdx? (fun e => !q e) = if cut q L < L.length then some (cut q L) else none
  | [] => by simp [cut]
  | x :: L => by
    rw [List.findIdx?_cons, cut_cons, findIdx_cut q L]
    by_cases hx : q x = true
    · simp only [hx, if_true, Bool.not_true, Bool.false_eq_true, if_false, List.length_cons]
      by_cases h : cut q L < L.length
      · rw [if_pos h, if_pos (by omega)]; rfl
      · rw [if_neg h, if_neg (by omega)]; rfl
    · simp [hx]

theorem skipWhile_cut (c : IxEnt → Bool) : ∀ (L : List IxEnt) (j : Nat),
    skipWhile c j L = if cut c L < L.length then some (j + cut c L) else none
  | [], j => by simp [skipWhile, cut]
  | x :: L, j => by
    rw [skipWhile, cut_cons, skipWhile_cut c L (j + 1)]
    by_cases hx : c x = true
    · simp only [hx, if_true, List.length_cons]
      by_cases h : cut c L < L.length
      · rw [if_pos h, if_pos (by omega)]; congr 1; omega
      · rw [if_neg h, if_neg (by omega)]
    · simp [hx]

/-- Two cuts one after the other. -/
theorem cut_more (p q c : IxEnt → Bool) (L : List IxEnt) (hL : L.Pairwise EntLt) (hp : Down p)
    (h1 : ∀ e ∈ L, p e = true → q e = true) (h2 : ∀ e ∈ L, p e = false → q e = c e) :
    cut q L = cut p L + cut c (L.drop (cut p L)) := by
  have hsplit : L = L.take (cut p L) ++ L.drop (cut p L) := (List.take_append_drop _ L).symm
  have hA : ∀ e ∈ L.take (cut p L), q e = true := by
    intro e he
    obtain ⟨j, hj⟩ := List.mem_iff_getElem?.mp he
    have hlt : j < cut p L := by
      by_contra h
      rw [List.getElem?_take, if_neg (by omega)] at hj
      cases hj
    rw [List.getElem?_take_of_lt hlt] at hj
    exact h1 e (List.mem_of_getElem? hj) ((cut_spec p hp L hL j e hj).mpr hlt)
  have hB : ∀ e ∈ L.drop (cut p L), q e = c e := by
    intro e he
    obtain ⟨j, hj⟩ := List.mem_iff_getElem?.mp he
    rw [List.getElem?_drop] at hj
    refine h2 e (List.mem_of_getElem? hj) ?_
    have := (cut_spec p hp L hL _ e hj).not
    have h3 : ¬ p e = true := this.mpr (by omega)
    simpa using h3
  have hcB : ∀ M : List IxEnt, (∀ e ∈ M, q e = c e) → cut q M = cut c M := by
    intro M
    induction M with
    | nil => intro _; rfl
    | cons x M ih =>
      intro h
      rw [cut_cons, cut_cons, h x (by simp), ih fun e he => h e (by simp [he])]
  have hAp : ∀ A B : List IxEnt, (∀ e ∈ A, q e = true) → cut q (A ++ B) = A.length + cut q B := by
    intro A B
    induction A with
    | nil => intro _; simp
    | cons x A ih =>
      intro h
      rw [List.cons_append, cut_cons, h x (by simp), if_pos rfl, ih fun e he => h e (by simp [he]), List.length_cons]
      omega
  conv_lhs => rw [hsplit]
  rw [hAp _ _ hA, hcB _ hB, List.length_take, Nat.min_eq_left (cut_le p L)]

/-- A cut inside a longer one. -/
theorem cut_mono (p q : IxEnt → Bool) (L : List IxEnt) (hL : L.Pairwise EntLt) (hp : Down p) (hq : Down q)
    (h : ∀ e ∈ L, p e = true → q e = true) : cut p L ≤ cut q L := by
  by_contra hlt
  have hl := cut_le p L
  have hj : cut q L < L.length := by omega
  have he : L[cut q L]? = some L[cut q L] := List.getElem?_eq_getElem hj
  have h1 := (cut_spec p hp L hL _ _ he).mpr (by omega)
  have h2 := (cut_spec q hq L hL _ _ he).mp (h _ (List.mem_of_getElem? he) h1)
  omega

theorem ixFirst_of_cut {L : List IxEnt} (hL : L.Pairwise EntLt) {q : IxEnt → Bool} (hq : Down q) :
    match L[cut q L]? with
    | none => ∀ e ∈ L, q e = true
    | some e => e ∈ L ∧ q e = false ∧ ∀ e' ∈ L, q e' = false → ¬ EntLt e' e := by
  cases h : L[cut q L]? with
  | none =>
    intro e he
    obtain ⟨j, hj⟩ := List.mem_iff_getElem?.mp he
    rw [List.getElem?_eq_none_iff] at h
    refine (cut_spec q hq L hL j e hj).mpr ?_
    have := (List.getElem?_eq_some_iff.mp hj).1
    omega
  | some e =>
    refine ⟨List.mem_of_getElem? h, ?_, ?_⟩
    · have := (cut_spec q hq L hL _ e h).not.mpr (by omega)
      simpa using this
    · intro e' he' hqe hlt
      obtain ⟨j, hj⟩ := List.mem_iff_getElem?.mp he'
      have h2 : ¬ j < cut q L := fun h => by
        have := (cut_spec q hq L hL j e' hj).mpr h
        rw [hqe] at this
        cases this
      rcases Nat.lt_or_ge (cut q L) j with h3 | h3
      · have := List.pairwise_iff_getElem.mp hL (cut q L) j (List.getElem?_eq_some_iff.mp h).1
          (List.getElem?_eq_some_iff.mp hj).1 h3
        rw [(List.getElem?_eq_some_iff.mp h).2, (List.getElem?_eq_some_iff.mp hj).2] at this
        exact IxBefore.irrefl _ _ (IxBefore.trans this hlt)
      · have : j = cut q L := by omega
        subst this
        rw [h] at hj
        cases hj
        exact IxBefore.irrefl _ _ hlt

theorem ixLast_of_cut {L : List IxEnt} (hL : L.Pairwise EntLt) {q : IxEnt → Bool} (hq : Down q) :
    (cut q L = 0 → ∀ e ∈ L, q e = false) ∧
    (cut q L ≠ 0 → ∃ e, L[cut q L - 1]? = some e ∧ e ∈ L ∧ q e = true ∧ ∀ e' ∈ L, q e' = true → ¬ EntLt e e') := by
  constructor
  · intro h e he
    obtain ⟨j, hj⟩ := List.mem_iff_getElem?.mp he
    have := (cut_spec q hq L hL j e hj).not.mpr (by omega)
    simpa using this
  · intro h
    have hl := cut_le q L
    have hlt : cut q L - 1 < L.length := by omega
    have he : L[cut q L - 1]? = some L[cut q L - 1] := List.getElem?_eq_getElem hlt
    refine ⟨_, he, List.mem_of_getElem? he, (cut_spec q hq L hL _ _ he).mpr (by omega), ?_⟩
    intro e' he' hqe hb
    obtain ⟨j, hj⟩ := List.mem_iff_getElem?.mp he'
    have h2 := (cut_spec q hq L hL j e' hj).mp hqe
    rcases Nat.lt_or_ge j (cut q L - 1) with h3 | h3
    · have := List.pairwise_iff_getElem.mp hL j (cut q L - 1) (List.getElem?_eq_some_iff.mp hj).1 hlt h3
      rw [(List.getElem?_eq_some_iff.mp hj).2] at this
      exact IxBefore.irrefl _ _ (IxBefore.trans this hb)
    · have : j = cut q L - 1 := by omega
      subst this
      rw [he] at hj
      cases hj
      exact IxBefore.irrefl _ _ hb

/-! ### The predicates used -/

/-- Keys less than `k`. -/
def kLt (k : List Nat) (e : IxEnt) : Bool := decide (e.key < k)
/-- Keys not greater than `k`. -/
def kLe (k : List Nat) (e : IxEnt) : Bool := !decide (k < e.key)
/-- Before the position. -/
def pLt (k : List Nat) (n : Nat) (e : IxEnt) : Bool := decide (IxBefore e.key e.dup k n)
/-- Not behind the position. -/
def pLe (k : List Nat) (n : Nat) (e : IxEnt) : Bool := !decide (IxBefore k n e.key e.dup)

theorem down_kLt (k : List Nat) : Down (kLt k) := by
  intro a b h hb
  simp only [kLt, decide_eq_true_eq] at *
  rcases h with h | ⟨h, -⟩
  · exact lt_trans h hb
  · rw [h]; exact hb

theorem down_kLe (k : List Nat) : Down (kLe k) := by
  intro a b h hb
  simp only [kLe, Bool.not_eq_true', decide_eq_false_iff_not] at *
  intro hk
  rcases h with h | ⟨h, -⟩
  · exact hb (lt_trans hk h)
  · rw [h] at hk; exact hb hk

theorem down_pLt (k : List Nat) (n : Nat) : Down (pLt k n) := by
  intro a b h hb
  simp only [pLt, decide_eq_true_eq] at *
  exact IxBefore.trans h hb

theorem down_pLe (k : List Nat) (n : Nat) : Down (pLe k n) := by
  intro a b h hb
  simp only [pLe, Bool.not_eq_true', decide_eq_false_iff_not] at *
  exact fun hk => hb (IxBefore.trans hk h)

theorem kLt_false (k : List Nat) (e : IxEnt) : kLt k e = false ↔ e.key = k ∨ k < e.key := by
  simp only [kLt, decide_eq_false_iff_not]
  rcases lt_trichotomy e.key k with h | h | h
  · simp [h, ne_of_lt h, asymm h]
  · simp [h]
  · simp [h, asymm h]

/-! ### The entry found -/

/-- The first entry with `P`, or there is none. -/
def EFirst (L : List IxEnt) (P : IxEnt → Prop) : Option IxEnt → Prop
  | none => ∀ e ∈ L, ¬ P e
  | some e => e ∈ L ∧ P e ∧ ∀ e' ∈ L, P e' → ¬ EntLt e' e

/-- The last one. -/
def ELast (L : List IxEnt) (P : IxEnt → Prop) : Option IxEnt → Prop
  | none => ∀ e ∈ L, ¬ P e
  | some e => e ∈ L ∧ P e ∧ ∀ e' ∈ L, P e' → ¬ EntLt e e'

theorem eFirst_cut {L : List IxEnt} (hL : L.Pairwise EntLt) {q : IxEnt → Bool} (hq : Down q) {P : IxEnt → Prop}
    (hP : ∀ e ∈ L, P e ↔ q e = false) : EFirst L P L[cut q L]? := by
  have h := ixFirst_of_cut hL hq
  cases he : L[cut q L]? with
  | none =>
    rw [he] at h
    intro e hm
    rw [hP e hm, h e hm]
    simp
  | some e =>
    rw [he] at h
    exact ⟨h.1, (hP e h.1).mpr h.2.1, fun e' hm hp => h.2.2 e' hm ((hP e' hm).mp hp)⟩

theorem eLast_cut {L : List IxEnt} (hL : L.Pairwise EntLt) {q : IxEnt → Bool} (hq : Down q) {P : IxEnt → Prop}
    (hP : ∀ e ∈ L, P e ↔ q e = true) : ELast L P (if cut q L = 0 then none else L[cut q L - 1]?) := by
  have h := ixLast_of_cut hL hq
  by_cases h0 : cut q L = 0
  · rw [if_pos h0]
    intro e hm
    rw [hP e hm, h.1 h0 e hm]
    simp
  · rw [if_neg h0]
    obtain ⟨e, he, h1, h2, h3⟩ := h.2 h0
    rw [he]
    exact ⟨h1, (hP e h1).mpr h2, fun e' hm hp => h3 e' hm ((hP e' hm).mp hp)⟩

theorem seekRange_cut (L : List IxEnt) (k : List Nat) :
    seekRange L k = if cut (kLt k) L < L.length then some (cut (kLt k) L) else none := findIdx_cut (kLt k) L

theorem seekKey_cut (k : List Nat) : ∀ (L : List IxEnt), L.Pairwise EntLt →
    seekKey L k = (L[cut (kLt k) L]?).bind fun e => if e.key = k then some (cut (kLt k) L) else none
  | [], _ => rfl
  | x :: L, hs => by
    rw [List.pairwise_cons] at hs
    have ih := seekKey_cut k L hs.2
    unfold seekKey at *
    rw [List.findIdx?_cons, cut_cons, ih]
    by_cases hx : kLt k x = true
    · rw [if_pos hx]
      have hne : (x.key == k) = false := by
        simp only [kLt, decide_eq_true_eq] at hx
        simp [ne_of_lt hx]
      rw [hne]
      simp only [Bool.false_eq_true, if_false, List.getElem?_cons_succ]
      cases L[cut (kLt k) L]? with
      | none => rfl
      | some e =>
        simp only [Option.bind_some]
        by_cases hk : e.key = k
        · simp [hk]
        · simp [hk]
    · rw [if_neg hx]
      simp only [List.getElem?_cons_zero, Option.bind_some]
      by_cases hk : x.key = k
      · simp [hk]
      · have hgt : k < x.key := by
          rcases (kLt_false k x).mp (by simpa using hx) with h | h
          · exact absurd h hk
          · exact h
        simp only [hk, if_false]
        rw [← ih]
        have hnone : L.findIdx? (fun e => e.key == k) = none := by
          rw [List.findIdx?_eq_none_iff]
          intro e he
          rcases hs.1 e he with h | ⟨h, -⟩
          · simp [ne_of_gt (lt_trans hgt h)]
          · simp [← h, hk]
        simp [hnone, hk]

/-- The position itself is in the list. -/
theorem cut_pLe (k : List Nat) (n : Nat) (L : List IxEnt) (hL : L.Pairwise EntLt) :
    cut (pLe k n) L = cut (pLt k n) L + (if (L[cut (pLt k n) L]?).any fun e => e.key == k && e.dup == n then 1 else 0) := by
  have hle := cut_mono (pLt k n) (pLe k n) L hL (down_pLt k n) (down_pLe k n) (by
    intro e _ h
    simp only [pLt, decide_eq_true_eq] at h
    simp only [pLe, Bool.not_eq_true', decide_eq_false_iff_not]
    exact fun h' => IxBefore.irrefl _ _ (IxBefore.trans h h'))
  have hlen := cut_le (pLe k n) L
  cases he : L[cut (pLt k n) L]? with
  | none =>
    rw [List.getElem?_eq_none_iff] at he
    simp
    omega
  | some e =>
    simp only [Option.any_some]
    by_cases hk : (e.key == k && e.dup == n) = true
    · rw [if_pos hk]
      simp only [Bool.and_eq_true, beq_iff_eq] at hk
      have h1 := (cut_spec (pLe k n) (down_pLe k n) L hL _ e he).mp (by
        simp only [pLe, hk.1, hk.2, Bool.not_eq_true', decide_eq_false_iff_not]
        exact IxBefore.irrefl _ _)
      by_contra hne
      have hj : cut (pLt k n) L + 1 < L.length := by omega
      have h2 := (cut_spec (pLe k n) (down_pLe k n) L hL _ _ (List.getElem?_eq_getElem hj)).mpr (by omega)
      have h3 := List.pairwise_iff_getElem.mp hL (cut (pLt k n) L) _ (List.getElem?_eq_some_iff.mp he).1 hj (by omega)
      rw [(List.getElem?_eq_some_iff.mp he).2] at h3
      simp only [pLe, Bool.not_eq_true', decide_eq_false_iff_not] at h2
      unfold EntLt at h3
      rw [hk.1, hk.2] at h3
      exact h2 h3
    · rw [if_neg hk]
      by_contra hne
      have h1 := (cut_spec (pLe k n) (down_pLe k n) L hL _ e he).mpr (by omega)
      have h2 := (cut_spec (pLt k n) (down_pLt k n) L hL _ e he).not.mpr (by omega)
      simp only [pLe, pLt, Bool.not_eq_true', decide_eq_false_iff_not, decide_eq_true_eq] at h1 h2
      rcases ixBefore_total e.key e.dup k n with h | h | h
      · exact h2 h
      · exact hk (by simp [h.1, h.2])
      · exact h1 h

/-- The loop over the duplicates. -/
theorem skip_dups (k : List Nat) (n : Nat) (L : List IxEnt) (hL : L.Pairwise EntLt) :
    skipWhile (fun e => e.key == k && decide (e.dup < n)) (cut (kLt k) L) (L.drop (cut (kLt k) L)) =
      if cut (pLt k n) L < L.length then some (cut (pLt k n) L) else none := by
  have h := cut_more (kLt k) (pLt k n) (fun e => e.key == k && decide (e.dup < n)) L hL (down_kLt k)
    (by
      intro e _ h
      simp only [kLt, pLt, decide_eq_true_eq] at *
      exact Or.inl h)
    (by
      intro e _ h
      rw [kLt_false] at h
      unfold pLt IxBefore
      rcases h with h | h
      · simp [h]
      · simp [asymm h, ne_of_gt h])
  rw [skipWhile_cut, List.length_drop, h]
  by_cases hc : cut (fun e => e.key == k && decide (e.dup < n)) (L.drop (cut (kLt k) L)) < L.length - cut (kLt k) L
  · rw [if_pos hc, if_pos (by omega)]
  · rw [if_neg hc, if_neg (by omega)]

theorem pLt_zero (k : List Nat) : pLt k 0 = kLt k := by
  funext e
  simp [pLt, kLt, IxBefore]

/-- READ NEXT goes to the first entry behind the position. -/
theorem next_cut (cfg : IxCfg) (f : IxFile) (n : Nat) (hL : (f.index f.keyIndex).Pairwise EntLt)
    (hd : ¬ (f.keyIndex ≠ 0 ∧ (cfg.key f.keyIndex).dups = true) → n = 0 ∧ ∀ e ∈ f.index f.keyIndex, e.dup = 0)
    (hn : f.keyIndex ≠ 0 ∧ (cfg.key f.keyIndex).dups = true → n = f.lastDup f.keyIndex) :
    ((ixStepTo cfg f .next).bind fun j => (f.index f.keyIndex)[j]?) =
      (f.index f.keyIndex)[cut (pLe (f.lastRead f.keyIndex) n) (f.index f.keyIndex)]? := by
  unfold ixStepTo
  simp only
  generalize f.index f.keyIndex = L at *
  generalize f.lastRead f.keyIndex = k at *
  rw [cut_pLe k n L hL, seekRange_cut]
  have hmono := cut_mono (kLt k) (pLt k n) L hL (down_kLt k) (down_pLt k n) (by
    intro e _ h
    simp only [kLt, pLt, decide_eq_true_eq] at *
    exact Or.inl h)
  have hlen := cut_le (pLt k n) L
  by_cases h1 : cut (kLt k) L < L.length
  · rw [if_pos h1]
    simp only [Option.bind_some]
    have he : L[cut (kLt k) L]? = some L[cut (kLt k) L] := List.getElem?_eq_getElem h1
    rw [he]
    simp only [Option.any_some]
    by_cases hk : (L[cut (kLt k) L].key == k) = true
    · rw [if_pos hk]
      by_cases hdd : f.keyIndex ≠ 0 ∧ (cfg.key f.keyIndex).dups = true
      · rw [if_pos hdd, ← hn hdd, skip_dups k n L hL]
        by_cases h2 : cut (pLt k n) L < L.length
        · rw [if_pos h2]
          simp only [Option.bind_some]
          have he2 : L[cut (pLt k n) L]? = some L[cut (pLt k n) L] := List.getElem?_eq_getElem h2
          rw [he2]
          simp only [Option.any_some]
          by_cases h3 : (L[cut (pLt k n) L].key == k && L[cut (pLt k n) L].dup == n) = true
          · rw [if_pos h3, if_pos h3]
            unfold seekNext
            by_cases h4 : cut (pLt k n) L + 1 < L.length
            · rw [if_pos h4]; rfl
            · rw [if_neg h4, List.getElem?_eq_none_iff.mpr (by omega)]; rfl
          · rw [if_neg h3, if_neg h3, Nat.add_zero, he2]
            exact he2
        · rw [if_neg h2]
          simp only [Option.bind_none]
          rw [List.getElem?_eq_none_iff.mpr (by omega)]
      · rw [if_neg hdd]
        obtain ⟨rfl, hz⟩ := hd hdd
        rw [pLt_zero, he]
        simp only [Option.any_some, hk, hz _ (List.getElem_mem h1), Bool.true_and, beq_self_eq_true, if_true]
        unfold seekNext
        by_cases h4 : cut (kLt k) L + 1 < L.length
        · rw [if_pos h4]; rfl
        · rw [if_neg h4, List.getElem?_eq_none_iff.mpr (by omega)]; rfl
    · rw [if_neg hk]
      have hgt : k < L[cut (kLt k) L].key := by
        have := (cut_spec (kLt k) (down_kLt k) L hL _ _ he).not.mpr (by omega)
        rcases (kLt_false k _).mp (by simpa using this) with h | h
        · exact absurd (by simpa using h) hk
        · exact h
      have heq : cut (pLt k n) L = cut (kLt k) L := by
        have : ¬ cut (kLt k) L < cut (pLt k n) L := by
          rw [← cut_spec (pLt k n) (down_pLt k n) L hL _ _ he]
          simp only [pLt, decide_eq_true_eq]
          rintro (h | ⟨h, -⟩)
          · exact asymm hgt h
          · exact ne_of_gt hgt h
        omega
      rw [heq, he]
      simp only [Option.bind_some, Option.any_some, Bool.not_eq_true] at hk ⊢
      simp [hk]
  · rw [if_neg h1]
    simp only [Option.bind_none]
    rw [List.getElem?_eq_none_iff.mpr (by omega)]

/-- READ PREVIOUS goes to the last entry before the position. -/
theorem prev_cut (cfg : IxCfg) (f : IxFile) (n : Nat) (hL : (f.index f.keyIndex).Pairwise EntLt)
    (hd : ¬ (f.keyIndex ≠ 0 ∧ (cfg.key f.keyIndex).dups = true) → n = 0)
    (hn : f.keyIndex ≠ 0 ∧ (cfg.key f.keyIndex).dups = true → n = f.lastDup f.keyIndex) :
    ((ixStepTo cfg f .prev).bind fun j => (f.index f.keyIndex)[j]?) =
      (if cut (pLt (f.lastRead f.keyIndex) n) (f.index f.keyIndex) = 0 then none else
      (f.index f.keyIndex)[cut (pLt (f.lastRead f.keyIndex) n) (f.index f.keyIndex) - 1]?) := by
  unfold ixStepTo
  simp only
  generalize f.index f.keyIndex = L at *
  generalize f.lastRead f.keyIndex = k at *
  rw [seekRange_cut]
  have hmono := cut_mono (kLt k) (pLt k n) L hL (down_kLt k) (down_pLt k n) (by
    intro e _ h
    simp only [kLt, pLt, decide_eq_true_eq] at *
    exact Or.inl h)
  have hlen := cut_le (pLt k n) L
  have hlast : ∀ c, c = L.length → ((seekLast L).bind fun j => L[j]?) = (if c = 0 then none else L[c - 1]?) := by
    rintro c rfl
    unfold seekLast
    cases L with
    | nil => simp
    | cons x L => simp
  have hprev : ∀ c, ((seekPrev c).bind fun j => L[j]?) = (if c = 0 then none else L[c - 1]?) := by
    intro c
    unfold seekPrev
    split <;> rfl
  by_cases h1 : cut (kLt k) L < L.length
  · rw [if_pos h1]
    simp only
    have he : L[cut (kLt k) L]? = some L[cut (kLt k) L] := List.getElem?_eq_getElem h1
    rw [he]
    simp only [Option.any_some]
    by_cases hk : (L[cut (kLt k) L].key == k) = true
    · rw [if_pos hk]
      by_cases hdd : f.keyIndex ≠ 0 ∧ (cfg.key f.keyIndex).dups = true
      · rw [if_pos hdd, ← hn hdd, skip_dups k n L hL]
        by_cases h2 : cut (pLt k n) L < L.length
        · rw [if_pos h2]
          exact hprev _
        · rw [if_neg h2]
          exact hlast _ (by omega)
      · rw [if_neg hdd, hd hdd, pLt_zero]
        exact hprev _
    · rw [if_neg hk]
      have hgt : k < L[cut (kLt k) L].key := by
        have := (cut_spec (kLt k) (down_kLt k) L hL _ _ he).not.mpr (by omega)
        rcases (kLt_false k _).mp (by simpa using this) with h | h
        · exact absurd (by simpa using h) hk
        · exact h
      have heq : cut (pLt k n) L = cut (kLt k) L := by
        have : ¬ cut (kLt k) L < cut (pLt k n) L := by
          rw [← cut_spec (pLt k n) (down_pLt k n) L hL _ _ he]
          simp only [pLt, decide_eq_true_eq]
          rintro (h | ⟨h, -⟩)
          · exact asymm hgt h
          · exact ne_of_gt hgt h
        omega
      rw [heq]
      exact hprev _
  · rw [if_neg h1]
    exact hlast _ (by omega)

end Cob
