import Verif.Io.IndexedLib
import Mathlib.Data.List.TakeWhile
/- START, insertion and removal in sorted lists of index entries. -/
namespace Cob

theorem take_lt : ∀ (a k : List Nat), a.length ≤ k.length → (k < a ↔ k.take a.length < a)
  | [], k, _ => by simp
  | x :: a, [], h => by simp at h
  | x :: a, y :: k, h => by
    simp only [List.length_cons, List.take_succ_cons, List.cons_lt_cons_iff]
    rw [take_lt a k (by simpa using h)]

theorem take_gt_mono : ∀ (n : Nat) (a b : List Nat), b.take n < a.take n → b < a
  | 0, a, b, h => by simp at h
  | n + 1, [], b, h => by
    simp at h
  | n + 1, x :: a, [], h => by simp
  | n + 1, x :: a, y :: b, h => by
    simp only [List.take_succ_cons, List.cons_lt_cons_iff] at h ⊢
    rcases h with h | ⟨h, h'⟩
    · exact Or.inl h
    · exact Or.inr ⟨h, take_gt_mono n a b h'⟩

/-- The leading bytes are not greater. -/
def tLe (a : List Nat) (e : IxEnt) : Bool := !decide (a < e.key.take a.length)

theorem down_tLe (a : List Nat) : Down (tLe a) := by
  intro x y h hb
  simp only [tLe, Bool.not_eq_true', decide_eq_false_iff_not] at *
  intro hx
  apply hb
  rcases h with h | ⟨h, -⟩
  · rcases lt_trichotomy (x.key.take a.length) (y.key.take a.length) with h' | h' | h'
    · exact lt_trans hx h'
    · rw [← h']; exact hx
    · exact absurd h (asymm (take_gt_mono _ _ _ h'))
  · rw [← h]; exact hx

theorem search_finds (dups : Bool) (L : List IxEnt) (cond : StartCond) (a : List Nat) (hL : L.Pairwise EntLt)
    (hlen : ∀ e ∈ L, a.length ≤ e.key.length) (hnd : dups = false → ∀ e ∈ L, e.dup = 0)
    (hle : cond = .le → ∀ e ∈ L, e.key.length = a.length) :
    match cond with
    | .eq => EFirst L (fun e => e.key.take a.length = a) ((ixSearch dups L cond a).bind fun j => L[j]?)
    | .gt => EFirst L (fun e => a < e.key.take a.length) ((ixSearch dups L cond a).bind fun j => L[j]?)
    | .ge => EFirst L (fun e => ¬ e.key.take a.length < a) ((ixSearch dups L cond a).bind fun j => L[j]?)
    | .lt => ELast L (fun e => e.key.take a.length < a) ((ixSearch dups L cond a).bind fun j => L[j]?)
    | .le => ELast L (fun e => ¬ a < e.key.take a.length) ((ixSearch dups L cond a).bind fun j => L[j]?) := by
  have irr : ∀ e : IxEnt, e.key.take a.length = a → ¬ e.key.take a.length < a := fun e h h' => by
    rw [h] at h'; exact lt_irrefl _ h'
  have hprev : ∀ c, ((seekPrev c).bind fun j => L[j]?) = (if c = 0 then none else L[c - 1]?) := by
    intro c
    unfold seekPrev
    split <;> rfl
  have hlast : ∀ c, c = L.length → ((seekLast L).bind fun j => L[j]?) = (if c = 0 then none else L[c - 1]?) := by
    rintro c rfl
    unfold seekLast
    cases L with
    | nil => simp
    | cons x L => simp
  have hcl := cut_le (kLt a) L
  cases cond with
  | eq =>
    simp only
    have hF := eFirst_cut hL (down_kLt a) (P := fun e => ¬ e.key.take a.length < a) (by
      intro e he
      rw [← take_lt a e.key (hlen e he)]
      simp [kLt])
    unfold ixSearch
    simp only [seekRange_cut]
    by_cases h1 : cut (kLt a) L < L.length
    · rw [if_pos h1]
      have he : L[cut (kLt a) L]? = some L[cut (kLt a) L] := List.getElem?_eq_getElem h1
      rw [he] at hF
      simp only [Option.bind_some, he, Option.any_some]
      by_cases h2 : (L[cut (kLt a) L].key.take a.length == a) = true
      · rw [if_pos h2]
        simp only [Option.bind_some, he]
        exact ⟨hF.1, by simpa using h2, fun e' hm hp => hF.2.2 e' hm (irr _ hp)⟩
      · rw [if_neg h2]
        simp only [Option.bind_none]
        intro e hm hp
        have hnb := hF.2.2 e hm (irr _ hp)
        have hgt : a < L[cut (kLt a) L].key.take a.length := by
          rcases lt_trichotomy (L[cut (kLt a) L].key.take a.length) a with h | h | h
          · exact absurd h hF.2.1
          · exact absurd (by simpa using h) h2
          · exact h
        exact hnb (Or.inl (take_gt_mono a.length _ _ (by rw [hp]; exact hgt)))
    · rw [if_neg h1]
      have he : L[cut (kLt a) L]? = none := List.getElem?_eq_none_iff.mpr (by omega)
      rw [he] at hF
      intro e hm hp
      exact hF e hm (irr _ hp)
  | ge =>
    simp only
    have hF := eFirst_cut hL (down_kLt a) (P := fun e => ¬ e.key.take a.length < a) (by
      intro e he
      rw [← take_lt a e.key (hlen e he)]
      simp [kLt])
    unfold ixSearch
    simp only [seekRange_cut]
    by_cases h1 : cut (kLt a) L < L.length
    · rw [if_pos h1]; exact hF
    · rw [if_neg h1]
      rw [List.getElem?_eq_none_iff.mpr (by omega)] at hF
      exact hF
  | gt =>
    simp only
    have hF := eFirst_cut hL (down_tLe a) (P := fun e => a < e.key.take a.length) (by
      intro e he
      simp [tLe])
    have hc := cut_more (kLt a) (tLe a) (fun e => e.key.take a.length == a) L hL (down_kLt a)
      (by
        intro e he h
        simp only [kLt, decide_eq_true_eq] at h
        rw [take_lt a e.key (hlen e he)] at h
        simp [tLe, le_of_lt h])
      (by
        intro e he h
        simp only [kLt, decide_eq_false_iff_not] at h
        rw [take_lt a e.key (hlen e he)] at h
        unfold tLe
        rcases lt_trichotomy (e.key.take a.length) a with h' | h' | h'
        · exact absurd h' h
        · rw [h']; simp
        · simp [h', ne_of_gt h'])
    unfold ixSearch
    simp only [seekRange_cut]
    by_cases h1 : cut (kLt a) L < L.length
    · rw [if_pos h1]
      simp only [Option.bind_some, skipWhile_cut, List.length_drop]
      rw [hc] at hF
      by_cases h2 : cut (fun e => e.key.take a.length == a) (L.drop (cut (kLt a) L)) < L.length - cut (kLt a) L
      · rw [if_pos h2]; exact hF
      · rw [if_neg h2]
        rw [List.getElem?_eq_none_iff.mpr (by omega)] at hF
        exact hF
    · rw [if_neg h1]
      rw [List.getElem?_eq_none_iff.mpr (by omega)] at hF
      exact hF
  | lt =>
    simp only
    have hF := eLast_cut hL (down_kLt a) (P := fun e => e.key.take a.length < a) (by
      intro e he
      rw [← take_lt a e.key (hlen e he)]
      simp [kLt])
    unfold ixSearch
    simp only [seekRange_cut]
    by_cases h1 : cut (kLt a) L < L.length
    · rw [if_pos h1]
      simp only [hprev]
      exact hF
    · rw [if_neg h1]
      simp only
      rw [hlast (cut (kLt a) L) (by omega)]
      exact hF
  | le =>
    simp only
    have hfull : ∀ e ∈ L, e.key.take a.length = e.key := fun e he => by rw [← hle rfl e he, List.take_length]
    have hF := eLast_cut hL (down_kLe a) (P := fun e => ¬ a < e.key.take a.length) (by
      intro e he
      rw [hfull e he]
      simp [kLe])
    unfold ixSearch
    simp only [seekRange_cut]
    by_cases h1 : cut (kLt a) L < L.length
    · rw [if_pos h1]
      have he : L[cut (kLt a) L]? = some L[cut (kLt a) L] := List.getElem?_eq_getElem h1
      have hmem := List.mem_of_getElem? he
      simp only [he, Option.any_some]
      have hmono := cut_mono (kLt a) (kLe a) L hL (down_kLt a) (down_kLe a) (by
        intro e _ h
        simp only [kLt, decide_eq_true_eq] at h
        simp [kLe, le_of_lt h])
      by_cases h2 : (L[cut (kLt a) L].key.take a.length == a) = true
      · rw [if_neg (by simp [h2])]
        have hk : L[cut (kLt a) L].key = a := by
          have := hfull _ hmem
          rw [← this]; simpa using h2
        have hin : cut (kLt a) L < cut (kLe a) L := by
          rw [← cut_spec (kLe a) (down_kLe a) L hL _ _ he]
          simp [kLe, hk]
        by_cases hd : dups = true
        · rw [if_pos hd]
          have hc := cut_more (kLt a) (kLe a) (fun e => e.key == a) L hL (down_kLt a)
            (by
              intro e he h
              simp only [kLt, decide_eq_true_eq] at h
              simp [kLe, le_of_lt h])
            (by
              intro e he h
              rw [kLt_false] at h
              rcases h with h | h
              · simp [kLe, h]
              · simp [kLe, h, ne_of_gt h])
          have hc2 := cut_le (kLe a) L
          rw [hk, skipWhile_cut, List.length_drop]
          by_cases h3 : cut (fun e => e.key == a) (L.drop (cut (kLt a) L)) < L.length - cut (kLt a) L
          · rw [if_pos h3]
            simp only [hprev]
            rw [← hc]
            exact hF
          · rw [if_neg h3]
            simp only
            rw [hlast (cut (kLe a) L) (by omega)]
            exact hF
        · rw [if_neg hd]
          have hone : cut (kLe a) L = cut (kLt a) L + 1 := by
            have := cut_pLe a 0 L hL
            rw [pLt_zero, he] at this
            simp only [Option.any_some, hk, hnd (by simpa using hd) _ hmem, beq_self_eq_true, Bool.and_self, if_true] at this
            rw [← this]
            apply Nat.le_antisymm
            · refine cut_mono _ _ L hL (down_kLe a) (down_pLe a 0) ?_
              intro e hm h
              simp only [kLe, pLe, Bool.not_eq_true', decide_eq_false_iff_not] at *
              rintro (h' | ⟨-, h'⟩)
              · exact h h'
              · have := hnd (by simpa using hd) e hm; omega
            · refine cut_mono _ _ L hL (down_pLe a 0) (down_kLe a) ?_
              intro e hm h
              simp only [kLe, pLe, Bool.not_eq_true', decide_eq_false_iff_not] at *
              exact fun h' => h (Or.inl h')
          rw [if_neg (by omega), hone] at hF
          exact hF
      · rw [if_pos (by simp [h2])]
        simp only [hprev]
        have heq : cut (kLe a) L = cut (kLt a) L := by
          have : ¬ cut (kLt a) L < cut (kLe a) L := by
            rw [← cut_spec (kLe a) (down_kLe a) L hL _ _ he]
            simp only [kLe, Bool.not_eq_true', decide_eq_false_iff_not, not_not]
            have := (cut_spec (kLt a) (down_kLt a) L hL _ _ he).not.mpr (by omega)
            rcases (kLt_false a _).mp (by simpa using this) with h | h
            · exact absurd (by rw [hfull _ hmem]; simpa using h) h2
            · exact h
          omega
        rw [heq] at hF
        exact hF
    · rw [if_neg h1]
      simp only
      have hmono := cut_mono (kLt a) (kLe a) L hL (down_kLt a) (down_kLe a) (by
        intro e _ h
        simp only [kLt, decide_eq_true_eq] at h
        simp [kLe, le_of_lt h])
      have := cut_le (kLe a) L
      rw [hlast (cut (kLe a) L) (by omega)]
      exact hF

/-! ### Insertion -/

theorem putEnt_mem (L : List IxEnt) (x e : IxEnt) : e ∈ putEnt L x ↔ e = x ∨ e ∈ L := by
  unfold putEnt
  rw [List.mem_append, List.mem_cons]
  conv_rhs => rw [← List.takeWhile_append_dropWhile (p := fun y => !decide (x.key < y.key)) (l := L), List.mem_append]
  tauto

theorem putEnt_sorted (L : List IxEnt) (x : IxEnt) (hL : L.Pairwise EntLt) (hx : ∀ e ∈ L, e.key = x.key → e.dup < x.dup) :
    (putEnt L x).Pairwise EntLt := by
  unfold putEnt
  have hs := hL
  rw [← List.takeWhile_append_dropWhile (p := fun y => !decide (x.key < y.key)) (l := L), List.pairwise_append] at hs
  have hlow : ∀ e ∈ L.takeWhile (fun y => !decide (x.key < y.key)), EntLt e x := by
    intro e he
    have h1 := List.mem_takeWhile_imp he
    simp only [Bool.not_eq_true', decide_eq_false_iff_not] at h1
    rcases lt_trichotomy e.key x.key with h | h | h
    · exact Or.inl h
    · exact Or.inr ⟨h, hx e ((List.takeWhile_sublist _).mem he) h⟩
    · exact absurd h h1
  have hhigh : ∀ e ∈ L.dropWhile (fun y => !decide (x.key < y.key)), EntLt x e := by
    cases hd : L.dropWhile (fun y => !decide (x.key < y.key)) with
    | nil => intro e he; cases he
    | cons y M =>
      have hy : x.key < y.key := by
        have := List.head?_dropWhile_not (fun y => !decide (x.key < y.key)) L
        rw [hd] at this
        simpa using this
      intro e he
      rw [hd] at hs
      rcases List.mem_cons.mp he with rfl | he
      · exact Or.inl hy
      · rcases (List.pairwise_cons.mp hs.2.1).1 e he with h | ⟨h, -⟩
        · exact Or.inl (lt_trans hy h)
        · exact Or.inl (h ▸ hy)
  rw [List.pairwise_append, List.pairwise_cons]
  refine ⟨hs.1, ⟨hhigh, hs.2.1⟩, ?_⟩
  intro a ha b hb
  rcases List.mem_cons.mp hb with rfl | hb
  · exact hlow a ha
  · exact IxBefore.trans (hlow a ha) (hhigh b hb)

/-- The number of a new duplicate. -/
theorem ixDupno_spec (L : List IxEnt) (k : List Nat) (hL : L.Pairwise EntLt) :
    (∀ e ∈ L, e.key = k → e.dup < ixDupno L k) ∧ (ixDupno L k = 1 ∨ ∃ e ∈ L, e.key = k ∧ e.dup + 1 = ixDupno L k) := by
  have hrun : ∀ M : List IxEnt, M.Pairwise EntLt → (∀ e ∈ M, kLt k e = false) →
      (∀ e ∈ M, e.key = k → e.dup < ((M.takeWhile fun e => e.key == k).getLast?.map (·.dup)).getD 0 + 1) ∧
      (((M.takeWhile fun e => e.key == k).getLast?.map (·.dup)).getD 0 + 1 = 1 ∨
        ∃ e ∈ M, e.key = k ∧ e.dup + 1 = ((M.takeWhile fun e => e.key == k).getLast?.map (·.dup)).getD 0 + 1) := by
    intro M hM hge
    have hmem : ∀ e ∈ M, e.key = k → e ∈ M.takeWhile fun e => e.key == k := by
      induction M with
      | nil => intro e he; cases he
      | cons x M ih =>
        intro e he hk
        rw [List.pairwise_cons] at hM
        have hxk : x.key = k := by
          rcases List.mem_cons.mp he with rfl | he
          · exact hk
          · rcases (kLt_false k x).mp (hge x (by simp)) with h | h
            · exact h
            · rcases hM.1 e he with h' | ⟨h', -⟩
              · rw [hk] at h'; exact absurd h' (asymm h)
              · rw [h', hk]
        rw [List.takeWhile_cons]
        simp only [hxk, beq_self_eq_true, if_true, List.mem_cons]
        rcases List.mem_cons.mp he with rfl | he
        · exact Or.inl rfl
        · exact Or.inr (ih hM.2 (fun e he => hge e (by simp [he])) e he hk)
    have hsort : (M.takeWhile fun e => e.key == k).Pairwise EntLt := hM.sublist (List.takeWhile_sublist _)
    have hkey : ∀ e ∈ M.takeWhile (fun e => e.key == k), e.key = k := fun e he => by
      simpa using List.mem_takeWhile_imp he
    have hsub : ∀ e ∈ M.takeWhile (fun e => e.key == k), e ∈ M := fun e he => (List.takeWhile_sublist _).mem he
    generalize M.takeWhile (fun e => e.key == k) = R at *
    rcases List.eq_nil_or_concat R with rfl | ⟨R', z, rfl⟩
    · refine ⟨fun e he hk => absurd (hmem e he hk) (by simp), Or.inl (by simp)⟩
    · simp only [List.concat_eq_append] at *
      rw [List.pairwise_append] at hsort
      simp only [List.getLast?_append, List.getLast?_singleton, Option.some_or, Option.map_some, Option.getD_some]
      refine ⟨fun e he hk => ?_, Or.inr ⟨z, hsub z (by simp), hkey z (by simp), rfl⟩⟩
      have := hmem e he hk
      rw [List.mem_append] at this
      rcases this with h | h
      · rcases hsort.2.2 e h z (by simp) with h' | ⟨-, h'⟩
        · rw [hk, hkey z (by simp)] at h'; exact absurd h' (lt_irrefl _)
        · omega
      · simp only [List.mem_singleton] at h
        rw [h]; omega
  have hs := hL
  have hdrop : ∀ e ∈ L.dropWhile (fun e => decide (e.key < k)), kLt k e = false := by
    cases hd : L.dropWhile (fun e => decide (e.key < k)) with
    | nil => intro e he; cases he
    | cons y M =>
      have hy : ¬ y.key < k := by
        have := List.head?_dropWhile_not (fun e : IxEnt => decide (e.key < k)) L
        rw [hd] at this
        simpa using this
      have hsd : (y :: M).Pairwise EntLt := hd ▸ hL.sublist (List.dropWhile_sublist _)
      intro e he
      by_contra h
      have h : kLt k e = true := by simpa using h
      rcases List.mem_cons.mp he with rfl | he
      · exact hy (by simpa [kLt] using h)
      · exact hy (by simpa [kLt] using down_kLt k y e ((List.pairwise_cons.mp hsd).1 e he) h)
  obtain ⟨h1, h2⟩ := hrun (L.dropWhile fun e => decide (e.key < k)) (hL.sublist (List.dropWhile_sublist _)) hdrop
  refine ⟨fun e he hk => ?_, ?_⟩
  · refine h1 e ?_ hk
    rw [← List.takeWhile_append_dropWhile (p := fun e => decide (e.key < k)) (l := L), List.mem_append] at he
    rcases he with he | he
    · have := List.mem_takeWhile_imp he
      rw [hk] at this
      simp at this
    · exact he
  · rcases h2 with h | ⟨e, he, hk, h⟩
    · exact Or.inl h
    · exact Or.inr ⟨e, (List.dropWhile_sublist _).mem he, hk, h⟩

/-! ### Removal -/

theorem ixDelRun_eq (k pk : List Nat) : ∀ (L : List IxEnt), L.Pairwise EntLt →
    ixDelRun k pk L = L.filter fun e => !(e.key == k && e.pk == pk)
  | [], _ => rfl
  | x :: L, hs => by
    rw [List.pairwise_cons] at hs
    have ih := ixDelRun_eq k pk L hs.2
    rw [ixDelRun, List.filter_cons, ih]
    rcases lt_trichotomy x.key k with h | h | h
    · simp [h, ne_of_lt h]
    · simp only [h, lt_irrefl, if_false, beq_self_eq_true, if_true, Bool.true_and]
      by_cases hp : (x.pk == pk) = true <;> simp [hp]
    · rw [if_neg (asymm h)]
      simp only [beq_eq_false_iff_ne.mpr (ne_of_gt h), Bool.false_and, Bool.not_false, if_true, Bool.false_eq_true, if_false]
      congr 1
      symm
      rw [List.filter_eq_self]
      intro e he
      have : e.key ≠ k := by
        rcases hs.1 e he with h' | ⟨h', -⟩
        · exact ne_of_gt (lt_trans h h')
        · rw [← h']; exact ne_of_gt h
      simp [this]

end Cob
