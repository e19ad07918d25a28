import Verif.Io.IndexedSim
/- WRITE, REWRITE, DELETE on INDEXED files, and the whole step. -/
namespace Cob

variable {cfg : IxCfg} {f : IxFile} {A : IxAbs}

/-! ### The tree of records -/

theorem putRec_mem (db0 : List (List Nat × List Nat)) (k r : List Nat) (p : List Nat × List Nat) :
    p ∈ putRec db0 k r ↔ p = (k, r) ∨ p ∈ db0 := by
  unfold putRec
  rw [List.mem_append, List.mem_cons]
  conv_rhs => rw [← List.takeWhile_append_dropWhile (p := fun x : List Nat × List Nat => !decide (k < x.1)) (l := db0), List.mem_append]
  tauto

theorem putRec_sorted (db0 : List (List Nat × List Nat)) (k r : List Nat) (hs : db0.Pairwise fun a b => a.1 < b.1)
    (hk : ∀ p ∈ db0, p.1 ≠ k) : (putRec db0 k r).Pairwise fun a b => a.1 < b.1 := by
  unfold putRec
  have hs' := hs
  rw [← List.takeWhile_append_dropWhile (p := fun x : List Nat × List Nat => !decide (k < x.1)) (l := db0), List.pairwise_append] at hs'
  have hlow : ∀ p ∈ db0.takeWhile (fun x => !decide (k < x.1)), p.1 < k := by
    intro p hp
    have h1 := List.mem_takeWhile_imp hp
    simp only [Bool.not_eq_true', decide_eq_false_iff_not] at h1
    rcases lt_trichotomy p.1 k with h | h | h
    · exact h
    · exact absurd h (hk p ((List.takeWhile_sublist _).mem hp))
    · exact absurd h h1
  have hhigh : ∀ p ∈ db0.dropWhile (fun x => !decide (k < x.1)), k < p.1 := by
    cases hd : db0.dropWhile (fun x => !decide (k < x.1)) with
    | nil => intro e he; cases he
    | cons y M =>
      have hy : k < y.1 := by
        have := List.head?_dropWhile_not (fun x : List Nat × List Nat => !decide (k < x.1)) db0
        rw [hd] at this
        simpa using this
      intro e he
      rw [hd] at hs'
      rcases List.mem_cons.mp he with rfl | he
      · exact hy
      · exact lt_trans hy ((List.pairwise_cons.mp hs'.2.1).1 e he)
  rw [List.pairwise_append, List.pairwise_cons]
  refine ⟨hs'.1, ⟨hhigh, hs'.2.1⟩, ?_⟩
  intro a ha b hb
  rcases List.mem_cons.mp hb with rfl | hb
  · exact hlow a ha
  · exact lt_trans (hlow a ha) (hhigh b hb)

/-! ### The indexes -/

theorem seekKey_none (L : List IxEnt) (k : List Nat) : seekKey L k = none ↔ ∀ e ∈ L, e.key ≠ k := by
  unfold seekKey
  rw [List.findIdx?_eq_none_iff]
  simp

theorem putAlts_eq (cfg : IxCfg) (skip : Nat → Bool) (area : List Nat) : ∀ (is : List Nat) (alts : Nat → List IxEnt), is.Nodup →
    (∀ i ∈ is, i ≠ 0 → skip i = false → (cfg.key i).dups = false → ∀ e ∈ alts i, e.key ≠ cfg.keyOf i area) →
    ixPutAlts cfg skip area is alts =
      (fun i => if i ∈ is ∧ i ≠ 0 ∧ skip i = false then
        putEnt (alts i) ⟨cfg.keyOf i area, cfg.keyOf 0 area, if (cfg.key i).dups then ixDupno (alts i) (cfg.keyOf i area) else 0⟩
        else alts i, true)
  | [], alts, _, _ => by simp [ixPutAlts]
  | i :: is, alts, hnd, h => by
    rw [List.nodup_cons] at hnd
    unfold ixPutAlts
    by_cases hs : i = 0 ∨ skip i = true
    · rw [if_pos hs, putAlts_eq cfg skip area is alts hnd.2 fun j hj => h j (by simp [hj])]
      congr 1
      funext j
      by_cases hj : j = i
      · subst hj
        rw [if_neg (fun hx => hnd.1 hx.1), if_neg]
        rintro ⟨-, h1, h2⟩
        rcases hs with hs | hs
        · exact h1 hs
        · rw [hs] at h2; cases h2
      · simp [hj]
    · rw [if_neg hs]
      have hs1 : i ≠ 0 := fun h => hs (Or.inl h)
      have hs2 : skip i = false := by
        cases hx : skip i
        · rfl
        · exact absurd (Or.inr hx) hs
      have hrest : ∀ x, ixPutAlts cfg skip area is (setAt alts i (putEnt (alts i) ⟨cfg.keyOf i area, cfg.keyOf 0 area, x⟩)) =
          (fun j => if j ∈ is ∧ j ≠ 0 ∧ skip j = false then
            putEnt (alts j) ⟨cfg.keyOf j area, cfg.keyOf 0 area, if (cfg.key j).dups then ixDupno (alts j) (cfg.keyOf j area) else 0⟩
            else if j = i then putEnt (alts i) ⟨cfg.keyOf i area, cfg.keyOf 0 area, x⟩ else alts j, true) := by
        intro x
        rw [putAlts_eq cfg skip area is _ hnd.2]
        · congr 1
          funext j
          by_cases hj : j = i
          · subst hj
            simp [hnd.1, setAt]
          · simp [setAt, hj]
        · intro j hj
          have hji : j ≠ i := by rintro rfl; exact hnd.1 hj
          simp only [setAt, hji, if_false]
          exact h j (by simp [hj])
      have hfin : ∀ x, x = (if (cfg.key i).dups then ixDupno (alts i) (cfg.keyOf i area) else 0) →
          (fun j => if j ∈ is ∧ j ≠ 0 ∧ skip j = false then
            putEnt (alts j) ⟨cfg.keyOf j area, cfg.keyOf 0 area, if (cfg.key j).dups then ixDupno (alts j) (cfg.keyOf j area) else 0⟩
            else if j = i then putEnt (alts i) ⟨cfg.keyOf i area, cfg.keyOf 0 area, x⟩ else alts j) =
          (fun j => if j ∈ i :: is ∧ j ≠ 0 ∧ skip j = false then
            putEnt (alts j) ⟨cfg.keyOf j area, cfg.keyOf 0 area, if (cfg.key j).dups then ixDupno (alts j) (cfg.keyOf j area) else 0⟩
            else alts j) := by
        rintro x rfl
        funext j
        by_cases hj : j = i
        · subst hj
          simp [hnd.1, hs1, hs2]
        · simp [hj]
      simp only
      by_cases hd : (cfg.key i).dups = true
      · rw [if_pos hd, hrest, hfin _ (by rw [if_pos hd])]
      · have hd : (cfg.key i).dups = false := by simpa using hd
        rw [if_neg (by simp [hd]), if_neg, hrest, hfin _ (by simp [hd])]
        rw [(seekKey_none _ _).mpr (h i (by simp) hs1 hs2 hd)]
        simp

theorem altTaken_iff (h : IxTrees cfg f.db0 f.alts A.recs A.num) (rewrite : Bool) (area : List Nat) :
    ixAltTaken cfg f rewrite area = true ↔ A.Taken cfg (if rewrite then some (cfg.keyOf 0 area) else none) area := by
  unfold ixAltTaken IxAbs.Taken
  rw [List.any_eq_true]
  constructor
  · rintro ⟨i, hi, hx⟩
    rw [List.mem_range] at hi
    simp only [Bool.and_eq_true, bne_iff_ne, ne_eq, Bool.not_eq_true'] at hx
    obtain ⟨⟨h0, hd⟩, hx⟩ := hx
    refine ⟨i, by omega, hi, hd, ?_⟩
    rw [seekKey_cut _ _ (h.sorted i (by omega) hi)] at hx
    cases hg : (f.alts i)[cut (kLt (cfg.keyOf i area)) (f.alts i)]? with
    | none => rw [hg] at hx; simp at hx
    | some e =>
      rw [hg] at hx
      simp only [Option.bind_some] at hx
      by_cases hk : e.key = cfg.keyOf i area
      · rw [if_pos hk] at hx
        simp only [Option.bind_some, hg] at hx
        obtain ⟨r, r1, r2, r3⟩ := (h.mem i (by omega) hi e).mp (List.mem_of_getElem? hg)
        refine ⟨e.pk, r, r1, by rw [r2, hk], ?_⟩
        cases rewrite with
        | false => simp
        | true =>
          simp only [Bool.true_and, Bool.not_eq_true', beq_eq_false_iff_ne, ne_eq] at hx
          simp only [if_true, ne_eq, Option.some.injEq]
          exact fun h => hx h.symm
      · rw [if_neg hk] at hx
        simp at hx
  · rintro ⟨i, h0, hi, hd, pk, r, r1, r2, r3⟩
    refine ⟨i, List.mem_range.mpr hi, ?_⟩
    have hL := h.sorted i h0 hi
    have hme := (h.mem i h0 hi ⟨cfg.keyOf i area, pk, A.num i pk⟩).mpr ⟨r, r1, r2, rfl⟩
    have hz : ∀ e ∈ f.alts i, e.dup = 0 := by
      intro e he
      obtain ⟨r', q1, q2, q3⟩ := (h.mem i h0 hi e).mp he
      rw [← q3]
      exact h.num0 i e.pk (by simp [hd]) (by simp [q1])
    have hfirst := eFirst_cut hL (down_kLt (cfg.keyOf i area)) (P := fun e => ¬ e.key < cfg.keyOf i area) (by
      intro e _; simp [kLt])
    rw [seekKey_cut _ _ hL]
    cases hg : (f.alts i)[cut (kLt (cfg.keyOf i area)) (f.alts i)]? with
    | none =>
      rw [hg] at hfirst
      exact absurd (lt_irrefl (cfg.keyOf i area)) (hfirst _ hme)
    | some e =>
      rw [hg] at hfirst
      have hk : e.key = cfg.keyOf i area := by
        rcases lt_trichotomy e.key (cfg.keyOf i area) with hx | hx | hx
        · exact absurd hx hfirst.2.1
        · exact hx
        · exact absurd (Or.inl hx) (hfirst.2.2 _ hme (lt_irrefl _))
      have hpk : e.pk = pk := by
        by_contra hne
        obtain ⟨a, ha⟩ := List.mem_iff_getElem?.mp (List.mem_of_getElem? hg)
        obtain ⟨b, hb⟩ := List.mem_iff_getElem?.mp hme
        obtain ⟨a1, a2⟩ := List.getElem?_eq_some_iff.mp ha
        obtain ⟨b1, b2⟩ := List.getElem?_eq_some_iff.mp hb
        have hd1 := hz e (List.mem_of_getElem? hg)
        have hd2 := hz _ hme
        simp only at hd2
        have hab : a ≠ b := by
          rintro rfl
          rw [ha] at hb
          injection hb with hb
          rw [hb] at hne
          exact hne rfl
        rcases Nat.lt_or_gt_of_ne hab with hlt | hlt
        · have := List.pairwise_iff_getElem.mp hL a b a1 b1 hlt
          rw [a2, b2] at this
          unfold EntLt at this
          simp only [hk, hd1, hd2] at this
          exact IxBefore.irrefl _ _ this
        · have := List.pairwise_iff_getElem.mp hL b a b1 a1 hlt
          rw [a2, b2] at this
          unfold EntLt at this
          simp only [hk, hd1, hd2] at this
          exact IxBefore.irrefl _ _ this
      simp only [Option.bind_some, hk, if_true, hg, hpk]
      have : i ≠ 0 := by omega
      cases rewrite with
      | false => simp [this, hd]
      | true =>
        simp only [if_true, ne_eq, Option.some.injEq] at r3
        simp only [bne_iff_ne, ne_eq, this, not_false_eq_true, hd, Bool.not_false, Bool.true_and, Bool.and_true,
          Bool.not_eq_true', beq_eq_false_iff_ne, Bool.and_eq_true]
        exact ⟨by simp, fun h => r3 h.symm⟩

/-- An index without the record `pk`. -/
def Without (cfg : IxCfg) (A : IxAbs) (i : Nat) (pk : List Nat) (M : List IxEnt) : Prop :=
  M.Pairwise EntLt ∧ ∀ e, e ∈ M ↔ e.pk ≠ pk ∧ ∃ r, A.recs e.pk = some r ∧ cfg.keyOf i r = e.key ∧ A.num i e.pk = e.dup

theorem alt_put (i : Nat) (pk k : List Nat) (M : List IxEnt) (hM : Without cfg A i pk M) (n : Nat)
    (hd : (cfg.key i).dups = true → n = ixDupno M k) (hn : (cfg.key i).dups = false → n = 0 ∧ ∀ e ∈ M, e.key ≠ k) (r : List Nat)
    (hr : cfg.keyOf i r = k) (new : Nat → Nat) (hnew : new i = n) :
    ((putEnt M ⟨k, pk, n⟩).Pairwise EntLt ∧ ∀ e, e ∈ putEnt M ⟨k, pk, n⟩ ↔
      ∃ r', (A.put pk r new).recs e.pk = some r' ∧ cfg.keyOf i r' = e.key ∧ (A.put pk r new).num i e.pk = e.dup) ∧
    ((cfg.key i).dups = true → A.NewNum cfg pk i k n) := by
  obtain ⟨hs, hm⟩ := hM
  have hdn := ixDupno_spec M k hs
  refine ⟨⟨putEnt_sorted M _ hs ?_, ?_⟩, ?_⟩
  · intro e he hk
    simp only at hk ⊢
    cases hx : (cfg.key i).dups with
    | true => rw [hd hx]; exact hdn.1 e he hk
    | false => exact absurd hk ((hn hx).2 e he)
  · intro e
    rw [putEnt_mem, hm]
    unfold IxAbs.put
    simp only
    by_cases hp : e.pk = pk
    · simp only [hp, ne_eq, not_true_eq_false, false_and, or_false, if_true, Option.some.injEq]
      constructor
      · rintro rfl
        exact ⟨r, rfl, hr, hnew⟩
      · rintro ⟨r', rfl, h2, h3⟩
        obtain ⟨ek, ep, ed⟩ := e
        simp only at *
        rw [← h2, ← h3, hp, hr, hnew]
    · simp only [if_neg hp]
      constructor
      · rintro (rfl | ⟨-, h⟩)
        · exact absurd rfl hp
        · exact h
      · exact fun h => Or.inr ⟨hp, h⟩
  · intro hx
    rw [hd hx]
    refine ⟨fun p r' hp h1 h2 => hdn.1 ⟨k, p, A.num i p⟩ ((hm _).mpr ⟨hp, r', h1, h2, rfl⟩) rfl, ?_⟩
    rcases hdn.2 with h | ⟨e, he, hk, h⟩
    · exact Or.inl h
    · obtain ⟨hp, r', h1, h2, h3⟩ := (hm e).mp he
      exact Or.inr ⟨e.pk, r', hp, h1, by rw [h2, hk], by rw [h3]; exact h⟩

/-- The index after the deletion. -/
theorem alt_del (h : IxTrees cfg f.db0 f.alts A.recs A.num) (i : Nat) (h0 : 0 < i) (hi : i < cfg.keys.length) (pk old : List Nat)
    (hold : A.recs pk = some old) (rewrite : Bool) (area : List Nat)
    (hr : ¬ (rewrite = true ∧ cfg.keyOf i old = cfg.keyOf i area)) :
    Without cfg A i pk (ixDelAlts cfg rewrite pk old area f.alts i) := by
  have hL := h.sorted i h0 hi
  unfold ixDelAlts
  simp only
  rw [if_neg (by omega), if_neg hr]
  by_cases hd : (cfg.key i).dups = true
  · rw [if_pos hd, ixDelRun_eq _ _ _ hL]
    refine ⟨hL.filter _, fun e => ?_⟩
    rw [List.mem_filter, h.mem i h0 hi e]
    simp only [Bool.not_eq_true', Bool.and_eq_false_iff, beq_eq_false_iff_ne, ne_eq]
    constructor
    · rintro ⟨⟨r, h1, h2, h3⟩, hx⟩
      refine ⟨fun hp => ?_, r, h1, h2, h3⟩
      rw [hp, hold] at h1
      cases h1
      rcases hx with hx | hx
      · exact hx h2.symm
      · exact hx hp
    · rintro ⟨hp, hx⟩
      exact ⟨hx, Or.inr hp⟩
  · have hd : (cfg.key i).dups = false := by simpa using hd
    rw [if_neg (by simp [hd])]
    refine ⟨hL.filter _, fun e => ?_⟩
    rw [List.mem_filter, h.mem i h0 hi e]
    simp only [bne_iff_ne, ne_eq]
    constructor
    · rintro ⟨⟨r, h1, h2, h3⟩, hx⟩
      refine ⟨fun hp => ?_, r, h1, h2, h3⟩
      rw [hp, hold] at h1
      cases h1
      exact hx h2.symm
    · rintro ⟨hp, r, h1, h2, h3⟩
      refine ⟨⟨r, h1, h2, h3⟩, fun hk => ?_⟩
      -- the entry of the record itself has the same key
      have he := (h.mem i h0 hi e).mpr ⟨r, h1, h2, h3⟩
      have ho := (h.mem i h0 hi ⟨cfg.keyOf i old, pk, A.num i pk⟩).mpr ⟨old, hold, rfl, rfl⟩
      have d1 : e.dup = 0 := by rw [← h3]; exact h.num0 i _ (by simp [hd]) (by simp [h1])
      have d2 : A.num i pk = 0 := h.num0 i _ (by simp [hd]) (by simp [hold])
      obtain ⟨a, ha⟩ := List.mem_iff_getElem?.mp he
      obtain ⟨b, hb⟩ := List.mem_iff_getElem?.mp ho
      obtain ⟨a1, a2⟩ := List.getElem?_eq_some_iff.mp ha
      obtain ⟨b1, b2⟩ := List.getElem?_eq_some_iff.mp hb
      have hab : a ≠ b := by
        rintro rfl
        rw [ha] at hb
        injection hb with hb
        rw [hb] at hp
        exact hp rfl
      rcases Nat.lt_or_gt_of_ne hab with hlt | hlt
      · have := List.pairwise_iff_getElem.mp hL a b a1 b1 hlt
        rw [a2, b2] at this
        unfold EntLt at this
        simp only [hk, d1, d2] at this
        exact IxBefore.irrefl _ _ this
      · have := List.pairwise_iff_getElem.mp hL b a b1 a1 hlt
        rw [a2, b2] at this
        unfold EntLt at this
        simp only [hk, d1, d2] at this
        exact IxBefore.irrefl _ _ this

/-- The trees after DELETE. -/
theorem delete_trees (h : IxTrees cfg f.db0 f.alts A.recs A.num) (pk old area : List Nat) (hold : A.recs pk = some old) :
    IxTrees cfg (f.db0.filter fun p => p.1 != pk) (ixDelAlts cfg false pk old area f.alts) (A.del pk).recs (A.del pk).num where
  sorted0 := h.sorted0.filter _
  mem0 := by
    intro k r
    rw [List.mem_filter, h.mem0]
    unfold IxAbs.del
    simp only [bne_iff_ne, ne_eq]
    by_cases hk : k = pk <;> simp [hk]
  wf := by
    intro k r
    unfold IxAbs.del
    simp only
    by_cases hk : k = pk
    · simp [hk]
    · simp only [if_neg hk]; exact h.wf k r
  sorted := fun i h0 hi => (alt_del h i h0 hi pk old hold false area (by simp)).1
  mem := by
    intro i h0 hi e
    rw [(alt_del h i h0 hi pk old hold false area (by simp)).2 e]
    unfold IxAbs.del
    simp only
    by_cases hk : e.pk = pk <;> simp [hk]
  num0 := by
    intro i p hn
    unfold IxAbs.del
    simp only
    by_cases hk : p = pk
    · simp [hk]
    · simp only [if_neg hk]; exact h.num0 i p hn

/-- The trees after the record was put: `M i` are the indexes without it, or with the entry it had and keeps. -/
theorem put_trees (hc : cfg.Ok) (h : IxTrees cfg f.db0 f.alts A.recs A.num) (area : List Nat) (size : Nat)
    (hlen : area.length = cfg.recMax) (hsize : cfg.recMin ≤ size ∧ size ≤ cfg.recMax) (db0 : List (List Nat × List Nat))
    (hdb : db0.Pairwise fun a b => a.1 < b.1) (hdm : ∀ k r, (k, r) ∈ db0 ↔ k ≠ cfg.keyOf 0 area ∧ A.recs k = some r)
    (alts : Nat → List IxEnt) (new : Nat → Nat) (hz : ∀ i, ¬ (0 < i ∧ (cfg.key i).dups = true) → new i = 0)
    (ha : ∀ i, 0 < i → i < cfg.keys.length → (alts i).Pairwise EntLt ∧ ∀ e, e ∈ alts i ↔
      ∃ r', (A.put (cfg.keyOf 0 area) (area.take size) new).recs e.pk = some r' ∧ cfg.keyOf i r' = e.key ∧
        (A.put (cfg.keyOf 0 area) (area.take size) new).num i e.pk = e.dup) :
    IxTrees cfg (putRec db0 (cfg.keyOf 0 area) (area.take size)) alts
      (A.put (cfg.keyOf 0 area) (area.take size) new).recs (A.put (cfg.keyOf 0 area) (area.take size) new).num where
  sorted0 := putRec_sorted db0 _ _ hdb (by
    rintro ⟨k, r⟩ hp
    exact ((hdm k r).mp hp).1)
  mem0 := by
    intro k r
    rw [putRec_mem, hdm]
    unfold IxAbs.put
    simp only [Prod.mk.injEq]
    by_cases hk : k = cfg.keyOf 0 area
    · simp only [hk, true_and, ne_eq, not_true_eq_false, false_and, or_false, if_true, Option.some.injEq]
      exact ⟨Eq.symm, Eq.symm⟩
    · simp [hk]
  wf := by
    intro k r
    unfold IxAbs.put
    simp only
    by_cases hk : k = cfg.keyOf 0 area
    · simp only [hk, if_true, Option.some.injEq]
      rintro rfl
      refine ⟨keyOf_take hc 0 hc.nonempty area size hsize.1, ?_⟩
      rw [List.length_take]
      omega
    · simp only [if_neg hk]; exact h.wf k r
  sorted := fun i h0 hi => (ha i h0 hi).1
  mem := fun i h0 hi => (ha i h0 hi).2
  num0 := by
    intro i p hn
    unfold IxAbs.put
    simp only
    by_cases hk : p = cfg.keyOf 0 area
    · simp only [hk, if_true]; exact fun _ => hz i hn
    · simp only [if_neg hk]; exact h.num0 i p hn

end Cob
