import Verif.Str.InspectSpec
/-
Helper lemmas for INSPECT.
-/
namespace Cob

theorem slice_mid (A B C : List Nat) (m : Nat) (h : m ≤ B.length) :
    slice (A ++ B ++ C) A.length m = B.take m := by
  unfold slice
  rw [List.append_assoc, List.drop_left, List.take_append_of_le_length h]

theorem freeAt_mid (A B C : List (Option Nat)) (m : Nat) (h : m ≤ B.length) :
    freeAt (A ++ B ++ C) A.length m = (B.take m).all (·.isNone) := by
  unfold freeAt
  rw [List.append_assoc, List.drop_left, List.take_append_of_le_length h]

theorem setMarks_mid (A B C : List (Option Nat)) (vals : List Nat) (h : vals.length ≤ B.length) :
    setMarks (A ++ B ++ C) A.length vals = (A ++ vals.map some) ++ B.drop vals.length ++ C := by
  unfold setMarks
  rw [List.append_assoc A B C, List.take_left, ← List.drop_drop, List.drop_left,
    List.drop_append_of_le_length h]
  simp

theorem prefix_take {pat l : List Nat} : pat <+: l ↔ l.take pat.length = pat := by
  rw [List.prefix_iff_eq_take]; exact eq_comm

theorem claimAll_pend (pat vals : List Nat) (pend : List Nat) (cs : List (Nat × Option Nat))
    (h : pend.length ≤ cs.length) :
    claimAll pat vals pend cs =
      (pend.map some ++ (claimAll pat vals [] (cs.drop pend.length)).1, (claimAll pat vals [] (cs.drop pend.length)).2) := by
  induction pend generalizing cs with
  | nil => simp
  | cons p ps ih =>
    cases cs with
    | nil => simp at h
    | cons c cs =>
      simp only [List.length_cons, Nat.add_le_add_iff_right] at h
      simp [claimAll, ih cs h]

theorem claimAll_short (pat vals : List Nat) (cs : List (Nat × Option Nat)) (h : cs.length < pat.length) :
    claimAll pat vals [] cs = (cs.map Prod.snd, 0) := by
  induction cs with
  | nil => simp [claimAll]
  | cons c cs ih =>
    have hn : ¬ (pat <+: (c :: cs).map Prod.fst ∧ ∀ x ∈ (c :: cs).take pat.length, x.2 = none) := by
      rintro ⟨h1, _⟩
      have := h1.length_le
      simp at this h
      omega
    unfold claimAll
    rw [if_neg hn, ih (by simp at h; omega)]
    rfl

theorem claimAll_hit (pat vals : List Nat) (cs : List (Nat × Option Nat)) (hp : pat ≠ []) (hv : vals.length = pat.length)
    (h1 : pat <+: cs.map Prod.fst) (h2 : ∀ x ∈ cs.take pat.length, x.2 = none) :
    claimAll pat vals [] cs =
      (vals.map some ++ (claimAll pat vals [] (cs.drop pat.length)).1, (claimAll pat vals [] (cs.drop pat.length)).2 + 1) := by
  have hl := h1.length_le
  rw [List.length_map] at hl
  have hpos := List.length_pos_iff.mpr hp
  cases cs with
  | nil => simp only [List.length_nil] at hl; omega
  | cons c cs =>
    cases vals with
    | nil => simp at hv; omega
    | cons v vs =>
      simp only [List.length_cons] at hv hl
      rw [claimAll, if_pos ⟨h1, h2⟩]
      simp only
      rw [claimAll_pend _ _ vs cs (by omega), ← hv]
      simp

theorem zip_free (D : List Nat) (B : List (Option Nat)) (m : Nat) (hl : B.length = D.length) :
    (∀ x ∈ (D.zip B).take m, x.2 = none) ↔ (B.take m).all (·.isNone) = true := by
  rw [List.all_eq_true]
  have hz : ((D.zip B).take m).map Prod.snd = B.take m := by
    rw [List.map_take, List.map_snd_zip (by omega)]
  rw [← hz]
  simp only [List.mem_map, forall_exists_index, and_imp, forall_apply_eq_imp_iff₂, Option.isNone_iff_eq_none]

theorem zip_fst (D : List Nat) (B : List (Option Nat)) (hl : B.length = D.length) : (D.zip B).map Prod.fst = D :=
  List.map_fst_zip (by omega)

theorem zip_snd (D : List Nat) (B : List (Option Nat)) (hl : B.length = D.length) : (D.zip B).map Prod.snd = B :=
  List.map_snd_zip (by omega)

theorem zip_drop (D : List Nat) (B : List (Option Nat)) (m : Nat) : (D.zip B).drop m = (D.drop m).zip (B.drop m) := by
  induction m generalizing D B with
  | zero => simp
  | succ m ih =>
    cases D with
    | nil => simp
    | cons d D =>
      cases B with
      | nil => simp
      | cons b B => simpa using ih D B

theorem claimAll_miss (pat vals : List Nat) (c : Nat) (D : List Nat) (b : Option Nat) (B : List (Option Nat))
    (hB : B.length = D.length)
    (h : ¬ (List.take pat.length (c :: D) = pat ∧ ((b :: B).take pat.length).all (·.isNone) = true)) :
    claimAll pat vals [] ((c :: D).zip (b :: B)) =
      (b :: (claimAll pat vals [] (D.zip B)).1, (claimAll pat vals [] (D.zip B)).2) := by
  rw [List.zip_cons_cons, claimAll.eq_def]
  simp only
  rw [if_neg]
  rintro ⟨h1, h2⟩
  rw [← List.zip_cons_cons] at h1 h2
  rw [zip_fst _ _ (by simp [hB])] at h1
  exact h ⟨prefix_take.mp h1, (zip_free (c :: D) (b :: B) _ (by simp [hB])).mp h2⟩

/-- The forward loop with type ALL refines `claimAll`. -/
theorem fwd_all (st len : Nat) (pat vals : List Nat) (hp : pat ≠ []) (hv : vals.length = pat.length)
    (fuel : Nat) : ∀ (i n : Nat) (A B C : List (Option Nat)) (DA DB DC : List Nat),
    A.length = st + i → DA.length = st + i → B.length = DB.length → i + DB.length = len → DB.length < fuel →
    fwdLoop .all (DA ++ DB ++ DC) st len pat vals fuel i (A ++ B ++ C) n =
      (A ++ (claimAll pat vals [] (DB.zip B)).1 ++ C, n + (claimAll pat vals [] (DB.zip B)).2) := by
  have hpos := List.length_pos_iff.mpr hp
  induction fuel with
  | zero => intro i n A B C DA DB DC _ _ _ _ h; omega
  | succ fuel ih =>
    intro i n A B C DA DB DC hA hDA hB hi hf
    unfold fwdLoop
    by_cases hroom : i + pat.length ≤ len
    · rw [if_pos hroom]
      have hm : pat.length ≤ DB.length := by omega
      rw [← hDA, slice_mid _ _ _ _ hm, hDA, ← hA, freeAt_mid _ _ _ _ (by omega), hA]
      by_cases hpre : DB.take pat.length = pat
      · rw [if_pos hpre]
        by_cases hfree : (B.take pat.length).all (·.isNone) = true
        · rw [if_pos hfree, if_neg (by decide)]
          rw [claimAll_hit pat vals (DB.zip B) hp hv (by rw [zip_fst _ _ hB]; exact prefix_take.mpr hpre)
            ((zip_free DB B _ hB).mpr hfree)]
          rw [← hA, setMarks_mid _ _ _ _ (by omega)]
          have hsplit : DA ++ DB ++ DC = (DA ++ DB.take pat.length) ++ DB.drop pat.length ++ DC := by
            rw [List.append_assoc DA (DB.take _), List.take_append_drop]
          rw [hsplit, ih (i + pat.length) (n + 1) (A ++ vals.map some) (B.drop vals.length) C (DA ++ DB.take pat.length) (DB.drop pat.length) DC
            (by simp; omega) (by simp; omega) (by simp; omega) (by simp; omega) (by simp; omega)]
          rw [zip_drop, hv]
          refine Prod.ext ?_ ?_
          · simp
          · simp only; omega
        · rw [if_neg hfree]
          cases DB with
          | nil => simp only [List.length_nil] at hm; omega
          | cons c DB =>
            cases B with
            | nil => simp at hB
            | cons b B =>
              rw [claimAll_miss _ _ _ _ _ _ (by simpa using hB) (fun h => hfree h.2)]
              simp only [List.length_cons] at *
              have hstep : A ++ (b :: B) ++ C = (A ++ [b]) ++ B ++ C := by simp
              have hstep2 : DA ++ (c :: DB) ++ DC = (DA ++ [c]) ++ DB ++ DC := by simp
              rw [hstep, hstep2, ih (i + 1) n (A ++ [b]) B C (DA ++ [c]) DB DC (by simp; omega) (by simp; omega)
                (by omega) (by omega) (by omega)]
              simp
      · rw [if_neg hpre, if_neg (by decide)]
        cases DB with
        | nil => simp only [List.length_nil] at hm; omega
        | cons c DB =>
          cases B with
          | nil => simp at hB
          | cons b B =>
            rw [claimAll_miss _ _ _ _ _ _ (by simpa using hB) (fun h => hpre h.1)]
            simp only [List.length_cons] at *
            have hstep : A ++ (b :: B) ++ C = (A ++ [b]) ++ B ++ C := by simp
            have hstep2 : DA ++ (c :: DB) ++ DC = (DA ++ [c]) ++ DB ++ DC := by simp
            rw [hstep, hstep2, ih (i + 1) n (A ++ [b]) B C (DA ++ [c]) DB DC (by simp; omega) (by simp; omega)
              (by omega) (by omega) (by omega)]
            simp
    · rw [if_neg hroom, claimAll_short _ _ _ (by simp; omega), zip_snd _ _ hB]
      rfl

/-! ### Unclaimed text -/

theorem claimAll_free (pat vals : List Nat) (hp : pat ≠ []) (hv : vals.length = pat.length) (D : List Nat) :
    ∀ pend : List Nat,
    (claimAll pat vals pend (D.map (·, none))).2 = countAll pat pend.length D ∧
    List.zipWith (fun c m => Option.getD m c) D (claimAll pat vals pend (D.map (·, none))).1 = replaceAll pat vals pend D := by
  have hpos := List.length_pos_iff.mpr hp
  induction D with
  | nil => intro pend; cases pend <;> simp [claimAll, countAll, replaceAll]
  | cons c D ih =>
    intro pend
    cases pend with
    | cons p ps =>
      have := ih ps
      simp [claimAll, countAll, replaceAll, this]
    | nil =>
      rw [List.map_cons, claimAll.eq_def, replaceAll.eq_def]
      simp only [List.length_nil]
      rw [countAll.eq_def]
      simp only
      have h1 : (((c, (none : Option Nat)) :: D.map (·, none)).map Prod.fst) = c :: D := by
        simp [List.map_map, Function.comp_def]
      have h2 : ∀ x ∈ ((c, (none : Option Nat)) :: D.map (·, none)).take pat.length, x.2 = none := by
        intro x hx
        have := List.mem_of_mem_take hx
        rcases List.mem_cons.mp this with h | h
        · rw [h]
        · obtain ⟨y, _, rfl⟩ := List.mem_map.mp h; rfl
      rw [h1]
      by_cases hpre : pat <+: c :: D
      · rw [if_pos ⟨hpre, h2⟩, if_pos hpre, if_pos hpre]
        cases vals with
        | nil => simp at hv; omega
        | cons v vs =>
          have := ih vs
          simp only [List.length_cons] at hv
          rw [show pat.length - 1 = vs.length by omega]
          simp [this]
          omega
      · rw [if_neg (fun h => hpre h.1), if_neg hpre, if_neg hpre]
        have := ih []
        simp only [List.length_nil] at this
        simp [this]

theorem zip_replicate (D : List Nat) : D.zip (List.replicate D.length (none : Option Nat)) = D.map (·, none) := by
  induction D with
  | nil => rfl
  | cons d D ih => simp [List.replicate_succ, ih]

/-- Claims of LEADING on unclaimed text. -/
def claimLead (pat vals : List Nat) : (pend : List Nat) → List Nat → List (Option Nat) × Nat
  | _, [] => ([], 0)
  | p :: ps, _ :: cs => let r := claimLead pat vals ps cs; (some p :: r.1, r.2)
  | [], c :: cs =>
    if pat <+: c :: cs then
      match vals with
      | [] => (List.replicate (cs.length + 1) none, 0)
      | v :: vs => let r := claimLead pat vals vs cs; (some v :: r.1, r.2 + 1)
    else (List.replicate (cs.length + 1) none, 0)

theorem zipWith_none (D : List Nat) :
    List.zipWith (fun c m => Option.getD m c) D (List.replicate D.length (none : Option Nat)) = D := by
  induction D with
  | nil => rfl
  | cons d D ih => simp [List.replicate_succ, ih]

theorem claimLead_spec (pat vals : List Nat) (hp : pat ≠ []) (hv : vals.length = pat.length) (D : List Nat) :
    ∀ pend : List Nat,
    (claimLead pat vals pend D).2 = countLeading pat pend.length D ∧
    List.zipWith (fun c m => Option.getD m c) D (claimLead pat vals pend D).1 = replaceLeading pat vals pend D ∧
    (claimLead pat vals pend D).1.length = D.length := by
  have hpos := List.length_pos_iff.mpr hp
  induction D with
  | nil => intro pend; cases pend <;> simp [claimLead, countLeading, replaceLeading]
  | cons c D ih =>
    intro pend
    cases pend with
    | cons p ps =>
      have := ih ps
      simp [claimLead, countLeading, replaceLeading, this]
    | nil =>
      rw [claimLead.eq_def, replaceLeading.eq_def, countLeading.eq_def]
      simp only [List.length_nil]
      by_cases hpre : pat <+: c :: D
      · rw [if_pos hpre, if_pos hpre, if_pos hpre]
        cases vals with
        | nil => simp at hv; omega
        | cons v vs =>
          have := ih vs
          simp only [List.length_cons] at hv
          rw [show pat.length - 1 = vs.length by omega]
          simp [this]
          omega
      · rw [if_neg hpre, if_neg hpre, if_neg hpre]
        have := zipWith_none (c :: D)
        simp only [List.length_cons] at this
        simp [this]

theorem claimLead_pend (pat vals : List Nat) (pend : List Nat) (cs : List Nat) (h : pend.length ≤ cs.length) :
    claimLead pat vals pend cs =
      (pend.map some ++ (claimLead pat vals [] (cs.drop pend.length)).1, (claimLead pat vals [] (cs.drop pend.length)).2) := by
  induction pend generalizing cs with
  | nil => simp
  | cons p ps ih =>
    cases cs with
    | nil => simp at h
    | cons c cs =>
      simp only [List.length_cons, Nat.add_le_add_iff_right] at h
      simp [claimLead, ih cs h]

theorem claimLead_hit (pat vals : List Nat) (cs : List Nat) (hp : pat ≠ []) (hv : vals.length = pat.length)
    (h1 : pat <+: cs) :
    claimLead pat vals [] cs =
      (vals.map some ++ (claimLead pat vals [] (cs.drop pat.length)).1, (claimLead pat vals [] (cs.drop pat.length)).2 + 1) := by
  have hl := h1.length_le
  have hpos := List.length_pos_iff.mpr hp
  cases cs with
  | nil => simp only [List.length_nil] at hl; omega
  | cons c cs =>
    cases vals with
    | nil => simp at hv; omega
    | cons v vs =>
      simp only [List.length_cons] at hv hl
      rw [claimLead, if_pos h1]
      simp only
      rw [claimLead_pend _ _ vs cs (by omega), ← hv]
      simp

theorem claimLead_miss (pat vals cs : List Nat) (h : ¬ pat <+: cs) :
    claimLead pat vals [] cs = (List.replicate cs.length none, 0) := by
  cases cs with
  | nil => simp [claimLead]
  | cons c cs =>
    rw [claimLead.eq_def]
    simp only
    rw [if_neg h]
    simp

theorem free_replicate (m k : Nat) : ((List.replicate k (none : Option Nat)).take m).all (·.isNone) = true := by
  rw [List.all_eq_true]
  intro x hx
  rw [List.eq_of_mem_replicate (List.mem_of_mem_take hx)]
  rfl

/-- The forward loop with type LEADING on unclaimed text. -/
theorem fwd_leading (st len : Nat) (pat vals : List Nat) (hp : pat ≠ []) (hv : vals.length = pat.length)
    (fuel : Nat) : ∀ (i n : Nat) (A C : List (Option Nat)) (DA DB DC : List Nat),
    A.length = st + i → DA.length = st + i → i + DB.length = len → DB.length < fuel →
    fwdLoop .leading (DA ++ DB ++ DC) st len pat vals fuel i (A ++ List.replicate DB.length none ++ C) n =
      (A ++ (claimLead pat vals [] DB).1 ++ C, n + (claimLead pat vals [] DB).2) := by
  have hpos := List.length_pos_iff.mpr hp
  induction fuel with
  | zero => intro i n A C DA DB DC _ _ _ h; omega
  | succ fuel ih =>
    intro i n A C DA DB DC hA hDA hi hf
    unfold fwdLoop
    by_cases hroom : i + pat.length ≤ len
    · rw [if_pos hroom]
      have hm : pat.length ≤ DB.length := by omega
      rw [← hDA, slice_mid _ _ _ _ hm, hDA, ← hA, freeAt_mid _ _ _ _ (by simpa using hm), hA, free_replicate]
      by_cases hpre : DB.take pat.length = pat
      · rw [if_pos hpre, if_pos rfl, if_neg (by decide), claimLead_hit pat vals DB hp hv (prefix_take.mpr hpre)]
        rw [← hA, setMarks_mid _ _ _ _ (by simp; omega)]
        have hsplit : DA ++ DB ++ DC = (DA ++ DB.take pat.length) ++ DB.drop pat.length ++ DC := by
          rw [List.append_assoc DA (DB.take _), List.take_append_drop]
        rw [hsplit, List.drop_replicate, hv, ← List.length_drop,
          ih (i + pat.length) (n + 1) (A ++ vals.map some) C (DA ++ DB.take pat.length) (DB.drop pat.length) DC
          (by simp; omega) (by simp; omega) (by simp; omega) (by simp; omega)]
        refine Prod.ext ?_ ?_
        · simp
        · simp only; omega
      · rw [if_neg hpre, if_pos rfl, claimLead_miss _ _ _ (fun h => hpre (prefix_take.mp h))]
        rfl
    · rw [if_neg hroom, claimLead_miss]
      · rfl
      · intro h
        have := h.length_le
        omega

/-- Claims of FIRST on unclaimed text. -/
def claimFirst (pat vals : List Nat) : List Nat → List (Option Nat) × Nat
  | [] => ([], 0)
  | c :: cs =>
    if pat <+: c :: cs then (vals.map some ++ List.replicate (cs.length + 1 - pat.length) none, 1)
    else let r := claimFirst pat vals cs; (none :: r.1, r.2)

theorem claimFirst_short (pat vals cs : List Nat) (h : cs.length < pat.length) :
    claimFirst pat vals cs = (List.replicate cs.length none, 0) := by
  induction cs with
  | nil => simp [claimFirst]
  | cons c cs ih =>
    rw [claimFirst, if_neg, ih (by simp at h; omega)]
    · simp [List.replicate_succ]
    · intro hp; have := hp.length_le; omega

theorem zipWith_append_none (D : List Nat) (vals : List Nat) (h : vals.length ≤ D.length) :
    List.zipWith (fun c m => Option.getD m c) D (vals.map some ++ List.replicate (D.length - vals.length) (none : Option Nat))
      = vals ++ D.drop vals.length := by
  induction vals generalizing D with
  | nil => simpa using zipWith_none D
  | cons v vs ih =>
    cases D with
    | nil => simp at h
    | cons d D =>
      simp only [List.length_cons, Nat.add_le_add_iff_right] at h
      have := ih D h
      simp [this]

theorem claimFirst_spec (pat vals : List Nat) (hp : pat ≠ []) (hv : vals.length = pat.length) (D : List Nat) :
    List.zipWith (fun c m => Option.getD m c) D (claimFirst pat vals D).1 = replaceFirst pat vals D := by
  induction D with
  | nil => simp [claimFirst, replaceFirst]
  | cons c D ih =>
    rw [claimFirst, replaceFirst]
    by_cases hpre : pat <+: c :: D
    · rw [if_pos hpre, if_pos hpre]
      have hl := hpre.length_le
      have := zipWith_append_none (c :: D) vals (by omega)
      rw [List.length_cons, hv] at this
      exact this
    · rw [if_neg hpre, if_neg hpre]
      simp [ih]

/-- The forward loop with type FIRST on unclaimed text. -/
theorem fwd_first (st len : Nat) (pat vals : List Nat) (hp : pat ≠ []) (hv : vals.length = pat.length)
    (fuel : Nat) : ∀ (i n : Nat) (A C : List (Option Nat)) (DA DB DC : List Nat),
    A.length = st + i → DA.length = st + i → i + DB.length = len → DB.length < fuel →
    fwdLoop .first (DA ++ DB ++ DC) st len pat vals fuel i (A ++ List.replicate DB.length none ++ C) n =
      (A ++ (claimFirst pat vals DB).1 ++ C, n + (claimFirst pat vals DB).2) := by
  have hpos := List.length_pos_iff.mpr hp
  induction fuel with
  | zero => intro i n A C DA DB DC _ _ _ h; omega
  | succ fuel ih =>
    intro i n A C DA DB DC hA hDA hi hf
    unfold fwdLoop
    by_cases hroom : i + pat.length ≤ len
    · rw [if_pos hroom]
      have hm : pat.length ≤ DB.length := by omega
      rw [← hDA, slice_mid _ _ _ _ hm, hDA, ← hA, freeAt_mid _ _ _ _ (by simpa using hm), hA, free_replicate]
      cases DB with
      | nil => simp only [List.length_nil] at hm; omega
      | cons c DB =>
        by_cases hpre : (c :: DB).take pat.length = pat
        · rw [if_pos hpre, if_pos rfl, if_pos rfl]
          rw [← hA, setMarks_mid _ _ _ _ (by rw [List.length_replicate]; omega)]
          rw [claimFirst, if_pos (prefix_take.mpr hpre)]
          simp [hv]
        · rw [if_neg hpre, if_neg (by decide)]
          rw [claimFirst, if_neg (fun h => hpre (prefix_take.mp h))]
          simp only [List.length_cons] at *
          have hstep : A ++ List.replicate (DB.length + 1) none ++ C = (A ++ [none]) ++ List.replicate DB.length none ++ C := by
            simp [List.replicate_succ]
          have hstep2 : DA ++ (c :: DB) ++ DC = (DA ++ [c]) ++ DB ++ DC := by simp
          rw [hstep, hstep2, ih (i + 1) n (A ++ [none]) C (DA ++ [c]) DB DC (by simp; omega) (by simp; omega)
            (by omega) (by omega)]
          simp
    · rw [if_neg hroom, claimFirst_short _ _ _ (by omega)]
      rfl

/-- The backward loop on unclaimed text is LEADING on the reversed text. -/
theorem bwd_free (st : Nat) (pat vals : List Nat) (hp : pat ≠ []) (hv : vals.length = pat.length)
    (fuel : Nat) : ∀ (n : Nat) (A C : List (Option Nat)) (DA DB DC : List Nat),
    A.length = st → DA.length = st → DB.length < fuel →
    bwdLoop (DA ++ DB ++ DC) st pat vals fuel (DB.length + 1 - pat.length) (A ++ List.replicate DB.length none ++ C) n =
      (A ++ (claimLead pat.reverse vals.reverse [] DB.reverse).1.reverse ++ C,
        n + (claimLead pat.reverse vals.reverse [] DB.reverse).2) := by
  have hpos := List.length_pos_iff.mpr hp
  induction fuel with
  | zero => intro n A C DA DB DC _ _ h; omega
  | succ fuel ih =>
    intro n A C DA DB DC hA hDA hf
    by_cases hroom : pat.length ≤ DB.length
    · obtain ⟨P, S, rfl, hS⟩ : ∃ P S, DB = P ++ S ∧ S.length = pat.length :=
        ⟨DB.take (DB.length - pat.length), DB.drop (DB.length - pat.length), (List.take_append_drop _ _).symm, by simp; omega⟩
      have hlen : (P ++ S).length = P.length + pat.length := by simp [hS]
      rw [hlen, show P.length + pat.length + 1 - pat.length = P.length + 1 by omega]
      unfold bwdLoop
      have e1 : slice (DA ++ (P ++ S) ++ DC) (st + P.length) pat.length = S := by
        have h := slice_mid (DA ++ P) S DC pat.length (by omega)
        rw [List.length_append, hDA, List.take_of_length_le (by omega)] at h
        rw [show DA ++ (P ++ S) ++ DC = DA ++ P ++ S ++ DC by simp]
        exact h
      have e2 : A ++ List.replicate (P.length + pat.length) none ++ C =
          (A ++ List.replicate P.length none) ++ List.replicate pat.length none ++ C := by
        rw [List.append_assoc A (List.replicate _ _) (List.replicate _ _), List.replicate_append_replicate]
      have e3 : freeAt ((A ++ List.replicate P.length none) ++ List.replicate pat.length none ++ C) (st + P.length) pat.length = true := by
        have h := freeAt_mid (A ++ List.replicate P.length none) (List.replicate pat.length none) C pat.length (by simp)
        rw [List.length_append, hA, List.length_replicate] at h
        rw [h, free_replicate]
      rw [e1, e2, e3]
      by_cases hpre : S = pat
      · rw [if_pos hpre, if_pos rfl]
        have e4 := setMarks_mid (A ++ List.replicate P.length none) (List.replicate pat.length none) C vals (by simp; omega)
        rw [List.length_append, hA, List.length_replicate, List.drop_replicate, hv, Nat.sub_self] at e4
        rw [e4]
        have e5 : A ++ List.replicate P.length none ++ List.map some vals ++ List.replicate 0 none ++ C =
            A ++ List.replicate P.length none ++ (List.map some vals ++ C) := by simp
        have e6 : DA ++ (P ++ S) ++ DC = DA ++ P ++ (S ++ DC) := by simp
        rw [e5, e6, show P.length + 1 - pat.length = P.length + 1 - pat.length from rfl,
          ih (n + 1) A (List.map some vals ++ C) DA P (S ++ DC) hA hDA (by omega)]
        rw [List.reverse_append, claimLead_hit pat.reverse vals.reverse (S.reverse ++ P.reverse) (by simpa using hp) (by simpa using hv)
          (by rw [hpre]; exact List.prefix_append _ _)]
        rw [show pat.reverse.length = S.reverse.length by simp [hS], List.drop_left]
        refine Prod.ext ?_ ?_
        · simp
        · simp only; omega
      · rw [if_neg hpre, claimLead_miss]
        · simp only [List.length_reverse, hlen, List.reverse_replicate]
          rw [← e2]
          rfl
        · rw [List.reverse_append, prefix_take]
          rw [show pat.reverse.length = S.reverse.length by simp [hS], List.take_left]
          intro h
          exact hpre (by rw [← List.reverse_reverse S, h, List.reverse_reverse])
    · rw [show DB.length + 1 - pat.length = 0 by omega]
      unfold bwdLoop
      rw [claimLead_miss]
      · simp
      · intro h
        have := h.length_le
        simp at this
        omega

/-! ### CHARACTERS -/

theorem char_loop (v k : Nat) : ∀ (n : Nat) (A B C : List (Option Nat)), B.length = k →
    charLoop v k A.length (A ++ B ++ C) n =
      (A ++ B.map (fun m => some (m.getD v)) ++ C, n + B.countP (·.isNone)) := by
  induction k with
  | zero =>
    intro n A B C h
    rw [List.length_eq_zero_iff] at h
    subst h
    simp [charLoop]
  | succ k ih =>
    intro n A B C h
    cases B with
    | nil => simp at h
    | cons b B =>
      unfold charLoop
      have hget : (A ++ b :: B ++ C).getD A.length none = b := by
        simp [List.getD]
      rw [hget]
      have hl : (A ++ [some ((b : Option Nat).getD v)]).length = A.length + 1 := by simp
      cases b with
      | none =>
        rw [if_pos rfl]
        have hset : (A ++ none :: B ++ C).set A.length (some v) = (A ++ [some v]) ++ B ++ C := by
          simp
        rw [hset]
        have := ih (n + 1) (A ++ [some v]) B C (by simpa using h)
        rw [List.length_append, List.length_singleton] at this
        rw [this]
        simp
        omega
      | some x =>
        rw [if_neg (by simp)]
        have := ih n (A ++ [some x]) B C (by simpa using h)
        rw [List.length_append, List.length_singleton] at this
        rw [show A ++ some x :: B ++ C = (A ++ [some x]) ++ B ++ C by simp, this]
        simp

/-! ### Regions -/

theorem beforeFirst_short (pat W : List Nat) (h : W.length < pat.length) : beforeFirst pat W = W ∧ afterFirst pat W = [] := by
  induction W with
  | nil => simp [beforeFirst, afterFirst]
  | cons c W ih =>
    have hn : ¬ pat <+: c :: W := by intro hp; have := hp.length_le; omega
    have := ih (by simp at h; omega)
    rw [beforeFirst, afterFirst, if_neg hn, if_neg hn]
    simp [this]

theorem find_spec (pat : List Nat) (fuel : Nat) : ∀ (DA W DC : List Nat), W.length < fuel →
    match findFrom (DA ++ W ++ DC) pat (DA.length + W.length) fuel DA.length with
    | none => beforeFirst pat W = W ∧ afterFirst pat W = []
    | some q => q = DA.length + (beforeFirst pat W).length ∧ (beforeFirst pat W) <+: W ∧
        afterFirst pat W = W.drop ((beforeFirst pat W).length + pat.length) ∧
        (beforeFirst pat W).length + pat.length ≤ W.length := by
  induction fuel with
  | zero => intro DA W DC h; omega
  | succ fuel ih =>
    intro DA W DC hf
    unfold findFrom
    by_cases hroom : DA.length + pat.length ≤ DA.length + W.length
    · rw [if_pos hroom, slice_mid _ _ _ _ (by omega)]
      by_cases hpre : W.take pat.length = pat
      · rw [if_pos hpre]
        simp only
        have hp := prefix_take.mpr hpre
        cases W with
        | nil =>
          have : pat.length = 0 := by simp only [List.length_nil] at hroom; omega
          simp [beforeFirst, afterFirst, this]
        | cons c W =>
          rw [beforeFirst, afterFirst, if_pos hp, if_pos hp]
          refine ⟨by simp, by simp, by simp, by simp at hroom ⊢; omega⟩
      · rw [if_neg hpre]
        cases W with
        | nil =>
          exfalso
          have : pat.length = 0 := by simp only [List.length_nil] at hroom; omega
          rw [List.length_eq_zero_iff] at this
          subst this
          simp at hpre
        | cons c W =>
          have hnp : ¬ pat <+: c :: W := fun h => hpre (prefix_take.mp h)
          have := ih (DA ++ [c]) W DC (by simp at hf; omega)
          rw [List.length_append, List.length_singleton] at this
          rw [show DA ++ c :: W ++ DC = (DA ++ [c]) ++ W ++ DC by simp,
            show DA.length + (c :: W).length = DA.length + 1 + W.length by simp; omega]
          rw [beforeFirst, afterFirst, if_neg hnp, if_neg hnp]
          split at this
          · rename_i he
            simp [this]
          · rename_i q he
            obtain ⟨h1, h2, h3, h4⟩ := this
            refine ⟨by simp; omega, List.cons_prefix_cons.mpr ⟨rfl, h2⟩, ?_, by simp; omega⟩
            rw [h3, show (c :: beforeFirst pat W).length + pat.length = ((beforeFirst pat W).length + pat.length) + 1 by simp; omega,
              List.drop_succ_cons]
    · rw [if_neg hroom]
      exact beforeFirst_short pat W (by omega)

/-- The state has the region `w` between `a` and `b`. -/
def HasRegion (s : Insp) (t : List Nat × List Nat × List Nat) : Prop :=
  s.data = t.1 ++ t.2.1 ++ t.2.2 ∧ s.start = t.1.length ∧ s.stop = t.1.length + t.2.1.length ∧
  s.marks.length = s.data.length

theorem region_step (s : Insp) (t : List Nat × List Nat × List Nat) (h : HasRegion s t) (r : Region) :
    HasRegion (match r with | .before p => inspBefore s p | .after p => inspAfter s p) (regionSplit t r) ∧
    (match r with | .before p => inspBefore s p | .after p => inspAfter s p).data = s.data ∧
    (match r with | .before p => inspBefore s p | .after p => inspAfter s p).marks = s.marks := by
  obtain ⟨a, w, b⟩ := t
  obtain ⟨h1, h2, h3, h4⟩ := h
  simp only at h1 h2 h3
  cases r with
  | before p =>
    have hf := find_spec p (s.stop - s.start + 1) a w b (by omega)
    rw [← h1, ← h2, show s.start + w.length = s.stop by omega] at hf
    simp only [inspBefore, regionSplit]
    split at hf
    · rename_i he
      rw [he, hf.1]
      simp only
      refine ⟨⟨?_, h2, h3, h4⟩, by simp, by simp⟩
      simpa using h1
    · rename_i q he
      rw [he]
      obtain ⟨g1, g2, g3, g4⟩ := hf
      simp only
      refine ⟨⟨?_, h2, by simp only; omega, h4⟩, by simp, by simp⟩
      simp only
      rw [h1]
      obtain ⟨x, hx⟩ := g2
      have hd : w.drop (beforeFirst p w).length = x := by
        have := List.drop_left (l₁ := beforeFirst p w) (l₂ := x)
        rw [hx] at this
        exact this
      rw [hd, ← List.append_assoc (a ++ beforeFirst p w) x b, List.append_assoc a (beforeFirst p w) x, hx]
  | after p =>
    have hf := find_spec p (s.stop - s.start + 1) a w b (by omega)
    rw [← h1, ← h2, show s.start + w.length = s.stop by omega] at hf
    simp only [inspAfter, regionSplit]
    split at hf
    · rename_i he
      rw [he, hf.2]
      simp only
      refine ⟨⟨?_, ?_, ?_, h4⟩, by simp, by simp⟩
      · simpa using h1
      · simp; omega
      · simp; omega
    · rename_i q he
      rw [he]
      obtain ⟨g1, g2, g3, g4⟩ := hf
      simp only
      rw [g3]
      refine ⟨⟨?_, ?_, ?_, h4⟩, by simp, by simp⟩
      · simp only
        rw [h1]
        have : w.length - (w.drop ((beforeFirst p w).length + p.length)).length = (beforeFirst p w).length + p.length := by
          simp; omega
        rw [this, List.append_assoc a (List.take _ _) (List.drop _ _), List.take_append_drop]
      · simp; omega
      · simp; omega

theorem region_fold (rs : List Region) : ∀ (s : Insp) (t : List Nat × List Nat × List Nat), HasRegion s t →
    HasRegion (rs.foldl (fun s r => match r with | .before p => inspBefore s p | .after p => inspAfter s p) s) (rs.foldl regionSplit t) ∧
    (rs.foldl (fun s r => match r with | .before p => inspBefore s p | .after p => inspAfter s p) s).data = s.data ∧
    (rs.foldl (fun s r => match r with | .before p => inspBefore s p | .after p => inspAfter s p) s).marks = s.marks := by
  induction rs with
  | nil => intro s t h; exact ⟨h, rfl, rfl⟩
  | cons r rs ih =>
    intro s t h
    obtain ⟨h1, h2, h3⟩ := region_step s t h r
    obtain ⟨g1, g2, g3⟩ := ih _ _ h1
    exact ⟨g1, by rw [List.foldl_cons, g2, h2], by rw [List.foldl_cons, g3, h3]⟩

theorem region_spec (s : Insp) (h : s.marks.length = s.data.length) (rs : List Region) :
    HasRegion (inspRegion s rs) (regionOf s.data rs) ∧ (inspRegion s rs).data = s.data ∧ (inspRegion s rs).marks = s.marks :=
  region_fold rs (inspStart s) ([], s.data, []) ⟨by simp [inspStart], by simp [inspStart], by simp [inspStart], by simpa [inspStart] using h⟩

theorem regionOf_append (d : List Nat) (rs : List Region) :
    d = (regionOf d rs).1 ++ (regionOf d rs).2.1 ++ (regionOf d rs).2.2 := by
  have := region_spec (inspInit d) (by simp [inspInit]) rs
  have h1 := this.1.1
  rw [this.2.1] at h1
  exact h1

end Cob
