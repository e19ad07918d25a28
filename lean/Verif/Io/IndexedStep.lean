import Verif.Io.IndexedSim2
/- Every statement on an INDEXED file does what the specification says. -/
namespace Cob

variable {cfg : IxCfg} {f : IxFile} {A : IxAbs}

theorem key_beyond (i : Nat) (h : cfg.keys.length ≤ i) : (cfg.key i).dups = false := by
  unfold IxCfg.key
  rw [List.getD_eq_getElem?_getD, List.getElem?_eq_none_iff.mpr h]
  rfl

/-- The registers a statement that does not read leaves alone. -/
theorem posRel_congr (g : IxFile) (p : IxPos) (h : IxPosRel cfg f p) (h1 : g.keyIndex = f.keyIndex) (h2 : g.lastRead = f.lastRead)
    (h3 : g.lastPrim = f.lastPrim) (h4 : g.lastDup = f.lastDup) (h5 : g.firstRead = f.firstRead) : IxPosRel cfg g p := by
  cases p with
  | undef => trivial
  | found o i k n pk =>
    unfold IxPosRel IxAt at *
    rw [h1, h2, h3, h4, h5]
    exact h
  | read i k n =>
    unfold IxPosRel IxAt at *
    rw [h1, h2, h4, h5]
    exact h

theorem write_step (hc : cfg.Ok) (h : IxRel cfg f A) (area : List Nat) (len : Nat) (hal : IxAllowed cfg A (.write area len)) :
    ∃ out g B, ixStep cfg f (.write area len) = some (out, g) ∧ IxDoes cfg A (.write area len) out B ∧ IxRel cfg g B := by
  obtain ⟨ht, hr⟩ := h
  have hlen : area.length = cfg.recMax := hal
  unfold ixStep
  simp only
  by_cases hll : len < cfg.recMin ∨ cfg.recMax < len
  · rw [if_pos hll]
    refine ⟨_, _, _, rfl, .writeLength area len hll, ht, ?_⟩
    exact ⟨hr.null, rfl, hr.eof, hr.bof, hr.lastKey, rfl, posRel_congr _ _ hr.pos rfl rfl rfl rfl rfl⟩
  rw [if_neg hll]
  have hl1 : cfg.recMin ≤ len := by omega
  have hl2 : len ≤ cfg.recMax := by omega
  unfold ixWrite
  simp only
  by_cases hord : cfg.access = .sequential ∧ (f.lastKey.any fun l => decide (cfg.keyOf 0 area < l)) = true
  · rw [if_pos hord]
    obtain ⟨o1, o2⟩ := hord
    rw [hr.lastKey] at o2
    cases hw : A.lastW with
    | none => rw [hw] at o2; simp at o2
    | some l =>
      rw [hw] at o2
      simp only [Option.any_some, decide_eq_true_eq] at o2
      refine ⟨_, _, _, rfl, .writeOrder area len l ⟨hl1, hl2⟩ o1 hw o2, ht, ?_⟩
      exact ⟨hr.null, hr.size, hr.eof, hr.bof, hr.lastKey, rfl, posRel_congr _ _ hr.pos rfl rfl rfl rfl rfl⟩
  · rw [if_neg hord]
    have hord' : ¬ (cfg.access = .sequential ∧ ∃ l, A.lastW = some l ∧ cfg.keyOf 0 area < l) := by
      rintro ⟨o1, l, o2, o3⟩
      apply hord
      rw [hr.lastKey, o2]
      simp [o1, o3]
    unfold ixWriteInt
    simp only [true_and]
    have htk : ∀ x y z w v, ixAltTaken cfg (IxFile.mk f.db0 f.alts f.keyIndex f.lastRead f.lastPrim f.lastDup x y z w v f.eof f.bof f.firstRead) false area =
      ixAltTaken cfg f false area := fun _ _ _ _ _ => rfl
    rw [htk]
    by_cases htaken : ixAltTaken cfg f false area = true
    · rw [if_pos htaken]
      refine ⟨_, _, _, rfl, .writeTaken area len ⟨hl1, hl2⟩ hord' (Or.inr ((altTaken_iff ht false area).mp htaken)), ht, ?_⟩
      exact ⟨fun h => absurd h (by simp), hr.size, hr.eof, hr.bof, rfl, rfl, posRel_congr _ _ hr.pos rfl rfl rfl rfl rfl⟩
    · rw [if_neg htaken]
      have htaken' : ¬ A.Taken cfg none area := fun hx => htaken ((altTaken_iff ht false area).mpr hx)
      rw [getRec_eq ht]
      by_cases hex : (A.recs (cfg.keyOf 0 area)).isSome = true
      · rw [if_pos hex]
        refine ⟨_, _, _, rfl, .writeTaken area len ⟨hl1, hl2⟩ hord' (Or.inl (by intro h; rw [h] at hex; simp at hex)), ht, ?_⟩
        exact ⟨fun h => absurd h (by simp), hr.size, hr.eof, hr.bof, rfl, rfl, posRel_congr _ _ hr.pos rfl rfl rfl rfl rfl⟩
      · rw [if_neg hex]
        have hnone : A.recs (cfg.keyOf 0 area) = none := by simpa using hex
        have hwo : ∀ i, 0 < i → i < cfg.keys.length → Without cfg A i (cfg.keyOf 0 area) (f.alts i) := by
          intro i h0 hi
          refine ⟨ht.sorted i h0 hi, fun e => ?_⟩
          rw [ht.mem i h0 hi e]
          constructor
          · rintro ⟨r, h1, h2⟩
            refine ⟨fun hp => ?_, r, h1, h2⟩
            rw [hp, hnone] at h1
            cases h1
          · exact fun h => h.2
        have huniq : ∀ i, 0 < i → i < cfg.keys.length → (cfg.key i).dups = false → ∀ e ∈ f.alts i, e.key ≠ cfg.keyOf i area := by
          intro i h0 hi hd e he hk
          obtain ⟨r, h1, h2, h3⟩ := (ht.mem i h0 hi e).mp he
          exact htaken' ⟨i, h0, hi, hd, e.pk, r, h1, by rw [h2, hk], by simp⟩
        rw [putAlts_eq cfg (fun _ => false) area (List.range cfg.keys.length) f.alts List.nodup_range (by
          intro i hi h0 _ hd
          exact huniq i (by omega) (List.mem_range.mp hi) hd)]
        simp only [if_true]
        have hnew : ∀ i, 0 < i → i < cfg.keys.length →
            (if (cfg.key i).dups = true then ixDupno (f.alts i) (cfg.keyOf i area) else 0) =
            (fun i => if 0 < i ∧ (cfg.key i).dups = true then ixDupno (f.alts i) (cfg.keyOf i area) else 0) i := by
          intro i h0 hi
          simp only [h0, true_and]
        have hput : ∀ i (h0 : 0 < i) (hi : i < cfg.keys.length), _ := fun i h0 hi =>
          alt_put i (cfg.keyOf 0 area) (cfg.keyOf i area) (f.alts i) (hwo i h0 hi) _
            (fun hd => by rw [if_pos hd]) (fun hd => ⟨by rw [if_neg (by simp [hd])], huniq i h0 hi hd⟩) (area.take len)
            (keyOf_take hc i hi area len hl1)
            (fun i => if 0 < i ∧ (cfg.key i).dups = true then ixDupno (f.alts i) (cfg.keyOf i area) else 0) (hnew i h0 hi).symm
        refine ⟨_, _, _, rfl, .write area len
          (fun i => if 0 < i ∧ (cfg.key i).dups = true then ixDupno (f.alts i) (cfg.keyOf i area) else 0)
          ⟨hl1, hl2⟩ hord' hnone htaken' ?_, ?_, ?_⟩
        · intro i
          by_cases hd : 0 < i ∧ (cfg.key i).dups = true
          · rw [if_pos hd]
            simp only [if_pos hd]
            have hi : i < cfg.keys.length := by
              by_contra hi
              have := key_beyond (cfg := cfg) i (by omega)
              rw [hd.2] at this
              cases this
            have := (hput i hd.1 hi).2 hd.2
            rwa [if_pos hd.2] at this
          · rw [if_neg hd]
            simp only [if_neg hd]
        · refine put_trees hc ht area len hlen ⟨hl1, hl2⟩ f.db0 ht.sorted0 ?_ _ _ ?_ ?_
          · intro k r
            rw [ht.mem0]
            constructor
            · intro hk
              refine ⟨fun he => ?_, hk⟩
              rw [he, hnone] at hk
              cases hk
            · exact fun h => h.2
          · intro i hd
            simp only [if_neg hd]
          · intro i h0 hi
            simp only
            rw [if_pos ⟨List.mem_range.mpr hi, by omega, trivial⟩]
            exact (hput i h0 hi).1
        · exact ⟨fun h => absurd h (by simp), hr.size, hr.eof, hr.bof, rfl, rfl, posRel_congr _ _ hr.pos rfl rfl rfl rfl rfl⟩

theorem delete_step (h : IxRel cfg f A) (area : List Nat) :
    ∃ out g B, ixStep cfg f (.delete area) = some (out, g) ∧ IxDoes cfg A (.delete area) out B ∧ IxRel cfg g B := by
  obtain ⟨ht, hr⟩ := h
  unfold ixStep
  simp only
  by_cases hs : cfg.access = .sequential
  · cases hcur : A.cur with
    | none =>
      have h1 := hr.cur
      rw [hcur] at h1
      rw [if_pos ⟨hs, h1⟩]
      refine ⟨_, _, _, rfl, .deleteUnread area hs hcur, ht, ?_⟩
      exact ⟨hr.null, hr.size, hr.eof, hr.bof, hr.lastKey, rfl, posRel_congr _ _ hr.pos rfl rfl rfl rfl rfl⟩
    | some pk =>
      have h1 := hr.cur
      rw [hcur] at h1
      obtain ⟨c1, c2, c3⟩ := h1
      rw [if_neg (by simp [c1])]
      obtain ⟨old, hold⟩ := Option.isSome_iff_exists.mp c3
      unfold ixDeleteInt
      simp only [hs, if_true, c2]
      rw [getRec_eq ht, hold]
      simp only [Option.map_some]
      refine ⟨_, _, _, rfl, .deleteCurrent area pk hs hcur, delete_trees ht pk old area hold, ?_⟩
      exact ⟨fun h => absurd h (by simp), hr.size, hr.eof, hr.bof, hr.lastKey, rfl, posRel_congr _ _ hr.pos rfl rfl rfl rfl rfl⟩
  · rw [if_neg (by simp [hs])]
    unfold ixDeleteInt
    simp only [hs, if_false]
    rw [getRec_eq ht]
    cases hold : A.recs (cfg.keyOf 0 area) with
    | none =>
      simp only [Option.map_some]
      refine ⟨_, _, _, rfl, .deleteMissing area hs hold, ht, ?_⟩
      exact ⟨hr.null, hr.size, hr.eof, hr.bof, hr.lastKey, rfl, posRel_congr _ _ hr.pos rfl rfl rfl rfl rfl⟩
    | some old =>
      simp only [Option.map_some]
      refine ⟨_, _, _, rfl, .delete area hs (by rw [hold]; simp), delete_trees ht _ old area hold, ?_⟩
      exact ⟨fun h => absurd h (by simp), hr.size, hr.eof, hr.bof, hr.lastKey, rfl, posRel_congr _ _ hr.pos rfl rfl rfl rfl rfl⟩

theorem afterCheck_same (cur area : List Nat) (h : ∀ i, 0 < i → i < cfg.keys.length → (cfg.key i).dups = true) :
    ixAfterCheck cfg cur area = cur := by
  unfold ixAfterCheck
  have : ∀ is : List Nat, (∀ i ∈ is, i < cfg.keys.length) →
      is.foldl (fun c i => if i != 0 && !(cfg.key i).dups then cfg.keyOf i area else c) cur = cur := by
    intro is
    induction is with
    | nil => intro _; rfl
    | cons i is ih =>
      intro hi
      rw [List.foldl_cons]
      have : (i != 0 && !(cfg.key i).dups) = false := by
        by_cases h0 : i = 0
        · simp [h0]
        · simp [h i (by omega) (hi i (by simp))]
      rw [this]
      exact ih fun j hj => hi j (by simp [hj])
  exact this _ fun i hi => List.mem_range.mp hi

theorem rewrite_step (hc : cfg.Ok) (h : IxRel cfg f A) (area : List Nat) (hal : IxAllowed cfg A (.rewrite area)) :
    ∃ out g B, ixStep cfg f (.rewrite area) = some (out, g) ∧ IxDoes cfg A (.rewrite area) out B ∧ IxRel cfg g B := by
  obtain ⟨ht, hr⟩ := h
  obtain ⟨hlen, hsz, hseq⟩ := hal
  unfold ixStep
  simp only
  by_cases hu : cfg.access = .sequential ∧ A.cur = none
  · have h1 := hr.cur
    rw [hu.2] at h1
    rw [if_pos ⟨hu.1, h1⟩]
    refine ⟨_, _, _, rfl, .rewriteUnread area hu.1 hu.2, ht, ?_⟩
    exact ⟨hr.null, hr.size, hr.eof, hr.bof, hr.lastKey, rfl, posRel_congr _ _ hr.pos rfl rfl rfl rfl rfl⟩
  · have hpk : cfg.access = .sequential → f.readDone = true ∧ ixAfterCheck cfg f.curKey area = cfg.keyOf 0 area ∧
        (A.recs (cfg.keyOf 0 area)).isSome = true := by
      intro hs
      cases hcur : A.cur with
      | none => exact absurd ⟨hs, hcur⟩ hu
      | some pk =>
        have h1 := hr.cur
        rw [hcur] at h1
        obtain ⟨c1, c2, c3⟩ := h1
        have h2 := (hseq hs).2 pk hcur
        exact ⟨c1, by rw [afterCheck_same _ _ (hseq hs).1, c2, h2], by rw [h2]; exact c3⟩
    rw [if_neg (by rintro ⟨h1, h2⟩; rw [(hpk h1).1] at h2; cases h2)]
    unfold ixRewrite
    have htk : ixAltTaken cfg { f with readDone := false } true area = ixAltTaken cfg f true area := rfl
    rw [htk]
    by_cases htaken : ixAltTaken cfg f true area = true
    · rw [if_pos htaken]
      simp only [Option.map_some]
      refine ⟨_, _, _, rfl, .rewriteTaken area hu ((altTaken_iff ht true area).mp htaken), ht, ?_⟩
      exact ⟨hr.null, hr.size, hr.eof, hr.bof, hr.lastKey, rfl, posRel_congr _ _ hr.pos rfl rfl rfl rfl rfl⟩
    · rw [if_neg htaken]
      have htaken' : ¬ A.Taken cfg (some (cfg.keyOf 0 area)) area := fun hx => htaken ((altTaken_iff ht true area).mpr hx)
      have hpkey : (if cfg.access = .sequential then ixAfterCheck cfg f.curKey area else cfg.keyOf 0 area) = cfg.keyOf 0 area := by
        split
        · rename_i hs; exact (hpk hs).2.1
        · rfl
      unfold ixDeleteInt
      simp only [hpkey]
      rw [getRec_eq ht]
      cases hold : A.recs (cfg.keyOf 0 area) with
      | none =>
        have hns : cfg.access ≠ .sequential := by
          intro hs
          have := (hpk hs).2.2
          rw [hold] at this
          cases this
        simp only [hns, if_false, Option.map_some]
        rw [if_pos (by decide)]
        refine ⟨_, _, _, rfl, .rewriteMissing area hu htaken' hold, ht, ?_⟩
        exact ⟨hr.null, hr.size, hr.eof, hr.bof, hr.lastKey, rfl, posRel_congr _ _ hr.pos rfl rfl rfl rfl rfl⟩
      | some old =>
        simp only [Option.map_some, ne_eq, not_true_eq_false, if_false]
        unfold ixWriteInt
        simp only [Bool.true_eq_false, false_and, if_false]
        have hdel := delete_trees (f := f) ht (cfg.keyOf 0 area) old area hold
        have hget : getRec (f.db0.filter fun p => p.1 != cfg.keyOf 0 area) (cfg.keyOf 0 area) = none := by
          rw [getRec_eq hdel]
          simp [IxAbs.del]
        rw [hget]
        simp only [Option.isSome_none, Bool.false_eq_true, if_false]
        -- the indexes without the record
        have hwo : ∀ i, 0 < i → i < cfg.keys.length → cfg.keyOf i old ≠ cfg.keyOf i area →
            Without cfg A i (cfg.keyOf 0 area) (ixDelAlts cfg true (cfg.keyOf 0 area) old area f.alts i) := fun i h0 hi hne =>
          alt_del ht i h0 hi _ old hold true area (by simp [hne])
        have hkeep : ∀ i, cfg.keyOf i old = cfg.keyOf i area →
            ixDelAlts cfg true (cfg.keyOf 0 area) old area f.alts i = f.alts i := by
          intro i he
          unfold ixDelAlts
          simp only [he, and_self, if_true]
          split <;> rfl
        have huniq : ∀ i, 0 < i → i < cfg.keys.length → cfg.keyOf i old ≠ cfg.keyOf i area → (cfg.key i).dups = false →
            ∀ e ∈ ixDelAlts cfg true (cfg.keyOf 0 area) old area f.alts i, e.key ≠ cfg.keyOf i area := by
          intro i h0 hi hne hd e he hk
          obtain ⟨hp, r, h1, h2, h3⟩ := ((hwo i h0 hi hne).2 e).mp he
          exact htaken' ⟨i, h0, hi, hd, e.pk, r, h1, by rw [h2, hk], by simpa using fun h => hp h.symm⟩
        rw [putAlts_eq cfg (fun i => cfg.keyOf i old == cfg.keyOf i area) area (List.range cfg.keys.length) _ List.nodup_range (by
          intro i hi h0 hs hd
          exact huniq i (by omega) (List.mem_range.mp hi) (by simpa using hs) hd)]
        simp only [if_true]
        let new : Nat → Nat := fun i => if cfg.keyOf i old = cfg.keyOf i area then A.num i (cfg.keyOf 0 area)
          else if 0 < i ∧ (cfg.key i).dups = true then
            ixDupno (ixDelAlts cfg true (cfg.keyOf 0 area) old area f.alts i) (cfg.keyOf i area) else 0
        have hput : ∀ i (h0 : 0 < i) (hi : i < cfg.keys.length) (hne : cfg.keyOf i old ≠ cfg.keyOf i area), _ := fun i h0 hi hne =>
          alt_put i (cfg.keyOf 0 area) (cfg.keyOf i area) _ (hwo i h0 hi hne)
            (if (cfg.key i).dups = true then
              ixDupno (ixDelAlts cfg true (cfg.keyOf 0 area) old area f.alts i) (cfg.keyOf i area) else 0)
            (fun hd => by rw [if_pos hd]) (fun hd => ⟨by rw [if_neg (by simp [hd])], huniq i h0 hi hne hd⟩) (area.take A.size)
            (keyOf_take hc i hi area A.size hsz.1) new (by simp only [new, if_neg hne, h0, true_and])
        have hold0 : cfg.keyOf 0 old = cfg.keyOf 0 area := (ht.wf _ _ hold).1
        refine ⟨_, _, _, rfl, .rewrite area old new hu htaken' hold ?_, ?_, ?_⟩
        · intro i
          by_cases he : cfg.keyOf i old = cfg.keyOf i area
          · rw [if_pos he]
            simp only [new, if_pos he]
          · rw [if_neg he]
            by_cases hd : 0 < i ∧ (cfg.key i).dups = true
            · rw [if_pos hd]
              have hi : i < cfg.keys.length := by
                by_contra hi
                have := key_beyond (cfg := cfg) i (by omega)
                rw [hd.2] at this
                cases this
              have := (hput i hd.1 hi he).2 hd.2
              simp only [new, if_neg he, if_pos hd]
              rwa [if_pos hd.2] at this
            · rw [if_neg hd]
              simp only [new, if_neg he, if_neg hd]
        · simp only
          rw [hr.size]
          refine put_trees hc ht area A.size hlen hsz _ hdel.sorted0 ?_ _ _ ?_ ?_
          · intro k r
            rw [List.mem_filter, ht.mem0]
            simp [and_comm]
          · intro i hd
            by_cases he : cfg.keyOf i old = cfg.keyOf i area
            · simp only [new, if_pos he]
              exact ht.num0 i _ hd (by simp [hold])
            · simp only [new, if_neg he, if_neg hd]
          · intro i h0 hi
            by_cases he : cfg.keyOf i old = cfg.keyOf i area
            · rw [if_neg (by simp [he]), hkeep i he]
              refine ⟨ht.sorted i h0 hi, fun e => ?_⟩
              rw [ht.mem i h0 hi e]
              unfold IxAbs.put
              simp only
              by_cases hp : e.pk = cfg.keyOf 0 area
              · simp only [hp, hold, Option.some.injEq, exists_eq_left', if_true, new, if_pos he,
                  keyOf_take hc i hi area A.size hsz.1, he]
              · simp only [if_neg hp]
            · rw [if_pos ⟨List.mem_range.mpr hi, by omega, by simpa using he⟩]
              exact (hput i h0 hi he).1
        · exact ⟨fun h => absurd h (by simp), hr.size, hr.eof, hr.bof, hr.lastKey, rfl, posRel_congr _ _ hr.pos rfl rfl rfl rfl rfl⟩

theorem arg_length (hc : cfg.Ok) (i : Nat) (hi : i < cfg.keys.length) (area : List Nat) (hlen : area.length = cfg.recMax) (len : Nat)
    (hl : len ≤ (cfg.key i).len) : ((area.drop (cfg.key i).off).take len).length = len := by
  have h1 := hc.inside i hi
  have h2 := hc.lengths
  rw [List.length_take, List.length_drop]
  omega

theorem finds_has (i : Nat) (cond : StartCond) (arg k : List Nat) (n : Nat) (pk : List Nat)
    (h : A.Finds cfg i cond arg (some (k, n, pk))) : A.Has cfg i k n pk := by
  cases cond <;> exact h.1

theorem start_step (hc : cfg.Ok) (h : IxRel cfg f A) (cond : StartCond) (off len : Nat) (area : List Nat)
    (hal : IxAllowed cfg A (.start cond off len area)) :
    ∃ out g B, ixStep cfg f (.start cond off len area) = some (out, g) ∧ IxDoes cfg A (.start cond off len area) out B ∧
      IxRel cfg g B := by
  obtain ⟨ht, hr⟩ := h
  obtain ⟨hlen, i, hi, rfl, hl, hle⟩ := hal
  have ha := arg_length hc i hi area hlen len hl
  have hs := start_sim (f := { f with readDone := false, firstRead := 0 }) (A := A) hc ht cond i hi
    ((area.drop (cfg.key i).off).take len) (by rw [ha]; exact hl) (fun he => by rw [ha]; exact hle he)
  unfold ixStep
  simp only
  rcases hs with ⟨h1, h2⟩ | ⟨k, n, pk, r, h1, h2, h3⟩
  · rw [h2]
    simp only
    rw [if_neg (by decide)]
    refine ⟨_, _, _, rfl, .startMissing cond i len area hi h1, ht, ?_⟩
    exact ⟨hr.null, hr.size, hr.eof, hr.bof, hr.lastKey, rfl, trivial⟩
  · rw [h3]
    rw [if_pos rfl]
    obtain ⟨a1, a2, a3, a4, a5, a6, a7, a8, a9, a10, a11, a12, a13⟩ := arrive_at
      (f := IxFile.mk f.db0 f.alts i f.lastRead f.lastPrim f.lastDup f.lastKey f.dataNull f.curKey f.size false f.eof f.bof 0)
      ht i hi rfl k n pk (finds_has i cond _ k n pk h1)
    refine ⟨_, _, _, rfl, .start cond i len area k n pk hi h1, ?_, ?_⟩
    · simp only [a6, a7]
      exact ht
    · refine ⟨fun hx => ?_, ?_, rfl, rfl, ?_, ?_, ?_⟩
      · simp only [a5] at hx; cases hx
      · simp only [a10]; exact hr.size
      · simp only [a8]; exact hr.lastKey
      · simp only [a13]
      · exact ⟨a1, a2, a3, rfl⟩

theorem read_step (hc : cfg.Ok) (h : IxRel cfg f A) (off len : Nat) (area : List Nat)
    (hal : IxAllowed cfg A (.read off len area)) :
    ∃ out g B, ixStep cfg f (.read off len area) = some (out, g) ∧ IxDoes cfg A (.read off len area) out B ∧
      IxRel cfg g B := by
  obtain ⟨ht, hr⟩ := h
  obtain ⟨hlen, i, hi, rfl, hl⟩ := hal
  have ha := arg_length hc i hi area hlen len hl
  have hs := start_sim (f := { f with readDone := false }) (A := A) hc ht .eq i hi
    ((area.drop (cfg.key i).off).take len) (by rw [ha]; exact hl) (fun he => by cases he)
  unfold ixStep
  simp only
  rcases hs with ⟨h1, h2⟩ | ⟨k, n, pk, r, h1, h2, h3⟩
  · rw [h2]
    unfold ixExReadEnd
    simp only
    rw [if_neg (by decide), if_neg (by decide)]
    refine ⟨_, _, _, rfl, .readMissing i len area hi h1, ht, ?_⟩
    exact ⟨hr.null, hr.size, hr.eof, hr.bof, hr.lastKey, rfl, trivial⟩
  · rw [h3]
    unfold ixExReadEnd
    simp only
    rw [if_pos trivial]
    obtain ⟨a1, a2, a3, a4, a5, a6, a7, a8, a9, a10, a11, a12, a13⟩ := arrive_at
      (f := IxFile.mk f.db0 f.alts i f.lastRead f.lastPrim f.lastDup f.lastKey f.dataNull f.curKey f.size false f.eof f.bof f.firstRead)
      ht i hi rfl k n pk (finds_has i .eq _ k n pk h1)
    refine ⟨_, _, _, rfl, .read i len area k n pk r hi h1 h2, ?_, ?_⟩
    · simp only [a6, a7]
      exact ht
    · refine ⟨fun hx => ?_, ?_, rfl, rfl, ?_, ?_, ?_⟩
      · simp only [a5] at hx; cases hx
      · exact rfl
      · simp only [a8]; exact hr.lastKey
      · exact ⟨rfl, a4, by simp [h2]⟩
      · exact ⟨a1, rfl⟩

theorem next_step (h : IxRel cfg f A) (hal : A.pos ≠ .undef) :
    ∃ out g B, ixStep cfg f .next = some (out, g) ∧ IxDoes cfg A .next out B ∧ IxRel cfg g B := by
  obtain ⟨ht, hr⟩ := h
  have hr' : IxRegs cfg { f with readDone := false } { A with cur := none } :=
    ⟨hr.null, hr.size, hr.eof, hr.bof, hr.lastKey, rfl, posRel_congr _ _ hr.pos rfl rfl rfl rfl rfl⟩
  unfold ixStep
  simp only
  by_cases he : f.eof = true
  · rw [if_pos he]
    exact ⟨_, _, _, rfl, .nextAfterEnd (hr.eof ▸ he), ht, hr'⟩
  · rw [if_neg he]
    have he : f.eof = false := by simpa using he
    unfold ixExReadEnd
    rcases readNext_sim (f := { f with readDone := false }) (A := { A with cur := none }) ht hr' false hal with
      ⟨i, h1, h2⟩ | ⟨i, k, n, pk, r, g, h1, h2, h3, h4, h5, h6, h7, h8, h9⟩
    · rw [h2]
      simp only
      rw [if_neg (by decide)]
      refine ⟨_, _, _, rfl, .nextEnd i (hr.eof ▸ he) h1, ht, ?_⟩
      exact ⟨hr.null, hr.size, rfl, hr.bof, hr.lastKey, rfl, posRel_congr _ _ hr.pos rfl rfl rfl rfl rfl⟩
    · rw [h3]
      simp only
      rw [if_pos trivial]
      refine ⟨_, _, _, rfl, .next i k n pk r (hr.eof ▸ he) h1 h2, ?_, ?_⟩
      · simp only [h7, h8]; exact ht
      · refine ⟨fun hx => ?_, rfl, rfl, rfl, ?_, ⟨rfl, h5, by simp [show A.recs pk = some r from h2]⟩, ⟨h4, rfl⟩⟩
        · simp only [h6] at hx; cases hx
        · simp only [h9]; exact hr.lastKey

theorem prev_step (h : IxRel cfg f A) (hal : A.pos ≠ .undef) :
    ∃ out g B, ixStep cfg f .prev = some (out, g) ∧ IxDoes cfg A .prev out B ∧ IxRel cfg g B := by
  obtain ⟨ht, hr⟩ := h
  have hr' : IxRegs cfg { f with readDone := false } { A with cur := none } :=
    ⟨hr.null, hr.size, hr.eof, hr.bof, hr.lastKey, rfl, posRel_congr _ _ hr.pos rfl rfl rfl rfl rfl⟩
  unfold ixStep
  simp only
  by_cases he : f.bof = true
  · rw [if_pos he]
    exact ⟨_, _, _, rfl, .prevAfterEnd (hr.bof ▸ he), ht, hr'⟩
  · rw [if_neg he]
    have he : f.bof = false := by simpa using he
    unfold ixExReadEnd
    rcases readNext_sim (f := { f with readDone := false }) (A := { A with cur := none }) ht hr' true hal with
      ⟨i, h1, h2⟩ | ⟨i, k, n, pk, r, g, h1, h2, h3, h4, h5, h6, h7, h8, h9⟩
    · rw [h2]
      simp only
      rw [if_neg (by decide)]
      refine ⟨_, _, _, rfl, .prevEnd i (hr.bof ▸ he) h1, ht, ?_⟩
      exact ⟨hr.null, hr.size, hr.eof, rfl, hr.lastKey, rfl, posRel_congr _ _ hr.pos rfl rfl rfl rfl rfl⟩
    · rw [h3]
      simp only
      rw [if_pos trivial]
      refine ⟨_, _, _, rfl, .prev i k n pk r (hr.bof ▸ he) h1 h2, ?_, ?_⟩
      · simp only [h7, h8]; exact ht
      · refine ⟨fun hx => ?_, rfl, rfl, rfl, ?_, ⟨rfl, h5, by simp [show A.recs pk = some r from h2]⟩, ⟨h4, rfl⟩⟩
        · simp only [h6] at hx; cases hx
        · simp only [h9]; exact hr.lastKey

/-- OPEN. -/
theorem open_rel (hc : cfg.Ok) (db0 : List (List Nat × List Nat)) (alts : Nat → List IxEnt)
    (ht : IxTrees cfg db0 alts A.recs A.num) (size : Nat) (hsz : size = A.size) :
    ∃ p, A.Opened cfg p ∧
      IxRel cfg (ixOpen cfg db0 alts size) { A with cur := none, pos := p, eof := false, bof := false, lastW := none } := by
  unfold ixOpen
  cases db0 with
  | nil =>
    refine ⟨.found true 0 (List.replicate (cfg.key 0).len 0) 0 (List.replicate (cfg.key 0).len 0),
      ⟨_, rfl, Or.inl ⟨tree_nil ht rfl, rfl⟩⟩, ht, ?_⟩
    exact ⟨fun _ => rfl, hsz, rfl, rfl, rfl, rfl,
      ⟨⟨rfl, hc.nonempty, rfl, fun _ => rfl, fun h => absurd h.1 (by omega)⟩, fun _ => rfl, fun h => absurd h (by omega), rfl⟩⟩
  | cons p db0 =>
    have h1 := ht.sorted0
    rw [List.pairwise_cons] at h1
    refine ⟨.found true 0 p.1 0 p.1, ⟨p.1, rfl, Or.inr ⟨⟨p.2, (ht.mem0 p.1 p.2).mp (by simp)⟩, ?_⟩⟩, ht, ?_⟩
    · intro pk r hr hlt
      rcases List.mem_cons.mp ((ht.mem0 pk r).mpr hr) with h | h
      · rw [← h] at hlt; exact lt_irrefl _ hlt
      · exact asymm (h1.1 _ h) hlt
    · exact ⟨fun h => by simp at h, hsz, rfl, rfl, rfl, rfl,
        ⟨⟨rfl, hc.nonempty, by simp [setAt], fun _ => rfl, fun h => absurd h.1 (by omega)⟩, fun _ => rfl, fun h => absurd h (by omega), rfl⟩⟩

theorem ix_step (hc : cfg.Ok) (h : IxRel cfg f A) (op : IxOp) (hal : IxAllowed cfg A op) :
    ∃ out g B, ixStep cfg f op = some (out, g) ∧ IxDoes cfg A op out B ∧ IxRel cfg g B := by
  cases op with
  | write area len => exact write_step hc h area len hal
  | rewrite area => exact rewrite_step hc h area hal
  | delete area => exact delete_step h area
  | start cond off len area => exact start_step hc h cond off len area hal
  | read off len area => exact read_step hc h off len area hal
  | next => exact next_step h hal
  | prev => exact prev_step h hal
  | reopen =>
    obtain ⟨p, h1, h2⟩ := open_rel (A := A) hc f.db0 f.alts h.1 f.size h.2.size
    exact ⟨_, _, _, rfl, .reopen p h1, h2⟩

theorem ix_run (hc : cfg.Ok) (ops : List IxOp) : ∀ (f : IxFile) (A : IxAbs), IxRel cfg f A → IxLegal cfg A ops →
    ∃ outs g B, ixRun cfg f ops = some (outs, g) ∧ IxDo cfg A ops outs B ∧ IxRel cfg g B := by
  induction ops with
  | nil => exact fun f A h _ => ⟨[], f, A, rfl, .nil A, h⟩
  | cons op ops ih =>
    intro f A h hl
    obtain ⟨out, g, B, h1, h2, h3⟩ := ix_step hc h op hl.1
    obtain ⟨outs, g', C, h4, h5, h6⟩ := ih g B h3 (hl.2 out B h2)
    refine ⟨out :: outs, g', C, ?_, .cons A B C op out ops outs h2 h5, h6⟩
    unfold ixRun
    rw [h1]
    simp only [Option.bind_some, h4, Option.map_some]

theorem new_rel (hc : cfg.Ok) : IxRel cfg (ixNew cfg) (IxAbs.empty cfg) := by
  refine ⟨⟨List.Pairwise.nil, by simp [ixNew, ixOpen, IxAbs.empty], by simp [IxAbs.empty], fun _ _ _ => List.Pairwise.nil,
    by simp [ixNew, ixOpen, IxAbs.empty], by simp [IxAbs.empty]⟩, ?_⟩
  exact ⟨fun _ => rfl, rfl, rfl, rfl, rfl, rfl,
    ⟨⟨rfl, hc.nonempty, rfl, fun _ => rfl, fun h => absurd h.1 (by omega)⟩, fun _ => rfl, fun h => absurd h (by omega), rfl⟩⟩

end Cob
