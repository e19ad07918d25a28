import Verif.Cobc.PictureProps
/-
C43: the PICTURE strings the compiler accepts.
-/
namespace Cob

theorem step_accept (env : EditEnv) (he : PicEnvOk env) (cat0 : PicBits) (st : PicSt) (b : List Nat) (c n : Nat) (rest : List Nat)
    (hn : 0 < n) (hi : PInv env cat0 st b) (h67 : 67 ∉ b) (h80 : 80 ∉ b) (hlen : b.length + n < 536870912)
    (hleg : picLegal env c) (hc80 : c ≠ 80) (hS : 83 ∈ b → c = 57 ∨ c = 86) (h83 : c = 83 → b = [] ∧ n = 1)
    (hA : cat0.a = true → c ∈ [65, 88, 57, 48, 66, 47])
    (hpt : picPointSym env c = true → b.countP (picPointSym env) + n ≤ 1)
    (hC : c = 67 → rest = [82]) (hD : c = 68 → rest = [66]) : ∃ st' rest', picStep env st c n rest = some (st', rest') := by
  have hcat : st.cat = cat0 := by rw [hi.cat, if_neg h67]
  have hp : st.pSeen = false := by
    rw [← Bool.not_eq_true, hi.pSeen]; exact h80
  have hs : ¬ (c = 57 ∨ c = 86) → (st.sSeen || st.pSeen) = false := by
    intro h
    rw [hp, Bool.or_false, ← Bool.not_eq_true, hi.sSeen]
    intro h2
    exact h (hS h2)
  have hv := hi.vNoP h80
  have ha : c ∉ [65, 88, 57, 48, 66, 47] → st.cat.a = false := by
    intro h
    rw [hcat, ← Bool.not_eq_true]
    exact fun h2 => h (hA h2)
  rw [picStep]
  by_cases e83 : c = 83
  · obtain ⟨rfl, rfl⟩ := h83 e83
    subst e83
    rw [if_pos rfl, if_neg (by rw [ha (by simp)]; simp)]
    have h1 := hi.sPos
    simp only [List.length_nil] at h1
    have h2 : st.buff = [] := by
      have h3 := hi.buff
      have h4 := hi.buffPos
      cases hb : st.buff with
      | nil => rfl
      | cons p l =>
        rw [hb] at h3 h4
        have := h4 p (by simp)
        rw [List.flatMap_cons] at h3
        have h5 : List.replicate p.2.toNat p.1 = [] := (List.append_eq_nil_iff.1 h3).1
        have := congrArg List.length h5
        simp at this
        omega
    rw [if_neg]
    · exact ⟨_, _, rfl⟩
    rw [wrap32_id (by omega) (by omega)]
    rintro (h | h)
    · omega
    · exact h h2
  rw [if_neg e83]
  suffices h : ∃ r, picSym env st c n rest = some r by
    obtain ⟨⟨r1, r2⟩, h⟩ := h
    rw [h]
    exact ⟨_, _, rfl⟩
  rw [picSym]
  simp only
  by_cases e1 : c = 65 ∨ c = 88
  · rw [if_pos e1, if_neg (by rw [hs (by omega)]; simp)]; exact ⟨_, rfl⟩
  rw [if_neg e1]
  by_cases e2 : c = 57
  · rw [if_pos e2]; exact ⟨_, rfl⟩
  rw [if_neg e2]
  by_cases e3 : c = 78
  · rw [if_pos e3, if_neg (by rw [hs (by omega)]; simp)]; exact ⟨_, rfl⟩
  rw [if_neg e3]
  by_cases e4 : c = 44 ∨ c = 46 ∨ c = 86
  · rw [if_pos e4]
    rw [if_neg (by
      rintro ⟨h1, h2⟩
      rw [hs (by omega)] at h2
      simp at h2)]
    split
    · exact ⟨_, rfl⟩
    rename_i h5
    have hpc : picPointSym env c = true := by
      simp only [picPointSym, Bool.or_eq_true, beq_iff_eq]; omega
    have hp1 := hpt hpc
    rw [if_neg (by rw [ha (by simp; omega)]; simp), wrap32_id (by omega) (by omega), if_neg (by omega)]
    exact ⟨_, rfl⟩
  rw [if_neg e4, if_neg hc80]
  by_cases e5 : c = 48 ∨ c = 66 ∨ c = 47
  · rw [if_pos e5, if_neg (by rw [hs (by omega)]; simp)]; exact ⟨_, rfl⟩
  rw [if_neg e5]
  by_cases e6 : c = 42 ∨ c = 90
  · rw [if_pos e6, if_neg (by rw [ha (by simp; omega)]; simp), if_neg (by rw [hs (by omega)]; simp)]; exact ⟨_, rfl⟩
  rw [if_neg e6]
  by_cases e7 : c = 43 ∨ c = 45
  · rw [if_pos e7, if_neg (by rw [ha (by simp; omega)]; simp), if_neg (by rw [hs (by omega)]; simp)]; exact ⟨_, rfl⟩
  rw [if_neg e7]
  by_cases e8 : c = 67
  · rw [if_pos e8, if_neg (by rw [hC e8]; simp), if_neg (by rw [hs (by omega)]; simp)]; exact ⟨_, rfl⟩
  rw [if_neg e8]
  by_cases e9 : c = 68
  · rw [if_pos e9, if_neg (by rw [hD e9]; simp), if_neg (by rw [hs (by omega)]; simp)]; exact ⟨_, rfl⟩
  rw [if_neg e9]
  by_cases e10 : c = env.cur
  · rw [if_pos e10]; split <;> exact ⟨_, rfl⟩
  · rcases hleg with h | h
    · simp only [List.mem_cons, List.not_mem_nil, or_false] at h
      omega
    · exact absurd h e10

/-- What the loop needs of the whole expansion. -/
structure LoopOk (env : EditEnv) (cat0 : PicBits) (cs tail : List Nat) : Prop where
  syms : ∀ c ∈ cs, c ∈ [65, 88, 57, 78, 83, 44, 46, 86, 48, 66, 47, 42, 90, 43, 45] ∨ c = env.cur
  ending : tail = [] ∨ tail = [67, 82] ∨ tail = [68, 66]
  sign : 83 ∈ cs → tail = [] ∧ ∃ r, cs = 83 :: r ∧ ∀ c ∈ r, c = 57 ∨ c = 86
  letters : cat0.a = true → ∀ c ∈ cs ++ tail, c ∈ [65, 88, 57, 48, 66, 47]
  point : cs.countP (picPointSym env) ≤ 1
  len : (cs ++ tail).length < 536870912

theorem prefix_cases {b cs tail : List Nat} {c : Nat} {n : Nat} (hb : b <+: cs) (h : b ++ List.replicate n c <+: cs ++ tail)
    (hc : tail.head? ≠ some c) : b ++ List.replicate n c <+: cs := by
  rcases List.prefix_or_prefix_of_prefix h (List.prefix_append cs tail) with h1 | h1
  · exact h1
  · obtain ⟨t, ht⟩ := h1
    cases t with
    | nil => rw [List.append_nil] at ht; rw [← ht]; exact List.prefix_refl _
    | cons x t =>
      exfalso
      obtain ⟨u, rfl⟩ := hb
      rw [List.append_assoc] at ht
      have h2 := List.append_cancel_left ht
      have hx : x = c := List.eq_of_mem_replicate (n := n) (h2 ▸ (by simp))
      obtain ⟨w, hw⟩ := h
      rw [← h2] at hw
      simp only [List.append_assoc] at hw
      have h3 := List.append_cancel_left (List.append_cancel_left hw)
      apply hc
      rw [← h3, hx]
      simp

theorem loop_accept (env : EditEnv) (he : PicEnvOk env) (cat0 : PicBits) (cs tail : List Nat) (hok : LoopOk env cat0 cs tail)
    (fuel : Nat) : ∀ (st : PicSt) (b s : List Nat), PInv env cat0 st b → b <+: cs → s.length ≤ fuel →
      (tail ≠ [] → tail <:+ s) → s.head? ≠ some 40 → expandStr b none s = some (cs ++ tail) →
      ∃ st', picLoop env fuel st s = some st' := by
  have hcur : ∀ d ∈ [0, 40, 41, 42, 43, 44, 45, 46, 47, 48, 57, 65, 66, 67, 68, 78, 80, 82, 83, 86, 88, 90], ¬ d = env.cur :=
    fun d hd hh => he.2 (hh ▸ hd)
  have hcs : ∀ d ∈ cs, d ≠ 67 ∧ d ≠ 68 ∧ d ≠ 80 ∧ d ≠ 82 ∧ d ≠ 40 ∧ d ≠ 41 ∧ picLegal env d := by
    intro d hd
    rcases hok.syms d hd with h | h
    · refine ⟨?_, ?_, ?_, ?_, ?_, ?_, ?_⟩
      any_goals (rintro rfl; simp at h; done)
      left
      simp only [List.mem_cons, List.not_mem_nil, or_false] at h ⊢
      omega
    · have := fun x hx => hcur x hx
      refine ⟨?_, ?_, ?_, ?_, ?_, ?_, Or.inr h⟩ <;> (intro h2; rw [h] at h2)
      · exact hcur 67 (by simp) h2.symm
      · exact hcur 68 (by simp) h2.symm
      · exact hcur 80 (by simp) h2.symm
      · exact hcur 82 (by simp) h2.symm
      · exact hcur 40 (by simp) h2.symm
      · exact hcur 41 (by simp) h2.symm
  have hc67 : cs.count 67 = 0 := List.count_eq_zero.2 (fun h => (hcs _ h).1 rfl)
  have hc68 : cs.count 68 = 0 := List.count_eq_zero.2 (fun h => (hcs _ h).2.1 rfl)
  have hlen := hok.len
  induction fuel with
  | zero =>
    intro st b s hi hb hf ht hh hx
    cases s with
    | nil => exact ⟨st, rfl⟩
    | cons c s => simp at hf
  | succ fuel ih =>
    intro st b s hi hb hf ht hh hx
    cases s with
    | nil => exact ⟨st, rfl⟩
    | cons c s =>
      have hb67 : 67 ∉ b := fun h => (hcs _ (hb.subset h)).1 rfl
      have hb68 : 68 ∉ b := fun h => (hcs _ (hb.subset h)).2.1 rfl
      have hb80 : 80 ∉ b := fun h => (hcs _ (hb.subset h)).2.2.1 rfl
      have hc41 : c ≠ 41 := by
        rintro rfl
        rw [expandStr] at hx
        simp at hx
      rw [picLoop]
      have h40 : c ≠ 40 := by rintro rfl; simp at hh
      simp only [List.length_cons] at hf
      rw [expand_cons _ _ _ h40 hc41] at hx
      by_cases hct : tail.head? = some c
      · -- CR or DB
        obtain ⟨y, htl, hy⟩ : ∃ y, tail = [c, y] ∧ ((c = 67 ∧ y = 82) ∨ (c = 68 ∧ y = 66)) := by
          rcases hok.ending with h | h | h
          · rw [h] at hct; simp at hct
          · rw [h] at hct
            have : 67 = c := by simpa using hct
            exact ⟨82, by rw [h, this], Or.inl ⟨this.symm, rfl⟩⟩
          · rw [h] at hct
            have : 68 = c := by simpa using hct
            exact ⟨66, by rw [h, this], Or.inr ⟨this.symm, rfl⟩⟩
        have hsuf := ht (by rw [htl]; simp)
        have hcnt := expand_count c (by omega) h40 hc41 s _ _ _ hx
        have hE1 : (cs ++ tail).count c = 1 := by
          rw [List.count_append, htl]
          rcases hy with ⟨rfl, rfl⟩ | ⟨rfl, rfl⟩
          · rw [hc67]; rfl
          · rw [hc68]; rfl
        have hs : s = [y] := by
          obtain ⟨t, ht⟩ := hsuf
          rw [htl] at ht
          cases t with
          | nil => simpa using ht.symm
          | cons z t =>
            exfalso
            simp only [List.cons_append, List.cons.injEq] at ht
            rw [← ht.2] at hcnt
            rw [hE1] at hcnt
            simp [List.count_append] at hcnt
            omega
        subst hs
        have hrep : picRepeat ([y].length + 1) c 1 [y] = some (1, [y]) := by
          rcases hy with ⟨rfl, rfl⟩ | ⟨rfl, rfl⟩ <;> rfl
        rw [hrep, Option.bind_some]
        simp only
        have hlb := hb.length_le
        have hl2 : tail.length = 2 := by rw [htl]; rfl
        simp only [List.length_append] at hlen
        obtain ⟨st1, r1, hst⟩ := step_accept env he cat0 st b c 1 [y] (by omega) hi hb67 hb80 (by omega)
          (by rcases hy with ⟨rfl, rfl⟩ | ⟨rfl, rfl⟩ <;> (left; simp)) (by omega)
          (fun h => absurd ((hok.sign (hb.subset h)).1) (by rw [htl]; simp)) (by omega)
          (fun h => hok.letters h c (by rw [htl]; simp))
          (by
            intro h
            have hdp := he.1
            simp only [picPointSym, Bool.or_eq_true, beq_iff_eq] at h
            omega)
          (by rintro rfl; rcases hy with ⟨_, rfl⟩ | ⟨h, _⟩ <;> simp at *) (by rintro rfl; rcases hy with ⟨h, _⟩ | ⟨_, rfl⟩ <;> simp at *)
        have hst' := hst
        rw [show ((1 : Nat) : Int) = 1 from rfl] at hst'
        rw [hst', Option.bind_some]
        obtain ⟨_, hc⟩ := step_inv env he cat0 st st1 b c 1 [y] r1 (by omega) (by omega) hi hb67 hb68 hst
        have : r1 = [] := by
          rcases hc with ⟨_, _, h⟩ | ⟨_, _, h⟩ | ⟨h1, h2, _⟩
          · exact h
          · exact h
          · omega
        subst this
        cases fuel <;> exact ⟨st1, rfl⟩
      · obtain ⟨k, rest, h1, h2, h3, h4, h5⟩ := picRepeat_spec c h40 hc41 (cs ++ tail) (by omega) (s.length + 1) s (b ++ [c]) 1 (by omega)
          (by simp) (by simp) (by omega) (by simp) hx
        rw [show ((1 : Nat) : Int) = 1 from rfl] at h1
        rw [h1, Option.bind_some]
        simp only
        have hacc : b ++ [c] ++ List.replicate k c = b ++ List.replicate (1 + k) c := by
          rw [List.append_assoc, Nat.add_comm 1 k, List.replicate_succ]; rfl
        rw [hacc] at h5
        have hpre := prefix_cases hb (expand_len _ _ _ _ h5).1 hct
        have hcc : c ∈ cs := hpre.subset (by simp)
        obtain ⟨q1, q2, q3, q4, q5, q6, q7⟩ := hcs c hcc
        have hle := hpre.length_le
        simp only [List.length_append, List.length_replicate] at hle hlen
        obtain ⟨st1, r1, hst⟩ := step_accept env he cat0 st b c (1 + k) rest (by omega) hi hb67 hb80 (by omega) q7 q3
          (by
            intro h83
            obtain ⟨_, r, hr, hr2⟩ := hok.sign (hb.subset h83)
            cases b with
            | nil => simp at h83
            | cons x b =>
              rw [hr] at hpre
              obtain ⟨w, hw⟩ := hpre
              simp only [List.cons_append, List.cons.injEq] at hw
              apply hr2
              rw [← hw.2]
              simp)
          (by
            rintro rfl
            obtain ⟨_, r, hr, hr2⟩ := hok.sign hcc
            rw [hr] at hpre
            have h83 : 83 ∉ r := fun h => by rcases hr2 _ h with h | h <;> omega
            obtain ⟨w, hw⟩ := hpre
            have hcw := congrArg (List.count 83) hw
            rw [List.count_append, count_rep] at hcw
            simp [List.count_eq_zero.2 h83] at hcw
            cases b with
            | nil => exact ⟨rfl, by omega⟩
            | cons x b =>
              simp only [List.cons_append, List.cons.injEq] at hw
              exfalso
              apply h83
              rw [← hw.2]
              simp)
          (fun h => hok.letters h c (by simp [hcc]))
          (by
            intro h
            have h6 := hpre.sublist.countP_le (p := picPointSym env)
            rw [countP_rep, if_pos h] at h6
            have := hok.point
            omega)
          (fun h => absurd h q1) (fun h => absurd h q2)
        have hst' := hst
        rw [hst', Option.bind_some]
        simp only
        obtain ⟨hi1, hc⟩ := step_inv env he cat0 st st1 b c (1 + k) rest r1 (by omega) (by omega) hi hb67 hb68 hst
        have : r1 = rest := by
          rcases hc with ⟨h, _, _⟩ | ⟨h, _, _⟩ | ⟨_, _, h⟩
          · exact absurd h q1
          · exact absurd h q2
          · exact h
        subst this
        refine ih st1 _ r1 hi1 hpre (by have := h2.length_le; omega) ?_ h4 h5
        intro htn
        have hts := ht htn
        have hl2 : tail.length = 2 := by
          rcases hok.ending with h | h | h
          · exact absurd h htn
          · rw [h]; rfl
          · rw [h]; rfl
        refine List.suffix_of_suffix_length_le hts (h2.trans (List.suffix_cons _ _)) ?_
        rw [hl2]
        match r1, h4, h5 with
        | [], _, h5 =>
          rw [expand_nil] at h5
          have := congrArg List.length (Option.some.inj h5)
          simp only [List.length_append, List.length_replicate] at this
          omega
        | [z], h4, h5 =>
          have z1 : z ≠ 40 := by rintro rfl; simp at h4
          have z2 : z ≠ 41 := by
            rintro rfl
            rw [expandStr] at h5
            simp at h5
          rw [expand_cons _ _ _ z1 z2, expand_nil] at h5
          have := congrArg List.length (Option.some.inj h5)
          simp only [List.length_append, List.length_replicate, List.length_singleton] at this
          omega
        | _ :: _ :: _, _, _ => simp

/-- The state at the end of a proper PICTURE. -/
theorem good_loop (env : EditEnv) (he : PicEnvOk env) (alpha sjis : Int) (str cs tail : List Nat)
    (hg : GoodPic env alpha sjis str cs tail) (hlen : (cs ++ tail).length < 536870912) :
    LoopOk env (guessCat env 0 {} str) cs tail ∧ str.head? ≠ some 40 := by
  have hdp := he.1
  have hcur : ∀ d ∈ [0, 40, 41, 42, 43, 44, 45, 46, 47, 48, 57, 65, 66, 67, 68, 78, 80, 82, 83, 86, 88, 90], ¬ d = env.cur :=
    fun d hd hh => he.2 (hh ▸ hd)
  have hcur2 : env.cur ≠ 40 ∧ env.cur ≠ 41 := ⟨fun h => hcur 40 (by simp) h.symm, fun h => hcur 41 (by simp) h.symm⟩
  refine ⟨⟨hg.syms, ?_, hg.sign, ?_, hg.point, hlen⟩, ?_⟩
  · rcases hg.ending with h | ⟨h | h, _⟩
    · exact Or.inl h
    · exact Or.inr (Or.inl h)
    · exact Or.inr (Or.inr h)
  · intro ha
    apply hg.letters
    have hgs := guess_spec env hcur2 str [] none (cs ++ tail) {} hg.expands (by simp)
    have h0 : picKinds env [] = {} := rfl
    simp only [if_true, h0, or_nil] at hgs
    rw [hgs, (or_bits _ _).1, (or_bits _ _).1] at ha
    rcases ha with h | h | h
    · obtain ⟨c, hc, h2⟩ := (kinds_iff env _).1.1 h
      have hcase : c = 65 ∨ c = 88 := by
        by_contra hh
        rw [not_or] at hh
        have : (guessSym env c []).a = false := by
          unfold guessSym
          rw [if_neg hh.1, if_neg hh.2]
          repeat' split
          all_goals rfl
        rw [this] at h2
        exact absurd h2 (by simp)
      rw [List.mem_append] at hc
      rcases hc with hc | hc
      · rcases hcase with rfl | rfl
        · exact Or.inl hc
        · exact Or.inr hc
      · exfalso
        rcases hg.ending with h | ⟨h | h, _⟩ <;> rw [h] at hc <;> simp at hc <;> omega
    · simp at h
    · unfold crdbBits at h; split at h <;> simp at h
  · intro h
    cases hs : str with
    | nil => rw [hs] at h; simp at h
    | cons x s =>
      rw [hs] at h
      have : x = 40 := by simpa using h
      subst this
      have := hg.expands
      rw [hs, expandStr] at this
      simp at this

/-- **C43** Every proper PICTURE string is accepted, however it is written. -/
theorem C43_accepts (env : EditEnv) (he : PicEnvOk env) (lim : PicLimits) (str cs tail : List Nat)
    (hg : GoodPic env lim.alpha lim.sjis str cs tail) (hlen : (cs ++ tail).length < 536870912) :
    ∃ p, buildPicture env lim str = some p := by
  have hdp := he.1
  have hcur : ∀ d ∈ [0, 40, 41, 42, 43, 44, 45, 46, 47, 48, 57, 65, 66, 67, 68, 78, 80, 82, 83, 86, 88, 90], ¬ d = env.cur :=
    fun d hd hh => he.2 (hh ▸ hd)
  obtain ⟨hok, h40⟩ := good_loop env he _ _ str cs tail hg hlen
  have hts : tail ≠ [] → tail <:+ str := by
    intro h
    rcases hg.ending with h2 | ⟨_, h2⟩
    · exact absurd h2 h
    · exact h2
  obtain ⟨st, hst⟩ := loop_accept env he _ cs tail hok str.length { cat := guessCat env 0 {} str } [] str (pinv_init env _)
    (List.nil_prefix) (Nat.le_refl _) hts h40 hg.expands
  obtain ⟨_, body, hi, hleg, hform⟩ := loop_inv env he _ (cs ++ tail) hlen st str.length _ [] str (pinv_init env _) (by simp) (by simp)
    (by simp) hg.expands hst
  have hcs : ∀ d ∈ cs, d ≠ 67 ∧ d ≠ 68 ∧ d ≠ 82 ∧ picLegal env d := by
    intro d hd
    rcases hg.syms d hd with h | h
    · refine ⟨?_, ?_, ?_, ?_⟩
      any_goals (rintro rfl; simp at h; done)
      left
      simp only [List.mem_cons, List.not_mem_nil, or_false] at h ⊢
      omega
    · refine ⟨?_, ?_, ?_, Or.inr h⟩ <;> (intro h2; rw [h] at h2)
      · exact hcur 67 (by simp) h2.symm
      · exact hcur 68 (by simp) h2.symm
      · exact hcur 82 (by simp) h2.symm
  have n67 : 67 ∉ cs := fun h => (hcs _ h).1 rfl
  have n68 : 68 ∉ cs := fun h => (hcs _ h).2.1 rfl
  have n82 : 82 ∉ cs := fun h => (hcs _ h).2.2.1 rfl
  -- `body` is `cs` and the first character of `tail`
  have hbody : (tail = [] ∧ body = cs) ∨ (tail = [67, 82] ∧ body = cs ++ [67]) ∨ (tail = [68, 66] ∧ body = cs ++ [68]) := by
    rcases hok.ending with h | h | h
    · left
      refine ⟨h, ?_⟩
      rw [h, List.append_nil] at hform
      rcases hform with ⟨h1, _, _⟩ | ⟨b0, n, hn, _, _, hb, h1⟩ | ⟨b0, n, hn, _, _, hb, h1⟩
      · exact h1.symm
      · exfalso; apply n82; rw [h1]; simp
      · exfalso; apply n68; rw [h1, hb]; simp [Nat.pos_iff_ne_zero.1 hn]
    · right; left
      refine ⟨h, ?_⟩
      rw [h] at hform
      rcases hform with ⟨h1, h2, _⟩ | ⟨b0, n, hn, _, _, hb, h1⟩ | ⟨b0, n, hn, _, _, hb, h1⟩
      · exfalso; apply h2; rw [← h1]; simp
      · rw [show cs ++ [67, 82] = (cs ++ [67]) ++ [82] by simp] at h1
        exact (List.append_cancel_right h1).symm
      · exfalso
        have := congrArg List.getLast? h1
        rw [List.getLast?_concat, show cs ++ [67, 82] = (cs ++ [67]) ++ [82] by simp, List.getLast?_concat] at this
        simp at this
    · right; right
      refine ⟨h, ?_⟩
      rw [h] at hform
      rcases hform with ⟨h1, _, h2⟩ | ⟨b0, n, hn, _, _, hb, h1⟩ | ⟨b0, n, hn, _, _, hb, h1⟩
      · exfalso; apply h2; rw [← h1]; simp
      · exfalso
        have := congrArg List.getLast? h1
        rw [List.getLast?_concat, show cs ++ [68, 66] = (cs ++ [68]) ++ [66] by simp, List.getLast?_concat] at this
        simp at this
      · rw [show cs ++ [68, 66] = (cs ++ [68]) ++ [66] by simp] at h1
        exact (List.append_cancel_right h1).symm
  have hmem : (67 ∈ body ↔ 67 ∈ cs ++ tail) ∧ (∀ c ∈ cs ++ tail, picLegal env c ∨ c = 82) ∧ (82 ∈ cs ++ tail → 67 ∈ cs ++ tail) ∧
      (68 ∈ cs ++ tail → [68, 66] <:+ str) := by
    rcases hbody with ⟨h, hb⟩ | ⟨h, hb⟩ | ⟨h, hb⟩
    · subst h hb
      refine ⟨by simp, ?_, ?_, ?_⟩
      · intro c hc; left; exact (hcs c (by simpa using hc)).2.2.2
      · intro h; exact absurd (by simpa using h) n82
      · intro h; exact absurd (by simpa using h) n68
    · subst h hb
      refine ⟨by simp, ?_, by simp, ?_⟩
      · intro c hc
        simp only [List.mem_append, List.mem_cons, List.not_mem_nil, or_false] at hc
        rcases hc with h | h | h
        · exact Or.inl (hcs c h).2.2.2
        · left; left; rw [h]; simp
        · exact Or.inr h
      · intro h
        simp only [List.mem_append, List.mem_cons, List.not_mem_nil, or_false] at h
        rcases h with h | h | h
        · exact absurd h n68
        · omega
        · omega
    · subst h hb
      refine ⟨by simp, ?_, ?_, fun _ => hts (by simp)⟩
      · intro c hc
        simp only [List.mem_append, List.mem_cons, List.not_mem_nil, or_false] at hc
        rcases hc with h | h | h
        · exact Or.inl (hcs c h).2.2.2
        · left; left; rw [h]; simp
        · left; left; rw [h]; simp
      · intro h
        simp only [List.mem_append, List.mem_cons, List.not_mem_nil, or_false] at h
        rcases h with h | h | h
        · exact absurd h n82
        · omega
        · omega
  obtain ⟨m1, m2, m3, m4⟩ := hmem
  have hcb := class_bits env he (cs ++ tail) st.cat (final_bits env he str _ hg.expands m4 st body hi m1) m2 m3
  -- the numbers
  have hnum : st.digits = picDigits env (cs ++ tail) ∧ (tail ≠ [68, 66] → st.charLen = picLen env (cs ++ tail)) ∧
      (st.charLen ≤ picLen env (cs ++ tail)) ∧ 0 ≤ st.charLen ∧ 0 < st.size := by
    have hsz : 0 < st.size := by
      have h0 : 0 < body.countP picByte := by
        obtain ⟨c, hc, c1, c2⟩ := hg.nonempty
        rw [List.countP_pos_iff]
        refine ⟨c, ?_, ?_⟩
        · rcases hbody with ⟨_, hb⟩ | ⟨_, hb⟩ | ⟨_, hb⟩ <;> rw [hb] <;> simp [hc]
        · have c3 : c ≠ 80 := by
            rintro rfl
            rcases hg.syms _ hc with h | h
            · simp at h
            · exact hcur 80 (by simp) h
          simp [picByte, c1, c2, c3]
      rw [hi.size]
      split <;> omega
    have e67 : ¬ env.cur = 67 := fun h => hcur 67 (by simp) h.symm
    have e68 : ¬ env.cur = 68 := fun h => hcur 68 (by simp) h.symm
    have e82 : ¬ env.cur = 82 := fun h => hcur 82 (by simp) h.symm
    have e66 : ¬ env.cur = 66 := fun h => hcur 66 (by simp) h.symm
    have hlenE : ∀ E, picLen env E = E.countP picChar + (E.countP picSignSym - 1) + (E.count env.cur - 1) := fun _ => rfl
    rw [hi.digits, hi.charLen, hlenE]
    unfold picDigits
    rcases hbody with ⟨h, hb⟩ | ⟨h, hb⟩ | ⟨h, hb⟩
    · subst h hb
      rw [List.append_nil]
      refine ⟨by omega, fun _ => by omega, by omega, by omega, hsz⟩
    · subst h hb
      have f1 : (cs ++ [67]).countP picPlace = cs.countP picPlace ∧ (cs ++ [67, 82]).countP picPlace = cs.countP picPlace := by
        simp [List.countP_append, picPlace]
      have f2 : (cs ++ [67]).countP picSignSym = cs.countP picSignSym ∧ (cs ++ [67, 82]).countP picSignSym = cs.countP picSignSym := by
        simp [List.countP_append, picSignSym]
      have f3 : (cs ++ [67]).countP picChar = cs.countP picChar ∧ (cs ++ [67, 82]).countP picChar = cs.countP picChar := by
        simp [List.countP_append, picChar, picPlace, picInsert]
      have f4 : (cs ++ [67]).count env.cur = cs.count env.cur ∧ (cs ++ [67, 82]).count env.cur = cs.count env.cur := by
        simp [List.count_append, List.count_cons, Ne.symm e67, Ne.symm e82]
      rw [f1.1, f1.2, f2.1, f2.2, f3.1, f3.2, f4.1, f4.2]
      refine ⟨by omega, fun _ => by omega, by omega, by omega, hsz⟩
    · subst h hb
      have f1 : (cs ++ [68]).countP picPlace = cs.countP picPlace ∧ (cs ++ [68, 66]).countP picPlace = cs.countP picPlace := by
        simp [List.countP_append, picPlace]
      have f2 : (cs ++ [68]).countP picSignSym = cs.countP picSignSym ∧ (cs ++ [68, 66]).countP picSignSym = cs.countP picSignSym := by
        simp [List.countP_append, picSignSym]
      have f3 : (cs ++ [68]).countP picChar = cs.countP picChar ∧ (cs ++ [68, 66]).countP picChar = cs.countP picChar + 1 := by
        simp [List.countP_append, picChar, picPlace, picInsert]
      have f4 : (cs ++ [68]).count env.cur = cs.count env.cur ∧ (cs ++ [68, 66]).count env.cur = cs.count env.cur := by
        simp [List.count_append, List.count_cons, Ne.symm e68, Ne.symm e66]
      rw [f1.1, f1.2, f2.1, f2.2, f3.1, f3.2, f4.1, f4.2]
      refine ⟨by omega, fun h => absurd rfl h, by omega, by omega, hsz⟩
  obtain ⟨u1, u2, u3, u4, u5⟩ := hnum
  unfold buildPicture
  have hsh := hg.short
  rw [if_neg (by omega), hst, Option.bind_some, if_neg (by omega)]
  suffices h : ∃ cat, picCategory lim st = some cat by
    obtain ⟨cat, h⟩ := h
    rw [h]
    exact ⟨_, rfl⟩
  have hne : cs ++ tail ≠ [] := by
    obtain ⟨c, hc, _⟩ := hg.nonempty
    intro h
    rw [List.append_eq_nil_iff] at h
    rw [h.1] at hc
    simp at hc
  have k1 : st.cat.nat = true → st.cat.a = false ∧ st.cat.n = false := by
    intro h
    rw [← hcb.c6, List.contains_iff_mem, List.mem_append] at h
    have h78 : 78 ∈ cs := by
      rcases h with h | h
      · exact h
      · rcases hok.ending with h2 | h2 | h2 <;> rw [h2] at h <;> simp at h
    have h2 := hg.national h78
    rw [← hcb.c5, List.all_eq_true]
    intro c hc
    exact List.contains_iff_mem.2 (h2 c hc)
  have k2 : ¬ (st.cat.a = false ∧ st.cat.n = false ∧ st.cat.nat = false ∧ st.cat.e = false) := by
    rintro ⟨h1, h2, h3, h4⟩
    have h5 := hcb.c1.2 ⟨h2, h3, h4⟩
    rw [List.all_eq_true] at h5
    obtain ⟨x, l, hl⟩ := List.exists_cons_of_ne_nil hne
    have hx := h5 x (by rw [hl]; simp)
    have : (List.contains (cs ++ tail) 65 || List.contains (cs ++ tail) 88) = true := by
      rw [Bool.or_eq_true, List.contains_iff_mem]
      left
      rw [hl]
      have : x = 65 := by simpa using hx
      rw [this]; simp
    rw [hcb.c7, h1] at this
    exact absurd this (by simp)
  have hw := hg.within
  unfold picWithin at hw
  rw [class_eq _ _ hcb] at hw
  unfold picCategory
  generalize st.cat = k at k1 k2 hw
  obtain ⟨a, n, nat, e⟩ := k
  cases a <;> cases n <;> cases nat <;> cases e <;> simp at k1 k2 hw ⊢ <;> omega

end Cob
