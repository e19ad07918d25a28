import Verif.Cobc.PictureMore
/-
C43: PICTUREs with 'P', the digits assumed beyond the stored ones.
-/
namespace Cob

/-- A numeric PICTURE with 'P', written out: an optional 'S', then `p` 'P's at the left of `n` '9's (a 'V' may stand in front
of them), or at the right (a 'V' may stand behind them). -/
def scaledPic (signed left point : Bool) (p n : Nat) : List Nat :=
  (if signed then [83] else []) ++
  if left then (if point then [86] else []) ++ List.replicate p 80 ++ List.replicate n 57
  else List.replicate n 57 ++ List.replicate p 80 ++ (if point then [86] else [])

/-- The next run of equal symbols of the expansion is what the compiler counts. -/
theorem run_next (b s E' : List Nat) (c n : Nat) (hc : c ≠ 40) (hc2 : c ≠ 41) (hn : 0 < n) (hh : s.head? ≠ some 40)
    (hE : (b ++ List.replicate n c ++ E').length < 2147483647) (he : E'.head? ≠ some c)
    (hx : expandStr b none s = some (b ++ List.replicate n c ++ E')) :
    ∃ s' rest, s = c :: s' ∧ picRepeat (s'.length + 1) c 1 s' = some ((n : Int), rest) ∧ rest <:+ s' ∧ rest.head? ≠ some 40 ∧
      expandStr (b ++ List.replicate n c) none rest = some (b ++ List.replicate n c ++ E') := by
  cases s with
  | nil =>
    rw [expand_nil] at hx
    have := congrArg List.length (Option.some.inj hx)
    simp at this
    omega
  | cons d s' =>
    have h40 : d ≠ 40 := by rintro rfl; simp at hh
    have h41 : d ≠ 41 := by
      rintro rfl
      rw [expandStr] at hx
      simp at hx
    rw [expand_cons _ _ _ h40 h41] at hx
    have hd : d = c := by
      obtain ⟨w, hw⟩ := (expand_len _ _ _ _ hx).1
      obtain ⟨m, rfl⟩ : ∃ m, n = m + 1 := ⟨n - 1, by omega⟩
      rw [List.replicate_succ] at hw
      simp only [List.append_assoc, List.cons_append, List.nil_append] at hw
      have := List.append_cancel_left hw
      simp only [List.cons.injEq] at this
      exact this.1
    subst hd
    obtain ⟨k, rest, h1, h2, h3, h4, h5⟩ := picRepeat_spec d h40 h41 _ hE (s'.length + 1) s' (b ++ [d]) 1 (by omega)
      (by simp) (by simp) (by omega) (by simp) hx
    have hacc : b ++ [d] ++ List.replicate k d = b ++ List.replicate (1 + k) d := by
      rw [List.append_assoc, Nat.add_comm 1 k, List.replicate_succ]; rfl
    rw [hacc] at h5
    have hk : 1 + k = n := by
      -- the rest begins with another symbol
      cases rest with
      | nil =>
        rw [expand_nil] at h5
        have h5 := Option.some.inj h5
        rw [List.append_assoc] at h5
        have h6 := List.append_cancel_left h5
        cases E' with
        | nil =>
          have := congrArg List.length h6
          simpa using this
        | cons e E' =>
          exfalso
          have : e ∈ List.replicate (1 + k) d := by rw [h6]; simp
          rw [List.eq_of_mem_replicate this] at he
          simp at he
      | cons e rest =>
        have e1 : e ≠ 40 := by rintro rfl; simp at h4
        have e2 : e ≠ 41 := by
          rintro rfl
          rw [expandStr] at h5
          simp at h5
        have e3 : e ≠ d := by rintro rfl; simp at h3
        rw [expand_cons _ _ _ e1 e2] at h5
        obtain ⟨w, hw⟩ := (expand_len _ _ _ _ h5).1
        simp only [List.append_assoc] at hw
        have hw := List.append_cancel_left hw
        rcases Nat.lt_trichotomy (1 + k) n with hlt | heq | hgt
        · exfalso
          obtain ⟨m, hm⟩ : ∃ m, n = (1 + k) + (m + 1) := ⟨n - (1 + k) - 1, by omega⟩
          rw [hm, ← List.replicate_append_replicate (n := 1 + k) (m := m + 1), List.append_assoc] at hw
          have hw := List.append_cancel_left hw
          rw [List.replicate_succ (n := m)] at hw
          simp only [List.cons_append, List.nil_append, List.cons.injEq] at hw
          exact e3 hw.1
        · exact heq
        · exfalso
          obtain ⟨m, hm⟩ : ∃ m, 1 + k = n + (m + 1) := ⟨1 + k - n - 1, by omega⟩
          rw [hm, ← List.replicate_append_replicate, List.append_assoc] at hw
          have hw := List.append_cancel_left hw
          rw [List.replicate_succ] at hw
          apply he
          rw [← hw]
          simp
    rw [hk] at h5
    refine ⟨s', rest, rfl, ?_, h2, h4, h5⟩
    rw [show ((1 : Nat) : Int) = 1 from rfl] at h1
    rw [h1, ← hk]

/-- At the end of the expansion nothing is left. -/
theorem run_end (b rest : List Nat) (hh : rest.head? ≠ some 40) (hx : expandStr b none rest = some b) : rest = [] := by
  cases rest with
  | nil => rfl
  | cons d s' =>
    exfalso
    have h40 : d ≠ 40 := by rintro rfl; simp at hh
    have h41 : d ≠ 41 := by
      rintro rfl
      rw [expandStr] at hx
      simp at hx
    rw [expand_cons _ _ _ h40 h41] at hx
    have := (expand_len _ _ _ _ hx).1.length_le
    simp at this

theorem loop_run (env : EditEnv) (fuel : Nat) (st st1 : PicSt) (c : Nat) (n : Int) (s' rest : List Nat)
    (h1 : picRepeat (s'.length + 1) c 1 s' = some (n, rest)) (h2 : picStep env st c n rest = some (st1, rest)) :
    picLoop env (fuel + 1) st (c :: s') = picLoop env fuel st1 rest := by
  rw [picLoop, h1, Option.bind_some]
  simp only
  rw [h2, Option.bind_some]

theorem loop_nil (env : EditEnv) (fuel : Nat) (st : PicSt) : picLoop env fuel st [] = some st := by
  cases fuel <;> rfl

/-- The part after 'S' is accepted. -/
theorem scaled_loop (env : EditEnv) (st : PicSt) (left point : Bool) (p n : Nat) (hp : 0 < p) (hn : 0 < n) (hpn : p + n ≤ 36)
    (hca : st.cat.a = false) (hps : st.pSeen = false) (hv : st.vCount = 0) (hbf : st.buff = []) (b s : List Nat) (fuel : Nat)
    (hb : b.length ≤ 1) (hf : s.length ≤ fuel) (hh : s.head? ≠ some 40) (hlast : left = false → point = true → s.getLast? = some 86)
    (hx : expandStr b none s = some (b ++ scaledPic false left point p n)) : ∃ st', picLoop env fuel st s = some st' := by
  cases left
  · -- digits, then P
    simp only [scaledPic, Bool.false_eq_true, if_false, List.nil_append, List.append_assoc] at hx
    rw [← List.append_assoc] at hx
    obtain ⟨s1, r1, rfl, q1, q2, q3, q4⟩ := run_next b s _ 57 n (by omega) (by omega) hn hh
      (by simp; cases point <;> simp <;> omega)
      (by obtain ⟨m, rfl⟩ : ∃ m, p = m + 1 := ⟨p - 1, by omega⟩
          simp [List.replicate_succ]) hx
    rw [← List.append_assoc] at q4
    obtain ⟨s2, r2, rfl, t1, t2, t3, t4⟩ := run_next (b ++ List.replicate n 57) r1 _ 80 p (by omega) (by omega) hp q3
      (by simp; cases point <;> simp <;> omega) (by cases point <;> simp) q4
    have hl1 := q2.length_le
    have hl2 := t2.length_le
    simp only [List.length_cons] at hf hl1
    obtain ⟨f, rfl⟩ : ∃ f, fuel = f + 1 + 1 := ⟨fuel - 2, by omega⟩
    rw [loop_run env _ _ _ _ _ _ _ q1 (by simp only [picStep, picSym]; rfl)]
    have hr2 : r2 = [] ∨ (point = true ∧ r2 = [86]) := by
      cases point
      · left
        simp only [Bool.false_eq_true, if_false, List.append_nil] at t4
        exact run_end _ _ t3 t4
      · right
        refine ⟨rfl, ?_⟩
        simp only [if_true] at t4
        have h86 : [86] = List.replicate 1 86 := rfl
        obtain ⟨s3, r3, rfl, u1, u2, u3, u4⟩ := run_next (b ++ List.replicate n 57 ++ List.replicate p 80) r2 [] 86 1 (by omega) (by omega) (by omega) t3
          (by simp; omega) (by simp) (by rw [List.append_nil]; exact t4)
        have hl : (57 :: s1).getLast? = some 86 := hlast rfl rfl
        -- the string after `V` can only be repetition factors; it ends with `V`
        have hsuf : (86 :: s3) <:+ (57 :: s1) := t2.trans ((List.suffix_cons _ _).trans (q2.trans (List.suffix_cons _ _)))
        obtain ⟨w, hw⟩ := hsuf
        rw [← hw, List.getLast?_append] at hl
        cases hs3 : s3 with
        | nil => rfl
        | cons x y =>
          exfalso
          have hlast3 : s3.getLast? = some 86 := by
            rw [hs3] at hl ⊢
            rw [List.getLast?_cons_cons] at hl
            cases hg : (x :: y).getLast? with
            | none => simp at hg
            | some z =>
              rw [hg] at hl
              simpa using hl
          have hm : 86 ∈ s3 := List.mem_of_getLast? hlast3
          have hcnt := expand_count 86 (by omega) (by omega) (by omega) (86 :: s3) _ _ _ t4
          simp only [List.count_append, List.count_cons_self, List.count_replicate] at hcnt
          have : 0 < s3.count 86 := List.count_pos_iff.2 hm
          simp at hcnt
          omega
    have hstep : ∀ st2 : PicSt, st2.cat.a = false → st2.pSeen = false → ∃ st3, picStep env st2 80 p r2 = some (st3, r2) ∧
        st3.cat.a = false ∧ (st2.buff.length ≠ 0 → st2.vCount = 0 → st2.buff.getLast?.map (·.1) = some 57 → st2.buff.length = 1 → st3.vCount = 0) := by
      intro st2 h1 h2
      have hat : (picPPlace st2 r2).2 = true := by
        rcases hr2 with rfl | ⟨_, rfl⟩ <;> rfl
      simp only [picStep, picSym]
      rw [if_neg (by omega)]
      simp only [if_neg (show ¬ (80 = 65 ∨ 80 = 88) by omega), if_neg (show ¬ (80 = 57) by omega), if_neg (show ¬ (80 = 78) by omega),
        if_neg (show ¬ (80 = 44 ∨ 80 = 46 ∨ 80 = 86) by omega), h1, h2, Bool.false_eq_true, if_false, if_true]
      rw [if_neg (by rw [hat]; simp)]
      refine ⟨_, rfl, h1, ?_⟩
      intro _ g2 g3 g4
      have : (picPPlace st2 r2).1 = false := by
        simp only [picPPlace, g4, g3]
        rfl
      simp only [picStore, this, g2, Bool.false_eq_true, if_false]
    refine (fun (h : ∀ st2 : PicSt, st2.cat.a = false → st2.pSeen = false → st2.vCount = 0 → st2.buff.length = 1 →
        st2.buff.getLast?.map (·.1) = some 57 → ∃ st', picLoop env (f + 1) st2 (80 :: s2) = some st') => h _ ?_ ?_ ?_ ?_ ?_) ?_
    · exact hca
    · exact hps
    · exact hv
    · simp [picStore, hbf]
    · simp [picStore, hbf]
    · intro st2 g1 g2 g3 g4 g5
      obtain ⟨st3, e1, e2, e3⟩ := hstep st2 g1 g2
      have hv3 := e3 (by omega) g3 g5 g4
      rw [loop_run env _ _ _ _ _ _ _ t1 e1]
      rcases hr2 with rfl | ⟨_, rfl⟩
      · exact ⟨_, loop_nil _ _ _⟩
      · simp only [List.length_cons, List.length_nil] at hl2
        obtain ⟨f', rfl⟩ : ∃ f', f = f' + 1 := ⟨f - 1, by omega⟩
        rw [loop_run env f' st3 _ 86 1 [] [] rfl (by
          simp only [picStep, picSym, e2, hv3]
          rfl)]
        exact ⟨_, loop_nil _ _ _⟩
  · -- P, then digits
    simp only [scaledPic, Bool.false_eq_true, if_false, if_true, List.nil_append] at hx
    have hP : ∀ (st2 : PicSt) (b s : List Nat) (fuel : Nat), b.length ≤ 2 → s.length ≤ fuel → s.head? ≠ some 40 → st2.cat.a = false →
        st2.pSeen = false → (st2.buff = [] ∨ ∃ k, st2.buff = [(86, k)]) →
        expandStr b none s = some (b ++ List.replicate p 80 ++ List.replicate n 57) → ∃ st', picLoop env fuel st2 s = some st' := by
      intro st2 b s fuel hb hf hh h1 h2 h3 hx
      obtain ⟨s1, r1, rfl, q1, q2, q3, q4⟩ := run_next b s _ 80 p (by omega) (by omega) hp hh
        (by simp; omega)
        (by obtain ⟨m, rfl⟩ : ∃ m, n = m + 1 := ⟨n - 1, by omega⟩
            simp [List.replicate_succ]) hx
      have q4' : expandStr (b ++ List.replicate p 80) none r1 =
          some (b ++ List.replicate p 80 ++ List.replicate n 57 ++ []) := by rw [List.append_nil]; exact q4
      obtain ⟨s2, r2, rfl, t1, t2, t3, t4⟩ := run_next (b ++ List.replicate p 80) r1 [] 57 n (by omega) (by omega) hn q3
        (by simp; omega) (by simp) q4'
      rw [List.append_nil] at t4
      have hr2 := run_end _ _ t3 t4
      subst hr2
      have hl1 := q2.length_le
      simp only [List.length_cons] at hf hl1
      obtain ⟨f, rfl⟩ : ∃ f, fuel = f + 1 + 1 := ⟨fuel - 2, by omega⟩
      have hat : (picPPlace st2 (57 :: s2)).1 = true := by
        rcases h3 with h3 | ⟨k, h3⟩ <;> (simp only [picPPlace, h3]; rfl)
      have hstep : ∃ st3, picStep env st2 80 p (57 :: s2) = some (st3, 57 :: s2) := by
        simp only [picStep, picSym]
        rw [if_neg (by omega)]
        simp only [if_neg (show ¬ (80 = 65 ∨ 80 = 88) by omega), if_neg (show ¬ (80 = 57) by omega), if_neg (show ¬ (80 = 78) by omega),
          if_neg (show ¬ (80 = 44 ∨ 80 = 46 ∨ 80 = 86) by omega), h1, h2, Bool.false_eq_true, if_false, if_true]
        rw [if_neg (by rw [hat]; simp)]
        exact ⟨_, rfl⟩
      obtain ⟨st3, e1⟩ := hstep
      obtain ⟨st4, e2⟩ : ∃ st4, picStep env st3 57 n [] = some (st4, []) := ⟨_, rfl⟩
      rw [loop_run env _ _ _ _ _ _ _ q1 e1, loop_run env _ _ _ _ _ _ _ t1 e2]
      exact ⟨_, loop_nil _ _ _⟩
    cases point
    · simp only [Bool.false_eq_true, if_false, List.nil_append] at hx
      rw [← List.append_assoc] at hx
      exact hP st b s fuel (by omega) hf hh hca hps (Or.inl hbf) hx
    · simp only [if_true] at hx
      obtain ⟨s1, r1, rfl, q1, q2, q3, q4⟩ := run_next b s (List.replicate p 80 ++ List.replicate n 57) 86 1 (by omega) (by omega) (by omega) hh
        (by simp; omega)
        (by obtain ⟨m, rfl⟩ : ∃ m, p = m + 1 := ⟨p - 1, by omega⟩
            simp [List.replicate_succ]) (by simpa using hx)
      have hl1 := q2.length_le
      simp only [List.length_cons] at hf hl1
      obtain ⟨f, rfl⟩ : ∃ f, fuel = f + 1 := ⟨fuel - 1, by omega⟩
      have q1' : picRepeat (s1.length + 1) 86 1 s1 = some (1, r1) := q1
      rw [loop_run env f st
        (picStore { st with
          vCount := wrap32 (st.vCount + 1) } 86 1) _ _ _ _ q1' (by
        simp only [picStep, picSym, hca, hv]
        rfl)]
      refine hP _ (b ++ List.replicate 1 86) r1 f (by simp; omega) (by omega) q3 hca hps (Or.inr ⟨1, ?_⟩) ?_
      · simp [picStore, hbf]
      · rw [q4]
        simp

/-- **C43** A numeric PICTURE with 'P' of at most 36 digits is accepted, however it is written (the 'V' behind the 'P's has to be
the last character), and describes a number of `p + n` digits in `n` bytes: the 'P's at the left are zeros after the decimal
point, those at the right zeros in front of it. -/
theorem C43_scaled (env : EditEnv) (he : PicEnvOk env) (lim : PicLimits) (str : List Nat) (signed left point : Bool) (p n : Nat)
    (hp : 0 < p) (hn : 0 < n) (hpn : p + n ≤ 36) (hlen : str.length ≤ 50)
    (hlast : left = false → point = true → str.getLast? = some 86)
    (hx : expandStr [] none str = some (scaledPic signed left point p n)) :
    ∃ pic, buildPicture env lim str = some pic ∧ pic.cat = .numeric ∧ pic.size = n ∧ pic.digits = p + n ∧
      (pic.haveSign ≠ 0 ↔ signed = true) ∧ pic.scale = if left then ((p + n : Nat) : Int) else - (p : Int) := by
  have hcur : ∀ d ∈ [0, 40, 41, 42, 43, 44, 45, 46, 47, 48, 57, 65, 66, 67, 68, 78, 80, 82, 83, 86, 88, 90], ¬ d = env.cur :=
    fun d hd hh => he.2 (hh ▸ hd)
  have hmem : ∀ c ∈ scaledPic signed left point p n, c ∈ [57, 83, 86, 80] := by
    intro c hc
    cases signed <;> cases left <;> cases point <;> simp [scaledPic] at hc <;> simp <;> omega
  have h40 : str.head? ≠ some 40 := by
    intro h
    cases str with
    | nil => simp at h
    | cons x s =>
      have : x = 40 := by simpa using h
      subst this
      rw [expandStr] at hx
      simp at hx
  have hk := guess_spec env ⟨fun h => hcur 40 (by simp) h.symm, fun h => hcur 41 (by simp) h.symm⟩ str [] none _ {} hx (by simp)
  have h0 : picKinds env [] = {} := rfl
  simp only [if_true, h0, or_nil] at hk
  have hend : endsCRDB str = false := by
    rw [← Bool.not_eq_true]
    intro h
    rcases ends_mem env str _ hx h with h | h <;> have := hmem _ h <;> simp at this
  rw [hend] at hk
  have hca : (guessCat env 0 {} str).a = false := by
    rw [hk, ← Bool.not_eq_true]
    simp only [or_bits, kinds_iff]
    rintro (⟨c, hc, h⟩ | h | h)
    · have := hmem c hc
      simp only [List.mem_cons, List.not_mem_nil, or_false] at this
      rcases this with rfl | rfl | rfl | rfl <;> simp [guessSym] at h
    · simp at h
    · simp [crdbBits] at h
  have hEl : (scaledPic signed left point p n).length ≤ 40 := by
    cases signed <;> cases left <;> cases point <;> simp [scaledPic] <;> omega
  have hloop : ∃ st, picLoop env str.length { cat := guessCat env 0 {} str } str = some st := by
    cases signed
    · exact scaled_loop env _ left point p n hp hn hpn hca rfl rfl rfl [] str _ (by simp) (Nat.le_refl _) h40 hlast (by simpa using hx)
    · have hsp : scaledPic true left point p n = [] ++ List.replicate 1 83 ++ scaledPic false left point p n := by simp [scaledPic]
      rw [hsp] at hx
      obtain ⟨s1, r1, hs, q1, q2, q3, q4⟩ := run_next [] str _ 83 1 (by omega) (by omega) (by omega) h40
        (by rw [← hsp]; omega)
        (by obtain ⟨m, rfl⟩ : ∃ m, p = m + 1 := ⟨p - 1, by omega⟩
            obtain ⟨k, rfl⟩ : ∃ m, n = m + 1 := ⟨n - 1, by omega⟩
            cases left <;> cases point <;> simp [scaledPic, List.replicate_succ]) hx
      rw [hs] at hlast hlen ⊢
      generalize hcat : guessCat env 0 {} (83 :: s1) = cat0
      have hca : cat0.a = false := by rw [← hcat, ← hs]; exact hca
      have q1' : picRepeat (s1.length + 1) 83 1 s1 = some (1, r1) := q1
      rw [show (83 :: s1).length = s1.length + 1 from rfl]
      rw [loop_run env s1.length { cat := cat0 }
        { cat := cat0, sCount := wrap32 (0 + 1), sSeen := true } _ _ _ _ q1' (by
        simp only [picStep, hca]
        rfl)]
      refine scaled_loop env _ left point p n hp hn hpn hca rfl rfl rfl [83] r1 s1.length (by simp) q2.length_le q3 ?_ q4
      intro e1 e2
      have hl := hlast e1 e2
      obtain ⟨w, hw⟩ := q2
      rw [← hw] at hl
      cases hr1 : r1 with
      | nil =>
        exfalso
        rw [hr1, expand_nil] at q4
        have := congrArg List.length (Option.some.inj q4)
        cases left <;> cases point <;> simp [scaledPic] at this <;> omega
      | cons x y =>
        rw [hr1, ← List.cons_append, List.getLast?_append] at hl
        cases hg : (x :: y).getLast? with
        | none => simp at hg
        | some z =>
          rw [hg] at hl
          simpa using hl
  obtain ⟨st, hst⟩ := hloop
  obtain ⟨_, body, hi, _, hform⟩ := loop_inv env he _ _ (by omega) st str.length _ [] str (pinv_init env _) (by simp) (by simp)
    (by simp) hx hst
  obtain ⟨hb, h67, h68⟩ : scaledPic signed left point p n = body ∧ 67 ∉ body ∧ 68 ∉ body := by
    rcases hform with h | ⟨b0, k, hk0, _, _, hb, h⟩ | ⟨b0, k, hk0, _, _, hb, h⟩
    · exact h
    · have := hmem 82 (by rw [h]; simp)
      simp at this
    · have := hmem 66 (by rw [h]; simp)
      simp at this
  subst hb
  have hcat : st.cat = { n := true } := by
    rw [hi.cat, if_neg h67, hk]
    have hE : ∀ f : PicBits → Bool, (picKinds env (scaledPic signed left point p n)) = { n := true } := by
      intro _
      have hall : ∀ c ∈ scaledPic signed left point p n, guessSym env c [] = { n := true } := by
        intro c hc
        have := hmem c hc
        simp only [List.mem_cons, List.not_mem_nil, or_false] at this
        rcases this with rfl | rfl | rfl | rfl <;> rfl
      have h57 : 57 ∈ scaledPic signed left point p n := by
        cases signed <;> cases left <;> cases point <;> simp [scaledPic] <;> omega
      unfold picKinds
      congr 1
      · rw [List.any_eq_false]; intro c hc; rw [hall c hc]; simp
      · rw [List.any_eq_true]; exact ⟨57, h57, rfl⟩
      · rw [List.any_eq_false]; intro c hc; rw [hall c hc]; simp
      · rw [List.any_eq_false]; intro c hc; rw [hall c hc]; simp
    rw [hE (fun _ => true)]
    rfl
  have hcc : env.cur ≠ 57 ∧ env.cur ≠ 83 ∧ env.cur ≠ 86 ∧ env.cur ≠ 80 :=
    ⟨fun h => hcur 57 (by simp) h.symm, fun h => hcur 83 (by simp) h.symm, fun h => hcur 86 (by simp) h.symm, fun h => hcur 80 (by simp) h.symm⟩
  have hcz : (scaledPic signed left point p n).count env.cur = 0 := by
    rw [List.count_eq_zero]
    intro h
    have := hmem _ h
    simp only [List.mem_cons, List.not_mem_nil, or_false] at this
    omega
  have hdig : picDigits env (scaledPic signed left point p n) = p + n := by
    unfold picDigits
    rw [hcz]
    cases signed <;> cases left <;> cases point <;>
      simp [scaledPic, List.countP_append, List.countP_replicate, picPlace, picSignSym] <;> omega
  have hsz : picSize false (scaledPic signed left point p n) = n := by
    unfold picSize
    cases signed <;> cases left <;> cases point <;>
      simp [scaledPic, List.countP_append, List.countP_replicate, List.count_append, List.count_replicate]
  have hdig2 : st.digits = ((p + n : Nat) : Int) := by
    rw [hi.digits, ← hdig]
    unfold picDigits
    omega
  have hsize2 : st.size ≠ 0 := by
    rw [hi.size]
    have : 0 < (scaledPic signed left point p n).countP picByte := by
      rw [List.countP_pos_iff]
      refine ⟨57, ?_, rfl⟩
      cases signed <;> cases left <;> cases point <;> simp [scaledPic] <;> omega
    split <;> omega
  have hbuild : ∃ pic, buildPicture env lim str = some pic ∧ pic.cat = .numeric := by
    unfold buildPicture
    rw [if_neg (by omega), hst, Option.bind_some, if_neg (by omega)]
    have : picCategory lim st = some .numeric := by
      unfold picCategory
      rw [hcat]
      simp only
      rw [if_neg (by omega)]
    rw [this]
    exact ⟨_, rfl, rfl⟩
  obtain ⟨pic, hpic, hpc⟩ := hbuild
  have c67 : (scaledPic signed left point p n).count 67 ≤ 1 := by rw [List.count_eq_zero.2 h67]; omega
  have c68 : (scaledPic signed left point p n).count 68 ≤ 1 := by rw [List.count_eq_zero.2 h68]; omega
  obtain ⟨v1, v2, v3, v4, _⟩ := C43_values env he lim str pic hpic _ hx (by omega) c67 c68 (fun h => absurd h h68)
  refine ⟨pic, hpic, hpc, ?_, ?_, ?_, ?_⟩
  · rw [v1, hpc]
    exact congrArg _ hsz
  · rw [v3 (Or.inl hpc), hdig]
  · rw [v2]
    cases signed <;> cases left <;> cases point <;> simp [picSigned, scaledPic, List.any_append]
  · rw [v4 (Or.inl hpc)]
    have hdp := he.1
    obtain ⟨p', rfl⟩ : ∃ m, p = m + 1 := ⟨p - 1, by omega⟩
    obtain ⟨n', rfl⟩ : ∃ m, n = m + 1 := ⟨n - 1, by omega⟩
    have hns : picNoS (scaledPic signed left point (p' + 1) (n' + 1)) = scaledPic false left point (p' + 1) (n' + 1) := by
      cases signed <;> cases left <;> cases point <;> simp [picNoS, scaledPic]
    unfold picScale
    rw [hns]
    have g1 : picPointSym env 57 = false := by simp [picPointSym]; omega
    have g2 : picPointSym env 80 = false := by simp [picPointSym]; omega
    have g3 : picPointSym env 86 = true := rfl
    have hpp : picPointPos env (scaledPic false left point (p' + 1) (n' + 1)) = if left then 0 else n' + 1 + (p' + 1) := by
      unfold picPointPos
      cases left
      · have hno : ∀ k m, (List.replicate k 57 ++ List.replicate m 80).findIdx (picPointSym env) = k + m := by
          intro k m
          rw [List.findIdx_eq_length_of_false]
          · simp
          · intro x hx
            simp only [List.mem_append, List.mem_replicate] at hx
            rcases hx with ⟨_, rfl⟩ | ⟨_, rfl⟩
            · simp [g1]
            · simp [g2]
        rw [if_neg (by simp [scaledPic, List.replicate_succ])]
        cases point
        · simpa [scaledPic] using hno (n' + 1) (p' + 1)
        · have h2 := hno (n' + 1) (p' + 1)
          simp only [scaledPic, Bool.false_eq_true, if_false, if_true, List.nil_append]
          rw [List.findIdx_append, h2]
          simp [List.findIdx_cons, g3]
      · cases point
        · simp [scaledPic, List.replicate_succ]
        · simp [scaledPic, List.findIdx_cons, g3]
    unfold picScaleA
    rw [hpp]
    cases left
    · simp only [Bool.false_eq_true, if_false]
      have ht : (scaledPic false false point (p' + 1) (n' + 1)).take (n' + 1 + (p' + 1)) = List.replicate (n' + 1) 57 ++ List.replicate (p' + 1) 80 := by
        simp only [scaledPic, Bool.false_eq_true, if_false, List.nil_append]
        rw [List.take_append_of_le_length (by simp), List.take_of_length_le (by simp)]
      have hd : (scaledPic false false point (p' + 1) (n' + 1)).drop (n' + 1 + (p' + 1)) = if point then [86] else [] := by
        simp only [scaledPic, Bool.false_eq_true, if_false, List.nil_append]
        rw [List.drop_append_of_le_length (by simp), List.drop_of_length_le (by simp)]
        rfl
      rw [ht, hd]
      cases point <;> simp [List.count_append, List.count_replicate, picPlace]
    · simp only [if_true, List.drop_zero, List.take_zero]
      cases point <;> simp [scaledPic, List.countP_append, List.countP_replicate, picPlace]

/-- `SVP(3)9(2)`, `S9(4)P(2)V`. -/
example : ∃ pic, buildPicture {} {} (codes "SVP(3)9(2)") = some pic ∧ pic.size = 2 ∧ pic.digits = 5 ∧ pic.scale = 5 := by
  obtain ⟨pic, h1, _, h3, h4, _, h6⟩ := C43_scaled {} picEnvOk_default {} (codes "SVP(3)9(2)") true true true 3 2 (by omega) (by omega) (by omega)
    (by decide) (by decide) (by decide +kernel)
  exact ⟨pic, h1, h3, h4, h6⟩

example : ∃ pic, buildPicture {} {} (codes "S9(4)P(2)V") = some pic ∧ pic.size = 4 ∧ pic.digits = 6 ∧ pic.scale = -2 := by
  obtain ⟨pic, h1, _, h3, h4, _, h6⟩ := C43_scaled {} picEnvOk_default {} (codes "S9(4)P(2)V") true false true 2 4 (by omega) (by omega) (by omega)
    (by decide) (by decide) (by decide +kernel)
  exact ⟨pic, h1, h3, h4, h6⟩

/-- **C43** (finding) The 'V' behind 'P's is not recognised if it is written with a repetition factor: `99PPV` is accepted,
`99PPV(1)` is not. -/
theorem C43_p_then_v_factor :
    (buildPicture {} {} (codes "99PPV")).isSome = true ∧ buildPicture {} {} (codes "99PPV(1)") = none := by
  decide +kernel

end Cob
