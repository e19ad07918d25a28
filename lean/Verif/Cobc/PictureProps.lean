import Verif.Cobc.PictureStep
/-
C43: what the compiler computes from a PICTURE string.
-/
namespace Cob

/-- The symbols of a PICTURE (the 'R' of CR excepted). -/
def picLegal (env : EditEnv) (c : Nat) : Prop :=
  c ∈ [65, 88, 57, 78, 83, 44, 46, 86, 80, 48, 66, 47, 42, 90, 43, 45, 67, 68] ∨ c = env.cur

theorem step_legal (env : EditEnv) (st st' : PicSt) (c : Nat) (n : Int) (rest rest' : List Nat)
    (h : picStep env st c n rest = some (st', rest')) : picLegal env c := by
  by_contra hc
  unfold picLegal at hc
  simp only [List.mem_cons, List.not_mem_nil, or_false, not_or] at hc
  obtain ⟨⟨c1, c2, c3, c4, c5, c6, c7, c8, c9, c10, c11, c12, c13, c14, c15, c16, c17, c18⟩, c19⟩ := hc
  rw [picStep, if_neg c5, picSym] at h
  simp only [c1, c2, c3, c4, c6, c7, c8, c9, c10, c11, c12, c13, c14, c15, c16, c17, c18, c19, if_false, or_self] at h
  simp at h

/-- The state in `x` has at most one sign more than `k`. -/
def SLe (k : Int) (x : Option (PicSt × List Nat)) : Prop := ∀ p, x = some p → p.1.sCount ≤ k + 1

theorem SLe.none {k : Int} : SLe k none := by intro p hp; exact absurd hp (by simp)
theorem SLe.some {k : Int} {p : PicSt × List Nat} (h : p.1.sCount ≤ k + 1) : SLe k (some p) := by
  intro q hq; injection hq with hq; subst hq; exact h
theorem SLe.ite {k : Int} {c : Prop} [Decidable c] {x y : Option (PicSt × List Nat)} (h1 : SLe k x) (h2 : SLe k y) :
    SLe k (if c then x else y) := by split <;> assumption
theorem sCount_of (k : Int) {x : Option (PicSt × List Nat)} (h : SLe k x) (p : PicSt × List Nat) (hp : x = some p) :
    p.1.sCount ≤ k + 1 := h p hp

theorem step_sCount (env : EditEnv) (st st' : PicSt) (c : Nat) (n : Int) (rest rest' : List Nat)
    (h : picStep env st c n rest = some (st', rest')) : st'.sCount ≤ st.sCount + 1 ∨ st'.sCount ≤ 1 := by
  rw [picStep] at h
  split at h
  · split at h
    · exact absurd h (by simp)
    split at h
    · exact absurd h (by simp)
    rename_i h1
    simp only [Option.some.injEq, Prod.mk.injEq] at h
    obtain ⟨rfl, _⟩ := h
    right
    simp only
    omega
  · left
    rw [Option.map_eq_some_iff] at h
    obtain ⟨⟨st1, r1⟩, h, heq⟩ := h
    simp only [Prod.mk.injEq] at heq
    obtain ⟨rfl, rfl⟩ := heq
    show st1.sCount ≤ _
    refine sCount_of st.sCount (x := picSym env st c n rest) ?_ _ h
    rw [picSym]
    simp only
    repeat' first
      | exact SLe.none
      | (refine SLe.some ?_; simp only; first | omega | (split <;> simp only <;> omega))
      | refine SLe.ite ?_ ?_

/-- The loop over the string. -/
theorem loop_inv (env : EditEnv) (he : PicEnvOk env) (cat0 : PicBits) (E : List Nat) (hE : E.length < 536870912) (st' : PicSt)
    (fuel : Nat) : ∀ (st : PicSt) (b s : List Nat), PInv env cat0 st b → 67 ∉ b → 68 ∉ b →
      (∀ c ∈ b, picLegal env c) → expandStr b none s = some E →
      picLoop env fuel st s = some st' →
      st'.sCount ≤ max 0 st.sCount + fuel ∧
      ∃ body, PInv env cat0 st' body ∧ (∀ c ∈ body, picLegal env c) ∧
        ((E = body ∧ 67 ∉ body ∧ 68 ∉ body) ∨
         (∃ b0 n, 0 < n ∧ 67 ∉ b0 ∧ 68 ∉ b0 ∧ body = b0 ++ List.replicate n 67 ∧ E = body ++ [82]) ∨
         (∃ b0 n, 0 < n ∧ 67 ∉ b0 ∧ 68 ∉ b0 ∧ body = b0 ++ List.replicate n 68 ∧ E = body ++ [66])) := by
  have hcur : ∀ d ∈ [0, 40, 41, 42, 43, 44, 45, 46, 47, 48, 57, 65, 66, 67, 68, 78, 80, 82, 83, 86, 88, 90], ¬ d = env.cur :=
    fun d hd hh => he.2 (hh ▸ hd)
  induction fuel with
  | zero =>
    intro st b s hi h67 h68 hleg hx h
    cases s with
    | nil =>
      rw [expand_nil] at hx
      obtain rfl : b = E := by simpa using hx
      simp only [picLoop, Option.some.injEq] at h
      subst h
      exact ⟨by omega, b, hi, hleg, Or.inl ⟨rfl, h67, h68⟩⟩
    | cons c s => simp [picLoop] at h
  | succ fuel ih =>
    intro st b s hi h67 h68 hleg hx h
    cases s with
    | nil =>
      rw [expand_nil] at hx
      obtain rfl : b = E := by simpa using hx
      simp only [picLoop, Option.some.injEq] at h
      subst h
      exact ⟨by omega, b, hi, hleg, Or.inl ⟨rfl, h67, h68⟩⟩
    | cons c s =>
      rw [picLoop] at h
      -- the symbol is neither a parenthesis nor unknown
      have hlc : picLegal env c := by
        rw [Option.bind_eq_some_iff] at h
        obtain ⟨⟨n, r⟩, _, h⟩ := h
        simp only at h
        rw [Option.bind_eq_some_iff] at h
        obtain ⟨⟨st1, r1⟩, h, _⟩ := h
        exact step_legal env _ _ _ _ _ _ h
      have hc40 : c ≠ 40 := by
        rintro rfl
        rcases hlc with h | h
        · simp at h
        · exact hcur 40 (by simp) h
      have hc41 : c ≠ 41 := by
        rintro rfl
        rcases hlc with h | h
        · simp at h
        · exact hcur 41 (by simp) h
      rw [expand_cons _ _ _ hc40 hc41] at hx
      obtain ⟨k, rest, h1, h2, h3, h4, h5⟩ := picRepeat_spec c hc40 hc41 E (by omega) (s.length + 1) s (b ++ [c]) 1 (by omega)
        (by simp) (by simp) (by omega) (by simp) hx
      rw [show ((1 : Nat) : Int) = 1 from rfl] at h1
      rw [h1, Option.bind_some] at h
      simp only at h
      rw [Option.bind_eq_some_iff] at h
      obtain ⟨⟨st1, r1⟩, hst, hloop⟩ := h
      simp only at hloop
      have hacc : b ++ [c] ++ List.replicate k c = b ++ List.replicate (1 + k) c := by
        rw [List.append_assoc, Nat.add_comm 1 k, List.replicate_succ]; rfl
      rw [hacc] at h5
      have hle := (expand_len _ _ _ _ h5).1.length_le
      simp only [List.length_append, List.length_replicate] at hle
      obtain ⟨hi1, hcase⟩ := step_inv env he cat0 st st1 b c (1 + k) rest r1 (by omega) (by omega) hi h67 h68 hst
      have hsc := step_sCount env st st1 c _ rest r1 hst
      have hleg1 : ∀ d ∈ b ++ List.replicate (1 + k) c, picLegal env d := by
        intro d hd
        rw [mem_rep _ _ _ _ (by omega)] at hd
        rcases hd with hd | hd
        · exact hleg d hd
        · rw [← hd]; exact hlc
      rcases hcase with ⟨rfl, hr, hr1⟩ | ⟨rfl, hr, hr1⟩ | ⟨hn1, hn2, hr1⟩
      · subst hr hr1
        rw [expand_cons _ _ _ (by omega) (by omega), expand_nil] at h5
        have hs' : st1 = st' := by
          cases fuel <;> simpa [picLoop] using hloop
        subst hs'
        refine ⟨by omega, _, hi1, hleg1, Or.inr (Or.inl ⟨b, 1 + k, by omega, h67, h68, rfl, ?_⟩)⟩
        injection h5 with h5
        exact h5.symm
      · subst hr hr1
        rw [expand_cons _ _ _ (by omega) (by omega), expand_nil] at h5
        have hs' : st1 = st' := by
          cases fuel <;> simpa [picLoop] using hloop
        subst hs'
        refine ⟨by omega, _, hi1, hleg1, Or.inr (Or.inr ⟨b, 1 + k, by omega, h67, h68, rfl, ?_⟩)⟩
        injection h5 with h5
        exact h5.symm
      · subst hr1
        obtain ⟨g1, g2⟩ := ih st1 _ r1 hi1 (by
          rw [mem_rep _ _ _ _ (by omega)]
          rintro (h | h)
          · exact h67 h
          · exact hn1 h) (by
          rw [mem_rep _ _ _ _ (by omega)]
          rintro (h | h)
          · exact h68 h
          · exact hn2 h) hleg1 h5 hloop
        exact ⟨by omega, g2⟩

theorem pinv_init (env : EditEnv) (cat0 : PicBits) : PInv env cat0 { cat := cat0 } [] := by
  constructor <;> simp [picNoS, hasPoint, picScaleA, picPointPos]

/-- The class that the compiler's category stands for. -/
def PicCat.toClass : PicCat → PicClass
  | .alphabetic => .alphabetic
  | .numeric => .numeric
  | .alphanumeric => .alphanumeric
  | .national => .national
  | .numericEdited => .numericEdited
  | .alphanumericEdited => .alphanumericEdited
  | .nationalEdited => .nationalEdited

/-- What is known of the state at the end. -/
theorem build_inv (env : EditEnv) (he : PicEnvOk env) (lim : PicLimits) (str : List Nat) (p : Picture)
    (hp : buildPicture env lim str = some p) (E : List Nat) (hx : expandStr [] none str = some E) (hE : E.length < 536870912) :
    ∃ st body, PInv env (guessCat env 0 {} str) st body ∧ st.sCount ≤ 50 ∧ (∀ c ∈ body, picLegal env c) ∧
      ((E = body ∧ 67 ∉ body ∧ 68 ∉ body) ∨
       (∃ b0 n, 0 < n ∧ 67 ∉ b0 ∧ 68 ∉ b0 ∧ body = b0 ++ List.replicate n 67 ∧ E = body ++ [82]) ∨
       (∃ b0 n, 0 < n ∧ 67 ∉ b0 ∧ 68 ∉ b0 ∧ body = b0 ++ List.replicate n 68 ∧ E = body ++ [66])) ∧
      picCategory lim st = some p.cat ∧ p.size = st.size ∧ p.digits = (st.digits % 256).toNat ∧
      p.scale = (st.scale + 128) % 256 - 128 ∧ p.haveSign = (st.sCount % 256).toNat ∧ p.str = st.buff := by
  unfold buildPicture at hp
  split at hp
  · exact absurd hp (by simp)
  rename_i hlen
  rw [Option.bind_eq_some_iff] at hp
  obtain ⟨st, hloop, hp⟩ := hp
  split at hp
  · exact absurd hp (by simp)
  rw [Option.map_eq_some_iff] at hp
  obtain ⟨cat, hcat, rfl⟩ := hp
  obtain ⟨h1, body, h2, h3, h4⟩ := loop_inv env he _ E hE st str.length _ [] str (pinv_init env _) (by simp) (by simp) (by simp) hx hloop
  refine ⟨st, body, h2, ?_, h3, h4, hcat, rfl, rfl, rfl, rfl, rfl⟩
  simp only at h1
  omega

/-- The category bits, as far as they come from the symbols of a list. -/
theorem kinds_iff (env : EditEnv) (E : List Nat) :
    ((picKinds env E).a = true ↔ ∃ c ∈ E, (guessSym env c []).a = true) ∧
    ((picKinds env E).n = true ↔ ∃ c ∈ E, (guessSym env c []).n = true) ∧
    ((picKinds env E).nat = true ↔ ∃ c ∈ E, (guessSym env c []).nat = true) ∧
    ((picKinds env E).e = true ↔ ∃ c ∈ E, (guessSym env c []).e = true) := by
  simp [picKinds, List.any_eq_true]

theorem ends_mem (env : EditEnv) (str E : List Nat) (hx : expandStr [] none str = some E) (h : endsCRDB str = true) :
    67 ∈ E ∨ 68 ∈ E := by
  unfold endsCRDB at h
  rw [Bool.or_eq_true, List.isSuffixOf_iff_suffix, List.isSuffixOf_iff_suffix] at h
  rcases h with h | h
  · left
    have h1 := expand_count 67 (by omega) (by omega) (by omega) str [] none E hx
    have h2 : 67 ∈ str := h.subset (by simp)
    have h3 : 0 < str.count 67 := List.count_pos_iff.2 h2
    exact List.count_pos_iff.1 (by omega)
  · right
    have h1 := expand_count 68 (by omega) (by omega) (by omega) str [] none E hx
    have h2 : 68 ∈ str := h.subset (by simp)
    have h3 : 0 < str.count 68 := List.count_pos_iff.2 h2
    exact List.count_pos_iff.1 (by omega)

/-- The bits at the end, by the symbols of the expansion. -/
theorem final_bits (env : EditEnv) (he : PicEnvOk env) (str E : List Nat) (hx : expandStr [] none str = some E)
    (hD : 68 ∈ E → [68, 66] <:+ str) (st : PicSt) (body : List Nat) (hi : PInv env (guessCat env 0 {} str) st body)
    (hbody : 67 ∈ body ↔ 67 ∈ E) :
    st.cat = (picKinds env E).or (crdbBits (decide (67 ∈ E ∨ 68 ∈ E))) := by
  have hcur : env.cur ≠ 40 ∧ env.cur ≠ 41 := by
    have h := he.2
    simp only [List.mem_cons, not_or] at h
    exact ⟨h.2.1, h.2.2.1⟩
  have hg := guess_spec env hcur str [] none E {} hx (by simp)
  have h0 : picKinds env [] = {} := rfl
  simp only [if_true, h0, or_nil] at hg
  have e1 : ({} : PicBits).or (crdbBits (endsCRDB str)) = crdbBits (endsCRDB str) := by rw [or_comm', or_nil]
  rw [e1] at hg
  rw [hi.cat, hg]
  have hends := ends_mem env str E hx
  have hds : 68 ∈ E → endsCRDB str = true := by
    intro h
    unfold endsCRDB
    rw [Bool.or_eq_true, List.isSuffixOf_iff_suffix, List.isSuffixOf_iff_suffix]
    exact Or.inr (hD h)
  have e2 : ({ n := true, e := true } : PicBits) = crdbBits true := rfl
  by_cases h67 : 67 ∈ E
  · rw [if_pos (hbody.2 h67), or_assoc', e2, crdb_or]
    simp [h67]
  · rw [if_neg (fun h => h67 (hbody.1 h))]
    by_cases h68 : 68 ∈ E
    · rw [hds h68]; simp [h68]
    · have : endsCRDB str = false := by
        cases h : endsCRDB str with
        | false => rfl
        | true => rcases hends h with h | h <;> contradiction
      rw [this]; simp [h67, h68]

theorem noS_snoc (b : List Nat) (c : Nat) (h : c ≠ 83) : picNoS (b ++ [c]) = picNoS b ++ [c] := by
  have := noS_append b c 1
  rw [if_neg h] at this
  exact this

theorem scale_snoc (env : EditEnv) (A : List Nat) (c : Nat) (h1 : picPlace c = false) (h2 : c ≠ 80) (h3 : picPointSym env c = false) :
    picScaleA env (A ++ [c]) = picScaleA env A := by
  by_cases hp : hasPoint env A = true
  · rw [scale_after env _ _ hp]; simp [h1]
  · have hp' : hasPoint env A = false := by simpa using hp
    have := hasPoint_append env A c 1 (by omega)
    rw [hp', h3] at this
    rw [scale_before env A [c] (by
      rw [show [c] = List.replicate 1 c from rfl, this]; simp [h2])]
    simp [List.count_singleton, h2]

theorem cat_cases (lim : PicLimits) (st : PicSt) (cat : PicCat) (h : picCategory lim st = some cat) :
    (cat = .nationalEdited ↔ st.cat = picNE) ∧ (cat = .numeric → st.digits ≤ 36) ∧
    (cat = .numericEdited → st.charLen ≤ 160) ∧
    ¬ (st.cat.n = true ∧ st.cat.nat = true) ∧ (st.cat.n = true → st.cat.e = true → st.cat.a = false → cat = .numericEdited) := by
  obtain ⟨_, _, _, ⟨a, n, nat, e⟩, _, digits, _, _, _, charLen, _, _⟩ := st
  unfold picCategory at h
  cases a <;> cases n <;> cases nat <;> cases e <;> simp only at h ⊢ <;>
    first
    | (split at h
       · exact absurd h (by simp)
       · injection h with h
         subst h
         simp [picNE]
         try omega)
    | exact absurd h (by simp)

/-- **C43** The values the compiler takes from a PICTURE string are those counted on its expansion: the size in
bytes, whether there is a sign, the digits and the scale of a numeric or numeric-edited item, and the symbols that go
to the runtime.  The hypotheses are that the expansion has less than 2^29 symbols, that 'C' and 'D' occur at most
once, and that DB is written out. -/
theorem C43_values (env : EditEnv) (he : PicEnvOk env) (lim : PicLimits) (str : List Nat) (p : Picture)
    (hp : buildPicture env lim str = some p) (E : List Nat) (hx : expandStr [] none str = some E) (hE : E.length < 536870912)
    (hC1 : E.count 67 ≤ 1) (hD1 : E.count 68 ≤ 1) (hD : 68 ∈ E → [68, 66] <:+ str) :
    p.size = picSize (decide (p.cat = .nationalEdited)) E ∧
    (p.haveSign ≠ 0 ↔ picSigned E = true) ∧
    ((p.cat = .numeric ∨ p.cat = .numericEdited) → p.digits = picDigits env E) ∧
    ((p.cat = .numeric ∨ (p.cat = .numericEdited ∧ -128 ≤ picScale env E ∧ picScale env E ≤ 127)) → p.scale = picScale env E) ∧
    expandPic (p.str.map fun q => (q.1, q.2.toNat)) = picBody E := by
  have hcur : ∀ d ∈ [0, 40, 41, 42, 43, 44, 45, 46, 47, 48, 57, 65, 66, 67, 68, 78, 80, 82, 83, 86, 88, 90], ¬ d = env.cur :=
    fun d hd hh => he.2 (hh ▸ hd)
  obtain ⟨st, body, hi, hsc, hleg, hform, hcat, e1, e2, e3, e4, e5⟩ := build_inv env he lim str p hp E hx hE
  obtain ⟨k1, k2, k3, k4, k5⟩ := cat_cases lim st p.cat hcat
  have hdp := he.1
  -- the relation of `body` and the expansion
  have hrel : (67 ∈ body ↔ 67 ∈ E) ∧ (68 ∈ body ↔ 68 ∈ E) ∧
      (E.countP picByte = body.countP picByte + body.countP picCD) ∧ E.count 78 = body.count 78 ∧
      (67 ∉ E → 68 ∉ E → E = body) ∧ (0 < E.countP picSg ↔ 0 < body.countP picSg) ∧
      E.countP picPlace = body.countP picPlace ∧ E.countP picSignSym = body.countP picSignSym ∧
      E.count env.cur = body.count env.cur ∧ picScale env E = picScale env body ∧ picBody E = picNoS body := by
    rcases hform with ⟨rfl, h67, h68⟩ | ⟨b0, n, hn, h67, h68, hb, rfl⟩ | ⟨b0, n, hn, h67, h68, hb, rfl⟩
    · refine ⟨Iff.rfl, Iff.rfl, ?_, rfl, fun _ _ => rfl, Iff.rfl, rfl, rfl, rfl, rfl, ?_⟩
      · have : E.countP picCD = 0 := by
          rw [List.countP_eq_zero]
          intro x hx hh
          simp only [picCD, Bool.or_eq_true, beq_iff_eq] at hh
          rcases hh with rfl | rfl <;> contradiction
        omega
      · unfold picBody
        rw [if_neg]
        rintro (h | h)
        · exact h67 (h.subset (by simp))
        · exact h68 (h.subset (by simp))
    · have hn1 : n = 1 := by
        rw [hb] at hC1
        simp only [List.count_append, List.count_replicate] at hC1
        simp at hC1
        omega
      subst hn1
      have hnp : picPointSym env 82 = false := by
        simp only [picPointSym, Bool.or_eq_false_iff, beq_eq_false_iff_ne]; omega
      refine ⟨by simp, by simp, ?_, by simp [List.count_append], ?_, ?_, ?_, ?_, ?_, ?_, ?_⟩
      · have : body.countP picCD = 1 := by
          rw [hb, countP_rep]
          have : b0.countP picCD = 0 := by
            rw [List.countP_eq_zero]
            intro x hx hh
            simp only [picCD, Bool.or_eq_true, beq_iff_eq] at hh
            rcases hh with rfl | rfl <;> contradiction
          rw [this]; rfl
        rw [this, List.countP_append]; rfl
      · intro h; exact absurd (by rw [hb]; simp) h
      · rw [List.countP_append]; simp [picSg]
      · rw [List.countP_append]; rfl
      · rw [List.countP_append]; rfl
      · rw [List.count_append, List.count_singleton]
        simp [hcur 82 (by simp)]
      · unfold picScale
        rw [noS_snoc _ _ (by omega), scale_snoc env _ _ rfl (by omega) hnp]
      · unfold picBody
        rw [if_pos (Or.inl ⟨b0, by rw [hb]; simp⟩), List.dropLast_concat]
    · have hn1 : n = 1 := by
        rw [hb] at hD1
        simp only [List.count_append, List.count_replicate] at hD1
        simp at hD1
        omega
      subst hn1
      have hnp : picPointSym env 66 = false := by
        simp only [picPointSym, Bool.or_eq_false_iff, beq_eq_false_iff_ne]; omega
      refine ⟨by simp, by simp, ?_, by simp [List.count_append], ?_, ?_, ?_, ?_, ?_, ?_, ?_⟩
      · have : body.countP picCD = 1 := by
          rw [hb, countP_rep]
          have : b0.countP picCD = 0 := by
            rw [List.countP_eq_zero]
            intro x hx hh
            simp only [picCD, Bool.or_eq_true, beq_iff_eq] at hh
            rcases hh with rfl | rfl <;> contradiction
          rw [this]; rfl
        rw [this, List.countP_append]; rfl
      · intro _ h; exact absurd (by rw [hb]; simp) h
      · rw [List.countP_append]; simp [picSg]
      · rw [List.countP_append]; rfl
      · rw [List.countP_append]; rfl
      · rw [List.count_append, List.count_singleton]
        simp [hcur 66 (by simp)]
      · unfold picScale
        rw [noS_snoc _ _ (by omega), scale_snoc env _ _ rfl (by omega) hnp]
      · unfold picBody
        rw [if_pos (Or.inr ⟨b0, by rw [hb]; simp⟩), List.dropLast_concat]
  obtain ⟨r1, r2, r3, r4, r5, r6, r7, r8, r9, r10, r11⟩ := hrel
  have hbits := final_bits env he str E hx hD st body hi r1
  have hplc : body.countP picPlace ≤ body.countP picChar := by
    apply List.countP_mono_left
    intro x _ hh
    simp [picChar, hh]
  have hdig := hi.digits
  have hchr := hi.charLen
  have hscl := hi.scale
  have hpd : (picDigits env E : Int) = st.digits := by
    unfold picDigits
    rw [r7, r8, r9, hdig]; push_cast; omega
  have hscb : -(st.digits) ≤ picScale env E ∧ picScale env E ≤ st.digits := by
    rw [r10]
    unfold picScale picScaleA
    have h1 : ((picNoS body).drop (picPointPos env (picNoS body))).countP picPlace ≤ body.countP picPlace :=
      ((List.drop_sublist _ _).trans List.filter_sublist).countP_le
    have h2 : ((picNoS body).take (picPointPos env (picNoS body))).count 80 ≤ body.countP picPlace := by
      refine Nat.le_trans (((List.take_sublist _ _).trans List.filter_sublist).count_le 80) ?_
      rw [List.count_eq_countP]
      apply List.countP_mono_left
      intro x _ hh
      simp only [beq_iff_eq] at hh
      simp [picPlace, hh]
    omega
  refine ⟨?_, ?_, ?_, ?_, ?_⟩
  · rw [e1, hi.size]
    unfold picSize
    have hB : E.countP (fun c => c != 83 && c != 86 && c != 80) = E.countP picByte := rfl
    rw [hB, r3, r4]
    by_cases hne : p.cat = .nationalEdited
    · have hst := k1.1 hne
      have h67 : 67 ∉ E ∧ 68 ∉ E := by
        by_contra hh
        have : (67 ∈ E ∨ 68 ∈ E) := by
          by_contra h2
          exact hh ⟨fun h => h2 (Or.inl h), fun h => h2 (Or.inr h)⟩
        rw [hbits] at hst
        have := congrArg PicBits.n hst
        simp [PicBits.or, crdbBits, *, picNE] at this
      have hEb := r5 h67.1 h67.2
      have hc0 : guessCat env 0 {} str = picNE := by
        rw [hi.cat, if_neg (fun h => h67.1 (r1.1 h))] at hst
        exact hst
      have hcd : body.countP picCD = 0 := by
        rw [List.countP_eq_zero]
        intro x hx hh
        simp only [picCD, Bool.or_eq_true, beq_iff_eq] at hh
        rcases hh with rfl | rfl
        · exact h67.1 (r1.1 hx)
        · exact h67.2 (r2.1 hx)
      rw [if_pos hc0, hne, hEb]
      simp [hcd]
      try omega
    · have hc0 : guessCat env 0 {} str ≠ picNE := by
        intro hh
        have hst := hi.cat
        rw [hh] at hst
        by_cases h67 : 67 ∈ body
        · rw [if_pos h67] at hst
          apply k4
          rw [hst]; exact ⟨rfl, rfl⟩
        · rw [if_neg h67] at hst
          exact hne (k1.2 hst)
      rw [if_neg hc0]
      simp [hne]
      try omega
  · have h1 := hi.sPos
    have h2 := hi.sIff
    have h3 : picSigned E = true ↔ 0 < E.countP picSg := by
      unfold picSigned
      rw [List.any_eq_true, List.countP_pos_iff]
      rfl
    rw [h3, r6, ← h2, e4]
    omega
  · intro hc
    rw [e2]
    have : st.digits ≤ 160 := by
      rcases hc with hc | hc
      · have := k2 hc; omega
      · have := k3 hc; omega
    have : 0 ≤ st.digits := by omega
    omega
  · intro hc
    rw [e3, hscl, show picScaleA env (picNoS body) = picScale env body from rfl, ← r10]
    rcases hc with hc | hc
    · have := k2 hc; omega
    · omega
  · rw [e5, r11, ← hi.buff]
    unfold expandPic
    rw [List.flatMap_map]

/-- What a symbol of the expansion adds to the category, CR and DB being two symbols each. -/
def picAdds (env : EditEnv) (c : Nat) : PicBits :=
  if c = 67 ∨ c = 68 ∨ c = 82 then { n := true, e := true } else guessSym env c []

theorem adds_pointwise (env : EditEnv) (he : PicEnvOk env) (c : Nat) (hc : picLegal env c ∨ c = 82) :
    (c = 65 ↔ (picAdds env c).n = false ∧ (picAdds env c).nat = false ∧ (picAdds env c).e = false) ∧
    (c ∈ [57, 83, 86, 80] ↔ (picAdds env c).a = false ∧ (picAdds env c).nat = false ∧ (picAdds env c).e = false) ∧
    (c ∈ [65, 88, 57, 83, 86, 80] ↔ (picAdds env c).nat = false ∧ (picAdds env c).e = false) ∧
    (c = 78 ↔ (picAdds env c).a = false ∧ (picAdds env c).n = false ∧ (picAdds env c).e = false) ∧
    (c ∈ [78, 48, 66, 47] ↔ (picAdds env c).a = false ∧ (picAdds env c).n = false) ∧
    (c = 78 ↔ (picAdds env c).nat = true) ∧
    ((c = 65 ∨ c = 88) ↔ (picAdds env c).a = true) := by
  have h2 := he.2
  by_cases hcc : c = env.cur
  · rw [← hcc] at h2
    simp only [List.mem_cons, List.not_mem_nil, or_false, not_or] at h2
    have : picAdds env c = { n := true, e := true } := by
      simp [picAdds, guessSym, h2, ← hcc]
    rw [this]
    simp [h2]
  · rcases hc with (h | h) | h
    · simp only [List.mem_cons, List.not_mem_nil, or_false] at h
      rcases h with h | h | h | h | h | h | h | h | h | h | h | h | h | h | h | h | h | h <;> subst h <;>
        simp [picAdds, guessSym]
    · exact absurd h hcc
    · subst h
      simp [picAdds]

theorem or_bits (x y : PicBits) :
    ((x.or y).a = true ↔ x.a = true ∨ y.a = true) ∧ ((x.or y).n = true ↔ x.n = true ∨ y.n = true) ∧
    ((x.or y).nat = true ↔ x.nat = true ∨ y.nat = true) ∧ ((x.or y).e = true ↔ x.e = true ∨ y.e = true) := by
  simp [PicBits.or]

/-- The conditions of `picClass`, by the category bits. -/
structure ClassBits (E : List Nat) (k : PicBits) : Prop where
  c1 : (E.all (· == 65)) = true ↔ (k.n = false ∧ k.nat = false ∧ k.e = false)
  c2 : (E.all fun c => [57, 83, 86, 80].contains c) = true ↔ (k.a = false ∧ k.nat = false ∧ k.e = false)
  c3 : (E.all fun c => [65, 88, 57, 83, 86, 80].contains c) = true ↔ (k.nat = false ∧ k.e = false)
  c4 : (E.all (· == 78)) = true ↔ (k.a = false ∧ k.n = false ∧ k.e = false)
  c5 : (E.all fun c => [78, 48, 66, 47].contains c) = true ↔ (k.a = false ∧ k.n = false)
  c6 : E.contains 78 = true ↔ k.nat = true
  c7 : (E.contains 65 || E.contains 88) = true ↔ k.a = true

theorem class_bits (env : EditEnv) (he : PicEnvOk env) (E : List Nat) (k : PicBits)
    (hbits : k = (picKinds env E).or (crdbBits (decide (67 ∈ E ∨ 68 ∈ E))))
    (r2 : ∀ c ∈ E, picLegal env c ∨ c = 82) (r3 : 82 ∈ E → 67 ∈ E) : ClassBits E k := by
  have hcur : ∀ d ∈ [0, 40, 41, 42, 43, 44, 45, 46, 47, 48, 57, 65, 66, 67, 68, 78, 80, 82, 83, 86, 88, 90], ¬ d = env.cur :=
    fun d hd hh => he.2 (hh ▸ hd)
  obtain ⟨ka, kn, knat, ke⟩ := kinds_iff env E
  obtain ⟨oa, on, onat, oe⟩ := or_bits (picKinds env E) (crdbBits (decide (67 ∈ E ∨ 68 ∈ E)))
  rw [← hbits] at oa on onat oe
  have hcd : (67 ∈ E ∨ 68 ∈ E) ↔ ∃ c ∈ E, c = 67 ∨ c = 68 ∨ c = 82 := by
    constructor
    · rintro (h | h)
      · exact ⟨67, h, Or.inl rfl⟩
      · exact ⟨68, h, Or.inr (Or.inl rfl)⟩
    · rintro ⟨c, h, rfl | rfl | rfl⟩
      · exact Or.inl h
      · exact Or.inr h
      · exact Or.inl (r3 h)
  have hspec : ∀ c, c = 67 ∨ c = 68 ∨ c = 82 → guessSym env c [] = {} := by
    have hcu := hcur 82 (by simp)
    rintro c (rfl | rfl | rfl)
    · rfl
    · rfl
    · simp [guessSym, hcu]
  have ba : k.a = true ↔ ∃ c ∈ E, (picAdds env c).a = true := by
    rw [oa, ka]
    constructor
    · rintro (⟨c, h1, h2⟩ | h)
      · refine ⟨c, h1, ?_⟩
        unfold picAdds
        split
        · rename_i h; rw [hspec c h] at h2; exact absurd h2 (by simp)
        · exact h2
      · unfold crdbBits at h; split at h <;> simp at h
    · rintro ⟨c, h1, h2⟩
      unfold picAdds at h2
      split at h2
      · exact absurd h2 (by simp)
      · exact Or.inl ⟨c, h1, h2⟩
  have bnat : k.nat = true ↔ ∃ c ∈ E, (picAdds env c).nat = true := by
    rw [onat, knat]
    constructor
    · rintro (⟨c, h1, h2⟩ | h)
      · refine ⟨c, h1, ?_⟩
        unfold picAdds
        split
        · rename_i h; rw [hspec c h] at h2; exact absurd h2 (by simp)
        · exact h2
      · unfold crdbBits at h; split at h <;> simp at h
    · rintro ⟨c, h1, h2⟩
      unfold picAdds at h2
      split at h2
      · exact absurd h2 (by simp)
      · exact Or.inl ⟨c, h1, h2⟩
  have bn : k.n = true ↔ ∃ c ∈ E, (picAdds env c).n = true := by
    rw [on, kn]
    constructor
    · rintro (⟨c, h1, h2⟩ | h)
      · refine ⟨c, h1, ?_⟩
        unfold picAdds
        split
        · rfl
        · exact h2
      · unfold crdbBits at h
        split at h
        · rename_i hh
          obtain ⟨c, h1, h2⟩ := hcd.1 (of_decide_eq_true hh)
          exact ⟨c, h1, by rw [picAdds, if_pos h2]⟩
        · simp at h
    · rintro ⟨c, h1, h2⟩
      unfold picAdds at h2
      split at h2
      · rename_i hh
        right
        rw [decide_eq_true (hcd.2 ⟨c, h1, hh⟩)]
        rfl
      · exact Or.inl ⟨c, h1, h2⟩
  have be : k.e = true ↔ ∃ c ∈ E, (picAdds env c).e = true := by
    rw [oe, ke]
    constructor
    · rintro (⟨c, h1, h2⟩ | h)
      · refine ⟨c, h1, ?_⟩
        unfold picAdds
        split
        · rfl
        · exact h2
      · unfold crdbBits at h
        split at h
        · rename_i hh
          obtain ⟨c, h1, h2⟩ := hcd.1 (of_decide_eq_true hh)
          exact ⟨c, h1, by rw [picAdds, if_pos h2]⟩
        · simp at h
    · rintro ⟨c, h1, h2⟩
      unfold picAdds at h2
      split at h2
      · rename_i hh
        right
        rw [decide_eq_true (hcd.2 ⟨c, h1, hh⟩)]
        rfl
      · exact Or.inl ⟨c, h1, h2⟩
  have fa : k.a = false ↔ ∀ c ∈ E, (picAdds env c).a = false := by
    rw [← Bool.not_eq_true, ba]; simp
  have fn : k.n = false ↔ ∀ c ∈ E, (picAdds env c).n = false := by
    rw [← Bool.not_eq_true, bn]; simp
  have fnat : k.nat = false ↔ ∀ c ∈ E, (picAdds env c).nat = false := by
    rw [← Bool.not_eq_true, bnat]; simp
  have fe : k.e = false ↔ ∀ c ∈ E, (picAdds env c).e = false := by
    rw [← Bool.not_eq_true, be]; simp
  have pw : ∀ c ∈ E, _ := fun c hc => adds_pointwise env he c (r2 c hc)
  have c1 : (E.all (· == 65)) = true ↔ (k.n = false ∧ k.nat = false ∧ k.e = false) := by
    rw [List.all_eq_true, fn, fnat, fe]
    constructor
    · intro h
      exact ⟨fun c hc => ((pw c hc).1.1 (by simpa using h c hc)).1, fun c hc => ((pw c hc).1.1 (by simpa using h c hc)).2.1,
        fun c hc => ((pw c hc).1.1 (by simpa using h c hc)).2.2⟩
    · rintro ⟨h1, h2, h3⟩ c hc
      simpa using (pw c hc).1.2 ⟨h1 c hc, h2 c hc, h3 c hc⟩
  have c2 : (E.all fun c => [57, 83, 86, 80].contains c) = true ↔ (k.a = false ∧ k.nat = false ∧ k.e = false) := by
    rw [List.all_eq_true, fa, fnat, fe]
    constructor
    · intro h
      have h : ∀ c ∈ E, c ∈ [57, 83, 86, 80] := fun c hc => List.contains_iff_mem.1 (h c hc)
      exact ⟨fun c hc => ((pw c hc).2.1.1 (h c hc)).1, fun c hc => ((pw c hc).2.1.1 (h c hc)).2.1,
        fun c hc => ((pw c hc).2.1.1 (h c hc)).2.2⟩
    · rintro ⟨h1, h2, h3⟩ c hc
      exact List.contains_iff_mem.2 ((pw c hc).2.1.2 ⟨h1 c hc, h2 c hc, h3 c hc⟩)
  have c3 : (E.all fun c => [65, 88, 57, 83, 86, 80].contains c) = true ↔ (k.nat = false ∧ k.e = false) := by
    rw [List.all_eq_true, fnat, fe]
    constructor
    · intro h
      have h : ∀ c ∈ E, c ∈ [65, 88, 57, 83, 86, 80] := fun c hc => List.contains_iff_mem.1 (h c hc)
      exact ⟨fun c hc => ((pw c hc).2.2.1.1 (h c hc)).1, fun c hc => ((pw c hc).2.2.1.1 (h c hc)).2⟩
    · rintro ⟨h1, h2⟩ c hc
      exact List.contains_iff_mem.2 ((pw c hc).2.2.1.2 ⟨h1 c hc, h2 c hc⟩)
  have c4 : (E.all (· == 78)) = true ↔ (k.a = false ∧ k.n = false ∧ k.e = false) := by
    rw [List.all_eq_true, fa, fn, fe]
    constructor
    · intro h
      exact ⟨fun c hc => ((pw c hc).2.2.2.1.1 (by simpa using h c hc)).1, fun c hc => ((pw c hc).2.2.2.1.1 (by simpa using h c hc)).2.1,
        fun c hc => ((pw c hc).2.2.2.1.1 (by simpa using h c hc)).2.2⟩
    · rintro ⟨h1, h2, h3⟩ c hc
      simpa using (pw c hc).2.2.2.1.2 ⟨h1 c hc, h2 c hc, h3 c hc⟩
  have c5 : (E.all fun c => [78, 48, 66, 47].contains c) = true ↔ (k.a = false ∧ k.n = false) := by
    rw [List.all_eq_true, fa, fn]
    constructor
    · intro h
      have h : ∀ c ∈ E, c ∈ [78, 48, 66, 47] := fun c hc => List.contains_iff_mem.1 (h c hc)
      exact ⟨fun c hc => ((pw c hc).2.2.2.2.1.1 (h c hc)).1, fun c hc => ((pw c hc).2.2.2.2.1.1 (h c hc)).2⟩
    · rintro ⟨h1, h2⟩ c hc
      exact List.contains_iff_mem.2 ((pw c hc).2.2.2.2.1.2 ⟨h1 c hc, h2 c hc⟩)
  have c6 : E.contains 78 = true ↔ k.nat = true := by
    rw [List.contains_iff_mem, bnat]
    constructor
    · intro h; exact ⟨78, h, (pw 78 h).2.2.2.2.2.1.1 rfl⟩
    · rintro ⟨c, h1, h2⟩
      rw [← (pw c h1).2.2.2.2.2.1.2 h2]; exact h1
  have c7 : (E.contains 65 || E.contains 88) = true ↔ k.a = true := by
    rw [Bool.or_eq_true, List.contains_iff_mem, List.contains_iff_mem, ba]
    constructor
    · rintro (h | h)
      · exact ⟨65, h, (pw 65 h).2.2.2.2.2.2.1 (Or.inl rfl)⟩
      · exact ⟨88, h, (pw 88 h).2.2.2.2.2.2.1 (Or.inr rfl)⟩
    · rintro ⟨c, h1, h2⟩
      rcases (pw c h1).2.2.2.2.2.2.2 h2 with rfl | rfl
      · exact Or.inl h1
      · exact Or.inr h1
  exact ⟨c1, c2, c3, c4, c5, c6, c7⟩

theorem class_eq (E : List Nat) (k : PicBits) (h : ClassBits E k) :
    picClass E =
      if k.n = false ∧ k.nat = false ∧ k.e = false then .alphabetic
      else if k.a = false ∧ k.nat = false ∧ k.e = false then .numeric
      else if k.nat = false ∧ k.e = false then .alphanumeric
      else if k.a = false ∧ k.n = false ∧ k.e = false then .national
      else if k.a = false ∧ k.n = false then (if k.nat = true then .nationalEdited else .alphanumericEdited)
      else if k.a = true then .alphanumericEdited
      else .numericEdited := by
  unfold picClass
  rw [if_congr h.c1 rfl rfl, if_congr h.c2 rfl rfl, if_congr h.c3 rfl rfl, if_congr h.c4 rfl rfl, if_congr h.c5 rfl rfl,
    if_congr h.c6 rfl rfl, if_congr h.c7 rfl rfl]

/-- **C43** The category the compiler gives an item is the one its symbols stand for. -/
theorem C43_category (env : EditEnv) (he : PicEnvOk env) (lim : PicLimits) (str : List Nat) (p : Picture)
    (hp : buildPicture env lim str = some p) (E : List Nat) (hx : expandStr [] none str = some E) (hE : E.length < 536870912)
    (hD : 68 ∈ E → [68, 66] <:+ str) :
    p.cat.toClass = picClass E := by
  obtain ⟨st, body, hi, hsc, hleg, hform, hcat, e1, e2, e3, e4, e5⟩ := build_inv env he lim str p hp E hx hE
  have hcur : ∀ d ∈ [0, 40, 41, 42, 43, 44, 45, 46, 47, 48, 57, 65, 66, 67, 68, 78, 80, 82, 83, 86, 88, 90], ¬ d = env.cur :=
    fun d hd hh => he.2 (hh ▸ hd)
  have hrel : (67 ∈ body ↔ 67 ∈ E) ∧ (∀ c ∈ E, picLegal env c ∨ c = 82) ∧ (82 ∈ E → 67 ∈ E) := by
    have h82 : ∀ c ∈ body, c ≠ 82 := by
      intro c hc h
      subst h
      rcases hleg _ hc with h | h
      · simp at h
      · exact hcur 82 (by simp) h
    rcases hform with ⟨rfl, h67, h68⟩ | ⟨b0, n, hn, h67, h68, hb, rfl⟩ | ⟨b0, n, hn, h67, h68, hb, rfl⟩
    · exact ⟨Iff.rfl, fun c hc => Or.inl (hleg c hc), fun h => absurd rfl (h82 _ h)⟩
    · refine ⟨by simp, ?_, fun _ => ?_⟩
      · intro c hc
        rw [List.mem_append] at hc
        rcases hc with hc | hc
        · exact Or.inl (hleg c hc)
        · right; simpa using hc
      · rw [hb]; simp [Nat.pos_iff_ne_zero.1 hn]
    · refine ⟨by simp, ?_, fun h => ?_⟩
      · intro c hc
        rw [List.mem_append] at hc
        rcases hc with hc | hc
        · exact Or.inl (hleg c hc)
        · left; left; rw [show c = 66 by simpa using hc]; simp
      · rw [List.mem_append] at h
        rcases h with h | h
        · exact absurd rfl (h82 _ h)
        · simp at h
  obtain ⟨r1, r2, r3⟩ := hrel
  have hbits := final_bits env he str E hx hD st body hi r1
  rw [class_eq E st.cat (class_bits env he E st.cat hbits r2 r3)]
  unfold picCategory at hcat
  generalize st.cat = k at hcat
  obtain ⟨a, n, nat, e⟩ := k
  cases a <;> cases n <;> cases nat <;> cases e <;> simp only at hcat <;>
    first
    | (split at hcat
       · exact absurd hcat (by simp)
       · injection hcat with hcat
         rw [← hcat]
         simp [PicCat.toClass])
    | exact absurd hcat (by simp)

end Cob
