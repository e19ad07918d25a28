import Verif.Cobc.SourceIfProps
import Verif.Cobc.SourceFind
/-
C66: the theorem, samples, findings.
-/
namespace Cob

theorem emit_keeps {cfg : SCfg} {st st' : SSt} {cont : Bool} {col : Nat} {t x : List Nat}
    (h : emitText cfg st cont col t = .out x st') : st'.stack = st.stack ∧ st'.status = st.status := by
  unfold emitText at h
  cases cont
  · simp only [Bool.false_eq_true, if_false, SRd.out.injEq] at h; rw [← h.2]; exact ⟨rfl, rfl⟩
  · simp only [if_true, SRd.out.injEq] at h; rw [← h.2]; exact ⟨rfl, rfl⟩

theorem emit_not_skip (cfg : SCfg) (st st' : SSt) (cont : Bool) (col : Nat) (t : List Nat) :
    emitText cfg st cont col t ≠ .skip st' := by
  unfold emitText
  cases cont <;> simp

theorem cont_keeps {cfg : SCfg} {st st' : SSt} {t x : List Nat} (h : continueLine cfg st t = .out x st') :
    st'.stack = st.stack ∧ st'.status = st.status := by
  unfold continueLine at h
  dsimp only at h
  split at h
  · split at h
    · split at h
      · have := emit_keeps h; exact this
      · simp at h
    · simp at h
  · split at h
    · split at h
      · split at h
        · exact emit_keeps h
        · simp at h
      · simp at h
    · exact emit_keeps h

theorem cont_not_skip (cfg : SCfg) (st st' : SSt) (t : List Nat) : continueLine cfg st t ≠ .skip st' := by
  unfold continueLine
  dsimp only
  split
  · split
    · split
      · exact emit_not_skip _ _ _ _ _ _
      · simp
    · simp
  · split
    · split
      · split
        · exact emit_not_skip _ _ _ _ _ _
        · simp
      · simp
    · exact emit_not_skip _ _ _ _ _ _

theorem fixed_keeps {cfg : SCfg} {st st' : SSt} {b : List Nat}
    (h : fixedLine cfg st b = .skip st' ∨ ∃ x, fixedLine cfg st b = .out x st') : st'.stack = st.stack ∧ st'.status = st.status := by
  have hs : ∀ {s : SSt}, SRd.skip { s with nl := s.nl + 1 } = .skip st' ∨ (∃ x, SRd.skip { s with nl := s.nl + 1 } = .out x st') →
      st'.stack = s.stack ∧ st'.status = s.status := by
    rintro s (h | ⟨x, h⟩)
    · injection h with h; rw [← h]; exact ⟨rfl, rfl⟩
    · simp at h
  unfold fixedLine at h
  dsimp only at h
  repeat' split at h
  all_goals first
    | exact hs h
    | (rcases h with h | ⟨x, h⟩ <;> simp at h; done)
    | (rcases h with h | ⟨x, h⟩
       · first
         | exact absurd h (cont_not_skip _ _ _ _)
         | exact absurd h (emit_not_skip _ _ _ _ _ _)
       · first
         | exact cont_keeps h
         | (have := emit_keeps h; exact this))

theorem plain_fixed (cfg : SCfg) (st : SSt) (hf : st.fmt = .fixed) (hf1 : st.fmt1 = false)
    (hs : st.status = .none ∨ st.status = .tru) {l : List Nat} (hok : SrcOk l) :
    ppLine cfg st (l ++ [10]) = fixedLine cfg st (l ++ [10]) := by
  unfold ppLine
  rw [if_neg (by simp [hf1]), cut_plain hok, directive_plain hok cfg st hf]
  dsimp only
  rw [dollar_plain hok cfg st hf]
  rcases hs with hs | hs <;> simp only [hs, hf, if_true]

/-- The lines give the texts of the selected ones. -/
def Picks (cfg : SCfg) (st : SSt) (s : Lit) (lines sel : List (List Nat)) (K : List CSt) : Prop :=
  ∃ r, Runs cfg st lines r ∧ (pieceRun cfg.debugging s sel = none → r = none) ∧
    ∀ ps s', pieceRun cfg.debugging s sel = some (ps, s') →
      ∃ o st', r = some (o, st') ∧ InPart st' s' K ∧ Laid st.nl ps o st'.nl

theorem picks_append {cfg : SCfg} {st : SSt} {s : Lit} {a b sa sb : List (List Nat)} {K K' : List CSt}
    (h : Picks cfg st s a sa K) (h' : ∀ st1 s1, InPart st1 s1 K → Picks cfg st1 s1 b sb K') : Picks cfg st s (a ++ b) (sa ++ sb) K' := by
  obtain ⟨r, h1, h2, h3⟩ := h
  obtain ⟨g1, g2⟩ := runs_append (b := b) h1
  unfold Picks
  rw [pieceRun_append]
  cases hp : pieceRun cfg.debugging s sa with
  | none =>
    refine ⟨none, g1 (h2 hp), fun _ => rfl, fun ps s' he => ?_⟩
    simp at he
  | some q =>
    obtain ⟨ps, s1⟩ := q
    obtain ⟨o, st1, rfl, hin, hl⟩ := h3 ps s1 hp
    obtain ⟨r', k1, k2, k3⟩ := h' st1 s1 hin
    refine ⟨_, g2 o st1 r' rfl k1, fun he => ?_, fun ps' s' he => ?_⟩
    · simp only [Option.bind_some, Option.map_eq_none_iff] at he
      rw [k2 he]; rfl
    · simp only [Option.bind_some, Option.map_eq_some_iff] at he
      obtain ⟨⟨qs, s2⟩, he, hq⟩ := he
      simp only [Prod.mk.injEq] at hq
      obtain ⟨rfl, rfl⟩ := hq
      obtain ⟨o', st2, rfl, hin', hl'⟩ := k3 qs s2 he
      exact ⟨o ++ o', st2, rfl, hin', laid_append hl hl'⟩

theorem picks_line (cfg : SCfg) (hcol : cfg.textCol = 72) (hmf : cfg.mfcomment = false) (st : SSt) (s : Lit) (K : List CSt)
    (h : InPart st s K) {l : List Nat} (hok : SrcOk l) : Picks cfg st s [l] (if active K then [l] else []) K := by
  have hlen := hok.len
  by_cases ha : active K = true
  · rw [if_pos ha]
    have hst := h.status
    rw [if_pos ha] at hst
    have hb : Between st s st.nl := ⟨h.fmt, h.fmt1, hst, h.quote, h.consec, h.good, rfl⟩
    have hres := line_ok cfg hcol hmf st s st.nl hb l hok
    have hpl := plain_fixed cfg st h.fmt h.fmt1 hst hok
    have part : ∀ st' s' n, Between st' s' n → (fixedLine cfg st (l ++ [10]) = .skip st' ∨ ∃ x, fixedLine cfg st (l ++ [10]) = .out x st') →
        InPart st' s' K := by
      intro st' s' n hb' hk
      obtain ⟨k1, k2⟩ := fixed_keeps hk
      exact ⟨hb'.fmt, hb'.fmt1, by rw [if_pos ha]; exact hb'.status, hb'.quote, hb'.consec, hb'.good, by rw [k1]; exact h.stack⟩
    generalize hp : ppLine cfg st (l ++ [10]) = res at hres
    rw [hp] at hpl
    unfold Picks
    cases hres with
    | skip st' hst' hi =>
      have hpr : pieceRun cfg.debugging s [l] = some ([], s) := by
        rw [pieceRun]
        rcases hi with hi | ⟨hi, h3, hb⟩
        · rw [if_pos hi]; rfl
        · rw [if_neg (by simp [hi]), if_neg (fun hn => hn h3), if_pos hb]; rfl
      refine ⟨some ([], st'), .skip st st' l [] _ h.fmt hok.len hok.chars hp (.nil st'), by simp [hpr], fun ps s' he => ?_⟩
      rw [hpr] at he
      simp only [Option.some.injEq, Prod.mk.injEq] at he
      obtain ⟨rfl, rfl⟩ := he
      exact ⟨[], st', rfl, part st' s _ hst' (.inl hpl.symm), .nil _ _ fun _ => by rw [hst'.nl]; omega⟩
    | bad hi h3 =>
      have hpr : pieceRun cfg.debugging s [l] = none := by rw [pieceRun, if_neg (by simp [hi]), if_pos h3]
      exact ⟨none, .stop st l [] h.fmt hok.len hok.chars hp, fun _ => rfl, fun ps s' he => by rw [hpr] at he; simp at he⟩
    | badCont hi hb h4 hc =>
      have hpr : pieceRun cfg.debugging s [l] = none := by
        rw [pieceRun, if_neg (by simp [hi]), if_neg (by simp [h4]), if_neg (by simp [hb]), if_pos h4, hc]; rfl
      exact ⟨none, .stop st l [] h.fmt hok.len hok.chars hp, fun _ => rfl, fun ps s' he => by rw [hpr] at he; simp at he⟩
    | cont hi hb h4 p hc st' hst' =>
      have hpr : pieceRun cfg.debugging s [l] = some ([(true, visible (p.1.after p.2.1 p.2.2) p.2.1 p.2.2)], p.1.after p.2.1 p.2.2) := by
        rw [pieceRun, if_neg (by simp [hi]), if_neg (by simp [h4]), if_neg (by simp [hb]), if_pos h4, hc]; rfl
      refine ⟨_, .out st st' l _ [] _ h.fmt hok.len hok.chars hp (.nil st'), by simp [hpr], fun ps s' he => ?_⟩
      rw [hpr] at he
      simp only [Option.some.injEq, Prod.mk.injEq] at he
      obtain ⟨rfl, rfl⟩ := he
      exact ⟨_, st', rfl, part st' _ _ hst' (.inr ⟨_, hpl.symm⟩), .cont _ _ _ _ _ (.nil _ _ fun _ => by rw [hst'.nl]; omega)⟩
    | normal hi hb h4 st' hst' =>
      have hne : l[6]? ≠ some 45 := by rcases h4 with h | h | h <;> simp [h]
      have hpr : pieceRun cfg.debugging s [l] = some ([(false, visible (Lit.closed.after 7 (area l)) 7 (area l))], Lit.closed.after 7 (area l)) := by
        rw [pieceRun, if_neg (by simp [hi]), if_neg (by rcases h4 with h | h | h <;> simp [h]), if_neg (by simp [hb]), if_neg hne]; rfl
      refine ⟨_, .out st st' l _ [] _ h.fmt hok.len hok.chars hp (.nil st'), by simp [hpr], fun ps s' he => ?_⟩
      rw [hpr] at he
      simp only [Option.some.injEq, Prod.mk.injEq] at he
      obtain ⟨rfl, rfl⟩ := he
      refine ⟨_, st', rfl, part st' _ _ hst' (.inr ⟨_, hpl.symm⟩), ?_⟩
      exact .new _ _ st.nl _ _ _ (fun h => h) (.nil _ _ fun _ => by rw [hst'.nl]; omega)
  · rw [if_neg ha]
    have hst := h.status
    rw [if_neg ha] at hst
    have hp : ppLine cfg st (l ++ [10]) = .skip { st with nl := st.nl + 1 } := by
      unfold ppLine
      rw [if_neg (by simp [h.fmt1]), cut_plain hok, directive_plain hok cfg st h.fmt]
      dsimp only
      rw [dollar_plain hok cfg st h.fmt]
      simp only [hst]
    refine ⟨some ([], { st with nl := st.nl + 1 }), .skip st _ l [] _ h.fmt hok.len hok.chars hp (.nil _), by simp [pieceRun], fun ps s' he => ?_⟩
    simp only [pieceRun, Option.some.injEq, Prod.mk.injEq] at he
    obtain ⟨rfl, rfl⟩ := he
    exact ⟨[], _, rfl, ⟨h.fmt, h.fmt1, by rw [if_neg ha]; exact hst, h.quote, h.consec, h.good, h.stack⟩, .nil _ _ fun _ => by simp⟩

theorem picks_dir (cfg : SCfg) (hcol : cfg.textCol = 72) (hmf : cfg.mfcomment = false) (st : SSt) (s : Lit) (K K' : List CSt)
    (hst : InPart st s K) {l : List Nat} {ws : List (List Nat)} (h : DirLine l ws) (h5 : ws.length ≤ 5)
    (hset : sameB (ws.getD 0 []) (bytes "$SET") = false) (hne : ws ≠ [])
    (hd : ∀ vs : List (List Nat), vs.length = ws.length → (∀ p ∈ vs.zip ws, sameB p.1 p.2 = true) →
      (∀ v ∈ vs, v ≠ []) → dollarStack cfg K vs = some K') : Picks cfg st s [l] [] K' := by
  obtain ⟨st', h1, h2, h3⟩ := dir_line cfg hcol hmf h st s K K' hst h5 hset hne hd
  refine ⟨some ([], st'), .skip st st' l [] _ hst.fmt h.len (fun c hc => ?_) h1 (.nil _), by simp [pieceRun], fun ps s' he => ?_⟩
  · have := h.chars c hc; exact ⟨this.1, this.2.1, this.2.2.1⟩
  · simp only [pieceRun, Option.some.injEq, Prod.mk.injEq] at he
    obtain ⟨rfl, rfl⟩ := he
    exact ⟨[], st', rfl, h2, .nil _ _ fun _ => by omega⟩

theorem words_len (c : DirCond) : (bytes "$IF" :: c.words).length ≤ 5 := by
  cases c with
  | defined b n => cases b <;> simp [DirCond.words]
  | equals b n t => cases b <;> simp [DirCond.words]

theorem active_cons (x : CSt) (K : List CSt) : active (x :: K) = ((x == .tru || x == .truElse) && active K) := rfl

theorem picks_text (cfg : SCfg) (hcol : cfg.textCol = 72) (hmf : cfg.mfcomment = false) (t : IfText) :
    ∀ (st : SSt) (s : Lit) (K : List CSt), t.Ok → t.depth + K.length ≤ 10 → InPart st s K →
      Picks cfg st s t.lines (if active K then t.selected cfg.consts else []) K := by
  induction t with
  | done =>
    intro st s K _ _ h
    refine ⟨some ([], st), .nil st, by simp [IfText.selected, pieceRun], fun ps s' he => ?_⟩
    simp only [IfText.selected, ite_self, pieceRun, Option.some.injEq, Prod.mk.injEq] at he
    obtain ⟨rfl, rfl⟩ := he
    exact ⟨[], st, rfl, h, .nil _ _ fun h => h⟩
  | line l rest ih =>
    intro st s K hok hd h
    have := picks_append (picks_line cfg hcol hmf st s K h hok.1) (fun st1 s1 h1 => ih st1 s1 K hok.2 hd h1)
    cases hK : active K <;> simpa [hK, IfText.lines, IfText.selected] using this
  | ifEnd i c yes e rest ih1 ih2 =>
    intro st s K hok hd h
    obtain ⟨o1, o2, o3, o4, o5⟩ := hok
    simp only [IfText.depth] at hd
    have p1 := picks_dir cfg hcol hmf st s K ((if c.holds cfg.consts then .tru else .fls) :: K) h o1 (words_len c)
      (by show sameB (bytes "$IF") (bytes "$SET") = false; decide +kernel) (by simp) (fun vs a b d => if_stack cfg c o2 K (by omega) vs a b d)
    have p2 := picks_append p1 (fun st1 s1 h1 => picks_append (ih1 st1 s1 _ o3 (by simp; omega) h1) (fun st2 s2 h2 =>
      picks_append (picks_dir cfg hcol hmf st2 s2 _ K h2 o4 (by simp) (by decide +kernel) (by simp)
        (fun vs a b d => end_stack cfg _ K vs a b)) (fun st3 s3 h3 => ih2 st3 s3 K o5 (by omega) h3)))
    rw [active_cons] at p2
    cases hK : active K <;> cases hc : c.holds cfg.consts <;>
      simpa [hK, hc, IfText.lines, IfText.selected] using p2
  | ifElse i c yes el no e rest ih1 ih2 ih3 =>
    intro st s K hok hd h
    obtain ⟨o1, o2, o3, o4, o5, o6, o7⟩ := hok
    simp only [IfText.depth] at hd
    have p1 := picks_dir cfg hcol hmf st s K ((if c.holds cfg.consts then .tru else .fls) :: K) h o1 (words_len c)
      (by show sameB (bytes "$IF") (bytes "$SET") = false; decide +kernel) (by simp) (fun vs a b d => if_stack cfg c o2 K (by omega) vs a b d)
    have p2 := picks_append p1 (fun st1 s1 h1 => picks_append (ih1 st1 s1 _ o3 (by simp; omega) h1) (fun st2 s2 h2 =>
      picks_append (picks_dir cfg hcol hmf st2 s2 _ ((if c.holds cfg.consts then .flsElse else .truElse) :: K) h2 o4 (by simp)
        (by decide +kernel) (by simp) (fun vs a b d => else_stack cfg _ K vs a b)) (fun st3 s3 h3 =>
      picks_append (ih2 st3 s3 _ o5 (by simp; omega) h3) (fun st4 s4 h4 =>
      picks_append (picks_dir cfg hcol hmf st4 s4 _ K h4 o6 (by simp) (by decide +kernel) (by simp)
        (fun vs a b d => end_stack cfg _ K vs a b)) (fun st5 s5 h5 => ih3 st5 s5 K o7 (by omega) h5)))))
    rw [active_cons, active_cons] at p2
    cases hK : active K <;> cases hc : c.holds cfg.consts <;>
      simpa [hK, hc, IfText.lines, IfText.selected] using p2

/-- A file without conditional parts. -/
def onlyLines : List (List Nat) → IfText
  | [] => .done
  | l :: ls => .line l (onlyLines ls)

theorem plain_facts (consts : List (List Nat × Option (List Nat))) : ∀ ls : List (List Nat), (∀ l ∈ ls, SrcOk l) →
    (onlyLines ls).Ok ∧ (onlyLines ls).depth = 0 ∧ (onlyLines ls).lines = ls ∧ (onlyLines ls).selected consts = ls := by
  intro ls
  induction ls with
  | nil => intro _; exact ⟨trivial, rfl, rfl, rfl⟩
  | cons l ls ih =>
    intro h
    obtain ⟨h1, h2, h3, h4⟩ := ih (fun x hx => h x (by simp [hx]))
    exact ⟨⟨h l (by simp), h1⟩, h2, by simp [onlyLines, IfText.lines, h3], by simp [onlyLines, IfText.selected, h4]⟩

theorem selected_ok (consts : List (List Nat × Option (List Nat))) (t : IfText) : t.Ok → ∀ l ∈ t.selected consts, SrcOk l := by
  induction t with
  | done => intro _ l hl; simp [IfText.selected] at hl
  | line l rest ih =>
    intro h x hx
    simp only [IfText.selected, List.mem_cons] at hx
    rcases hx with rfl | hx
    · exact h.1
    · exact ih h.2 x hx
  | ifEnd i c yes e rest ih1 ih2 =>
    intro h x hx
    obtain ⟨_, _, o3, _, o5⟩ := h
    simp only [IfText.selected, List.mem_append] at hx
    rcases hx with hx | hx
    · split at hx
      · exact ih1 o3 x hx
      · simp at hx
    · exact ih2 o5 x hx
  | ifElse i c yes el no e rest ih1 ih2 ih3 =>
    intro h x hx
    obtain ⟨_, _, o3, _, o5, _, o7⟩ := h
    simp only [IfText.selected, List.mem_append] at hx
    rcases hx with hx | hx
    · split at hx
      · exact ih1 o3 x hx
      · exact ih2 o5 x hx
    · exact ih3 o7 x hx

/-! ### The theorem -/

/-- A file with conditional parts, nested up to 10 deep, is compiled as the file of its selected lines: the same error, or the
same lines of text. -/
theorem C66_conditional (cfg : SCfg) (hcol : cfg.textCol = 72) (hmf : cfg.mfcomment = false) (t : IfText) (hok : t.Ok)
    (hd : t.depth ≤ 10) :
    (ppSource cfg .fixed (fileOf t.lines)).map (srcLines []) =
      (ppSource cfg .fixed (fileOf (t.selected cfg.consts))).map (srcLines []) := by
  have hstart : InPart (startState .fixed) .closed [] := ⟨rfl, rfl, .inl rfl, rfl, rfl, trivial, rfl⟩
  obtain ⟨g1, g2, g3, g4⟩ := plain_facts cfg.consts _ (selected_ok cfg.consts t hok)
  obtain ⟨r, h1, h2, h3⟩ := picks_text cfg hcol hmf t _ _ [] hok (by simpa using hd) hstart
  obtain ⟨r', k1, k2, k3⟩ := picks_text cfg hcol hmf (onlyLines (t.selected cfg.consts)) _ _ [] g1 (by simp [g2]) hstart
  rw [g3] at k1
  simp only [show active [] = true from rfl, if_true, g4] at h2 h3 k2 k3
  have e1 := file_runs h1 ((fileOf t.lines).length + 1) (by omega)
  have e2 := file_runs k1 ((fileOf (t.selected cfg.consts)).length + 1) (by omega)
  unfold ppSource
  rw [e1, e2]
  cases hp : pieceRun cfg.debugging .closed (t.selected cfg.consts) with
  | none => rw [h2 hp, k2 hp]
  | some q =>
    obtain ⟨ps, s'⟩ := q
    obtain ⟨o, st1, rfl, _, l1⟩ := h3 ps s' hp
    obtain ⟨o', st2, rfl, _, l2⟩ := k3 ps s' hp
    simp only [Option.map_some, Option.some.injEq]
    exact laid_lines ps 0 _ _ o o' [] (.inr rfl) l1 l2

/-! ### Samples -/

/-- A sample: constants `TARGET` with the text "unix" and `LEVEL`, a number. -/
def ifCfg : SCfg := ⟨72, 8, false, false, [(bytes "TARGET", some (bytes "unix")), (bytes "LEVEL", none)]⟩

def ifSample : IfText :=
  .line (List.replicate 7 32 ++ bytes "MOVE A")
    (.ifElse (List.replicate 6 32 ++ bytes "$IF target = \"UNIX\"") (.equals false (bytes "TARGET") (bytes "unix"))
      (.line (List.replicate 7 32 ++ bytes "TO B")
        (.ifEnd (List.replicate 6 32 ++ bytes "$IF LEVEL NOT DEFINED") (.defined true (bytes "LEVEL"))
          (.line (List.replicate 7 32 ++ bytes "Y") .done) (List.replicate 6 32 ++ bytes "$End")
          (.line (List.replicate 6 32 ++ bytes "-  CD") .done)))
      (List.replicate 6 32 ++ bytes "$ELSE")
      (.line (List.replicate 6 32 ++ bytes "?X") .done) (List.replicate 6 32 ++ bytes "$END")
      (.line (List.replicate 7 32 ++ bytes "STOP RUN.") .done))

example : ifSample.depth = 2 ∧ ifSample.selected ifCfg.consts = [List.replicate 7 32 ++ bytes "MOVE A",
    List.replicate 7 32 ++ bytes "TO B", List.replicate 6 32 ++ bytes "-  CD", List.replicate 7 32 ++ bytes "STOP RUN."] ∧
    (ppSource ifCfg .fixed (fileOf ifSample.lines)).map (srcLines []) =
      some [bytes "MOVE A", bytes "TO BCD", bytes "STOP RUN."] := by decide +kernel

/-- The sample meets the hypotheses; in particular its directives are directives. -/
example : ifSample.Ok := by
  have src : ∀ t : List Nat, t = List.replicate 7 32 ++ bytes "MOVE A" ∨ t = List.replicate 7 32 ++ bytes "TO B" ∨
      t = List.replicate 7 32 ++ bytes "Y" ∨ t = List.replicate 6 32 ++ bytes "-  CD" ∨ t = List.replicate 6 32 ++ bytes "?X" ∨
      t = List.replicate 7 32 ++ bytes "STOP RUN." → SrcOk t := by
    intro t ht
    rcases ht with rfl | rfl | rfl | rfl | rfl | rfl <;>
      exact srcOk_of (by decide +kernel) (by decide +kernel) (by decide +kernel) (by decide +kernel) (by decide +kernel)
  have one : ∀ w : List Nat, w = bytes "$End" ∨ w = bytes "$END" ∨ w = bytes "$ELSE" → ∀ v : List Nat, eqNoCase w v = true →
      DirLine (List.replicate 6 32 ++ w) [v] := by
    intro w hw v hv
    refine ⟨?_, ?_, ?_, ?_, [w], ?_, rfl, by simpa using hv⟩
    · rcases hw with rfl | rfl | rfl <;> decide +kernel
    · rcases hw with rfl | rfl | rfl <;> decide +kernel
    · rcases hw with rfl | rfl | rfl <;> exact star_of (by decide +kernel)
    · rcases hw with rfl | rfl | rfl <;> decide +kernel
    · have e : ((List.replicate 6 32 ++ w).drop 6).take 66 = List.replicate 0 32 ++ w := by
        rcases hw with rfl | rfl | rfl <;> decide +kernel
      rw [e]
      exact .last 0 w (by rcases hw with rfl | rfl | rfl <;> decide +kernel) (by rcases hw with rfl | rfl | rfl <;> decide +kernel)
  have d1 : DirLine (List.replicate 6 32 ++ bytes "$IF target = \"UNIX\"")
      (bytes "$IF" :: (DirCond.equals false (bytes "TARGET") (bytes "unix")).words) := by
    refine ⟨by decide +kernel, by decide +kernel, star_of (by decide +kernel), by decide +kernel,
      [bytes "$IF", bytes "target", bytes "=", bytes "\"UNIX\""], ?_, by decide +kernel, by decide +kernel⟩
    have e : ((List.replicate 6 32 ++ bytes "$IF target = \"UNIX\"").drop 6).take 66 =
        List.replicate 0 32 ++ bytes "$IF" ++ 32 :: (List.replicate 0 32 ++ bytes "target" ++ 32 :: (List.replicate 0 32 ++
          bytes "=" ++ 32 :: (List.replicate 0 32 ++ bytes "\"UNIX\""))) := by decide +kernel
    rw [e]
    exact .more 0 _ _ _ (by decide +kernel) (by decide +kernel) (.more 0 _ _ _ (by decide +kernel) (by decide +kernel)
      (.more 0 _ _ _ (by decide +kernel) (by decide +kernel) (.last 0 _ (by decide +kernel) (by decide +kernel))))
  have d2 : DirLine (List.replicate 6 32 ++ bytes "$IF LEVEL NOT DEFINED")
      (bytes "$IF" :: (DirCond.defined true (bytes "LEVEL")).words) := by
    refine ⟨by decide +kernel, by decide +kernel, star_of (by decide +kernel), by decide +kernel,
      [bytes "$IF", bytes "LEVEL", bytes "NOT", bytes "DEFINED"], ?_, by decide +kernel, by decide +kernel⟩
    have e : ((List.replicate 6 32 ++ bytes "$IF LEVEL NOT DEFINED").drop 6).take 66 =
        List.replicate 0 32 ++ bytes "$IF" ++ 32 :: (List.replicate 0 32 ++ bytes "LEVEL" ++ 32 :: (List.replicate 0 32 ++
          bytes "NOT" ++ 32 :: (List.replicate 0 32 ++ bytes "DEFINED"))) := by decide +kernel
    rw [e]
    exact .more 0 _ _ _ (by decide +kernel) (by decide +kernel) (.more 0 _ _ _ (by decide +kernel) (by decide +kernel)
      (.more 0 _ _ _ (by decide +kernel) (by decide +kernel) (.last 0 _ (by decide +kernel) (by decide +kernel))))
  exact ⟨src _ (by simp), d1, ⟨by decide +kernel, by decide +kernel⟩,
    ⟨src _ (by simp), d2, trivial, ⟨src _ (by simp), trivial⟩, one _ (by simp) _ (by decide +kernel), ⟨src _ (by simp), trivial⟩⟩,
    one _ (by simp) _ (by decide +kernel), ⟨src _ (by simp), trivial⟩, one _ (by simp) _ (by decide +kernel), ⟨src _ (by simp), trivial⟩⟩

/-! ### Findings -/

/-- Finding: a numeric constant is equal to nothing: with `LEVEL` defined as a number, `$IF LEVEL = 5` selects nothing, whatever
its value, and `$IF LEVEL NOT = 5` everything. -/
theorem C66_finding_numeric (v : List Nat) (hv : v ≠ []) :
    dollarCond ifCfg [bytes "$IF", bytes "LEVEL", bytes "=", v] = some false ∧
    dollarCond ifCfg [bytes "$IF", bytes "LEVEL", bytes "NOT", bytes "=", v] = some true := by
  have h1 : sameB (bytes "=") (bytes "NOT") = false := by decide +kernel
  have h2 : sameB (bytes "=") (bytes "DEFINED") = false := by decide +kernel
  have h3 : sameB (bytes "=") (bytes "=") = true := by decide +kernel
  have h4 : sameB (bytes "NOT") (bytes "NOT") = true := by decide +kernel
  have h5 : ifCfg.consts.find? (fun c => sameB c.1 (bytes "LEVEL")) = some (bytes "LEVEL", none) := by decide +kernel
  have h6 : bytes "LEVEL" ≠ [] := by decide +kernel
  constructor <;> simp [dollarCond, h1, h2, h3, h4, h5, h6, hv]

/-- Finding: a `$IF` without `$END` is not reported; the rest of the program is dropped without a message. -/
theorem C66_finding_no_end :
    ppSource ifCfg .fixed (fileOf [List.replicate 7 32 ++ bytes "A.", List.replicate 6 32 ++ bytes "$IF X DEFINED",
      List.replicate 7 32 ++ bytes "B.", List.replicate 7 32 ++ bytes "C."]) = some (bytes "A.\n\n\n") := by decide +kernel

/-- Finding: a text with a space in it cannot be compared: the condition is an error. -/
theorem C66_finding_space :
    ppSource ifCfg .fixed (fileOf [List.replicate 6 32 ++ bytes "$IF TARGET = \"unix 64\"", List.replicate 6 32 ++ bytes "$END"]) =
      none := by decide +kernel

end Cob
