import Verif.Cobc.EvaluateSpec
import Verif.Cobc.ExprProps
import Mathlib.Data.List.Forall2
/-
C63: EVALUATE.
-/
namespace Cob

variable {L : Type}

/-! ### Lemmas -/

theorem truth_isBool {m : Meaning L} {t : ETree L} {b : Bool} (h : t.truth m = some b) : t.isBool = true := by
  cases t <;> simp [ETree.truth] at h <;> rfl

/-- The generated condition is true when `P` holds. -/
def Tests (c : VTree L) (P : Meaning L → Prop) : Prop :=
  c.isBool = true ∧ ∀ m, ∃ b, c.truth m = some b ∧ (b = true ↔ P m)

theorem tests_not {c : VTree L} {P : Meaning L → Prop} (h : Tests c P) :
    ∃ d, vNot c = some d ∧ Tests d (fun m => ¬ P m) := by
  refine ⟨.not c, by simp [vNot, h.1], rfl, fun m => ?_⟩
  obtain ⟨b, h1, h2⟩ := h.2 m
  refine ⟨!b, by simp [VTree.truth, h1], ?_⟩
  show _ ↔ ¬ P m
  rw [← h2]; cases b <;> simp

theorem tests_and {c d : VTree L} {P Q : Meaning L → Prop} (h : Tests c P) (h' : Tests d Q) :
    ∃ e, vAnd c d = some e ∧ Tests e (fun m => P m ∧ Q m) := by
  refine ⟨.and c d, by simp [vAnd, h.1, h'.1], rfl, fun m => ?_⟩
  obtain ⟨b, h1, h2⟩ := h.2 m
  obtain ⟨b', h1', h2'⟩ := h'.2 m
  refine ⟨b && b', by simp [VTree.truth, h1, h1'], ?_⟩
  show _ ↔ P m ∧ Q m
  rw [← h2, ← h2']; cases b <;> cases b' <;> simp

theorem tests_or {c d : VTree L} {P Q : Meaning L → Prop} (h : Tests c P) (h' : Tests d Q) :
    ∃ e, vOr c d = some e ∧ Tests e (fun m => P m ∨ Q m) := by
  refine ⟨.or c d, by simp [vOr, h.1, h'.1], rfl, fun m => ?_⟩
  obtain ⟨b, h1, h2⟩ := h.2 m
  obtain ⟨b', h1', h2'⟩ := h'.2 m
  refine ⟨b || b', by simp [VTree.truth, h1, h1'], ?_⟩
  show _ ↔ P m ∨ Q m
  rw [← h2, ← h2']; cases b <;> cases b' <;> simp

theorem Tests.congr {c : VTree L} {P Q : Meaning L → Prop} (h : Tests c P) (hpq : ∀ m, P m ↔ Q m) : Tests c Q := by
  refine ⟨h.1, fun m => ?_⟩
  obtain ⟨b, h1, h2⟩ := h.2 m
  exact ⟨b, h1, h2.trans (hpq m)⟩

/-- The tree stands for the condition. -/
theorem good_tests {c : CExp L} (h : c.Good) : ∃ t, buildExpr c.toks = some t ∧ Tests (.ex t) (fun m => c.True m) := by
  obtain ⟨t, h1, h2⟩ := C56_condition c h.1 h.2
  refine ⟨t, h1, ?_, fun m => ?_⟩
  · obtain ⟨b, last, _, h4⟩ := h2 ⟨Unit, fun _ => (), (), fun _ _ _ => (), fun _ _ => 0, fun _ _ => true, fun _ => true⟩
    exact truth_isBool h4
  · obtain ⟨b, last, h3, h4⟩ := h2 m
    refine ⟨b, h4, ?_⟩
    show _ ↔ ∃ last, c.truth m none = some (true, last)
    rw [h3]
    cases b <;> simp

theorem strip_aexp (a : AExp L) (r : List (EIn L)) : stripNot (a.toks ++ r) = none := by
  induction a generalizing r with
  | leaf num v => rfl
  | zero => rfl
  | sgn minus a ih => rfl
  | bin o a b iha ihb => rw [AExp.toks, List.append_assoc]; exact iha _
  | paren a ih => rfl

theorem strip_cexp (c : CExp L) (r : List (EIn L)) (h : c.startsNot = false) : stripNot (c.toks ++ r) = none := by
  induction c generalizing r with
  | rel l neg o r' => rw [CExp.toks, List.append_assoc, List.append_assoc]; exact strip_aexp _ _
  | relop neg o r' =>
    simp only [CExp.startsNot] at h
    subst h
    rfl
  | obj r' => rw [CExp.toks]; exact strip_aexp _ _
  | cls a neg n => rw [CExp.toks, List.append_assoc, List.append_assoc]; exact strip_aexp _ _
  | sign a neg o => rw [CExp.toks, List.append_assoc, List.append_assoc]; exact strip_aexp _ _
  | cond c => rfl
  | not c ih => simp [CExp.startsNot] at h
  | and a b iha ihb => rw [CExp.toks, List.append_assoc]; exact iha _ h
  | or a b iha ihb => rw [CExp.toks, List.append_assoc]; exact iha _ h
  | paren c ih => rfl

theorem strip_not (neg : Bool) (a : AExp L) :
    stripNot (notToks neg ++ a.toks) = if neg then some a.toks else none := by
  cases neg
  · have := strip_aexp a []
    simpa [notToks] using this
  · rfl

/-! ### Subjects -/

/-- The tree of a subject stands for it. -/
inductive SubOk : EvSubj L → VTree L → Prop
  | tru : SubOk .tru .tru
  | fls : SubOk .fls .fls
  | val (a : AExp L) (t : ETree L) (h : ∀ m : Meaning L, t.value m = some (a.value m)) : SubOk (.val a) (.ex t)
  | cond (c : CExp L) (t : ETree L) (h : Tests (.ex t) (fun m => c.True m)) : SubOk (.cond c) (.ex t)

theorem subj_ok (s : EvSubj L) (h : s.WF) : ∃ v, parseSubj s.written = some v ∧ SubOk s v := by
  cases s with
  | tru => exact ⟨_, rfl, .tru⟩
  | fls => exact ⟨_, rfl, .fls⟩
  | val a =>
    obtain ⟨t, h1, h2⟩ := C56_arithmetic a h
    exact ⟨.ex t, by simp [parseSubj, EvSubj.written, h1], .val a t h2⟩
  | cond c =>
    obtain ⟨t, h1, h2⟩ := good_tests h
    exact ⟨.ex t, by simp [parseSubj, EvSubj.written, h1], .cond c t h2⟩

theorem subjs_ok (ss : List (EvSubj L)) (h : ∀ s ∈ ss, s.WF) :
    ∃ vs, (ss.map EvSubj.written).mapM parseSubj = some vs ∧ List.Forall₂ SubOk ss vs := by
  induction ss with
  | nil => exact ⟨[], rfl, .nil⟩
  | cons s ss ih =>
    obtain ⟨v, h1, h2⟩ := subj_ok s (h s (by simp))
    obtain ⟨vs, h3, h4⟩ := ih (fun x hx => h x (by simp [hx]))
    exact ⟨v :: vs, by simp [h1, h3], .cons h2 h4⟩

/-! ### One test -/

theorem tests_rel {t u : ETree L} (o : ROp) {x y : AExp L}
    (ht : ∀ m : Meaning L, t.value m = some (x.value m)) (hu : ∀ m : Meaning L, u.value m = some (y.value m)) :
    Tests (.ex (.rel o t u)) (fun m => o.holds (m.cmp (x.value m) (y.value m)) = true) := by
  refine ⟨rfl, fun m => ⟨o.holds (m.cmp (x.value m) (y.value m)), ?_, Iff.rfl⟩⟩
  simp [VTree.truth, ETree.truth, ht, hu]

/-- What is needed of `eval_check`. -/
def CheckOk (k : Nat) (s : EvSubj L) (o : EvObj L) : Prop :=
  (∀ a, s = .val a → k < 2) ∧ (s = .tru ∨ s = .fls → 2 ≤ k ∨ o.PlainNot)

theorem not_cond {t : ETree L} {x : AExp L} (ht : ∀ m : Meaning L, t.value m = some (x.value m)) (c : Nat) : t ≠ .cond c := by
  rintro rfl
  have := ht ⟨Unit, fun _ => (), (), fun _ _ _ => (), fun _ _ => 0, fun _ _ => true, fun _ => true⟩
  simp [ETree.value] at this

theorem obj_cond (k : Nat) (c : CExp L) (hg : c.Good) (hk : 2 ≤ k ∨ (EvObj.cond c).PlainNot) :
    ∃ neg t, parseObj k (EvObj.cond c).written = some (.pair neg t none) ∧
      Tests (.ex t) (fun m => (c.True m ↔ neg = false)) := by
  obtain ⟨t, h1, h2⟩ := good_tests hg
  by_cases hs : c.startsNot = true
  · rcases hk with hk | hk
    · refine ⟨false, t, ?_, h2.congr (fun m => by simp)⟩
      simp only [EvObj.written, parseObj]
      split
      · rw [if_neg (by omega)]; simp [h1]
      · simp [h1]
    · obtain ⟨d, rfl⟩ := hk hs
      by_cases hk2 : k < 2
      · have hgd : d.Good := ⟨hg.1.1, hg.2⟩
        obtain ⟨t', h3, h4⟩ := good_tests hgd
        refine ⟨true, t', ?_, h4.congr (fun m => ?_)⟩
        · simp only [EvObj.written, parseObj, CExp.toks, stripNot, if_pos hk2]
          simp [h3]
        · obtain ⟨b, last, h5, _⟩ := (C56_condition d hgd.1 hgd.2).choose_spec.2 m
          unfold CExp.True
          simp only [CExp.truth, h5, Option.map_some]
          cases b <;> simp
      · refine ⟨false, t, ?_, h2.congr (fun m => by simp)⟩
        simp only [EvObj.written, parseObj]
        split
        · rw [if_neg (by omega)]; simp [h1]
        · simp [h1]
  · have := strip_cexp c [] (by simpa using hs)
    rw [List.append_nil] at this
    refine ⟨false, t, ?_, h2.congr (fun m => by simp)⟩
    simp only [EvObj.written, parseObj, this]
    simp [h1]

theorem test_ok {s : EvSubj L} {v : VTree L} (hs : SubOk s v) (o : EvObj L) (ho : o.For s) (k : Nat) (hk : CheckOk k s o) :
    ∃ vo c, parseObj k o.written = some vo ∧ evaluateTest v vo = some c ∧ Tests c (fun m => Matches m s o) := by
  cases o with
  | any => exact ⟨.any, .tru, rfl, rfl, rfl, fun m => ⟨true, rfl, by cases s <;> simp [Matches]⟩⟩
  | tru =>
    refine ⟨.tru, v, rfl, rfl, ?_⟩
    cases hs with
    | tru => exact ⟨rfl, fun m => ⟨true, rfl, by simp [Matches]⟩⟩
    | fls => exact ⟨rfl, fun m => ⟨false, rfl, by simp [Matches]⟩⟩
    | val a t h => exact ho.elim
    | cond c t h => exact h
  | fls =>
    cases hs with
    | tru => exact ⟨.fls, .not .tru, rfl, rfl, rfl, fun m => ⟨false, rfl, by simp [Matches]⟩⟩
    | fls => exact ⟨.fls, .not .fls, rfl, rfl, rfl, fun m => ⟨true, rfl, by simp [Matches]⟩⟩
    | val a t h => exact ho.elim
    | cond c t h =>
      obtain ⟨d, h1, h2⟩ := tests_not h
      exact ⟨.fls, d, rfl, h1, h2⟩
  | val neg b =>
    cases hs with
    | val a t h =>
      obtain ⟨u, h1, h2⟩ := C56_arithmetic b ho
      have hk2 := hk.1 a rfl
      refine ⟨.pair neg u none, .ex (.rel (if neg then .ne else .eq) t u), ?_, ?_, ?_⟩
      · simp only [EvObj.written, parseObj, strip_not]
        cases neg
        · simp [notToks, h1]
        · simp [h1, hk2]
      · simp only [evaluateTest]
        cases u with
        | cond c => exact absurd rfl (not_cond h2 c)
        | _ => rfl
      · refine (tests_rel _ h h2).congr (fun m => ?_)
        cases neg <;> simp [Matches, ROp.holds]
    | tru => exact ho.elim
    | fls => exact ho.elim
    | cond c t h => exact ho.elim
  | range neg b c =>
    cases hs with
    | val a t h =>
      obtain ⟨u, h1, h2⟩ := C56_arithmetic b ho.1
      obtain ⟨w, h3, h4⟩ := C56_arithmetic c ho.2
      have hk2 := hk.1 a rfl
      obtain ⟨e, h5, h6⟩ := tests_and (tests_rel .le h2 h)
        (tests_rel .le h h4)
      obtain ⟨f, h7, h8⟩ := tests_not h6
      refine ⟨.pair neg u (some w), if neg then f else e, ?_, ?_, ?_⟩
      · simp only [EvObj.written, parseObj, strip_not]
        cases neg
        · simp [notToks, h1, h3]
        · simp [h1, h3, hk2]
      · simp only [evaluateTest, h5, Option.bind_some]
        cases neg <;> simp [h7]
      · cases neg
        · exact h6.congr (fun m => by simp [Matches, ROp.holds])
        · exact h8.congr (fun m => by simp [Matches, ROp.holds])
    | tru => exact ho.elim
    | fls => exact ho.elim
    | cond c t h => exact ho.elim
  | cond c =>
    cases hs with
    | tru =>
      obtain ⟨neg, t, h1, h2⟩ := obj_cond k c ho (hk.2 (.inl rfl))
      obtain ⟨d, h3, h4⟩ := tests_not h2
      refine ⟨_, if neg then d else .ex t, h1, ?_, ?_⟩
      · cases neg <;> simp [evaluateTest, h3]
      · cases neg
        · exact h2.congr (fun m => by simp [Matches])
        · exact h4.congr (fun m => by simp [Matches])
    | fls =>
      obtain ⟨neg, t, h1, h2⟩ := obj_cond k c ho (hk.2 (.inr rfl))
      obtain ⟨d, h3, h4⟩ := tests_not h2
      refine ⟨_, if neg then .ex t else d, h1, ?_, ?_⟩
      · cases neg <;> simp [evaluateTest, h3]
      · cases neg
        · exact h4.congr (fun m => by simp [Matches])
        · exact h2.congr (fun m => by simp [Matches])
    | val a t h => exact ho.elim
    | cond c t h => exact ho.elim

/-! ### A WHEN, the WHENs, the cases -/

/-- All objects match the subjects in the same positions. -/
def AllMatch (m : Meaning L) (ss : List (EvSubj L)) (os : List (EvObj L)) : Prop :=
  ∀ (i : Nat) s o, ss[i]? = some s → os[i]? = some o → Matches m s o

theorem allMatch_cons (m : Meaning L) (s : EvSubj L) (ss : List (EvSubj L)) (o : EvObj L) (os : List (EvObj L)) :
    AllMatch m (s :: ss) (o :: os) ↔ Matches m s o ∧ AllMatch m ss os := by
  constructor
  · intro h
    exact ⟨h 0 s o rfl rfl, fun i s' o' h1 h2 => h (i + 1) s' o' (by simpa using h1) (by simpa using h2)⟩
  · rintro ⟨h, h'⟩ i s' o' h1 h2
    cases i with
    | zero =>
      simp only [List.getElem?_cons_zero, Option.some.injEq] at h1 h2
      subst h1; subst h2; exact h
    | succ i => exact h' i s' o' (by simpa using h1) (by simpa using h2)

theorem when_ok (check : Nat → Nat) {ss : List (EvSubj L)} {vs : List (VTree L)} (hs : List.Forall₂ SubOk ss vs) :
    ∀ (os : List (EvObj L)) (n : Nat), os.length = ss.length →
    (∀ (i : Nat) s o, ss[i]? = some s → os[i]? = some o → o.For s ∧ CheckOk (check (n + i)) s o) →
    ∃ vos, parseObjs check n (os.map EvObj.written) = some vos ∧
      ∀ c P, Tests c P → ∃ d, whenLoop (some c) vs vos = some (some d) ∧ Tests d (fun m => P m ∧ AllMatch m ss os) := by
  induction hs with
  | nil =>
    intro os n hl h
    cases os with
    | nil =>
      exact ⟨[], rfl, fun c P hc => ⟨c, rfl, hc.congr fun m => by simp [AllMatch]⟩⟩
    | cons o os => simp at hl
  | @cons s v ss vs hsv hss ih =>
    intro os n hl h
    cases os with
    | nil => simp at hl
    | cons o os =>
      obtain ⟨h1, h2⟩ := h 0 s o rfl rfl
      obtain ⟨vo, c3, h3, h4, h5⟩ := test_ok hsv o h1 _ h2
      obtain ⟨vos, h6, h7⟩ := ih os (n + 1) (by simpa using hl) (fun i s' o' ha hb => by
        have := h (i + 1) s' o' (by simpa using ha) (by simpa using hb)
        rwa [show n + (i + 1) = n + 1 + i by omega] at this)
      rw [Nat.add_zero] at h3
      refine ⟨vo :: vos, by simp [parseObjs, h3, h6], fun c P hc => ?_⟩
      obtain ⟨e, h8, h9⟩ := tests_and hc h5
      obtain ⟨d, h10, h11⟩ := h7 e _ h9
      refine ⟨d, by simp [whenLoop, h4, h8, h10], h11.congr fun m => ?_⟩
      simp only [allMatch_cons, and_assoc]

theorem when_start (check : Nat → Nat) {ss : List (EvSubj L)} {vs : List (VTree L)} (hs : List.Forall₂ SubOk ss vs)
    (hne : ss ≠ []) (os : List (EvObj L)) (n : Nat) (hl : os.length = ss.length)
    (h : ∀ (i : Nat) s o, ss[i]? = some s → os[i]? = some o → o.For s ∧ CheckOk (check (n + i)) s o) :
    ∃ vos d, parseObjs check n (os.map EvObj.written) = some vos ∧ whenLoop none vs vos = some (some d) ∧
      Tests d (fun m => AllMatch m ss os) := by
  cases hs with
  | nil => exact absurd rfl hne
  | @cons s v ss vs hsv hss =>
    cases os with
    | nil => simp at hl
    | cons o os =>
      obtain ⟨h1, h2⟩ := h 0 s o rfl rfl
      obtain ⟨vo, c3, h3, h4, h5⟩ := test_ok hsv o h1 _ h2
      obtain ⟨vos, h6, h7⟩ := when_ok check hss os (n + 1) (by simpa using hl) (fun i s' o' ha hb => by
        have := h (i + 1) s' o' (by simpa using ha) (by simpa using hb)
        rwa [show n + (i + 1) = n + 1 + i by omega] at this)
      rw [Nat.add_zero] at h3
      obtain ⟨d, h10, h11⟩ := h7 c3 _ h5
      refine ⟨vo :: vos, d, by simp [parseObjs, h3, h6], by simp [whenLoop, h4, h10], h11.congr fun m => ?_⟩
      simp only [allMatch_cons]

theorem whens_ok (check : Nat → Nat) {ss : List (EvSubj L)} {vs : List (VTree L)} (hs : List.Forall₂ SubOk ss vs)
    (hne : ss ≠ []) : ∀ (ws : List (List (EvObj L))) (n : Nat), (∀ w ∈ ws, w.length = ss.length) →
    (∀ (j : Nat) w (i : Nat) s o, ws[j]? = some w → ss[i]? = some s → w[i]? = some o →
      o.For s ∧ CheckOk (check (n + j * ss.length + i)) s o) →
    ∃ vws, parseWhens check n (ws.map (·.map EvObj.written)) = some vws ∧
      ∀ c P, Tests c P → ∃ d, whensLoop vs (some c) vws = some (some d) ∧
        Tests d (fun m => P m ∨ ∃ w ∈ ws, AllMatch m ss w) := by
  intro ws
  induction ws with
  | nil => intro n _ _; exact ⟨[], rfl, fun c P hc => ⟨c, rfl, hc.congr fun m => by simp⟩⟩
  | cons w ws ih =>
    intro n hl h
    obtain ⟨vos, d, h1, h2, h3⟩ := when_start check hs hne w n (hl w (by simp)) (fun i s o ha hb => by
      have := h 0 w i s o rfl ha hb
      simpa using this)
    obtain ⟨vws, h4, h5⟩ := ih (n + ss.length) (fun x hx => hl x (by simp [hx])) (fun j w' i s o ha hb hc => by
      have := h (j + 1) w' i s o (by simpa using ha) hb hc
      rwa [show n + (j + 1) * ss.length + i = n + ss.length + j * ss.length + i by rw [Nat.add_mul]; omega] at this)
    have hlen : (w.map EvObj.written).length = ss.length := by simp [hl w (by simp)]
    refine ⟨vos :: vws, by simp only [List.map_cons, parseWhens, h1, hlen, h4, Option.bind_some, Option.map_some], fun c P hc => ?_⟩
    obtain ⟨e, h6, h7⟩ := tests_or hc h3
    obtain ⟨f, h8, h9⟩ := h5 e _ h7
    refine ⟨f, by simp [whensLoop, h2, h6, h8], h9.congr fun m => ?_⟩
    simp only [List.mem_cons, exists_eq_or_imp, or_assoc]

theorem whens_start (check : Nat → Nat) {ss : List (EvSubj L)} {vs : List (VTree L)} (hs : List.Forall₂ SubOk ss vs)
    (hne : ss ≠ []) (ws : List (List (EvObj L))) (hw : ws ≠ []) (hl : ∀ w ∈ ws, w.length = ss.length)
    (h : ∀ (j : Nat) w (i : Nat) s o, ws[j]? = some w → ss[i]? = some s → w[i]? = some o →
      o.For s ∧ CheckOk (check (j * ss.length + i)) s o) :
    ∃ vws d, parseWhens check 0 (ws.map (·.map EvObj.written)) = some vws ∧ whensLoop vs none vws = some (some d) ∧
        Tests d (fun m => ∃ w ∈ ws, AllMatch m ss w) := by
  cases ws with
  | nil => exact absurd rfl hw
  | cons w ws =>
    obtain ⟨vos, d, h1, h2, h3⟩ := when_start check hs hne w 0 (hl w (by simp)) (fun i s o ha hb => by
      have := h 0 w i s o rfl ha hb
      simpa using this)
    obtain ⟨vws, h4, h5⟩ := whens_ok check hs hne ws (0 + ss.length) (fun x hx => hl x (by simp [hx])) (fun j w' i s o ha hb hc => by
      have := h (j + 1) w' i s o (by simpa using ha) hb hc
      rwa [show (j + 1) * ss.length + i = 0 + ss.length + j * ss.length + i by rw [Nat.add_mul]; omega] at this)
    have hlen : (w.map EvObj.written).length = ss.length := by simp [hl w (by simp)]
    obtain ⟨f, h8, h9⟩ := h5 d _ h3
    refine ⟨vos :: vws, f, by simp only [List.map_cons, parseWhens, h1, hlen, h4, Option.bind_some, Option.map_some],
      by simp [whensLoop, h2, h8], h9.congr fun m => ?_⟩
    simp only [List.mem_cons, exists_eq_or_imp]

theorem check_ok (subs : List (EvSubj L)) (beyond : Nat → Nat) (c : EvCase L) (hw : c.WF subs) (hn : c.NotsPlain)
    (h64 : c.whens.length * subs.length ≤ 64) (j : Nat) (w : List (EvObj L)) (i : Nat) (s : EvSubj L) (o : EvObj L)
    (hj : c.whens[j]? = some w) (hi : subs[i]? = some s) (ho : w[i]? = some o) :
    CheckOk (evalCheck (subs.map EvSubj.written) beyond (j * subs.length + i)) s o := by
  have hil : i < subs.length := (List.getElem?_eq_some_iff.1 hi).1
  have hjl : j < c.whens.length := (List.getElem?_eq_some_iff.1 hj).1
  have hlt : j * subs.length + i < 64 := by
    have : (j + 1) * subs.length ≤ c.whens.length * subs.length := Nat.mul_le_mul_right _ hjl
    rw [Nat.add_mul] at this
    omega
  unfold evalCheck
  rw [if_pos hlt, List.getD_eq_getElem?_getD]
  cases j with
  | zero =>
    simp only [Nat.zero_mul, Nat.zero_add, List.getElem?_map, hi, Option.map_some, Option.getD_some]
    cases s <;> simp [CheckOk, EvSubj.written, subjCheck]
  | succ j =>
    rw [List.getElem?_eq_none (by simp [Nat.add_mul]; omega)]
    refine ⟨fun _ _ => by simp, fun _ => .inr ?_⟩
    refine hn w ?_ o (List.mem_of_getElem? ho)
    refine List.mem_of_getElem? (i := j) ?_
    rw [List.getElem?_drop, Nat.add_comm]
    exact hj

/-- The compiled case stands for the case. -/
def CaseOk (ss : List (EvSubj L)) (vs : List (VTree L)) (c : EvCase L) (v : List (List (VObj L)) × Option Nat) : Prop :=
  v.2 = c.body ∧ ∃ d, whensLoop vs none v.1 = some (some d) ∧ Tests d (fun m => c.Selected m ss)

theorem cases_ok (allowEmpty : Bool) (beyond : Nat → Nat) {ss : List (EvSubj L)} {vs : List (VTree L)}
    (hs : List.Forall₂ SubOk ss vs) (hne : ss ≠ []) :
    ∀ cs : List (EvCase L), (∀ c ∈ cs, c.WF ss) → (∀ c ∈ cs, c.NotsPlain) →
    (∀ c ∈ cs, c.whens.length * ss.length ≤ 64) → (allowEmpty = false → ∀ c ∈ cs, c.body ≠ none) →
    ∃ vcs, parseCases allowEmpty (evalCheck (ss.map EvSubj.written) beyond) (cs.map EvCase.written) = some vcs ∧
      List.Forall₂ (CaseOk ss vs) cs vcs := by
  intro cs
  induction cs with
  | nil => intro _ _ _ _; exact ⟨[], rfl, .nil⟩
  | cons c cs ih =>
    intro h1 h2 h3 h4
    obtain ⟨vcs, h5, h6⟩ := ih (fun x hx => h1 x (by simp [hx])) (fun x hx => h2 x (by simp [hx]))
      (fun x hx => h3 x (by simp [hx])) (fun ha x hx => h4 ha x (by simp [hx]))
    have hc := h1 c (by simp)
    obtain ⟨vws, d, h7, h8, h9⟩ := whens_start (evalCheck (ss.map EvSubj.written) beyond) hs hne c.whens hc.1
      (fun w hw => (hc.2 w hw).1) (fun j w i s o ha hb ho =>
        ⟨(hc.2 w (List.mem_of_getElem? ha)).2 i s o hb ho,
          check_ok ss beyond c hc (h2 c (by simp)) (h3 c (by simp)) j w i s o ha hb ho⟩)
    refine ⟨(vws, c.body) :: vcs, ?_, .cons ⟨rfl, d, h8, h9⟩ h6⟩
    simp only [List.map_cons, EvCase.written, parseCases]
    rw [if_neg, h7]
    · simp only [Option.bind_some]
      rw [h5]; rfl
    · cases allowEmpty
      · have := h4 rfl c (by simp)
        cases hb : c.body
        · exact absurd hb this
        · simp
      · simp

theorem fill_ok (ss : List (EvSubj L)) (vs : List (VTree L)) (other : Option Nat) :
    ∀ (cs : List (EvCase L)) (vcs : List (List (List (VObj L)) × Option Nat)), List.Forall₂ (CaseOk ss vs) cs vcs →
    List.Forall₂ (CaseOk ss vs) (lastFilled (some other) cs) (fillLast other vcs) := by
  intro cs vcs h
  induction h with
  | nil => exact .nil
  | @cons c v cs vcs hcv hcs ih =>
    cases hcs with
    | nil =>
      refine .cons ?_ .nil
      obtain ⟨h1, h2⟩ := hcv
      refine ⟨?_, h2⟩
      show (if v.2.isNone then other else v.2) = _
      rw [h1]
      cases c.body <;> simp
    | cons a b => exact .cons hcv ih

theorem lastFilled_same (cs : List (EvCase L)) (other : Option (Option Nat))
    (h : other.getD none = none ∨ ∀ c ∈ cs, c.body ≠ none) : lastFilled other cs = cs := by
  induction cs with
  | nil => rfl
  | cons c cs ih =>
    cases cs with
    | nil =>
      rcases h with h | h
      · cases c with
        | mk w b => cases b <;> simp [lastFilled, h]
      · have := h c (by simp)
        cases c with
        | mk w b => simp only at this; simp [lastFilled, this]
    | cons d cs =>
      rw [lastFilled, ih]
      exact h.imp_right fun h x hx => h x (by simp [hx])

theorem chosen_cons {m : Meaning L} {ss : List (EvSubj L)} {c : EvCase L} {cs : List (EvCase L)}
    {other : Option (Option Nat)} {r : Option Nat} (hc : ¬ c.Selected m ss) (h : Chosen m ss cs other r) :
    Chosen m ss (c :: cs) other r := by
  cases h with
  | case k d hd hs hf =>
    refine .case (k + 1) d (by simpa using hd) hs fun i e hi he => ?_
    cases i with
    | zero => simp only [List.getElem?_cons_zero, Option.some.injEq] at he; exact he ▸ hc
    | succ i => exact hf i e (by omega) (by simpa using he)
  | other h =>
    refine .other fun x hx => ?_
    rcases List.mem_cons.1 hx with rfl | hx
    · exact hc
    · exact h x hx

theorem build_ok (ss : List (EvSubj L)) (vs : List (VTree L)) (other : Option (Option Nat))
    {cs : List (EvCase L)} {vcs : List (List (List (VObj L)) × Option Nat)} (h : List.Forall₂ (CaseOk ss vs) cs vcs) :
    ∃ v, buildEvaluate vs (vcs ++ (other.map fun o => ([], o)).toList) = some v ∧
      ∀ m, ∃ r, v.run m = some r ∧ Chosen m ss cs other r := by
  induction h with
  | nil =>
    cases other with
    | none => exact ⟨.nothing, rfl, fun m => ⟨none, rfl, .other (by simp)⟩⟩
    | some o => exact ⟨.body o, rfl, fun m => ⟨o, rfl, Chosen.other (other := some o) (by simp)⟩⟩
  | @cons c v cs vcs hcv hcs ih =>
    obtain ⟨e, h1, h2⟩ := ih
    obtain ⟨hb, d, h3, h4⟩ := hcv
    obtain ⟨vw, vb⟩ := v
    simp only at hb h3
    refine ⟨.ite d vb e, ?_, fun m => ?_⟩
    · simp only [List.cons_append, buildEvaluate, h3, Option.bind_some, h4.1, if_true, h1, Option.map_some]
    · obtain ⟨b, h5, h6⟩ := h4.2 m
      cases b with
      | true =>
        refine ⟨vb, by simp [VStmt.run, h5], hb ▸ .case 0 c rfl (h6.1 rfl) fun i d hi => by omega⟩
      | false =>
        obtain ⟨r, h7, h8⟩ := h2 m
        exact ⟨r, by simp [VStmt.run, h5, h7], chosen_cons (fun h => by simpa using h6.2 h) h8⟩

/-! ### The theorems -/

/-- EVALUATE executes the statements of the first case one of whose WHENs matches, otherwise those of WHEN OTHER (with
allowed empty lists: a last case without statements has those of WHEN OTHER). -/
theorem C63_evaluate (allowEmpty : Bool) (beyond : Nat → Nat) (subs : List (EvSubj L)) (cases : List (EvCase L))
    (other : Option (Option Nat)) (hne : subs ≠ []) (hs : ∀ s ∈ subs, s.WF) (hc : ∀ c ∈ cases, c.WF subs)
    (hn : ∀ c ∈ cases, c.NotsPlain) (h64 : ∀ c ∈ cases, c.whens.length * subs.length ≤ 64)
    (hb : allowEmpty = false → (∀ c ∈ cases, c.body ≠ none) ∧ other ≠ some none) :
    ∃ v, compileEvaluate allowEmpty beyond (subs.map EvSubj.written) (cases.map EvCase.written) other = some v ∧
      ∀ m, ∃ r, v.run m = some r ∧ Chosen m subs (lastFilled other cases) other r := by
  obtain ⟨vs, h1, h2⟩ := subjs_ok subs hs
  obtain ⟨vcs, h3, h4⟩ := cases_ok allowEmpty beyond h2 hne cases hc hn h64 (fun h => (hb h).1)
  unfold compileEvaluate
  rw [h1, Option.bind_some, h3, Option.bind_some]
  cases other with
  | none =>
    rw [lastFilled_same _ _ (.inl rfl)]
    have := build_ok subs vs none h4
    simpa [addOther] using this
  | some o =>
    cases allowEmpty with
    | false =>
      obtain ⟨h5, h6⟩ := hb rfl
      rw [lastFilled_same _ _ (.inr h5)]
      have := build_ok subs vs (some o) h4
      cases o with
      | none => exact absurd rfl h6
      | some o => simpa [addOther] using this
    | true =>
      have := build_ok subs vs (some o) (fill_ok subs vs o _ _ h4)
      simpa [addOther] using this

/-- When every case has statements: the first case that is selected, otherwise WHEN OTHER. -/
theorem C63_first_match (allowEmpty : Bool) (beyond : Nat → Nat) (subs : List (EvSubj L)) (cases : List (EvCase L))
    (other : Option Nat) (hne : subs ≠ []) (hs : ∀ s ∈ subs, s.WF) (hc : ∀ c ∈ cases, c.WF subs)
    (hn : ∀ c ∈ cases, c.NotsPlain) (h64 : ∀ c ∈ cases, c.whens.length * subs.length ≤ 64)
    (hb : ∀ c ∈ cases, c.body ≠ none) :
    ∃ v, compileEvaluate allowEmpty beyond (subs.map EvSubj.written) (cases.map EvCase.written)
        (other.map fun o => some o) = some v ∧
      ∀ m, ∃ r, v.run m = some r ∧ Chosen m subs cases (other.map fun o => some o) r := by
  have := C63_evaluate allowEmpty beyond subs cases (other.map fun o => some o) hne hs hc hn h64
    (fun _ => ⟨hb, by cases other <;> simp⟩)
  rwa [lastFilled_same _ _ (.inr hb)] at this

/-- What is executed is determined. -/
theorem C63_chosen_unique (m : Meaning L) (subs : List (EvSubj L)) (cases : List (EvCase L)) (other : Option (Option Nat))
    (r r' : Option Nat) (h : Chosen m subs cases other r) (h' : Chosen m subs cases other r') : r = r' := by
  cases h with
  | case k c hc hs hf =>
    cases h' with
    | case k' c' hc' hs' hf' =>
      have : k = k' := by
        rcases Nat.lt_trichotomy k k' with h | h | h
        · exact absurd hs (hf' k c h hc)
        · exact h
        · exact absurd hs' (hf k' c' h hc')
      subst this
      rw [hc] at hc'
      simp only [Option.some.injEq] at hc'
      rw [hc']
    | other h => exact absurd hs (h c (List.mem_of_getElem? hc))
  | other h =>
    cases h' with
    | case k' c' hc' hs' hf' => exact absurd hs' (h c' (List.mem_of_getElem? hc'))
    | other => rfl

/-! ### The number of objects -/

theorem parseObjs_length (check : Nat → Nat) : ∀ (os : List (OIn L)) (n : Nat) (vs : List (VObj L)),
    parseObjs check n os = some vs → vs.length = os.length := by
  intro os
  induction os with
  | nil => intro n vs h; simp only [parseObjs, Option.some.injEq] at h; simp [← h]
  | cons o os ih =>
    intro n vs h
    simp only [parseObjs, Option.bind_eq_some_iff, Option.map_eq_some_iff] at h
    obtain ⟨v, _, vs', h2, rfl⟩ := h
    simp [ih _ _ h2]

theorem whenLoop_length : ∀ (ss : List (VTree L)) (os : List (VObj L)) (c : Option (VTree L)) (d : Option (VTree L)),
    whenLoop c ss os = some d → os.length = ss.length := by
  intro ss
  induction ss with
  | nil => intro os c d h; cases os <;> simp [whenLoop] at h ⊢
  | cons s ss ih =>
    intro os c d h
    cases os with
    | nil => simp [whenLoop] at h
    | cons o os =>
      simp only [whenLoop, Option.bind_eq_some_iff] at h
      obtain ⟨c3, _, h2⟩ := h
      cases c with
      | none => simpa using ih _ _ _ h2
      | some c =>
        simp only [Option.bind_eq_some_iff] at h2
        obtain ⟨e, _, h3⟩ := h2
        simpa using ih _ _ _ h3

theorem whensLoop_length (ss : List (VTree L)) : ∀ (ws : List (List (VObj L))) (c : Option (VTree L)) (d : Option (VTree L)),
    whensLoop ss c ws = some d → (∀ w ∈ ws, w.length = ss.length) ∧ (d = none → ws = []) := by
  intro ws
  induction ws with
  | nil => intro c d _; simp
  | cons w ws ih =>
    intro c d h
    simp only [whensLoop, Option.bind_eq_some_iff] at h
    obtain ⟨c2, h1, h2⟩ := h
    have hl := whenLoop_length _ _ _ _ h1
    have key : ∃ e, whensLoop ss (some e) ws = some d := by
      cases c2 with
      | none => simp at h2
      | some x =>
        cases c with
        | none => exact ⟨_, h2⟩
        | some y =>
          simp only [Option.bind_eq_some_iff] at h2
          obtain ⟨e, _, h3⟩ := h2
          exact ⟨e, h3⟩
    obtain ⟨e, he⟩ := key
    have hsome : ∀ (ws : List (List (VObj L))) e, whensLoop ss (some e) ws ≠ some none := by
      intro ws
      induction ws with
      | nil => intro e; simp [whensLoop]
      | cons w ws ih' =>
        intro e h
        simp only [whensLoop, Option.bind_eq_some_iff] at h
        obtain ⟨c2, h1, h2⟩ := h
        cases c2 with
        | none => simp at h2
        | some x =>
          simp only [Option.bind_eq_some_iff] at h2
          obtain ⟨e', _, h3⟩ := h2
          exact ih' _ h3
    refine ⟨fun x hx => ?_, fun hd => ?_⟩
    · rcases List.mem_cons.1 hx with rfl | hx
      · exact hl
      · exact (ih _ _ he).1 x hx
    · subst hd; exact absurd he (hsome _ _)

theorem parseWhens_length (check : Nat → Nat) (k : Nat) : ∀ (ws : List (List (OIn L))) (n : Nat)
    (vs : List (List (VObj L))), parseWhens check n ws = some vs → (∀ w ∈ vs, w.length = k) →
    ∀ w ∈ ws, w.length = k := by
  intro ws
  induction ws with
  | nil => intro n vs _ _; simp
  | cons w ws ih =>
    intro n vs h hk x hx
    simp only [parseWhens, Option.bind_eq_some_iff, Option.map_eq_some_iff] at h
    obtain ⟨v, h1, vs', h2, rfl⟩ := h
    rcases List.mem_cons.1 hx with rfl | hx
    · rw [← parseObjs_length check _ _ _ h1]; exact hk v (by simp)
    · exact ih _ _ h2 (fun y hy => hk y (by simp [hy])) x hx

theorem build_length (ss : List (VTree L)) : ∀ (cs tl : List (List (List (VObj L)) × Option Nat)) (v : VStmt L),
    buildEvaluate ss (cs ++ tl) = some v → (∀ c ∈ cs, c.1 ≠ []) → ∀ c ∈ cs, ∀ w ∈ c.1, w.length = ss.length := by
  intro cs tl
  induction cs with
  | nil => intro v _ _; simp
  | cons c cs ih =>
    intro v h hne x hx
    obtain ⟨cw, cb⟩ := c
    simp only [List.cons_append, buildEvaluate, Option.bind_eq_some_iff] at h
    obtain ⟨c1, h1, h2⟩ := h
    have hw := whensLoop_length ss cw none c1 h1
    cases c1 with
    | none => exact absurd (hw.2 rfl) (hne (cw, cb) (by simp))
    | some d =>
      simp only at h2
      by_cases hd : d.isBool = true
      · rw [if_pos hd, Option.map_eq_some_iff] at h2
        obtain ⟨v', h3, _⟩ := h2
        rcases List.mem_cons.1 hx with rfl | hx
        · exact hw.1
        · exact ih v' h3 (fun y hy => hne y (by simp [hy])) x hx
      · rw [if_neg hd] at h2; simp at h2

theorem fillLast_whens (o : Option Nat) : ∀ cs : List (List (List (VObj L)) × Option Nat),
    (fillLast o cs).map Prod.fst = cs.map Prod.fst := by
  intro cs
  induction cs with
  | nil => rfl
  | cons c cs ih =>
    cases cs with
    | nil => rfl
    | cons d cs =>
      show Prod.fst c :: (fillLast o (d :: cs)).map Prod.fst = _
      rw [ih]; rfl

theorem parseCases_rel (allowEmpty : Bool) (check : Nat → Nat) : ∀ (cs : List (List (List (OIn L)) × Option Nat))
    (vs : List (List (List (VObj L)) × Option Nat)), parseCases allowEmpty check cs = some vs →
    List.Forall₂ (fun c v => parseWhens check 0 c.1 = some v) cs (vs.map Prod.fst) := by
  intro cs
  induction cs with
  | nil => intro vs h; simp only [parseCases, Option.some.injEq] at h; subst h; exact .nil
  | cons c cs ih =>
    intro vs h
    obtain ⟨cw, cb⟩ := c
    simp only [parseCases] at h
    split at h
    · simp at h
    · simp only [Option.bind_eq_some_iff, Option.map_eq_some_iff] at h
      obtain ⟨v, h1, vs', h2, rfl⟩ := h
      exact .cons h1 (ih _ h2)

theorem rel_left {α β : Type} {R : α → β → Prop} {l : List α} {l' : List β} (h : List.Forall₂ R l l') :
    ∀ a ∈ l, ∃ b ∈ l', R a b := by
  induction h with
  | nil => simp
  | cons hab _ ih =>
    intro x hx
    rcases List.mem_cons.1 hx with rfl | hx
    · exact ⟨_, by simp, hab⟩
    · obtain ⟨b, hb, hr⟩ := ih x hx
      exact ⟨b, by simp [hb], hr⟩

theorem rel_right {α β : Type} {R : α → β → Prop} {l : List α} {l' : List β} (h : List.Forall₂ R l l') :
    ∀ b ∈ l', ∃ a ∈ l, R a b := by
  induction h with
  | nil => simp
  | cons hab _ ih =>
    intro x hx
    rcases List.mem_cons.1 hx with rfl | hx
    · exact ⟨_, by simp, hab⟩
    · obtain ⟨b, hb, hr⟩ := ih x hx
      exact ⟨b, by simp [hb], hr⟩

/-- A WHEN with more or fewer objects than there are subjects is an error. -/
theorem C63_count (allowEmpty : Bool) (beyond : Nat → Nat) (subs : List (SIn L)) (cases : List (List (List (OIn L)) × Option Nat))
    (other : Option (Option Nat)) (hne : ∀ c ∈ cases, c.1 ≠ []) (c : List (List (OIn L)) × Option Nat) (hc : c ∈ cases)
    (w : List (OIn L)) (hw : w ∈ c.1) (hl : w.length ≠ subs.length) :
    compileEvaluate allowEmpty beyond subs cases other = none := by
  cases hres : compileEvaluate allowEmpty beyond subs cases other with
  | none => rfl
  | some v =>
    exfalso
    simp only [compileEvaluate, Option.bind_eq_some_iff] at hres
    obtain ⟨ss, h1, cs, h2, cs', h3, h4⟩ := hres
    have hrel := parseCases_rel _ _ _ _ h2
    have hcs : ∃ cs2 tl, cs' = cs2 ++ tl ∧ cs2.map Prod.fst = cs.map Prod.fst := by
      cases other with
      | none => simp only [addOther, Option.some.injEq] at h3; exact ⟨cs, [], by simp [h3], rfl⟩
      | some o =>
        simp only [addOther] at h3
        split at h3
        · simp at h3
        · simp only [Option.some.injEq] at h3
          refine ⟨_, _, h3.symm, ?_⟩
          split
          · exact fillLast_whens _ _
          · rfl
    obtain ⟨cs2, tl, rfl, h5⟩ := hcs
    have hsl : ss.length = subs.length := by
      clear hl hw hc hne h2 h3 h4 hrel h5
      induction subs generalizing ss with
      | nil => simp at h1; simp [h1]
      | cons s subs ih =>
        simp only [List.mapM_cons, Option.bind_eq_bind, Option.bind_eq_some_iff] at h1
        obtain ⟨a, _, b, h2, h3⟩ := h1
        simp only [Option.pure_def, Option.some.injEq] at h3
        rw [← h3]; simp [ih b h2]
    have hne2 : ∀ x ∈ cs2, x.1 ≠ [] := by
      intro x hx
      have hmem : x.1 ∈ cs.map Prod.fst := h5 ▸ List.mem_map_of_mem hx
      obtain ⟨c', hc', hp⟩ := rel_right hrel _ hmem
      have hcne := hne c' hc'
      intro hnil
      rw [hnil] at hp
      cases hw' : c'.1 with
      | nil => exact hcne hw'
      | cons a b =>
        rw [hw'] at hp
        simp [parseWhens, Option.bind_eq_some_iff] at hp
    obtain ⟨v', hv', hp⟩ := rel_left hrel c hc
    rw [← h5, List.mem_map] at hv'
    obtain ⟨x, hx, rfl⟩ := hv'
    exact hl (parseWhens_length _ _ _ _ _ hp (fun y hy => (build_length ss cs2 tl v h4 hne2 x hx y hy).trans hsl) w hw)

end Cob
