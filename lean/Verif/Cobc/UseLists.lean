import Verif.Cobc.UseMore
/-
C74: USE GLOBAL procedures for GLOBAL files: what the lists of the programs of one nest hold.
-/
namespace Cob

/-- The cells of one list with the values `E`, of which the first `k` have been reversed. -/
def mixed (E : List UEntry) (k : Nat) : UHeap :=
  E.mapIdx fun i e => (e, if i < k then (if i = 0 then none else some (i - 1)) else if i + 1 < E.length then some (i + 1) else none)

/-- The first cell of a list. -/
def ptrOf (E : List UEntry) : Option Nat := if E = [] then none else some 0

theorem mixed_get (E : List UEntry) (k i : Nat) (h : i < E.length) : (mixed E k)[i]? =
    some (E[i], if i < k then (if i = 0 then none else some (i - 1)) else if i + 1 < E.length then some (i + 1) else none) := by
  unfold mixed
  rw [List.getElem?_mapIdx, List.getElem?_eq_getElem h]
  rfl

theorem mixed_length (E : List UEntry) (k : Nat) : (mixed E k).length = E.length := by simp [mixed]

theorem mixed_chain (E : List UEntry) (k i : Nat) (h : i < E.length) : uChain (mixed E k) i =
    if i < k then (if i = 0 then none else some (i - 1)) else if i + 1 < E.length then some (i + 1) else none := by
  unfold uChain
  rw [mixed_get E k i h]
  rfl

theorem uLast_mixed (E : List UEntry) : ∀ (fuel i : Nat), i < E.length → E.length ≤ i + 1 + fuel →
    uLast (mixed E 0) fuel i = E.length - 1 := by
  intro fuel
  induction fuel with
  | zero => intro i h1 h2; rw [uLast]; omega
  | succ fuel ih =>
    intro i h1 h2
    rw [uLast, mixed_chain E 0 i h1, if_neg (by omega)]
    by_cases h : i + 1 < E.length
    · rw [if_pos h]; exact ih (i + 1) h (by omega)
    · rw [if_neg h]; dsimp only; omega

theorem uAdd_mixed (E : List UEntry) (e : UEntry) : uAdd (mixed E 0) (ptrOf E) e = (mixed (E ++ [e]) 0, ptrOf (E ++ [e])) := by
  unfold ptrOf
  rw [if_neg (by simp : ¬ E ++ [e] = [])]
  by_cases h : E = []
  · subst h
    simp [uAdd, mixed]
  · rw [if_neg h]
    have hl : 0 < E.length := List.length_pos_iff.mpr h
    unfold uAdd
    dsimp only
    rw [mixed_length, uLast_mixed E E.length 0 hl (by omega)]
    congr 1
    apply List.ext_getElem?
    intro i
    unfold uSetChain
    rw [List.getElem?_modify, List.getElem?_append]
    rcases Nat.lt_trichotomy i E.length with hi | hi | hi
    · rw [mixed_length, if_pos hi, mixed_get E 0 i hi, mixed_get (E ++ [e]) 0 i (by simp; omega)]
      simp only [List.length_append, List.length_singleton, List.getElem_append_left hi, Nat.not_lt_zero, if_false]
      by_cases hk : E.length - 1 = i
      · simp only [if_pos hk, if_pos (show i + 1 < E.length + 1 by omega)]
        show some _ = some _
        simp only [Option.some.injEq, Prod.mk.injEq, true_and]
        omega
      · simp only [if_neg hk, if_pos (show i + 1 < E.length + 1 by omega), if_pos (show i + 1 < E.length by omega)]
        rfl
    · subst hi
      rw [mixed_length, if_neg (by omega), mixed_get (E ++ [e]) 0 E.length (by simp)]
      have : ¬ E.length - 1 = E.length := by omega
      simp [this]
    · rw [mixed_length, if_neg (by omega), List.getElem?_eq_none (by simp; omega),
        List.getElem?_eq_none (by rw [mixed_length]; simp; omega)]
      rfl

theorem addAll_mixed : ∀ (es E : List UEntry), addAll (mixed E 0) (ptrOf E) es = (mixed (E ++ es) 0, ptrOf (E ++ es)) := by
  intro es
  induction es with
  | nil => intro E; simp [addAll]
  | cons e es ih =>
    intro E
    simp only [addAll]
    rw [uAdd_mixed]
    dsimp only
    rw [ih]
    simp

theorem useBuild_mixed : ∀ (ps : List UseProg) (i : Nat) (E : List UEntry), (∀ p ∈ ps, 0 < p.level) →
    (useBuild i (mixed E 0) (ptrOf E) ps).1 = mixed (E ++ globalUses i ps) 0 ∧
    ∀ q, q < ps.length → ((useBuild i (mixed E 0) (ptrOf E) ps).2[q]?).map (·.gptr) =
      some (ptrOf (E ++ globalUses i (ps.take (q + 1)))) := by
  intro ps
  induction ps with
  | nil => intro i E _; simp [useBuild, globalUses]
  | cons p ps ih =>
    intro i E hp
    have h0 : ¬ p.level = 0 := by have := hp p (by simp); omega
    have e := useProg_eq i (mixed E 0) (ptrOf E) p
    rw [if_neg h0, addAll_mixed] at e
    rw [useBuild]
    dsimp only
    rw [e]
    dsimp only
    obtain ⟨a, b⟩ := ih (i + 1) (E ++ p.uses.flatMap (stmtGlobals i)) (fun p hp' => hp p (by simp [hp']))
    refine ⟨by rw [a, globalUses_cons]; simp, fun q hq => ?_⟩
    cases q with
    | zero => simp [globalUses_cons, globalUses]
    | succ q =>
      rw [List.getElem?_cons_succ, b q (by simpa using hq)]
      simp [globalUses_cons]

theorem nest_build (p : UseProg) (ps : List UseProg) (h0 : p.level = 0) (hp : ∀ r ∈ ps, 0 < r.level) :
    (useBuild 0 [] none (p :: ps)).1 = mixed (globalUses 0 (p :: ps)) 0 ∧
    ∀ q, q < (p :: ps).length → ((useBuild 0 [] none (p :: ps)).2[q]?).map (·.gptr) =
      some (ptrOf (globalUses 0 ((p :: ps).take (q + 1)))) := by
  have e := useProg_eq 0 [] none p
  rw [if_pos h0, show ([] : UHeap) = mixed [] 0 from rfl, show (none : Option Nat) = ptrOf [] from rfl, addAll_mixed] at e
  rw [useBuild]
  dsimp only
  rw [show ([] : UHeap) = mixed [] 0 from rfl, show (none : Option Nat) = ptrOf [] from rfl, e]
  dsimp only
  simp only [List.nil_append, Nat.zero_add]
  obtain ⟨a, b⟩ := useBuild_mixed ps 1 (p.uses.flatMap (stmtGlobals 0)) hp
  refine ⟨by rw [a, globalUses_cons], fun q hq => ?_⟩
  cases q with
  | zero => simp [globalUses_cons, globalUses]
  | succ q =>
    rw [List.getElem?_cons_succ, b q (by simpa using hq)]
    simp [globalUses_cons]

/-! ### Reversal -/

theorem mixed_step (E : List UEntry) (k : Nat) (hk : k < E.length) :
    uSetChain (mixed E k) k (if k = 0 then none else some (k - 1)) = mixed E (k + 1) := by
  apply List.ext_getElem?
  intro i
  unfold uSetChain
  rw [List.getElem?_modify]
  rcases Nat.lt_or_ge i E.length with hi | hi
  · rw [mixed_get E k i hi, mixed_get E (k + 1) i hi]
    by_cases h : k = i
    · subst h
      simp
    · by_cases h2 : i < k
      · simp [h, h2, show i < k + 1 by omega]
      · simp [h, h2, show ¬ i < k + 1 by omega]
  · rw [List.getElem?_eq_none (by rw [mixed_length]; exact hi), List.getElem?_eq_none (by rw [mixed_length]; exact hi)]
    rfl

theorem uReverse_mixed (E : List UEntry) : ∀ (fuel k : Nat), k ≤ E.length → E.length < k + fuel →
    uReverse fuel (mixed E k) (if k < E.length then some k else none) (if k = 0 then none else some (k - 1)) =
      (mixed E E.length, if E = [] then none else some (E.length - 1)) := by
  intro fuel
  induction fuel with
  | zero => intro k h1 h2; omega
  | succ fuel ih =>
    intro k h1 h2
    by_cases hk : k < E.length
    · rw [if_pos hk, uReverse, mixed_chain E k k hk, mixed_step E k hk, if_neg (Nat.lt_irrefl k)]
      have := ih (k + 1) (by omega) (by omega)
      rw [if_neg (by omega : ¬ k + 1 = 0), Nat.add_sub_cancel] at this
      exact this
    · have e : k = E.length := by omega
      rw [if_neg hk, uReverse]
      subst e
      congr 1
      by_cases h : E = []
      · simp [h]
      · have : ¬ E.length = 0 := fun c => h (List.length_eq_zero_iff.mp c)
        rw [if_neg h, if_neg this]

theorem uReverse_again (E : List UEntry) (hE : E ≠ []) (fuel : Nat) :
    uReverse (fuel + 2) (mixed E E.length) (some 0) none = (mixed E E.length, some 0) := by
  have hl : 0 < E.length := List.length_pos_iff.mpr hE
  rw [uReverse, mixed_chain E _ 0 hl, if_pos hl, if_pos rfl, uReverse]
  · congr 1
    apply List.ext_getElem?
    intro i
    unfold uSetChain
    rw [List.getElem?_modify]
    by_cases h : 0 = i
    · subst h
      rw [mixed_get E _ 0 hl]
      simp [hl]
    · simp [h]

theorem useReverse_nest (E : List UEntry) : ∀ (sts : List UseSt), sts ≠ [] →
    (∀ st ∈ sts, st.gptr = none ∨ (E ≠ [] ∧ st.gptr = some 0)) → (sts.getLast?).map (·.gptr) = some (ptrOf E) →
    (useReverse (mixed E 0) sts).1 = mixed E E.length ∧
    ∀ (q : Nat) (st : UseSt), sts[q]? = some st → ((useReverse (mixed E 0) sts).2[q]?).map (·.gptr) =
      some (if q + 1 = sts.length then (if E = [] then none else some (E.length - 1)) else st.gptr) := by
  intro sts
  induction sts with
  | nil => intro h; exact absurd rfl h
  | cons s sts ih =>
    intro _ hg hl
    by_cases he : sts = []
    · subst he
      simp only [List.getLast?_singleton, Option.map_some, Option.some.injEq] at hl
      have hr : uReverse ((mixed E 0).length + 1) (mixed E 0) s.gptr none =
          (mixed E E.length, if E = [] then none else some (E.length - 1)) := by
        have := uReverse_mixed E ((mixed E 0).length + 1) 0 (by omega) (by rw [mixed_length]; omega)
        rw [if_pos rfl] at this
        rw [hl, ← this]
        unfold ptrOf
        by_cases h : E = []
        · subst h; rfl
        · have hp : 0 < E.length := List.length_pos_iff.mpr h
          rw [if_neg h, if_pos hp]
      rw [useReverse, useReverse]
      dsimp only
      rw [hr]
      refine ⟨rfl, fun q st hq => ?_⟩
      cases q with
      | zero => simp
      | succ q => simp at hq
    · have hl' : (sts.getLast?).map (·.gptr) = some (ptrOf E) := by
        rw [List.getLast?_cons] at hl
        cases h : sts.getLast? with
        | none => rw [List.getLast?_eq_none_iff] at h; exact absurd h he
        | some v => rw [h] at hl; exact hl
      obtain ⟨a, b⟩ := ih he (fun st hst => hg st (by simp [hst])) hl'
      have hr : uReverse ((mixed E E.length).length + 1) (mixed E E.length) s.gptr none = (mixed E E.length, s.gptr) := by
        rcases hg s (by simp) with h | ⟨hE, h⟩
        · rw [h, uReverse]
        · have hp : 0 < E.length := List.length_pos_iff.mpr hE
          rw [h, mixed_length, show E.length + 1 = (E.length - 1) + 2 by omega, uReverse_again E hE]
      rw [useReverse]
      dsimp only
      rw [a, hr]
      refine ⟨rfl, fun q st hq => ?_⟩
      cases q with
      | zero =>
        simp only [List.getElem?_cons_zero, Option.some.injEq] at hq
        subst hq
        have : sts.length ≠ 0 := fun c => he (List.length_eq_zero_iff.mp c)
        simp [this]
      | succ q =>
        rw [List.getElem?_cons_succ] at hq ⊢
        rw [b q st hq]
        simp

theorem uCells_mixed (E : List UEntry) : ∀ (i fuel : Nat), i < E.length → i < fuel →
    uCells (mixed E E.length) fuel (some i) = (E.take (i + 1)).reverse := by
  intro i
  induction i with
  | zero =>
    intro fuel h1 h2
    obtain ⟨f, rfl⟩ : ∃ f, fuel = f + 1 := ⟨fuel - 1, by omega⟩
    rw [uCells, mixed_get E _ 0 h1]
    dsimp only
    rw [if_pos h1, if_pos rfl]
    have : uCells (mixed E E.length) f none = [] := by cases f <;> rfl
    rw [this]
    cases E with
    | nil => simp at h1
    | cons e E => simp
  | succ i ih =>
    intro fuel h1 h2
    obtain ⟨f, rfl⟩ : ∃ f, fuel = f + 1 := ⟨fuel - 1, by omega⟩
    rw [uCells, mixed_get E _ (i + 1) h1]
    dsimp only
    rw [if_pos h1, if_neg (by omega), Nat.add_sub_cancel, ih f (by omega) (by omega)]
    have : E.take (i + 1 + 1) = E.take (i + 1) ++ [E[i + 1]] := by
      rw [List.take_add_one, List.getElem?_eq_getElem h1]; rfl
    rw [this, List.reverse_append]
    rfl

/-- The USE GLOBAL entries a program sees. -/
def seen (ps : List UseProg) (q : Nat) : List UEntry :=
  if q + 1 = ps.length then (globalUses 0 ps).reverse else (globalUses 0 (ps.take (q + 1))).take 1

theorem globalUses_append (i : Nat) : ∀ (as bs : List UseProg), globalUses i (as ++ bs) =
    globalUses i as ++ globalUses (i + as.length) bs := by
  intro as
  induction as generalizing i with
  | nil => intro bs; simp [globalUses]
  | cons a as ih =>
    intro bs
    rw [List.cons_append, globalUses_cons, ih, globalUses_cons]
    simp
    congr 1
    omega

theorem nest_cells (p : UseProg) (ps : List UseProg) (h0 : p.level = 0) (hp : ∀ r ∈ ps, 0 < r.level) (q : Nat)
    (hq : q < (p :: ps).length) (st : UseSt) (hs : (useAll (p :: ps)).2[q]? = some st) :
    uCells (useAll (p :: ps)).1 ((useAll (p :: ps)).1.length + 1) st.gptr = seen (p :: ps) q := by
  obtain ⟨a, b⟩ := nest_build p ps h0 hp
  have hlen := useBuild_length (p :: ps) 0 [] none
  have hpre : ∀ k, ∃ F, globalUses 0 (p :: ps) = globalUses 0 ((p :: ps).take k) ++ F := fun k => by
    have := globalUses_append 0 ((p :: ps).take k) ((p :: ps).drop k)
    rw [List.take_append_drop] at this
    exact ⟨_, this⟩
  have hsts : useAll (p :: ps) = useReverse (mixed (globalUses 0 (p :: ps)) 0) (useBuild 0 [] none (p :: ps)).2 := by
    unfold useAll
    dsimp only
    rw [a]
  generalize hB : (useBuild 0 [] none (p :: ps)).2 = B at *
  generalize hE : globalUses 0 (p :: ps) = E at *
  have hBg : ∀ (k : Nat) (s : UseSt), B[k]? = some s → s.gptr = ptrOf (globalUses 0 ((p :: ps).take (k + 1))) := by
    intro k s hk
    have hkl : k < (p :: ps).length := by
      rcases Nat.lt_or_ge k (p :: ps).length with h | h
      · exact h
      · rw [List.getElem?_eq_none (by omega)] at hk; cases hk
    have := b k hkl
    rw [hk] at this
    simpa using this
  have hne : B ≠ [] := by intro c; rw [c] at hlen; simp at hlen
  obtain ⟨c, d⟩ := useReverse_nest E B hne (by
      intro s hsm
      obtain ⟨k, hk⟩ := List.getElem?_of_mem hsm
      rw [hBg k s hk]
      unfold ptrOf
      by_cases h : globalUses 0 ((p :: ps).take (k + 1)) = []
      · left; rw [if_pos h]
      · right
        rw [if_neg h]
        obtain ⟨F, hF⟩ := hpre (k + 1)
        exact ⟨by rw [hF]; exact List.append_ne_nil_of_left_ne_nil h F, rfl⟩) (by
      rw [List.getLast?_eq_getElem?]
      have hk : B.length - 1 < (p :: ps).length := by rw [hlen]; simp only [List.length_cons]; omega
      have h2 := b (B.length - 1) hk
      rw [h2]
      have : B.length - 1 + 1 = (p :: ps).length := by rw [hlen]; simp only [List.length_cons]; omega
      rw [this, List.take_length, hE])
  rw [hsts] at hs ⊢
  rw [c, mixed_length]
  obtain ⟨s0, hs0⟩ : ∃ s0, B[q]? = some s0 := ⟨_, List.getElem?_eq_getElem (by omega)⟩
  have hd := d q s0 hs0
  rw [hs, hBg q s0 hs0, hlen] at hd
  simp only [Option.map_some, Option.some.injEq] at hd
  rw [hd]
  unfold seen
  by_cases hq1 : q + 1 = (p :: ps).length
  · rw [if_pos hq1, if_pos hq1, hE]
    by_cases hEn : E = []
    · rw [if_pos hEn, hEn]; rfl
    · have hpos : 0 < E.length := List.length_pos_iff.mpr hEn
      rw [if_neg hEn, uCells_mixed E (E.length - 1) _ (by omega) (by omega), show E.length - 1 + 1 = E.length by omega,
        List.take_length]
  · rw [if_neg hq1, if_neg hq1]
    obtain ⟨F, hF⟩ := hpre (q + 1)
    unfold ptrOf
    by_cases h : globalUses 0 ((p :: ps).take (q + 1)) = []
    · rw [if_pos h, h]; cases E.length <;> rfl
    · rw [if_neg h]
      have hpos : 0 < (globalUses 0 ((p :: ps).take (q + 1))).length := List.length_pos_iff.mpr h
      have hEp : 0 < E.length := by rw [hF, List.length_append]; omega
      rw [uCells_mixed E 0 _ hEp (by omega), hF, List.take_append_of_le_length (by omega)]
      cases hG : globalUses 0 ((p :: ps).take (q + 1)) with
      | nil => exact absurd hG h
      | cons x xs => simp

/-- A nest: an outermost program and the programs in it. -/
def IsNest (ps : List UseProg) : Prop := ∃ p rest, ps = p :: rest ∧ p.level = 0 ∧ ∀ r ∈ rest, 0 < r.level

/-- **C74.** The USE GLOBAL procedures for GLOBAL files of a nest, in a program that has no USE statement of its own for the
file: the last program sees all of them, the last one for a file counting; every other program sees only the very first of
those in the text up to its end. -/
theorem C74_global_files (ps : List UseProg) (hn : IsNest ps) (q n : Nat) (p : UseProg) (hp : ps[q]? = some p)
    (hl : ∀ u ∈ p.uses, u.glob = false → ¬ u.NamesFile n true) :
    (q + 1 = ps.length → ∀ e, LastSuch (globalUses 0 ps) (·.name = n) e →
      fileHandler (useAll ps) q (n, true) = some (e.prog, e.sect)) ∧
    (q + 1 ≠ ps.length → ∀ e E, globalUses 0 (ps.take (q + 1)) = e :: E →
      fileHandler (useAll ps) q (n, true) = if e.name = n then some (e.prog, e.sect) else none) ∧
    ((∀ e ∈ globalUses 0 (ps.take (q + 1)), e.name ≠ n) → fileHandler (useAll ps) q (n, true) = none) := by
  obtain ⟨p0, rest, rfl, h0, hr⟩ := hn
  have hq : q < (p0 :: rest).length := by
    rcases Nat.lt_or_ge q (p0 :: rest).length with h | h
    · exact h
    · rw [List.getElem?_eq_none h] at hp; cases hp
  obtain ⟨g, hs⟩ := useAll_get _ q p hp
  have e0 : fileHandler (useAll (p0 :: rest)) q (n, true) =
      match (seen (p0 :: rest) q).find? (fun e => e.name == n) with
      | some e => some (e.prog, e.sect)
      | none => none := by
    have hc := nest_cells p0 rest h0 hr q hq _ hs
    unfold fileHandler
    rw [hs]
    dsimp only
    rw [hc]
    dsimp only [plainSt]
    rw [locals_none q n p.uses hl]
    rfl
  rw [e0]
  unfold seen
  refine ⟨?_, ?_, ?_⟩
  · rintro hq1 e ⟨a, b, h1, h2, h3⟩
    rw [if_pos hq1, h1]
    simp only [List.reverse_append, List.reverse_cons, List.append_assoc]
    have : b.reverse.find? (fun e => e.name == n) = none := by
      rw [List.find?_eq_none]
      intro x hx
      simpa using h3 x (List.mem_reverse.mp hx)
    rw [List.find?_append, this]
    simp [h2]
  · intro hq1 e E h1
    rw [if_neg hq1, h1]
    by_cases h : e.name = n
    · simp [h]
    · simp [h]
  · intro h
    have : (if q + 1 = (p0 :: rest).length then (globalUses 0 (p0 :: rest)).reverse
        else (globalUses 0 ((p0 :: rest).take (q + 1))).take 1).find? (fun e => e.name == n) = none := by
      rw [List.find?_eq_none]
      intro x hx
      split at hx
      · rename_i hq1
        rw [hq1, List.take_length] at h
        simpa using h x (List.mem_reverse.mp hx)
      · simpa using h x (List.mem_of_mem_take hx)
    rw [this]

/-- **C74.** A nest with one USE GLOBAL statement for one GLOBAL file: its procedure is performed in every program from the one
that holds the statement on, unless the program has its own USE statement for the file, and in no program before. -/
theorem C74_use_global (ps : List UseProg) (hn : IsNest ps) (e : UEntry) (he : globalUses 0 ps = [e]) (q : Nat) (p : UseProg)
    (hp : ps[q]? = some p) (hl : ∀ u ∈ p.uses, u.glob = false → ¬ u.NamesFile e.name true) :
    fileHandler (useAll ps) q (e.name, true) = if e.prog ≤ q then some (e.prog, e.sect) else none := by
  have hq : q < ps.length := by
    rcases Nat.lt_or_ge q ps.length with h | h
    · exact h
    · rw [List.getElem?_eq_none h] at hp; cases hp
  obtain ⟨a, b, c⟩ := C74_global_files ps hn q e.name p hp hl
  have hmem : ∀ (qs : List UseProg) (i : Nat), ∀ x ∈ globalUses i qs, i ≤ x.prog ∧ x.prog < i + qs.length := by
    intro qs
    induction qs with
    | nil => intro i x hx; simp [globalUses] at hx
    | cons r qs ih =>
      intro i x hx
      rw [globalUses_cons, List.mem_append] at hx
      rcases hx with h | h
      · rw [List.mem_flatMap] at h
        obtain ⟨u, _, hu⟩ := h
        have : x.prog = i := by
          unfold stmtGlobals at hu
          cases ht : u.target with
          | mode m => rw [ht] at hu; simp at hu
          | files l =>
            rw [ht] at hu
            dsimp only at hu
            split at hu
            · rw [List.mem_map] at hu
              obtain ⟨f, _, rfl⟩ := hu
              rfl
            · simp at hu
        simp only [List.length_cons]
        omega
      · have := ih (i + 1) x h
        simp only [List.length_cons]
        omega
  have hsplit := globalUses_append 0 (ps.take (q + 1)) (ps.drop (q + 1))
  rw [List.take_append_drop, he] at hsplit
  have hlt : (ps.take (q + 1)).length = q + 1 := by rw [List.length_take]; omega
  cases hG : globalUses 0 (ps.take (q + 1)) with
  | nil =>
    rw [hG, List.nil_append] at hsplit
    have := hmem _ _ e (by rw [← hsplit]; simp)
    rw [if_neg (by omega)]
    exact c (by rw [hG]; simp)
  | cons x xs =>
    rw [hG] at hsplit
    simp only [List.cons_append, List.cons.injEq] at hsplit
    obtain ⟨rfl, hx⟩ := hsplit
    have := hmem _ _ e (by rw [hG]; simp)
    rw [if_pos (by omega)]
    by_cases hq1 : q + 1 = ps.length
    · exact a hq1 e ⟨[], [], by rw [he]; rfl, rfl, by simp⟩
    · rw [b hq1 e xs hG, if_pos rfl]

/-- The outermost program declares USE GLOBAL for its GLOBAL file 7; programs 1 and 2 are in it. -/
def useNest : List UseProg := [⟨0, [⟨10, true, .files [(7, true)]⟩]⟩, ⟨1, []⟩, ⟨2, []⟩]

example : IsNest useNest ∧ globalUses 0 useNest = [⟨7, 0, 10⟩] ∧ fileHandler (useAll useNest) 1 (7, true) = some (0, 10) := by
  refine ⟨⟨_, _, rfl, rfl, ?_⟩, by decide +kernel, by decide +kernel⟩
  decide

/-- **C74, finding.** USE GLOBAL for two GLOBAL files in one program: without a nested program both work; with a nested one the
outer program loses the second, although the nested program has both. -/
theorem C74_finding_lost :
    let p : UseProg := ⟨0, [⟨10, true, .files [(7, true)]⟩, ⟨11, true, .files [(8, true)]⟩]⟩
    fileHandler (useAll [p]) 0 (8, true) = some (0, 11) ∧
    fileHandler (useAll [p, ⟨1, []⟩]) 0 (8, true) = none ∧ fileHandler (useAll [p, ⟨1, []⟩]) 1 (8, true) = some (0, 11) := by
  decide +kernel

/-- **C74, finding.** The USE GLOBAL procedure of a program is performed in a program beside it that it does not contain. -/
theorem C74_finding_beside :
    let ps : List UseProg := [⟨0, []⟩, ⟨1, [⟨10, true, .files [(7, true)]⟩]⟩, ⟨1, []⟩]
    ¬ Contains ps 1 2 ∧ fileHandler (useAll ps) 2 (7, true) = some (1, 10) := by
  dsimp only
  refine ⟨?_, by decide +kernel⟩
  rintro ⟨p, h1, _, _, h2⟩
  simp at h1
  subst h1
  have := h2 2 ⟨1, []⟩ (by decide) (by decide) rfl
  simp at this

/-- **C74, finding.** A nested program has a file of its own that is called like a GLOBAL file of the outer program, and its own
USE procedure for it: the outer program's USE GLOBAL procedure is performed. -/
theorem C74_finding_hidden :
    let ps : List UseProg := [⟨0, [⟨10, true, .files [(7, true)]⟩]⟩, ⟨1, [⟨20, false, .files [(7, false)]⟩]⟩]
    fileHandler (useAll ps) 1 (7, false) = some (0, 10) := by decide +kernel

end Cob
