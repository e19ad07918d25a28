import Verif.Rt.Exc
/-
C90: FUNCTION EXCEPTION-STATUS, EXCEPTION-STATEMENT, EXCEPTION-LOCATION and EXCEPTION-FILE.
-/
namespace Cob.Exc

/-! ### Specification

Histories are read backwards here: `h` is a list of what happened, the latest first. -/

/-- The exceptions of input-output by the first digit of the status. -/
def ioCode (status : Nat) : Nat :=
  match status / 10 with
  | 0 => 0
  | 1 => 0x0501
  | 2 => 0x0506
  | 3 => 0x0509
  | 4 => 0x0508
  | 5 => 0x050A
  | 6 => 0x0504
  | 9 => 0x0505
  | _ => 0x0500

/-- The code of the exception that holds after `h` (0: none). -/
def now : List Ev → Nat
  | [] => 0
  | .begin _ _ :: h => now h
  | .raise id :: _ => tabCode id
  | .clear :: _ => 0
  | .io _ status :: _ => ioCode status
  | .eop _ :: _ => 0x0502

/-- The file of the last input-output statement, and its status. -/
def lastFile : List Ev → Option (Nat × Nat)
  | [] => none
  | .io f status :: _ => some (f, status)
  | .eop f :: _ => some (f, 52)
  | _ :: h => lastFile h

/-- The statement begun last: program and number. -/
def begun : List Ev → Option (Nat × Nat)
  | [] => none
  | .begin p i :: _ => some (p, i)
  | _ :: h => begun h

/-- Was an exception raised at all, and if so, the statement begun last before the last one was
raised. -/
def culprit : List Ev → Option (Option (Nat × Nat))
  | [] => none
  | .raise id :: h => if tabCode id ≠ 0 then some (begun h) else culprit h
  | .io _ status :: h => if ioCode status ≠ 0 then some (begun h) else culprit h
  | _ :: h => culprit h

/-- No event of a WRITE at end-of-page. -/
def NoEop (h : List Ev) : Prop := ∀ f, Ev.eop f ∉ h

/-- Statuses are numbers below 100, and only end-of-page has 52. -/
def Statuses (h : List Ev) : Prop := ∀ f st, Ev.io f st ∈ h → st < 100 ∧ st ≠ 52

/-- Each statement of the program knows its source, has a name, and is on another line than the
one in front of it. -/
def Apart (p : Prog) : Prop :=
  (∀ x ∈ p.stmts, x.file.isSome ∧ x.name.isSome ∧ 0 < x.line) ∧
  ∀ i x y, p.stmts[i]? = some x → p.stmts[i + 1]? = some y → x.line ≠ y.line

/-- Only statements that are there begin. -/
def Real (ps : Nat → Prog) (h : List Ev) : Prop := ∀ p i, Ev.begin p i ∈ h → i < (ps p).stmts.length

/-- The text of a location: program; paragraph OF section; line. -/
def locText (id : List Nat) (x : Stmt) : List Nat :=
  id ++ [59, 32] ++
  (match x.para, x.sect with
   | some par, some sec => par ++ [32, 79, 70, 32] ++ sec
   | some par, none => par
   | none, some sec => sec
   | none, none => []) ++ [59, 32] ++ (Nat.toDigits 10 x.line).map Char.toNat

/-- `t` in an item of 31 characters. -/
def In31 (t r : List Nat) : Prop := r.length = 31 ∧ r = (t ++ List.replicate 31 32).take 31

/-! ### Lemmas -/

theorem pad31_in (t : List Nat) : In31 t (pad31 t) := by
  constructor
  · simp only [pad31, List.length_append, List.length_take, List.length_replicate]; omega
  · simp only [pad31, List.take_append, List.take_replicate]
    rw [show min (31 - t.length) 31 = 31 - t.length by omega]

theorem statusExc_code : ∀ d, d < 10 → tabCode (statusExc.getD d 0) = ioCode (10 * d) := by decide +kernel

theorem ioCode_eq (st : Nat) (h : st < 100) : tabCode (statusExc.getD (st / 10) 0) = ioCode st := by
  rw [statusExc_code _ (by omega)]
  unfold ioCode
  rw [show 10 * (st / 10) / 10 = st / 10 by omega]

theorem emits_apart (l : List Stmt) : ∀ last, (∀ x ∈ l, x.file.isSome) →
    (∀ x, l[0]? = some x → last ≠ x.line) →
    (∀ i x y, l[i]? = some x → l[i + 1]? = some y → x.line ≠ y.line) →
    ∀ i, i < l.length → (emits last l).getD i false = true := by
  induction l with
  | nil => intro _ _ _ _ i hi; simp at hi
  | cons s rest ih =>
    intro last hf h0 hn i hi
    have hs : (s.file.isSome && decide (last ≠ s.line)) = true := by
      simp [hf s (by simp), h0 s rfl]
    rw [emits, if_pos hs]
    cases i with
    | zero => rfl
    | succ i =>
      simp only [List.getD_cons_succ]
      refine ih s.line (fun x hx => hf x (by simp [hx])) ?_ ?_ i (by simpa using hi)
      · intro x hx; exact hn 0 s x rfl (by simpa using hx)
      · intro j x y hx hy; exact hn (j + 1) x y (by simpa using hx) (by simpa using hy)

theorem emits_of_apart (p : Prog) (h : Apart p) (i : Nat) (hi : i < p.stmts.length) :
    (emits 0 p.stmts).getD i false = true := by
  refine emits_apart p.stmts 0 (fun x hx => (h.1 x hx).1) ?_ h.2 i hi
  intro x hx
  have := (h.1 x (List.mem_of_getElem? hx)).2.2
  omega

/-- The state seen from outside. -/
theorem run_snoc (ps : Nat → Prog) (h : List Ev) (e : Ev) : run ps (h ++ [e]) = step ps (run ps h) e := by
  simp [run]

theorem setException_code (id : Nat) (s : St) : (setException id s).code = tabCode id := by
  unfold setException; dsimp only; split <;> rfl

theorem saveStatus_code (f st : Nat) (s : St) (h : st < 100) (h52 : st ≠ 52) :
    (saveStatus f st s).code = ioCode st := by
  unfold saveStatus
  dsimp only
  by_cases h0 : st = 0
  · rw [if_pos h0]; subst h0; rfl
  · rw [if_neg h0, if_pos h52]
    dsimp only
    rw [setException_code, ioCode_eq st h]

theorem code_run (ps : Nat → Prog) (h : List Ev) (hs : Statuses h) : (run ps h.reverse).code = now h := by
  induction h with
  | nil => rfl
  | cons e h ih =>
    have ih := ih (fun f st hm => hs f st (by simp [hm]))
    rw [List.reverse_cons, run_snoc]
    cases e with
    | begin p i =>
      simp only [step, now]
      split
      · split
        · simpa [setLocation] using ih
        · exact ih
      · exact ih
    | raise id => simp only [step, now]; exact setException_code _ _
    | clear => rfl
    | io f st =>
      obtain ⟨a, b⟩ := hs f st (by simp)
      simp only [step, now]; exact saveStatus_code f st _ a b
    | eop f => rfl

theorem setException_file (id : Nat) (s : St) :
    (setException id s).errFile = s.errFile ∧ (setException id s).status = s.status := by
  unfold setException; dsimp only; split <;> exact ⟨rfl, rfl⟩

theorem saveStatus_file (f st : Nat) (s : St) :
    (saveStatus f st s).errFile = some f ∧ (saveStatus f st s).status f = st := by
  unfold saveStatus
  dsimp only
  by_cases h0 : st = 0
  · rw [if_pos h0]; simp [h0]
  · rw [if_neg h0]
    dsimp only
    split
    · exact ⟨(setException_file _ _).1, by simp⟩
    · simp

theorem file_run (ps : Nat → Prog) (h : List Ev) :
    (lastFile h = none → (run ps h.reverse).errFile = none) ∧
    (∀ f st, lastFile h = some (f, st) → (run ps h.reverse).errFile = some f ∧ (run ps h.reverse).status f = st) := by
  induction h with
  | nil => exact ⟨fun _ => rfl, by simp [lastFile]⟩
  | cons e h ih =>
    rw [List.reverse_cons, run_snoc]
    cases e with
    | begin p i =>
      simp only [step, lastFile]
      split
      · split
        · simpa [setLocation] using ih
        · exact ih
      · exact ih
    | raise id =>
      simp only [step, lastFile]
      rw [(setException_file _ _).1, (setException_file _ _).2]
      exact ih
    | clear => exact ih
    | io f st =>
      simp only [step, lastFile]
      refine ⟨by simp, ?_⟩
      intro g st' he
      cases he
      exact saveStatus_file f st _
    | eop f =>
      simp only [step, lastFile]
      refine ⟨by simp, ?_⟩
      intro g st' he
      cases he
      exact saveStatus_file f 52 _

/-- The location values agree with the statement begun last. -/
def LocIs (ps : Nat → Prog) (s : St) : Option (Nat × Nat) → Prop
  | none => s.prog = none ∧ s.stmt = none
  | some (p, i) => ∃ x, (ps p).stmts[i]? = some x ∧ s.prog = some (ps p).id ∧ s.line = x.line ∧
      s.sect = x.sect ∧ s.para = x.para ∧ s.stmt = x.name

/-- The values kept for the last exception agree with the statement that was at fault. -/
def OrigIs (ps : Nat → Prog) (s : St) : Option (Option (Nat × Nat)) → Prop
  | none => s.got = false ∧ s.oStmt = none
  | some none => s.got = true ∧ s.oProg = none ∧ s.oStmt = none
  | some (some (p, i)) => s.got = true ∧ ∃ x, (ps p).stmts[i]? = some x ∧ s.oProg = some (ps p).id ∧
      s.oLine = x.line ∧ s.oSect = x.sect ∧ s.oPara = x.para ∧ s.oStmt = x.name

theorem setException_loc (ps : Nat → Prog) (id : Nat) (s : St) (b : Option (Nat × Nat)) (h : LocIs ps s b) :
    LocIs ps (setException id s) b ∧ (tabCode id ≠ 0 → OrigIs ps (setException id s) (some b)) ∧
    (tabCode id = 0 → ∀ c, OrigIs ps s c → OrigIs ps (setException id s) c) := by
  unfold setException
  dsimp only
  by_cases hc : tabCode id = 0
  · rw [if_neg (by simpa using hc)]
    refine ⟨?_, fun h => absurd hc h, ?_⟩
    · rcases b with _ | ⟨p, i⟩ <;> exact h
    · intro _ c hoc
      rcases c with _ | _ | ⟨p, i⟩ <;> exact hoc
  · rw [if_pos hc]
    refine ⟨?_, ?_, fun h => absurd h hc⟩
    · rcases b with _ | ⟨p, i⟩ <;> exact h
    · intro _
      rcases b with _ | ⟨p, i⟩
      · exact ⟨rfl, h.1, h.2⟩
      · obtain ⟨x, h1, h2, h3, h4, h5, h6⟩ := h
        exact ⟨rfl, x, h1, h2, h3, h4, h5, h6⟩

theorem loc_congr (ps : Nat → Prog) (s t : St) (h : s.prog = t.prog ∧ s.line = t.line ∧ s.sect = t.sect ∧ s.para = t.para ∧ s.stmt = t.stmt)
    (b : Option (Nat × Nat)) (hb : LocIs ps s b) : LocIs ps t b := by
  obtain ⟨h1, h2, h3, h4, h5⟩ := h
  rcases b with _ | ⟨p, i⟩ <;> simp only [LocIs, h1, h2, h3, h4, h5] at hb ⊢ <;> exact hb

theorem orig_congr (ps : Nat → Prog) (s t : St) (h : s.got = t.got ∧ s.oProg = t.oProg ∧ s.oLine = t.oLine ∧ s.oSect = t.oSect ∧ s.oPara = t.oPara ∧ s.oStmt = t.oStmt)
    (b : Option (Option (Nat × Nat))) (hb : OrigIs ps s b) : OrigIs ps t b := by
  obtain ⟨h0, h1, h2, h3, h4, h5⟩ := h
  rcases b with _ | _ | ⟨p, i⟩ <;> simp only [OrigIs, h0, h1, h2, h3, h4, h5] at hb ⊢ <;> exact hb

theorem inv_run (ps : Nat → Prog) (hap : ∀ p, Apart (ps p)) (h : List Ev) (hr : Real ps h) (hs : Statuses h) :
    LocIs ps (run ps h.reverse) (begun h) ∧ OrigIs ps (run ps h.reverse) (culprit h) := by
  induction h with
  | nil => exact ⟨⟨rfl, rfl⟩, ⟨rfl, rfl⟩⟩
  | cons e h ih =>
    obtain ⟨il, io⟩ := ih (fun p i hm => hr p i (by simp [hm])) (fun f st hm => hs f st (by simp [hm]))
    rw [List.reverse_cons, run_snoc]
    cases e with
    | begin p i =>
      have hi := hr p i (by simp)
      have hx : (ps p).stmts[i]? = some (ps p).stmts[i] := List.getElem?_eq_getElem hi
      simp only [step, begun, culprit]
      rw [hx]
      dsimp only
      rw [if_pos (emits_of_apart _ (hap p) i hi)]
      constructor
      · refine ⟨_, hx, rfl, rfl, rfl, rfl, ?_⟩
        simp only [setLocation]
        rw [if_pos ((hap p).1 _ (List.getElem_mem hi)).2.1]
      · exact orig_congr ps _ _ ⟨rfl, rfl, rfl, rfl, rfl, rfl⟩ _ io
    | raise id =>
      obtain ⟨a, b, c⟩ := setException_loc ps id _ _ il
      simp only [step, begun, culprit]
      refine ⟨a, ?_⟩
      by_cases hc : tabCode id = 0
      · rw [if_neg (by simpa using hc)]; exact c hc _ io
      · rw [if_pos hc]; exact b hc
    | clear =>
      exact ⟨loc_congr ps _ _ ⟨rfl, rfl, rfl, rfl, rfl⟩ _ il, orig_congr ps _ _ ⟨rfl, rfl, rfl, rfl, rfl, rfl⟩ _ io⟩
    | io f st =>
      obtain ⟨hs1, hs2⟩ := hs f st (by simp)
      simp only [step, begun, culprit, saveStatus]
      by_cases h0 : st = 0
      · rw [if_pos h0]
        subst h0
        refine ⟨loc_congr ps _ _ ⟨rfl, rfl, rfl, rfl, rfl⟩ _ il, ?_⟩
        rw [if_neg (by decide)]
        exact orig_congr ps _ _ ⟨rfl, rfl, rfl, rfl, rfl, rfl⟩ _ io
      · rw [if_neg h0, if_pos hs2]
        have il' : LocIs ps { run ps h.reverse with errFile := some f } (begun h) :=
          loc_congr ps _ _ ⟨rfl, rfl, rfl, rfl, rfl⟩ _ il
        have io' : OrigIs ps { run ps h.reverse with errFile := some f } (culprit h) :=
          orig_congr ps _ _ ⟨rfl, rfl, rfl, rfl, rfl, rfl⟩ _ io
        obtain ⟨a, b, c⟩ := setException_loc ps (statusExc.getD (st / 10) 0) _ _ il'
        rw [ioCode_eq st hs1] at b c
        refine ⟨loc_congr ps _ _ ⟨rfl, rfl, rfl, rfl, rfl⟩ _ a, ?_⟩
        by_cases hc : ioCode st = 0
        · rw [if_neg (by simpa using hc)]
          exact orig_congr ps _ _ ⟨rfl, rfl, rfl, rfl, rfl, rfl⟩ _ (c hc _ io')
        · rw [if_pos hc]
          exact orig_congr ps _ _ ⟨rfl, rfl, rfl, rfl, rfl, rfl⟩ _ (b hc)
    | eop f =>
      simp only [step, begun, culprit, saveStatus]
      rw [if_neg (by decide), if_neg (by decide)]
      exact ⟨loc_congr ps _ _ ⟨rfl, rfl, rfl, rfl, rfl⟩ _ il, orig_congr ps _ _ ⟨rfl, rfl, rfl, rfl, rfl, rfl⟩ _ io⟩

/-! ### The functions -/

theorem tabCode_mem (id : Nat) (h : tabCode id ≠ 0) : ∃ e ∈ table, e.1 = tabCode id := by
  cases id with
  | zero => exact absurd rfl h
  | succ n =>
    simp only [tabCode] at h ⊢
    by_cases hn : n < table.length
    · refine ⟨table[n], List.getElem_mem hn, ?_⟩
      simp [List.getD_eq_getElem?_getD, hn]
    · exfalso; apply h
      simp [List.getD_eq_getElem?_getD, List.getElem?_eq_none (Nat.le_of_not_lt hn)]

theorem now_mem (h : List Ev) (hs : Statuses h) (hn : now h ≠ 0) : ∃ e ∈ table, e.1 = now h := by
  induction h with
  | nil => exact absurd rfl hn
  | cons e h ih =>
    cases e with
    | begin p i => exact ih (fun f st hm => hs f st (by simp [hm])) hn
    | raise id => exact tabCode_mem id hn
    | clear => exact absurd rfl hn
    | io f st =>
      obtain ⟨a, _⟩ := hs f st (by simp)
      simp only [now] at hn ⊢
      rw [← ioCode_eq st a] at hn ⊢
      exact tabCode_mem _ hn
    | eop f => exact ⟨(0x0502, [69, 67, 45, 73, 45, 79, 45, 69, 79, 80]), by decide +kernel, rfl⟩

theorem codes_apart : (table.map (·.1)).Nodup ∧ (∀ e ∈ table, e.1 ≠ 0) := by decide +kernel

theorem find_code (l : List (Nat × List Nat)) (hd : (l.map (·.1)).Nodup) (e : Nat × List Nat) (he : e ∈ l) :
    l.find? (fun x => x.1 == e.1) = some e := by
  induction l with
  | nil => cases he
  | cons a l ih =>
    simp only [List.map_cons, List.nodup_cons] at hd
    rcases List.mem_cons.1 he with h | h
    · subst h; simp
    · have : a.1 ≠ e.1 := by
        intro hh; apply hd.1; rw [hh]; exact List.mem_map_of_mem h
      rw [List.find?_cons_of_neg (by simpa using this)]
      exact ih hd.2 h

/-- C90: after every history, EXCEPTION-STATUS is the name, in the table of exceptions, of the
exception raised last, if nothing cleared it since; otherwise it is spaces.  No two exceptions have
the same code or the same name, and no name is cut off. -/
theorem C90_status (ps : Nat → Prog) (h : List Ev) (hs : Statuses h) :
    (now h = 0 → exceptionStatus (run ps h.reverse) = List.replicate 31 32) ∧
    (now h ≠ 0 → ∃ e ∈ table, e.1 = now h ∧ In31 e.2 (exceptionStatus (run ps h.reverse))) ∧
    (table.map (·.1)).Nodup ∧ (table.map (·.2)).Nodup ∧ ∀ e ∈ table, e.2.length ≤ 31 := by
  refine ⟨?_, ?_, codes_apart.1, by decide +kernel, by decide +kernel⟩
  · intro h0
    unfold exceptionStatus
    rw [code_run ps h hs, h0]
    rfl
  · intro h0
    obtain ⟨e, he, hc⟩ := now_mem h hs h0
    refine ⟨e, he, hc, ?_⟩
    unfold exceptionStatus
    rw [code_run ps h hs, if_pos h0]
    have : exceptionName (now h) = some e.2 := by
      unfold exceptionName
      rw [if_neg h0, ← hc, find_code table codes_apart.1 e he]; rfl
    rw [this]
    exact pad31_in _

/-- C90: when an exception holds, and is not end-of-page, the statement at fault is the one begun
last before the exception was raised, and since then nothing but beginnings of statements happened. -/
theorem C90_at_fault (h : List Ev) (hn : now h ≠ 0) (he : NoEop h) :
    ∃ h1 e h2, h = h1 ++ e :: h2 ∧ (∀ x ∈ h1, ∃ p i, x = Ev.begin p i) ∧
      ((∃ id, e = Ev.raise id ∧ tabCode id = now h) ∨ (∃ f st, e = Ev.io f st ∧ ioCode st = now h)) ∧
      culprit h = some (begun h2) := by
  induction h with
  | nil => exact absurd rfl hn
  | cons e h ih =>
    cases e with
    | begin p i =>
      obtain ⟨h1, e, h2, g1, g2, g3, g4⟩ := ih hn (fun f hm => he f (by simp [hm]))
      refine ⟨.begin p i :: h1, e, h2, by rw [g1]; rfl, ?_, g3, g4⟩
      intro x hx
      rcases List.mem_cons.1 hx with h | h
      · exact ⟨p, i, h⟩
      · exact g2 x h
    | raise id =>
      refine ⟨[], _, h, rfl, by simp, Or.inl ⟨id, rfl, rfl⟩, ?_⟩
      simp only [culprit]
      exact if_pos hn
    | clear => exact absurd rfl hn
    | io f st =>
      refine ⟨[], _, h, rfl, by simp, Or.inr ⟨f, st, rfl, rfl⟩, ?_⟩
      simp only [culprit]
      exact if_pos hn
    | eop f => exact absurd (by simp) (he f)

/-- C90: in programs compiled with locations, in which every statement is on another line than the
one in front of it, EXCEPTION-STATEMENT is the name of the statement at fault as long as the
exception holds, after every history: whatever order the statements of whatever programs were
executed in.  Otherwise it is spaces. -/
theorem C90_statement (ps : Nat → Prog) (hap : ∀ p, Apart (ps p)) (h : List Ev) (hr : Real ps h) (hs : Statuses h) :
    (now h = 0 → exceptionStatement (run ps h.reverse) = List.replicate 31 32) ∧
    (now h ≠ 0 → ∀ p i, culprit h = some (some (p, i)) →
      ∃ x t, (ps p).stmts[i]? = some x ∧ x.name = some t ∧ In31 t (exceptionStatement (run ps h.reverse))) := by
  constructor
  · intro h0
    unfold exceptionStatement
    rw [code_run ps h hs, h0]
    rfl
  · intro h0 p i hc
    obtain ⟨-, io⟩ := inv_run ps hap h hr hs
    rw [hc] at io
    obtain ⟨-, x, hx, -, -, -, -, e⟩ := io
    obtain ⟨t, ht⟩ := Option.isSome_iff_exists.1 ((hap p).1 x (List.mem_of_getElem? hx)).2.1
    refine ⟨x, t, hx, ht, ?_⟩
    unfold exceptionStatement
    rw [code_run ps h hs, if_pos h0, e, ht]
    exact pad31_in _

/-- C90: in such programs EXCEPTION-LOCATION is, after every history, the program, the paragraph and
section, and the line of the statement at fault of the last exception (1022 characters of it at
most); a space when there was none, or none since a statement began. -/
theorem C90_location (ps : Nat → Prog) (hap : ∀ p, Apart (ps p)) (h : List Ev) (hr : Real ps h) (hs : Statuses h) :
    (∀ p i, culprit h = some (some (p, i)) → ∃ x, (ps p).stmts[i]? = some x ∧
      exceptionLocation (run ps h.reverse) = (locText (ps p).id x).take 1022) ∧
    (culprit h = none ∨ culprit h = some none → exceptionLocation (run ps h.reverse) = [32]) := by
  obtain ⟨-, io⟩ := inv_run ps hap h hr hs
  constructor
  · intro p i hc
    rw [hc] at io
    obtain ⟨hg, x, hx, e1, e2, e3, e4, -⟩ := io
    refine ⟨x, hx, ?_⟩
    unfold exceptionLocation
    simp only [hg, e1, e2, e3, e4, locText, dec]
    congr 1
    rcases x.sect with _ | sec <;> rcases x.para with _ | par <;> simp
  · intro hc
    unfold exceptionLocation
    rcases hc with hc | hc <;> rw [hc] at io
    · rw [io.1]
    · rw [io.2.1]; cases (run ps h.reverse).got <;> rfl

/-- C90: EXCEPTION-FILE is the status and the name of the file of the last input-output statement
when the exception that holds is one of input-output, and 00 when no exception holds, when no
input-output statement was executed, and for the exceptions of the classes that have bit 0x0100 or
0x0400 clear. -/
theorem C90_file (ps : Nat → Prog) (name : Nat → List Nat) (h : List Ev) (hs : Statuses h) :
    (∀ f st, now h / 256 = 5 → lastFile h = some (f, st) →
      exceptionFile name (run ps h.reverse) = [48 + st / 10, 48 + st % 10] ++ name f) ∧
    (now h = 0 ∨ lastFile h = none ∨ (now h / 256 < 5 ∨ now h / 256 = 6 ∨ (8 ≤ now h / 256 ∧ now h / 256 ≤ 12) ∨
        now h / 256 = 14 ∨ (16 ≤ now h / 256 ∧ now h / 256 ≤ 20) ∨ now h / 256 = 22) →
      exceptionFile name (run ps h.reverse) = [48, 48]) := by
  obtain ⟨f1, f2⟩ := file_run ps h
  have key1 : ∀ e ∈ table, e.1 / 256 = 5 → e.1 &&& 0x0500 = 0x0500 := by decide +kernel
  have key2 : ∀ e ∈ table, (e.1 / 256 < 5 ∨ e.1 / 256 = 6 ∨ (8 ≤ e.1 / 256 ∧ e.1 / 256 ≤ 12) ∨
        e.1 / 256 = 14 ∨ (16 ≤ e.1 / 256 ∧ e.1 / 256 ≤ 20) ∨ e.1 / 256 = 22) → e.1 &&& 0x0500 ≠ 0x0500 := by decide +kernel
  constructor
  · intro f st hn hf
    have h0 : now h ≠ 0 := by omega
    obtain ⟨e, he, hc⟩ := now_mem h hs h0
    obtain ⟨a, b⟩ := f2 f st hf
    have := key1 e he (by rw [hc]; exact hn)
    rw [hc] at this
    unfold exceptionFile
    rw [a, code_run ps h hs]
    dsimp only
    rw [if_neg (by simp [h0, this]), b]
  · intro hh
    unfold exceptionFile
    cases hl : (run ps h.reverse).errFile with
    | none => rfl
    | some f =>
      dsimp only
      rw [code_run ps h hs]
      by_cases h0 : now h = 0
      · rw [if_pos (Or.inl h0)]
      · obtain ⟨e, he, hc⟩ := now_mem h hs h0
        rcases hh with hh | hh | hh
        · exact absurd hh h0
        · rw [f1 hh] at hl; cases hl
        · have := key2 e he (by rw [hc]; exact hh)
          rw [hc] at this
          rw [if_pos (Or.inr this)]

/-! ### Cases and findings -/

/-- A program: line 10 of PARA-A has an ADD, line 11 a WRITE, line 12 an INSPECT. -/
def exProg : Prog :=
  ⟨[80, 82, 79, 71], [⟨some [97], 10, some [65, 68, 68], some [77, 65, 73, 78, 32, 83, 69, 67, 84, 73, 79, 78], some [80, 65, 82, 65, 45, 65]⟩, ⟨some [97], 11, some [87, 82, 73, 84, 69], some [77, 65, 73, 78, 32, 83, 69, 67, 84, 73, 79, 78], some [80, 65, 82, 65, 45, 65]⟩,
    ⟨some [97], 12, some [73, 78, 83, 80, 69, 67, 84], some [77, 65, 73, 78, 32, 83, 69, 67, 84, 73, 79, 78], some [80, 65, 82, 65, 45, 65]⟩]⟩

example : Apart exProg := by
  refine ⟨by decide, ?_⟩
  intro i x y hx hy
  match i with
  | 0 => cases hx; cases hy; decide
  | 1 => cases hx; cases hy; decide
  | 2 => cases hy
  | n + 3 => cases hx
example : now [.raise 111, .begin 0 0] = 0x1004 ∧ culprit [.raise 111, .begin 0 0] = some (some (0, 0)) := by decide +kernel
example : exceptionLocation (run (fun _ => exProg) [.begin 0 0, .raise 111]) = [80, 82, 79, 71, 59, 32, 80, 65, 82, 65, 45, 65, 32, 79, 70, 32, 77, 65, 73, 78, 32, 83, 69, 67, 84, 73, 79, 78, 59, 32, 49, 48] := by
  decide +kernel
example : exceptionFile (fun _ => [70]) (run (fun _ => exProg) [.begin 0 1, .io 0 35]) = [51, 53, 70] := by decide +kernel

/-- C90: an exception that has no name would be shown as EXCEPTION-OBJECT, in a field of 31 characters. -/
theorem C90_object (s : St) (h0 : s.code ≠ 0) (hn : ∀ e ∈ table, e.1 ≠ s.code) :
    exceptionStatus s = "EXCEPTION-OBJECT               ".toList.map Char.toNat := by
  have hf : table.find? (fun e => e.1 == s.code) = none := by
    rw [List.find?_eq_none]
    intro e he
    simpa using hn e he
  have hx : exceptionName s.code = none := by
    unfold exceptionName
    rw [if_neg h0, hf]
    rfl
  unfold exceptionStatus
  rw [if_pos h0, hx]
  decide +kernel

/-- Finding: the test for an exception of input-output also holds for other exceptions: after a READ
that went well, an INSPECT REPLACING with texts of different size (EC-RANGE-INSPECT-SIZE, number
83) makes EXCEPTION-FILE name the file, with status 00. -/
theorem C90_finding_file (ps : Nat → Prog) :
    tabCode 83 = 0x0d03 ∧
    exceptionFile (fun _ => [70]) (run ps [.io 0 0, .raise 83]) = [48, 48, 70] := by
  refine ⟨by decide +kernel, ?_⟩
  unfold exceptionFile
  rw [show run ps [.io 0 0, .raise 83] = run ps ([Ev.raise 83, .io 0 0] : List Ev).reverse from rfl]
  obtain ⟨a, b⟩ := (file_run ps [.raise 83, .io 0 0]).2 0 0 rfl
  rw [a, code_run ps [.raise 83, .io 0 0] (by intro f st h; simp at h; omega)]
  dsimp only
  rw [b]
  decide +kernel

/-- Finding: end-of-page sets the exception without saying where: after a size error in the ADD of
line 10, a WRITE on line 11 that reaches the end of the page leaves EXCEPTION-STATUS at EC-I-O-EOP,
but EXCEPTION-STATEMENT at ADD and EXCEPTION-LOCATION at line 10. -/
theorem C90_finding_eop :
    let s := run (fun _ => exProg) [.begin 0 0, .raise 111, .begin 0 1, .eop 0]
    exceptionStatus s = pad31 [69, 67, 45, 73, 45, 79, 45, 69, 79, 80] ∧ exceptionStatement s = pad31 [65, 68, 68] ∧
      exceptionLocation s = [80, 82, 79, 71, 59, 32, 80, 65, 82, 65, 45, 65, 32, 79, 70, 32, 77, 65, 73, 78, 32, 83, 69, 67, 84, 73, 79, 78, 59, 32, 49, 48] := by
  decide +kernel

/-- Finding: of two statements on one line only the first says where it is: an exception of the
second, an INSPECT, is put down to the first, an ADD. -/
theorem C90_finding_same_line :
    exceptionStatement (run (fun _ => ⟨[80, 82, 79, 71], [⟨some [97], 10, some [65, 68, 68], some [77, 65, 73, 78, 32, 83, 69, 67, 84, 73, 79, 78], some [80, 65, 82, 65, 45, 65]⟩,
      ⟨some [97], 10, some [73, 78, 83, 80, 69, 67, 84], some [77, 65, 73, 78, 32, 83, 69, 67, 84, 73, 79, 78], some [80, 65, 82, 65, 45, 65]⟩]⟩) [.begin 0 0, .begin 0 1, .raise 83]) = pad31 [65, 68, 68] := by
  decide +kernel

/-- Finding: the line numbers of a COPY file are not told from those of the program: the statement
on line 10 of the file b, behind the one on line 10 of the program a, does not say where it is, and
neither does the first statement of a paragraph that begins on the line the one before ends on, even
when control comes to it from elsewhere: the exception is put down to line 20 of PARA-C. -/
theorem C90_finding_line_numbers :
    emits 0 [⟨some [97], 10, some [65, 68, 68], none, none⟩, ⟨some [98], 10, some [73, 78, 83, 80, 69, 67, 84], none, none⟩] = [true, false] ∧
    exceptionLocation (run (fun _ => ⟨[80, 82, 79, 71], [⟨some [97], 10, some [65, 68, 68], none, some [80, 65, 82, 65, 45, 65]⟩,
      ⟨some [97], 10, some [73, 78, 83, 80, 69, 67, 84], none, some [80, 65, 82, 65, 45, 66]⟩, ⟨some [97], 20, some [65, 68, 68], none, some [80, 65, 82, 65, 45, 67]⟩]⟩)
      [.begin 0 2, .begin 0 1, .raise 83]) = [80, 82, 79, 71, 59, 32, 80, 65, 82, 65, 45, 67, 59, 32, 50, 48] := by
  decide +kernel

/-- Finding: when the exception is cleared EXCEPTION-STATUS and EXCEPTION-STATEMENT become spaces,
but EXCEPTION-LOCATION still tells of it. -/
theorem C90_finding_cleared :
    let s := run (fun _ => exProg) [.begin 0 0, .raise 111, .begin 0 1, .io 0 0]
    exceptionStatus s = List.replicate 31 32 ∧ exceptionStatement s = List.replicate 31 32 ∧
      exceptionLocation s = [80, 82, 79, 71, 59, 32, 80, 65, 82, 65, 45, 65, 32, 79, 70, 32, 77, 65, 73, 78, 32, 83, 69, 67, 84, 73, 79, 78, 59, 32, 49, 48] := by
  decide +kernel

end Cob.Exc
