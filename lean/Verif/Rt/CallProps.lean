import Verif.Rt.Call
import Mathlib.Tactic.Tauto
/-
C41: CALL and CANCEL answer what the history of the run says.
-/
namespace Cob

/-! ### Specification: the history alone -/

/-- The entry point a name got first: from the first CALL of the name that the loader could satisfy
or from the first start of the program, whichever came first; 0 when there was none. -/
def firstEntry (name : List Nat) : List CallEvent → Nat
  | [] => 0
  | .call n dl :: es =>
    if n = name ∧ dl (encodeName name) ≠ 0 then dl (encodeName name) else firstEntry name es
  | .start n entry _ :: es => if n = name then entry else firstEntry name es
  | .cancel _ :: es => firstEntry name es

/-- The cancel function a program registered last; 0 when it never registered one. -/
def lastCancel (name : List Nat) (h : List CallEvent) : Nat :=
  (h.filterMap fun e => match e with
    | .start n _ f => if n = name then some f else none
    | _ => none).getLastD 0

/-- What the run answers to an event after a history. -/
def callSpec (h : List CallEvent) : CallEvent → CallOut
  | .call name dl =>
    .entry (if firstEntry name h ≠ 0 then firstEntry name h else dl (encodeName name))
  | .start _ _ _ => .started
  | .cancel name => .cancelled (if lastCancel name h ≠ 0 then [lastCancel name h] else [])

/-- Programs that start have an entry point. -/
def EntriesGiven (h : List CallEvent) : Prop :=
  ∀ n entry f, CallEvent.start n entry f ∈ h → entry ≠ 0

/-- The table after a history, from the empty table of process start. -/
def callState (h : List CallEvent) : CallTable :=
  h.foldl (fun t e => (callStep t e).2) (fun _ => [])

/-! ### The invariant -/

theorem firstEntry_append (name : List Nat) (e : CallEvent) (h : List CallEvent)
    (hg : EntriesGiven (h ++ [e])) :
    firstEntry name (h ++ [e]) =
      if firstEntry name h ≠ 0 then firstEntry name h else firstEntry name [e] := by
  induction h with
  | nil => simp [firstEntry]
  | cons a es ih =>
    have hg' : EntriesGiven (es ++ [e]) := fun n en f hm => hg n en f (by simp at hm ⊢; tauto)
    cases a with
    | call n dl =>
      simp only [List.cons_append]
      rw [firstEntry.eq_def, firstEntry.eq_def name (.call n dl :: es)]
      simp only
      by_cases hc : n = name ∧ dl (encodeName name) ≠ 0
      · rw [if_pos hc, if_pos hc, if_pos hc.2]
      · rw [if_neg hc, if_neg hc]; exact ih hg'
    | start n en f =>
      simp only [List.cons_append]
      rw [firstEntry.eq_def, firstEntry.eq_def name (.start n en f :: es)]
      simp only
      by_cases hc : n = name
      · have : en ≠ 0 := hg n en f (by simp)
        rw [if_pos hc, if_pos hc, if_pos this]
      · rw [if_neg hc, if_neg hc]; exact ih hg'
    | cancel n =>
      simp only [List.cons_append]
      rw [firstEntry.eq_def, firstEntry.eq_def name (.cancel n :: es)]
      simp only
      exact ih hg'

theorem lastCancel_append (name : List Nat) (e : CallEvent) (h : List CallEvent) :
    lastCancel name (h ++ [e]) =
      match e with
      | .start n _ f => if n = name then f else lastCancel name h
      | _ => lastCancel name h := by
  unfold lastCancel
  rw [List.filterMap_append]
  cases e with
  | call n dl => simp
  | cancel n => simp
  | start n en f =>
    by_cases hc : n = name
    · simp [hc, List.getLastD_eq_getLast?]
    · simp [hc]

/-- The entries of a name are the one entry the history says. -/
def TableIs (t : CallTable) (h : List CallEvent) : Prop :=
  ∀ name, (t (callHash name)).filter (fun p => p.name = name) =
    if firstEntry name h ≠ 0 then [⟨name, firstEntry name h, lastCancel name h⟩] else []

theorem findCall_filter (name : List Nat) (l : List CallRec) :
    findCall name l = (l.filter (fun p => p.name = name)).head? := by
  induction l with
  | nil => rfl
  | cons p ps ih =>
    rw [findCall]
    by_cases hp : p.name = name
    · simp [hp]
    · rw [if_neg hp, ih]; simp [hp]

theorem setCancelIn_none (name : List Nat) (f : Nat) (l : List CallRec)
    (h : l.filter (fun p => p.name = name) = []) : setCancelIn name f l = none := by
  induction l with
  | nil => rfl
  | cons p ps ih =>
    by_cases hp : p.name = name
    · simp [hp] at h
    · rw [setCancelIn, if_neg hp, ih (by simpa [hp] using h)]; rfl

theorem setCancelIn_some (name : List Nat) (f : Nat) (l : List CallRec) (r : CallRec)
    (h : l.filter (fun p => p.name = name) = [r]) :
    ∃ l', setCancelIn name f l = some l' ∧
      ∀ nm, l'.filter (fun p => p.name = nm) =
        if nm = name then [{ r with cancel := f }] else l.filter (fun p => p.name = nm) := by
  induction l with
  | nil => simp at h
  | cons p ps ih =>
    by_cases hp : p.name = name
    · refine ⟨{ p with cancel := f } :: ps, by rw [setCancelIn, if_pos hp], ?_⟩
      rw [List.filter_cons_of_pos (by simpa using hp)] at h
      obtain ⟨h1, h2⟩ := List.cons.inj h
      intro nm
      by_cases hn : nm = name
      · subst hn
        rw [if_pos rfl, List.filter_cons_of_pos (by simpa using hp), h2, h1]
      · have hne : ¬ p.name = nm := fun hh => hn (hh ▸ hp)
        rw [if_neg hn, List.filter_cons_of_neg (by simpa using hne),
          List.filter_cons_of_neg (by simpa using hne)]
    · obtain ⟨l', h1, h2⟩ := ih (by simpa [hp] using h)
      refine ⟨p :: l', by rw [setCancelIn, if_neg hp, h1]; rfl, ?_⟩
      intro nm
      by_cases hn : nm = name
      · have hne : ¬ p.name = nm := fun hh => hp (hh.trans hn)
        rw [if_pos hn, List.filter_cons_of_neg (by simpa using hne), h2 nm, if_pos hn]
      · rw [if_neg hn]
        by_cases hpn : p.name = nm
        · rw [List.filter_cons_of_pos (by simpa using hpn),
            List.filter_cons_of_pos (by simpa using hpn), h2 nm, if_neg hn]
        · rw [List.filter_cons_of_neg (by simpa using hpn),
            List.filter_cons_of_neg (by simpa using hpn), h2 nm, if_neg hn]

theorem callInsert_filter (t : CallTable) (name nm : List Nat) (f c : Nat) :
    (callInsert t name f c (callHash nm)).filter (fun p => p.name = nm) =
      if nm = name then ⟨name, f, c⟩ :: (t (callHash nm)).filter (fun p => p.name = nm)
      else (t (callHash nm)).filter (fun p => p.name = nm) := by
  unfold callInsert CallTable.set
  by_cases hn : nm = name
  · subst hn; simp
  · rw [if_neg hn]
    by_cases hh : callHash nm = callHash name
    · rw [if_pos hh, List.filter_cons_of_neg (by simpa using fun hx => hn hx.symm), hh]
    · rw [if_neg hh]

theorem lastCancel_zero (name : List Nat) (h : List CallEvent) (hg : EntriesGiven h)
    (h0 : firstEntry name h = 0) : lastCancel name h = 0 := by
  have : (h.filterMap fun e => match e with
      | .start n _ f => if n = name then some f else none
      | _ => none) = [] := by
    induction h with
    | nil => rfl
    | cons a es ih =>
      have hg' : EntriesGiven es := fun n en f hm => hg n en f (by simp [hm])
      cases a with
      | call n dl =>
        rw [firstEntry.eq_def] at h0
        simp only at h0
        by_cases hc : n = name ∧ dl (encodeName name) ≠ 0
        · rw [if_pos hc] at h0; exact absurd h0 hc.2
        · rw [if_neg hc] at h0; simpa using ih hg' h0
      | start n en f =>
        rw [firstEntry.eq_def] at h0
        simp only at h0
        by_cases hc : n = name
        · rw [if_pos hc] at h0; exact absurd h0 (hg n en f (by simp))
        · rw [if_neg hc] at h0; simpa [hc] using ih hg' h0
      | cancel n => rw [firstEntry.eq_def] at h0; simpa using ih hg' h0
  unfold lastCancel
  rw [this]; rfl

theorem callLookup_of (t : CallTable) (h : List CallEvent) (ht : TableIs t h) (name : List Nat) :
    callLookup t name = firstEntry name h := by
  unfold callLookup
  rw [findCall_filter, ht name]
  by_cases h0 : firstEntry name h = 0
  · simp [h0]
  · simp [h0]

theorem tableIs_step (t : CallTable) (h : List CallEvent) (e : CallEvent)
    (hg : EntriesGiven (h ++ [e])) (ht : TableIs t h) : TableIs (callStep t e).2 (h ++ [e]) := by
  have hgh : EntriesGiven h := fun n en f hm => hg n en f (by simp [hm])
  intro nm
  rw [firstEntry_append nm e h hg, lastCancel_append]
  cases e with
  | cancel n =>
    simp only [callStep]
    rw [ht nm]
    by_cases h0 : firstEntry nm h = 0
    · simp [h0, firstEntry]
    · simp [h0]
  | call n dl =>
    simp only [callStep, cobResolve]
    rw [callLookup_of t h ht n]
    by_cases h0 : firstEntry n h = 0
    · by_cases hd : dl (encodeName n) = 0
      · have : firstEntry nm [.call n dl] = 0 := by
          rw [firstEntry.eq_def]
          simp only
          by_cases hn : n = nm
          · subst hn; simp [hd, firstEntry]
          · simp [hn, firstEntry]
        simp only [h0, hd, ne_eq, not_true_eq_false, if_false, this]
        rw [ht nm]
        by_cases h1 : firstEntry nm h = 0 <;> simp [h1]
      · simp only [h0, hd, ne_eq, not_true_eq_false, not_false_eq_true, if_false, if_true]
        rw [callInsert_filter, ht nm]
        by_cases hn : nm = n
        · subst hn
          have hl := lastCancel_zero nm h hgh h0
          have : firstEntry nm [.call nm dl] = dl (encodeName nm) := by
            rw [firstEntry.eq_def]; simp [hd]
          simp [h0, this, hd, hl]
        · have : firstEntry nm [.call n dl] = 0 := by
            rw [firstEntry.eq_def]; simp [Ne.symm hn, firstEntry]
          rw [this]
          by_cases h1 : firstEntry nm h = 0 <;> simp [h1, hn]
    · simp only [h0, ne_eq, not_false_eq_true, if_true]
      rw [ht nm]
      by_cases h1 : firstEntry nm h = 0
      · have hn : ¬ n = nm := fun hh => h0 (hh ▸ h1)
        have : firstEntry nm [.call n dl] = 0 := by
          rw [firstEntry.eq_def]; simp [hn, firstEntry]
        simp [h1, this]
      · simp [h1]
  | start n en f =>
    have hen : en ≠ 0 := hg n en f (by simp)
    simp only [callStep, setCancel]
    by_cases h0 : firstEntry n h = 0
    · rw [setCancelIn_none n f _ (by rw [ht n]; simp [h0])]
      simp only
      rw [callInsert_filter, ht nm]
      by_cases hn : nm = n
      · subst hn
        have : firstEntry nm [.start nm en f] = en := by rw [firstEntry.eq_def]; simp
        simp [h0, this, hen]
      · have : firstEntry nm [.start n en f] = 0 := by
          rw [firstEntry.eq_def]; simp [Ne.symm hn, firstEntry]
        rw [this]
        by_cases h1 : firstEntry nm h = 0 <;> simp [h1, hn, Ne.symm hn]
    · obtain ⟨l', h1, h2⟩ := setCancelIn_some n f (t (callHash n)) _
        (by rw [ht n, if_pos h0])
      rw [h1]
      simp only [CallTable.set]
      by_cases hn : nm = n
      · subst hn
        rw [if_pos rfl, h2, if_pos rfl]
        simp [h0]
      · have h3 : firstEntry nm [.start n en f] = 0 := by
          rw [firstEntry.eq_def]; simp [Ne.symm hn, firstEntry]
        rw [h3]
        by_cases hh : callHash nm = callHash n
        · rw [if_pos hh, h2, if_neg hn, ← hh, ht nm]
          by_cases h4 : firstEntry nm h = 0 <;> simp [h4, Ne.symm hn]
        · rw [if_neg hh, ht nm]
          by_cases h4 : firstEntry nm h = 0 <;> simp [h4, Ne.symm hn]

theorem tableIs_state_aux (es : List CallEvent) : ∀ (t : CallTable) (h : List CallEvent),
    EntriesGiven (h ++ es) → TableIs t h →
    TableIs (es.foldl (fun t e => (callStep t e).2) t) (h ++ es) := by
  induction es with
  | nil => intro t h _ ht; simpa using ht
  | cons e es ih =>
    intro t h hg ht
    have := ih (callStep t e).2 (h ++ [e]) (by simpa using hg)
      (tableIs_step t h e (fun n en f hm => hg n en f (by simp at hm ⊢; tauto)) ht)
    simpa using this

theorem tableIs_state (h : List CallEvent) (hg : EntriesGiven h) : TableIs (callState h) h := by
  have := tableIs_state_aux h (fun _ => []) [] (by simpa using hg)
    (fun name => by simp [firstEntry])
  simpa [callState] using this

theorem cobcancel_of (t : CallTable) (h : List CallEvent) (hg : EntriesGiven h)
    (ht : TableIs t h) (name : List Nat) :
    cobcancel t name = if lastCancel name h ≠ 0 then [lastCancel name h] else [] := by
  have e : (t (callHash name)).filter (fun p => p.name = name && p.cancel ≠ 0) =
      ((t (callHash name)).filter (fun p => p.name = name)).filter (fun p => p.cancel ≠ 0) := by
    rw [List.filter_filter]
    congr 1; funext p
    rw [Bool.and_comm]
  unfold cobcancel
  rw [e, ht name]
  by_cases h0 : firstEntry name h = 0
  · have := lastCancel_zero name h hg h0
    simp [h0, this]
  · by_cases h1 : lastCancel name h = 0 <;> simp [h0, h1]

/-! ### C41 -/

/-- **C41.** After every history every event is answered as the history says: a CALL gets the entry
point the name was given first (or, when it has none, what the loader finds under the encoded
symbol), a CANCEL runs exactly the cancel function that program registered last, once, and no
other.  Names that share a bucket of the table do not disturb each other. -/
theorem C41_answers (h : List CallEvent) (e : CallEvent) (hg : EntriesGiven h) :
    (callStep (callState h) e).1 = callSpec h e := by
  have ht := tableIs_state h hg
  cases e with
  | call name dl =>
    simp only [callStep, cobResolve, callSpec]
    rw [callLookup_of _ h ht]
    by_cases h0 : firstEntry name h = 0
    · by_cases hd : dl (encodeName name) = 0 <;> simp [h0, hd]
    · simp [h0]
  | start n en f => rfl
  | cancel name =>
    simp only [callStep, callSpec]
    rw [cobcancel_of _ h hg ht]

theorem firstEntry_mono (name : List Nat) (h1 : List CallEvent) :
    ∀ (es : List CallEvent), EntriesGiven (h1 ++ es) → firstEntry name h1 ≠ 0 →
      firstEntry name (h1 ++ es) = firstEntry name h1 := by
  intro es
  induction es generalizing h1 with
  | nil => intro _ _; simp
  | cons e es ih =>
    intro hg h0
    have hg1 : EntriesGiven (h1 ++ [e]) := fun n en f hm => hg n en f (by simp at hm ⊢; tauto)
    have h2 : firstEntry name (h1 ++ [e]) = firstEntry name h1 := by
      rw [firstEntry_append name e h1 hg1, if_pos h0]
    have := ih (h1 ++ [e]) (by simpa using hg) (by rw [h2]; exact h0)
    rw [h2] at this
    simpa using this

/-- **C41.** Once a CALL has found a program, every later CALL of that name gets the same entry
point, whatever happened in between and whatever the loader would say by then. -/
theorem C41_stable (h es : List CallEvent) (name : List Nat) (dl dl' : List Nat → Nat) (f : Nat)
    (hg : EntriesGiven (h ++ .call name dl :: es)) (hf : f ≠ 0)
    (h1 : (callStep (callState h) (.call name dl)).1 = .entry f) :
    (callStep (callState (h ++ .call name dl :: es)) (.call name dl')).1 = .entry f := by
  have hgh : EntriesGiven h := fun n en g hm => hg n en g (by simp [hm])
  have hg1 : EntriesGiven (h ++ [.call name dl]) :=
    fun n en f hm => hg n en f (by simp at hm ⊢; tauto)
  rw [C41_answers h _ hgh] at h1
  rw [C41_answers _ _ hg]
  simp only [callSpec, CallOut.entry.injEq] at h1 ⊢
  have h2 : firstEntry name (h ++ [.call name dl]) = f := by
    rw [firstEntry_append name _ h hg1]
    by_cases h0 : firstEntry name h = 0
    · simp only [h0, ne_eq, not_true_eq_false, if_false] at h1 ⊢
      rw [firstEntry.eq_def]
      simp [h1, hf]
    · simp only [h0, ne_eq, not_false_eq_true, if_true] at h1 ⊢
      exact h1
  have h3 := firstEntry_mono name (h ++ [.call name dl]) es (by simpa using hg)
    (by rw [h2]; exact hf)
  rw [h2] at h3
  simp only [List.append_assoc, List.singleton_append] at h3
  rw [h3, if_pos hf]

/-- Non-vacuity: two names in the same bucket ("AD" and "BC"), resolved, started, the loader
changed, called again, cancelled. -/
example :
    let h : List CallEvent := [.call [65, 68] (fun _ => 7), .start [65, 68] 7 100,
      .call [66, 67] (fun _ => 9), .start [66, 67] 9 200]
    callHash [65, 68] = callHash [66, 67] ∧ EntriesGiven h ∧
    (callStep (callState h) (.call [65, 68] (fun _ => 55))).1 = .entry 7 ∧
    (callStep (callState h) (.cancel [65, 68])).1 = .cancelled [100] := by
  refine ⟨by decide, ?_, by decide, by decide⟩
  intro n en f hm
  simp at hm
  omega

/-! ### Names and symbols -/

/-- The value of an upper case hexadecimal digit. -/
def unhexDigit (c : Nat) : Nat := if c < 58 then c - 48 else c - 55

theorem unhex_hex (n : Nat) (h : n < 16) : unhexDigit (hexDigit n) = n := by
  unfold unhexDigit hexDigit
  split <;> split <;> omega

/-- Reads the first character back from a symbol. -/
def decChar : List Nat → Option (Nat × List Nat)
  | [] => none
  | c :: rest =>
    if c ≠ 95 then some (c, rest)
    else
      match rest with
      | d :: rest' =>
        if d = 95 then some (45, rest')
        else
          match rest' with
          | e :: rest'' => some (unhexDigit d * 16 + unhexDigit e, rest'')
          | [] => none
      | [] => none

theorem decChar_esc (c : Nat) (rest : List Nat) (h : c < 256) :
    decChar (escByte c ++ rest) = some (c, rest) := by
  have h1 : c / 16 < 16 := by omega
  have h2 : c % 16 < 16 := by omega
  have h3 : hexDigit (c / 16) ≠ 95 := by unfold hexDigit; split <;> omega
  simp only [escByte, List.cons_append, List.nil_append, decChar, ne_eq, not_true_eq_false,
    if_false, h3, unhex_hex _ h1, unhex_hex _ h2]
  congr 2; omega

theorem decChar_enc (c : Nat) (rest : List Nat) (h : c < 256) (hu : c ≠ 95) :
    decChar (encChar c ++ rest) = some (c, rest) := by
  unfold encChar
  by_cases ha : isAlnumC c = true
  · simp [ha, decChar, hu]
  · simp only [ha, hu, Bool.false_or, decide_false, Bool.false_eq_true, if_false]
    by_cases hm : c = 45
    · subst hm; simp [decChar]
    · rw [if_neg hm]; exact decChar_esc c rest h

theorem flatMap_encChar_inj (a : List Nat) :
    ∀ b : List Nat, (∀ c ∈ a, c < 256 ∧ c ≠ 95) → (∀ c ∈ b, c < 256 ∧ c ≠ 95) →
      a.flatMap encChar = b.flatMap encChar → a = b := by
  have ne : ∀ c, encChar c ≠ [] := by
    intro c; unfold encChar escByte
    split
    · simp
    · split <;> simp
  induction a with
  | nil =>
    intro b _ _ h
    cases b with
    | nil => rfl
    | cons d ds =>
      simp only [List.flatMap_nil, List.flatMap_cons] at h
      exact absurd (List.append_eq_nil_iff.1 h.symm).1 (ne d)
  | cons c cs ih =>
    intro b ha hb h
    cases b with
    | nil =>
      simp only [List.flatMap_nil, List.flatMap_cons] at h
      exact absurd (List.append_eq_nil_iff.1 h).1 (ne c)
    | cons d ds =>
      simp only [List.flatMap_cons] at h
      have h1 := decChar_enc c (cs.flatMap encChar) (ha c (by simp)).1 (ha c (by simp)).2
      have h2 := decChar_enc d (ds.flatMap encChar) (hb d (by simp)).1 (hb d (by simp)).2
      rw [h, h2] at h1
      simp only [Option.some.injEq, Prod.mk.injEq] at h1
      obtain ⟨h3, h4⟩ := h1
      rw [h3, ih ds (fun x hx => ha x (by simp [hx])) (fun x hx => hb x (by simp [hx])) h4.symm]

/-- **C41.** Two different program names without underscore have different entry symbols, whatever
bytes they contain. -/
theorem C41_symbols_differ (a b : List Nat)
    (ha : ∀ c ∈ a, c < 256 ∧ c ≠ 95) (hb : ∀ c ∈ b, c < 256 ∧ c ≠ 95) (h : a ≠ b) :
    encodeName a ≠ encodeName b := by
  intro he
  apply h
  have ne : ∀ c, encChar c ≠ [] := by
    intro c; unfold encChar escByte
    split
    · simp
    · split <;> simp
  -- the encoding of the first character
  have key : ∀ c cs, ∃ x, encodeName (c :: cs) = x ++ cs.flatMap encChar ∧ x ≠ [] ∧
      (c < 256 ∧ c ≠ 95 → ∀ rest, decChar (x ++ rest) = some (c, rest)) := by
    intro c cs
    rw [encodeName.eq_def]
    simp only
    by_cases hd : 48 ≤ c ∧ c ≤ 57
    · exact ⟨escByte c, by rw [if_pos hd], by simp [escByte],
        fun hc rest => decChar_esc c rest hc.1⟩
    · exact ⟨encChar c, by rw [if_neg hd]; simp, ne c,
        fun hc rest => decChar_enc c rest hc.1 hc.2⟩
  cases a with
  | nil =>
    cases b with
    | nil => rfl
    | cons d ds =>
      obtain ⟨x, h1, h2, _⟩ := key d ds
      rw [h1] at he
      simp only [encodeName] at he
      exact absurd (List.append_eq_nil_iff.1 he.symm).1 h2
  | cons c cs =>
    cases b with
    | nil =>
      obtain ⟨x, h1, h2, _⟩ := key c cs
      rw [h1] at he
      simp only [encodeName] at he
      exact absurd (List.append_eq_nil_iff.1 he).1 h2
    | cons d ds =>
      obtain ⟨x, h1, h2, h3⟩ := key c cs
      obtain ⟨y, g1, g2, g3⟩ := key d ds
      rw [h1, g1] at he
      have e1 := h3 (ha c (by simp)) (cs.flatMap encChar)
      rw [he, g3 (hb d (by simp))] at e1
      simp only [Option.some.injEq, Prod.mk.injEq] at e1
      rw [e1.1, flatMap_encChar_inj cs ds (fun x hx => ha x (by simp [hx]))
        (fun x hx => hb x (by simp [hx])) e1.2.symm]

example : encodeName [65, 45, 66] ≠ encodeName [65, 47, 66] :=
  C41_symbols_differ _ _ (by decide) (by decide) (by decide)

theorem symbol_chars (a : List Nat) (ha : ∀ c ∈ a, c < 256) :
    (∀ c ∈ encodeName a, isAlnumC c = true ∨ c = 95) ∧
    (∀ c cs, encodeName a = c :: cs → ¬ (48 ≤ c ∧ c ≤ 57)) := by
  have hex : ∀ n, n < 16 → isAlnumC (hexDigit n) = true := by decide
  have esc : ∀ c, c < 256 → ∀ x ∈ escByte c, isAlnumC x = true ∨ x = 95 := by
    intro c hc x hx
    simp only [escByte, List.mem_cons, List.not_mem_nil, or_false] at hx
    rcases hx with rfl | rfl | rfl
    · exact Or.inr rfl
    · exact Or.inl (hex _ (by omega))
    · exact Or.inl (hex _ (by omega))
  have enc : ∀ c, c < 256 → ∀ x ∈ encChar c, isAlnumC x = true ∨ x = 95 := by
    intro c hc x hx
    unfold encChar at hx
    split at hx
    · rename_i h
      simp only [List.mem_cons, List.not_mem_nil, or_false] at hx
      subst hx
      simpa using h
    · split at hx
      · simp at hx; exact Or.inr hx
      · exact esc c hc x hx
  cases a with
  | nil => simp [encodeName]
  | cons c cs =>
    have hc := ha c (by simp)
    rw [encodeName.eq_def]
    simp only
    by_cases hd : 48 ≤ c ∧ c ≤ 57
    · rw [if_pos hd]
      refine ⟨?_, ?_⟩
      · intro x hx
        rcases List.mem_append.1 hx with hx | hx
        · exact esc c hc x hx
        · obtain ⟨y, hy, hx⟩ := List.mem_flatMap.1 hx
          exact enc y (ha y (by simp [hy])) x hx
      · intro y ys h
        simp only [escByte, List.cons_append] at h
        have := (List.cons.inj h).1
        omega
    · rw [if_neg hd]
      refine ⟨?_, ?_⟩
      · intro x hx
        obtain ⟨y, hy, hx⟩ := List.mem_flatMap.1 hx
        exact enc y (ha y hy) x hx
      · intro y ys h
        simp only [List.flatMap_cons] at h
        unfold encChar at h
        split at h
        · simp only [List.cons_append] at h
          have := (List.cons.inj h).1
          omega
        · split at h
          · simp only [List.cons_append] at h
            have := (List.cons.inj h).1
            omega
          · simp only [escByte, List.cons_append] at h
            have := (List.cons.inj h).1
            omega

/-- A symbol is a C identifier: letters, digits and underscores, not starting with a digit. -/
theorem C41_symbol_is_identifier (a : List Nat) (ha : ∀ c ∈ a, c < 256) :
    (∀ c ∈ encodeName a, (48 ≤ c ∧ c ≤ 57) ∨ (65 ≤ c ∧ c ≤ 90) ∨ (97 ≤ c ∧ c ≤ 122) ∨ c = 95) ∧
    (∀ c cs, encodeName a = c :: cs → ¬ (48 ≤ c ∧ c ≤ 57)) := by
  refine ⟨fun c hc => ?_, (symbol_chars a ha).2⟩
  have := (symbol_chars a ha).1 c hc
  simp only [isAlnumC, Bool.or_eq_true, Bool.and_eq_true, decide_eq_true_eq] at this
  omega

theorem stringEnd_append_spaces (d : List Nat) (k : Nat) :
    stringEnd (d ++ List.replicate k 32) (d.length + k) = stringEnd (d ++ List.replicate k 32) d.length := by
  have : ∀ j, j ≤ k → stringEnd (d ++ List.replicate k 32) (d.length + j) =
      stringEnd (d ++ List.replicate k 32) d.length := by
    intro j
    induction j with
    | zero => simp
    | succ j ih =>
      intro hj
      rw [← Nat.add_assoc, stringEnd]
      have : (d ++ List.replicate k 32).getD (d.length + j) 0 = 32 := by
        rw [List.getD_eq_getElem?_getD, List.getElem?_append_right (by omega)]
        simp [show j < k by omega]
      rw [if_neg (by rw [this]; decide)]
      exact ih (by omega)
  exact this k (Nat.le_refl _)

theorem stringEnd_congr (d e : List Nat) : ∀ n, n ≤ d.length →
    stringEnd (d ++ e) n = stringEnd d n := by
  intro n
  induction n with
  | zero => intro _; rfl
  | succ n ih =>
    intro hn
    have : (d ++ e).getD n 0 = d.getD n 0 := by
      rw [List.getD_eq_getElem?_getD, List.getElem?_append_left (by omega),
        List.getD_eq_getElem?_getD]
    rw [stringEnd, stringEnd, this, ih (by omega)]

theorem stringEnd_le (d : List Nat) : ∀ n, stringEnd d n ≤ n := by
  intro n
  induction n with
  | zero => exact Nat.le_refl _
  | succ n ih => rw [stringEnd]; split <;> omega

/-- **C41.** The program name in a data item: trailing spaces are not part of it, so a name gives
the same program however long the item is that holds it. -/
theorem C41_name_padding (d : List Nat) (k : Nat) :
    fieldToString (d ++ List.replicate k 32) = fieldToString d := by
  unfold fieldToString
  have h : stringEnd (d ++ List.replicate k 32) (d ++ List.replicate k 32).length =
      stringEnd d d.length := by
    rw [List.length_append, List.length_replicate, stringEnd_append_spaces,
      stringEnd_congr d _ _ (Nat.le_refl _)]
  rw [h, List.take_append_of_le_length (stringEnd_le d _)]

/-- **C41.** A name without spaces or NULs at its end and without a NUL inside is taken as it is. -/
theorem C41_name_exact (d : List Nat) (k : Nat) (h : ∀ c ∈ d, c ≠ 0)
    (hl : ∀ c, d.getLast? = some c → c ≠ 32) :
    fieldToString (d ++ List.replicate k 32) = d := by
  rw [C41_name_padding]
  have h1 : stringEnd d d.length = d.length := by
    rcases List.eq_nil_or_concat d with rfl | ⟨l, b, rfl⟩
    · rfl
    · have hb0 := h b (by simp)
      have hb1 := hl b (by simp)
      rw [List.concat_eq_append, List.length_append, List.length_singleton, stringEnd]
      have : (l ++ [b]).getD l.length 0 = b := by simp [List.getD_eq_getElem?_getD]
      rw [this, if_pos ⟨hb1, hb0⟩]
  unfold fieldToString
  rw [h1, List.take_length]
  clear h1 hl
  induction d with
  | nil => rfl
  | cons c cs ih =>
    rw [List.takeWhile_cons_of_pos (by simpa using h c (by simp)),
      ih (fun x hx => h x (by simp [hx]))]

example : fieldToString ([65, 45, 66] ++ List.replicate 5 32) = [65, 45, 66] :=
  C41_name_exact _ _ (by decide) (by decide)

/-- Finding: with an underscore names can collide: "A-B" and "A__B" have the same symbol, so a CALL
of the second reaches the first program. -/
theorem C41_finding_hyphen_collides :
    encodeName [65, 45, 66] = encodeName [65, 95, 95, 66] ∧
    (let dl : List Nat → Nat := fun s => if s = encodeName [65, 45, 66] then 7 else 0
     (callStep (callState []) (.call [65, 95, 95, 66] dl)).1 = .entry 7) := by
  decide

/-- Finding: so does a name that spells out an escape: "A/B" and "A_2FB". -/
theorem C41_finding_escape_collides :
    encodeName [65, 47, 66] = encodeName [65, 95, 50, 70, 66] := by decide

end Cob
