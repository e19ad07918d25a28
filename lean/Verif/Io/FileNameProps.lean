import Verif.Io.FileNameSpec
import Verif.Rt.EnvProps
/-
C78: the name of a file.
-/
namespace Cob

/-! ### characters -/

theorem varChar_iff (c : Nat) : (isAlnumC c || decide (c = 95)) = true ↔ VarChar c := by
  unfold isAlnumC VarChar
  simp only [Bool.or_eq_true, Bool.and_eq_true, decide_eq_true_eq]
  tauto

theorem simple_iff (n : List Nat) : simpleName n = true ↔ Logical n := by
  unfold simpleName Logical
  rw [List.all_eq_true]
  constructor
  · intro h c hc
    have := h c hc
    rw [Bool.or_eq_true, varChar_iff] at this
    simpa using this
  · intro h c hc
    rw [Bool.or_eq_true, varChar_iff]
    simpa using h c hc

theorem getenv_vars (vars : List (List Nat × List Nat)) (hv : Vars77 vars) (nm : List Nat) (h : 61 ∉ nm) (h0 : nm ≠ []) :
    cGetenv (environOf vars) nm = varValue vars nm := cGetenv_of vars hv nm h0 h

theorem varChar_ne (nm : List Nat) (h : ∀ c ∈ nm, VarChar c) : 61 ∉ nm := by
  intro hc
  have := h 61 hc
  revert this; decide

/-! ### variables in the name -/

theorem takeWhile_var (nm rest : List Nat) (h : ∀ c ∈ nm, VarChar c) (hr : ∀ c, rest.head? = some c → ¬ VarChar c) :
    (nm ++ rest).takeWhile (fun c => isAlnumC c || decide (c = 95)) = nm := by
  induction nm with
  | nil =>
    cases rest with
    | nil => rfl
    | cons c r =>
      rw [List.nil_append, List.takeWhile_cons_of_neg]
      rw [varChar_iff]; exact hr c rfl
  | cons c nm ih =>
    rw [List.cons_append, List.takeWhile_cons_of_pos (p := fun c => isAlnumC c || decide (c = 95))
      ((varChar_iff c).2 (h c (by simp))), ih (fun x hx => h x (by simp [hx]))]

theorem expand_text (environ : List (List Nat)) (s rest : List Nat) (hs : 36 ∉ s) : ∀ fuel, s.length ≤ fuel →
    expandVars environ fuel (s ++ rest) = s ++ expandVars environ (fuel - s.length) rest := by
  induction s with
  | nil => intro fuel _; simp
  | cons c s ih =>
    intro fuel hf
    obtain ⟨k, rfl⟩ : ∃ k, fuel = k + 1 := ⟨fuel - 1, by simp at hf; omega⟩
    rw [List.cons_append, expandVars, if_neg (by intro h; exact hs (by simp [h])),
      ih (fun h => hs (by simp [h])) k (by simpa using hf)]
    simp

theorem expand_parts (vars : List (List Nat × List Nat)) (hv : Vars77 vars) (ps : List NamePart) (h : PartsOk ps) :
    ∀ fuel, (nameWritten ps).length ≤ fuel → expandVars (environOf vars) fuel (nameWritten ps) = meant vars ps := by
  induction ps with
  | nil => intro fuel _; cases fuel <;> rfl
  | cons p ps ih =>
    intro fuel hf
    cases p with
    | text s =>
      simp only [nameWritten, List.length_append, meant] at hf ⊢
      rw [expand_text _ s _ h.1 fuel (by omega), ih h.2 _ (by omega)]
    | var nm =>
      obtain ⟨h1, h2, h3, h4⟩ := h
      simp only [nameWritten, List.length_append, List.length_cons, List.cons_append, meant] at hf ⊢
      obtain ⟨k, rfl⟩ : ∃ k, fuel = k + 1 := ⟨fuel - 1, by omega⟩
      rw [expandVars, if_pos rfl]
      dsimp only
      rw [takeWhile_var nm _ h2 h3, getenv_vars vars hv nm (varChar_ne nm h2) h1, List.drop_left, ih h4 k (by omega)]

theorem expand_plain (environ : List (List Nat)) (s : List Nat) (hs : 36 ∉ s) : expandVars environ s.length s = s := by
  have := expand_text environ s [] hs s.length (Nat.le_refl _)
  rw [List.append_nil] at this
  rw [this]
  simp [expandVars]

/-! ### coded words -/

theorem jisWord_uncoded (n : List Nat) (h : Uncoded n) : jisWord n = n := by
  unfold jisWord
  dsimp only
  have hq : ¬ (n.head? = some 39 ∧ n.getLast? = some 39) := fun h' => h.2 h'.1
  simp only [if_neg hq]
  split
  · rename_i hc
    refine absurd ⟨(n.drop 3).take (n.length - 6), ?_⟩ h.1
    have e1 : n = n.take 3 ++ n.drop 3 := (List.take_append_drop 3 n).symm
    have e2 : n.drop 3 = (n.drop 3).take (n.length - 6) ++ (n.drop 3).drop (n.length - 6) :=
      (List.take_append_drop _ _).symm
    have e3 : (n.drop 3).drop (n.length - 6) = [95, 95, 95] := by
      rw [List.drop_drop, ← hc.2.2]; congr 1; omega
    rw [e3] at e2
    rw [List.append_assoc, ← e2, ← hc.2.1]
    exact e1
  · rfl

theorem hexDig_val (d : Nat) (h : d < 16) : hexDig (if d < 10 then 48 + d else 55 + d) = some d := by
  unfold hexDig
  by_cases h1 : d < 10
  · rw [if_pos h1, if_pos (by omega)]; congr 1; omega
  · rw [if_neg h1, if_neg (by omega), if_pos (by omega)]; congr 1; omega

theorem hexPairs_hex2 (w : List Nat) (h : ∀ c ∈ w, c < 256) : hexPairs (w.flatMap hex2) = w := by
  induction w with
  | nil => rfl
  | cons c w ih =>
    have hc := h c (by simp)
    simp only [List.flatMap_cons, hex2, List.cons_append, List.nil_append, hexPairs]
    rw [hexDig_val _ (by omega), hexDig_val _ (by omega)]
    dsimp only
    rw [ih (fun x hx => h x (by simp [hx]))]
    congr 1
    omega

theorem flatMap_hex2_length (w : List Nat) : (w.flatMap hex2).length = 2 * w.length := by
  induction w with
  | nil => rfl
  | cons c w ih => simp only [List.flatMap_cons, List.length_append, ih, List.length_cons, hex2, List.length_nil]; omega

/-- **C78.** A word with characters from 128 on, which the compiler keeps in a coded form, is decoded to itself; other words stay
as they are. -/
theorem C78_word (w : List Nat) (h1 : ∀ c ∈ w, 0 < c ∧ c < 256) (h2 : (∃ c ∈ w, 128 ≤ c) ∨ Uncoded w) :
    jisWord (hexWord w) = w := by
  unfold hexWord
  by_cases hw : w.any (fun c => decide (128 ≤ c)) = true
  · rw [if_pos hw]
    unfold jisWord
    dsimp only
    have hl := flatMap_hex2_length w
    generalize hs : ([95, 95, 95] ++ w.flatMap hex2 ++ [95, 95, 95] : List Nat) = s
    have hlen : s.length = 2 * w.length + 6 := by rw [← hs]; simp [hl]
    have hhead : s.head? = some 95 := by rw [← hs]; rfl
    have hq : ¬ (s.head? = some 39 ∧ s.getLast? = some 39) := by rw [hhead]; simp
    simp only [if_neg hq]
    have c1 : s.take 3 = [95, 95, 95] := by rw [← hs]; rfl
    have c2 : s.drop (s.length - 3) = [95, 95, 95] := by
      rw [hlen, ← hs]
      exact List.drop_left' (by simp [hl])
    rw [if_pos ⟨by omega, c1, c2⟩]
    have c3 : (s.drop 3).take (s.length - 6) = w.flatMap hex2 := by
      rw [hlen, ← hs]
      show (w.flatMap hex2 ++ [95, 95, 95]).take (2 * w.length + 6 - 6) = _
      exact List.take_left' (by simp [hl])
    rw [c3, hexPairs_hex2 w (fun c hc => (h1 c hc).2)]
    have : ∀ c ∈ w, c ≠ 0 := fun c hc => by have := (h1 c hc).1; omega
    clear * - this
    induction w with
    | nil => rfl
    | cons c w ih =>
      rw [List.takeWhile_cons_of_pos (by simpa using this c (by simp)), ih (fun x hx => this x (by simp [hx]))]
  · rw [if_neg hw]
    rcases h2 with ⟨c, hc, h⟩ | h
    · exact absurd (List.any_eq_true.2 ⟨c, hc, by simpa using h⟩) hw
    · exact jisWord_uncoded w h

/-- **C78.** A coded word in apostrophes is decoded inside them. -/
theorem C78_word_quoted (w : List Nat) (h1 : ∀ c ∈ w, 0 < c ∧ c < 256) (h2 : ∃ c ∈ w, 128 ≤ c) :
    jisWord ([39] ++ hexWord w ++ [39]) = [39] ++ w ++ [39] := by
  unfold hexWord
  have hw : w.any (fun c => decide (128 ≤ c)) = true := by
    obtain ⟨c, hc, h⟩ := h2; exact List.any_eq_true.2 ⟨c, hc, by simpa using h⟩
  rw [if_pos hw]
  unfold jisWord
  dsimp only
  have hl := flatMap_hex2_length w
  generalize hs : ([95, 95, 95] ++ w.flatMap hex2 ++ [95, 95, 95] : List Nat) = s
  have hlen : s.length = 2 * w.length + 6 := by rw [← hs]; simp [hl]
  have hq : ([39] ++ s ++ [39]).head? = some 39 ∧ ([39] ++ s ++ [39]).getLast? = some 39 := by
    refine ⟨rfl, ?_⟩
    rw [List.getLast?_append]; rfl
  have hin : (([39] ++ s ++ [39]).drop 1).dropLast = s := by
    show (s ++ [39]).dropLast = s
    simp
  simp only [if_pos hq, hin]
  have c1 : s.take 3 = [95, 95, 95] := by rw [← hs]; rfl
  have c2 : s.drop (s.length - 3) = [95, 95, 95] := by
    rw [hlen, ← hs]
    exact List.drop_left' (by simp [hl])
  rw [if_pos ⟨by omega, c1, c2⟩]
  have c3 : (s.drop 3).take (s.length - 6) = w.flatMap hex2 := by
    rw [hlen, ← hs]
    show (w.flatMap hex2 ++ [95, 95, 95]).take (2 * w.length + 6 - 6) = _
    exact List.take_left' (by simp [hl])
  rw [c3, hl, if_pos (by omega), hexPairs_hex2 w (fun c hc => (h1 c hc).2)]
  have : ∀ c ∈ [39] ++ w ++ [39], c ≠ 0 := by
    intro c hc
    simp only [List.mem_append, List.mem_cons, List.not_mem_nil, or_false] at hc
    rcases hc with (rfl | hc) | rfl
    · decide
    · have := (h1 c hc).1; omega
    · decide
  revert this
  generalize [39] ++ w ++ [39] = z
  intro this
  induction z with
  | nil => rfl
  | cons c w ih =>
    rw [List.takeWhile_cons_of_pos (by simpa using this c (by simp)), ih (fun x hx => this x (by simp [hx]))]

example : hexWord [0x93, 0xFA] = bytes "___93FA___" ∧ jisWord (bytes "___93FA___") = [0x93, 0xFA] := by decide +kernel

/-! ### names -/

theorem located_eq (vars : List (List Nat × List Nat)) (hv : Vars77 vars) (path : Option (List Nat)) (n : List Nat)
    (h61 : 61 ∉ n) (hl : n.length ≤ 1019) (h0 : n ≠ []) (hval : ∀ p ∈ vars, p.2.length ≤ 1023) :
    (∀ p, path = some p → p.length + 1 + n.length ≤ 1022) →
    (match ddLookup (environOf vars) n ddPrefixes with
      | some v => v.take 1023
      | none => match path with
        | some p => ((p ++ [47] ++ n).take 1022).take 1023
        | none => n) = located vars path n := by
  intro hp
  have hvv : ∀ nm v, varValue vars nm = some v → v.length ≤ 1023 := by
    intro nm v h
    unfold varValue at h
    rcases hf : vars.find? (fun p => decide (p.1 = nm)) with _ | p
    · rw [hf] at h; cases h
    · rw [hf] at h; cases h; exact hval p (List.mem_of_find?_eq_some hf)
  have g : ∀ pre : List Nat, 61 ∉ pre → pre.length ≤ 3 →
      cGetenv (environOf vars) ((pre ++ n).take 1022) = varValue vars (pre ++ n) := by
    intro pre h1 h2
    rw [List.take_of_length_le (by simp; omega)]
    exact getenv_vars vars hv _ (by simp [h1, h61]) (by simp [h0])
  simp only [ddPrefixes, ddLookup]
  rw [g [68, 68, 95] (by decide) (by simp), g [100, 100, 95] (by decide) (by simp), g [] (by simp) (by simp), List.nil_append]
  unfold located
  have b1 : bytes "DD_" = [68, 68, 95] := by decide +kernel
  have b2 : bytes "dd_" = [100, 100, 95] := by decide +kernel
  have b3 : bytes "/" = [47] := by decide +kernel
  rw [b1, b2, b3]
  rcases e1 : varValue vars ([68, 68, 95] ++ n) with _ | v
  · rcases e2 : varValue vars ([100, 100, 95] ++ n) with _ | v
    · rcases e3 : varValue vars n with _ | v
      · dsimp only
        rcases path with _ | p
        · rfl
        · have := hp p rfl
          dsimp only
          rw [List.take_of_length_le (l := p ++ [47] ++ n) (by simp; omega), List.take_of_length_le (by simp; omega)]
      · dsimp only; exact List.take_of_length_le (hvv _ _ e3)
    · dsimp only; exact List.take_of_length_le (hvv _ _ e2)
  · dsimp only; exact List.take_of_length_le (hvv _ _ e1)

/-- **C78.** A file assigned to a logical name (letters, digits, underscores, hyphens) is looked for in the variables DD_name,
dd_name and name, in this order, and otherwise in the directory of COB_FILE_PATH. -/
theorem C78_logical (vars : List (List Nat × List Nat)) (hv : Vars77 vars) (path : Option (List Nat)) (n : List Nat)
    (hn : Logical n) (hu : Uncoded n) (hl : n.length ≤ 1019) (h0 : n ≠ [])
    (hp : ∀ p, path = some p → p.length + 1 + n.length ≤ 1022) (hval : ∀ p ∈ vars, p.2.length ≤ 1023) :
    openName true (environOf vars) path n = located vars path n := by
  have h36 : 36 ∉ n := by intro h; have := hn 36 h; revert this; decide
  have h61 : 61 ∉ n := by intro h; have := hn 61 h; revert this; decide
  unfold openName
  rw [if_pos rfl]
  dsimp only
  rw [expand_plain _ n h36, jisWord_uncoded n hu, if_pos ((simple_iff n).2 hn)]
  exact located_eq vars hv path n h61 hl h0 hval hp

example : openName true (environOf [([100, 100, 95, 70], [47, 120]), ([70], [121])]) none [70] = [47, 120] := by decide +kernel
example : Logical [77, 45, 70] ∧ Uncoded [77, 45, 70] := by
  refine ⟨by simp [Logical, VarChar], ?_, by simp⟩
  rintro ⟨m, hm⟩
  have := congrArg List.length hm
  simp at this

/-- **C78.** A file assigned to a word with other characters than ASCII is looked for under the word as it is written. -/
theorem C78_coded (vars : List (List Nat × List Nat)) (hv : Vars77 vars) (path : Option (List Nat)) (w : List Nat)
    (h1 : ∀ c ∈ w, 0 < c ∧ c < 256) (h2 : ∃ c ∈ w, 128 ≤ c) (h61 : 61 ∉ w) (hl : w.length ≤ 508)
    (hp : ∀ p, path = some p → p.length + 1 + w.length ≤ 1022) (hval : ∀ p ∈ vars, p.2.length ≤ 1023) :
    openName true (environOf vars) path (hexWord w) = located vars path w := by
  have hlog : Logical (hexWord w) := by
    unfold hexWord
    rw [if_pos (by obtain ⟨c, hc, h⟩ := h2; exact List.any_eq_true.2 ⟨c, hc, by simpa using h⟩)]
    intro c hc
    have hd : ∀ d, d < 16 → VarChar (if d < 10 then 48 + d else 55 + d) := by
      intro d hd; unfold VarChar; split <;> omega
    simp only [List.mem_append, List.mem_cons, List.not_mem_nil, or_false] at hc
    rcases hc with (hc | hc) | hc
    · left; unfold VarChar; omega
    · obtain ⟨x, _, hx2⟩ := List.mem_flatMap.1 hc
      left
      simp only [hex2, List.mem_cons, List.not_mem_nil, or_false] at hx2
      rcases hx2 with rfl | rfl <;> exact hd _ (by omega)
    · left; unfold VarChar; omega
  have h36 : 36 ∉ hexWord w := by intro h; have := hlog 36 h; revert this; decide
  unfold openName
  rw [if_pos rfl]
  dsimp only
  rw [expand_plain _ _ h36, C78_word w h1 (.inl h2), if_pos ((simple_iff _).2 hlog)]
  exact located_eq vars hv path w h61 (by omega) (by rintro rfl; simp at h2) hval hp

/-- **C78.** In a name with a dollar sign, slash, period or other such character every `$NAME` stands for the value of the variable
(nothing if there is none), and the rest is taken as it is; no other variable is looked for and COB_FILE_PATH is not used. -/
theorem C78_path (vars : List (List Nat × List Nat)) (hv : Vars77 vars) (path : Option (List Nat)) (ps : List NamePart)
    (hok : PartsOk ps) (hn : ¬ Logical (nameWritten ps)) (hu : Uncoded (meant vars ps)) :
    openName true (environOf vars) path (nameWritten ps) = meant vars ps := by
  unfold openName
  rw [if_pos rfl]
  dsimp only
  rw [expand_parts vars hv ps hok _ (Nat.le_refl _), jisWord_uncoded _ hu, if_neg (by rw [simple_iff]; exact hn)]

example : PartsOk [.var [72], .text [47, 100, 97, 116, 97]] ∧ ¬ Logical (nameWritten [.var [72], .text [47, 100, 97, 116, 97]]) ∧
    meant [([72], [47, 104])] [.var [72], .text [47, 100, 97, 116, 97]] = [47, 104, 47, 100, 97, 116, 97] := by
  refine ⟨by simp [PartsOk, nameWritten, VarChar], ?_, by decide⟩
  intro h
  have := h 36 (by simp [nameWritten])
  revert this; decide

/-- **C78.** Without the mapping of names the name is the one in the program; in either case DELETE FILE removes the file that OPEN
opens. -/
theorem C78_delete_same (mapping : Bool) (environ : List (List Nat)) (path : Option (List Nat)) (n : List Nat) :
    openName false environ path n = n ∧ deleteName mapping environ path n = openName mapping environ path n := by
  refine ⟨by simp [openName], ?_⟩
  cases mapping <;> rfl

/-- **C78.** COB_FILE_PATH counts unless it is empty or begins with a space. -/
theorem C78_file_path (vars : List (List Nat × List Nat)) (hv : Vars77 vars) (hz : ∀ p ∈ vars, 0 ∉ p.2) :
    filePath (environOf vars) =
      (varValue vars (bytes "COB_FILE_PATH")).bind (fun p => if p = [] ∨ p.head? = some 32 then none else some p) := by
  unfold filePath
  have e : (bytes "COB_FILE_PATH") = [67, 79, 66, 95, 70, 73, 76, 69, 95, 80, 65, 84, 72] := by decide +kernel
  rw [e, getenv_vars vars hv _ (by decide) (by decide)]
  rcases hw : varValue vars [67, 79, 66, 95, 70, 73, 76, 69, 95, 80, 65, 84, 72] with _ | p
  · rfl
  · have hp : 0 ∉ p := by
      unfold varValue at hw
      rcases hf : vars.find? (fun p => decide (p.1 = [67, 79, 66, 95, 70, 73, 76, 69, 95, 80, 65, 84, 72])) with _ | q
      · rw [hf] at hw; cases hw
      · rw [hf] at hw; cases hw; exact hz q (List.mem_of_find?_eq_some hf)
    cases p with
    | nil => rfl
    | cons c p =>
      have : c ≠ 0 := fun h => hp (by simp [h])
      simp [this]

/-! ### ASSIGN -/

theorem afterDash_append (a b : List Nat) (h : 45 ∉ a) : afterDash (a ++ 45 :: b) = some b := by
  induction a with
  | nil => simp [afterDash]
  | cons c a ih =>
    rw [List.cons_append, afterDash, if_neg (fun e => h (by simp [e])), ih (fun e => h (by simp [e]))]

theorem afterDash_none (a : List Nat) (h : 45 ∉ a) : afterDash a = none := by
  induction a with
  | nil => rfl
  | cons c a ih => rw [afterDash, if_neg (fun e => h (by simp [e])), ih (fun e => h (by simp [e]))]

theorem afterLastDash_none (a : List Nat) (h : 45 ∉ a) : afterLastDash a = none := by
  induction a with
  | nil => rfl
  | cons c a ih =>
    rw [afterLastDash, ih (fun e => h (by simp [e]))]
    simp only [if_neg (fun e : c = 45 => h (by simp [e]))]

theorem afterLastDash_append (a b : List Nat) (h : 45 ∉ b) : afterLastDash (a ++ 45 :: b) = some b := by
  induction a with
  | nil => simp [afterLastDash, afterLastDash_none b h]
  | cons c a ih => rw [List.cons_append, afterLastDash, ih]

theorem notKeyboard (s : List Nat) (h : NotKeyboard s) : isKeyboard s = false := by
  unfold NotKeyboard at h
  have e : bytes "KEYBOARD" = [75, 69, 89, 66, 79, 65, 82, 68] := by decide +kernel
  rw [e] at h
  rw [← Bool.not_eq_true]
  intro hk
  unfold isKeyboard at hk
  rw [beq_iff_eq] at hk
  apply h
  rw [← hk]

/-- **C78.** ASSIGN TO a literal gives that name; KEYBOARD and DISPLAY the terminal.  To a word: the data item of that name (in the
dialect `mf` without EXTERNAL), with EXTERNAL the word itself after its last hyphen. -/
theorem C78_assign_mf (d : ADecl) (hf : d.fileId = none) :
    (∀ s, d.target = some (.lit s) → s ≠ bytes "$#@DUMMY@#$" → fileAssign .mf d = some (.text s)) ∧
    (∀ s, d.target = some (.word s) → ¬ NotKeyboard s → fileAssign .mf d = some (.device 1)) ∧
    (∀ s, d.target = some (.word s) → NotKeyboard s → d.ext = false → fileAssign .mf d = some (.item s)) ∧
    (∀ s, d.target = some (.word s) → NotKeyboard s → d.ext = true → 45 ∉ s → fileAssign .mf d = some (.text s)) ∧
    (∀ a s, d.target = some (.word (a ++ 45 :: s)) → NotKeyboard (a ++ 45 :: s) → d.ext = true → 45 ∉ s →
      fileAssign .mf d = some (.text s)) ∧
    (d.target = none → d.ext = false → fileAssign .mf d = some (.text d.name)) := by
  have e : bytes "$#@DUMMY@#$" = [36, 35, 64, 68, 85, 77, 77, 89, 64, 35, 36] := by decide +kernel
  refine ⟨?_, ?_, ?_, ?_, ?_, ?_⟩
  · intro s h1 h2
    rw [e] at h2
    simp [fileAssign, hf, h1, assignmentName, h2]
  · intro s h1 h2
    have : isKeyboard s = true := by
      unfold NotKeyboard at h2
      have h3 : s.map (fun c => if 97 ≤ c ∧ c ≤ 122 then c - 32 else c) = bytes "KEYBOARD" := by
        by_contra hc; exact h2 hc
      have e : bytes "KEYBOARD" = [75, 69, 89, 66, 79, 65, 82, 68] := by decide +kernel
      unfold isKeyboard
      rw [beq_iff_eq, ← e, ← h3]
    simp [fileAssign, hf, h1, assignmentName, this]
  · intro s h1 h2 h3
    simp [fileAssign, hf, h1, assignmentName, notKeyboard s h2, h3]
  · intro s h1 h2 h3 h4
    simp [fileAssign, hf, h1, assignmentName, notKeyboard s h2, h3, afterLastDash_none s h4]
  · intro a s h1 h2 h3 h4
    simp [fileAssign, hf, h1, assignmentName, notKeyboard _ h2, h3, afterLastDash_append a s h4]
  · intro h1 h2
    simp [fileAssign, hf, h1, h2, assignmentName]

/-- **C78.** In the dialect `ibm` the name is what is left of the word without a device label and without the organization S- or AS-. -/
theorem C78_assign_ibm (dev nm : List Nat) (hd : 45 ∉ dev) (hn : 45 ∉ nm) (h1 : dev ≠ bytes "S") (h2 : dev ≠ bytes "AS") :
    ibmName nm = nm ∧ ibmName (dev ++ 45 :: nm) = nm ∧
    ibmName (bytes "S-" ++ nm) = nm ∧ ibmName (bytes "AS-" ++ nm) = nm ∧
    ibmName (dev ++ 45 :: (bytes "S-" ++ nm)) = nm ∧ ibmName (dev ++ 45 :: (bytes "AS-" ++ nm)) = nm := by
  have b1 : bytes "S" = [83] := by decide +kernel
  have b2 : bytes "AS" = [65, 83] := by decide +kernel
  have b3 : bytes "S-" = [83, 45] := by decide +kernel
  have b4 : bytes "AS-" = [65, 83, 45] := by decide +kernel
  rw [b1] at h1
  rw [b2] at h2
  rw [b3, b4]
  have org0 : ∀ n : List Nat, 45 ∉ n → ([83, 45].isPrefixOf n || [65, 83, 45].isPrefixOf n) = false := by
    intro n h
    rw [← Bool.not_eq_true, Bool.or_eq_true, List.isPrefixOf_iff_prefix, List.isPrefixOf_iff_prefix]
    rintro (⟨t, rfl⟩ | ⟨t, rfl⟩) <;> simp at h
  have org1 : ∀ n : List Nat, ([83, 45].isPrefixOf (dev ++ 45 :: n) || [65, 83, 45].isPrefixOf (dev ++ 45 :: n)) = false := by
    intro n
    rw [← Bool.not_eq_true, Bool.or_eq_true, List.isPrefixOf_iff_prefix, List.isPrefixOf_iff_prefix]
    rcases dev with _ | ⟨a, _ | ⟨b, _ | ⟨c, dev⟩⟩⟩
    · simp
    · rintro (⟨t, ht⟩ | ⟨t, ht⟩)
      · simp at ht; exact h1 (by rw [← ht.1])
      · simp at ht
    · simp at hd
      rintro (⟨t, ht⟩ | ⟨t, ht⟩)
      · simp at ht; exact hd.2 (by omega)
      · simp at ht; exact h2 (by rw [← ht.1, ← ht.2.1])
    · simp at hd
      rintro (⟨t, ht⟩ | ⟨t, ht⟩)
      · simp at ht; exact hd.2.1 (by omega)
      · simp at ht; exact hd.2.2.1 (by omega)
  have d1 := afterDash_none nm hn
  have d2 := fun n => afterDash_append dev n hd
  have d3 := afterDash_append [83] nm (by decide)
  have d4 := afterDash_append [65, 83] nm (by decide)
  refine ⟨?_, ?_, ?_, ?_, ?_, ?_⟩
  · simp only [ibmName, org0 nm hn, d1, Option.getD_none]; simp
  · simp only [ibmName, org1, d2, Option.getD_some, org0 nm hn]; simp
  · simp [ibmName, List.isPrefixOf, afterDash]
  · simp [ibmName, List.isPrefixOf, afterDash]
  · simp only [ibmName, org1, d2, Option.getD_some]
    simp [List.isPrefixOf, afterDash]
  · simp only [ibmName, org1, d2, Option.getD_some]
    simp [List.isPrefixOf, afterDash]

theorem passDashes_append (a : List Nat) (h : 45 ∉ a) (n : Nat) (b : List Nat) :
    passDashes (n + 1) (a ++ 45 :: b) = passDashes n b := by
  induction a with
  | nil => simp [passDashes]
  | cons c a ih => rw [List.cons_append, passDashes, if_neg (fun e => h (by simp [e])), ih (fun e => h (by simp [e]))]

theorem passDashes_none (a : List Nat) (h : 45 ∉ a) (n : Nat) : passDashes (n + 1) a = [] := by
  induction a with
  | nil => rfl
  | cons c a ih => rw [passDashes, if_neg (fun e => h (by simp [e])), ih (fun e => h (by simp [e]))]

theorem takeWhile_dash (a b : List Nat) (h : 45 ∉ a) :
    (a ++ 45 :: b).takeWhile (fun c => decide (c ≠ 45)) = a ∧ a.takeWhile (fun c => decide (c ≠ 45)) = a := by
  induction a with
  | nil => exact ⟨by simp, rfl⟩
  | cons c a ih =>
    have hc : c ≠ 45 := fun e => h (by simp [e])
    have := ih (fun e => h (by simp [e]))
    rw [List.cons_append, List.takeWhile_cons_of_pos (by simpa using hc), List.takeWhile_cons_of_pos (by simpa using hc), this.1, this.2]
    exact ⟨rfl, rfl⟩

/-- **C78.** In the dialect `jph1` the name is the fifth of the parts between hyphens, and the first when there are fewer than five. -/
theorem C78_assign_jph1 (d : ADecl) (hf : d.fileId = none) (p1 p2 p3 p4 p5 rest : List Nat)
    (h1 : 45 ∉ p1) (h2 : 45 ∉ p2) (h3 : 45 ∉ p3) (h4 : 45 ∉ p4) (h5 : 45 ∉ p5) (n1 : p1 ≠ []) (n5 : p5 ≠ [])
    (hk : NotKeyboard p1) :
    (d.target = some (.word (p1 ++ 45 :: p2 ++ 45 :: p3 ++ 45 :: p4 ++ 45 :: p5)) →
      fileAssign .jph1 d = some (.text p5)) ∧
    (d.target = some (.word (p1 ++ 45 :: p2 ++ 45 :: p3 ++ 45 :: p4 ++ 45 :: p5 ++ 45 :: rest)) →
      fileAssign .jph1 d = some (.text p5)) ∧
    (d.target = some (.word p1) → fileAssign .jph1 d = some (.text p1)) ∧
    (d.target = some (.word (p1 ++ 45 :: p2)) → fileAssign .jph1 d = some (.text p1)) ∧
    (d.target = some (.word (p1 ++ 45 :: p2 ++ 45 :: p3)) → fileAssign .jph1 d = some (.text p1)) ∧
    (d.target = some (.word (p1 ++ 45 :: p2 ++ 45 :: p3 ++ 45 :: p4)) → fileAssign .jph1 d = some (.text p1)) := by
  have kb : ∀ s : List Nat, 45 ∈ s → isKeyboard s = false := by
    intro s hs
    rw [← Bool.not_eq_true]
    intro h
    unfold isKeyboard at h
    rw [beq_iff_eq] at h
    have := List.mem_map_of_mem (f := fun c : Nat => if 97 ≤ c ∧ c ≤ 122 then c - 32 else c) hs
    rw [h] at this
    simp at this
  have hasg : ∀ s, d.target = some (.word s) → isKeyboard s = false →
      fileAssign .jph1 d = some (.text (((codedFilename s 4).or (codedFilename s 0)).getD s)) := by
    intro s hs hk
    simp [fileAssign, hf, hs, assignmentName, hk]
  have first : ∀ b : List Nat, codedFilename (p1 ++ 45 :: b) 0 = some p1 := by
    intro b
    obtain ⟨c, p, rfl⟩ := List.exists_cons_of_ne_nil n1
    have := (takeWhile_dash (c :: p) b h1).1
    simp only [codedFilename, passDashes, List.cons_append] at this ⊢
    rw [this]
  have fifth : ∀ b : List Nat, (p5 ++ b).takeWhile (fun c => decide (c ≠ 45)) = p5 →
      codedFilename (p1 ++ 45 :: (p2 ++ 45 :: (p3 ++ 45 :: (p4 ++ 45 :: (p5 ++ b))))) 4 = some p5 := by
    intro b hb
    obtain ⟨c, p, rfl⟩ := List.exists_cons_of_ne_nil n5
    simp only [codedFilename]
    rw [passDashes_append p1 h1, passDashes_append p2 h2, passDashes_append p3 h3, passDashes_append p4 h4]
    simp only [passDashes, List.cons_append] at hb ⊢
    rw [hb]
  refine ⟨?_, ?_, ?_, ?_, ?_, ?_⟩
  · intro h
    rw [hasg _ h (kb _ (by simp))]
    have := fifth [] (by rw [List.append_nil]; exact (takeWhile_dash p5 [] h5).2)
    rw [List.append_nil] at this
    simp only [List.append_assoc, List.cons_append, this, Option.some_or, Option.getD_some]
  · intro h
    rw [hasg _ h (kb _ (by simp))]
    have := fifth (45 :: rest) (takeWhile_dash p5 rest h5).1
    simp only [List.append_assoc, List.cons_append, this, Option.some_or, Option.getD_some]
  · intro h
    rw [hasg _ h (notKeyboard _ hk)]
    have a : codedFilename p1 4 = none := by
      simp only [codedFilename]; rw [passDashes_none p1 h1]
    have b : codedFilename p1 0 = some p1 := by
      obtain ⟨c, p, rfl⟩ := List.exists_cons_of_ne_nil n1
      have := (takeWhile_dash (c :: p) [] h1).2
      simp only [codedFilename, passDashes] at this ⊢
      rw [this]
    rw [a, b]; rfl
  · intro h
    rw [hasg _ h (kb _ (by simp))]
    have a : codedFilename (p1 ++ 45 :: p2) 4 = none := by
      simp only [codedFilename]; rw [passDashes_append p1 h1, passDashes_none p2 h2]
    rw [a, first]; rfl
  · intro h
    rw [hasg _ h (kb _ (by simp))]
    simp only [List.append_assoc, List.cons_append]
    have a : codedFilename (p1 ++ 45 :: (p2 ++ 45 :: p3)) 4 = none := by
      simp only [codedFilename]; rw [passDashes_append p1 h1, passDashes_append p2 h2, passDashes_none p3 h3]
    rw [a, first]; rfl
  · intro h
    rw [hasg _ h (kb _ (by simp))]
    simp only [List.append_assoc, List.cons_append]
    have a : codedFilename (p1 ++ 45 :: (p2 ++ 45 :: (p3 ++ 45 :: p4))) 4 = none := by
      simp only [codedFilename]
      rw [passDashes_append p1 h1, passDashes_append p2 h2, passDashes_append p3 h3, passDashes_none p4 h4]
    rw [a, first]; rfl

/-- Finding: VALUE OF FILE-ID never has an effect: whatever it says, the file gets the name it gets without it. -/
theorem C78_finding_file_id (mode : AMode) (d : ADecl) (n : AName) :
    fileAssign mode { d with fileId := some n } = fileAssign mode { d with fileId := none } := by
  have key : ∀ disk ext m, (assignmentName mode disk ext m).isNone = true ↔ (disk = true ∧ ext = false) := by
    intro disk ext m
    unfold assignmentName
    cases disk <;> cases ext <;> simp <;> (repeat' split) <;> simp_all
  unfold fileAssign
  dsimp only
  split
  · rename_i h
    have h2 := (key _ _ _).1 h
    have a := (key d.target.isNone d.ext n).2 h2
    have b := (key d.target.isNone d.ext (d.target.getD (.word [68, 73, 83, 75]))).2 h2
    rw [Option.isNone_iff_eq_none] at a b
    rw [a, b]
  · rfl

/-- Finding: a hyphen can be in a logical name and so in the name of its variable, but it ends the name after a dollar sign: with
`A-B` set, `$A-B` is the value of `A` and `-B`. -/
theorem C78_finding_hyphen :
    openName true (environOf [(bytes "A-B", bytes "right"), (bytes "A", bytes "wrong")]) none (bytes "A-B") = bytes "right" ∧
    openName true (environOf [(bytes "A-B", bytes "right"), (bytes "A", bytes "wrong")]) none (bytes "$A-B") =
      bytes "wrong-B" := by
  decide +kernel

end Cob
