import Verif.Move.NationalSpec
import Mathlib.Data.List.Basic
/-
C73: text in NATIONAL items.  Properties.
-/
namespace Cob

/-- The code of a half-width character. -/
def HalfOk (c : Nat) : Prop := (0x20 ≤ c ∧ c ≤ 0x7E) ∨ (0xA1 ≤ c ∧ c ≤ 0xDF)

instance (c : Nat) : Decidable (HalfOk c) := inferInstanceAs (Decidable (_ ∨ _))

theorem HalfOk.lt {c : Nat} (h : HalfOk c) : c < 256 := by
  unfold HalfOk at h; omega

/-- The bytes of the full-width form. -/
def fullBytes (c : Nat) : List Nat := sjisBytes (jisCell (fullForm (halfChar c)))

theorem fullBytes_two (c : Nat) : ∃ a b, fullBytes c = [a, b] := ⟨_, _, rfl⟩

theorem full_ascii : ∀ c < 256, (0x20 ≤ c ∧ c ≤ 0x7E) →
    fullBytes c = [(zenAscii.getD (c - 0x20) (0, 0)).1, (zenAscii.getD (c - 0x20) (0, 0)).2] := by
  decide +kernel

theorem full_kana : ∀ c < 256, (0xA1 ≤ c ∧ c ≤ 0xDD) →
    fullBytes c = [(zenKana.getD (c - 0xA1) (0, 0)).1, (zenKana.getD (c - 0xA1) (0, 0)).2] := by
  decide +kernel

theorem full_marks : fullBytes 0xDE = [0x81, 0x4A] ∧ fullBytes 0xDF = [0x81, 0x4B] := by decide +kernel

theorem voiced_plain : ∀ c < 256, HalfOk c → (0xB6 ≤ c ∧ c ≤ 0xC4) ∨ (0xCA ≤ c ∧ c ≤ 0xCE) →
    (soundMark (halfChar c) (halfChar 0xDE)).map (fun v => sjisBytes (jisCell v)) =
      some ((fullBytes c).dropLast ++ [((fullBytes c).getLastD 0 + 1) % 256]) := by decide +kernel

theorem voiced_u :
    (soundMark (halfChar 0xB3) (halfChar 0xDE)).map (fun v => sjisBytes (jisCell v)) =
      some ((fullBytes 0xB3).dropLast ++ [0x94]) := by decide +kernel

theorem voiced_none : ∀ c < 256, HalfOk c →
    ¬ ((0xB6 ≤ c ∧ c ≤ 0xC4) ∨ (0xCA ≤ c ∧ c ≤ 0xCE)) → c ≠ 0xB3 →
    soundMark (halfChar c) (halfChar 0xDE) = none := by decide +kernel

theorem semi_some : ∀ c < 256, HalfOk c → (0xCA ≤ c ∧ c ≤ 0xCE) →
    (soundMark (halfChar c) (halfChar 0xDF)).map (fun v => sjisBytes (jisCell v)) =
      some ((fullBytes c).dropLast ++ [((fullBytes c).getLastD 0 + 2) % 256]) := by decide +kernel

theorem semi_none : ∀ c < 256, HalfOk c → ¬ (0xCA ≤ c ∧ c ≤ 0xCE) →
    soundMark (halfChar c) (halfChar 0xDF) = none := by decide +kernel

theorem mark_chars : ∀ m < 256, HalfOk m → (halfChar m = 'ﾞ' → m = 0xDE) ∧ (halfChar m = 'ﾟ' → m = 0xDF) := by
  decide +kernel

theorem other_none (c m : Nat) (hm : HalfOk m) (h1 : m ≠ 0xDE) (h2 : m ≠ 0xDF) :
    soundMark (halfChar c) (halfChar m) = none := by
  have h := mark_chars m hm.lt hm
  unfold soundMark
  rw [if_neg (fun e => h1 (h.1 e)), if_neg (fun e => h2 (h.2 e))]

/-- The byte before does not take a sound mark. -/
def Neutral (d : Nat) : Prop := ¬ ((0xB6 ≤ d ∧ d ≤ 0xC4) ∨ (0xCA ≤ d ∧ d ≤ 0xCE)) ∧ d ≠ 0xB3

theorem loop_half (after d : Nat) (out : List Nat) (c : Nat) (rest : List Nat) (hc : HalfOk c)
    (h : Neutral d ∨ (c ≠ 0xDE ∧ c ≠ 0xDF)) :
    zenLoop after d out (c :: rest) = zenLoop after c (out ++ fullBytes c) rest := by
  rw [zenLoop.eq_def]
  dsimp only
  by_cases h1 : 0x20 ≤ c ∧ c ≤ 0x7E
  · rw [if_pos h1, full_ascii c (by omega) h1]
  · rw [if_neg h1]
    by_cases h2 : 0xA1 ≤ c ∧ c ≤ 0xDD
    · rw [if_pos h2, full_kana c (by omega) h2]
    · rw [if_neg h2]
      have h3 : c = 0xDE ∨ c = 0xDF := by unfold HalfOk at hc; omega
      have hn : Neutral d := by
        rcases h with h | h
        · exact h
        · exfalso; omega
      unfold Neutral at hn
      rcases h3 with h3 | h3 <;> subst h3
      · rw [if_pos rfl, if_neg hn.1, if_neg hn.2, full_marks.1]
      · rw [if_neg (by decide), if_pos rfl, if_neg (fun e => hn.1 (Or.inr e)), full_marks.2]

theorem loop_ctl (after d : Nat) (out : List Nat) (c : Nat) (rest : List Nat) (hc : 1 ≤ c ∧ c ≤ 0x1F) :
    zenLoop after d out (c :: rest) = zenLoop after c (out ++ [0x81, 0x40]) rest := by
  rw [zenLoop.eq_def]
  dsimp only
  rw [if_neg (by omega), if_neg (by omega), if_neg (by omega), if_neg (by omega), if_neg (by omega),
    if_pos (by omega)]

theorem sjis_lead (k t : Nat) (hk : 1 ≤ k ∧ k ≤ 94) :
    ∃ a b, sjisBytes (k, t) = [a, b] ∧ ((0x81 ≤ a ∧ a ≤ 0x9F) ∨ (0xE0 ≤ a ∧ a ≤ 0xEF)) := by
  refine ⟨_, _, rfl, ?_⟩
  dsimp only
  split <;> omega

theorem loop_wide (after d : Nat) (out : List Nat) (a b : Nat) (rest : List Nat)
    (ha : (0x81 ≤ a ∧ a ≤ 0x9F) ∨ (0xE0 ≤ a ∧ a ≤ 0xEF)) :
    zenLoop after d out (a :: b :: rest) = zenLoop after a (out ++ [a, b]) rest := by
  rw [zenLoop.eq_def]
  dsimp only
  rw [if_neg (by omega), if_neg (by omega), if_neg (by omega), if_neg (by omega), if_neg (by omega),
    if_neg (by omega)]

theorem last_two (out : List Nat) (a b x : Nat) :
    (out ++ [a, b]).dropLast = out ++ [a] ∧ (out ++ [a, b]).getLastD x = b := by
  constructor
  · rw [show out ++ [a, b] = (out ++ [a]) ++ [b] by simp, List.dropLast_concat]
  · simp [List.getLastD_eq_getLast?]

theorem space_cell : sjisBytes (jisCell '　') = [0x81, 0x40] := by decide +kernel

/-- A sound mark behind a half-width letter. -/
theorem loop_mark (after : Nat) (out : List Nat) (c m : Nat) (v : Char) (rest : List Nat) (hc : HalfOk c)
    (hm : HalfOk m) (hv : soundMark (halfChar c) (halfChar m) = some v) :
    zenLoop after c (out ++ fullBytes c) (m :: rest) = zenLoop after m (out ++ sjisBytes (jisCell v)) rest ∧
      Neutral m := by
  have hm3 : m = 0xDE ∨ m = 0xDF := by
    by_contra hh
    have : m ≠ 0xDE ∧ m ≠ 0xDF := by omega
    rw [other_none c m hm this.1 this.2] at hv
    cases hv
  obtain ⟨a, b, hab⟩ := fullBytes_two c
  have hl := last_two out a b 0
  have hl0 := last_two [] a b 0
  simp only [List.nil_append] at hl0
  rcases hm3 with e | e <;> subst e
  · refine ⟨?_, by unfold Neutral; omega⟩
    rw [zenLoop.eq_def]
    dsimp only
    rw [if_neg (by decide), if_neg (by decide), if_pos rfl]
    by_cases h1 : (0xB6 ≤ c ∧ c ≤ 0xC4) ∨ (0xCA ≤ c ∧ c ≤ 0xCE)
    · rw [if_pos h1]
      have h := voiced_plain c hc.lt hc h1
      rw [hv] at h
      simp only [Option.map_some, Option.some.injEq] at h
      rw [h, hab, hl.1, hl.2, hl0.1, hl0.2, ← List.append_assoc]
    · rw [if_neg h1]
      by_cases h2 : c = 0xB3
      · subst h2
        rw [if_pos rfl]
        have h := voiced_u
        rw [hv] at h
        simp only [Option.map_some, Option.some.injEq] at h
        rw [h, hab, hl.1, hl0.1, ← List.append_assoc]
      · rw [voiced_none c hc.lt hc h1 h2] at hv
        cases hv
  · refine ⟨?_, by unfold Neutral; omega⟩
    rw [zenLoop.eq_def]
    dsimp only
    rw [if_neg (by decide), if_neg (by decide), if_neg (by decide), if_pos rfl]
    by_cases h1 : (0xCA ≤ c ∧ c ≤ 0xCE)
    · rw [if_pos h1]
      have h := semi_some c hc.lt hc h1
      rw [hv] at h
      simp only [Option.map_some, Option.some.injEq] at h
      rw [h, hab, hl.1, hl.2, hl0.1, hl0.2, ← List.append_assoc]
    · rw [semi_none c hc.lt hc h1] at hv
      cases hv

theorem loop_nomark (after : Nat) (out : List Nat) (c m : Nat) (rest : List Nat) (hc : HalfOk c)
    (hm : HalfOk m) (hv : soundMark (halfChar c) (halfChar m) = none) :
    zenLoop after c out (m :: rest) = zenLoop after m (out ++ fullBytes m) rest := by
  by_cases h : m ≠ 0xDE ∧ m ≠ 0xDF
  · exact loop_half after c out m rest hm (Or.inr h)
  · by_cases h2 : Neutral c
    · exact loop_half after c out m rest hm (Or.inl h2)
    · have hm3 : m = 0xDE ∨ m = 0xDF := by omega
      rcases hm3 with e | e <;> subst e
      · exfalso
        unfold Neutral at h2
        by_cases h1 : (0xB6 ≤ c ∧ c ≤ 0xC4) ∨ (0xCA ≤ c ∧ c ≤ 0xCE)
        · have hh := voiced_plain c hc.lt hc h1
          rw [hv] at hh
          cases hh
        · have h3 : c = 0xB3 := by
            by_contra h3
            exact h2 ⟨h1, h3⟩
          subst h3
          have hh := voiced_u
          rw [hv] at hh
          cases hh
      · rw [zenLoop.eq_def]
        dsimp only
        rw [if_neg (by decide), if_neg (by decide), if_neg (by decide), if_pos rfl]
        by_cases h1 : (0xCA ≤ c ∧ c ≤ 0xCE)
        · exfalso
          have hh := semi_some c hc.lt hc h1
          rw [hv] at hh
          cases hh
        · rw [if_neg h1, full_marks.2]

theorem loop_text (after : Nat) : ∀ (n : Nat) (t : List HChar), t.length = n → (∀ h ∈ t, h.Ok) →
    (∀ (d : Nat) (out : List Nat), Neutral d → zenLoop after d out (textCode t) = out ++ natCode (widened t)) ∧
    (∀ (c : Nat) (out : List Nat), HalfOk c →
      zenLoop after c (out ++ fullBytes c) (textCode t) = out ++ natCode (widened (.half c :: t))) := by
  intro n
  induction n with
  | zero =>
    intro t ht _
    have : t = [] := List.eq_nil_of_length_eq_zero ht
    subst this
    constructor
    · intro d out _
      simp [textCode, widened, natCode, zenLoop]
    · intro c out _
      simp [textCode, widened, natCode, zenLoop, fullBytes]
  | succ n ih =>
    intro t ht hok
    cases t with
    | nil => simp at ht
    | cons h r =>
      have hr : r.length = n := by simpa using ht
      have hrok : ∀ x ∈ r, x.Ok := fun x hx => hok x (List.mem_cons_of_mem _ hx)
      have hh := hok h List.mem_cons_self
      obtain ⟨iA, iB⟩ := ih r hr hrok
      cases h with
      | half m =>
        have hm : HalfOk m := hh
        have e : textCode (.half m :: r) = m :: textCode r := by simp [textCode, HChar.code]
        rw [e]
        constructor
        · intro d out hd
          rw [loop_half after d out m _ hm (Or.inl hd), iB m out hm]
        · intro c out hc
          cases hv : soundMark (halfChar c) (halfChar m) with
          | some v =>
            obtain ⟨h1, h2⟩ := loop_mark after out c m v (textCode r) hc hm hv
            rw [h1, iA m _ h2]
            simp only [widened, hv, natCode, List.map_cons, List.flatten_cons, List.append_assoc]
          | none =>
            rw [loop_nomark after _ c m _ hc hm hv, iB m _ hm]
            simp only [widened, hv, natCode, List.map_cons, List.flatten_cons, List.append_assoc, fullBytes]
      | wide k t' =>
        obtain ⟨a, b, hab, hl⟩ := sjis_lead k t' hh.1
        have e : textCode (.wide k t' :: r) = a :: b :: textCode r := by
          simp [textCode, HChar.code, hab]
        have hn : Neutral a := by unfold Neutral; omega
        rw [e]
        constructor
        · intro d out _
          rw [loop_wide after d out a b _ hl, iA a _ hn]
          simp only [widened, natCode, List.map_cons, List.flatten_cons, List.append_assoc, hab]
        · intro c out _
          rw [loop_wide after c _ a b _ hl, iA a _ hn]
          simp only [widened, natCode, List.map_cons, List.flatten_cons, List.append_assoc, hab, fullBytes]
      | ctl x =>
        have hx : 1 ≤ x ∧ x ≤ 0x1F := hh
        have e : textCode (.ctl x :: r) = x :: textCode r := by simp [textCode, HChar.code]
        have hn : Neutral x := by unfold Neutral; omega
        rw [e]
        constructor
        · intro d out _
          rw [loop_ctl after d out x _ hx, iA x _ hn]
          simp only [widened, natCode, List.map_cons, List.flatten_cons, List.append_assoc, space_cell]
        · intro c out _
          rw [loop_ctl after c _ x _ hx, iA x _ hn]
          simp only [widened, natCode, List.map_cons, List.flatten_cons, List.append_assoc, space_cell, fullBytes]

theorem textCode_head (t : List HChar) (hok : ∀ h ∈ t, h.Ok) (r : List Nat) : textCode t ≠ 0 :: r := by
  intro h
  cases t with
  | nil => simp [textCode] at h
  | cons x r' =>
    have hx := hok x List.mem_cons_self
    cases x with
    | half c => simp [textCode, HChar.code] at h; unfold HChar.Ok at hx; omega
    | ctl c => simp [textCode, HChar.code] at h; unfold HChar.Ok at hx; omega
    | wide k t =>
      obtain ⟨a, b, hab, hl⟩ := sjis_lead k t hx.1
      simp [textCode, HChar.code, hab] at h
      omega

theorem han2zen_text (after : Nat) (t : List HChar) (hok : ∀ h ∈ t, h.Ok) :
    han2zen after (textCode t) = natCode (widened t) := by
  have hne := textCode_head t hok
  unfold han2zen
  split
  · rename_i r hr; exact absurd hr (hne _)
  · rw [(loop_text after t.length t rfl hok).1 0 [] (by unfold Neutral; omega), List.nil_append]

/-- **C73.** `FUNCTION NATIONAL` of a text gives the text in full-width characters, whatever the
text's length and its mixture of half-width, full-width and control characters. -/
theorem C73_function (after : Nat) (t : List HChar) (hok : ∀ h ∈ t, h.Ok) :
    intrNational after (textCode t) = natCode (widened t) := han2zen_text after t hok

example : intrNational 0 (textCode [.half 0x41, .half 0xB6, .half 0xDE, .wide 16 1, .half 0xCA, .half 0xDF]) =
    natCode [jisCell 'Ａ', jisCell 'ガ', (16, 1), jisCell 'パ'] := by decide +kernel

end Cob
