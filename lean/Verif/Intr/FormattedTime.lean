import Verif.Intr.Window
/-
C85: FUNCTION SECONDS-FROM-FORMATTED-TIME.
-/
namespace Cob.Window

/-- Spec: at position `n` the format has the letter `c` twice and the value two decimal digits, `v` in all. -/
def At (c : Nat) (format value : List Nat) (n v : Nat) : Prop :=
  format[n]? = some c ∧ format[n + 1]? = some c ∧
    ∃ a b, value[n]? = some (48 + a) ∧ value[n + 1]? = some (48 + b) ∧ a ≤ 9 ∧ b ≤ 9 ∧ v = 10 * a + b

/-- Spec: `v` are the digits of the value at the first such position. -/
def Found (c : Nat) (format value : List Nat) (v : Nat) : Prop :=
  ∃ n, At c format value n v ∧ ∀ k < n, ∀ w, ¬ At c format value k w

/-- The digits at the first position where the format has the letter twice and the value has digits. -/
def firstGood (c : Nat) : List Nat → List Nat → Option Nat
  | a :: p1, p2 =>
    if p1 = [] then none
    else
      match (if a = c ∧ p1.head? = some c then twoDigits p2 else none) with
      | some n => some n
      | none => firstGood c p1 p2.tail
  | [], _ => none

theorem timeStep_eq (s : Seen) (a b : Nat) (p1 p2 : List Nat) :
    timeStep s (a :: b :: p1) p2 =
      ⟨s.hours.or (if a = 104 ∧ b = 104 then twoDigits p2 else none), s.minutes.or (if a = 109 ∧ b = 109 then twoDigits p2 else none),
       s.seconds.or (if a = 115 ∧ b = 115 then twoDigits p2 else none)⟩ := by
  obtain ⟨h, m, sec⟩ := s
  unfold timeStep
  simp only
  by_cases ha : a = 104 ∧ b = 104
  · have hb : ¬ (a = 109 ∧ b = 109) := by omega
    have hc : ¬ (a = 115 ∧ b = 115) := by omega
    obtain ⟨rfl, rfl⟩ := ha
    cases h <;> cases twoDigits p2 <;> simp
  by_cases hb : a = 109 ∧ b = 109
  · obtain ⟨rfl, rfl⟩ := hb
    cases m <;> cases twoDigits p2 <;> simp
  by_cases hc : a = 115 ∧ b = 115
  · obtain ⟨rfl, rfl⟩ := hc
    cases sec <;> cases twoDigits p2 <;> simp
  · have e1 : ∀ P : Prop, ¬ (a = 104 ∧ b = 104 ∧ P) := fun P h => ha ⟨h.1, h.2.1⟩
    have e2 : ∀ P : Prop, ¬ (a = 109 ∧ b = 109 ∧ P) := fun P h => hb ⟨h.1, h.2.1⟩
    have e3 : ∀ P : Prop, ¬ (a = 115 ∧ b = 115 ∧ P) := fun P h => hc ⟨h.1, h.2.1⟩
    simp only [if_neg (e1 _), if_neg (e2 _), if_neg (e3 _), if_neg ha, if_neg hb, if_neg hc, Option.or_none]

theorem timeLoop_eq (p1 : List Nat) : ∀ (s : Seen) (p2 : List Nat), timeLoop s p1 p2 =
    ⟨s.hours.or (firstGood 104 p1 p2), s.minutes.or (firstGood 109 p1 p2), s.seconds.or (firstGood 115 p1 p2)⟩ := by
  induction p1 with
  | nil => intro s p2; simp [timeLoop, firstGood]
  | cons a p1 ih =>
    intro s p2
    unfold timeLoop firstGood
    cases p1 with
    | nil => simp
    | cons b p1 =>
      simp only [List.cons_ne_nil, if_false, List.head?_cons, Option.some.injEq]
      rw [ih, timeStep_eq]
      simp only [Option.or_assoc, Seen.mk.injEq]
      refine ⟨?_, ?_, ?_⟩ <;> congr 1 <;>
        (split
         · cases twoDigits p2 <;> rfl
         · rfl)

theorem twoDigits_some (p2 : List Nat) (v : Nat) : twoDigits p2 = some v ↔
    ∃ a b, p2[0]? = some (48 + a) ∧ p2[1]? = some (48 + b) ∧ a ≤ 9 ∧ b ≤ 9 ∧ v = 10 * a + b := by
  match p2 with
  | [] => simp [twoDigits]
  | [x] => simp [twoDigits]
  | x :: y :: r =>
    simp only [twoDigits, isDigit, decide_eq_true_eq, List.getElem?_cons_zero, List.getElem?_cons_succ, Option.some.injEq]
    constructor
    · intro h
      split at h
      · rename_i hh
        simp only [Option.some.injEq] at h
        exact ⟨x - 48, y - 48, by omega, by omega, by omega, by omega, by omega⟩
      · cases h
    · rintro ⟨a, b, h1, h2, h3, h4, h5⟩
      rw [if_pos (by omega)]
      simp only [Option.some.injEq]
      omega

theorem at_zero (c a : Nat) (p1 p2 : List Nat) (hne : p1 ≠ []) (v : Nat) :
    At c (a :: p1) p2 0 v ↔ (if a = c ∧ p1.head? = some c then twoDigits p2 else none) = some v := by
  have e : (a :: p1)[1]? = p1.head? := by cases p1 <;> rfl
  unfold At
  rw [show (0 + 1 : Nat) = 1 from rfl, e]
  simp only [List.getElem?_cons_zero, Option.some.injEq]
  split
  · rename_i h
    rw [twoDigits_some]
    simp only [h.1, h.2, true_and]
  · rename_i h
    constructor
    · rintro ⟨h1, h2, _⟩; exact absurd ⟨h1, h2⟩ h
    · intro h; cases h

theorem at_succ (c a : Nat) (p1 p2 : List Nat) (n v : Nat) : At c (a :: p1) p2 (n + 1) v ↔ At c p1 p2.tail n v := by
  unfold At
  simp only [List.getElem?_cons_succ, List.getElem?_tail]

theorem firstGood_iff (c : Nat) (p1 : List Nat) : ∀ (p2 : List Nat),
    (∀ v, firstGood c p1 p2 = some v ↔ Found c p1 p2 v) ∧ (firstGood c p1 p2 = none ↔ ∀ n v, ¬ At c p1 p2 n v) := by
  induction p1 with
  | nil =>
    intro p2
    refine ⟨fun v => ?_, ?_⟩
    · simp [firstGood, Found, At]
    · simp [firstGood, At]
  | cons a p1 ih =>
    intro p2
    obtain ⟨ih1, ih2⟩ := ih p2.tail
    by_cases hne : p1 = []
    · subst hne
      refine ⟨fun v => ?_, ?_⟩
      · simp [firstGood, Found, At]
      · simp [firstGood, At]
    · have hz := at_zero c a p1 p2 hne
      unfold firstGood
      rw [if_neg hne]
      cases h0 : (if a = c ∧ p1.head? = some c then twoDigits p2 else none) with
      | some w =>
        rw [h0] at hz
        refine ⟨fun v => ⟨?_, ?_⟩, ?_⟩
        · intro h
          simp only [Option.some.injEq] at h
          subst h
          exact ⟨0, (hz w).mpr rfl, by omega⟩
        · rintro ⟨n, h1, h2⟩
          cases n with
          | zero => exact (hz v).mp h1
          | succ n => exact absurd ((hz w).mpr rfl) (h2 0 (by omega) w)
        · simp only [reduceCtorEq, false_iff]
          intro h
          exact h 0 w ((hz w).mpr rfl)
      | none =>
        rw [h0] at hz
        have hno : ∀ w, ¬ At c (a :: p1) p2 0 w := fun w h => by have := (hz w).mp h; cases this
        refine ⟨fun v => ?_, ?_⟩
        · simp only
          rw [ih1]
          constructor
          · rintro ⟨n, h1, h2⟩
            refine ⟨n + 1, (at_succ ..).mpr h1, fun k hk w => ?_⟩
            cases k with
            | zero => exact hno w
            | succ k => rw [at_succ]; exact h2 k (by omega) w
          · rintro ⟨n, h1, h2⟩
            cases n with
            | zero => exact absurd h1 (hno v)
            | succ n =>
              refine ⟨n, (at_succ ..).mp h1, fun k hk w => ?_⟩
              have := h2 (k + 1) (by omega) w
              rwa [at_succ] at this
        · simp only
          rw [ih2]
          constructor
          · intro h n v
            cases n with
            | zero => exact hno v
            | succ n => rw [at_succ]; exact h n v
          · intro h n v
            have := h (n + 1) v
            rwa [at_succ] at this

/-- C85: where the format says "hh", "mm" and "ss" (in any order, with anything between) the value has the hours, minutes and seconds; the result is the
number of seconds. -/
theorem C85_seconds (format value : List Nat) (hl : format.length ≤ value.length) (h m s : Nat)
    (hh : Found 104 format value h) (hm : Found 109 format value m) (hs : Found 115 format value s) :
    secondsFromFormatted format value = ⟨h * 3600 + m * 60 + s, false⟩ := by
  unfold secondsFromFormatted
  rw [if_neg (by omega), timeLoop_eq]
  rw [((firstGood_iff 104 format value).1 h).mpr hh, ((firstGood_iff 109 format value).1 m).mpr hm, ((firstGood_iff 115 format value).1 s).mpr hs]
  simp only [Option.or, FnRes.mk.injEq, and_true]
  omega

/-- C85: a format without one of the three, a value without digits there, or a value shorter than the format gives 0 and the argument exception. -/
theorem C85_invalid (format value : List Nat)
    (h : value.length < format.length ∨ ∃ c ∈ [104, 109, 115], ∀ n v, ¬ At c format value n v) :
    secondsFromFormatted format value = ⟨0, true⟩ := by
  unfold secondsFromFormatted
  by_cases hl : value.length < format.length
  · rw [if_pos hl]
  · rw [if_neg hl, timeLoop_eq]
    obtain ⟨c, hc, hn⟩ := h.resolve_left hl
    have e := (firstGood_iff c format value).2.mpr hn
    simp only [List.mem_cons, List.not_mem_nil, or_false] at hc
    simp only [Option.none_or]
    rcases hc with rfl | rfl | rfl <;> rw [e]
    · cases firstGood 104 format value <;> simp
    · cases firstGood 104 format value <;> cases firstGood 109 format value <;> simp

-- "hh:mm:ss" and "23:04:05"
example : secondsFromFormatted [104, 104, 58, 109, 109, 58, 115, 115] [50, 51, 58, 48, 52, 58, 48, 53] = ⟨83045, false⟩ := by decide
example : Found 109 [104, 104, 58, 109, 109, 58, 115, 115] [50, 51, 58, 48, 52, 58, 48, 53] 4 :=
  ⟨3, ⟨rfl, rfl, 0, 4, rfl, rfl, by omega, by omega, by omega⟩, by
    intro k hk w hw
    obtain ⟨h1, -⟩ := hw
    match k, hk with
    | 0, _ => simp at h1
    | 1, _ => simp at h1
    | 2, _ => simp at h1⟩

/-- Finding: a time that does not exist is taken: 99:99:99 gives 362439 seconds. -/
theorem C85_finding_no_range :
    secondsFromFormatted [104, 104, 58, 109, 109, 58, 115, 115] [57, 57, 58, 57, 57, 58, 57, 57] = ⟨362439, false⟩ := by decide

/-- Finding: letters in upper case are not recognised. -/
theorem C85_finding_upper_case :
    secondsFromFormatted [72, 72, 58, 77, 77, 58, 83, 83] [50, 51, 58, 48, 52, 58, 48, 53] = ⟨0, true⟩ := by decide

end Cob.Window
