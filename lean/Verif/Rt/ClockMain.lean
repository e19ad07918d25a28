import Verif.Rt.ClockProps
/-
C83: ACCEPT FROM DATE, DAY, DAY-OF-WEEK and TIME, FUNCTION CURRENT-DATE, and COB_DATE.
-/
namespace Cob.Clock

/-- C83: without COB_DATE, whatever a program asks and in whatever order, each ACCEPT FROM DATE [YYYYMMDD], DAY [YYYYDDD], DAY-OF-WEEK and TIME, each
FUNCTION CURRENT-DATE and SECONDS-PAST-MIDNIGHT gives the day and time of the instant at which it runs, in the documented form; the forms agree with
each other and with FUNCTION INTEGER-OF-DATE. -/
theorem C83_clock (L : Libc) (day : Int → Date) (secs : Int → Nat) (ok : LibcOk L day secs) (qs : List (Instant × Ask))
    (hq : ∀ q ∈ qs, Era q.1.sec ∧ q.1.usec < 1000000) :
    List.Forall₂ (fun q a => RightAnswer (day q.1.sec) (secs q.1.sec) q.1.usec q.2 a) qs (program L none qs) := by
  unfold program
  rw [show jobDate L none = none from rfl]
  induction qs with
  | nil => exact .nil
  | cons q qs ih =>
    obtain ⟨now, q⟩ := q
    obtain ⟨he, hu⟩ := hq (now, q) (by simp)
    obtain ⟨r1, r2⟩ := ask_right L ok none now he hu (day now.sec) (ok.valid _ he) rfl q
    have hj : (ask L none now q).1 = none := by
      cases hh : (ask L none now q).1 with
      | none => rfl
      | some tm => rw [hh] at r2; exact r2.elim
    unfold run
    dsimp only
    rw [hj]
    exact .cons r1 (ih fun p hp => hq p (by simp [hp]))

/-- C83: with COB_DATE set to a date from 1971 on, written year/month/day, every question of the run is answered with that day, and with the time of
day of the instant. -/
theorem C83_cob_date (L : Libc) (day : Int → Date) (secs : Int → Nat) (ok : LibcOk L day secs) (t : Date) (ht : t.Valid) (hy : 1971 ≤ t.y)
    (s : List Nat) (hs : DateWritten t s) (qs : List (Instant × Ask)) (hq : ∀ q ∈ qs, Era q.1.sec ∧ q.1.usec < 1000000) :
    List.Forall₂ (fun q a => RightAnswer t (secs q.1.sec) q.1.usec q.2 a) qs (program L (some s) qs) := by
  have hjob : jobDate L (some s) = some (L.mktime t.y t.m t.d).2 := by
    unfold jobDate
    have := ok.future t ht hy
    simp only [scanDate_written t s hs]
    rw [if_neg (by omega)]
  have key : ∀ (qs : List (Instant × Ask)), (∀ q ∈ qs, Era q.1.sec ∧ q.1.usec < 1000000) → ∀ tm, OfDay tm t →
      List.Forall₂ (fun q a => RightAnswer t (secs q.1.sec) q.1.usec q.2 a) qs (run L (some tm) qs) := by
    intro qs
    induction qs with
    | nil => intro _ _ _; exact .nil
    | cons q qs ih =>
      intro hq tm htm
      obtain ⟨now, q⟩ := q
      obtain ⟨he, hu⟩ := hq (now, q) (by simp)
      obtain ⟨r1, r2⟩ := ask_right L ok (some tm) now he hu t ht htm q
      unfold run
      dsimp only
      cases hh : (ask L (some tm) now q).1 with
      | none => rw [hh] at r2; exact r2.elim
      | some tm' => rw [hh] at r2; exact .cons r1 (ih (fun p hp => hq p (by simp [hp])) tm' r2)
  unfold program
  rw [hjob]
  exact key qs hq _ (ok.mktime t ht).1

/-- C83: a COB_DATE without two slashes, or with a date before 1969, changes nothing. -/
theorem C83_cob_date_refused (L : Libc) (day : Int → Date) (secs : Int → Nat) (ok : LibcOk L day secs) (s : List Nat)
    (hs : s.count 47 < 2 ∨ ∃ t : Date, t.Valid ∧ t.y < 1969 ∧ DateWritten t s) (qs : List (Instant × Ask)) :
    program L (some s) qs = program L none qs := by
  have : jobDate L (some s) = none := by
    unfold jobDate
    rcases hs with hs | ⟨t, ht, hy, hw⟩
    · have hint : ∀ s p, scanInt s = some p → p.2.count 47 ≤ s.count 47 := by
        intro s p h
        unfold scanInt at h
        dsimp only at h
        have h1 : (s.dropWhile isSpace).count 47 ≤ s.count 47 := (List.dropWhile_sublist _).count_le 47
        have h2 : (if (s.dropWhile isSpace).head? = some 45 ∨ (s.dropWhile isSpace).head? = some 43 then (s.dropWhile isSpace).tail
            else s.dropWhile isSpace).count 47 ≤ s.count 47 := by
          split
          · exact le_trans ((List.tail_sublist _).count_le 47) h1
          · exact h1
        revert h h2
        generalize (if (s.dropWhile isSpace).head? = some 45 ∨ (s.dropWhile isSpace).head? = some 43 then (s.dropWhile isSpace).tail
            else s.dropWhile isSpace) = z
        intro h h2
        by_cases hz : z.takeWhile isDigit = []
        · rw [if_pos hz] at h; cases h
        · rw [if_neg hz] at h
          simp only [Option.some.injEq] at h
          subst h
          exact le_trans ((List.drop_sublist _ _).count_le 47) h2
      have hsl : ∀ s p, scanSlash s = some p → p.count 47 + 1 = s.count 47 := by
        intro s p h
        unfold scanSlash at h
        split at h
        · rename_i hh
          cases h
          cases s with
          | nil => cases hh
          | cons c r => simp only [List.head?_cons, Option.some.injEq] at hh; subst hh; simp
        · cases h
      have hnone : scanDate s = none := by
        unfold scanDate
        cases h1 : scanInt s with
        | none => rfl
        | some p1 =>
          cases h2 : scanSlash p1.2 with
          | none => simp [h2]
          | some p2 =>
            cases h3 : scanInt p2 with
            | none => simp [h2, h3]
            | some p3 =>
              cases h4 : scanSlash p3.2 with
              | none => simp [h2, h3, h4]
              | some p4 =>
                have a := hint _ _ h1
                have b := hsl _ _ h2
                have c := hint _ _ h3
                have d := hsl _ _ h4
                omega
      simp only [hnone]
    · simp only [scanDate_written t s hw]
      rw [if_pos (ok.past t ht hy)]
  unfold program
  rw [this]
  rfl

/-- C83: the digits given reach an unsigned numeric item (USAGE DISPLAY, no decimal places) that has room for them: afterwards it holds the number they
denote.  (`cob_memcpy`, /repo/libcob/common.c:864-875, is an alphanumeric MOVE.) -/
theorem C83_receiver (ebc : Bool) (dp sep : Nat) (hdp : dp = 46 ∨ dp = 44) (w : Nat) (b : List Nat) (n : Int) (h : Reads w b n) (f2 : Field)
    (hw : WFDisplay f2) (hsc : f2.attr.scale = 0) (hroom : w ≤ f2.dsize) :
    ∃ r, moveAlnumDisp ebc dp sep b f2 = .done r ∧ WFItem ⟨.display, r⟩ ∧ r.attr = f2.attr ∧ HoldsUnits ebc ⟨.display, r⟩ n := by
  obtain ⟨hl, hd, hv⟩ := h
  let nm : Numeral := ⟨0, none, b.map (· - 48), none, 0⟩
  have htext : nm.text dp = b := by
    simp only [Numeral.text, nm, List.replicate_zero, List.nil_append, List.append_nil, List.map_map]
    have : ∀ c ∈ b, ((fun x => 48 + x) ∘ fun x => x - 48) c = c := by
      intro c hc
      have := hd c hc
      simp only [Function.comp]
      omega
    exact List.map_congr_left this |>.trans (List.map_id b)
  have hI : ∀ d ∈ nm.int, d ≤ 9 := by
    intro d hh
    simp only [nm, List.mem_map] at hh
    obtain ⟨c, hc, rfl⟩ := hh
    have := hd c hc
    omega
  obtain ⟨r, u, e1, e2, e3, e4, t, e5, e6⟩ := C47_text_to_number ebc dp sep hdp nm hI (by intro d hd; cases hd) f2 hw (by rw [hsc]; exact Int.add_nonneg (Int.natCast_nonneg _) (Int.natCast_nonneg _))
  rw [htext] at e1
  refine ⟨r, e1, e2, e3, ?_⟩
  have hlt : digitsVal nm.int < 10 ^ w := by
    have hlen : nm.int.length = w := by simp [nm, hl]
    rw [← hlen]
    have := fixedDigits_digitsVal nm.int hI
    rw [← this, digitsVal_fixedDigits]
    simp only [this]
    exact Nat.mod_lt _ (by positivity)
  have hx : t = digitsVal nm.int := by
    have hval : (((if nm.neg then -(digitsVal (nm.int ++ nm.fracDigits) : Int) else digitsVal (nm.int ++ nm.fracDigits) : Int) : ℚ)
          / (10 : ℚ) ^ (nm.fracDigits.length : Int)) * (10 : ℚ) ^ f2.attr.scale = (digitsVal nm.int : ℚ) := by
      rw [hsc]
      simp [nm, Numeral.neg, Numeral.fracDigits]
    simp only [hval] at e5
    exact isTrunc_unique _ _ _ e5 (by exact_mod_cast isTrunc_int (digitsVal nm.int : Int))
  have hn : (digitsVal nm.int : Int) = n := hv
  have hle : (10 : Nat) ^ w ≤ 10 ^ f2.dsize := Nat.pow_le_pow_right (by decide) hroom
  have hun : u = n := by
    rw [e6, hx, ← hn]
    simp only [Item.positions]
    split
    · rw [Int.tmod_eq_emod_of_nonneg (by positivity), Int.emod_eq_of_lt (by positivity)]
      exact_mod_cast lt_of_lt_of_le hlt hle
    · rw [Int.natAbs_natCast, Nat.mod_eq_of_lt (lt_of_lt_of_le hlt hle)]
  rw [← hun]
  exact e4

/-! ### A C library that is as assumed: a zone at a fixed distance from Greenwich -/

/-- The day with number `n`. -/
def dateOf (n : Nat) : Date :=
  let yd := yearLoop n 1601 365 n
  let md := monthLoop yd.2 0 0 (if leapYear yd.1 then leapDays else normalDays)
  ⟨yd.1, md.1, md.2⟩

/-- `struct tm` of the day with number `n` and `s` seconds after midnight. -/
def tmOf (n s : Nat) (off : Int) : Tm :=
  let t := dateOf n
  ⟨t.y - 1900, t.m - 1, t.d, s / 3600, s / 60 % 60, s % 60, n % 7, n - sumYears (t.y - 1601) 1601 0 - 1, off⟩

/-- A C library for a zone `off` seconds east of Greenwich.  `mktime` takes months and days beyond the end of the year and the month, as the C standard
requires. -/
def fixedZone (off : Int) : Libc where
  localtime i := tmOf ((i + off) / 86400 + 134775).toNat ((i + off) % 86400).toNat off
  mktime y m d :=
    let y' := y + (m - 1) / 12
    let m' := (m - 1) % 12
    let n := (sumYears (y' - 1601).toNat 1601 0 : Int) + ((if leapYear y'.toNat then leapDays else normalDays).getD m'.toNat 0 : Nat) + d
    if y' < 1601 then (-1, tmOf 1 0 off) else ((n - 134775) * 86400 - off, tmOf n.toNat 0 off)

theorem dateOf_serial (t : Date) (h : t.Valid) : dateOf (serial t) = t := by
  obtain ⟨y, m, d⟩ := t
  obtain ⟨h1, h2, h3, h4, h5, h6⟩ := h
  simp only at h1 h2 h3 h4 h5 h6
  have hy := daysBefore_year y m h3 h4
  have e1 : yearLoop (serial ⟨y, m, d⟩) 1601 365 (serial ⟨y, m, d⟩) = (y, daysBefore y m + d) := by
    have := yearLoop_split (y - 1601) (daysBefore y m + d) (by omega) (by rw [show 1601 + (y - 1601) = y by omega]; omega)
    rw [show 1601 + (y - 1601) = y by omega] at this
    simp only [serial]
    rw [Nat.add_assoc]
    exact this
  have e2 := monthLoop_eq y m d h3 h4 h5 h6
  unfold dateOf
  simp only [e1, e2]

theorem tmOf_serial (t : Date) (h : t.Valid) (s : Nat) (off : Int) : OfDay (tmOf (serial t) s off) t := by
  have e := dateOf_serial t h
  have h3 := h.2.2.1
  have h5 := h.2.2.2.2.1
  constructor
  · simp only [tmOf, e]; omega
  · simp only [tmOf, e]; omega
  · simp only [tmOf, e]
  · rw [dayNumber_valid h, dayNumber_valid (valid_first h)]
    simp only [tmOf, e, sumYears_zero]
    simp only [serial, daysBefore_one]
    omega
  · rw [dayNumber_valid h]
    simp only [tmOf]
    omega

/-- The assumptions can be met: by the fixed zones less than a day away from Greenwich. -/
theorem fixedZone_ok (off : Int) (ho : off.natAbs < 86400) :
    LibcOk (fixedZone off) (fun i => dateOf ((i + off) / 86400 + 134775).toNat) (fun i => ((i + off) % 86400).toNat) := by
  have hday : ∀ i, Era i → ∃ t : Date, t.Valid ∧ serial t = ((i + off) / 86400 + 134775).toNat := by
    intro i hi
    obtain ⟨h1, h2⟩ := hi
    exact serial_surj _ (by omega) (by omega)
  have hmk : ∀ t : Date, t.Valid → (fixedZone off).mktime t.y t.m t.d = (((serial t : Int) - 134775) * 86400 - off, tmOf (serial t) 0 off) := by
    intro t ht
    obtain ⟨h1, h2, h3, h4, h5, h6⟩ := ht
    have e1 : (t.y : Int) + (t.m - 1) / 12 = t.y := by omega
    have e2 : (((t.m : Int) - 1) % 12).toNat = t.m - 1 := by omega
    have e3 : ((t.y : Int) - 1601).toNat = t.y - 1601 := by omega
    simp only [fixedZone, e1, e2, e3, sumYears_zero, Int.toNat_natCast]
    rw [if_neg (by omega)]
    have e4 : (daysTo (t.y - 1601) : Int) + ((if leapYear t.y = true then leapDays else normalDays).getD (t.m - 1) 0 : Nat) + t.d = serial t := by
      simp only [serial, daysBefore]
      push_cast
      rfl
    rw [e4, Int.toNat_natCast]
  constructor
  · intro i hi
    obtain ⟨t, ht, hs⟩ := hday i hi
    simp only [← hs, dateOf_serial t ht]
    exact ht
  · intro i hi
    obtain ⟨t, ht, hs⟩ := hday i hi
    simp only [fixedZone, ← hs, dateOf_serial t ht]
    exact tmOf_serial t ht _ _
  · intro i hi
    simp only [fixedZone, tmOf]
    omega
  · intro i _
    simpa only [fixedZone, tmOf] using ho
  · intro t ht
    rw [hmk t ht]
    exact ⟨tmOf_serial t ht _ _, by simpa only [tmOf] using ho⟩
  · intro t ht hy
    rw [hmk t ht]
    have h1 : (⟨1970, 12, 31⟩ : Date).Earlier t := Or.inl (by simp only; omega)
    have h2 := serial_order ⟨1970, 12, 31⟩ t (by unfold Date.Valid; decide) ht h1
    have e : serial ⟨1970, 12, 31⟩ = 135139 := by decide +kernel
    simp only
    omega
  · intro t ht hy
    rw [hmk t ht]
    have h1 : t.Earlier ⟨1969, 1, 1⟩ := Or.inl hy
    have h2 := serial_order t ⟨1969, 1, 1⟩ ht (by unfold Date.Valid; decide) h1
    have e : serial ⟨1969, 1, 1⟩ = 134410 := by decide +kernel
    simp only
    omega

/-! ### Cases that meet the hypotheses -/

/-- The text "2024/02/29". -/
def leapText : List Nat := [50, 48, 50, 52, 47, 48, 50, 47, 50, 57]

example : DateWritten ⟨2024, 2, 29⟩ leapText :=
  ⟨[50, 48, 50, 52], [48, 50], [50, 57], [], by decide, by decide, by decide, by decide, by decide, by decide⟩
example : (⟨2024, 2, 29⟩ : Date).Valid := by unfold Date.Valid; decide
-- 2021-02-03 23:59:59.99 in Japan
def someInstant : Instant := ⟨1612364399, 990000⟩
example : Era someInstant.sec ∧ someInstant.usec < 1000000 := by unfold Era; decide
example : program (fixedZone 32400) none [(someInstant, .date), (someInstant, .day), (someInstant, .dayOfWeek), (someInstant, .time),
      (someInstant, .currentDate)] =
    [.text (some [50, 49, 48, 50, 48, 51]), .text (some [50, 49, 48, 51, 52]), .text (some [51]),
     .text (some [50, 51, 53, 57, 53, 57, 57, 57]),
     .text (some [50, 48, 50, 49, 48, 50, 48, 51, 50, 51, 53, 57, 53, 57, 57, 57, 43, 48, 57, 48, 48])] := by decide +kernel
example : program (fixedZone 32400) (some leapText) [(someInstant, .currentDate), (someInstant, .dayLong)] =
    [.text (some [50, 48, 50, 52, 48, 50, 50, 57, 50, 51, 53, 57, 53, 57, 57, 57, 43, 48, 57, 48, 48]),
     .text (some [50, 48, 50, 52, 48, 54, 48])] := by decide +kernel
example : Reads 6 [50, 49, 48, 50, 48, 51] 210203 := ⟨rfl, by decide, by decide⟩
example : WFDisplay ⟨{ digits := 6 }, List.replicate 6 48⟩ := by unfold WFDisplay; decide

/-! ### Findings -/

/-- Finding: a COB_DATE that is no date is taken as another one: 2020/02/30 as March 1. -/
theorem C83_finding_not_a_date :
    program (fixedZone 0) (some [50, 48, 50, 48, 47, 48, 50, 47, 51, 48]) [(someInstant, .dateLong)] =
      [.text (some [50, 48, 50, 48, 48, 51, 48, 49])] := by decide +kernel

/-- Finding: COB_DATE=1970/01/01 is refused in Japan (east of Greenwich) and taken in London. -/
theorem C83_finding_first_day :
    jobDate (fixedZone 32400) (some [49, 57, 55, 48, 47, 49, 47, 49]) = none ∧
    (jobDate (fixedZone 0) (some [49, 57, 55, 48, 47, 49, 47, 49])).isSome := by decide +kernel

/-- Finding: COB_DATE=10000/1/1 is taken, and what ACCEPT FROM DATE YYYYMMDD then gives is not determined. -/
theorem C83_finding_year_10000 :
    program (fixedZone 0) (some [49, 48, 48, 48, 48, 47, 49, 47, 49]) [(someInstant, .dateLong)] = [.text none] := by decide +kernel

/-- Finding: the day and the time are asked for separately: around midnight ACCEPT FROM DATE followed by ACCEPT FROM TIME gives an instant almost a day
before both. -/
theorem C83_finding_midnight :
    program (fixedZone 32400) none [(someInstant, .date), (⟨someInstant.sec + 1, 0⟩, .time)] =
      [.text (some [50, 49, 48, 50, 48, 51]), .text (some [48, 48, 48, 48, 48, 48, 48, 48])] := by decide +kernel

/-- Finding: text behind the date is ignored: "2024/02/29x" is taken. -/
theorem C83_finding_rest_ignored : (jobDate (fixedZone 0) (some (leapText ++ [120]))).isSome := by decide +kernel

end Cob.Clock
