import Verif.Intr.TextProps
import Verif.Rt.ClockMain
/-
C84: dates with two digits of the year (the functions are those of C29).
-/
namespace Cob.Window

/-- The base years and ends of the window that the functions take. -/
def InRange (i x : Int) : Prop := 1601 ≤ x ∧ x ≤ 9999 ∧ 1700 ≤ x + i ∧ x + i ≤ 9999

/-- C84: a date written with two digits of the year and expanded by DATE-TO-YYYYMMDD is the same date exactly when its year is one of the hundred years
that end `i` years after year `x`. -/
theorem C84_date (t : Date) (ht : t.Valid) (i x : Int) (hr : InRange i x) :
    dateToYyyymmdd (t.yyyymmdd % 1000000) i x = ⟨t.yyyymmdd, false⟩ ↔ x + i - 99 ≤ (t.y : Int) ∧ (t.y : Int) ≤ x + i := by
  obtain ⟨h1, h2, h3, h4, h5, h6⟩ := ht
  have := monthLen_le t.y t.m
  obtain ⟨r1, r2, r3, r4⟩ := hr
  have e : t.yyyymmdd % 1000000 = (t.y : Int) % 100 * 10000 + (t.m * 100 + t.d) := by simp only [Date.yyyymmdd]; omega
  obtain ⟨Y, e2, s1, s2, s3⟩ := C29_date ((t.y : Int) % 100) (t.m * 100 + t.d) i x (by omega) (by omega) ⟨r1, r2⟩ ⟨r3, r4⟩
  rw [e, e2]
  simp only [Date.yyyymmdd, FnRes.mk.injEq, and_true]
  constructor
  · intro h; omega
  · intro h
    have : (t.y : Int) = Y := by omega
    omega

/-- C84: likewise a day of the year and DAY-TO-YYYYDDD. -/
theorem C84_day (y k : Nat) (h : ValidDay y k) (i x : Int) (hr : InRange i x) :
    dayToYyyyddd ((y * 1000 + k : Int) % 100000) i x = ⟨(y * 1000 + k : Int), false⟩ ↔ x + i - 99 ≤ (y : Int) ∧ (y : Int) ≤ x + i := by
  obtain ⟨h1, h2, h3, h4⟩ := h
  have := (yearLen_pos y).2
  obtain ⟨r1, r2, r3, r4⟩ := hr
  have e : (y * 1000 + k : Int) % 100000 = (y : Int) % 100 * 1000 + k := by omega
  obtain ⟨Y, e2, s1, s2, s3⟩ := C29_day ((y : Int) % 100) k i x (by omega) (by omega) ⟨r1, r2⟩ ⟨r3, r4⟩
  rw [e, e2]
  simp only [FnRes.mk.injEq, and_true]
  constructor
  · intro h; omega
  · intro h
    have : (y : Int) = Y := by omega
    omega

/-- C84: what ACCEPT FROM DATE and FROM DAY give (six and five digits), expanded by DATE-TO-YYYYMMDD and DAY-TO-YYYYDDD with interval 50 and the current
year (the defaults, /repo/libcob/intrinsic.c:2711-2725), is what ACCEPT FROM DATE YYYYMMDD and DAY YYYYDDD give: the functions take the same day as
"now", also under COB_DATE.  Years 1650 to 9949. -/
theorem C84_accept (L : Clock.Libc) (day : Int → Date) (secs : Int → Nat) (ok : Clock.LibcOk L day secs) (env : Option (List Nat)) (t : Date)
    (now : Clock.Instant) (he : Clock.Era now.sec) (hu : now.usec < 1000000)
    (ht : (env = none ∧ t = day now.sec) ∨ (t.Valid ∧ 1971 ≤ t.y ∧ ∃ s, env = some s ∧ Clock.DateWritten t s)) (h1 : 1650 ≤ t.y) (h2 : t.y ≤ 9949) :
    ∃ short long short' long' year,
      Clock.program L env [(now, .date), (now, .dateLong), (now, .day), (now, .dayLong), (now, .thisYear)] =
        [.text (some short), .text (some long), .text (some short'), .text (some long'), .number year] ∧
      dateToYyyymmdd (shown short) 50 year = ⟨shown long, false⟩ ∧ dayToYyyyddd (shown short') 50 year = ⟨shown long', false⟩ := by
  have key : t.Valid ∧ List.Forall₂ (fun q a => Clock.RightAnswer t (secs q.1.sec) q.1.usec q.2 a)
      [(now, .date), (now, .dateLong), (now, .day), (now, .dayLong), (now, .thisYear)]
      (Clock.program L env [(now, .date), (now, .dateLong), (now, .day), (now, .dayLong), (now, .thisYear)]) := by
    have hq : ∀ q ∈ [(now, Clock.Ask.date), (now, .dateLong), (now, .day), (now, .dayLong), (now, .thisYear)],
        Clock.Era q.1.sec ∧ q.1.usec < 1000000 := by
      intro q hq
      simp only [List.mem_cons, List.not_mem_nil, or_false] at hq
      rcases hq with rfl | rfl | rfl | rfl | rfl <;> exact ⟨he, hu⟩
    rcases ht with ⟨rfl, rfl⟩ | ⟨hv, hy, s, rfl, hs⟩
    · refine ⟨ok.valid _ he, ?_⟩
      have := Clock.C83_clock L day secs ok _ hq
      generalize Clock.program L none _ = as at this ⊢
      cases this with | cons a r => cases r with | cons b r => cases r with | cons c r => cases r with | cons d r => cases r with | cons e r =>
        cases r with | nil => exact .cons a (.cons b (.cons c (.cons d (.cons e .nil))))
    · exact ⟨hv, Clock.C83_cob_date L day secs ok t hv hy s hs _ hq⟩
  obtain ⟨hv, key⟩ := key
  generalize Clock.program L env _ = as at key ⊢
  cases key with | cons a r => cases r with | cons b r => cases r with | cons c r => cases r with | cons d r => cases r with | cons e r =>
    cases r with
    | nil =>
      rename_i x1 x2 x3 x4 x5
      · obtain ⟨s1, rfl, a⟩ : ∃ s, x1 = .text (some s) ∧ Clock.Reads 6 s (t.yyyymmdd % 1000000) := by
          match x1, a with | .text (some s), a => exact ⟨s, rfl, a⟩
        obtain ⟨s2, rfl, b⟩ : ∃ s, x2 = .text (some s) ∧ Clock.Reads 8 s t.yyyymmdd := by
          match x2, b with | .text (some s), a => exact ⟨s, rfl, a⟩
        obtain ⟨s3, rfl, c⟩ : ∃ s, x3 = .text (some s) ∧ Clock.Reads 5 s ((t.y : Int) % 100 * 1000 + Clock.ordinal t) := by
          match x3, c with | .text (some s), a => exact ⟨s, rfl, a⟩
        obtain ⟨s4, rfl, d⟩ : ∃ s, x4 = .text (some s) ∧ Clock.Reads 7 s (t.y * 1000 + Clock.ordinal t) := by
          match x4, d with | .text (some s), a => exact ⟨s, rfl, a⟩
        obtain ⟨n, rfl, e⟩ : ∃ n, x5 = .number n ∧ n = t.y := by
          match x5, e with | .number n, a => exact ⟨n, rfl, a⟩
        refine ⟨s1, s2, s3, s4, n, rfl, ?_⟩
        rw [a.2.2, b.2.2, c.2.2, d.2.2, e]
        have hr : InRange 50 t.y := by simp only [InRange]; omega
        refine ⟨(C84_date t hv 50 t.y hr).mpr (by omega), ?_⟩
        have ho := Clock.ordinal_eq hv
        have hy := daysBefore_year t.y t.m hv.2.2.1 hv.2.2.2.1
        have hy2 := (yearLen_pos t.y).2
        have hd := hv.2.2.2.2
        have hk : ValidDay t.y (daysBefore t.y t.m + t.d) := ⟨hv.1, hv.2.1, by omega, by omega⟩
        have := (C84_day t.y _ hk 50 t.y hr).mpr (by omega)
        rw [ho]
        have e1 : (t.y : Int) % 100 * 1000 + (daysBefore t.y t.m + t.d : Int) = (t.y * 1000 + (daysBefore t.y t.m + t.d : Nat) : Int) % 100000 := by
          push_cast
          omega
        rw [e1, this]
        push_cast
        rfl

example : InRange 50 2024 := by unfold InRange; decide
example : dateToYyyymmdd 851003 (-10) 2002 = ⟨19851003, false⟩ ∧ dayToYyyyddd 10004 80 1994 = ⟨2010004, false⟩ := by decide
example : Clock.DateWritten ⟨2024, 2, 29⟩ Clock.leapText :=
  ⟨[50, 48, 50, 52], [48, 50], [50, 57], [], by decide, by decide, by decide, by decide, by decide, by decide⟩

/-- Finding: negative arguments above -10000 are taken: the year is 00 and the month and day are subtracted. -/
theorem C84_finding_negative : dateToYyyymmdd (-101) 50 2024 = ⟨19999899, false⟩ := by decide

/-- Finding: the month and the day are not looked at. -/
theorem C84_finding_month : dateToYyyymmdd 249999 50 2024 = ⟨20249999, false⟩ := by decide

end Cob.Window
