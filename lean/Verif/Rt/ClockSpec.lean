import Verif.Rt.Clock
import Verif.Intr.DateProps
/-
What the answers about the date and time have to be, and what is assumed of the C library.
-/
namespace Cob.Clock

/-- The number of a day: what FUNCTION INTEGER-OF-DATE gives for it (C26: consecutive days have consecutive numbers, 1601-01-01 has 1). -/
def dayNumber (t : Date) : Int := (integerOfDate t.yyyymmdd).value

/-- A `struct tm` describes the day `t`. -/
structure OfDay (tm : Tm) (t : Date) : Prop where
  year : tm.year + 1900 = t.y
  mon : tm.mon + 1 = t.m
  mday : tm.mday = t.d
  /-- the day of the year counts from January 1 -/
  yday : (tm.yday : Int) = dayNumber t - dayNumber ⟨t.y, 1, 1⟩
  /-- 1601-01-01 was a Monday -/
  wday : (tm.wday : Int) = dayNumber t % 7

/-- The instants considered: from 1970 to the end of the year 9998. -/
def Era (i : Int) : Prop := 0 ≤ i ∧ i < 253370764800

/-- What is assumed of the C library, for a calendar of the machine: at an instant `i` the machine shows the day `day i`, and `secs i` seconds have passed
since midnight (no leap seconds). -/
structure LibcOk (L : Libc) (day : Int → Date) (secs : Int → Nat) : Prop where
  valid : ∀ i, Era i → (day i).Valid
  localtime : ∀ i, Era i → OfDay (L.localtime i) (day i)
  time : ∀ i, Era i → (L.localtime i).hour * 3600 + (L.localtime i).min * 60 + (L.localtime i).sec = secs i ∧
    (L.localtime i).hour < 24 ∧ (L.localtime i).min < 60 ∧ (L.localtime i).sec < 60
  zone : ∀ i, Era i → (L.localtime i).gmtoff.natAbs < 86400
  /-- `mktime` leaves a valid day as it is and completes the `struct tm` -/
  mktime : ∀ t : Date, t.Valid → OfDay (L.mktime t.y t.m t.d).2 t ∧ (L.mktime t.y t.m t.d).2.gmtoff.natAbs < 86400
  /-- no time zone is a year away from Greenwich -/
  future : ∀ t : Date, t.Valid → 1971 ≤ t.y → 0 ≤ (L.mktime t.y t.m t.d).1
  past : ∀ t : Date, t.Valid → t.y < 1969 → (L.mktime t.y t.m t.d).1 < 0

/-- The text consists of `w` decimal digits and denotes `n`. -/
def Reads (w : Nat) (text : List Nat) (n : Int) : Prop :=
  text.length = w ∧ (∀ c ∈ text, 48 ≤ c ∧ c ≤ 57) ∧ shown text = n

/-- The day of the year, from 1. -/
def ordinal (t : Date) : Int := dayNumber t - dayNumber ⟨t.y, 1, 1⟩ + 1

/-- What question `q` has to be answered when the day is `t`, the time of day `secs` seconds and `usec` microseconds after midnight. -/
def RightAnswer (t : Date) (secs usec : Nat) : Ask → Answer → Prop
  | .date, .text (some b) => Reads 6 b (t.yyyymmdd % 1000000)
  | .dateLong, .text (some b) => Reads 8 b t.yyyymmdd
  | .day, .text (some b) => Reads 5 b ((t.y : Int) % 100 * 1000 + ordinal t)
  | .dayLong, .text (some b) => Reads 7 b (t.y * 1000 + ordinal t)
  -- Monday 1, ..., Sunday 7
  | .dayOfWeek, .text (some b) => ∃ w : Int, Reads 1 b w ∧ 1 ≤ w ∧ w ≤ 7 ∧ (dayNumber t - w) % 7 = 0
  | .time, .text (some b) =>
    Reads 8 b ((secs : Int) / 3600 * 1000000 + secs / 60 % 60 * 10000 + secs % 60 * 100 + usec / 10000)
  | .currentDate, .text (some b) => b.length = 21 ∧ Reads 8 (b.take 8) t.yyyymmdd ∧
    Reads 8 ((b.drop 8).take 8) ((secs : Int) / 3600 * 1000000 + secs / 60 % 60 * 10000 + secs % 60 * 100 + usec / 10000) ∧
    (b[16]? = some 43 ∨ b[16]? = some 45)
  | .secondsPastMidnight, .number n => n = secs
  | .thisYear, .number n => n = t.y
  | _, _ => False

/-- A date as it is written in COB_DATE: year, month and day, each as a row of digits, then anything but a digit. -/
def DateWritten (t : Date) (s : List Nat) : Prop :=
  ∃ y m d rest, s = y ++ [47] ++ m ++ [47] ++ d ++ rest ∧
    (∀ l ∈ [y, m, d], l ≠ [] ∧ ∀ c ∈ l, 48 ≤ c ∧ c ≤ 57) ∧ (∀ c ∈ rest.head?, ¬ (48 ≤ c ∧ c ≤ 57)) ∧
    shown y = t.y ∧ shown m = t.m ∧ shown d = t.d

end Cob.Clock
