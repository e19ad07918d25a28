import Verif.Num.FieldSpec
/-
Model of the calendar functions of libcob/intrinsic.c: INTEGER-OF-DATE, DATE-OF-INTEGER,
INTEGER-OF-DAY, DAY-OF-INTEGER, TEST-DATE-YYYYMMDD, TEST-DAY-YYYYDDD, COMBINED-DATETIME.

The arguments are the C `int`s that `cob_get_int` delivers (integers here: no operation of
these functions leaves the `int` range).  A numeric DISPLAY result is its bytes, a binary result
its integer.  `exc` is whether COB_EC_ARGUMENT_FUNCTION was set.
-/
namespace Cob

/-- The result of an intrinsic function and whether the argument exception was set. -/
structure FnRes (α : Type) where
  value : α
  exc : Bool
deriving DecidableEq, Repr

/-- libcob/intrinsic.c:371-375 `leap_year`. -/
def leapYear (year : Nat) : Bool :=
  (year % 4 == 0 && year % 100 != 0) || year % 400 == 0

/-- libcob/intrinsic.c:82 `normal_days`. -/
def normalDays : List Nat := [0, 31, 59, 90, 120, 151, 181, 212, 243, 273, 304, 334, 365]

/-- libcob/intrinsic.c:83 `leap_days`. -/
def leapDays : List Nat := [0, 31, 60, 91, 121, 152, 182, 213, 244, 274, 305, 335, 366]

/-- libcob/intrinsic.c:84 `normal_month_days`. -/
def normalMonthDays : List Nat := [0, 31, 28, 31, 30, 31, 30, 31, 31, 30, 31, 30, 31]

/-- libcob/intrinsic.c:85 `leap_month_days`. -/
def leapMonthDays : List Nat := [0, 31, 29, 31, 30, 31, 30, 31, 31, 30, 31, 30, 31]

/-- libcob/intrinsic.c:1262-1270 (and 1311-1319): the loop that takes whole years off `days`.
Gives the year and the day in it.  `fuel` bounds the recursion; the loop runs at most `days`
times. -/
def yearLoop : Nat → Nat → Nat → Nat → Nat × Nat
  | 0, baseyear, _, days => (baseyear, days)
  | fuel + 1, baseyear, leapyear, days =>
    if days > leapyear then
      yearLoop fuel (baseyear + 1) (if leapYear (baseyear + 1) then 366 else 365) (days - leapyear)
    else (baseyear, days)

/-- libcob/intrinsic.c:1271-1283: the loop `for (i = 0; i < 13; ++i)` over the table of cumulated
days, from index `i` on; `prev` is entry `i - 1`.  Gives `i` and the day in the month. -/
def monthLoop (days : Nat) : Nat → Nat → List Nat → Nat × Nat
  | i, _, [] => (i, days)
  | i, prev, t :: ts => if days ≤ t then (i, days - prev) else monthLoop days (i + 1) t ts

/-- `snprintf ("%w.wd", n)` of a non-negative number that has at most `w` digits. -/
def fmtDigits (w n : Nat) : List Nat := (fixedDigits w n).map (48 + ·)

/-- libcob/intrinsic.c:1241-1288 `cob_intr_date_of_integer`. -/
def dateOfInteger (srcdays : Int) : FnRes (List Nat) :=
  if srcdays < 1 ∨ srcdays > 3067671 then ⟨List.replicate 8 48, true⟩
  else
    let days := srcdays.toNat
    let yd := yearLoop days 1601 365 days
    let md := monthLoop yd.2 0 0 (if leapYear yd.1 then leapDays else normalDays)
    ⟨fmtDigits 4 yd.1 ++ fmtDigits 2 md.1 ++ fmtDigits 2 md.2, false⟩

/-- libcob/intrinsic.c:1290-1323 `cob_intr_day_of_integer`. -/
def dayOfInteger (srcdays : Int) : FnRes (List Nat) :=
  if srcdays < 1 ∨ srcdays > 3067671 then ⟨List.replicate 7 48, true⟩
  else
    let days := srcdays.toNat
    let yd := yearLoop days 1601 365 days
    ⟨fmtDigits 4 yd.1 ++ fmtDigits 3 yd.2, false⟩

/-- libcob/intrinsic.c:1376-1384 (and 1426-1434): `while (baseyear != year)`, run `n` times. -/
def sumYears : Nat → Nat → Nat → Nat
  | 0, _, total => total
  | n + 1, baseyear, total =>
    sumYears n (baseyear + 1) (total + if leapYear baseyear then 366 else 365)

/-- libcob/intrinsic.c:1441-1483 `cob_intr_test_date_yyyymmdd`. -/
def testDate (indate : Int) : Nat :=
  let year := indate.tdiv 10000
  if year < 1601 ∨ year > 9999 then 1
  else
    let rest := indate.tmod 10000
    let month := rest.tdiv 100
    if month < 1 ∨ month > 12 then 2
    else
      let days := rest.tmod 100
      if days < 1 ∨ days > 31 then 3
      else if leapYear year.toNat then
        if days > (leapMonthDays.getD month.toNat 0 : Nat) then 3 else 0
      else if days > (normalMonthDays.getD month.toNat 0 : Nat) then 3 else 0

/-- libcob/intrinsic.c:1326-1394 `cob_intr_integer_of_date`. -/
def integerOfDate (indate : Int) : FnRes Int :=
  let year := indate.tdiv 10000
  if year < 1601 ∨ year > 9999 then ⟨0, true⟩
  else
    let rest := indate.tmod 10000
    let month := rest.tdiv 100
    if month < 1 ∨ month > 12 then ⟨0, true⟩
    else
      let days := rest.tmod 100
      if days < 1 ∨ days > 31 then ⟨0, true⟩
      else if leapYear year.toNat ∧ days > (leapMonthDays.getD month.toNat 0 : Nat) then ⟨0, true⟩
      else if ¬ leapYear year.toNat ∧ days > (normalMonthDays.getD month.toNat 0 : Nat) then ⟨0, true⟩
      else
        let total := sumYears (year.toNat - 1601) 1601 0
        let total := total + (if leapYear year.toNat then leapDays else normalDays).getD (month.toNat - 1) 0
        ⟨total + days, false⟩

/-- libcob/intrinsic.c:1486-1514 `cob_intr_test_day_yyyyddd`. -/
def testDay (indate : Int) : Nat :=
  let year := indate.tdiv 1000
  if year < 1601 ∨ year > 9999 then 1
  else
    let days := indate.tmod 1000
    if days < 1 ∨ days > 365 + (if leapYear year.toNat then 1 else 0) then 2 else 0

/-- libcob/intrinsic.c:1396-1438 `cob_intr_integer_of_day`. -/
def integerOfDay (indate : Int) : FnRes Int :=
  let year := indate.tdiv 1000
  if year < 1601 ∨ year > 9999 then ⟨0, true⟩
  else
    let days := indate.tmod 1000
    if days < 1 ∨ days > 365 + (if leapYear year.toNat then 1 else 0) then ⟨0, true⟩
    else ⟨(sumYears (year.toNat - 1601) 1601 0 : Nat) + days, false⟩

/-- libcob/intrinsic.c:1209-1238 `cob_intr_combined_datetime` (12 digits, scale 5). -/
def combinedDatetime (srdays srtime : Int) : FnRes (List Nat) :=
  if srdays < 1 ∨ srdays > 3067671 then ⟨List.replicate 12 48, true⟩
  else if srtime < 1 ∨ srtime > 86400 then ⟨List.replicate 12 48, true⟩
  else ⟨fmtDigits 7 srdays.toNat ++ fmtDigits 5 srtime.toNat, false⟩

end Cob
