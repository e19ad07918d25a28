import Verif.Intr.Date
import Verif.Move.Alnum
/-
Model of the ACCEPT statements that give the date and the time, of FUNCTION CURRENT-DATE, FUNCTION SECONDS-PAST-MIDNIGHT and the current year that
FUNCTION YEAR-TO-YYYY, DATE-TO-YYYYMMDD and DAY-TO-YYYYDDD take, and of the environment variable COB_DATE (libcob/common.c, libcob/intrinsic.c).

The C library (`localtime`, `mktime`) is a parameter `Libc` of the model; what is assumed of it is `LibcOk` in ClockSpec.lean.  `strftime` and
`sscanf` are modelled for the formats that are used.  Every statement is given the instant at which it runs.
-/
namespace Cob.Clock

/-- The members of `struct tm` that /repo/libcob/common.c:749-777, 1757-1840 and /repo/libcob/intrinsic.c:1088 use. -/
structure Tm where
  /-- years since 1900 -/
  year : Int
  /-- months since January -/
  mon : Nat
  mday : Nat
  hour : Nat
  min : Nat
  sec : Nat
  /-- days since Sunday -/
  wday : Nat
  /-- days since January 1 -/
  yday : Nat
  /-- seconds east of Greenwich -/
  gmtoff : Int
deriving DecidableEq, Repr

/-- The C library: `localtime` of the seconds since 1970, and `mktime` of a year, month and day as given (1-based, not checked) with the time 0:00:00:
the seconds since 1970 and the `struct tm` as it is left. -/
structure Libc where
  localtime : Int → Tm
  mktime : Int → Int → Int → Int × Tm

/-- An instant as `gettimeofday` and `time` give it. -/
structure Instant where
  sec : Int
  usec : Nat
deriving DecidableEq, Repr

/-- `strftime` writes nothing that can be relied on when the text does not fit (with its NUL) into `max` bytes. -/
def fits (max : Nat) (text : List Nat) : Option (List Nat) := if text.length < max then some text else none

/-- `%y`: the last two digits of the year. -/
def fmtY2 (t : Tm) : List Nat := fmtDigits 2 ((t.year + 1900) % 100).toNat

/-- `%Y`: the year, for years from 1000 on: as many digits as it has (from 10000 on: five or more). -/
def fmtY4 (t : Tm) : List Nat :=
  let y := (t.year + 1900).toNat
  if y < 10000 then fmtDigits 4 y else fmtDigits (Nat.toDigits 10 y).length y

/-- `%m`. -/
def fmtM (t : Tm) : List Nat := fmtDigits 2 (t.mon + 1)

/-- `%d`. -/
def fmtD (t : Tm) : List Nat := fmtDigits 2 t.mday

/-- `%j`. -/
def fmtJ (t : Tm) : List Nat := fmtDigits 3 (t.yday + 1)

/-- `%H%M%S`. -/
def fmtHMS (t : Tm) : List Nat := fmtDigits 2 t.hour ++ fmtDigits 2 t.min ++ fmtDigits 2 t.sec

/-- `%z`. -/
def fmtZ (t : Tm) : List Nat :=
  let m := t.gmtoff.natAbs / 60
  (if t.gmtoff < 0 then 45 else 43) :: (fmtDigits 2 (m / 60) ++ fmtDigits 2 (m % 60))

/-- `%d` of `sscanf`: blanks, a sign, digits; `none` when there is no digit.  Numbers that do not fit an `int` are not modelled. -/
def scanInt (s : List Nat) : Option (Int × List Nat) :=
  let s := s.dropWhile isSpace
  let neg := s.head? = some 45
  let s := if s.head? = some 45 ∨ s.head? = some 43 then s.tail else s
  let ds := s.takeWhile isDigit
  if ds = [] then none
  else
    let n : Int := digitsVal (ds.map (· - 48))
    some (if neg then -n else n, s.drop ds.length)

/-- The `/` of a `sscanf` format. -/
def scanSlash (s : List Nat) : Option (List Nat) := if s.head? = some 47 then some s.tail else none

/-- /repo/libcob/common.c:980 `sscanf (s, "%d/%d/%d", ...)`. -/
def scanDate (s : List Nat) : Option (Int × Int × Int) := do
  let (y, s) ← scanInt s
  let s ← scanSlash s
  let (m, s) ← scanInt s
  let s ← scanSlash s
  let (d, _) ← scanInt s
  some (y, m, d)

/-- /repo/libcob/common.c:975-992: what `cob_init` makes of COB_DATE: `cob_localtm`.  (Its warnings go to stderr and are not modelled.) -/
def jobDate (L : Libc) : Option (List Nat) → Option Tm
  | none => none
  | some s =>
    match scanDate s with
    | none => none
    | some (y, m, d) => let r := L.mktime y m d; if 0 > r.1 then none else some r.2

/-- /repo/libcob/common.c:748-762 `job_or_current_localtime`. -/
def jobOrCurrent (L : Libc) (job : Option Tm) (now : Instant) : Tm :=
  match job with
  | some t => t
  | none => L.localtime now.sec

/-- /repo/libcob/common.c:767-779 `cob_localtime`: the time of day is written into `cob_localtm`. -/
def cobLocaltime (L : Libc) (job : Option Tm) (now : Instant) : Option Tm × Tm :=
  let rt := L.localtime now.sec
  match job with
  | some t => let t' := { t with hour := rt.hour, min := rt.min, sec := rt.sec }; (some t', t')
  | none => (none, rt)

/-- What asks for the date or the time. -/
inductive Ask where
  | date | dateLong | day | dayLong | dayOfWeek | time | currentDate | secondsPastMidnight | thisYear
deriving DecidableEq, Repr

/-- /repo/libcob/common.c:1757-1764 `cob_accept_date`. -/
def acceptDate (t : Tm) : Option (List Nat) := fits 7 (fmtY2 t ++ fmtM t ++ fmtD t)

/-- /repo/libcob/common.c:1766-1773 `cob_accept_date_yyyymmdd`. -/
def acceptDateLong (t : Tm) : Option (List Nat) := fits 9 (fmtY4 t ++ fmtM t ++ fmtD t)

/-- /repo/libcob/common.c:1775-1782 `cob_accept_day`. -/
def acceptDay (t : Tm) : Option (List Nat) := fits 6 (fmtY2 t ++ fmtJ t)

/-- /repo/libcob/common.c:1784-1791 `cob_accept_day_yyyyddd`. -/
def acceptDayLong (t : Tm) : Option (List Nat) := fits 8 (fmtY4 t ++ fmtJ t)

/-- /repo/libcob/common.c:1793-1806 `cob_accept_day_of_week`. -/
def acceptDayOfWeek (t : Tm) : Option (List Nat) := some (if t.wday = 0 then [55] else [t.wday + 48])

/-- /repo/libcob/common.c:1808-1839 `cob_accept_time`, with `gettimeofday`: the hundredths replace the two zeros. -/
def acceptTime (L : Libc) (now : Instant) : Option (List Nat) :=
  (fits 9 (fmtHMS (L.localtime now.sec) ++ [48, 48])).map fun s => s.take 6 ++ fmtDigits 2 (now.usec / 10000) ++ s.drop 8

/-- /repo/libcob/intrinsic.c:1079-1119 `cob_intr_current_date` on Linux. -/
def currentDate (t : Tm) (now : Instant) : Option (List Nat) :=
  (fits 22 (fmtY4 t ++ fmtM t ++ fmtD t ++ fmtHMS t ++ [48, 48] ++ fmtZ t)).map fun s =>
    s.take 14 ++ fmtDigits 2 (now.usec / 10000) ++ s.drop 16

/-- What a question gives back: characters (`none`: not determined), or a number. -/
inductive Answer where
  | text (b : Option (List Nat))
  | number (n : Int)
deriving DecidableEq, Repr

/-- One question at an instant: `cob_localtm` afterwards and the answer.  /repo/libcob/common.c:1757-1839,
/repo/libcob/intrinsic.c:1079-1119, 2838-2842 (SECONDS-PAST-MIDNIGHT), 2658-2660 (the current year). -/
def ask (L : Libc) (job : Option Tm) (now : Instant) : Ask → Option Tm × Answer
  | .date => (job, .text (acceptDate (jobOrCurrent L job now)))
  | .dateLong => (job, .text (acceptDateLong (jobOrCurrent L job now)))
  | .day => (job, .text (acceptDay (jobOrCurrent L job now)))
  | .dayLong => (job, .text (acceptDayLong (jobOrCurrent L job now)))
  | .dayOfWeek => (job, .text (acceptDayOfWeek (jobOrCurrent L job now)))
  | .time => (job, .text (acceptTime L now))
  | .currentDate => let r := cobLocaltime L job now; (r.1, .text (currentDate r.2 now))
  | .secondsPastMidnight => let r := cobLocaltime L job now; (r.1, .number (r.2.hour * 3600 + r.2.min * 60 + r.2.sec))
  | .thisYear => let r := cobLocaltime L job now; (r.1, .number (1900 + r.2.year))

/-- The questions of a run, each at its instant, and their answers. -/
def run (L : Libc) (job : Option Tm) : List (Instant × Ask) → List Answer
  | [] => []
  | (now, q) :: r => let a := ask L job now q; a.2 :: run L a.1 r

/-- A run of a program whose environment has COB_DATE set to `env` (or not). -/
def program (L : Libc) (env : Option (List Nat)) (qs : List (Instant × Ask)) : List Answer := run L (jobDate L env) qs

end Cob.Clock
