import Verif.Rt.ClockSpec
import Verif.Move.AlnumProps
import Mathlib.Data.List.Forall2
/-
Lemmas for C83.
-/
namespace Cob.Clock

theorem fmt_length (w n : Nat) : (fmtDigits w n).length = w := by simp [fmtDigits, fixedDigits_length]

theorem fmt_digits (w n : Nat) : ∀ c ∈ fmtDigits w n, 48 ≤ c ∧ c ≤ 57 := by
  intro c hc
  simp only [fmtDigits, List.mem_map] at hc
  obtain ⟨d, hd, rfl⟩ := hc
  have := fixedDigits_le w n d hd
  omega

theorem reads_fmt (w n : Nat) (h : n < 10 ^ w) : Reads w (fmtDigits w n) n := by
  refine ⟨fmt_length w n, fmt_digits w n, ?_⟩
  simp only [shown, shown_fmt, digitsVal_fixedDigits, Nat.mod_eq_of_lt h]

theorem reads_append {w1 w2 : Nat} {a b : List Nat} {m n : Int} (h1 : Reads w1 a m) (h2 : Reads w2 b n) :
    Reads (w1 + w2) (a ++ b) (m * 10 ^ w2 + n) := by
  obtain ⟨l1, d1, s1⟩ := h1
  obtain ⟨l2, d2, s2⟩ := h2
  refine ⟨by simp [l1, l2], ?_, ?_⟩
  · intro c hc
    rcases List.mem_append.mp hc with h | h
    · exact d1 c h
    · exact d2 c h
  · simp only [shown, List.map_append, digitsVal_append, List.length_map, l2] at *
    push_cast
    rw [s1, s2]

theorem reads_cast {w v : Nat} {a : List Nat} {m n : Int} (h : Reads w a m) (hw : w = v) (hn : m = n) : Reads v a n := by
  subst hw hn; exact h

theorem valid_first {t : Date} (h : t.Valid) : (⟨t.y, 1, 1⟩ : Date).Valid := by
  obtain ⟨h1, h2, _⟩ := h
  exact ⟨h1, h2, by simp, by simp, by simp, by simp [monthLen]⟩

theorem dayNumber_valid {t : Date} (h : t.Valid) : dayNumber t = serial t := by
  unfold dayNumber; rw [integerOfDate_valid t h]

theorem ordinal_eq {t : Date} (h : t.Valid) : ordinal t = daysBefore t.y t.m + t.d := by
  unfold ordinal
  rw [dayNumber_valid h, dayNumber_valid (valid_first h)]
  simp only [serial, daysBefore_one]
  push_cast
  omega

theorem ordinal_range {t : Date} (h : t.Valid) : 1 ≤ ordinal t ∧ ordinal t ≤ 366 := by
  rw [ordinal_eq h]
  obtain ⟨h1, h2, h3, h4, h5, h6⟩ := h
  have := daysBefore_year t.y t.m h3 h4
  have := (yearLen_pos t.y).2
  omega

section answers
variable {tm : Tm} {t : Date} (h : OfDay tm t) (hv : t.Valid)
include h hv

theorem y2_reads : Reads 2 (fmtY2 tm) ((t.y : Int) % 100) := by
  unfold fmtY2
  rw [h.year]
  have e : ((t.y : Int) % 100).toNat = t.y % 100 := by omega
  rw [e]
  exact reads_cast (reads_fmt 2 (t.y % 100) (by omega)) rfl (by omega)

theorem y4_reads : Reads 4 (fmtY4 tm) t.y := by
  unfold fmtY4
  have := hv.2.1
  rw [h.year]
  simp only [Int.toNat_natCast]
  rw [if_pos (by omega)]
  exact reads_fmt 4 t.y (by omega)

theorem m_reads : Reads 2 (fmtM tm) t.m := by
  unfold fmtM
  have := hv.2.2.2.1
  rw [h.mon]
  exact reads_fmt 2 t.m (by omega)

theorem d_reads : Reads 2 (fmtD tm) t.d := by
  unfold fmtD
  have h1 := hv.2.2.2.2.2
  have := monthLen_le t.y t.m
  rw [h.mday]
  exact reads_fmt 2 t.d (by omega)

theorem j_reads : Reads 3 (fmtJ tm) (ordinal t) := by
  unfold fmtJ
  have h1 := ordinal_range hv
  have h2 : ((tm.yday + 1 : Nat) : Int) = ordinal t := by push_cast; rw [h.yday]; rfl
  exact reads_cast (reads_fmt 3 (tm.yday + 1) (by omega)) rfl h2

end answers

theorem fits_of {max w : Nat} {b : List Nat} {n : Int} (h : Reads w b n) (hm : w < max) : fits max b = some b := by
  unfold fits; rw [if_pos (by have := h.1; omega)]

theorem hms_reads (tm : Tm) (secs : Nat) (h1 : tm.hour * 3600 + tm.min * 60 + tm.sec = secs) (h2 : tm.hour < 24) (h3 : tm.min < 60)
    (h4 : tm.sec < 60) : Reads 6 (fmtHMS tm) ((secs : Int) / 3600 * 10000 + secs / 60 % 60 * 100 + secs % 60) := by
  have a := reads_append (reads_append (reads_fmt 2 tm.hour (by omega)) (reads_fmt 2 tm.min (by omega))) (reads_fmt 2 tm.sec (by omega))
  exact reads_cast a rfl (by omega)

theorem z_length (tm : Tm) : (fmtZ tm).length = 5 := by simp [fmtZ, fmt_length]

/-- Everything but the day of COB_DATE is taken from the instant. -/
theorem job_hms (L : Libc) (tm : Tm) (now : Instant) (t : Date) (h : OfDay tm t) :
    OfDay { tm with hour := (L.localtime now.sec).hour, min := (L.localtime now.sec).min, sec := (L.localtime now.sec).sec } t :=
  ⟨h.year, h.mon, h.mday, h.yday, h.wday⟩

theorem current_right (tm : Tm) (t : Date) (h : OfDay tm t) (hv : t.Valid) (secs : Nat)
    (h1 : tm.hour * 3600 + tm.min * 60 + tm.sec = secs) (h2 : tm.hour < 24) (h3 : tm.min < 60) (h4 : tm.sec < 60) (now : Instant)
    (hu : now.usec < 1000000) : RightAnswer t secs now.usec .currentDate (.text (currentDate tm now)) := by
  have ry := y4_reads h hv
  have rm := m_reads h hv
  have rd := d_reads h hv
  have rt := hms_reads tm secs h1 h2 h3 h4
  have rc := reads_fmt 2 (now.usec / 10000) (by omega)
  have ymd := reads_append (reads_append ry rm) rd
  have tod := reads_append rt rc
  have lz := z_length tm
  unfold currentDate fits
  rw [if_pos (by simp [ry.1, rm.1, rd.1, rt.1, lz])]
  simp only [Option.map_some, RightAnswer]
  have l8 : (fmtY4 tm ++ fmtM tm ++ fmtD tm).length = 8 := ymd.1
  have e1 : (fmtY4 tm ++ fmtM tm ++ fmtD tm ++ fmtHMS tm ++ [48, 48] ++ fmtZ tm).take 14 = fmtY4 tm ++ fmtM tm ++ fmtD tm ++ fmtHMS tm := by
    rw [List.append_assoc _ [48, 48], List.take_left' (by rw [List.length_append, l8, rt.1])]
  have e2 : (fmtY4 tm ++ fmtM tm ++ fmtD tm ++ fmtHMS tm ++ [48, 48] ++ fmtZ tm).drop 16 = fmtZ tm := by
    rw [List.drop_left' (by rw [List.length_append, List.length_append, l8, rt.1]; rfl)]
  rw [e1, e2]
  have l14 : (fmtY4 tm ++ fmtM tm ++ fmtD tm ++ fmtHMS tm).length = 14 := by rw [List.length_append, l8, rt.1]
  refine ⟨by rw [List.length_append, List.length_append, l14, rc.1, lz], ?_, ?_, ?_⟩
  · rw [List.append_assoc, List.append_assoc, List.take_left' l8]
    exact reads_cast ymd rfl (by simp only [Date.yyyymmdd]; ring)
  · rw [List.append_assoc, List.append_assoc, List.drop_left' l8, ← List.append_assoc, List.take_left' (by rw [List.length_append, rt.1, rc.1])]
    exact reads_cast tod rfl (by push_cast; ring)
  · rw [List.getElem?_append_right (by rw [List.length_append, l14, rc.1]), List.length_append, l14, rc.1]
    unfold fmtZ
    simp only [Nat.reduceAdd, Nat.sub_self, List.getElem?_cons_zero, Option.some.injEq]
    split <;> simp

/-- A question is answered rightly when the day taken is `t`. -/
theorem ask_right (L : Libc) {day : Int → Date} {secs : Int → Nat} (ok : LibcOk L day secs) (job : Option Tm) (now : Instant)
    (he : Era now.sec) (hu : now.usec < 1000000) (t : Date) (hv : t.Valid)
    (hj : match (generalizing := false) job with | some tm => OfDay tm t | none => t = day now.sec) (q : Ask) :
    RightAnswer t (secs now.sec) now.usec q (ask L job now q).2 ∧
      (match (generalizing := false) (ask L job now q).1, job with | some tm, some _ => OfDay tm t | none, none => True | _, _ => False) := by
  obtain ⟨t1, t2, t3, t4⟩ := ok.time _ he
  have hday : OfDay (jobOrCurrent L job now) t := by
    cases job with
    | none => simp only at hj; subst hj; exact ok.localtime _ he
    | some tm => exact hj
  have hsame : match (generalizing := false) job, job with | some tm, some _ => OfDay tm t | none, none => True | _, _ => False := by
    cases job with
    | none => trivial
    | some tm => exact hj
  have hloc : OfDay (cobLocaltime L job now).2 t ∧
      (cobLocaltime L job now).2.hour * 3600 + (cobLocaltime L job now).2.min * 60 + (cobLocaltime L job now).2.sec = secs now.sec ∧
      (cobLocaltime L job now).2.hour < 24 ∧ (cobLocaltime L job now).2.min < 60 ∧ (cobLocaltime L job now).2.sec < 60 ∧
      (match (generalizing := false) (cobLocaltime L job now).1, job with
        | some tm, some _ => OfDay tm t | none, none => True | _, _ => False) := by
    cases job with
    | none => simp only at hj; subst hj; exact ⟨ok.localtime _ he, t1, t2, t3, t4, trivial⟩
    | some tm => exact ⟨job_hms L tm now t hj, t1, t2, t3, t4, job_hms L tm now t hj⟩
  obtain ⟨c1, c2, c3, c4, c5, c6⟩ := hloc
  have ry2 := y2_reads hday hv
  have ry4 := y4_reads hday hv
  have rm := m_reads hday hv
  have rd := d_reads hday hv
  have rj := j_reads hday hv
  cases q with
  | date =>
    refine ⟨?_, hsame⟩
    have r := reads_append (reads_append ry2 rm) rd
    simp only [ask, acceptDate, fits_of r (by decide : 2 + 2 + 2 < 7), RightAnswer]
    refine reads_cast r rfl ?_
    have a := hv.2.2.2.1
    have b := hv.2.2.2.2.2
    have := monthLen_le t.y t.m
    simp only [Date.yyyymmdd]
    omega
  | dateLong =>
    refine ⟨?_, hsame⟩
    have r := reads_append (reads_append ry4 rm) rd
    simp only [ask, acceptDateLong, fits_of r (by decide : 4 + 2 + 2 < 9), RightAnswer]
    exact reads_cast r rfl (by simp only [Date.yyyymmdd]; ring)
  | day =>
    refine ⟨?_, hsame⟩
    have r := reads_append ry2 rj
    simp only [ask, acceptDay, fits_of r (by decide : 2 + 3 < 6), RightAnswer]
    exact reads_cast r rfl (by ring)
  | dayLong =>
    refine ⟨?_, hsame⟩
    have r := reads_append ry4 rj
    simp only [ask, acceptDayLong, fits_of r (by decide : 4 + 3 < 8), RightAnswer]
    exact reads_cast r rfl (by ring)
  | dayOfWeek =>
    refine ⟨?_, hsame⟩
    have hw := hday.wday
    simp only [ask, acceptDayOfWeek, RightAnswer]
    by_cases h0 : (jobOrCurrent L job now).wday = 0
    · rw [if_pos h0]
      refine ⟨7, ⟨rfl, by decide, by decide⟩, by decide, by decide, ?_⟩
      omega
    · rw [if_neg h0]
      refine ⟨(jobOrCurrent L job now).wday, ⟨rfl, ?_, ?_⟩, by omega, by omega, by omega⟩
      · intro c hc
        simp only [List.mem_singleton] at hc
        omega
      · simp [shown, digitsVal]
  | time =>
    refine ⟨?_, hsame⟩
    have rt := hms_reads (L.localtime now.sec) _ t1 t2 t3 t4
    have rc := reads_fmt 2 (now.usec / 10000) (by omega)
    simp only [ask, acceptTime, fits]
    rw [if_pos (by simp [rt.1])]
    simp only [Option.map_some, RightAnswer]
    rw [List.take_left' rt.1, List.drop_of_length_le (by simp [rt.1]), List.append_nil]
    exact reads_cast (reads_append rt rc) rfl (by push_cast; ring)
  | currentDate =>
    simp only [ask]
    exact ⟨current_right _ t c1 hv _ c2 c3 c4 c5 now hu, c6⟩
  | secondsPastMidnight =>
    simp only [ask, RightAnswer]
    exact ⟨by exact_mod_cast c2, c6⟩
  | thisYear =>
    simp only [ask, RightAnswer]
    refine ⟨?_, c6⟩
    have := c1.year
    omega

/-! ### COB_DATE -/

theorem takeWhile_digits (l rest : List Nat) (h : ∀ c ∈ l, 48 ≤ c ∧ c ≤ 57) (hr : ∀ c ∈ rest.head?, ¬ (48 ≤ c ∧ c ≤ 57)) :
    (l ++ rest).takeWhile isDigit = l := by
  induction l with
  | nil =>
    cases rest with
    | nil => rfl
    | cons c r =>
      have := hr c rfl
      rw [List.nil_append, List.takeWhile_cons, if_neg (by simp [isDigit]; omega)]
  | cons a l ih =>
    have := h a (by simp)
    rw [List.cons_append, List.takeWhile_cons, if_pos (by simp [isDigit]; omega), ih (fun c hc => h c (by simp [hc]))]

theorem scanInt_digits (l rest : List Nat) (hne : l ≠ []) (h : ∀ c ∈ l, 48 ≤ c ∧ c ≤ 57) (hr : ∀ c ∈ rest.head?, ¬ (48 ≤ c ∧ c ≤ 57)) :
    scanInt (l ++ rest) = some (shown l, rest) := by
  have e0 : (l ++ rest).dropWhile isSpace = l ++ rest := by
    cases l with
    | nil => exact absurd rfl hne
    | cons a l =>
      have := h a (by simp)
      rw [List.cons_append, List.dropWhile_cons, if_neg (by simp [isSpace]; omega)]
  have e1 : (l ++ rest).head? ≠ some 45 ∧ (l ++ rest).head? ≠ some 43 := by
    cases l with
    | nil => exact absurd rfl hne
    | cons a l =>
      have := h a (by simp)
      simp; omega
  unfold scanInt
  dsimp only
  rw [e0]
  simp only [e1.1, e1.2, or_self, if_false]
  rw [takeWhile_digits l rest h hr, if_neg hne, List.drop_left]
  rfl

theorem scanDate_written (t : Date) (s : List Nat) (h : DateWritten t s) : scanDate s = some ((t.y : Int), (t.m : Int), (t.d : Int)) := by
  obtain ⟨y, m, d, rest, rfl, hl, hr, hy, hm, hd⟩ := h
  have h47 : ∀ r : List Nat, ∀ c ∈ ([47] ++ r).head?, ¬ (48 ≤ c ∧ c ≤ 57) := by
    intro r c hc
    simp at hc
    omega
  obtain ⟨ny, dy⟩ := hl y (by simp)
  obtain ⟨nm, dm⟩ := hl m (by simp)
  obtain ⟨nd, dd⟩ := hl d (by simp)
  have e1 := scanInt_digits y ([47] ++ (m ++ ([47] ++ (d ++ rest)))) ny dy (h47 _)
  have e2 := scanInt_digits m ([47] ++ (d ++ rest)) nm dm (h47 _)
  have e3 := scanInt_digits d rest nd dd hr
  unfold scanDate
  simp only [List.append_assoc] at *
  rw [e1]
  simp only [Option.bind_eq_bind, Option.bind_some]
  simp only [scanSlash, List.cons_append, List.nil_append, List.head?_cons, if_true, List.tail_cons, Option.bind_some]
  rw [show m ++ 47 :: (d ++ rest) = m ++ ([47] ++ (d ++ rest)) from rfl, e2]
  simp only [Option.bind_some, List.cons_append, List.nil_append, List.head?_cons, if_true, List.tail_cons]
  rw [e3, hy, hm, hd]
  rfl

end Cob.Clock
