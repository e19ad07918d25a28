import Verif.Num.DecimalProps
import Verif.Intr.DateProps
import Verif.Io.StatusProps
import Verif.Io.LineProps
import Verif.Rt.CallProps
import Verif.Str.InspectProps
/-
Statements added because edited models (see seeded/LOG.jsonl) got past the theorems: corner
results of operations whose main statement is elsewhere.
-/
namespace Cob
open Dec

/-- C06: exponentiation of or by an undefined value is undefined. -/
theorem C06_pow_nan (d1 d2 : Dec) (h : d1.isNaN = true ∨ d2.isNaN = true) :
    ∃ r, d1.pow d2 = some r ∧ r.isNaN = true := by
  have hb : (d1.isNaN || d2.isNaN) = true := by
    rcases h with h | h <;> simp [h]
  exact ⟨⟨d1.value, nanScale⟩, by simp [pow, hb], by simp [isNaN]⟩

example : ∃ r, pow ⟨5, nanScale⟩ ⟨2, 0⟩ = some r ∧ r.isNaN = true := C06_pow_nan _ _ (Or.inl (by decide))

/-- C26: COMBINED-DATETIME refuses every day outside 1..3067671 and every second outside 1..86400:
the exception is raised and the result shows zero. -/
theorem C26_combined_refused (n s : Int) (h : n < 1 ∨ 3067671 < n ∨ s < 1 ∨ 86400 < s) :
    ∃ b, combinedDatetime n s = ⟨b, true⟩ ∧ b.length = 12 ∧ shown b = 0 := by
  have hz : shown (List.replicate 12 48) = 0 := by decide
  refine ⟨List.replicate 12 48, ?_, by simp, hz⟩
  unfold combinedDatetime
  by_cases h1 : n < 1 ∨ n > 3067671
  · rw [if_pos h1]
  · rw [if_neg h1, if_pos (by omega)]

example : (combinedDatetime 3067672 5).exc = true := by decide

/-- C36: CLOSE releases the stream: after a CLOSE (plain, WITH LOCK or WITH NO REWIND) of an open
file that exists, the stream is released and the file is closed or locked; CLOSE UNIT leaves it
open. -/
theorem C36_close (cfg : ConnCfg) (f : Conn) (m : UseMode) (opt : CloseOpt) (hsp : cfg.special = 0)
    (ho : f.mode = .opened m) (he : f.nonexistent = false) :
    let r := connClose cfg f opt
    r.touch = some f.file ∧
    match opt with
    | .normal => r.status = 0 ∧ r.conn.file = .dead ∧ r.conn.mode = .closed
    | .lock => r.status = 0 ∧ r.conn.file = .dead ∧ r.conn.mode = .locked
    | .noRewind => r.status = 7 ∧ r.conn.file = .dead ∧ r.conn.mode = .closed
    | .unit => r.status = 7 ∧ r.conn.file = f.file ∧ r.conn.mode = .opened m := by
  cases opt <;> simp [connClose, hsp, ho, he, fileClose]

example : (connClose ⟨.sequential, false, 0, false⟩ { Conn.init with mode := .opened .input, file := .live }
    .noRewind).conn.file = .dead := by decide

/-- C38: WRITE ADVANCING PAGE to a line sequential file without LINAGE writes one form feed before
(AFTER) or after (BEFORE) the record and reports success. -/
theorem C38_page (eop : Bool) (f : LsFile) (after e : Bool) (hl : f.linage = none)
    (heop : eop = false) :
    (lineseqWrite eop f ⟨after, .page, e⟩).1 = 0 ∧
    ∃ rec', (lineseqWrite eop f ⟨after, .page, e⟩).2.1 =
      if after then 12 :: (rec' ++ [10]) else rec' ++ [12] := by
  subst heop
  cases after
  · refine ⟨?_, lsBytes f.nulls (f.area.take (if f.fixedLen then f.size else lsTrim f.area f.size)), ?_⟩
    · simp [lineseqWrite, fileWriteOpt, hl]
    · simp [lineseqWrite, fileWriteOpt, hl]
  · refine ⟨?_, lsBytes f.nulls (f.area.take (if f.fixedLen then f.size else lsTrim f.area f.size)), ?_⟩
    · simp [lineseqWrite, fileWriteOpt, hl]
    · simp [lineseqWrite, fileWriteOpt, hl, newlines]

/-- C19: INSPECT REPLACING raises the size exception exactly when the replacing operand is neither a
figurative constant nor ALL and differs in length from what it replaces. -/
theorem C19_size_exception (s : Insp) (ty : CmpType) (pat rep : List Nat) (isAll : Bool) :
    (inspReplace s ty pat rep isAll).2 = true ↔ isAll = false ∧ rep.length ≠ pat.length := by
  unfold inspReplace
  by_cases h : rep.length = pat.length <;> cases isAll <;> simp [h]

example : (inspReplace (inspInit [65, 66]) .trailing [65] [66, 66] false).2 = true := by decide +kernel

end Cob
