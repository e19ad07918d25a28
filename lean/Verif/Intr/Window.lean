import Verif.Intr.Date
/-
Model of FUNCTION SECONDS-FROM-FORMATTED-TIME (libcob/intrinsic.c).
-/
namespace Cob.Window

/-- /repo/libcob/intrinsic.c:2849-2857: hours, minutes and seconds as far as they have been seen. -/
structure Seen where
  hours : Option Nat := none
  minutes : Option Nat := none
  seconds : Option Nat := none
deriving DecidableEq, Repr

/-- /repo/libcob/intrinsic.c:2872-2874: the two digits at the front of the value, if they are digits. -/
def twoDigits : List Nat → Option Nat
  | a :: b :: _ => if isDigit a ∧ isDigit b then some ((a - 48) * 10 + (b - 48)) else none
  | _ => none

/-- /repo/libcob/intrinsic.c:2871-2894: one turn of the loop; `p1` and `p2` are what is left of the format and the value. -/
def timeStep (s : Seen) (p1 p2 : List Nat) : Seen :=
  match p1 with
  | a :: b :: _ =>
    match (if a = 104 ∧ b = 104 ∧ s.hours = none then twoDigits p2 else none) with
    | some n => { s with hours := some n }
    | none =>
      match (if a = 109 ∧ b = 109 ∧ s.minutes = none then twoDigits p2 else none) with
      | some n => { s with minutes := some n }
      | none =>
        match (if a = 115 ∧ b = 115 ∧ s.seconds = none then twoDigits p2 else none) with
        | some n => { s with seconds := some n }
        | none => s
  | _ => s

/-- /repo/libcob/intrinsic.c:2870-2895: the loop, over all but the last character of the format. -/
def timeLoop (s : Seen) : List Nat → List Nat → Seen
  | a :: p1, p2 => if p1 = [] then s else timeLoop (timeStep s (a :: p1) p2) p1 p2.tail
  | [], _ => s

/-- /repo/libcob/intrinsic.c:2846-2904 `cob_intr_seconds_from_formatted_time`. -/
def secondsFromFormatted (format value : List Nat) : FnRes Int :=
  if value.length < format.length then ⟨0, true⟩
  else
    match timeLoop {} format value with
    | ⟨some h, some m, some s⟩ => ⟨s + (h * 3600 + m * 60), false⟩
    | _ => ⟨0, true⟩

end Cob.Window
