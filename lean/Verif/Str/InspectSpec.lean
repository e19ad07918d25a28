import Verif.Str.Inspect
/-
Specification of INSPECT on byte strings, independent of the code model (only the syntax of the
phrases, `Region`, is shared).
-/
namespace Cob

/-- Number of occurrences of `pat` in a text, scanning from the left, without overlap; `skip`
characters at the front still belong to the previous occurrence. -/
def countAll (pat : List Nat) : (skip : Nat) → List Nat → Nat
  | _, [] => 0
  | k + 1, _ :: cs => countAll pat k cs
  | 0, c :: cs => if pat <+: c :: cs then 1 + countAll pat (pat.length - 1) cs else countAll pat 0 cs

/-- Number of contiguous occurrences of `pat` at the beginning of a text. -/
def countLeading (pat : List Nat) : (skip : Nat) → List Nat → Nat
  | _, [] => 0
  | k + 1, _ :: cs => countLeading pat k cs
  | 0, c :: cs => if pat <+: c :: cs then 1 + countLeading pat (pat.length - 1) cs else 0

/-- The text with every occurrence of `pat` (from the left, without overlap) replaced by `rep`, of the
same length; `pend` are the characters of the current replacement still to be written. -/
def replaceAll (pat rep : List Nat) : (pend : List Nat) → List Nat → List Nat
  | _, [] => []
  | p :: ps, _ :: cs => p :: replaceAll pat rep ps cs
  | [], c :: cs =>
    if pat <+: c :: cs then
      match rep with
      | [] => c :: cs
      | r :: rs => r :: replaceAll pat rep rs cs
    else c :: replaceAll pat rep [] cs

/-- The text with the contiguous occurrences of `pat` at its beginning replaced. -/
def replaceLeading (pat rep : List Nat) : (pend : List Nat) → List Nat → List Nat
  | _, [] => []
  | p :: ps, _ :: cs => p :: replaceLeading pat rep ps cs
  | [], c :: cs =>
    if pat <+: c :: cs then
      match rep with
      | [] => c :: cs
      | r :: rs => r :: replaceLeading pat rep rs cs
    else c :: cs

/-- The text with the first occurrence of `pat` replaced. -/
def replaceFirst (pat rep : List Nat) : List Nat → List Nat
  | [] => []
  | c :: cs => if pat <+: c :: cs then rep ++ (c :: cs).drop pat.length else c :: replaceFirst pat rep cs

/-- The part of a text before the first occurrence of `pat` (all of it if there is none). -/
def beforeFirst (pat : List Nat) : List Nat → List Nat
  | [] => []
  | c :: cs => if pat <+: c :: cs then [] else c :: beforeFirst pat cs

/-- The part of a text after the first occurrence of `pat` (empty if there is none). -/
def afterFirst (pat : List Nat) : List Nat → List Nat
  | [] => []
  | c :: cs => if pat <+: c :: cs then (c :: cs).drop pat.length else afterFirst pat cs

/-- The text selected by BEFORE / AFTER phrases, with what precedes and follows it. -/
def regionSplit (t : List Nat × List Nat × List Nat) : Region → List Nat × List Nat × List Nat
  | .before p =>
    let w := beforeFirst p t.2.1
    (t.1, w, t.2.1.drop w.length ++ t.2.2)
  | .after p =>
    let w := afterFirst p t.2.1
    (t.1 ++ t.2.1.take (t.2.1.length - w.length), w, t.2.2)

/-- The region of an item `d` selected by the phrases `rs`: `(prefix, region, suffix)`. -/
def regionOf (d : List Nat) (rs : List Region) : List Nat × List Nat × List Nat :=
  rs.foldl regionSplit ([], d, [])

/-- A phrase ALL in general: the text is a list of characters with, for each, the value it has been
claimed for (if any) by an earlier phrase.  Claims every occurrence of `pat` whose characters are all
unclaimed, from the left, without overlap; `pend` as in `replaceAll`.  Result: the claims afterwards
and the number of occurrences. -/
def claimAll (pat vals : List Nat) : (pend : List Nat) → List (Nat × Option Nat) → List (Option Nat) × Nat
  | _, [] => ([], 0)
  | p :: ps, _ :: cs => let r := claimAll pat vals ps cs; (some p :: r.1, r.2)
  | [], c :: cs =>
    if pat <+: (c :: cs).map Prod.fst ∧ ∀ x ∈ (c :: cs).take pat.length, x.2 = none then
      match vals with
      | [] => (c.2 :: cs.map Prod.snd, 0)
      | v :: vs => let r := claimAll pat vals vs cs; (some v :: r.1, r.2 + 1)
    else let r := claimAll pat vals [] cs; (c.2 :: r.1, r.2)

/-- CONVERTING: a character that occurs in the FROM list becomes the TO character at its first
position there. -/
def convertChar : List (Nat × Nat) → Nat → Nat
  | [], c => c
  | (f, t) :: rest, c => if c = f then t else convertChar rest c

end Cob
