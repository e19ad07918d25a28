import Verif.Cobc.ReplaceProps
/-
C64: examples and findings.
-/
namespace Cob

def tk (s : String) : Tok := s.toList.map Char.toNat

def tks (l : List String) : List Tok := l.map tk

/-- `REPLACING ==A B== BY ==X== LEADING ==PRE-== BY ==P-== TRAILING ==-OLD== BY ==-NEW==`. -/
def rpRules : List RRule :=
  [⟨.other, tks ["A", " ", "B"], tks ["X", " ", "Y"]⟩, ⟨.leading, tks ["PRE-"], tks ["P-"]⟩,
   ⟨.trailing, tks ["-OLD"], tks ["-NEW"]⟩]

/-- The hypotheses of `C64_replace`. -/
example : rpRules ≠ [] ∧ ∀ r ∈ rpRules, r.WF := by
  refine ⟨by simp [rpRules], fun r hr => ⟨?_, ?_⟩⟩
  · simp only [rpRules, List.mem_cons, List.not_mem_nil, or_false] at hr
    rcases hr with rfl | rfl | rfl <;> decide +kernel
  · simp only [rpRules, List.mem_cons, List.not_mem_nil, or_false] at hr
    rcases hr with rfl | rfl | rfl
    · simp
    · simp
    · exact fun _ => ⟨tk "-OLD", [], rfl, by decide +kernel⟩

def rpText (rules : List RRule) (l : List String) : Option (List Tok × List Tok) :=
  (ppechoAll rules [] (tks l)).map fun p => (p.1.map REv.text, p.2)

/-- `move a   b to pre-x f-old A` (the last word is held back). -/
example : rpText rpRules ["move", " ", "a", " ", " ", "b", " ", "to", " ", "pre-x", " ", "f-old", " ", "A"] =
    some (tks ["move", " ", "X", " ", "Y", " ", "to", " ", "P-", "x", " ", "f", "-NEW", " "], tks ["A"]) := by
  decide +kernel

/-- The hypotheses of `C64_single_words`. -/
example : ∀ r ∈ rpRules.drop 1, r.kind = .other → (wordsOf r.old).length = 1 := by
  intro r hr
  simp only [rpRules, List.drop, List.mem_cons, List.not_mem_nil, or_false] at hr
  rcases hr with rfl | rfl <;> simp

/-- The hypotheses of `C64_two_stages`: `B` by `A`, then `A C` by `D`. -/
example : (∀ r ∈ [(⟨.other, tks ["B"], tks ["A"]⟩ : RRule)], r.kind ≠ .trailing) ∧
    ppechoText [⟨.other, tks ["B"], tks ["A"]⟩] [⟨.other, tks ["A", " ", "C"], tks ["D"]⟩] ⟨[], [], []⟩ (tks ["B", " ", "C", "."]) =
      some ⟨[], [], tks ["D", "."]⟩ := by
  refine ⟨by simp, by decide +kernel⟩

/-! ### Findings -/

/-- `REPLACING ==MOVE C== BY ==ADD D== B BY X`: the text `MOVE B` becomes `MOVEX`, one word: the space was queued behind MOVE
and is skipped in the comparison with B. -/
theorem C64_finding_words_joined :
    rpText [⟨.other, tks ["MOVE", " ", "C"], tks ["ADD", " ", "D"]⟩, ⟨.other, tks ["B"], tks ["X"]⟩] ["MOVE", " ", "B"] =
      some (tks ["MOVE", "X"], []) := by
  decide +kernel

/-- `REPLACE ==. EXIT== BY ...`: the last period of the program is the beginning of the old text; at the end of the input it is
dropped. -/
theorem C64_finding_end_dropped :
    (ppechoText [] [⟨.other, tks [".", " ", "EXIT"], tks ["."]⟩] ⟨[], [], []⟩ (tks ["STOP", " ", "RUN", ".", "\n"])).map ppEnd =
      some (tks ["STOP", " ", "RUN"]) := by
  decide +kernel

/-- `REPLACING ==A B== BY ==X== ==A== BY ==Y==` and a copied file that ends with `A`: behind it the list is taken away and `A`
stays, although the second pair applies to it. -/
theorem C64_finding_end_of_copy :
    let rules : List RRule := [⟨.other, tks ["A", " ", "B"], tks ["X"]⟩, ⟨.other, tks ["A"], tks ["Y"]⟩]
    ppechoAll rules [] (tks ["A"]) = some ([], tks ["A"]) ∧
    ppechoAll [] (tks ["A"]) (tks ["\n"]) = some ((tks ["A", "\n"]).map .echo, []) ∧
    Replaced rules (tks ["A"]) (tks ["\n"]) (tks ["Y"]) := by
  refine ⟨by decide +kernel, by decide +kernel, ?_⟩
  refine Replaced.repl (d := []) (o := []) (tk "A") [] [⟨.other, tks ["A", " ", "B"], tks ["X"]⟩] [] ⟨.other, tks ["A"], tks ["Y"]⟩
    (by decide +kernel) (by decide +kernel) rfl ?_ ?_ (by decide +kernel) (.nil _)
  · intro r' hr'
    simp only [List.mem_cons, List.not_mem_nil, or_false] at hr'
    subst hr'
    simp only [RRule.Applies]
    decide +kernel
  · simp only [RRule.Applies]
    decide +kernel

/-- An old text without a word (`REPLACE ==== BY ==X==`) is replaced for ever. -/
theorem C64_finding_empty_old (t : Tok) (ht : t.isSep = false) (new : List Tok) (rules : List RRule) :
    ppecho0 (⟨.other, [], new⟩ :: rules) [] t = none := by
  rw [ppecho0, if_neg (by simp [ht]), if_neg (by simp)]
  simp [drain, tryRules, tryRule, tryOther]

/-- The same for every queue and any number of rounds. -/
theorem C64_finding_empty_old_rounds (t : Tok) (q new : List Tok) (rules : List RRule) (n : Nat) :
    drain (⟨.other, [], new⟩ :: rules) n (t :: q) = none := by
  induction n with
  | zero => rfl
  | succ n ih => simp [drain, tryRules, tryRule, tryOther, ih]

/-- COPY REPLACING TRAILING writes the beginning of the word past REPLACE: with `REPLACE ==A B== BY ==X==` the texts `A N-OLD`
come out as `N A -NEW`. -/
theorem C64_finding_trailing_order :
    ppechoText [⟨.trailing, tks ["-OLD"], tks ["-NEW"]⟩] [⟨.other, tks ["A", " ", "B"], tks ["X"]⟩] ⟨[], [], []⟩
      (tks ["A", " ", "N-OLD", " "]) = some ⟨[], [], tks ["N", "A", " ", "-NEW", " "]⟩ := by
  decide +kernel

/-- A TRAILING text written with a space in front of it never applies. -/
theorem C64_finding_trailing_space :
    rpText [⟨.trailing, tks [" ", "-OLD"], tks ["-NEW"]⟩] ["F-OLD"] = some (tks ["F-OLD"], []) := by
  decide +kernel

end Cob
