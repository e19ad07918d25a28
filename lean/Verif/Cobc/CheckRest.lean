import Verif.Cobc.CheckItems
/-
C75, continued: figurative constants, literals of the other class, edited receivers, text for numeric items.
-/
namespace Cob

/-- The receivers that take figurative SPACE: all but numeric ones, and numeric edited ones only by a VALUE clause. -/
def TakesSpace (isValue : Bool) : MvCat → Prop
  | .numeric => False
  | .numericEdited => isValue = true
  | .alphabetic | .alphanumeric | .alphanumericEdited | .national | .nationalEdited => True

/-- The receivers that take figurative ZERO: all but alphabetic ones. -/
def TakesZero : MvCat → Prop
  | .alphabetic => False
  | .numeric | .numericEdited | .alphanumeric | .alphanumericEdited | .national | .nationalEdited => True

/-- **C75.** SPACE is refused exactly for receivers that cannot take it, and so is ZERO; there is no other message. -/
theorem C75_figurative (isValue : Bool) (dst : MvItem) :
    (checkFig isValue true dst = [] ↔ TakesSpace isValue dst.cat) ∧ (checkFig isValue false dst = [] ↔ TakesZero dst.cat) ∧
    (∀ space m, m ∈ checkFig isValue space dst → m = .invalid) := by
  refine ⟨?_, ?_, ?_⟩
  · unfold checkFig
    cases h : dst.cat <;> cases isValue <;> simp [TakesSpace]
  · unfold checkFig
    cases h : dst.cat <;> simp [TakesZero]
  · intro space m hm
    unfold checkFig at hm
    split at hm <;> split at hm <;> simp_all

example : checkFig false true { cat := .numericEdited } = [.invalid] ∧ checkFig true true { cat := .numericEdited } = [] ∧
    checkFig false true { cat := .numeric } = [.invalid] ∧ checkFig true false { cat := .alphabetic } = [.invalid] := by
  decide +kernel

/-- The receivers of a number. -/
def ForNumbers : MvCat → Prop
  | .numeric | .numericEdited => True
  | .alphabetic | .alphanumeric | .alphanumericEdited | .national | .nationalEdited => False

/-- **C75.** A numeric literal for a receiver that is not for numbers is never accepted in silence, and it is refused exactly if
it is for an alphabetic item or has decimals - in a MOVE; VALUE is only warned about.  With ALL it is refused for every
receiver. -/
theorem C75_number_for_text (isValue : Bool) (l : NumLit) (dst : MvItem) (h : ¬ ForNumbers dst.cat) :
    (∃ m, checkNumLit isValue l false dst = [m] ∧ m ≠ .mismatch) ∧
    (MvMsg.invalid ∈ checkNumLit isValue l false dst ↔ isValue = false ∧ (dst.cat = .alphabetic ∨ l.scale ≠ 0)) ∧
    checkNumLit isValue l true dst = [.invalid] := by
  unfold checkNumLit
  cases hc : dst.cat <;> simp only [hc, ForNumbers, not_true_eq_false] at h <;> cases isValue <;>
    by_cases hz : l.scale = 0 <;> simp [hz]

/-- `MOVE 12 TO X` warns, `MOVE 1.5 TO X` is refused, `VALUE 1.5` warns. -/
example : let x : MvItem := { cat := .alphanumeric, size := 9 }
    checkNumLit false { data := [49, 50], sign := 0, scale := 0 } false x = [.expectAlphanumeric] ∧
    checkNumLit false { data := [49, 53], sign := 0, scale := 1 } false x = [.invalid] ∧
    checkNumLit true { data := [49, 53], sign := 0, scale := 1 } false x = [.expectAlphanumeric] := by
  decide +kernel

/-- **C75.** A text literal for a numeric item always gives a message, and so does one for a numeric edited item unless it is its
VALUE; its VALUE is accepted exactly if it fits. A national literal is refused for both. -/
theorem C75_text_for_number (isValue : Bool) (l : TextLit) (dst : MvItem) (h : ForNumbers dst.cat) :
    (checkTextLit isValue l dst = [] ↔
      dst.cat = .numericEdited ∧ isValue = true ∧ l.national = false ∧ l.data.length ≤ dst.size) ∧
    (MvMsg.invalid ∈ checkTextLit isValue l dst ↔ l.national = true) := by
  unfold checkTextLit
  cases hc : dst.cat <;> simp only [hc, ForNumbers] at h <;> cases isValue <;> cases hn : l.national <;> simp

example : checkTextLit true { data := [65], national := false } { cat := .numericEdited, size := 3 } = [] ∧
    checkTextLit false { data := [65], national := false } { cat := .numericEdited, size := 3 } = [.expectNumeric] := by decide +kernel

/-- The picture written out, one symbol a place. -/
def picSymbols (str : List (Nat × Nat)) : List Nat := str.flatMap (fun p => List.replicate p.2 p.1)

/-- The places of an edited picture that take a character of the sender: `9`, `A` and `X`. -/
def TakesChar (c : Nat) : Prop := c = '9'.toNat ∨ c = 'A'.toNat ∨ c = 'X'.toNat

instance (c : Nat) : Decidable (TakesChar c) := by unfold TakesChar; infer_instance

theorem countPlaces_run : ∀ (str : List (Nat × Nat)) (n : Nat),
    str.foldl (fun n p => if p.1 = 57 ∨ p.1 = 65 ∨ p.1 = 88 then n + p.2 else n) n =
      n + (picSymbols str).countP (fun c => decide (TakesChar c))
  | [], n => by simp [picSymbols]
  | p :: str, n => by
    rw [List.foldl_cons, countPlaces_run str]
    have e : picSymbols (p :: str) = List.replicate p.2 p.1 ++ picSymbols str := rfl
    have k : TakesChar p.1 ↔ (p.1 = 57 ∨ p.1 = 65 ∨ p.1 = 88) := Iff.rfl
    rw [e, List.countP_append, List.countP_replicate]
    by_cases h : p.1 = 57 ∨ p.1 = 65 ∨ p.1 = 88
    · rw [if_pos h, if_pos (by simpa using k.2 h)]; omega
    · rw [if_neg h, if_neg (by simpa using fun h' => h (k.1 h'))]; omega

theorem countPlaces_eq (it : MvItem) : countPlaces it = (picSymbols it.str).countP (fun c => decide (TakesChar c)) := by
  unfold countPlaces
  rw [countPlaces_run]
  omega

/-- **C75.** A text or edited item for an alphanumeric edited item: the compiler is silent exactly when the sender has at most as
many characters as the picture of the receiver has places for characters. -/
theorem C75_edited (strict : Bool) (src dst : MvItem) (hg : src.group = false ∧ dst.group = false)
    (hd : dst.cat = .alphanumericEdited) (hs : src.cat ≠ .numeric) :
    checkItem strict src dst = [] ↔ src.size ≤ (picSymbols dst.str).countP (fun c => decide (TakesChar c)) := by
  have hl : ∀ a b, lengthCheck a b = [] ↔ a ≤ b := by
    intro a b; unfold lengthCheck; split
    · simp; omega
    · simp; omega
  rw [← countPlaces_eq]
  unfold checkItem
  rw [hg.1, hg.2, hd]
  cases hc : src.cat <;> simp_all

/-- PIC XXBXX has four places for characters. -/
example : let d : MvItem := { cat := .alphanumericEdited, size := 5, str := [(88, 2), (66, 1), (88, 2)] }
    (picSymbols d.str).countP (fun c => decide (TakesChar c)) = 4 ∧
    checkItem false { cat := .alphanumeric, size := 4 } d = [] ∧
    checkItem false { cat := .alphanumeric, size := 5 } d = [.sendingLarger] := by decide +kernel

/-- **C75.** An alphanumeric item for a numeric or numeric edited item: silent exactly when it has no more characters than the
receiver has digits.  A numeric item without decimals for an alphanumeric item, edited or not: silent exactly when the receiver
has a place for each digit. A numeric edited item for an alphanumeric item: silent exactly when its characters fit. -/
theorem C75_crossing (strict : Bool) (src dst : MvItem) (hg : src.group = false ∧ dst.group = false) :
    (src.cat = .alphanumeric → ForNumbers dst.cat → (checkItem strict src dst = [] ↔ (src.size : Int) ≤ dst.digits)) ∧
    (src.cat = .numeric → src.scale ≤ 0 → dst.cat = .alphanumeric →
      (checkItem strict src dst = [] ↔ src.digits ≤ dst.size)) ∧
    (src.cat = .numeric → src.scale ≤ 0 → dst.cat = .alphanumericEdited →
      (checkItem strict src dst = [] ↔ src.digits ≤ (picSymbols dst.str).countP (fun c => decide (TakesChar c)))) ∧
    (src.cat = .numericEdited → dst.cat = .alphanumeric → (checkItem strict src dst = [] ↔ src.size ≤ dst.size)) := by
  rw [← countPlaces_eq]
  refine ⟨?_, ?_, ?_, ?_⟩
  · intro h1 h2
    unfold checkItem
    rw [hg.1, hg.2, h1]
    cases hc : dst.cat <;> simp_all [ForNumbers]
  · intro h1 h2 h3
    unfold checkItem
    rw [hg.1, hg.2, h1, h3]
    simp [show ¬ 0 < src.scale by omega]
  · intro h1 h2 h3
    unfold checkItem
    rw [hg.1, hg.2, h1, h3]
    simp [show ¬ 0 < src.scale by omega]
  · intro h1 h3
    unfold checkItem lengthCheck
    rw [hg.1, hg.2, h1, h3]
    simp

example : checkItem false { cat := .alphanumeric, size := 3 } { cat := .numeric, digits := 3 } = [] ∧
    checkItem false { cat := .alphanumeric, size := 4 } { cat := .numeric, digits := 3 } = [.digitsLost] ∧
    checkItem false { cat := .numeric, digits := 4 } { cat := .alphanumeric, size := 3 } = [.digitsLost] := by decide +kernel

end Cob
