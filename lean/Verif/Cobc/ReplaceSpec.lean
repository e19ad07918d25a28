import Verif.Cobc.Replace
/-
Text replacement as the COBOL standard describes it: the source text is compared word by word, from left to right, with the
pairs in the order written; separators do not count in the comparison.  Only `Tok`, `Tok.isSep` and the pairs are
taken from the model.
-/
namespace Cob

/-- The words of a text: everything except separators. -/
def wordsOf (ts : List Tok) : List Tok := ts.filter fun t => !t.isSep

/-- Upper and lower case letters are the same. -/
def folded (t : Tok) : Tok := t.map fun c => if 65 ≤ c ∧ c ≤ 90 then c + 32 else c

/-- The pair applies to a text with these words. -/
def RRule.Applies (r : RRule) (ws : List Tok) : Prop :=
  match r.kind with
  | .other => (wordsOf r.old).map folded <+: ws.map folded
  | .leading => ∃ p w t, (wordsOf r.old).head? = some p ∧ ws = w :: t ∧ folded p <+: folded w
  | .trailing => ∃ p w t, (wordsOf r.old).head? = some p ∧ ws = w :: t ∧ folded p <:+ folded w

/-- The number of words replaced. -/
def RRule.size (r : RRule) : Nat :=
  match r.kind with
  | .other => (wordsOf r.old).length
  | _ => 1

/-- What stands in the place of a text that begins with the word `w`: the new text; with LEADING and TRAILING the first word
of the new text in front of or behind the rest of the word. -/
def RRule.result (r : RRule) (w : Tok) : List Tok :=
  match r.kind with
  | .other => r.new
  | .leading => (wordsOf r.new).take 1 ++ [w.drop ((wordsOf r.old).headD []).length]
  | .trailing => [w.take (w.length - ((wordsOf r.old).headD []).length)] ++ (wordsOf r.new).take 1

/-- The old text has a word; with TRAILING it begins with one. -/
def RRule.WF (r : RRule) : Prop :=
  wordsOf r.old ≠ [] ∧ (r.kind = .trailing → ∃ t ts, r.old = t :: ts ∧ t.isSep = false)

/-- `Replaced rules d later out`: the text `d`, which is followed by `later`, becomes `out`.
* a separator stays;
* a word to which no pair applies stays;
* otherwise the first pair that applies replaces the text from this word to its last word (which must lie in `d`). -/
inductive Replaced (rules : List RRule) : (d later out : List Tok) → Prop
  | nil (f : List Tok) : Replaced rules [] f []
  | sep {d f o : List Tok} (t : Tok) (ht : t.isSep = true) (h : Replaced rules d f o) : Replaced rules (t :: d) f (t :: o)
  | keep {d f o : List Tok} (w : Tok) (hw : w.isSep = false)
      (hno : ∀ r ∈ rules, ¬ r.Applies (wordsOf (w :: d ++ f))) (h : Replaced rules d f o) :
      Replaced rules (w :: d) f (w :: o)
  | repl {d f o : List Tok} (w : Tok) (mid : List Tok) (pre post : List RRule) (r : RRule) (hw : w.isSep = false)
      (hlast : (w :: mid).getLast?.any (fun t => !t.isSep) = true) (hr : rules = pre ++ r :: post)
      (hpre : ∀ r' ∈ pre, ¬ r'.Applies (wordsOf (w :: mid ++ d ++ f))) (happ : r.Applies (wordsOf (w :: mid ++ d ++ f)))
      (hsize : (wordsOf (w :: mid)).length = r.size) (h : Replaced rules d f o) :
      Replaced rules (w :: mid ++ d) f (r.result w ++ o)

/-- `out` is `full` without some of its separators. -/
def LosesSeps (out full : List Tok) : Prop := out.Sublist full ∧ wordsOf out = wordsOf full

/-- The words are the beginning, but not the whole, of the old text of a pair. -/
def Begun (rules : List RRule) (q : List Tok) : Prop :=
  ∃ r ∈ rules, r.kind = .other ∧ (wordsOf q).map folded <+: (wordsOf r.old).map folded ∧
    (wordsOf q).length < (wordsOf r.old).length

end Cob
