import Verif.Move.National
/-
C73: text in NATIONAL items.  Specification: the characters of a Shift_JIS text, their full-width
forms, and the code of a full-width character, written from JIS X 0201, JIS X 0208 and the
Shift_JIS encoding of them; nothing here uses the tables of the model.
-/
namespace Cob

/-- Row 1 of JIS X 0208: the 94 signs, in the order of their cells. -/
def jisSigns : List Char :=
  "　、。，．・：；？！゛゜´｀¨＾￣＿ヽヾゝゞ〃仝々〆〇ー―‐／＼〜‖｜…‥‘’“”（）〔〕［］｛｝〈〉《》「」『』【】＋－±×÷＝≠＜＞≦≧∞∴♂♀°′″℃￥＄￠￡％＃＆＊＠§☆★○●◎◇".toList

/-- The row and cell of a full-width sign, digit, Latin letter or katakana in JIS X 0208. -/
def jisCell (c : Char) : Nat × Nat :=
  if '０' ≤ c ∧ c ≤ '９' then (3, 16 + (c.toNat - '０'.toNat))
  else if 'Ａ' ≤ c ∧ c ≤ 'Ｚ' then (3, 33 + (c.toNat - 'Ａ'.toNat))
  else if 'ａ' ≤ c ∧ c ≤ 'ｚ' then (3, 65 + (c.toNat - 'ａ'.toNat))
  else if 'ァ' ≤ c ∧ c ≤ 'ヶ' then (5, 1 + (c.toNat - 'ァ'.toNat))
  else (1, jisSigns.idxOf c + 1)

/-- The two bytes of the character in row `k`, cell `t` in Shift_JIS. -/
def sjisBytes (p : Nat × Nat) : List Nat :=
  [(if p.1 ≤ 62 then 0x81 else 0xC1) + (p.1 - 1) / 2,
   if p.1 % 2 = 1 then p.2 + 0x3F + (if 64 ≤ p.2 then 1 else 0) else p.2 + 0x9E]

/-- The half-width characters: the printing characters of ASCII, and the half-width katakana. -/
def halfChar (code : Nat) : Char :=
  if code < 0x80 then Char.ofNat code else Char.ofNat ('｡'.toNat + (code - 0xA1))

/-- The full-width form of a half-width character. -/
def fullForm (c : Char) : Char :=
  if c = ' ' then '　' else if c = '"' then '”' else if c = '\'' then '’' else if c = '`' then '‘'
  else if c = '\\' then '￥' else if c = '~' then '〜'
  else if c.toNat < 0x7F then Char.ofNat (c.toNat + 0xFEE0)
  else "。「」、・ヲァィゥェォャュョッーアイウエオカキクケコサシスセソタチツテトナニヌネノハヒフヘホマミムメモヤユヨラリルレロワン゛゜".toList.getD
    (c.toNat - '｡'.toNat) ' '

/-- The letter a half-width letter and a following half-width sound mark stand for. -/
def soundMark (c m : Char) : Option Char :=
  if m = 'ﾞ' then
    (("ｳｶｷｸｹｺｻｼｽｾｿﾀﾁﾂﾃﾄﾊﾋﾌﾍﾎ".toList).zip ("ヴガギグゲゴザジズゼゾダヂヅデドバビブベボ".toList)).lookup c
  else if m = 'ﾟ' then (("ﾊﾋﾌﾍﾎ".toList).zip ("パピプペポ".toList)).lookup c
  else none

/-- A character of a sending item: half-width (with its one-byte code), full-width (row and cell),
or a control character. -/
inductive HChar where
  | half (code : Nat)
  | wide (row cell : Nat)
  | ctl (code : Nat)
deriving DecidableEq, Repr

/-- Characters that exist. -/
def HChar.Ok : HChar → Prop
  | .half c => (0x20 ≤ c ∧ c ≤ 0x7E) ∨ (0xA1 ≤ c ∧ c ≤ 0xDF)
  | .wide k t => (1 ≤ k ∧ k ≤ 94) ∧ (1 ≤ t ∧ t ≤ 94)
  | .ctl c => 1 ≤ c ∧ c ≤ 0x1F

/-- The bytes of a character in the sending item. -/
def HChar.code : HChar → List Nat
  | .half c => [c]
  | .wide k t => sjisBytes (k, t)
  | .ctl c => [c]

/-- The bytes of a text in the sending item. -/
def textCode (t : List HChar) : List Nat := (t.map HChar.code).flatten

/-- The bytes of a national text. -/
def natCode (t : List (Nat × Nat)) : List Nat := (t.map sjisBytes).flatten

/-- The text in full-width characters: half-width characters are replaced by their full-width
forms, a half-width letter with a sound mark by one letter, and a control character by a space. -/
def widened : List HChar → List (Nat × Nat)
  | [] => []
  | .wide k t :: r => (k, t) :: widened r
  | .ctl _ :: r => jisCell '　' :: widened r
  | [.half c] => [jisCell (fullForm (halfChar c))]
  | .half c :: .half m :: r =>
    match soundMark (halfChar c) (halfChar m) with
    | some v => jisCell v :: widened r
    | none => jisCell (fullForm (halfChar c)) :: widened (.half m :: r)
  | .half c :: h :: r => jisCell (fullForm (halfChar c)) :: widened (h :: r)

/-- The content of a NATIONAL item of `n` characters after the text `t` was moved to it. -/
def natFitted (just : Bool) (n : Nat) (t : List (Nat × Nat)) : List (Nat × Nat) :=
  if just then List.replicate (n - t.length) (jisCell '　') ++ t.drop (t.length - n)
  else t.take n ++ List.replicate (n - t.length) (jisCell '　')

/-- The content of a NATIONAL-EDITED item whose picture symbols are `cs`: the characters of the
text go to the `N` positions in turn, and the inserted characters between them; `N` positions
for which there is no character are spaces. -/
def NatEditedBy (cs : List Nat) (t out : List (Nat × Nat)) : Prop :=
  out.length = cs.length ∧
  ∀ (i : Nat) (c : Nat), cs[i]? = some c →
    (c = 78 → out[i]? = some (t.getD ((cs.take i).count 78) (jisCell '　'))) ∧
    (c = 47 → out[i]? = some (jisCell '／')) ∧
    (c = 66 → out[i]? = some (jisCell '　')) ∧
    (c = 48 → out[i]? = some (jisCell '０'))

end Cob
