import Verif.Move.EditedSpec
/-
Specification of PICTURE strings: a string stands for its expansion, in which every repetition
factor is written out; everything else is counted on the expansion.
-/
namespace Cob

/-- The expansion of a PICTURE string: `(n)` repeats the symbol in front of it, which then stands
there `n` times.  `acc` is the expansion so far, `pend` the factor read so far. -/
def expandStr : (acc : List Nat) → (pend : Option Nat) → List Nat → Option (List Nat)
  | acc, none, [] => some acc
  | _, some _, [] => none
  | acc, none, c :: rest =>
    if c = 40 then if acc = [] then none else expandStr acc (some 0) rest
    else if c = 41 then none
    else expandStr (acc ++ [c]) none rest
  | acc, some v, c :: rest =>
    if 48 ≤ c ∧ c ≤ 57 then expandStr acc (some (10 * v + (c - 48))) rest
    else if c = 41 then
      if v = 0 then none else expandStr (acc ++ List.replicate (v - 1) (acc.getLastD 0)) none rest
    else none

/-- '9', 'Z', '*', 'P'. -/
def picPlace (c : Nat) : Bool := c == 57 || c == 90 || c == 42 || c == 80

/-- '+', '-'. -/
def picSignSym (c : Nat) : Bool := c == 43 || c == 45

/-- 'V' or the decimal point. -/
def picPointSym (env : EditEnv) (c : Nat) : Bool := c == 86 || c == env.dp

/-- The digits: the digit places, and the signs and currency symbols except the first of each. -/
def picDigits (env : EditEnv) (E : List Nat) : Nat :=
  E.countP picPlace + (E.countP picSignSym - 1) + (E.count env.cur - 1)

/-- The expansion without 'S'. -/
def picNoS (E : List Nat) : List Nat := E.filter (· != 83)

/-- The position of the decimal point: at 'V' or the decimal point, at the left if the PICTURE begins with 'P',
at the right otherwise. -/
def picPointPos (env : EditEnv) (A : List Nat) : Nat :=
  if A.head? = some 80 then 0 else A.findIdx (picPointSym env)

/-- The scale: the digit places ('P' included) to the right of the decimal point, minus the 'P's to the left. -/
def picScaleA (env : EditEnv) (A : List Nat) : Int :=
  ((A.drop (picPointPos env A)).countP picPlace : Int) - ((A.take (picPointPos env A)).count 80 : Nat)

def picScale (env : EditEnv) (E : List Nat) : Int := picScaleA env (picNoS E)

/-- '0', 'B', '/'. -/
def picInsert (c : Nat) : Bool := c == 48 || c == 66 || c == 47

/-- The bytes of the item: one for each symbol except 'S', 'V' and 'P' (so two for CR and DB), two
for 'N', and in a national edited item also for the inserted characters. -/
def picSize (natEd : Bool) (E : List Nat) : Nat :=
  E.countP (fun c => c != 83 && c != 86 && c != 80) + E.count 78 + if natEd then E.countP picInsert else 0

/-- The PICTURE has a sign. -/
def picSigned (E : List Nat) : Bool := E.any fun c => c == 83 || c == 43 || c == 45 || c == 67 || c == 68

/-- The PICTURE as the runtime gets it: without 'S', 'C' for CR and 'D' for DB. -/
def picBody (E : List Nat) : List Nat :=
  if [67, 82] <:+ E ∨ [68, 66] <:+ E then picNoS E.dropLast else picNoS E

/-- The number of characters to which the limits apply. -/
def picLen (env : EditEnv) (E : List Nat) : Nat :=
  E.countP (fun c => c == 65 || c == 88 || c == 78 || picPlace c || picInsert c) + (E.countP picSignSym - 1) + (E.count env.cur - 1)

/-- The currency symbol is none of the other symbols. -/
def PicEnvOk (env : EditEnv) : Prop :=
  (env.dp = 46 ∨ env.dp = 44) ∧
  env.cur ∉ [0, 40, 41, 42, 43, 44, 45, 46, 47, 48, 57, 65, 66, 67, 68, 78, 80, 82, 83, 86, 88, 90]

/-- The category of an item, by the symbols of its PICTURE. -/
inductive PicClass where
  | alphabetic | numeric | alphanumeric | national | numericEdited | alphanumericEdited | nationalEdited
deriving DecidableEq, Repr

def picClass (E : List Nat) : PicClass :=
  if E.all (· == 65) then .alphabetic
  else if E.all fun c => [57, 83, 86, 80].contains c then .numeric
  else if E.all fun c => [65, 88, 57, 83, 86, 80].contains c then .alphanumeric
  else if E.all (· == 78) then .national
  else if E.all fun c => [78, 48, 66, 47].contains c then (if E.contains 78 then .nationalEdited else .alphanumericEdited)
  else if E.contains 65 || E.contains 88 then .alphanumericEdited
  else .numericEdited

/-- The limits: 36 digits, 160 characters of a numeric-edited item, the configured number of characters of the
others. -/
def picWithin (env : EditEnv) (alpha sjis : Int) (E : List Nat) : Prop :=
  match picClass E with
  | .numeric => picDigits env E ≤ 36
  | .numericEdited => picLen env E ≤ 160
  | .national => (picLen env E : Int) ≤ sjis
  | .nationalEdited => (picLen env E : Int) ≤ sjis
  | _ => (picLen env E : Int) ≤ alpha

/-- A proper PICTURE without 'P': `str` is the string, `cs` its expansion without CR or DB, which is `tail`. -/
structure GoodPic (env : EditEnv) (alpha sjis : Int) (str cs tail : List Nat) : Prop where
  short : str.length ≤ 50
  expands : expandStr [] none str = some (cs ++ tail)
  syms : ∀ c ∈ cs, c ∈ [65, 88, 57, 78, 83, 44, 46, 86, 48, 66, 47, 42, 90, 43, 45] ∨ c = env.cur
  ending : tail = [] ∨ ((tail = [67, 82] ∨ tail = [68, 66]) ∧ tail <:+ str)
  /-- 'S' is the first symbol, of a number -/
  sign : 83 ∈ cs → tail = [] ∧ ∃ r, cs = 83 :: r ∧ ∀ c ∈ r, c = 57 ∨ c = 86
  letters : (65 ∈ cs ∨ 88 ∈ cs) → ∀ c ∈ cs ++ tail, c ∈ [65, 88, 57, 48, 66, 47]
  national : 78 ∈ cs → ∀ c ∈ cs ++ tail, c ∈ [78, 48, 66, 47]
  point : cs.countP (picPointSym env) ≤ 1
  nonempty : ∃ c ∈ cs, c ≠ 83 ∧ c ≠ 86
  within : picWithin env alpha sjis (cs ++ tail)

end Cob
