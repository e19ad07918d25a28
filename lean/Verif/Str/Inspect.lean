import Verif.Num.Field
/-
Model of INSPECT (libcob/strings.c).  Items that are not NATIONAL; SJIS build (no I18N_UTF8).
The inspected bytes are a list; `inspect_mark` is a list of `Option Nat`: `none` is -1 (not
claimed), `some v` the value stored for a claimed position.  Patterns have at least one byte
(cobc has no empty operands; with an empty operand the C loop would not advance).
-/
namespace Cob

/-- `n` bytes of `d` from position `i`. -/
def slice (d : List Nat) (i n : Nat) : List Nat := (d.drop i).take n

/-- libcob/strings.c:48-57: the static state of an INSPECT: the bytes inspected
(`inspect_data`, `inspect_size`), the marks, and the region as offsets `start`, `stop`
(`inspect_start`, `inspect_end`). -/
structure Insp where
  data : List Nat
  marks : List (Option Nat)
  start : Nat
  stop : Nat
deriving DecidableEq, Repr

/-- libcob/strings.c:227-251 `cob_inspect_init` followed by 253-258 `cob_inspect_start` (the
generated code calls the latter before every phrase). -/
def inspInit (d : List Nat) : Insp := ⟨d, List.replicate d.length none, 0, d.length⟩

/-- libcob/strings.c:253-258 `cob_inspect_start`. -/
def inspStart (s : Insp) : Insp := { s with start := 0, stop := s.data.length }

/-- libcob/strings.c:298-303 and 315-320: the search for the operand, from position `p`, in
`fuel` steps: the first position where it occurs entirely before `stop`. -/
def findFrom (d pat : List Nat) (stop : Nat) : (fuel : Nat) → (p : Nat) → Option Nat
  | 0, _ => none
  | fuel + 1, p =>
    if p + pat.length ≤ stop then
      if slice d p pat.length = pat then some p else findFrom d pat stop fuel (p + 1)
    else none

/-- libcob/strings.c:260-308 `cob_inspect_before`, alphanumeric operand. -/
def inspBefore (s : Insp) (pat : List Nat) : Insp :=
  match findFrom s.data pat s.stop (s.stop - s.start + 1) s.start with
  | some p => { s with stop := p }
  | none => s

/-- libcob/strings.c:310-322 `cob_inspect_after`. -/
def inspAfter (s : Insp) (pat : List Nat) : Insp :=
  match findFrom s.data pat s.stop (s.stop - s.start + 1) s.start with
  | some p => { s with start := p + pat.length }
  | none => { s with start := s.stop }

/-- libcob/strings.h `INSPECT_ALL`, `INSPECT_LEADING`, `INSPECT_FIRST` (the forward scans). -/
inductive FwdType where
  | all | leading | first
deriving DecidableEq, Repr

/-- libcob/strings.c:174-178 and 196-200: no position of the occurrence is claimed yet. -/
def freeAt (marks : List (Option Nat)) (i m : Nat) : Bool := ((marks.drop i).take m).all (·.isNone)

/-- libcob/strings.c:181-183 and 203-205: claim an occurrence. -/
def setMarks (marks : List (Option Nat)) (i : Nat) (vals : List Nat) : List (Option Nat) :=
  marks.take i ++ vals.map some ++ marks.drop (i + vals.length)

/-- libcob/strings.c:192-215: the forward loop of `inspect_common`, `fuel` iterations at most
(`len + 1` suffice).  `vals` are the values to mark with: the replacement, or ones. -/
def fwdLoop (ty : FwdType) (d : List Nat) (st len : Nat) (pat vals : List Nat) :
    (fuel : Nat) → (i : Nat) → (marks : List (Option Nat)) → (n : Nat) → List (Option Nat) × Nat
  | 0, _, marks, n => (marks, n)
  | fuel + 1, i, marks, n =>
    if i + pat.length ≤ len then
      if slice d (st + i) pat.length = pat then
        if freeAt marks (st + i) pat.length then
          if ty = .first then (setMarks marks (st + i) vals, n + 1)
          else fwdLoop ty d st len pat vals fuel (i + pat.length) (setMarks marks (st + i) vals) (n + 1)
        else fwdLoop ty d st len pat vals fuel (i + 1) marks n
      else if ty = .leading then (marks, n)
      else fwdLoop ty d st len pat vals fuel (i + 1) marks n
    else (marks, n)

/-- libcob/strings.c:170-190: the backward loop of `inspect_common` (TRAILING); `k` is `i + 1`. -/
def bwdLoop (d : List Nat) (st : Nat) (pat vals : List Nat) :
    (fuel : Nat) → (k : Nat) → (marks : List (Option Nat)) → (n : Nat) → List (Option Nat) × Nat
  | 0, _, marks, n => (marks, n)
  | _ + 1, 0, marks, n => (marks, n)
  | fuel + 1, k + 1, marks, n =>
    if slice d (st + k) pat.length = pat then
      if freeAt marks (st + k) pat.length then
        bwdLoop d st pat vals fuel (k + 1 - pat.length) (setMarks marks (st + k) vals) (n + 1)
      else bwdLoop d st pat vals fuel k marks n
    else (marks, n)

/-- The comparison phrases. -/
inductive CmpType where
  | fwd (t : FwdType)
  | trailing
deriving DecidableEq, Repr

/-- libcob/strings.c:167-216: the scanning part of `inspect_common`. -/
def inspScan (s : Insp) (ty : CmpType) (pat vals : List Nat) : Insp × Nat :=
  let len := s.stop - s.start
  let r := match ty with
    | .fwd t => fwdLoop t s.data s.start len pat vals (len + 1) 0 s.marks 0
    | .trailing => bwdLoop s.data s.start pat vals (len + 1) (len + 1 - pat.length) s.marks 0
  ({ s with marks := r.1 }, r.2)

/-- libcob/strings.c:120-221 `inspect_common` when not replacing: the number to add to the
counter. -/
def inspTally (s : Insp) (ty : CmpType) (pat : List Nat) : Insp × Nat :=
  inspScan s ty pat (List.replicate pat.length 1)

/-- libcob/strings.c:88-118 `alloc_figurative`: the figurative constant or ALL literal repeated to
the length `n`. -/
def figurative (f1 : List Nat) (n : Nat) : List Nat := (List.range n).map fun i => f1.getD (i % f1.length) 0

/-- libcob/strings.c:120-221 `inspect_common` when replacing by `rep`; `isAll`: `rep` is a
figurative constant or ALL literal.  The Boolean is COB_EC_RANGE_INSPECT_SIZE. -/
def inspReplace (s : Insp) (ty : CmpType) (pat rep : List Nat) (isAll : Bool) : Insp × Bool :=
  if rep.length ≠ pat.length then
    if isAll then ((inspScan s ty pat (figurative rep pat.length)).1, false) else (s, true)
  else ((inspScan s ty pat rep).1, false)

/-- libcob/strings.c:346-353: the CHARACTERS loop when tallying: from position `i`, `k`
characters. -/
def charLoop (v : Nat) : (k : Nat) → (i : Nat) → List (Option Nat) → (n : Nat) → List (Option Nat) × Nat
  | 0, _, marks, n => (marks, n)
  | k + 1, i, marks, n =>
    if marks.getD i none = none then charLoop v k (i + 1) (marks.set i (some v)) (n + 1)
    else charLoop v k (i + 1) marks n

/-- libcob/strings.c:324-366 `cob_inspect_characters` when tallying. -/
def inspChars (s : Insp) : Insp × Nat :=
  let r := charLoop 1 (s.stop - s.start) s.start s.marks 0
  ({ s with marks := r.1 }, r.2)

/-- libcob/strings.c:324-344 `cob_inspect_characters` when replacing by one character. -/
def inspReplaceChars (s : Insp) (v : Nat) : Insp :=
  { s with marks := (charLoop v (s.stop - s.start) s.start s.marks 0).1 }

/-- libcob/strings.c:520-534 `cob_inspect_finish`: the bytes afterwards. -/
def inspFinish (replacing : Bool) (s : Insp) : List Nat :=
  if replacing then List.zipWith (fun c m => m.getD c) s.data s.marks else s.data

/-- libcob/strings.c:505-514: the inner loop of `cob_inspect_converting` for one character
`c` of the FROM list and its image `t` (`none`: `f2->data[j]` is beyond the TO operand): from
position `i`, `k` characters.  Index `i` of `inspect_mark` is relative to the region here.
Result `none`: a byte outside the TO operand was used. -/
def convInner (c : Nat) (t : Option Nat) (st : Nat) :
    (k : Nat) → (i : Nat) → List Nat → List (Option Nat) → Option (List Nat × List (Option Nat))
  | 0, _, d, marks => some (d, marks)
  | k + 1, i, d, marks =>
    if marks.getD i none = none ∧ d.getD (st + i) 0 = c then
      match t with
      | none => none
      | some t' => convInner c t st k (i + 1) (d.set (st + i) t') (marks.set i (some 1))
    else convInner c t st k (i + 1) d marks

/-- libcob/strings.c:504-515: the outer loop over the FROM list. -/
def convOuter (st len : Nat) :
    List (Nat × Option Nat) → List Nat → List (Option Nat) → Option (List Nat × List (Option Nat))
  | [], d, marks => some (d, marks)
  | (c, t) :: rest, d, marks =>
    match convInner c t st len 0 d marks with
    | none => none
    | some r => convOuter st len rest r.1 r.2

/-- libcob/strings.c:392-518 `cob_inspect_converting` (single-byte characters).  `fig`: the TO operand is one
of the figurative constants QUOTE, SPACE, ZERO, whose only character is used throughout; otherwise
`f2->data[j]`. -/
def inspConvert (s : Insp) (from_ to : List Nat) (fig : Bool) : Option Insp :=
  let tos := (List.range from_.length).map fun j => if fig then to[0]? else to[j]?
  match convOuter s.start (s.stop - s.start) (from_.zip tos) s.data s.marks with
  | none => none
  | some r => some { s with data := r.1, marks := r.2 }

/-- BEFORE / AFTER INITIAL phrase. -/
inductive Region where
  | before (pat : List Nat)
  | after (pat : List Nat)
deriving DecidableEq, Repr

/-- cobc/typeck.c:4619-4633 `cb_build_inspect_region_start`, `cb_build_inspect_region`: the calls
generated in front of a phrase. -/
def inspRegion (s : Insp) (rs : List Region) : Insp :=
  rs.foldl (fun s r => match r with | .before p => inspBefore s p | .after p => inspAfter s p) (inspStart s)

/-- A phrase of INSPECT ... TALLYING. -/
inductive TallyPhrase where
  | chars (rs : List Region)
  | cmp (ty : CmpType) (pat : List Nat) (rs : List Region)
deriving DecidableEq, Repr

/-- One phrase of TALLYING: the number added to its counter. -/
def tallyPhrase (s : Insp) : TallyPhrase → Insp × Nat
  | .chars rs => inspChars (inspRegion s rs)
  | .cmp ty pat rs => inspTally (inspRegion s rs) ty pat

/-- INSPECT d TALLYING phrases: the item afterwards and the number added for each phrase
(cobc/typeck.c:4208-4237 `cb_emit_inspect`). -/
def tallyGo (s : Insp) : List TallyPhrase → Insp × List Nat
  | [] => (s, [])
  | p :: ps =>
    let r := tallyPhrase s p
    let q := tallyGo r.1 ps
    (q.1, r.2 :: q.2)

def inspectTallying (d : List Nat) (ps : List TallyPhrase) : List Nat × List Nat :=
  let r := tallyGo (inspInit d) ps
  (inspFinish false r.1, r.2)

/-- A phrase of INSPECT ... REPLACING. -/
inductive ReplPhrase where
  | chars (v : Nat) (rs : List Region)
  | cmp (ty : CmpType) (pat rep : List Nat) (isAll : Bool) (rs : List Region)
deriving DecidableEq, Repr

/-- One phrase of REPLACING. -/
def replPhrase (s : Insp) : ReplPhrase → Insp
  | .chars v rs => inspReplaceChars (inspRegion s rs) v
  | .cmp ty pat rep isAll rs => (inspReplace (inspRegion s rs) ty pat rep isAll).1

/-- INSPECT d REPLACING phrases: the item afterwards. -/
def inspectReplacing (d : List Nat) (ps : List ReplPhrase) : List Nat :=
  inspFinish true (ps.foldl replPhrase (inspInit d))

/-- INSPECT d CONVERTING from TO to region: the item afterwards. -/
def inspectConverting (d : List Nat) (from_ to : List Nat) (fig : Bool) (rs : List Region) : Option (List Nat) :=
  (inspConvert (inspRegion (inspInit d) rs) from_ to fig).map (inspFinish false)

end Cob
