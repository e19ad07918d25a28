/-
Model of text replacement in the preprocessor: COPY ... REPLACING and REPLACE (cobc/pplex.l:1194-1346).

The scanner hands texts ("tokens": words, literals, single characters, " " and newlines) to `ppecho`; `ppecho_1` (COPY
REPLACING) passes on to `ppecho_2` (REPLACE), which writes.  Texts are lists of bytes.  Not modelled: the scanner itself,
`suppress_echo` (the COBOL-68 form of COPY inside a data description).
-/
namespace Cob

abbrev Tok := List Nat

/-- A separator: the text begins with a space or a newline (cobc/pplex.l:1206, 1224, 1230). -/
def Tok.isSep : Tok → Bool
  | c :: _ => c == 32 || c == 10
  | [] => false

/-- `tolower` in the C locale (used by `strcasecmp`). -/
def lowerB (c : Nat) : Nat := if 65 ≤ c ∧ c ≤ 90 then c + 32 else c

/-- `strcasecmp (a, b) == 0`. -/
def sameText (a b : Tok) : Bool := a.map lowerB == b.map lowerB

/-- CB_REPLACE_OTHER, CB_REPLACE_LEADING, CB_REPLACE_TRAILING. -/
inductive RKind where
  | other | leading | trailing
  deriving DecidableEq

/-- `struct cb_replace_list`: one pair of a replacing list. -/
structure RRule where
  kind : RKind
  old : List Tok
  new : List Tok
  deriving DecidableEq

/-- What is passed on: by `ppecho_proc`, or (`raw`) written by `fputc` past it (cobc/pplex.l:1283-1285). -/
inductive REv where
  | echo (t : Tok)
  | raw (t : Tok)
  deriving DecidableEq

def REv.text : REv → Tok
  | .echo t => t
  | .raw t => t

/-- The queue behind its leading separators (cobc/pplex.l:1230-1233). -/
def dropSeps : List Tok → List Tok
  | [] => []
  | t :: ts => if t.isSep then dropSeps ts else t :: ts

/-- The leading separators of the queue. -/
def takeSeps : List Tok → List Tok
  | [] => []
  | t :: ts => if t.isSep then t :: takeSeps ts else []

/-- The comparison of one pair with the queue: the queue ends too early, no match, a match and what follows it. -/
inductive RTry where
  | wait
  | fail
  | hit (out : List REv) (rest : List Tok)
  deriving DecidableEq

/-- cobc/pplex.l:1222-1247 for CB_REPLACE_OTHER: the words of the old text one by one; separators are skipped on both sides. -/
def tryOther (new : List Tok) : List Tok → List Tok → RTry
  | [], q => .hit (new.map .echo) q
  | l :: ls, q =>
    if l.isSep then tryOther new ls q
    else
      match dropSeps q with
      | [] => .wait
      | w :: q' => if sameText l w then tryOther new ls q' else .fail

/-- The first text of the list that is not a separator, as an echo (cobc/pplex.l:1274-1280, 1286-1292). -/
def echoFirst (new : List Tok) : List REv :=
  match dropSeps new with
  | [] => []
  | t :: _ => [.echo t]

/-- cobc/pplex.l:1222-1234, 1248-1254, 1268-1282, CB_REPLACE_LEADING: the first word of the old text against the beginning of
the next word. -/
def tryLeading (old new q : List Tok) : RTry :=
  match dropSeps old with
  | [] => .fail
  | l :: _ =>
    match dropSeps q with
    | [] => .wait
    | w :: q' =>
      if sameText l (w.take l.length) then .hit ((takeSeps q).map .echo ++ echoFirst new ++ [.echo (w.drop l.length)]) q'
      else .fail

/-- cobc/pplex.l:1222-1234, 1255-1261, 1283-1297, CB_REPLACE_TRAILING: compared is the first text of the old text
(`r->old_text->text`); the rest of the word goes to the output file directly.  (`strlen - oldlen` below zero, which needs
an old text beginning with a separator, is taken as 0 here.) -/
def tryTrailing (old new q : List Tok) : RTry :=
  match dropSeps old with
  | [] => .fail
  | l :: _ =>
    match dropSeps q with
    | [] => .wait
    | w :: q' =>
      let o := old.headD []
      if w.length < o.length then .fail
      else if sameText (w.drop (w.length - o.length)) o then
        .hit ((takeSeps q).map .echo ++ [.raw (w.take (w.length - l.length))] ++ echoFirst new) q'
      else .fail

/-- cobc/pplex.l:1220-1266: one pair. -/
def tryRule (r : RRule) (q : List Tok) : RTry :=
  match r.kind with
  | .other => tryOther r.new r.old q
  | .leading => tryLeading r.old r.new q
  | .trailing => tryTrailing r.old r.new q

/-- cobc/pplex.l:1220-1266: the pairs in order; a pair for which the queue ends too early stops the search. -/
def tryRules : List RRule → List Tok → RTry
  | [], _ => .fail
  | r :: rs, q =>
    match tryRule r q with
    | .wait => .wait
    | .hit o rest => .hit o rest
    | .fail => tryRules rs q

/-- cobc/pplex.l:1219-1319: the loop over the queue.  A match that takes nothing from the queue is repeated for ever: `none`. -/
def drain (rules : List RRule) : (fuel : Nat) → List Tok → Option (List REv × List Tok)
  | _, [] => some ([], [])
  | 0, _ => none
  | fuel + 1, t :: q =>
    match tryRules rules (t :: q) with
    | .wait => some ([], t :: q)
    | .hit o rest => (drain rules fuel rest).map fun p => (o ++ p.1, p.2)
    | .fail => (drain rules fuel q).map fun p => (.echo t :: p.1, p.2)

/-- cobc/pplex.l:1194-1320 `ppecho_0`: the queue and a text.  Every round of the loop that ends takes a text from the queue, so
the length of the queue bounds the number of rounds. -/
def ppecho0 (rules : List RRule) (q : List Tok) (t : Tok) : Option (List REv × List Tok) :=
  if q = [] ∧ t.isSep = true then some ([.echo t], [])
  else if rules = [] then some ((q ++ [t]).map .echo, [])
  else drain rules (q ++ [t]).length (q ++ [t])

/-- A sequence of texts. -/
def ppechoAll (rules : List RRule) : List Tok → List Tok → Option (List REv × List Tok)
  | q, [] => some ([], q)
  | q, t :: ts =>
    (ppecho0 rules q t).bind fun p => (ppechoAll rules p.2 ts).map fun p' => (p.1 ++ p'.1, p'.2)

/-- `text_queue1`, `text_queue2` and what is written. -/
structure RState where
  q1 : List Tok
  q2 : List Tok
  out : List Tok
  deriving DecidableEq

/-- cobc/pplex.l:1322-1333 `ppecho_2`, `ppecho_final`. -/
def ppecho2 (rules2 : List RRule) (s : RState) : REv → Option RState
  | .raw t => some { s with out := s.out ++ [t] }
  | .echo t => (ppecho0 rules2 s.q2 t).map fun p => { s with q2 := p.2, out := s.out ++ p.1.map REv.text }

def ppecho2All (rules2 : List RRule) : RState → List REv → Option RState
  | s, [] => some s
  | s, e :: es => (ppecho2 rules2 s e).bind fun s' => ppecho2All rules2 s' es

/-- cobc/pplex.l:1335-1346 `ppecho_1`, `ppecho`: a text through COPY REPLACING and REPLACE. -/
def ppecho (rules1 rules2 : List RRule) (s : RState) (t : Tok) : Option RState :=
  (ppecho0 rules1 s.q1 t).bind fun p => ppecho2All rules2 { s with q1 := p.2 } p.1

def ppechoText (rules1 rules2 : List RRule) : RState → List Tok → Option RState
  | s, [] => some s
  | s, t :: ts => (ppecho rules1 rules2 s t).bind fun s' => ppechoText rules1 rules2 s' ts

/-- cobc/pplex.l:366-381: at the end of all input the queues are dropped, not written. -/
def ppEnd (s : RState) : List Tok := s.out

end Cob
