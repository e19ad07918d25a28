import Verif.Rt.Env
/-
Model of the way from SELECT ... ASSIGN to the name of the file in the file system (cobc/typeck.c, cobc/tree.c, libcob/fileio.c,
libcob/common.c).  The buffers of 1024 bytes are not modelled where the code does not limit what it writes to them.
-/
namespace Cob

/-! ### The compiler: the ASSIGN clause -/

/-- The operand of ASSIGN TO: a literal, or a word. -/
inductive AName where
  | lit (s : List Nat)
  | word (s : List Nat)
deriving DecidableEq, Repr

/-- cobc/flag.def, cobc/config.c: `assign-clause` of the configuration. -/
inductive AMode where
  | mf | ibm | jph1
deriving DecidableEq, Repr

/-- Where the name of the file comes from: a fixed text, the data item with this name, the terminal (`special` 1: input,
2: output). -/
inductive AFrom where
  | text (s : List Nat)
  | item (w : List Nat)
  | device (n : Nat)
deriving DecidableEq, Repr

/-- `strchr (s, '-') + 1`, or `none` (C library). -/
def afterDash : List Nat → Option (List Nat)
  | [] => none
  | c :: s => if c = 45 then some s else afterDash s

/-- `strrchr (s, '-') + 1`, or `none` (C library). -/
def afterLastDash : List Nat → Option (List Nat)
  | [] => none
  | c :: s =>
    match afterLastDash s with
    | some t => some t
    | none => if c = 45 then some s else none

/-- cobc/typeck.c:706-711: the loop that passes `idx` hyphens. -/
def passDashes : Nat → List Nat → List Nat
  | 0, s => s
  | _, [] => []
  | n + 1, c :: s => if c = 45 then passDashes n s else passDashes (n + 1) s

/-- cobc/typeck.c:699-721 `get_coded_filename`. -/
def codedFilename (s : List Nat) (idx : Nat) : Option (List Nat) :=
  match passDashes idx s with
  | [] => none
  | t => some (t.takeWhile (· ≠ 45))

/-- `strcasecmp (s, "KEYBOARD") == 0`. -/
def isKeyboard (s : List Nat) : Bool :=
  s.map (fun c => if 97 ≤ c ∧ c ≤ 122 then c - 32 else c) == [75, 69, 89, 66, 79, 65, 82, 68]

/-- cobc/typeck.c:770-788: the name in a word of `assign-clause: ibm`. -/
def ibmName (s : List Nat) : List Nat :=
  let org := fun (t : List Nat) => [83, 45].isPrefixOf t || [65, 83, 45].isPrefixOf t
  if org s then (afterDash s).getD []
  else
    let t := (afterDash s).getD s
    if org t then (afterDash t).getD [] else t

/-- cobc/typeck.c:723-805 `cb_build_assignment_name`; `none`: NULL.  The literal `$#@DUMMY@#$` is what the parser makes of ASSIGN TO
DISPLAY (cobc/parser.y:1747-1753). -/
def assignmentName (mode : AMode) (disk ext : Bool) (n : AName) : Option AFrom :=
  if disk && !ext then none
  else
    match n with
    | .lit s => if s = [36, 35, 64, 68, 85, 77, 77, 89, 64, 35, 36] then some (.device 2) else some (.text s)
    | .word s =>
      if isKeyboard s then some (.device 1)
      else
        match mode with
        | .mf => if ext then some (.text ((afterLastDash s).getD s)) else some (.item s)
        | .ibm => some (.text (ibmName s))
        | .jph1 => some (.text (((codedFilename s 4).or (codedFilename s 0)).getD s))

/-- A SELECT entry with its FD: the file's name, ASSIGN TO DISK/PRINTER or to an operand, EXTERNAL (or the option of the compiler),
VALUE OF FILE-ID. -/
structure ADecl where
  name : List Nat
  target : Option AName
  ext : Bool
  fileId : Option AName := none

/-- cobc/parser.y:1713-1726 (ASSIGN), 2442-2447 (VALUE OF FILE-ID), cobc/tree.c:1869-1872 (`finalize_file`). -/
def fileAssign (mode : AMode) (d : ADecl) : Option AFrom :=
  let disk := d.target.isNone
  let a := assignmentName mode disk d.ext (d.target.getD (.word [68, 73, 83, 75]))
  let a := match d.fileId with
    | none => a
    | some n => if a.isNone then assignmentName mode disk d.ext n else a
  if disk && a.isNone then some (.text d.name) else a

/-! ### The run time: the mapping of names -/

/-- The value of a digit of libcob/common.c:2779-2782. -/
def hexDig (c : Nat) : Option Nat :=
  if 48 ≤ c ∧ c ≤ 57 then some (c - 48) else if 65 ≤ c ∧ c ≤ 70 then some (c - 55) else none

/-- libcob/common.c:2778-2789: the loop over the digits, a byte for two of them; a digit that is none gives `?` for its byte. -/
def hexPairs : List Nat → List Nat
  | [] => []
  | [a] => [match hexDig a with | some v => v * 16 | none => 63]
  | a :: b :: r =>
    (match hexDig a with
     | none => 63
     | some v => match hexDig b with | none => 63 | some w => v * 16 + w) :: hexPairs r

/-- libcob/common.c:2735-2800 `cb_get_jisword_buff` into a buffer that is large enough.  `q`: the word is in apostrophes; an odd
last digit is or-ed to the closing one. -/
def jisWord (name : List Nat) : List Nat :=
  let q := name.head? = some 39 ∧ name.getLast? = some 39
  let s := if q then (name.drop 1).dropLast else name
  if 6 ≤ s.length ∧ s.take 3 = [95, 95, 95] ∧ s.drop (s.length - 3) = [95, 95, 95] then
    let ds := (s.drop 3).take (s.length - 6)
    (if q then
      if ds.length % 2 = 0 then [39] ++ hexPairs ds ++ [39]
      else [39] ++ hexPairs (ds.take (ds.length - 1)) ++ [match hexDig (ds.getLastD 0) with | some v => 39 ||| v * 16 | none => 63]
     else hexPairs ds).takeWhile (· ≠ 0)
  else name

/-- libcob/fileio.c:3947-3966 (and 4602-4621): the loop that puts the values of variables for `$NAME`; `fuel` characters are left.
`*src != '-'` in the inner loop looks at the dollar sign and is always true: a hyphen ends the name. -/
def expandVars (environ : List (List Nat)) : Nat → List Nat → List Nat
  | _, [] => []
  | 0, _ => []
  | fuel + 1, c :: src =>
    if c = 36 then
      let nm := src.takeWhile (fun c => isAlnumC c || c = 95)
      (cGetenv environ nm).getD [] ++ expandVars environ fuel (src.drop nm.length)
    else c :: expandVars environ fuel src

/-- libcob/fileio.c:3948-3950 (4603-4605): all characters are letters, digits, underscores or hyphens.  (The loop does not look at the
characters of a variable's name, but the dollar sign before them is none of these.) -/
def simpleName (src : List Nat) : Bool := src.all fun c => isAlnumC c || c = 95 || c = 45

/-- libcob/fileio.c:276: `prefix`. -/
def ddPrefixes : List (List Nat) := [[68, 68, 95], [100, 100, 95], []]

/-- libcob/fileio.c:3973-3980: the loop over the prefixes. -/
def ddLookup (environ : List (List Nat)) (name : List Nat) : List (List Nat) → Option (List Nat)
  | [] => none
  | p :: ps =>
    match cGetenv environ ((p ++ name).take 1022) with
    | some v => some v
    | none => ddLookup environ name ps

/-- libcob/fileio.c:3940-3988: what `cob_ex_open` makes of the name in `file_open_name`; `path` is `cob_file_path`. -/
def openName (mapping : Bool) (environ : List (List Nat)) (path : Option (List Nat)) (name : List Nat) : List Nat :=
  if mapping then
    let n := jisWord (expandVars environ name.length name)
    if simpleName name then
      match ddLookup environ n ddPrefixes with
      | some v => v.take 1023
      | none =>
        match path with
        | some p => ((p ++ [47] ++ n).take 1022).take 1023
        | none => n
    else n
  else name

/-- libcob/fileio.c:4595-4642: what `cob_ex_delete_file` makes of it: the same statements again. -/
def deleteName (mapping : Bool) (environ : List (List Nat)) (path : Option (List Nat)) (name : List Nat) : List Nat :=
  if mapping then
    let n := jisWord (expandVars environ name.length name)
    if simpleName name then
      match ddLookup environ n ddPrefixes with
      | some v => v.take 1023
      | none =>
        match path with
        | some p => ((p ++ [47] ++ n).take 1022).take 1023
        | none => n
    else n
  else name

/-- libcob/fileio.c:4844-4849: `cob_file_path`. -/
def filePath (environ : List (List Nat)) : Option (List Nat) :=
  match cGetenv environ [67, 79, 66, 95, 70, 73, 76, 69, 95, 80, 65, 84, 72] with
  | none => none
  | some p => if p.head?.getD 0 = 0 ∨ p.head? = some 32 then none else some p

/-- libcob/fileio.c:3896-3900 (4593): the name that OPEN (DELETE FILE) begins with, the item or literal of ASSIGN having these
characters. -/
def assignedName (d : List Nat) : List Nat := fieldToString d

end Cob
