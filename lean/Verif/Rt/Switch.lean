import Verif.Rt.Bits
/-
Model of the external switches (C97): the SPECIAL-NAMES entries SWITCH-n and UPSI-n with their mnemonic names and condition-names, SET ... TO ON / OFF,
the environment variables COB_SWITCH_n, and the system routine X"91" functions 11 and 12.

Not modelled: how mnemonic names and condition-names are looked up (C71): they are numbers here, different for different names of a program.  The
system-names ARGUMENT-NUMBER and the like, which are reserved words with clauses of their own.
-/
namespace Cob.Switch

/-- /repo/cobc/tree.h:95-105 `enum cb_system_name_category`, those in use here. -/
inductive Cat where
  | device
  | feature
  | switch
deriving DecidableEq, Repr

/-- /repo/cobc/tree.h: `struct cb_system_name`. -/
structure SysName where
  cat : Cat
  token : Nat
deriving DecidableEq, Repr

/-- The bytes of a name. -/
def bytes (s : String) : List Nat := s.toList.map Char.toNat

/-- /repo/cobc/reserved.c:36-73 `system_table`, with the numbers of the enumerations of /repo/cobc/tree.h:107-139. -/
def systemTable : List (List Nat × SysName) :=
  [(bytes "SYSIN", ⟨.device, 0⟩), (bytes "SYSIPT", ⟨.device, 0⟩), (bytes "SYSOUT", ⟨.device, 1⟩), (bytes "SYSLIST", ⟨.device, 1⟩),
   (bytes "SYSLST", ⟨.device, 1⟩), (bytes "PRINTER", ⟨.device, 1⟩), (bytes "SYSERR", ⟨.device, 2⟩), (bytes "CONSOLE", ⟨.device, 3⟩),
   (bytes "C01", ⟨.feature, 1⟩), (bytes "C02", ⟨.feature, 2⟩), (bytes "C03", ⟨.feature, 3⟩), (bytes "C04", ⟨.feature, 4⟩),
   (bytes "C05", ⟨.feature, 5⟩), (bytes "C06", ⟨.feature, 6⟩), (bytes "C07", ⟨.feature, 7⟩), (bytes "C08", ⟨.feature, 8⟩),
   (bytes "C09", ⟨.feature, 9⟩), (bytes "C10", ⟨.feature, 10⟩), (bytes "C11", ⟨.feature, 11⟩), (bytes "C12", ⟨.feature, 12⟩),
   (bytes "FORMFEED", ⟨.feature, 0⟩),
   (bytes "SWITCH-1", ⟨.switch, 0⟩), (bytes "SWITCH-2", ⟨.switch, 1⟩), (bytes "SWITCH-3", ⟨.switch, 2⟩), (bytes "SWITCH-4", ⟨.switch, 3⟩),
   (bytes "SWITCH-5", ⟨.switch, 4⟩), (bytes "SWITCH-6", ⟨.switch, 5⟩), (bytes "SWITCH-7", ⟨.switch, 6⟩), (bytes "SWITCH-8", ⟨.switch, 7⟩),
   (bytes "UPSI-0", ⟨.switch, 0⟩), (bytes "UPSI-1", ⟨.switch, 1⟩), (bytes "UPSI-2", ⟨.switch, 2⟩), (bytes "UPSI-3", ⟨.switch, 3⟩),
   (bytes "UPSI-4", ⟨.switch, 4⟩), (bytes "UPSI-5", ⟨.switch, 5⟩), (bytes "UPSI-6", ⟨.switch, 6⟩), (bytes "UPSI-7", ⟨.switch, 7⟩)]

/-- An ASCII letter as a small letter (`strcasecmp` in the C locale). -/
def low (c : Nat) : Nat := if 65 ≤ c ∧ c ≤ 90 then c + 32 else c

/-- `strcasecmp` gives 0. -/
def caseEq (a b : List Nat) : Bool := a.map low = b.map low

/-- /repo/cobc/reserved.c:921-932 `lookup_system_name`. -/
def lookup (nm : List Nat) : Option SysName := (systemTable.find? fun e => caseEq nm e.1).map (·.2)

/-- A mnemonic-name clause of SPECIAL-NAMES: system-name, mnemonic name, and the condition-names with ON (`true`) or OFF. -/
structure Clause where
  system : List Nat
  mnemonic : Option Nat
  conds : List (Bool × Nat)
deriving DecidableEq, Repr

/-- What the compiler does with a clause. -/
inductive Res where
  | ok
  | err
  | crash
deriving DecidableEq, Repr

/-- /repo/cobc/parser.y:1353-1361 with /repo/cobc/typeck.c:647-673 `cb_define_switch_name`, for one condition-name.  `noMnem`: switch-no-mnemonic of the
configuration.  `crash`: the message needs the name behind a null pointer (typeck.c:660-661). -/
def condRes (noMnem : Bool) (sn : SysName) (mnemonic : Option Nat) : Res :=
  if mnemonic.isNone && !noMnem then .err
  else if sn.cat ≠ .switch then (if mnemonic.isNone then .crash else .err)
  else .ok

/-- /repo/cobc/parser.y:1266-1285: one clause. -/
def clauseRes (noMnem : Bool) (cl : Clause) : Res :=
  match lookup cl.system with
  | none => .err
  | some sn => match cl.conds with
    | [] => .ok
    | _ :: _ => condRes noMnem sn cl.mnemonic

/-- /repo/cobc/parser.y:1272: the system-name a mnemonic name stands for. -/
def mnemonicOf (prog : List Clause) (m : Nat) : Option SysName :=
  match prog.find? fun cl => cl.mnemonic == some m with
  | some cl => lookup cl.system
  | none => none

/-- /repo/cobc/typeck.c:666-671: the switch of a condition-name, and whether it is the condition for ON. -/
def condOf : List Clause → Nat → Option (Bool × Nat)
  | [], _ => none
  | cl :: rest, c => match cl.conds.find? fun x => x.2 == c with
    | some x => (lookup cl.system).map fun sn => (x.1, sn.token)
    | none => condOf rest c

/-- The switches: `cob_switch`, /repo/libcob/common.c:139. -/
abbrev Switches := List Byte

/-- /repo/libcob/common.c:959-968: the switches at the start; `env n` is the value of COB_SWITCH_n. -/
def start (env : Nat → Option (List Nat)) : Switches :=
  (List.range 8).map fun i => match env (i + 1) with
    | some v => if caseEq v (bytes "ON") then 1#8 else 0#8
    | none => 0#8

/-- /repo/libcob/common.c:1241-1245 `cob_get_switch`; `none`: outside the array. -/
def get (s : Switches) (n : Nat) : Option Byte := s[n]?

/-- /repo/libcob/common.c:1247-1255 `cob_set_switch`; `none`: outside the array. -/
def put (s : Switches) (n : Nat) (flag : Bool) : Option Switches :=
  if n < s.length then some (s.set n (if flag then 1#8 else 0#8)) else none

/-- /repo/cobc/typeck.c:6659-6672 `cb_emit_set_on_off`: SET a list of mnemonic names TO ON or OFF.  The category of the names is not looked at. -/
def setAll (prog : List Clause) (flag : Bool) : List Nat → Switches → Option Switches
  | [], s => some s
  | m :: ms, s => match mnemonicOf prog m with
    | none => none
    | some sn => match put s sn.token flag with
      | none => none
      | some s' => setAll prog flag ms s'

/-- What the programs of a run unit do with switches. -/
inductive Ev where
  | set (prog : List Clause) (mnemonics : List Nat) (flag : Bool)
  | x91 (func : Nat) (parm : List Nat)

/-- One statement. -/
def step (s : Switches) : Ev → Option Switches
  | .set prog ms flag => setAll prog flag ms s
  | .x91 func parm => some (cblX91 func s parm 0).1

/-- Statements one after the other. -/
def run : Switches → List Ev → Option Switches
  | s, [] => some s
  | s, e :: es => match step s e with
    | none => none
    | some s' => run s' es

/-- /repo/cobc/typeck.c:667-671: a condition-name is `cob_get_switch (n)`, or its negation. -/
def condition (prog : List Clause) (s : Switches) (c : Nat) : Option Bool :=
  match condOf prog c with
  | none => none
  | some (on, n) => match get s n with
    | none => none
    | some b => some (if on then b ≠ 0#8 else ¬ b ≠ 0#8)

end Cob.Switch
