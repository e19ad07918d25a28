import Verif.Move.Numeric
/-
Model of the conversion of half-width to full-width text and of MOVE to NATIONAL and
NATIONAL-EDITED items in the SJIS build (libcob/move.c, no I18N_UTF8), and of FUNCTION NATIONAL.
Bytes are numbers below 256.  A `char` of the output buffer that is incremented wraps modulo 256.
-/
namespace Cob

/-- libcob/move.c:1114-1208: the output of `han2zen` for the bytes 0x20 to 0x7E. -/
def zenAscii : List (Nat × Nat) :=
  [ (0x81, 0x40), (0x81, 0x49), (0x81, 0x68), (0x81, 0x94), (0x81, 0x90), (0x81, 0x93), (0x81, 0x95), (0x81, 0x66),
   (0x81, 0x69), (0x81, 0x6A), (0x81, 0x96), (0x81, 0x7B), (0x81, 0x43), (0x81, 0x7C), (0x81, 0x44), (0x81, 0x5E),
   (0x82, 0x4F), (0x82, 0x50), (0x82, 0x51), (0x82, 0x52), (0x82, 0x53), (0x82, 0x54), (0x82, 0x55), (0x82, 0x56),
   (0x82, 0x57), (0x82, 0x58), (0x81, 0x46), (0x81, 0x47), (0x81, 0x83), (0x81, 0x81), (0x81, 0x84), (0x81, 0x48),
   (0x81, 0x97), (0x82, 0x60), (0x82, 0x61), (0x82, 0x62), (0x82, 0x63), (0x82, 0x64), (0x82, 0x65), (0x82, 0x66),
   (0x82, 0x67), (0x82, 0x68), (0x82, 0x69), (0x82, 0x6A), (0x82, 0x6B), (0x82, 0x6C), (0x82, 0x6D), (0x82, 0x6E),
   (0x82, 0x6F), (0x82, 0x70), (0x82, 0x71), (0x82, 0x72), (0x82, 0x73), (0x82, 0x74), (0x82, 0x75), (0x82, 0x76),
   (0x82, 0x77), (0x82, 0x78), (0x82, 0x79), (0x81, 0x6D), (0x81, 0x8F), (0x81, 0x6E), (0x81, 0x4F), (0x81, 0x51),
   (0x81, 0x65), (0x82, 0x81), (0x82, 0x82), (0x82, 0x83), (0x82, 0x84), (0x82, 0x85), (0x82, 0x86), (0x82, 0x87),
   (0x82, 0x88), (0x82, 0x89), (0x82, 0x8A), (0x82, 0x8B), (0x82, 0x8C), (0x82, 0x8D), (0x82, 0x8E), (0x82, 0x8F),
   (0x82, 0x90), (0x82, 0x91), (0x82, 0x92), (0x82, 0x93), (0x82, 0x94), (0x82, 0x95), (0x82, 0x96), (0x82, 0x97),
   (0x82, 0x98), (0x82, 0x99), (0x82, 0x9A), (0x81, 0x6F), (0x81, 0x62), (0x81, 0x70), (0x81, 0x60)]

/-- libcob/move.c:1209-1269: the output of `han2zen` for the bytes 0xA1 to 0xDD. -/
def zenKana : List (Nat × Nat) :=
  [ (0x81, 0x42), (0x81, 0x75), (0x81, 0x76), (0x81, 0x41), (0x81, 0x45), (0x83, 0x92), (0x83, 0x40), (0x83, 0x42),
   (0x83, 0x44), (0x83, 0x46), (0x83, 0x48), (0x83, 0x83), (0x83, 0x85), (0x83, 0x87), (0x83, 0x62), (0x81, 0x5B),
   (0x83, 0x41), (0x83, 0x43), (0x83, 0x45), (0x83, 0x47), (0x83, 0x49), (0x83, 0x4A), (0x83, 0x4C), (0x83, 0x4E),
   (0x83, 0x50), (0x83, 0x52), (0x83, 0x54), (0x83, 0x56), (0x83, 0x58), (0x83, 0x5A), (0x83, 0x5C), (0x83, 0x5E),
   (0x83, 0x60), (0x83, 0x63), (0x83, 0x65), (0x83, 0x67), (0x83, 0x69), (0x83, 0x6A), (0x83, 0x6B), (0x83, 0x6C),
   (0x83, 0x6D), (0x83, 0x6E), (0x83, 0x71), (0x83, 0x74), (0x83, 0x77), (0x83, 0x7A), (0x83, 0x7D), (0x83, 0x7E),
   (0x83, 0x80), (0x83, 0x81), (0x83, 0x82), (0x83, 0x84), (0x83, 0x86), (0x83, 0x88), (0x83, 0x89), (0x83, 0x8A),
   (0x83, 0x8B), (0x83, 0x8C), (0x83, 0x8D), (0x83, 0x8F), (0x83, 0x93)]

/-- libcob/move.c:1110-1325: the loop of `han2zen`.  `d` is the byte handled before, `out` what has
been written to the buffer, `after` the byte in memory behind the item (read when the last byte of
the item is taken for the first half of a two-byte character). -/
def zenLoop (after : Nat) (d : Nat) (out : List Nat) : List Nat → List Nat
  | [] => out
  | c :: rest =>
    if 0x20 ≤ c ∧ c ≤ 0x7E then
      let z := zenAscii.getD (c - 0x20) (0, 0)
      zenLoop after c (out ++ [z.1, z.2]) rest
    else if 0xA1 ≤ c ∧ c ≤ 0xDD then
      let z := zenKana.getD (c - 0xA1) (0, 0)
      zenLoop after c (out ++ [z.1, z.2]) rest
    else if c = 0xDE then
      if (0xB6 ≤ d ∧ d ≤ 0xC4) ∨ (0xCA ≤ d ∧ d ≤ 0xCE) then
        zenLoop after c (out.dropLast ++ [(out.getLastD 0 + 1) % 256]) rest
      else if d = 0xB3 then zenLoop after c (out.dropLast ++ [0x94]) rest
      else zenLoop after c (out ++ [0x81, 0x4A]) rest
    else if c = 0xDF then
      if 0xCA ≤ d ∧ d ≤ 0xCE then
        zenLoop after c (out.dropLast ++ [(out.getLastD 0 + 2) % 256]) rest
      else zenLoop after c (out ++ [0x81, 0x4B]) rest
    else if c = 0 ∨ c = 255 then
      match rest with
      | [] => out ++ [c, c]
      | c2 :: rest2 =>
        if c2 = c then zenLoop after c (out ++ [c, c]) rest2
        else zenLoop after c (out ++ [c, c]) (c2 :: rest2)
    else if 0 < c ∧ c < 0x20 then zenLoop after c (out ++ [0x81, 0x40]) rest
    else
      match rest with
      | [] => out ++ [c, after]
      | c2 :: rest2 => zenLoop after c (out ++ [c, c2]) rest2
termination_by bs => bs.length
decreasing_by all_goals (simp only [List.length_cons]; omega)

/-- libcob/move.c:1090-1330 `han2zen`, SJIS part.  The first loop (1103-1107) stops at once when
the first byte is zero and then shortens the item by one byte; otherwise it changes nothing. -/
def han2zen (after : Nat) (src : List Nat) : List Nat :=
  match src with
  | 0 :: _ => zenLoop (src.getLastD 0) 0 [] src.dropLast
  | _ => zenLoop after 0 [] src

/-- libcob/intrinsic.c:3310-3327 `cob_intr_national`: the bytes of the result. -/
def intrNational (after : Nat) (src : List Nat) : List Nat := han2zen after src

/-- libcob/move.c:386-408: the padding of `cob_move_alphanum_to_national`, `len` bytes: full-width
spaces, and one space when `len` is odd. -/
def natPad (len : Nat) : List Nat :=
  (List.replicate (len / 2) [0x81, 0x40]).flatten ++ List.replicate (len % 2) 32

/-- libcob/move.c:364-411 `cob_move_alphanum_to_national` to an item of `size2` bytes. -/
def moveNational (just : Bool) (src : List Nat) (size2 : Nat) : List Nat :=
  if size2 ≤ src.length then
    if just then src.drop (src.length - size2) else src.take size2
  else
    if just then natPad (size2 - src.length) ++ src else src ++ natPad (size2 - src.length)

/-- libcob/move.c:1057-1087: one picture symbol `c`, repeated `n` times: the bytes written and the
bytes of the sending item left. -/
def natEditRun (after c : Nat) : (n : Nat) → (src : List Nat) → List Nat × List Nat
  | 0, src => ([], src)
  | n + 1, src =>
    if c = 78 then
      match src with
      | [] => let r := natEditRun after c n []
              ([0x81, 0x40] ++ r.1, r.2)
      | [a] => let r := natEditRun after c n []
               ([a, after] ++ r.1, r.2)
      | a :: b :: rest => let r := natEditRun after c n rest
                          ([a, b] ++ r.1, r.2)
    else
      let r := natEditRun after c n src
      ((if c = 47 then [0x81, 0x5E] else if c = 66 then [0x81, 0x40]
        else if c = 48 then [0x82, 0x4F] else [63]) ++ r.1, r.2)

/-- libcob/move.c:1036-1088 `cob_move_alphanum_to_national_edited`: the picture is a list of
symbols and counts; the symbols fill the item exactly. -/
def moveNationalEdited (after : Nat) : List (Nat × Nat) → List Nat → List Nat
  | [], _ => []
  | (c, n) :: pic, src =>
    let r := natEditRun after c n src
    r.1 ++ moveNationalEdited after pic r.2

/-- A receiving item: NATIONAL (JUSTIFIED or not, size in bytes) or NATIONAL-EDITED. -/
inductive NatDst where
  | plain (just : Bool) (size : Nat)
  | edited (pic : List (Nat × Nat))
deriving DecidableEq, Repr

/-- libcob/move.c:1332-1344 `judge_hankakujpn_exist` and 1520-1528: what is moved in place of the
sending item.  An item whose first byte is zero is moved as it stands. -/
def natSource (after : Nat) (src : List Nat) : List Nat :=
  match src with
  | [] => [0x81, 0x40]
  | 0 :: _ => src
  | _ => han2zen after src

/-- libcob/move.c:364-411, 1036-1088: store `src` in the receiver. -/
def storeNational (after : Nat) (dst : NatDst) (src : List Nat) : List Nat :=
  match dst with
  | .plain just size => moveNational just src size
  | .edited pic => moveNationalEdited after pic src

/-- libcob/move.c:1463-1545, 1572-1577, 1635-1640, 1664-1669 `cob_move` of an elementary
alphanumeric, alphabetic, edited or zoned item that is not NATIONAL to a NATIONAL or
NATIONAL-EDITED one.  The sign of a zoned item is not removed from its bytes. -/
def moveToNational (after : Nat) (src : List Nat) (dst : NatDst) : List Nat :=
  storeNational after dst (natSource after src)

/-- libcob/move.c:1389, 1394-1399: the converted literal in `cob_move_all`, of size 0 if it was not
converted. -/
def natAllText (after : Nat) (lit : List Nat) : List Nat :=
  match lit with
  | 0 :: _ => []
  | _ => han2zen after lit

/-- libcob/move.c:1366-1460 `cob_move_all` to a NATIONAL item of `size` bytes (the literal is not
NATIONAL): the converted literal is repeated; `lit` itself is repeated when it begins with a zero
byte. -/
def moveAllNational (after : Nat) (lit : List Nat) (just : Bool) (size : Nat) : List Nat :=
  let z := natAllText after lit
  moveNational just
    (if 1 < z.length then (List.range size).map fun i => z.getD (i % z.length) 0
     else if lit.length = 1 then List.replicate size (lit.getD 0 0)
     else
       let l := (List.range size).map fun i => lit.getD (i % lit.length) 0
       let e := l.getD (size - 1) 0
       if (0x81 ≤ e ∧ e ≤ 0x9F) ∨ (0xE0 ≤ e ∧ e ≤ 0xFC) then l.set (size - 1) 32 else l) size

/-- libcob/move.c:1520-1524 and 1589-1599, 1350-1364: MOVE of a COMP-3 item to a NATIONAL one. -/
def movePackedNational (ebc : Bool) (after : Nat) (src : Field) (dst : NatDst) : List Nat :=
  let zoned := movePackedDisp ebc { src with data := natSource after src.data }
    (tempItem src.attr.digits src.attr.scale)
  moveToNational after zoned.data dst

end Cob
