import Verif.Rt.CblFile
/-
What a program may expect of the routines for byte-stream files, without looking at how they work.  A file is known by the
history of the writes to it since it was last emptied: the byte at a position is the one of the last write that covers it.
From the model only the types of the calls and of their results are used.
-/
namespace Cob.Cbl.Spec

/-- The writes to a file since it was created or emptied, the last one first: where and what. -/
abbrev Hist := List (Nat × List Nat)

/-- The size of a file: the end of the write that reaches farthest. -/
def size : Hist → Nat
  | [] => 0
  | (o, b) :: r => if b = [] then size r else max (o + b.length) (size r)

/-- The byte at a position: that of the last write that covers it; zero when none does. -/
def byteAt : Hist → Nat → Nat
  | [], _ => 0
  | (o, b) :: r, k => if o ≤ k ∧ k < o + b.length then b.getD (k - o) 0 else byteAt r k

/-- All bytes of a file. -/
def contents (h : Hist) : List Nat := (List.range (size h)).map (byteAt h)

/-- The name in a parameter: what is before the first space, NUL or quotation mark. -/
def name (d : List Nat) : List Nat := d.takeWhile (fun c => c != 32 && c != 0 && c != 34)

/-- The number in a binary parameter, the most significant byte first. -/
def num (bs : List Nat) : Nat := bs.foldl (fun a b => 256 * a + b) 0

/-- The same with a sign (two's complement). -/
def signed (bs : List Nat) : Int := if num bs < 256 ^ bs.length / 2 then num bs else num bs - 256 ^ bs.length

/-- The `k` bytes of a number, the most significant one first. -/
def be (k n : Nat) : List Nat := (List.range k).map (fun i => n / 256 ^ (k - 1 - i) % 256)

/-- The four bytes of a handle. -/
def handleOf (n : Nat) : List Nat := [n % 256, n / 256 % 256, n / 65536 % 256, n / 16777216 % 256]

/-- What a program knows: the file behind each name, the history of each file, and behind each handle a file with the right
to read and to write.  `count` files have existed. -/
structure View where
  names : List Nat → Option Nat
  hist : Nat → Hist
  handles : List Nat → Option (Nat × Bool × Bool)
  count : Nat

def View.setHist (v : View) (i : Nat) (h : Hist) : View := { v with hist := fun x => if x = i then h else v.hist x }
def View.setName (v : View) (p : List Nat) (i : Option Nat) : View := { v with names := fun x => if x = p then i else v.names x }
def View.setHandle (v : View) (h : List Nat) (f : Option (Nat × Bool × Bool)) : View :=
  { v with handles := fun x => if x = h then f else v.handles x }

/-- The file behind a name, emptied; a new one if there is none. -/
def emptied (v : View) (p : List Nat) : Option (View × Nat) :=
  match v.names p with
  | some i => some (v.setHist i [], i)
  | none => if p = [] then none
    else some ({ (v.setName p (some v.count)).setHist v.count [] with count := v.count + 1 }, v.count)

/-- A new handle for an opened file; no handle if the file was not there or the operating system refuses. -/
def openDone (v : View) (ans : Option Nat) (file : Option (View × Nat)) (rd wr : Bool) : View × Res :=
  match ans, file with
  | some n, some (v', i) => (v'.setHandle (handleOf n) (some (i, rd, wr)), ⟨0, [handleOf n]⟩)
  | _, _ => (v, ⟨35, [[255, 255, 255, 255]]⟩)

/-- OPEN (1: to read, 2: to write, 3: both) and CREATE.  CREATE and opening to write empty the file, or create it. -/
def openFile (v : View) (nm : List Nat) (access : Nat) (create : Bool) (ans : Option Nat) : View × Res :=
  let acc := access % 64
  if acc = 0 ∨ 3 < acc then (v, ⟨-1, [[255, 255, 255, 255]]⟩)
  else openDone v ans (if create = true ∨ acc = 2 then emptied v nm else (v.names nm).map (fun i => (v, i)))
    (decide (acc ≠ 2)) (decide (acc ≠ 1))

/-- READ: the bytes of the file from the offset on as far as there are any; 10 at the end. -/
def read (v : View) (h offset len : List Nat) (flags : Nat) (buf : List Nat) (ok : Bool) : Res :=
  match v.handles h with
  | none => ⟨-1, [offset, buf]⟩
  | some (i, rd, _) =>
    if signed offset < 0 then ⟨-1, [offset, buf]⟩
    else
      let o := (signed offset).toNat
      let l := (signed len).toNat
      let off := if flags.testBit 7 then be 8 (size (v.hist i)) else offset
      if l = 0 then ⟨0, [off, buf]⟩
      else if rd = false ∨ ok = false then ⟨-1, [off, buf]⟩
      else ⟨if o < size (v.hist i) then 0 else 10,
            [off, (List.range buf.length).map (fun k =>
              if k < l ∧ o + k < size (v.hist i) then byteAt (v.hist i) (o + k) else buf.getD k 0)]⟩

/-- WRITE: one more write in the history. -/
def write (v : View) (h offset len : List Nat) (buf : List Nat) (ans : Option Nat) : View × Res :=
  match v.handles h with
  | none => (v, ⟨-1, []⟩)
  | some (i, _, wr) =>
    if signed offset < 0 then (v, ⟨-1, []⟩)
    else if wr = true ∧ 0 ≤ signed len ∧ ans ≠ none then
      (v.setHist i (((signed offset).toNat, buf.take (signed len).toNat) :: v.hist i), ⟨0, []⟩)
    else (v, ⟨30, []⟩)

def close (v : View) (h : List Nat) : View × Res :=
  if v.handles h = none then (v, ⟨-1, []⟩) else (v.setHandle h none, ⟨0, []⟩)

def delete (v : View) (nm : List Nat) (ok : Bool) : View × Res :=
  if ok = true ∧ v.names nm ≠ none then (v.setName nm none, ⟨0, []⟩) else (v, ⟨128, []⟩)

def rename (v : View) (n1 n2 : List Nat) (ok : Bool) : View × Res :=
  if v.names n1 = none ∨ ok = false ∨ n2 = [] then (v, ⟨128, []⟩)
  else if v.names n1 = v.names n2 then (v, ⟨0, []⟩)
  else ((v.setName n2 (v.names n1)).setName n1 none, ⟨0, []⟩)

/-- COPY: the second file then holds what the first holds. -/
def copy (v : View) (n1 n2 : List Nat) (ok1 ok2 : Bool) : View × Res :=
  match v.names n1, emptied v n2 with
  | some i1, some (v', i2) =>
    if ok1 = true ∧ ok2 = true then (v'.setHist i2 [(0, contents (v.hist i1))], ⟨0, []⟩) else (v, ⟨-1, []⟩)
  | _, _ => (v, ⟨-1, []⟩)

def exist (v : View) (nm info : List Nat) (tm : Tm) : Res :=
  match v.names nm with
  | none => ⟨35, [info]⟩
  | some i => ⟨0, [be 8 (size (v.hist i)) ++ [tm.day, tm.mon] ++ be 2 tm.year ++ [tm.hour, tm.min, tm.sec, 0] ++ info.drop 16]⟩

def step (v : View) : Op → View × Res
  | .openFile n a ans => openFile v (name n) a false ans
  | .createFile n a ans => openFile v (name n) a true ans
  | .read h o l f b ok => (v, read v h o l f b ok)
  | .write h o l b ans => write v h o l b ans
  | .close h => close v h
  | .delete n ok => delete v (name n) ok
  | .rename n1 n2 ok => rename v (name n1) (name n2) ok
  | .copy n1 n2 ok1 ok2 _ => copy v (name n1) (name n2) ok1 ok2
  | .exist n i tm => (v, exist v (name n) i tm)

def run (v : View) : List Op → View × List Res
  | [] => (v, [])
  | o :: r => let a := step v o; let b := run a.1 r; (b.1, a.2 :: b.2)

/-- A parameter of `k` bytes. -/
def Bytes (k : Nat) (bs : List Nat) : Prop := bs.length = k ∧ ∀ b ∈ bs, b < 256

/-- The calls the property is about: parameters of the documented sizes, a buffer that is not smaller than the length says; the
operating system gives a new handle a number that is not in use and below 2^31, and takes either all bytes of a WRITE or
none, and all bytes of a COPY; no COPY of a file to itself. -/
def Good (v : View) : Op → Prop
  | .openFile _ _ ans | .createFile _ _ ans => ∀ n, ans = some n → n < 2 ^ 31 ∧ v.handles (handleOf n) = none
  | .read h o l _ b _ => Bytes 4 h ∧ Bytes 8 o ∧ Bytes 4 l ∧ signed l ≤ b.length
  | .write h o l b ans => Bytes 4 h ∧ Bytes 8 o ∧ Bytes 4 l ∧ signed l ≤ b.length ∧ ∀ k, ans = some k → signed l ≤ k
  | .close h => Bytes 4 h
  | .copy n1 n2 _ _ ans => (∀ j, ∃ k, ans j = some k ∧ 1024 ≤ k) ∧ (v.names (name n1) = none ∨ v.names (name n1) ≠ v.names (name n2))
  | _ => True

/-- A history of such calls. -/
def GoodAll (v : View) : List Op → Prop
  | [] => True
  | o :: r => Good v o ∧ GoodAll (step v o).1 r

end Cob.Cbl.Spec
