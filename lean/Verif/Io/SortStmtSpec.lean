import Verif.Io.SortStmt
/-
C76: SORT and MERGE with USING and GIVING.  Specification: the records a program reads from a file, a
record made as long as a record area.
-/
namespace Cob

/-- What `n` READ statements answer: the status and the record. -/
def readAll : OConn → Nat → List (Nat × Option (List Nat))
  | _, 0 => []
  | o, n + 1 =>
    let r := o.read
    (r.1, if r.1 = 0 then some (r.2.area.take r.2.size) else none) :: readAll r.2 n

/-- A program that opens the file for INPUT reads the records `rs` and then is told the end of the file; a
file that does not exist has no records. -/
def FileHas (c : SConn) (rs : List (List Nat)) : Prop :=
  match c.disk with
  | none => rs = []
  | some d => readAll (c.opened d) (rs.length + 2) = rs.map (fun r => (0, some r)) ++ [(10, none), (46, none)]

instance (c : SConn) (rs : List (List Nat)) : Decidable (FileHas c rs) := by
  unfold FileHas
  cases c.disk with
  | none => exact inferInstanceAs (Decidable (rs = []))
  | some d => exact inferInstanceAs (Decidable (_ = _))

/-- A record in an area of `n` characters: cut, or filled up with spaces. -/
def fitTo (n : Nat) (r : List Nat) : List Nat := r.take n ++ List.replicate (n - r.length) 32

/-- A file that can be written by GIVING: no RECORD DEPENDING item, the record area has its full size. -/
structure GivingOk (c : SConn) : Prop where
  dep : c.depending = none
  full : c.size = c.recMax
  pos : 0 < c.recMax
  min : c.recMin ≤ c.recMax
  short : c.line = false → c.recMin ≠ c.recMax → c.recMax < 65536

/-- Bytes that the file can hold: a LINE SEQUENTIAL file no line ends, unless COB_LS_NULLS is set. -/
def HoldsBytes (c : SConn) (r : List Nat) : Prop :=
  if c.line then c.nulls = false → ∀ b ∈ r, b ≠ 10 ∧ b ≠ 13 else ∀ b ∈ r, b < 256

end Cob
