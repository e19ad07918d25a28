/-
The C library stream as the file code uses it: the bytes of the file and a position.

Not modelled: I/O errors (`ferror`, full disk), buffering (the model is what a program sees through
one stream), sharing of the file with other processes.
-/
namespace Cob

/-- An open `FILE *`.  The position may lie behind the end. -/
structure Stream where
  data : List Nat
  pos : Nat
deriving DecidableEq, Repr

/-- C library `fread (p, 1, n, fp)`: the bytes read. -/
def Stream.fread (s : Stream) (n : Nat) : List Nat × Stream :=
  let bs := (s.data.drop s.pos).take n
  (bs, { s with pos := s.pos + bs.length })

/-- C library `fwrite` of the bytes `bs`: overwrites at the position, a hole before it is zeros. -/
def Stream.fwrite (s : Stream) (bs : List Nat) : Stream :=
  ⟨s.data.take s.pos ++ List.replicate (s.pos - s.data.length) 0 ++ bs ++
     s.data.drop (s.pos + bs.length), s.pos + bs.length⟩

/-- The same on a stream opened for appending ("a+"): always at the end. -/
def Stream.append (s : Stream) (bs : List Nat) : Stream :=
  ⟨s.data ++ bs, s.data.length + bs.length⟩

/-- C library `fseek (fp, off, SEEK_SET)`; `none` when the offset is negative. -/
def Stream.seekSet (s : Stream) (off : Int) : Option Stream :=
  if off < 0 then none else some { s with pos := off.toNat }

/-- C library `fseek (fp, off, SEEK_CUR)`. -/
def Stream.seekCur (s : Stream) (off : Int) : Option Stream := s.seekSet (s.pos + off)

/-! Reading and writing in the middle of the file -/

theorem Stream.fread_at (a b c : List Nat) :
    Stream.fread ⟨a ++ b ++ c, a.length⟩ b.length = (b, ⟨a ++ b ++ c, (a ++ b).length⟩) := by
  unfold Stream.fread
  simp

theorem Stream.fwrite_at (a b b' c : List Nat) (h : b'.length = b.length) :
    Stream.fwrite ⟨a ++ b ++ c, a.length⟩ b' = ⟨a ++ b' ++ c, (a ++ b').length⟩ := by
  unfold Stream.fwrite
  have h1 : a.length - (a ++ b ++ c).length = 0 := by simp
  have h2 : (a ++ b ++ c).drop (a.length + b'.length) = c := by
    rw [h, ← List.length_append, List.drop_left]
  rw [h1, h2]
  simp

theorem Stream.fwrite_end (a b : List Nat) :
    Stream.fwrite ⟨a, a.length⟩ b = ⟨a ++ b, (a ++ b).length⟩ := by
  unfold Stream.fwrite
  simp

theorem Stream.fwrite_hole (a b : List Nat) (k : Nat) :
    Stream.fwrite ⟨a, a.length + k⟩ b =
      ⟨a ++ List.replicate k 0 ++ b, (a ++ List.replicate k 0 ++ b).length⟩ := by
  unfold Stream.fwrite
  rw [List.take_of_length_le (by simp), List.drop_of_length_le (by simp; omega)]
  simp [Nat.add_assoc]

theorem Stream.fread_end (a : List Nat) (n k : Nat) :
    Stream.fread ⟨a, a.length + k⟩ n = ([], ⟨a, a.length + k⟩) := by
  unfold Stream.fread
  rw [List.drop_of_length_le (by simp)]
  simp

end Cob
