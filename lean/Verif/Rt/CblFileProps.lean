import Verif.Rt.CblFileSpec
import Verif.Num.BinaryProps
import Mathlib.Tactic.NormNum
import Mathlib.Tactic.Ring
import Mathlib.Data.List.Induction
/-
Helper lemmas for the byte-stream files (C82).
-/
namespace Cob.Cbl
open Spec

/-! ### Contents -/

/-- The contents of a file are what its history says. -/
def Same (d : List Nat) (h : Hist) : Prop := d.length = size h ∧ ∀ k, d.getD k 0 = byteAt h k

theorem same_nil : Same [] [] := by constructor <;> simp [size, byteAt]

theorem pwrite_length (d : List Nat) (o : Nat) (b : List Nat) (hb : b ≠ []) :
    (pwrite d o b).length = max (o + b.length) d.length := by
  unfold pwrite
  rw [if_neg hb]
  simp only [List.length_append, List.length_take, List.length_replicate, List.length_drop]
  omega

theorem pwrite_getD (d : List Nat) (o : Nat) (b : List Nat) (k : Nat) :
    (pwrite d o b).getD k 0 = if o ≤ k ∧ k < o + b.length then b.getD (k - o) 0 else d.getD k 0 := by
  unfold pwrite
  by_cases hb : b = []
  · subst hb
    simp
  · rw [if_neg hb]
    simp only [List.getD_eq_getElem?_getD]
    have l1 : (d.take o ++ List.replicate (o - d.length) 0).length = o := by
      simp only [List.length_append, List.length_take, List.length_replicate]; omega
    by_cases h1 : k < o
    · rw [if_neg (by omega), List.append_assoc, List.getElem?_append_left (by omega)]
      by_cases h2 : k < d.length
      · rw [List.getElem?_append_left (by simp; omega), List.getElem?_take, if_pos h1]
      · rw [List.getElem?_append_right (by simp; omega), List.getElem?_replicate]
        rw [List.getElem?_eq_none (l := d) (by omega)]
        split <;> rfl
    · by_cases h2 : k < o + b.length
      · rw [if_pos (by omega), List.append_assoc, List.getElem?_append_right (by omega), l1,
          List.getElem?_append_left (by omega)]
      · rw [if_neg (by omega), List.getElem?_append_right (by rw [List.length_append, l1]; omega), List.length_append, l1,
          List.getElem?_drop]
        congr 2; omega

theorem same_write {d : List Nat} {h : Hist} (e : Same d h) (o : Nat) (b : List Nat) : Same (pwrite d o b) ((o, b) :: h) := by
  constructor
  · by_cases hb : b = []
    · subst hb; simp [pwrite, size, e.1]
    · rw [pwrite_length _ _ _ hb]; simp only [size, if_neg hb, e.1]
  · intro k
    rw [pwrite_getD]; simp only [byteAt, e.2]

theorem same_contents {d : List Nat} {h : Hist} (e : Same d h) : d = contents h := by
  apply List.ext_getElem
  · simp [contents, e.1]
  · intro k h1 h2
    have := e.2 k
    rw [List.getD_eq_getElem?_getD, List.getElem?_eq_getElem h1] at this
    simpa [contents] using this

theorem same_one (d : List Nat) : Same d [(0, d)] := by
  constructor
  · simp [size]
  · intro k; simp only [byteAt]
    by_cases h : k < d.length
    · rw [if_pos (by omega)]; rfl
    · rw [if_neg (by omega), List.getD_eq_getElem?_getD, List.getElem?_eq_none (by omega)]; rfl

/-! ### Names and numbers -/

theorem nameLoop_cut (l : List Nat) : (nameLoop false l).takeWhile (fun c => c != 0) =
    l.takeWhile (fun c => c != 32 && c != 0 && c != 34) := by
  induction l with
  | nil => rfl
  | cons c r ih =>
    unfold nameLoop
    by_cases h1 : c = 34
    · subst h1; simp
    · by_cases h2 : c = 32 ∨ c = 0
      · rw [if_neg h1, if_neg (by simp), if_pos h2]
        rcases h2 with h | h <;> subst h <;> simp
      · rw [if_neg h1, if_neg (by simp), if_neg h2]
        rw [not_or] at h2
        simp [h1, h2.1, h2.2, ih]

theorem take_nameLen (d : List Nat) : ∃ t, d = d.take (nameLen d) ++ t ∧ ∀ c ∈ t, c = 32 ∨ c = 0 := by
  have h : d = (d.reverse.dropWhile (fun c => c == 32 || c == 0)).reverse ++ (d.reverse.takeWhile (fun c => c == 32 || c == 0)).reverse := by
    rw [← List.reverse_append, List.takeWhile_append_dropWhile, List.reverse_reverse]
  refine ⟨(d.reverse.takeWhile (fun c => c == 32 || c == 0)).reverse, ?_, ?_⟩
  · have e : d.take (nameLen d) = (d.reverse.dropWhile (fun c => c == 32 || c == 0)).reverse := by
      conv => lhs; arg 2; rw [h]
      unfold nameLen
      exact List.take_left' (by simp)
    rw [e]; exact h
  · intro c hc
    rw [List.mem_reverse] at hc
    have := List.all_takeWhile (l := d.reverse) (p := fun c => c == 32 || c == 0)
    rw [List.all_eq_true] at this
    simpa using this c hc

theorem nameOf_eq (d : List Nat) : nameOf d = Spec.name d := by
  unfold nameOf Spec.name
  rw [nameLoop_cut]
  obtain ⟨t, h, ht⟩ := take_nameLen d
  generalize d.take (nameLen d) = a at h
  subst h
  induction a with
  | nil => 
    cases t with
    | nil => rfl
    | cons c r => rcases ht c (by simp) with h | h <;> subst h <;> simp
  | cons c r ih =>
    simp only [List.cons_append, List.takeWhile_cons, ih]

theorem num_append (a : List Nat) (b : Nat) : num (a ++ [b]) = 256 * num a + b := by simp [num]

theorem leVal_rev (bs : List Nat) : leVal bs.reverse = num bs := by
  induction bs using List.reverseRecOn with
  | nil => rfl
  | append_singleton a b ih => rw [List.reverse_append, num_append]; simp [leVal, ih]; omega

theorem num_lt (bs : List Nat) (h : ∀ b ∈ bs, b < 256) : num bs < 256 ^ bs.length := by
  rw [← leVal_rev]
  have := leVal_lt bs.reverse (by simpa using h)
  simpa using this

theorem offsetOf_eq (o : List Nat) (h : Bytes 8 o) : offsetOf o = signed o := by
  have := num_lt o h.2
  unfold offsetOf signed toInt64
  rw [leVal_rev]
  rw [h.1] at this ⊢
  have e : num o % 2 ^ 64 = num o := Nat.mod_eq_of_lt (by norm_num at this ⊢; exact this)
  rw [e]
  norm_num

theorem lengthOf_eq (o : List Nat) (h : Bytes 4 o) : lengthOf o = signed o := by
  unfold lengthOf signed
  rw [leVal_rev, h.1]
  norm_num

theorem leBytes_rev (k n : Nat) : (leBytes k n).reverse = be k n := by
  induction k generalizing n with
  | zero => rfl
  | succ k ih =>
    simp only [leBytes, List.reverse_cons, ih]
    unfold be
    rw [List.range_succ, List.map_append]
    simp only [List.map_cons, List.map_nil]
    congr 1
    · apply List.map_congr_left
      intro i hi
      rw [List.mem_range] at hi
      rw [Nat.div_div_eq_div_mul]
      congr 2
      rw [show k + 1 - 1 - i = (k - 1 - i) + 1 from by omega, pow_succ]; ring
    · simp

theorem leBytes_handle (n : Nat) : leBytes 4 n = handleOf n := by
  simp only [leBytes, handleOf, Nat.div_div_eq_div_mul]

theorem leBytes_leVal (k : Nat) (h : List Nat) (e : Bytes k h) : leBytes k (leVal h) = h := by
  induction h generalizing k with
  | nil => have := e.1; simp at this; subst this; rfl
  | cons b r ih =>
    have l := e.1
    cases k with
    | zero => simp at l
    | succ k =>
      have hb := e.2 b (by simp)
      simp only [leBytes, leVal]
      rw [show (b + 256 * leVal r) % 256 = b from by omega, show (b + 256 * leVal r) / 256 = leVal r from by omega,
        ih k ⟨by simpa using l, fun x hx => e.2 x (by simp [hx])⟩]

theorem handle_bytes (n : Nat) : Bytes 4 (handleOf n) := by
  rw [← leBytes_handle]; exact ⟨leBytes_length _ _, leBytes_lt _ _⟩

theorem leVal_handle (n : Nat) (h : n < 2 ^ 31) : leVal (handleOf n) = n := by
  rw [← leBytes_handle, leVal_leBytes]; exact Nat.mod_eq_of_lt (by norm_num at h ⊢; omega)

end Cob.Cbl
