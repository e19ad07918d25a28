import Verif.Num.Field
import Mathlib.Tactic.Ring
import Mathlib.Tactic.Linarith
import Mathlib.Data.List.Basic
/-
Helper lemmas about digit strings, sign bytes, packed and binary images.
-/
namespace Cob

theorem decStr_ne_nil (n : Nat) : decStr n ≠ [] := by
  unfold decStr; split <;> simp

theorem decStr_digit (n : Nat) : ∀ b ∈ decStr n, 48 ≤ b ∧ b ≤ 57 := by
  induction n using Nat.strongRecOn with
  | _ n ih =>
    unfold decStr
    split
    · intro b hb; simp at hb; omega
    · intro b hb
      simp only [List.mem_append, List.mem_singleton] at hb
      rcases hb with hb | hb
      · exact ih _ (by omega) b hb
      · omega

theorem strVal_foldl (bs : List Nat) (a : Nat) :
    bs.foldl (fun n b => n * 10 + (b - 48)) a = a * 10 ^ bs.length + strVal bs := by
  induction bs generalizing a with
  | nil => simp [strVal]
  | cons b bs ih =>
    unfold strVal
    simp only [List.foldl_cons, List.length_cons]
    rw [ih, ih (0 * 10 + (b - 48))]
    ring

theorem strVal_append (a b : List Nat) : strVal (a ++ b) = strVal a * 10 ^ b.length + strVal b := by
  rw [strVal, List.foldl_append, strVal_foldl]
  rfl

theorem strVal_cons (b : Nat) (bs : List Nat) :
    strVal (b :: bs) = (b - 48) * 10 ^ bs.length + strVal bs := by
  have := strVal_append [b] bs
  simpa [strVal] using this

theorem strVal_decStr (n : Nat) : strVal (decStr n) = n := by
  induction n using Nat.strongRecOn with
  | _ n ih =>
    unfold decStr
    split
    · simp [strVal]
    · rw [strVal_append, ih _ (by omega)]
      simp [strVal]
      omega

theorem strVal_lt (bs : List Nat) (h : ∀ b ∈ bs, 48 ≤ b ∧ b ≤ 57) : strVal bs < 10 ^ bs.length := by
  induction bs with
  | nil => simp [strVal]
  | cons b bs ih =>
    rw [strVal_cons, List.length_cons, Nat.pow_succ]
    have h1 := ih (fun x hx => h x (by simp [hx]))
    have h2 := h b (by simp)
    have h3 : (b - 48) ≤ 9 := by omega
    nlinarith [Nat.mul_le_mul_right (10 ^ bs.length) h3]

theorem decStr_length_le (n k : Nat) (hk : 0 < k) : (decStr n).length ≤ k ↔ n < 10 ^ k := by
  induction n using Nat.strongRecOn generalizing k with
  | _ n ih =>
    unfold decStr
    split
    · simp
      constructor
      · intro _
        calc n < 10 := by omega
          _ = 10 ^ 1 := by norm_num
          _ ≤ 10 ^ k := Nat.pow_le_pow_right (by norm_num) hk
      · intro _; omega
    · rename_i hn
      simp only [List.length_append, List.length_singleton]
      rcases Nat.lt_or_ge 1 k with h1 | h1
      · have := ih (n / 10) (by omega) (k - 1) (by omega)
        have e : 10 ^ k = 10 * 10 ^ (k - 1) := by
          rw [← Nat.pow_succ']; congr 1; omega
        constructor
        · intro h
          have := this.mp (by omega)
          rw [e]; omega
        · intro h
          have := this.mpr (by rw [e] at h; omega)
          omega
      · have hk1 : k = 1 := by omega
        subst hk1
        have : (decStr (n / 10)).length ≠ 0 := by
          intro h; exact decStr_ne_nil _ (List.length_eq_zero_iff.mp h)
        constructor
        · intro h; omega
        · intro h; omega

theorem strVal_drop (n k : Nat) (hk : k ≤ (decStr n).length) :
    strVal ((decStr n).drop ((decStr n).length - k)) = n % 10 ^ k := by
  have h := strVal_append ((decStr n).take ((decStr n).length - k)) ((decStr n).drop ((decStr n).length - k))
  rw [List.take_append_drop, strVal_decStr] at h
  have hlen : ((decStr n).drop ((decStr n).length - k)).length = k := by
    rw [List.length_drop]; omega
  rw [hlen] at h
  have hlt := strVal_lt ((decStr n).drop ((decStr n).length - k))
    (fun b hb => decStr_digit n b (List.mem_of_mem_drop hb))
  rw [hlen] at hlt
  conv_rhs => rw [h]
  rw [Nat.add_comm, Nat.add_mul_mod_self_right, Nat.mod_eq_of_lt hlt]

theorem strVal_replicate_zero (k : Nat) (bs : List Nat) :
    strVal (List.replicate k 48 ++ bs) = strVal bs := by
  induction k with
  | zero => simp
  | succ k ih => rw [List.replicate_succ, List.cons_append, strVal_cons, ih]; simp

theorem strVal_dropWhile (bs : List Nat) : strVal (bs.dropWhile (· == 48)) = strVal bs := by
  induction bs with
  | nil => rfl
  | cons b bs ih =>
    rw [List.dropWhile_cons]
    split
    · rename_i h
      have : b = 48 := by simpa using h
      rw [ih, strVal_cons, this]; simp
    · rfl

theorem strVal_all_zero (bs : List Nat) (h : bs.dropWhile (· == 48) = []) : strVal bs = 0 := by
  rw [← strVal_dropWhile, h]; rfl

theorem foldl_mod_eq (bs : List Nat) (a : Int) (M : Int) (h : ∀ b ∈ bs, 48 ≤ b) :
    bs.foldl (fun (n : Int) (b : Nat) => (n * 10 + ((b : Int) - 48)) % M) (a % M) =
      (a * 10 ^ bs.length + (strVal bs : Int)) % M := by
  induction bs generalizing a with
  | nil => simp [strVal]
  | cons b bs ih =>
    simp only [List.foldl_cons]
    have e : (a % M * 10 + ((b:Int) - 48)) % M = (a * 10 + ((b:Int) - 48)) % M := by
      rw [Int.add_emod, Int.mul_emod, Int.emod_emod_of_dvd _ (dvd_refl M), ← Int.mul_emod, ← Int.add_emod]
    rw [e, ih _ (fun x hx => h x (by simp [hx])), strVal_cons]
    have hb := h b (by simp)
    congr 1
    push_cast [List.length_cons, Nat.cast_sub hb]
    ring

end Cob
