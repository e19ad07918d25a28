import Verif.Num.FastPath
import Verif.Num.ItemProps
import Verif.Num.CmpPackedProps
import Verif.Num.AddPackedProps
import Verif.Num.AddIntProps
/-
Properties C49 (a condition on numeric items compiled to a specialised routine gives the
relation between the numbers) and C50 (integer ADD/SUBTRACT compiled to a specialised routine).
-/
namespace Cob

/-! ### binary items -/

theorem regSigned_div (u k : Nat) (h1 : 1 ≤ k) (h8 : k ≤ 8) (hu : u < 2 ^ (8 * k)) :
    regSigned (regWidth k) (256 ^ (regWidth k - k) * u) / 2 ^ (8 * (regWidth k - k)) =
      if 2 * (u : Int) < 2 ^ (8 * k) then (u : Int) else u - 2 ^ (8 * k) := by
  have : k = 1 ∨ k = 2 ∨ k = 3 ∨ k = 4 ∨ k = 5 ∨ k = 6 ∨ k = 7 ∨ k = 8 := by omega
  unfold regSigned
  rcases this with rfl | rfl | rfl | rfl | rfl | rfl | rfl | rfl <;> norm_num [regWidth] at hu ⊢ <;>
    split <;> split <;> omega

theorem bytesVal_lt (big : Bool) (bs : List Nat) (hb : ∀ b ∈ bs, b < 256) :
    bytesVal big bs < 2 ^ (8 * bs.length) := by
  rw [← pow256]
  cases big
  · rw [← leVal_eq]; exact leVal_lt _ hb
  · rw [← leVal_reverse, ← List.length_reverse]; exact leVal_lt _ (by simpa using hb)

theorem cmpLoad_holds (f : Field) (hf : WFBinary f) :
    binaryHolds f (cmpLoad f.attr.haveSign f.attr.swap f.data) := by
  obtain ⟨h1, h8, hb⟩ := hf
  have hlt := bytesVal_lt f.attr.swap f.data hb
  unfold binaryHolds cmpLoad bswapBytes
  simp only
  have hz : ∀ l, leVal (List.replicate (regWidth f.data.length - f.data.length) 0 ++ l) =
      256 ^ (regWidth f.data.length - f.data.length) * leVal l := by
    intro l; rw [leVal_append, leVal_zeros]; simp
  have hz' : ∀ l, leVal (l ++ List.replicate (regWidth f.data.length - f.data.length) 0) = leVal l := by
    intro l; rw [leVal_append, leVal_zeros]; simp
  cases hs : f.attr.haveSign
  · simp only [Bool.false_eq_true, if_false]
    cases hw : f.attr.swap
    · simp [hz', leVal_eq]
    · simp [hz', leVal_reverse]
  · simp only [if_true]
    rw [← regSigned_div _ _ h1 h8 hlt]
    cases hw : f.attr.swap
    · simp [hz, leVal_eq]
    · simp [hz, leVal_reverse]

theorem addLoad_eq (signed swap : Bool) (data : List Nat) :
    addLoad signed swap data = cmpLoad signed swap data := by
  unfold addLoad cmpLoad bswapBytes
  cases signed <;> cases swap <;> simp

theorem cmp3 (v n : Int) : (if v < n then Ordering.lt else if v > n then .gt else .eq) = compare v n := by
  by_cases h : v < n
  · rw [if_pos h]; exact (compare_lt_iff_lt.mpr h).symm
  · rw [if_neg h]
    by_cases h' : v > n
    · rw [if_pos h']; exact (compare_gt_iff_gt.mpr h').symm
    · rw [if_neg h']
      symm; rw [compare_eq_iff_eq]; omega

theorem binaryHolds_nonneg (f : Field) (v : Int) (h : binaryHolds f v) (hs : f.attr.haveSign = false) :
    0 ≤ v := by
  unfold binaryHolds at h
  simp only [hs] at h
  simp at h
  omega

/-- C49 (binary items): for every size from 1 to 8 bytes, signed or not, in either byte order and
with any contents, the specialised comparison with an integer gives the relation between the
number the item holds and the integer. -/
theorem C49_binary (f : Field) (hf : WFBinary f) (v : Int) (hv : binaryHolds f v) (n : Int) :
    cmpBinary f.attr.haveSign f.attr.swap f.data n = compare v n := by
  have e := binaryHolds_unique f _ _ (cmpLoad_holds f hf) hv
  unfold cmpBinary
  by_cases h : (!f.attr.haveSign && decide (n < 0)) = true
  · rw [if_pos h]
    simp only [Bool.and_eq_true, Bool.not_eq_true', decide_eq_true_eq] at h
    have := binaryHolds_nonneg f v hv h.1
    exact (compare_gt_iff_gt.mpr (by omega)).symm
  · rw [if_neg h]
    simp only [e]
    exact cmp3 v n

theorem regWidth_ge (k : Nat) (h8 : k ≤ 8) : k ≤ regWidth k := by
  unfold regWidth; split_ifs <;> omega

theorem regStore_spec (swap : Bool) (k : Nat) (h8 : k ≤ 8) (x : Int) :
    (regStore swap k x).length = k ∧ (∀ b ∈ regStore swap k x, b < 256) ∧
    (bytesVal swap (regStore swap k x) : Int) = x % 2 ^ (8 * k) := by
  have hk := regWidth_ge k h8
  unfold regStore
  rw [leBytes_take _ _ _ hk]
  have hv : (leVal (leBytes k (x % 2 ^ (8 * regWidth k)).toNat) : Int) = x % 2 ^ (8 * k) := by
    rw [leVal_leBytes, pow256]
    push_cast
    rw [Int.toNat_of_nonneg (Int.emod_nonneg _ (by positivity))]
    exact Int.emod_emod_of_dvd _ (pow_dvd_pow 2 (by omega))
  cases swap
  · simp only [Bool.false_eq_true, if_false]
    exact ⟨leBytes_length _ _, leBytes_lt _ _, by rw [← leVal_eq]; exact hv⟩
  · simp only [if_true]
    refine ⟨by simp [leBytes_length], by intro b hb; exact leBytes_lt _ _ b (by simpa using hb), ?_⟩
    rw [← leVal_reverse, List.reverse_reverse]; exact hv

/-- The range of a binary item: what `size` bytes can represent. -/
def InRange (signed : Bool) (size : Nat) (v : Int) : Prop :=
  if signed then -2 ^ (8 * size - 1) ≤ v ∧ v < 2 ^ (8 * size - 1) else 0 ≤ v ∧ v < 2 ^ (8 * size)

/-- Bytes whose value is `v` modulo `2^(8 size)` hold `v` if `v` is in range. -/
theorem holds_of_mod (f : Field) (h1 : 1 ≤ f.data.length) (v : Int)
    (hr : InRange f.attr.haveSign f.data.length v)
    (hm : (bytesVal f.attr.swap f.data : Int) = v % 2 ^ (8 * f.data.length)) : binaryHolds f v := by
  unfold binaryHolds InRange at *
  simp only
  have hP : (2 : Int) ^ (8 * f.data.length) = 2 * 2 ^ (8 * f.data.length - 1) := by
    rw [← pow_succ']; congr 1; omega
  have hpos : (0 : Int) < 2 ^ (8 * f.data.length - 1) := by positivity
  rw [hm]
  generalize (2 : Int) ^ (8 * f.data.length - 1) = Q at *
  rw [hP]
  cases hs : f.attr.haveSign
  · simp only [hs, Bool.false_eq_true, if_false] at hr ⊢
    rw [Int.emod_eq_of_lt hr.1 (by omega)]
  · simp only [hs, if_true] at hr ⊢
    by_cases h0 : 0 ≤ v
    · rw [Int.emod_eq_of_lt h0 (by omega), if_pos (by omega)]
    · have : v % (2 * Q) = v + 2 * Q := by
        rw [← Int.add_emod_right, Int.emod_eq_of_lt (by omega) (by omega)]
      rw [this, if_neg (by omega)]; omega

theorem bin_mod (f : Field) (v : Int) (hv : binaryHolds f v) (hb : ∀ b ∈ f.data, b < 256) :
    v % 2 ^ (8 * f.data.length) = bytesVal f.attr.swap f.data := by
  have hlt := bytesVal_lt f.attr.swap f.data hb
  have hlt' : (bytesVal f.attr.swap f.data : Int) < 2 ^ (8 * f.data.length) := by exact_mod_cast hlt
  unfold binaryHolds at hv
  simp only at hv
  split_ifs at hv
  · rw [hv, Int.emod_eq_of_lt (by omega) hlt']
  · rw [hv, Int.sub_emod_right, Int.emod_eq_of_lt (by omega) hlt']
  · rw [hv, Int.emod_eq_of_lt (by omega) hlt']

/-- C50 (binary items): adding the integer `n` to an item holding `v`, for every size from 1 to 8
bytes, signed or not, in either byte order: the item keeps its size, its bytes are those of
`v + n` modulo `2^(8 size)`, and it holds `v + n` whenever that is in the range of the bytes. -/
theorem C50_add_binary (f : Field) (hf : WFBinary f) (v : Int) (hv : binaryHolds f v) (n : Int) :
    let g : Field := { f with data := addBinary f.attr.haveSign f.attr.swap f.data n }
    WFBinary g ∧ g.data.length = f.data.length ∧
    (bytesVal f.attr.swap g.data : Int) = (v + n) % 2 ^ (8 * f.data.length) ∧
    (InRange f.attr.haveSign f.data.length (v + n) → binaryHolds g (v + n)) := by
  intro g
  have e := binaryHolds_unique f _ _ (cmpLoad_holds f hf) hv
  obtain ⟨h1, h8, hb⟩ := hf
  obtain ⟨s1, s2, s3⟩ := regStore_spec f.attr.swap f.data.length h8 (v + n)
  have hg : g.data = regStore f.attr.swap f.data.length (v + n) := by
    simp only [g, addBinary, addLoad_eq, e]
  have hl : g.data.length = f.data.length := by rw [hg, s1]
  refine ⟨⟨by omega, by omega, by rw [hg]; exact s2⟩, hl, by rw [hg, s3], ?_⟩
  intro hr
  exact holds_of_mod g (by omega) _ (by rw [hl]; exact hr) (by rw [hl, hg]; exact s3)

/-- C50 (binary items): subtracting likewise. -/
theorem C50_sub_binary (f : Field) (hf : WFBinary f) (v : Int) (hv : binaryHolds f v) (n : Int) :
    let g : Field := { f with data := subBinary f.attr.haveSign f.attr.swap f.data n }
    WFBinary g ∧ g.data.length = f.data.length ∧
    (bytesVal f.attr.swap g.data : Int) = (v - n) % 2 ^ (8 * f.data.length) ∧
    (InRange f.attr.haveSign f.data.length (v - n) → binaryHolds g (v - n)) := by
  intro g
  have e := binaryHolds_unique f _ _ (cmpLoad_holds f hf) hv
  obtain ⟨h1, h8, hb⟩ := hf
  obtain ⟨s1, s2, s3⟩ := regStore_spec f.attr.swap f.data.length h8 (v - n)
  have hg : g.data = regStore f.attr.swap f.data.length (v - n) := by
    simp only [g, subBinary, addLoad_eq, e]
  have hl : g.data.length = f.data.length := by rw [hg, s1]
  refine ⟨⟨by omega, by omega, by rw [hg]; exact s2⟩, hl, by rw [hg, s3], ?_⟩
  intro hr
  exact holds_of_mod g (by omega) _ (by rw [hl]; exact hr) (by rw [hl, hg]; exact s3)

/-- C50: storing an integer constant into a big-endian binary item: the item holds it whenever it
is in range. -/
theorem C50_set_swapped (f : Field) (hf : WFBinary f) (hs : f.attr.swap = true) (n : Int) :
    let g : Field := { f with data := setSwpBinary f.data.length n }
    WFBinary g ∧ (InRange f.attr.haveSign f.data.length n → binaryHolds g n) := by
  intro g
  obtain ⟨h1, h8, hb⟩ := hf
  obtain ⟨s1, s2, s3⟩ := regStore_spec true f.data.length h8 n
  have hl : g.data.length = f.data.length := s1
  refine ⟨⟨by omega, by omega, s2⟩, ?_⟩
  intro hr
  exact holds_of_mod g (by omega) _ (by rw [hl]; exact hr) (by rw [hl]; simp only [g, hs]; exact s3)

/-- Non-vacuity: a signed big-endian three-byte item holding -2. -/
example :
    let f : Field := ⟨{ digits := 6, haveSign := true, swap := true }, [255, 255, 254]⟩
    WFBinary f ∧ binaryHolds f (-2) ∧ cmpBinary true true f.data (-3) = .gt ∧
    addBinary true true f.data 5 = [0, 0, 3] ∧ subBinary true true f.data 300 = [255, 254, 210] ∧
    InRange true 3 3 := by
  refine ⟨⟨by decide, by decide, by decide⟩, by norm_num [binaryHolds, bytesVal], by decide, by decide,
    by decide, by norm_num [InRange]⟩

/-! ### packed items -/

theorem packNibbles_append (l r : List Nat) (h : l.length % 2 = 0) :
    packNibbles (l ++ r) = packNibbles l ++ packNibbles r := by
  match l with
  | [] => simp [packNibbles]
  | [a] => simp at h
  | a :: b :: t =>
    simp only [List.cons_append, packNibbles]
    rw [packNibbles_append t r (by simp at h; omega)]

theorem packFold (l : List Nat) (hev : l.length % 2 = 0) (h : ∀ d ∈ l, d < 16) (acc : Int) :
    (packNibbles l).foldl (fun (v : Int) (b : Nat) => (v * 10 + (b / 16 : Nat)) * 10 + (b % 16 : Nat)) acc =
      acc * 10 ^ l.length + digitsVal l := by
  match l with
  | [] => simp [packNibbles, digitsVal]
  | [a] => simp at hev
  | a :: b :: t =>
    have ha := h a (by simp)
    have hb := h b (by simp)
    have ht : t.length % 2 = 0 := by simp at hev; omega
    simp only [packNibbles, List.foldl_cons]
    rw [packFold t ht (fun d hd => h d (by simp [hd]))]
    have e1 : (16 * a + b) / 16 = a := by omega
    have e2 : (16 * a + b) % 16 = b := by omega
    rw [e1, e2]
    simp only [digitsVal, List.length_cons, pow_succ]
    push_cast
    ring

/-- The nibbles of a packed image: an even number, then the last digit and the sign. -/
theorem packedImage_split (D m s : Nat) (hD : 0 < D) :
    ∃ l d, packedImage D m s = packNibbles l ++ [16 * d + s] ∧ l.length % 2 = 0 ∧
      (∀ x ∈ l, x ≤ 9) ∧ d ≤ 9 ∧ digitsVal (l ++ [d]) = m % 10 ^ D ∧ l.length = 2 * (D / 2) := by
  obtain ⟨k, rfl⟩ : ∃ k, D = k + 1 := ⟨D - 1, by omega⟩
  refine ⟨(if (k + 1) % 2 = 0 then [0] else []) ++ fixedDigits k (m / 10), m % 10, ?_, ?_, ?_, by omega,
    ?_, ?_⟩
  · rw [packedImage, fixedDigits]
    rw [show (if (k + 1) % 2 = 0 then [0] else []) ++ (fixedDigits k (m / 10) ++ [m % 10]) ++ [s] =
      ((if (k + 1) % 2 = 0 then [0] else []) ++ fixedDigits k (m / 10)) ++ [m % 10, s] by simp]
    rw [packNibbles_append]
    · simp [packNibbles]
    · split <;> simp [fixedDigits_length] <;> omega
  · split <;> simp [fixedDigits_length] <;> omega
  · intro x hx
    simp only [List.mem_append] at hx
    rcases hx with hx | hx
    · split at hx <;> simp at hx; omega
    · exact fixedDigits_le _ _ x hx
  · have h1 := digitsVal_fixedDigits (k + 1) m
    rw [fixedDigits] at h1
    rw [← h1]
    split <;> simp [digitsVal]
  · split <;> simp [fixedDigits_length] <;> omega

theorem getPackedInt_image (D m s : Nat) (hD : 0 < D) (hs : s < 16) (hm : m < 10 ^ D) :
    getPackedInt (packedImage D m s) = if s = 13 then -(m : Int) else m := by
  obtain ⟨l, d, h1, h2, h3, h4, h5, -⟩ := packedImage_split D m s hD
  unfold getPackedInt
  rw [h1]
  simp only [List.dropLast_concat, List.getLastD_concat]
  rw [packFold l h2 (fun x hx => by have := h3 x hx; omega)]
  have e1 : (16 * d + s) / 16 = d := by omega
  have e2 : (16 * d + s) % 16 = s := by omega
  rw [Nat.mod_eq_of_lt hm, digitsVal_append] at h5
  simp only [digitsVal, List.length_cons, List.length_nil] at h5
  rw [e1, e2]
  have : (0 * 10 ^ l.length + (digitsVal l : Int)) * 10 + (d : Int) = m := by
    rw [← h5]; push_cast; ring
  rw [this]

/-- C49 (packed items of at most nine digits): the specialised comparison gives the relation
between the number the item holds and the integer. -/
theorem C49_packed (ebc : Bool) (f : Field) (hf : WFPacked f) (u : Int)
    (hu : HoldsUnits ebc ⟨.packed, f⟩ u) (n : Int) :
    cmpPackedInt f.data n = compare u n := by
  obtain ⟨neg, m, hm, hd, hu⟩ := hu
  simp only at hm hd hu
  unfold cmpPackedInt
  rw [hd, getPackedInt_image _ _ _ hf.1 (by unfold signNibble; split <;> [skip; split] <;> omega) hm]
  have : (if signNibble f.attr neg = 13 then -(m : Int) else (m : Int)) = u := by
    rw [hu]; unfold signNibble
    cases f.attr.haveSign <;> cases neg <;> simp
  rw [this]
  exact cmp3 u n

theorem packNibbles_two (k V : Nat) :
    packNibbles (fixedDigits (2 * (k + 1)) V) =
      packNibbles (fixedDigits (2 * k) (V / 100)) ++ [16 * (V / 10 % 10) + V % 10] := by
  rw [show 2 * (k + 1) = (2 * k + 1) + 1 by ring, fixedDigits, fixedDigits, Nat.div_div_eq_div_mul]
  rw [List.append_assoc, packNibbles_append _ _ (by rw [fixedDigits_length]; omega)]
  simp [packNibbles]

theorem addPackedLoop_eq (k : Nat) : ∀ (V n c : Nat),
    addPackedLoop (packNibbles (fixedDigits (2 * k) V)).reverse n c =
      (packNibbles (fixedDigits (2 * k) (V + n + c))).reverse := by
  induction k with
  | zero => intro V n c; simp [fixedDigits, packNibbles, addPackedLoop]
  | succ k ih =>
    intro V n c
    rw [packNibbles_two, packNibbles_two, List.reverse_append, List.reverse_append]
    simp only [List.reverse_cons, List.reverse_nil, List.nil_append, List.singleton_append]
    rw [addPackedLoop]
    by_cases h : c = 0 ∧ n = 0
    · rw [if_pos h]; obtain ⟨rfl, rfl⟩ := h; simp
    · rw [if_neg h]
      have e1 : (16 * (V / 10 % 10) + V % 10) / 16 = V / 10 % 10 := by omega
      have e2 : (16 * (V / 10 % 10) + V % 10) % 16 = V % 10 := by omega
      simp only [e1, e2]
      rw [ih]
      congr 1
      · omega
      · congr 3; omega

/-- A packed image, whatever the parity of its digit count, by its bytes. -/
theorem packedImage_bytes (D m s : Nat) (hD : 0 < D) (hm : m < 10 ^ D) :
    packedImage D m s = packNibbles (fixedDigits (2 * (D / 2)) (m / 10)) ++ [16 * (m % 10) + s] := by
  obtain ⟨k, rfl⟩ : ∃ k, D = k + 1 := ⟨D - 1, by omega⟩
  rw [packedImage, fixedDigits]
  have key : (if (k + 1) % 2 = 0 then [0] else []) ++ fixedDigits k (m / 10) =
      fixedDigits (2 * ((k + 1) / 2)) (m / 10) := by
    by_cases hp : (k + 1) % 2 = 0
    · rw [if_pos hp, show 2 * ((k + 1) / 2) = k + 1 by omega]
      have := fixedDigits_pad k (k + 1) (m / 10) (by rw [pow_succ] at hm; omega) (by omega)
      rw [this]; simp
    · rw [if_neg hp, show 2 * ((k + 1) / 2) = k by omega]; simp
  rw [show (if (k + 1) % 2 = 0 then [0] else []) ++ (fixedDigits k (m / 10) ++ [m % 10]) ++ [s] =
      ((if (k + 1) % 2 = 0 then [0] else []) ++ fixedDigits k (m / 10)) ++ [m % 10, s] by simp]
  rw [key, packNibbles_append _ _ (by rw [fixedDigits_length]; omega)]
  simp [packNibbles]

/-- C50 (packed items, operand with the sign of the item): the digits become those of the sum of
the magnitudes, kept to the number of digits the bytes have room for: the digits of the picture,
and one more if that is even.  Nothing is reported if the sum has more digits. -/
theorem C50_add_packed_same_sign (a : Attr) (neg : Bool) (m : Nat) (hD : 0 < a.digits)
    (hm : m < 10 ^ a.digits) (n : Int)
    (hsg : if a.haveSign = true ∧ neg = true then n ≤ 0 else 0 ≤ n)
    (hroom : m + n.natAbs < 10 ^ (2 * (a.digits / 2) + 1)) :
    addPackedInt ⟨a, packedImage a.digits m (signNibble a neg)⟩ n =
      ⟨a, packedImage (2 * (a.digits / 2) + 1) (m + n.natAbs) (signNibble a neg)⟩ := by
  have hs16 : signNibble a neg < 16 := by unfold signNibble; split <;> [skip; split] <;> omega
  rw [packedImage_bytes (2 * (a.digits / 2) + 1) _ _ (by omega) hroom,
    packedImage_bytes a.digits m _ hD hm]
  rw [show 2 * ((2 * (a.digits / 2) + 1) / 2) = 2 * (a.digits / 2) by omega]
  unfold addPackedInt
  by_cases h0 : n = 0
  · rw [if_pos h0, h0]; simp
  · rw [if_neg h0]
    simp only [List.getLastD_concat, List.dropLast_concat]
    have e1 : (16 * (m % 10) + signNibble a neg) / 16 = m % 10 := by omega
    have e2 : (16 * (m % 10) + signNibble a neg) % 16 = signNibble a neg := by omega
    have h13 : signNibble a neg = 13 ↔ (a.haveSign = true ∧ neg = true) := by
      unfold signNibble; cases a.haveSign <;> cases neg <;> simp
    rw [e1, e2, if_neg]
    · rw [addPackedLoop_eq, List.reverse_reverse]
      congr 1
      congr 1
      · congr 2; omega
      · congr 1; omega
    · split at hsg <;> rename_i hc
      · rintro (⟨_, h⟩ | ⟨h, _⟩)
        · omega
        · exact h (h13.mpr hc)
      · rintro (⟨h, _⟩ | ⟨_, h⟩)
        · exact hc (h13.mp h)
        · omega

/-- C50 (packed items of at most nine digits): if the sum fits the picture, the item holds it (its
absolute value if the item is unsigned). -/
theorem C50_add_packed (ebc : Bool) (f : Field) (hf : WFPacked f) (h0 : f.attr.scale = 0) (u n : Int)
    (hu : HoldsUnits ebc ⟨.packed, f⟩ u) (hn : n.natAbs < 10 ^ f.attr.digits)
    (hfit : (u + n).natAbs < 10 ^ f.attr.digits) :
    (addPackedInt f n).attr = f.attr ∧
    HoldsUnits ebc ⟨.packed, addPackedInt f n⟩
      (if f.attr.haveSign then u + n else ((u + n).natAbs : Int)) := by
  have hu' := hu
  obtain ⟨neg, m, hm, hd, hu⟩ := hu
  simp only at hm hd hu
  obtain ⟨a, data⟩ := f
  simp only at hm hd hu hn hfit h0
  have hD : 0 < a.digits := hf.1
  subst hd
  by_cases hsg : (if a.haveSign = true ∧ neg = true then n ≤ 0 else 0 ≤ n)
  · have hsum : m + n.natAbs = (u + n).natAbs := by
      rw [hu]
      split at hsg <;> rename_i hc
      · simp only [hc.1, hc.2, Bool.and_self, if_true]; omega
      · rw [if_neg (by simpa using hc)]; omega
    have hle : (10 : Nat) ^ a.digits ≤ 10 ^ (2 * (a.digits / 2) + 1) :=
      Nat.pow_le_pow_right (by norm_num) (by omega)
    rw [C50_add_packed_same_sign a neg m hD hm n hsg (by omega)]
    refine ⟨rfl, neg, m + n.natAbs, by rw [hsum]; exact hfit, ?_, ?_⟩
    · simp only
      rw [packedImage_bytes _ _ _ hD (by rw [hsum]; exact hfit), packedImage_bytes _ _ _ (by omega) (by omega)]
      rw [show 2 * ((2 * (a.digits / 2) + 1) / 2) = 2 * (a.digits / 2) by omega]
    · simp only
      split at hsg <;> rename_i hc
      · simp only [hc.1, hc.2, Bool.and_self, if_true] at hu ⊢; omega
      · have hc' : (a.haveSign && neg) = false := by
          cases hh : a.haveSign <;> cases hn' : neg <;> simp_all
        simp only [hc', Bool.false_eq_true, if_false] at hu ⊢
        split <;> omega
  · have hne : n ≠ 0 := by rintro rfl; split at hsg <;> exact hsg (le_refl _)
    have hs16 : signNibble a neg < 16 := by unfold signNibble; split <;> [skip; split] <;> omega
    have hcall : addPackedInt ⟨a, packedImage a.digits m (signNibble a neg)⟩ n =
        cobAddPacked ⟨a, packedImage a.digits m (signNibble a neg)⟩ n := by
      unfold addPackedInt
      rw [if_neg hne]
      simp only
      rw [packedImage_bytes a.digits m _ hD hm]
      simp only [List.getLastD_concat]
      rw [show (16 * (m % 10) + signNibble a neg) % 16 = signNibble a neg by omega]
      have h13 : signNibble a neg = 13 ↔ (a.haveSign = true ∧ neg = true) := by
        unfold signNibble; cases a.haveSign <;> cases neg <;> simp
      rw [if_pos]
      split at hsg <;> rename_i hc
      · left; exact ⟨h13.mpr hc, by omega⟩
      · right; exact ⟨fun h => hc (h13.mp h), by omega⟩
    rw [hcall]
    have := C11_add_packed ebc ⟨a, packedImage a.digits m (signNibble a neg)⟩ hf u n hu'
      (by simpa [h0] using hn) (by simpa [h0] using hfit)
    simpa [h0] using this

/-- Finding (C50): adding 1 to a PIC 99 COMP-3 item holding 99 leaves 100 in the bytes: the
specialised comparison then sees 100, every other statement sees 00. -/
theorem C50_packed_spare_nibble :
    let f : Field := ⟨{ digits := 2 }, [0x09, 0x9F]⟩
    addPackedInt f 1 = ⟨f.attr, [0x10, 0x0F]⟩ ∧ cmpPackedInt [0x10, 0x0F] 99 = .gt ∧
    decSetPacked ⟨f.attr, [0x10, 0x0F]⟩ = ⟨0, 0⟩ := by decide

/-- Non-vacuity: S9(4) COMP-3 holding -12, ADD -345 and ADD 345. -/
example :
    let f : Field := ⟨{ digits := 4, haveSign := true }, [0x00, 0x01, 0x2D]⟩
    WFPacked f ∧ HoldsUnits false ⟨.packed, f⟩ (-12) ∧ addPackedInt f (-345) = ⟨f.attr, [0x00, 0x35, 0x7D]⟩ ∧
    addPackedInt f 345 = ⟨f.attr, [0x00, 0x33, 0x3C]⟩ ∧ cmpPackedInt f.data (-11) = .lt := by
  refine ⟨⟨by decide, by decide⟩, ⟨true, 12, by decide, by decide, by decide⟩, by decide, by decide, by decide⟩

end Cob
