import Verif.Num.PackedProps
/-
Properties C03 (binary round trip) and C04 for BINARY receivers.
-/
namespace Cob

/-! ### specification -/

/-- The unsigned number a byte string stands for, big-endian or little-endian. -/
def bytesVal (big : Bool) (bs : List Nat) : Nat :=
  if big then bs.foldl (fun n b => n * 256 + b) 0 else bs.foldr (fun b n => b + 256 * n) 0

/-- The number a `size`-byte binary item holds: two's complement when signed.  On the
little-endian machine modelled, `swap` items are big-endian. -/
def binaryHolds (f : Field) (v : Int) : Prop :=
  let u : Int := bytesVal f.attr.swap f.data
  let m : Int := 2 ^ (8 * f.data.length)
  if f.attr.haveSign then v = (if 2 * u < m then u else u - m) else v = u

/-- A binary item as the compiler lays it out: 1 to 8 bytes. -/
def WFBinary (f : Field) : Prop :=
  1 ≤ f.data.length ∧ f.data.length ≤ 8 ∧ ∀ b ∈ f.data, b < 256

/-! ### helper lemmas -/

theorem leVal_eq (bs : List Nat) : leVal bs = bytesVal false bs := by
  induction bs with
  | nil => rfl
  | cons b t ih => simp only [leVal, bytesVal] at *; simp [ih]

theorem leVal_reverse (bs : List Nat) : leVal bs.reverse = bytesVal true bs := by
  rw [leVal_eq]
  simp [bytesVal, List.foldr_reverse]
  congr 1
  funext n b
  omega

theorem leVal_append (a b : List Nat) : leVal (a ++ b) = leVal a + 256 ^ a.length * leVal b := by
  induction a with
  | nil => simp [leVal]
  | cons x t ih => simp only [List.cons_append, leVal, ih, List.length_cons, pow_succ]; ring

theorem leVal_zeros (k : Nat) : leVal (List.replicate k 0) = 0 := by
  induction k with
  | zero => rfl
  | succ k ih => simp [List.replicate_succ, leVal, ih]

theorem leVal_lt (bs : List Nat) (h : ∀ b ∈ bs, b < 256) : leVal bs < 256 ^ bs.length := by
  induction bs with
  | nil => simp [leVal]
  | cons b t ih =>
    have h1 := h b (by simp)
    have h2 := ih (fun x hx => h x (by simp [hx]))
    simp only [leVal, List.length_cons, pow_succ]
    omega

theorem leBytes_length (k n : Nat) : (leBytes k n).length = k := by
  induction k generalizing n with
  | zero => rfl
  | succ k ih => simp [leBytes, ih]

theorem leBytes_lt (k n : Nat) : ∀ b ∈ leBytes k n, b < 256 := by
  induction k generalizing n with
  | zero => simp [leBytes]
  | succ k ih =>
    intro b hb
    simp only [leBytes, List.mem_cons] at hb
    rcases hb with rfl | hb
    · omega
    · exact ih _ b hb

theorem leVal_leBytes (k n : Nat) : leVal (leBytes k n) = n % 256 ^ k := by
  induction k generalizing n with
  | zero => simp [leBytes, leVal, Nat.mod_one]
  | succ k ih =>
    rw [leBytes, leVal, ih, pow_succ, Nat.mul_comm (256 ^ k) 256, Nat.mod_mul]

theorem leBytes_take (k m n : Nat) (h : k ≤ m) : (leBytes m n).take k = leBytes k n := by
  induction k generalizing m n with
  | zero => simp [leBytes]
  | succ k ih =>
    cases m with
    | zero => omega
    | succ m => simp [leBytes, ih m (n / 256) (by omega)]

theorem reverse_drop_take (l : List Nat) (k : Nat) (h : k ≤ l.length) :
    (l.reverse.drop (l.length - k)).take k = (l.take k).reverse := by
  rw [List.reverse_take, List.take_of_length_le]
  simp
  omega

theorem binSet_data (f : Field) (n : Int) (h8 : f.data.length ≤ 8) :
    (binSet f n).attr = f.attr ∧ (binSet f n).data =
      (if f.attr.swap then (leBytes f.data.length (n % 2 ^ 64).toNat).reverse
       else leBytes f.data.length (n % 2 ^ 64).toNat) := by
  unfold binSet bswapBytes
  cases f.attr.swap
  · simp [leBytes_take _ _ _ h8]
  · have := reverse_drop_take (leBytes 8 (n % 2 ^ 64).toNat) f.data.length (by rw [leBytes_length]; exact h8)
    rw [leBytes_length] at this
    simp only [if_true, this, leBytes_take _ _ _ h8, and_self]

theorem pow256 (k : Nat) : (256 : Nat) ^ k = 2 ^ (8 * k) := by
  rw [show (256 : Nat) = 2 ^ 8 by norm_num, ← pow_mul]

theorem pow64_dvd (k : Nat) (h : k ≤ 8) : (2 : Int) ^ (8 * k) ∣ 18446744073709551616 := by
  rw [show (18446744073709551616 : Int) = 2 ^ 64 by norm_num]
  exact pow_dvd_pow 2 (by omega)

theorem binSet_spec (f : Field) (n : Int) (h8 : f.data.length ≤ 8) :
    (binSet f n).attr = f.attr ∧ (binSet f n).data.length = f.data.length ∧
    (∀ b ∈ (binSet f n).data, b < 256) ∧
    (bytesVal f.attr.swap (binSet f n).data : Int) = n % 2 ^ (8 * f.data.length) := by
  obtain ⟨h1, h2⟩ := binSet_data f n h8
  refine ⟨h1, ?_, ?_, ?_⟩
  · rw [h2]; split <;> simp [leBytes_length]
  · intro b hb
    rw [h2] at hb
    split at hb
    · exact leBytes_lt _ _ b (by simpa using hb)
    · exact leBytes_lt _ _ b hb
  · have hv : bytesVal f.attr.swap (binSet f n).data = (n % 2 ^ 64).toNat % 256 ^ f.data.length := by
      rw [h2]
      cases f.attr.swap
      · simp [← leVal_eq, leVal_leBytes]
      · simp [← leVal_reverse, leVal_leBytes]
    rw [hv, pow256]
    push_cast
    rw [Int.toNat_of_nonneg (Int.emod_nonneg _ (by norm_num))]
    exact Int.emod_emod_of_dvd _ (pow64_dvd _ h8)

theorem toInt64_div (u k : Nat) (h1 : 1 ≤ k) (h8 : k ≤ 8) (hu : u < 2 ^ (8 * k)) :
    toInt64 (256 ^ (8 - k) * u) / 2 ^ (8 * (8 - k)) =
      if 2 * (u : Int) < 2 ^ (8 * k) then (u : Int) else u - 2 ^ (8 * k) := by
  have : k = 1 ∨ k = 2 ∨ k = 3 ∨ k = 4 ∨ k = 5 ∨ k = 6 ∨ k = 7 ∨ k = 8 := by omega
  unfold toInt64
  rcases this with rfl | rfl | rfl | rfl | rfl | rfl | rfl | rfl <;> norm_num at hu ⊢ <;>
    split <;> split <;> omega

/-- Loading a binary item yields the number its bytes hold. -/
theorem decSetBinary_holds (f : Field) (hf : WFBinary f) :
    binaryHolds f (decSetBinary f).value ∧ (decSetBinary f).scale = f.attr.scale := by
  obtain ⟨h1, h8, hb⟩ := hf
  refine ⟨?_, rfl⟩
  have hlt : bytesVal f.attr.swap f.data < 2 ^ (8 * f.data.length) := by
    rw [← pow256]
    cases f.attr.swap
    · rw [← leVal_eq]; exact leVal_lt _ hb
    · rw [← leVal_reverse, ← List.length_reverse]; exact leVal_lt _ (by simpa using hb)
  unfold binaryHolds decSetBinary
  simp only
  have hz : ∀ l, leVal (List.replicate (8 - f.data.length) 0 ++ l) = 256 ^ (8 - f.data.length) * leVal l := by
    intro l; rw [leVal_append, leVal_zeros]; simp
  have hz' : ∀ l, leVal (l ++ List.replicate (8 - f.data.length) 0) = leVal l := by
    intro l; rw [leVal_append, leVal_zeros]; simp
  cases hs : f.attr.haveSign
  · simp only [Bool.false_eq_true, if_false]
    unfold binGetUint64 bswapBytes
    cases hw : f.attr.swap
    · simp [hz', leVal_eq]
    · simp [hz', leVal_reverse]
  · simp only [if_true]
    rw [← toInt64_div _ _ h1 h8 hlt]
    unfold binGetInt64 bswapBytes
    cases hw : f.attr.swap
    · simp [hs, hz, leVal_eq]
    · simp [hs, hz, leVal_reverse]

theorem binaryHolds_unique (f : Field) (v w : Int) (h1 : binaryHolds f v) (h2 : binaryHolds f w) :
    v = w := by
  unfold binaryHolds at h1 h2
  simp only at h1 h2
  cases h : f.attr.haveSign <;> simp [h] at h1 h2 <;> rw [h1, h2]

/-! ### C03 -/

/-- C03 (load): reading a binary item yields the two's complement (signed) or unsigned number
in its bytes, in the byte order of its usage, for every size 1..8 and every content. -/
theorem C03_load (f : Field) (hf : WFBinary f) (v : Int) :
    decSetBinary f = ⟨v, f.attr.scale⟩ ↔ binaryHolds f v := by
  have h := decSetBinary_holds f hf
  constructor
  · intro h'; rw [h'] at h; exact h.1
  · intro h'
    have e := binaryHolds_unique f _ _ h.1 h'
    cases hd : decSetBinary f
    rw [hd] at e h
    simp only at e h
    rw [e, h.2]

/-- The values a signed or unsigned item of that many bytes can hold, except that the code
reserves `-2^(n-1)` (see `C03_min_value_refused`). -/
def binFits (f : Field) (v : Int) : Prop :=
  if f.attr.haveSign then v.natAbs < 2 ^ (8 * f.data.length - 1)
  else 0 ≤ v ∧ v.natAbs < 2 ^ (8 * f.data.length)

theorem binSet_holds (f : Field) (hf : WFBinary f) (v n : Int) (hfit : binFits f v)
    (hn : n % 2 ^ (8 * f.data.length) = v % 2 ^ (8 * f.data.length)) :
    WFBinary (binSet f n) ∧ (binSet f n).attr = f.attr ∧ binaryHolds (binSet f n) v := by
  obtain ⟨h1, h8, hb⟩ := hf
  obtain ⟨s1, s2, s3, s4⟩ := binSet_spec f n h8
  refine ⟨⟨by omega, by omega, s3⟩, s1, ?_⟩
  unfold binaryHolds
  simp only
  rw [s1, s2, s4, hn]
  unfold binFits at hfit
  have hp : (2 : Int) ^ (8 * f.data.length) = 2 * 2 ^ (8 * f.data.length - 1) := by
    rw [← pow_succ']; congr 1; omega
  have hnp : (0 : Int) < 2 ^ (8 * f.data.length - 1) := by positivity
  cases hs : f.attr.haveSign
  · simp only [hs, Bool.false_eq_true, if_false] at hfit ⊢
    have hlt : v < 2 ^ (8 * f.data.length) := by
      have := hfit.2
      have h' : ((v.natAbs : Nat) : Int) < ((2 ^ (8 * f.data.length) : Nat) : Int) := by exact_mod_cast this
      push_cast at h'
      rw [abs_of_nonneg hfit.1] at h'
      exact h'
    exact (Int.emod_eq_of_lt hfit.1 hlt).symm
  · simp only [hs, if_true] at hfit ⊢
    have h' : ((v.natAbs : Nat) : Int) < ((2 ^ (8 * f.data.length - 1) : Nat) : Int) := by exact_mod_cast hfit
    push_cast at h'
    generalize (2 : Int) ^ (8 * f.data.length - 1) = M at *
    rw [hp]
    rw [abs_lt] at h'
    by_cases hv : 0 ≤ v
    · rw [Int.emod_eq_of_lt hv (by omega)]
      rw [if_pos (by omega)]
    · have : v % (2 * M) = v + 2 * M := by
        rw [← Int.add_emod_right, Int.emod_eq_of_lt (by omega) (by omega)]
      rw [this, if_neg (by omega)]
      ring

/-- Does the code's digit-limit test apply, and fail, for this store?  (`opt` nonzero and the
module compiled with binary truncation.) -/
def digitLimit (f : Field) (opt : StoreOpt) (v : Int) : Prop :=
  (opt.round = true ∨ opt.keep = true ∨ opt.trunc = true) → opt.binTrunc = true →
    v.natAbs < 10 ^ f.attr.digits

/-- C03 (round trip): storing a number that fits the item (and its PICTURE, where truncation to
the PICTURE is in force) raises nothing and reads back as that number, for any previous
content, size, byte order and signedness. -/
theorem C03_roundtrip (v : Int) (f : Field) (hf : WFBinary f) (opt : StoreOpt)
    (hfit : binFits f v) (hd : digitLimit f opt v) :
    let r := decGetBinary v f opt
    r.raised = false ∧ r.failed = false ∧ WFBinary r.field ∧ r.field.attr = f.attr ∧
      decSetBinary r.field = ⟨v, f.attr.scale⟩ := by
  intro r
  have key : ∃ n : Int, n % 2 ^ (8 * f.data.length) = v % 2 ^ (8 * f.data.length) ∧
      r = ⟨binSet f n, false, false⟩ := by
    by_cases hv0 : v = 0
    · refine ⟨0, by simp [hv0], ?_⟩
      have hr : r = ⟨{ f with data := List.replicate f.data.length 0 }, false, false⟩ := by
        simp only [r, decGetBinary, hv0, if_true]
      rw [hr]
      congr 1
      obtain ⟨s1, s2⟩ := binSet_data f 0 hf.2.1
      have hz : ∀ k, leBytes k 0 = List.replicate k 0 := by
        intro k
        induction k with
        | zero => rfl
        | succ k ih => simp [leBytes, ih, List.replicate_succ]
      cases hb : binSet f 0
      rw [hb] at s1 s2
      simp only at s1 s2
      rw [s1, s2]
      simp [hz]
    · simp only [r, decGetBinary, hv0, if_false]
      have hopt : ((opt.round || opt.keep || opt.trunc) && opt.binTrunc && decide (10 ^ f.attr.digits ≤ v.natAbs)) = false := by
        unfold digitLimit at hd
        by_contra hc
        simp only [Bool.not_eq_false, Bool.and_eq_true, Bool.or_eq_true, decide_eq_true_eq] at hc
        obtain ⟨⟨ha, hb⟩, hc⟩ := hc
        have := hd (by tauto) hb
        omega
      unfold binFits at hfit
      cases hs : f.attr.haveSign
      · simp only [hs, Bool.false_eq_true, if_false] at hfit ⊢
        have hab : (v.natAbs : Int) = v := by omega
        rw [hab]
        rw [if_neg (by rw [Nat.sub_zero, Nat.mul_comm]; omega), if_neg (by rw [hopt]; simp)]
        refine ⟨_, ?_, rfl⟩
        unfold mpzGetUi
        push_cast
        rw [abs_of_nonneg hfit.1]
        exact Int.emod_emod_of_dvd _ (pow64_dvd _ hf.2.1)
      · simp only [hs, if_true] at hfit ⊢
        rw [if_neg (by rw [Nat.mul_comm]; omega), if_neg (by rw [hopt]; simp)]
        refine ⟨_, ?_, rfl⟩
        have hle : (2 : Nat) ^ (8 * f.data.length - 1) ≤ 2 ^ 63 :=
          Nat.pow_le_pow_right (by norm_num) (by have := hf.2.1; omega)
        have : mpzGetSi v = v := by
          unfold mpzGetSi
          split
          · rw [Nat.mod_eq_of_lt (by omega)]; omega
          · rw [Nat.mod_eq_of_lt (by omega)]; omega
        rw [this]
  obtain ⟨n, hn, hr⟩ := key
  obtain ⟨w1, w2, w3⟩ := binSet_holds f hf v n hfit hn
  rw [hr]
  refine ⟨rfl, rfl, w1, w2, ?_⟩
  have := (C03_load _ w1 v).mpr w3
  rw [this, w2]

/-- C04 for binary receivers: with ON SIZE ERROR (`keep`), a nonzero value too large for the
bytes, or for the PICTURE when binary truncation is on, leaves the item unchanged and is
reported. -/
theorem C04_binary_keep (v : Int) (f : Field) (opt : StoreOpt)
    (hk : opt.keep = true)
    (hov : 2 ^ (8 * f.data.length - (if f.attr.haveSign then 1 else 0)) ≤ v.natAbs ∨
      (opt.binTrunc = true ∧ 10 ^ f.attr.digits ≤ v.natAbs)) :
    decGetBinary v f opt = ⟨f, true, true⟩ := by
  have hv0 : v ≠ 0 := by
    rintro rfl
    rcases hov with h | ⟨_, h⟩
    · simp at h
    · simp at h
  have e : (if f.attr.haveSign then v else (v.natAbs : Int)).natAbs = v.natAbs := by
    split
    · rfl
    · exact Int.natAbs_natCast _
  rw [Nat.mul_comm] at hov
  simp only [decGetBinary, if_neg hv0, e, hk]
  rcases hov with h | ⟨h1, h2⟩
  · rw [if_pos h]; rfl
  · by_cases hb : 2 ^ (f.data.length * 8 - if f.attr.haveSign = true then 1 else 0) ≤ v.natAbs
    · rw [if_pos hb]; rfl
    · rw [if_neg hb]
      simp [h1, h2]

/-- C04, the converse for binary receivers: a value that fits is never refused. -/
theorem C04_binary_accepts (v : Int) (f : Field) (hf : WFBinary f) (opt : StoreOpt)
    (hfit : binFits f v) (hd : digitLimit f opt v) :
    (decGetBinary v f opt).raised = false ∧ (decGetBinary v f opt).failed = false :=
  ⟨(C03_roundtrip v f hf opt hfit hd).1, (C03_roundtrip v f hf opt hfit hd).2.1⟩

/-- Overflow of an item stored without truncation to the PICTURE (no ON SIZE ERROR, no
`trunc`): the low-order bytes of the two's complement value are kept. -/
theorem C03_overflow_wraps (v : Int) (f : Field) (hf : WFBinary f) (opt : StoreOpt)
    (hk : opt.keep = false) (ht : opt.trunc = false)
    (hov : 2 ^ (8 * f.data.length - (if f.attr.haveSign then 1 else 0)) ≤ v.natAbs) :
    (decGetBinary v f opt).raised = true ∧
      (bytesVal f.attr.swap (decGetBinary v f opt).field.data : Int) =
        (if f.attr.haveSign then v else (v.natAbs : Int)) % 2 ^ (8 * f.data.length) := by
  have hv0 : v ≠ 0 := by
    rintro rfl
    simp at hov
  have e : (if f.attr.haveSign then v else (v.natAbs : Int)).natAbs = v.natAbs := by
    split
    · rfl
    · exact Int.natAbs_natCast _
  rw [Nat.mul_comm] at hov
  simp only [decGetBinary, if_neg hv0, e, hk, if_pos hov, ht, Bool.false_eq_true, if_false, true_and]
  set w := (if f.attr.haveSign then v else (v.natAbs : Int)) with hw
  obtain ⟨-, -, -, s4⟩ := binSet_spec f (mpzGetUi (w % 2 ^ (f.data.length * 8))) hf.2.1
  rw [s4]
  unfold mpzGetUi
  have hnn : 0 ≤ w % 2 ^ (f.data.length * 8) := Int.emod_nonneg _ (by positivity)
  push_cast
  rw [abs_of_nonneg hnn, Nat.mul_comm _ 8]
  rw [Int.emod_emod_of_dvd _ (pow64_dvd _ hf.2.1), Int.emod_emod_of_dvd _ (dvd_refl _)]

/-- Finding (C03): the smallest value a signed binary item can hold is treated as an overflow:
storing -32768 in a 2-byte item under ON SIZE ERROR is refused although the item can hold it
(`binaryHolds` of 0x8000 is -32768). -/
theorem C03_min_value_refused :
    let f : Field := ⟨{ digits := 4, haveSign := true }, [0, 0]⟩
    decGetBinary (-32768) f { keep := true, binTrunc := false } = ⟨f, true, true⟩ ∧
      binaryHolds ⟨f.attr, [0, 128]⟩ (-32768) := by
  refine ⟨by decide, ?_⟩
  unfold binaryHolds
  decide

/-- Finding (C03/C04): truncation to the PICTURE on overflow drops the sign: -12345 stored into
S9(4) COMP (2 bytes, `trunc`) becomes +2345, not -2345. -/
theorem C03_trunc_loses_sign :
    let f : Field := ⟨{ digits := 4, haveSign := true, swap := true }, [0, 0]⟩
    decSetBinary (decGetBinary (-12345) f { trunc := true }).field = ⟨2345, 0⟩ ∧
    decSetPacked (decGetPacked (-12345) ⟨{ digits := 4, haveSign := true }, [0, 0, 12]⟩
      { trunc := true }).field = ⟨-2345, 0⟩ := by
  refine ⟨by decide, ?_⟩
  have := (C02_truncation (-12345) ⟨{ digits := 4, haveSign := true }, [0, 0, 12]⟩ ⟨by decide, by decide⟩
    { trunc := true } rfl (by decide)).2
  simpa using this

/-- Non-vacuity: S9(4) COMP big-endian holding garbage accepts -123 and holds 0xFF85. -/
example : WFBinary ⟨{ digits := 4, haveSign := true, swap := true }, [7, 9]⟩ ∧
    binFits ⟨{ digits := 4, haveSign := true, swap := true }, [7, 9]⟩ (-123) ∧
    digitLimit ⟨{ digits := 4, haveSign := true, swap := true }, [7, 9]⟩ { trunc := true } (-123) ∧
    (decGetBinary (-123) ⟨{ digits := 4, haveSign := true, swap := true }, [7, 9]⟩ {}).field.data
      = [0xFF, 0x85] := by
  refine ⟨⟨by decide, by decide, by decide⟩, ?_, ?_, by decide⟩
  · unfold binFits; decide
  · intro _ _; decide

end Cob
