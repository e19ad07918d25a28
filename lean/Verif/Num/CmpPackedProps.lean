import Verif.Num.CmpPacked
import Verif.Num.AddPackedProps
/-
Property C12: comparing a packed item with an integer.
-/
namespace Cob

/-! ### helper lemmas -/

/-- A byte holding two decimal digits. -/
def Bcd (b : Nat) : Prop := b % 16 ≤ 9 ∧ b / 16 ≤ 9

/-- The number written by a string of two-digit bytes. -/
def val100 : List Nat → Nat
  | [] => 0
  | b :: t => (b / 16 * 10 + b % 16) * 100 ^ t.length + val100 t

theorem val100_lt (l : List Nat) (h : ∀ b ∈ l, Bcd b) : val100 l < 100 ^ l.length := by
  induction l with
  | nil => simp [val100]
  | cons b t ih =>
    have h1 := h b (by simp)
    have h2 := ih (fun x hx => h x (by simp [hx]))
    unfold Bcd at h1
    simp only [val100, List.length_cons, pow_succ]
    have : (b / 16 * 10 + b % 16) * 100 ^ t.length ≤ 99 * 100 ^ t.length :=
      Nat.mul_le_mul_right _ (by omega)
    omega

theorem val100_append (a b : List Nat) : val100 (a ++ b) = val100 a * 100 ^ b.length + val100 b := by
  induction a with
  | nil => simp [val100]
  | cons x t ih =>
    simp only [List.cons_append, val100, ih, List.length_append, pow_add]
    ring

theorem byteCmp_val (a b : List Nat) (hl : a.length = b.length) (ha : ∀ x ∈ a, Bcd x)
    (hb : ∀ x ∈ b, Bcd x) : byteCmp a b = compare (val100 a) (val100 b) := by
  induction a generalizing b with
  | nil =>
    cases b with
    | nil => simp [byteCmp, val100]
    | cons _ _ => simp at hl
  | cons x t ih =>
    cases b with
    | nil => simp at hl
    | cons y u =>
      have hlen : t.length = u.length := by simpa using hl
      have ha' : ∀ z ∈ t, Bcd z := fun z hz => ha z (by simp [hz])
      have hb' : ∀ z ∈ u, Bcd z := fun z hz => hb z (by simp [hz])
      have hx := ha x (by simp)
      have hy := hb y (by simp)
      unfold Bcd at hx hy
      have hvt := val100_lt t ha'
      have hvu := val100_lt u hb'
      rw [byteCmp]
      by_cases hxy : x = y
      · rw [if_pos hxy, ih u hlen ha' hb', hxy]
        simp only [val100, hlen]
        rcases lt_trichotomy (val100 t) (val100 u) with h | h | h
        · rw [compare_lt_iff_lt.mpr h, compare_lt_iff_lt.mpr (by omega)]
        · rw [h]; simp
        · rw [compare_gt_iff_gt.mpr h, compare_gt_iff_gt.mpr (by omega)]
      · rw [if_neg hxy]
        simp only [val100, hlen] at *
        have key : ∀ p q v w M : Nat, p < q → v < M → p * M + v < q * M + w := by
          intro p q v w M hpq hv
          have : (p + 1) * M ≤ q * M := Nat.mul_le_mul_right _ hpq
          rw [Nat.add_mul] at this
          omega
        rcases Nat.lt_or_gt_of_ne hxy with h | h
        · rw [compare_lt_iff_lt.mpr h, compare_lt_iff_lt.mpr]
          exact key _ _ _ _ _ (by omega) hvt
        · rw [compare_gt_iff_gt.mpr h, compare_gt_iff_gt.mpr]
          exact key _ _ _ _ _ (by omega) hvu

theorem val100_zeros (k : Nat) : val100 (List.replicate k 0) = 0 := by
  induction k with
  | zero => rfl
  | succ k ih => simp [List.replicate_succ, val100, ih]

/-- The bytes at positions 0..p are still zero. -/
def ZeroTo (p : Nat) (l : List Nat) : Prop := l.length = 20 ∧ ∀ i ≤ p, l[i]? = some 0

theorem val100_set (l : List Nat) (i b : Nat) (hi : i < l.length) (h0 : l[i]? = some 0) :
    val100 (l.set i b) = val100 l + (b / 16 * 10 + b % 16) * 100 ^ (l.length - 1 - i) := by
  induction l generalizing i with
  | nil => simp at hi
  | cons x t ih =>
    cases i with
    | zero =>
      simp at h0
      subst h0
      simp [val100]
      ring
    | succ i =>
      have := ih i (by simpa using hi) (by simpa using h0)
      simp only [List.set_cons_succ, val100, this, List.length_set, List.length_cons]
      have e : t.length + 1 - 1 - (i + 1) = t.length - 1 - i := by omega
      rw [e]
      ring

theorem packPairs_spec (p : Nat) (hp : p ≤ 18) : ∀ (n : Nat) (l : List Nat), n < 100 ^ (p + 1) →
    ZeroTo p l → (∀ b ∈ l, Bcd b) →
    (packPairs p n l).length = 20 ∧ (∀ b ∈ packPairs p n l, Bcd b) ∧
      val100 (packPairs p n l) = val100 l + n * 100 ^ (19 - p) ∧
      (∀ i, n < 100 ^ (p + 1 - i) → i ≤ p + 1 → ∀ j < i, (packPairs p n l)[j]? = some 0) := by
  have hbcd : ∀ n : Nat, Bcd (n % 100 % 10 + 16 * (n % 100 / 10)) := by
    intro n; unfold Bcd; omega
  have hdec : ∀ n : Nat, (n % 100 % 10 + 16 * (n % 100 / 10)) / 16 * 10 +
      (n % 100 % 10 + 16 * (n % 100 / 10)) % 16 = n % 100 := by
    intro n; omega
  have hsetb : ∀ (l : List Nat) (i b : Nat), (∀ x ∈ l, Bcd x) → Bcd b → ∀ x ∈ l.set i b, Bcd x := by
    intro l i b hl hb x hx
    rcases List.mem_or_eq_of_mem_set hx with h | h
    · exact hl x h
    · rw [h]; exact hb
  induction p with
  | zero =>
    intro n l hn hz hb
    simp only [packPairs]
    split
    · rename_i h0
      subst h0
      refine ⟨hz.1, hb, by simp, ?_⟩
      intro i _ hi j hj
      exact hz.2 j (by omega)
    · refine ⟨by simp [hz.1], hsetb l 0 _ hb (hbcd n), ?_, ?_⟩
      · rw [val100_set _ _ _ (by rw [hz.1]; omega) (hz.2 0 (by omega)), hdec, hz.1]
        rw [Nat.mod_eq_of_lt (by simpa using hn)]
      · intro i hni hi j hj
        have : i = 1 := by omega
        subst this
        simp at hni
        omega
  | succ p ih =>
    intro n l hn hz hb
    simp only [packPairs]
    split
    · rename_i h0
      subst h0
      refine ⟨hz.1, hb, by simp, ?_⟩
      intro i _ hi j hj
      exact hz.2 j (by omega)
    · rename_i hn0
      have hl' : ZeroTo p (l.set (p + 1) (n % 100 % 10 + 16 * (n % 100 / 10))) := by
        refine ⟨by simp [hz.1], ?_⟩
        intro i hi
        rw [List.getElem?_set_ne (by omega)]
        exact hz.2 i (by omega)
      have hn' : n / 100 < 100 ^ (p + 1) := by
        rw [Nat.div_lt_iff_lt_mul (by norm_num)]
        rw [pow_succ] at hn
        exact hn
      obtain ⟨i1, i2, i3, i4⟩ := ih (by omega) (n / 100) _ hn' hl' (hsetb l _ _ hb (hbcd n))
      refine ⟨i1, i2, ?_, ?_⟩
      · rw [i3, val100_set _ _ _ (by rw [hz.1]; omega) (hz.2 (p + 1) (by omega)), hdec, hz.1]
        have e1 : 20 - 1 - (p + 1) = 18 - p := by omega
        have e2 : 19 - (p + 1) = 18 - p := by omega
        have e3 : 19 - p = (18 - p) + 1 := by omega
        rw [e1, e3, pow_succ]
        have := Nat.div_add_mod n 100
        calc val100 l + n % 100 * 100 ^ (18 - p) + n / 100 * (100 ^ (18 - p) * 100)
            = val100 l + (100 * (n / 100) + n % 100) * 100 ^ (18 - p) := by ring
          _ = val100 l + n * 100 ^ (18 - p) := by rw [this]
      · intro i hni hi j hj
        by_cases hip : i = p + 2
        · subst hip
          simp at hni
          omega
        · have e : p + 1 + 1 - i = (p + 1 - i) + 1 := by omega
          refine i4 i ?_ (by omega) j hj
          rw [Nat.div_lt_iff_lt_mul (by norm_num)]
          rw [e, pow_succ] at hni
          exact hni

/-- Invariant of the static state: the cached bytes are those of the last value compared, and
the first 14 bytes are zero. -/
def CacheOk (c : CmpCache) : Prop :=
  c.packed.length = 20 ∧ (∀ b ∈ c.packed, Bcd b) ∧ val100 c.packed = c.lastval.natAbs * 10 ∧
    ∀ j < 14, c.packed[j]? = some 0

theorem cacheOk_init : CacheOk CmpCache.init := by
  refine ⟨by decide, ?_, by decide, ?_⟩
  · intro b hb
    simp [CmpCache.init] at hb
    subst hb
    exact ⟨by omega, by omega⟩
  · intro j hj
    simp only [CmpCache.init]
    rw [List.getElem?_replicate]
    simp; omega

theorem cacheOk_refresh (c : CmpCache) (hc : CacheOk c) (n : Int) (hn : n.natAbs < 2 ^ 31) :
    CacheOk (c.refresh n) ∧ (c.refresh n).lastval = n := by
  unfold CmpCache.refresh
  split
  · rename_i h; exact ⟨hc, h.symm⟩
  · refine ⟨?_, rfl⟩
    obtain ⟨c1, c2, c3, c4⟩ := hc
    simp only
    set m := n.natAbs with hm
    have htake : c.packed.take 14 = List.replicate 14 0 := by
      apply List.ext_getElem?
      intro j
      by_cases hj : j < 14
      · rw [List.getElem?_take_of_lt hj, c4 j hj, List.getElem?_replicate]; simp [hj]
      · rw [List.getElem?_eq_none (by simp; omega), List.getElem?_eq_none (by simp; omega)]
    have hbase : c.packed.take 14 ++ List.replicate 6 0 = List.replicate 20 0 := by
      rw [htake]; rfl
    rw [hbase]
    have hz0 : ∀ j < 20, (List.replicate 20 0)[j]? = some 0 := by
      intro j hj; rw [List.getElem?_replicate]; simp [hj]
    have hb0 : ∀ b ∈ List.replicate 20 0, Bcd b := by
      intro b hb
      have := List.eq_of_mem_replicate hb
      subst this
      exact ⟨by omega, by omega⟩
    by_cases hm0 : m = 0
    · rw [if_pos hm0]
      refine ⟨by simp, hb0, ?_, fun j hj => hz0 j (by omega)⟩
      rw [val100_zeros]
      show 0 = n.natAbs * 10
      omega
    · rw [if_neg hm0]
      set l := (List.replicate 20 0).set 19 (m % 10 * 16) with hl
      have hzl : ZeroTo 18 l := by
        refine ⟨by simp [hl], ?_⟩
        intro i hi
        rw [hl, List.getElem?_set_ne (by omega)]
        exact hz0 i (by omega)
      have hbl : ∀ b ∈ l, Bcd b := by
        intro x hx
        rcases List.mem_or_eq_of_mem_set hx with h | h
        · exact hb0 x h
        · rw [h]; unfold Bcd; omega
      have hvl : val100 l = m % 10 * 10 := by
        rw [hl, val100_set _ _ _ (by simp) (hz0 19 (by omega)), val100_zeros]
        simp
      have hbound : m / 10 < 100 ^ 5 := by omega
      obtain ⟨p1, p2, p3, p4⟩ := packPairs_spec 18 (by omega) (m / 10) l
        (lt_of_lt_of_le hbound (by norm_num)) hzl hbl
      refine ⟨p1, p2, ?_, ?_⟩
      · rw [p3, hvl]
        show _ = n.natAbs * 10
        rw [← hm]
        have := Nat.div_add_mod m 10
        norm_num
        omega
      · exact p4 14 (by simpa using hbound) (by omega)

/-- The image of a packed item, as compared. -/
theorem cmpVal1_image (a : Attr) (hD : 0 < a.digits) (hsz : a.digits ≤ 38) (m s : Nat) (hs : s < 16)
    (hm : m < 10 ^ a.digits) :
    (cmpVal1 ⟨a, packedImage a.digits m s⟩).length = 20 ∧
      (∀ b ∈ cmpVal1 ⟨a, packedImage a.digits m s⟩, Bcd b) ∧
      val100 (cmpVal1 ⟨a, packedImage a.digits m s⟩) = m * 10 := by
  set D := a.digits with hDd
  -- image in reversed nibble form
  set ds := (fixedDigits D m).reverse with hds
  have hdl : ds.length = D := by simp [hds, fixedDigits_length]
  have hd9 : ∀ x ∈ ds, x ≤ 9 := fun x hx => fixedDigits_le D m x (by simpa [hds] using hx)
  have hdv : lsbVal ds = m := by
    rw [hds, lsbVal_reverse, digitsVal_fixedDigits, Nat.mod_eq_of_lt hm]
  have himg : packedImage D m s = fromRev ([s] ++ ds ++ padNib D) := by
    rw [rev_image D s ds hdl hd9, hdv]
  -- all nibbles digits: Bcd and value
  have hfr : ∀ r : List Nat, r.length % 2 = 0 → (∀ x ∈ r, x ≤ 9) →
      (∀ b ∈ fromRev r, Bcd b) ∧ val100 (fromRev r) = lsbVal r := by
    intro r
    induction r using fromRev.induct with
    | case1 lo hi t ih =>
      intro hr hx
      have hlo := hx lo (by simp)
      have hhi := hx hi (by simp)
      obtain ⟨i1, i2⟩ := ih (by simp at hr; omega) (fun x hx' => hx x (by simp [hx']))
      rw [fromRev]
      constructor
      · intro b hb
        rcases List.mem_append.mp hb with h | h
        · exact i1 b h
        · simp at h; subst h; unfold Bcd; omega
      · rw [val100_append, i2]
        simp only [val100, lsbVal, List.length_singleton, List.length_nil, pow_zero, pow_one]
        omega
    | case2 l h =>
      intro hr hx
      match l, h, hr with
      | [], _, _ => exact ⟨by simp [fromRev], rfl⟩
      | [x], _, hr => simp at hr
      | a :: b :: t, h, _ => exact absurd rfl (h a b t)
  have hlen2 : ([0] ++ ds ++ padNib D).length % 2 = 0 := by
    unfold padNib
    split <;> simp [hdl] <;> omega
  have hlenI : (packedImage D m s).length = D / 2 + 1 := by
    rw [himg, fromRev_length]
    unfold padNib
    split <;> simp [hdl] <;> omega
  have hz9 : ∀ x ∈ [0] ++ ds ++ padNib D, x ≤ 9 := by
    intro x hx
    simp only [List.mem_append] at hx
    rcases hx with (h | h) | h
    · simp at h; omega
    · exact hd9 x h
    · unfold padNib at h; split at h <;> simp at h; omega
  obtain ⟨f1, f2⟩ := hfr _ hlen2 hz9
  have hkey : cmpVal1 ⟨a, packedImage D m s⟩ =
      List.replicate (20 - (packedImage D m s).length) 0 ++ fromRev ([0] ++ ds ++ padNib D) := by
    -- clearing the sign nibble
    obtain ⟨d, t, hdt⟩ : ∃ d t, ds = d :: t := by
      cases hc : ds with
      | nil => rw [hc] at hdl; simp at hdl; omega
      | cons d t => exact ⟨d, t, rfl⟩
    have e1 : packedImage D m s = fromRev (t ++ padNib D) ++ [16 * d + s] := by
      rw [himg, hdt]; simp [fromRev]
    have e2 : fromRev ([0] ++ ds ++ padNib D) = fromRev (t ++ padNib D) ++ [16 * d] := by
      rw [hdt]; simp [fromRev]
    set Z := List.replicate (20 - (packedImage D m s).length) 0 with hZ
    have hZl : Z.length + (fromRev (t ++ padNib D)).length = 19 := by
      have : (packedImage D m s).length = (fromRev (t ++ padNib D)).length + 1 := by rw [e1]; simp
      rw [hZ, List.length_replicate, hlenI]
      rw [hlenI] at this
      omega
    have e3 : (Z ++ packedImage D m s).set 19 ((Z ++ packedImage D m s).getD 19 0 / 16 * 16) =
        Z ++ fromRev ([0] ++ ds ++ padNib D) := by
      rw [e1, e2, ← List.append_assoc, ← List.append_assoc]
      have hl19 : (Z ++ fromRev (t ++ padNib D)).length = 19 := by rw [List.length_append]; exact hZl
      have hg : (Z ++ fromRev (t ++ padNib D) ++ [16 * d + s]).getD 19 0 = 16 * d + s := by
        rw [← hl19]; simp
      rw [hg, List.set_append_right _ _ (by omega), hl19]
      simp
      omega
    unfold cmpVal1
    simp only
    rw [← hZ, e3, ← hDd]
    split
    · -- the unused nibble is already zero
      rename_i hev
      have hpos : 20 - (packedImage D m s).length = Z.length := by rw [hZ]; simp
      rw [hpos]
      rw [List.set_append_right _ _ (le_refl _)]
      congr 1
      rw [Nat.sub_self]
      have hg : (Z ++ fromRev ([0] ++ ds ++ padNib D)).getD Z.length 0 = (fromRev ([0] ++ ds ++ padNib D)).getD 0 0 := by
        simp only [List.getD]
        rw [List.getElem?_append_right (le_refl _), Nat.sub_self]
      rw [hg]
      -- first byte of the image is below 16
      have hfirst : (fromRev ([0] ++ ds ++ padNib D)).getD 0 0 < 16 := by
        have hn16 : ∀ x ∈ [0] ++ ds ++ padNib D, x < 16 := fun x hx => by have := hz9 x hx; omega
        have hL : ([0] ++ ds ++ padNib D).length = D + 2 := by
          unfold padNib; rw [if_pos hev]; simp [hdl]
        have := getNib_fromRev _ hlen2 hn16 (D + 1) (by rw [hL]; omega)
        rw [hL] at this
        have e : nibByte (D + 2) (D + 1) = 0 := by unfold nibByte; omega
        have e' : (D + 1) % 2 = 1 := by omega
        rw [e] at this
        simp only [e', decide_true, getNib, if_true] at this
        have hlast : ([0] ++ ds ++ padNib D).getD (D + 1) 0 = 0 := by
          unfold padNib; rw [if_pos hev]
          rw [show D + 1 = ([0] ++ ds).length by simp [hdl]]
          simp
        rw [hlast] at this
        omega
      rw [Nat.mod_eq_of_lt hfirst]
      cases hc : fromRev ([0] ++ ds ++ padNib D) with
      | nil => rfl
      | cons x y => simp
    · rfl
  rw [hkey]
  refine ⟨?_, ?_, ?_⟩
  · rw [List.length_append, List.length_replicate, fromRev_length, hlenI]
    unfold padNib
    split <;> simp [hdl] <;> omega
  · intro b hb
    rcases List.mem_append.mp hb with h | h
    · have := List.eq_of_mem_replicate h
      subst this
      exact ⟨by omega, by omega⟩
    · exact f1 b h
  · rw [val100_append, val100_zeros, f2]
    have hpadv : lsbVal (ds ++ padNib D) = m := by
      rw [lsbVal_append, hdv]
      unfold padNib
      split <;> simp [lsbVal]
    have hc : lsbVal ([0] ++ ds ++ padNib D) = 0 + 10 * lsbVal (ds ++ padNib D) := by
      rw [List.append_assoc]; rfl
    rw [hc, hpadv]
    omega

/-! ### C12 -/

/-- C12: comparing a packed item holding `u` with an integer gives the numeric relation,
whatever integers were compared before (the static cache is in any reachable state), except
that a stored negative zero counts as below zero.  The cache stays consistent. -/
theorem C12_cmp_packed (ebc : Bool) (c : CmpCache) (hc : CacheOk c) (a : Attr) (neg : Bool) (m : Nat)
    (hD : 0 < a.digits) (hsz : a.digits ≤ 38) (hm : m < 10 ^ a.digits) (n : Int)
    (hn : n.natAbs < 2 ^ 31) :
    let f : Field := ⟨a, packedImage a.digits m (signNibble a neg)⟩
    let u : Int := if a.haveSign && neg then -(m : Int) else m
    HoldsUnits ebc ⟨.packed, f⟩ u ∧ CacheOk (cobCmpPacked c f n).2 ∧
      ((cobCmpPacked c f n).1 = compare u n ∨ (a.haveSign = true ∧ neg = true ∧ m = 0 ∧ n = 0)) := by
  intro f u
  refine ⟨⟨neg, m, hm, rfl, rfl⟩, ?_⟩
  have hs16 : signNibble a neg < 16 := by unfold signNibble; split <;> [skip; split] <;> omega
  obtain ⟨v1, v2, v3⟩ := cmpVal1_image a hD hsz m (signNibble a neg) hs16 hm
  have hsign : packedGetSign f = if a.haveSign then (if neg then -1 else 1) else 0 := by
    have := C02_load_image a hD neg m
    -- sign nibble is the last nibble
    show packedGetSign ⟨a, packedImage a.digits m (signNibble a neg)⟩ = _
    have hds : ∃ d t, packedImage a.digits m (signNibble a neg) = t ++ [16 * d + signNibble a neg] := by
      have hodd : ((if a.digits % 2 = 0 then [0] else []) ++ fixedDigits a.digits m).length % 2 = 1 := by
        split
        · simp [fixedDigits_length]; omega
        · simp [fixedDigits_length]; omega
      obtain ⟨q, _, h2⟩ := packNibbles_half _ (signNibble a neg) hodd
      exact ⟨q, _, h2⟩
    obtain ⟨d, t, hdt⟩ := hds
    unfold packedGetSign
    simp only [hdt, List.length_append, List.length_singleton, Nat.add_sub_cancel]
    have hg : (t ++ [16 * d + signNibble a neg]).getD t.length 0 = 16 * d + signNibble a neg := by simp
    rw [hg, show (16 * d + signNibble a neg) % 16 = signNibble a neg by omega]
    unfold signNibble
    cases a.haveSign <;> cases neg <;> simp
  obtain ⟨r1, r2⟩ := cacheOk_refresh c hc n hn
  have hcmp : byteCmp (cmpVal1 f) (c.refresh n).packed = compare (m * 10) (n.natAbs * 10) := by
    rw [byteCmp_val _ _ (by rw [v1, r1.1]) v2 r1.2.1, v3, r1.2.2.1, r2]
  have hcmp' : compare (m * 10) (n.natAbs * 10) = compare m n.natAbs := by
    rcases lt_trichotomy m n.natAbs with h | h | h
    · rw [compare_lt_iff_lt.mpr h, compare_lt_iff_lt.mpr (by omega)]
    · rw [h]; simp
    · rw [compare_gt_iff_gt.mpr h, compare_gt_iff_gt.mpr (by omega)]
  have hnegu : (a.haveSign && neg) = true ↔ packedGetSign f < 0 := by
    rw [hsign]; cases a.haveSign <;> cases neg <;> simp
  unfold cobCmpPacked
  simp only
  by_cases hA : 0 ≤ packedGetSign f ∧ n < 0
  · rw [if_pos hA]
    refine ⟨hc, Or.inl ?_⟩
    have hb : ¬ (a.haveSign && neg) = true := fun h => by have := hnegu.mp h; omega
    simp only [u, if_neg hb]
    symm
    rw [compare_gt_iff_gt]
    omega
  · rw [if_neg hA]
    by_cases hB : packedGetSign f < 0 ∧ 0 ≤ n
    · rw [if_pos hB]
      refine ⟨hc, ?_⟩
      have hb := hnegu.mpr hB.1
      by_cases hz : m = 0 ∧ n = 0
      · right
        simp only [Bool.and_eq_true] at hb
        exact ⟨hb.1, hb.2, hz.1, hz.2⟩
      · left
        simp only [u, if_pos hb]
        symm
        rw [compare_lt_iff_lt]
        omega
    · rw [if_neg hB]
      refine ⟨r1, Or.inl ?_⟩
      rw [hcmp, hcmp']
      by_cases hC : packedGetSign f < 0
      · rw [if_pos hC]
        have hb := hnegu.mpr hC
        simp only [u, if_pos hb]
        have hn0 : n < 0 := by
          by_contra h; exact hB ⟨hC, by omega⟩
        rcases lt_trichotomy m n.natAbs with h | h | h
        · rw [compare_lt_iff_lt.mpr h]; symm; rw [Ordering.swap, compare_gt_iff_gt]; omega
        · rw [h]; simp only [compare_eq_iff_eq.mpr rfl, Ordering.swap]; symm
          rw [compare_eq_iff_eq]; omega
        · rw [compare_gt_iff_gt.mpr h]; symm; rw [Ordering.swap, compare_lt_iff_lt]; omega
      · rw [if_neg hC]
        have hb : ¬ (a.haveSign && neg) = true := fun h => hC (hnegu.mp h)
        simp only [u, if_neg hb]
        have hn0 : 0 ≤ n := by
          by_contra h; exact hA ⟨by omega, by omega⟩
        rcases lt_trichotomy m n.natAbs with h | h | h
        · rw [compare_lt_iff_lt.mpr h]; symm; rw [compare_lt_iff_lt]; omega
        · rw [h]; simp only [compare_eq_iff_eq.mpr rfl]; symm
          rw [compare_eq_iff_eq]; omega
        · rw [compare_gt_iff_gt.mpr h]; symm; rw [compare_gt_iff_gt]; omega

/-- Running a history of comparisons from program start. -/
def cmpHistory : List (Field × Int) → CmpCache → CmpCache
  | [], c => c
  | (f, n) :: t, c => cmpHistory t (cobCmpPacked c f n).2

/-- C12: the cache is consistent after any history of comparisons (of any items, of any
content, with any `int` other than the most negative one). -/
theorem C12_any_history (hist : List (Field × Int)) (h : ∀ p ∈ hist, p.2.natAbs < 2 ^ 31) :
    CacheOk (cmpHistory hist CmpCache.init) := by
  suffices ∀ c, CacheOk c → CacheOk (cmpHistory hist c) from this _ cacheOk_init
  induction hist with
  | nil => intro c hc; exact hc
  | cons p t ih =>
    intro c hc
    obtain ⟨f, n⟩ := p
    rw [cmpHistory]
    apply ih (fun q hq => h q (by simp [hq]))
    unfold cobCmpPacked
    simp only
    split
    · exact hc
    · split
      · exact hc
      · exact (cacheOk_refresh c hc n (h (f, n) (by simp))).1

/-- Finding (C12): a packed negative zero compares below zero, although the general comparison
says equal. -/
theorem C12_negative_zero :
    let f : Field := ⟨{ digits := 1, haveSign := true }, [0x0D]⟩
    (cobCmpPacked CmpCache.init f 0).1 = .lt ∧ (decSetPacked f).cmp ⟨0, 0⟩ = .eq := by decide

/-- Non-vacuity: after comparing with 7, then -12, an item holding -12 equals -12. -/
example :
    let f : Field := ⟨{ digits := 4, haveSign := true }, [0x00, 0x01, 0x2D]⟩
    (cobCmpPacked (cmpHistory [(f, 7), (f, -12), (f, 123456789)] CmpCache.init) f (-12)).1 = .eq ∧
    f.data = packedImage 4 12 (signNibble f.attr true) := by decide

/-- C09 for the DISPLAY fast path: an unsigned zoned item holding `m` compares as `m`. -/
theorem C09_numdisp (ds : List Nat) (hd : ∀ d ∈ ds, d ≤ 9) (n : Int) :
    cobCmpNumdisp (ds.map (48 + ·)) n = compare (digitsVal ds : Int) n := by
  unfold cobCmpNumdisp
  congr 1
  have : ∀ (acc : Int), (ds.map (48 + ·)).foldl (fun (v : Int) (b : Nat) => v * 10 + ((b : Int) - 48)) acc =
      acc * 10 ^ ds.length + digitsVal ds := by
    induction ds with
    | nil => intro acc; simp [digitsVal]
    | cons d t ih =>
      intro acc
      rw [List.map_cons, List.foldl_cons, ih (fun x hx => hd x (by simp [hx]))]
      simp only [digitsVal, List.length_cons, pow_succ]
      push_cast
      ring
  rw [this]; simp

end Cob
