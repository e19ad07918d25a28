import Verif.Cobc.PictureInv
import Mathlib.Tactic.ByContra
/-
One turn of the loop keeps the counts.
-/
namespace Cob

/-- Not 'S', 'V', 'P'. -/
def picByte (c : Nat) : Bool := c != 83 && c != 86 && c != 80

/-- 'C', 'D'. -/
def picCD (c : Nat) : Bool := c == 67 || c == 68

/-- What the limits count. -/
def picChar (c : Nat) : Bool := c == 65 || c == 88 || c == 78 || picPlace c || picInsert c

/-- 'S', '+', '-', 'C', 'D'. -/
def picSg (c : Nat) : Bool := c == 83 || c == 43 || c == 45 || c == 67 || c == 68

/-- The state `st` after the symbols `b` (CR and DB being one symbol). -/
structure PInv (env : EditEnv) (cat0 : PicBits) (st : PicSt) (b : List Nat) : Prop where
  cat : st.cat = if 67 ∈ b then cat0.or { n := true, e := true } else cat0
  size : st.size = (b.countP picByte : Int) + b.count 78 + b.countP picCD + if cat0 = picNE then (b.countP picInsert : Int) else 0
  digits : st.digits = (b.countP picPlace : Int) + (b.countP picSignSym - 1 : Nat) + (b.count env.cur - 1 : Nat)
  scale : st.scale = picScaleA env (picNoS b)
  charLen : st.charLen = (b.countP picChar : Int) + (b.countP picSignSym - 1 : Nat) + (b.count env.cur - 1 : Nat)
  sPos : 0 ≤ st.sCount ∧ st.sCount ≤ b.length
  sIff : 0 < st.sCount ↔ 0 < b.countP picSg
  sSeen : st.sSeen = true ↔ 83 ∈ b
  pSeen : st.pSeen = true ↔ 80 ∈ b
  curSeen : st.curSeen = true ↔ 0 < b.count env.cur
  vPos : 0 ≤ st.vCount ∧ st.vCount ≤ 2
  vIff : st.vCount ≠ 0 ↔ hasPoint env (picNoS b) = true
  vNoP : 80 ∉ b → st.vCount = b.countP (picPointSym env)
  pts : b.countP (picPointSym env) ≤ 1
  buff : st.buff.flatMap (fun p => List.replicate p.2.toNat p.1) = picNoS b
  buffPos : ∀ p ∈ st.buff, 0 < p.2

theorem noS_append (b : List Nat) (c n : Nat) :
    picNoS (b ++ List.replicate n c) = picNoS b ++ if c = 83 then [] else List.replicate n c := by
  unfold picNoS
  rw [List.filter_append]
  congr 1
  split
  · rename_i h; subst h; simp
  · rename_i h; simp [h]

theorem countP_rep (f : Nat → Bool) (b : List Nat) (c n : Nat) :
    (b ++ List.replicate n c).countP f = b.countP f + if f c then n else 0 := by
  rw [List.countP_append, List.countP_replicate]

theorem count_rep (d : Nat) (b : List Nat) (c n : Nat) :
    (b ++ List.replicate n c).count d = b.count d + if c = d then n else 0 := by
  rw [List.count_append, List.count_replicate]
  simp

theorem mem_rep (d : Nat) (b : List Nat) (c n : Nat) (hn : 0 < n) :
    d ∈ b ++ List.replicate n c ↔ d ∈ b ∨ c = d := by
  simp [List.mem_append, List.mem_replicate]
  constructor
  · rintro (h | ⟨_, h⟩)
    · exact Or.inl h
    · exact Or.inr h.symm
  · rintro (h | h)
    · exact Or.inl h
    · exact Or.inr ⟨by omega, h.symm⟩

theorem incLen_ok {a i : Int} (h0 : 0 ≤ a) (hi : 0 ≤ i) (h : a + i ≤ 2147483647) : incLen a i = a + i := by
  unfold incLen
  rw [if_neg (by omega), if_neg (by omega), if_neg (by omega)]

/-- The parts of the invariant that a symbol other than 'S', 'P', the decimal point and the signs changes in the
same way. -/
theorem pinv_plain (env : EditEnv) (cat0 : PicBits) (st st' : PicSt) (b : List Nat) (c n : Nat) (hn : 0 < n)
    (hi : PInv env cat0 st b)
    (hcat : st'.cat = if c = 67 then st.cat.or { n := true, e := true } else st.cat)
    (hsize : st'.size = st.size + (if picByte c then (n : Int) else 0) + (if c = 78 then (n : Int) else 0) +
      (if picCD c then (n : Int) else 0) + (if cat0 = picNE ∧ picInsert c = true then (n : Int) else 0))
    (hdig : st'.digits = ((b ++ List.replicate n c).countP picPlace : Int) +
      ((b ++ List.replicate n c).countP picSignSym - 1 : Nat) + ((b ++ List.replicate n c).count env.cur - 1 : Nat))
    (hscale : st'.scale = if picPlace c = true ∧ st.vCount ≠ 0 then st.scale + n else st.scale)
    (hlen : st'.charLen = ((b ++ List.replicate n c).countP picChar : Int) +
      ((b ++ List.replicate n c).countP picSignSym - 1 : Nat) + ((b ++ List.replicate n c).count env.cur - 1 : Nat))
    (hs : st'.sCount = if picSg c then st.sCount + 1 else st.sCount)
    (hc83 : c ≠ 83) (hc80 : c ≠ 80) (hpt : picPointSym env c = false) (hsSeen : st'.sSeen = st.sSeen)
    (hpSeen : st'.pSeen = st.pSeen) (hcur : st'.curSeen = if c = env.cur then true else st.curSeen)
    (hv : st'.vCount = st.vCount) (hbuff : st'.buff = st.buff ++ [(c, (n : Int))]) :
    PInv env cat0 st' (b ++ List.replicate n c) := by
  have hnoS : picNoS (b ++ List.replicate n c) = picNoS b ++ List.replicate n c := by
    rw [noS_append, if_neg hc83]
  have hhp : hasPoint env (picNoS b ++ List.replicate n c) = hasPoint env (picNoS b) := by
    rw [hasPoint_append env _ c n hn, hpt]
    simp [hc80]
  constructor
  · rw [hcat, hi.cat]
    have := mem_rep 67 b c n hn
    by_cases h1 : 67 ∈ b
    · have h2 : 67 ∈ b ++ List.replicate n c := this.2 (Or.inl h1)
      rw [if_pos h1, if_pos h2]
      split
      · rw [or_assoc']; congr 1
      · rfl
    · rw [if_neg h1]
      by_cases h3 : c = 67
      · rw [if_pos h3, if_pos (this.2 (Or.inr h3))]
      · rw [if_neg h3, if_neg]
        rw [this]; rintro (h | h)
        · exact h1 h
        · exact h3 h
  · rw [hsize, hi.size, countP_rep, countP_rep, count_rep, countP_rep]
    by_cases h1 : cat0 = picNE <;> simp only [h1, if_true, if_false, true_and, false_and] <;>
      cases picByte c <;> cases picCD c <;> cases picInsert c <;> by_cases h78 : c = 78 <;>
      simp [h78] <;> omega
  · exact hdig
  · rw [hscale, hnoS, hi.scale]
    by_cases hp : hasPoint env (picNoS b) = true
    · rw [scale_after env _ _ hp, List.countP_replicate]
      have := hi.vIff.2 hp
      cases h : picPlace c <;> simp [this]
    · have hp' : hasPoint env (picNoS b) = false := by simpa using hp
      rw [scale_before env _ _ (by rw [hhp, hp'])]
      have : ¬ (st.vCount ≠ 0) := fun h => hp (hi.vIff.1 h)
      rw [if_neg (by simp only [this, and_false]; exact id)]
      have : (List.replicate n c).count 80 = 0 := by
        rw [List.count_replicate]; simp [hc80]
      rw [this]; simp
  · exact hlen
  · rw [hs]
    have := hi.sPos
    simp only [List.length_append, List.length_replicate]
    split <;> omega
  · rw [hs, countP_rep]
    have h1 := hi.sPos
    have h2 := hi.sIff
    cases picSg c <;> simp only [Bool.false_eq_true, if_true, if_false, Nat.add_zero] <;> omega
  · rw [hsSeen, hi.sSeen, mem_rep _ _ _ _ hn]; simp [hc83]
  · rw [hpSeen, hi.pSeen, mem_rep _ _ _ _ hn]; simp [hc80]
  · rw [hcur, count_rep]
    split
    · simp; omega
    · rw [hi.curSeen]; simp
  · rw [hv]; exact hi.vPos
  · rw [hv, hnoS, hhp]; exact hi.vIff
  · rw [mem_rep _ _ _ _ hn, hv, countP_rep, hpt]
    intro h
    rw [hi.vNoP (fun hh => h (Or.inl hh))]; simp
  · rw [countP_rep, hpt]; simpa using hi.pts
  · rw [hbuff, hnoS, List.flatMap_append, hi.buff]; simp
  · rw [hbuff]
    intro p hp
    rw [List.mem_append, List.mem_singleton] at hp
    rcases hp with hp | hp
    · exact hi.buffPos p hp
    · subst hp; simp; omega

/-- What the two conditions on the place of a 'P' mean. -/
theorem pplace_begin (env : EditEnv) (cat0 : PicBits) (st : PicSt) (b rest : List Nat) (hi : PInv env cat0 st b) :
    (picPPlace st rest).1 = true ↔ picNoS b = [] ∨ picNoS b = [86] := by
  have hS : ∀ p ∈ st.buff, p.1 ≠ 83 := by
    intro p hp h83
    have : p.1 ∈ picNoS b := by
      rw [← hi.buff, List.mem_flatMap]
      exact ⟨p, hp, by rw [List.mem_replicate]; exact ⟨by have := hi.buffPos p hp; omega, rfl⟩⟩
    unfold picNoS at this
    rw [List.mem_filter] at this
    simp [h83] at this
  have hb := hi.buff
  have hpos := hi.buffPos
  have hpts : (picNoS b).countP (picPointSym env) ≤ 1 := by
    refine Nat.le_trans ?_ hi.pts
    unfold picNoS
    exact List.Sublist.countP_le List.filter_sublist
  unfold picPPlace
  match hbf : st.buff with
  | [] =>
    rw [hbf] at hb
    simp at hb
    simp [← hb]
  | [p] =>
    rw [hbf] at hb hS hpos
    have h83 := hS p (by simp)
    have hp := hpos p (by simp)
    obtain ⟨c, n⟩ := p
    simp only at h83 hp
    simp only [List.flatMap_cons, List.flatMap_nil, List.append_nil] at hb
    obtain ⟨k, hk⟩ : ∃ k : Nat, n.toNat = k + 1 := ⟨n.toNat - 1, by omega⟩
    rw [hk] at hb
    simp only [List.length_singleton, List.getLast?_singleton, Option.map_some, Option.getD_some]
    constructor
    · intro h
      simp only [Bool.or_eq_true, beq_iff_eq] at h
      rcases h with h | h
      · subst h
        right
        rw [← hb] at hpts ⊢
        rw [List.countP_replicate] at hpts
        simp only [picPointSym, beq_self_eq_true, Bool.true_or, if_true] at hpts
        have : k = 0 := by omega
        subst this; rfl
      · exact absurd h h83
    · intro h
      rw [← hb] at h
      rcases h with h | h
      · simp [List.replicate_succ] at h
      · rw [List.replicate_succ] at h
        injection h with h1 _
        simp [h1]
  | [p, q] =>
    rw [hbf] at hb hS hpos
    have hp := hpos p (by simp)
    have hq := hpos q (by simp)
    have h83 := hS p (by simp)
    obtain ⟨c, n⟩ := p
    obtain ⟨d, m⟩ := q
    simp only at h83 hp hq
    have hlen : 2 ≤ (picNoS b).length := by
      rw [← hb]; simp; omega
    constructor
    · intro h; simp at h; exact absurd h.1 h83
    · rintro (h | h) <;> rw [h] at hlen <;> simp at hlen
  | p :: q :: r :: l =>
    rw [hbf] at hb hpos
    have hp := hpos p (by simp)
    have hq := hpos q (by simp)
    have hlen : 2 ≤ (picNoS b).length := by
      rw [← hb]; simp; omega
    constructor
    · intro h; simp at h
    · rintro (h | h) <;> rw [h] at hlen <;> simp at hlen

theorem scale_bound (env : EditEnv) (A : List Nat) :
    -(A.length : Int) ≤ picScaleA env A ∧ picScaleA env A ≤ A.length := by
  unfold picScaleA
  have h1 : (A.drop (picPointPos env A)).countP picPlace ≤ (A.drop (picPointPos env A)).length := List.countP_le_length
  have h2 : (A.take (picPointPos env A)).count 80 ≤ (A.take (picPointPos env A)).length := List.count_le_length
  rw [List.length_drop] at h1
  rw [List.length_take] at h2
  omega

/-- The bounds that keep the arithmetic exact. -/
structure PBnd (env : EditEnv) (st : PicSt) (b : List Nat) (n : Nat) : Prop where
  len : b.length + n < 536870912
  size : 0 ≤ st.size ∧ st.size ≤ 4 * b.length
  digits : 0 ≤ st.digits ∧ st.digits ≤ 3 * b.length
  scale : -(b.length : Int) ≤ st.scale ∧ st.scale ≤ b.length
  charLen : 0 ≤ st.charLen ∧ st.charLen ≤ 3 * b.length

theorem pbnd (env : EditEnv) (cat0 : PicBits) (st : PicSt) (b : List Nat) (n : Nat) (hi : PInv env cat0 st b)
    (hlen : b.length + n < 536870912) : PBnd env st b n := by
  have b1 : b.countP picPlace ≤ b.length := List.countP_le_length
  have b2 : b.countP picSignSym ≤ b.length := List.countP_le_length
  have b3 : b.count env.cur ≤ b.length := List.count_le_length
  have b4 : b.countP picChar ≤ b.length := List.countP_le_length
  have b5 : b.countP picByte ≤ b.length := List.countP_le_length
  have b6 : b.count 78 ≤ b.length := List.count_le_length
  have b7 : b.countP picCD ≤ b.length := List.countP_le_length
  have b8 : b.countP picInsert ≤ b.length := List.countP_le_length
  refine ⟨hlen, ?_, ?_, ?_, ?_⟩
  · rw [hi.size]; split <;> omega
  · rw [hi.digits]; omega
  · rw [hi.scale]
    have h1 := scale_bound env (picNoS b)
    have h2 : (picNoS b).length ≤ b.length := List.length_filter_le _ _
    omega
  · rw [hi.charLen]; omega

/-- The size after a symbol is stored. -/
theorem store_size (st1 : PicSt) (c n m : Nat) (hb : 0 ≤ st1.size ∧ st1.size ≤ 4 * m) (hm : m + n < 536870912) :
    (picStore st1 c n).size = st1.size + (if picByte c ∨ c = 83 then (n : Int) else 0) + (if c = 78 then (n : Int) else 0) +
      (if picCD c then (n : Int) else 0) + (if st1.cat = picNE ∧ picInsert c = true then (n : Int) else 0) := by
  have w7 : wrap32 (st1.size + n) = st1.size + n := wrap32_id (by omega) (by omega)
  have w8 : wrap32 (st1.size + n + n) = st1.size + n + n := wrap32_id (by omega) (by omega)
  have hB : (picByte c = true ∨ c = 83) ↔ (c ≠ 86 ∧ c ≠ 80) := by
    simp only [picByte, Bool.and_eq_true, bne_iff_ne]; omega
  have hI : picInsert c = true ↔ (c = 48 ∨ c = 66 ∨ c = 47) := by
    simp only [picInsert, Bool.or_eq_true, beq_iff_eq]; omega
  have hC : picCD c = true ↔ (c = 67 ∨ c = 68) := by
    simp only [picCD, Bool.or_eq_true, beq_iff_eq]
  simp only [picStore, hB, hI, hC]
  by_cases a1 : c ≠ 86 ∧ c ≠ 80
  · simp only [a1, w7, if_true, ne_eq, not_false_eq_true, and_self]
    by_cases a2 : c = 67 ∨ c = 68
    · have x1 : ¬ c = 78 := by omega
      have x2 : ¬ (c = 48 ∨ c = 66 ∨ c = 47) := by omega
      simp only [a2, x1, x2, w8, if_true, if_false, and_false]; omega
    · by_cases a3 : c = 78
      · subst a3
        simp [w8]
      · simp only [a2, a3, if_false, false_or]
        split <;> omega
  · have x1 : ¬ c = 78 := by omega
    have x2 : ¬ (c = 48 ∨ c = 66 ∨ c = 47) := by omega
    have x3 : ¬ (c = 67 ∨ c = 68) := by omega
    simp only [a1, x1, x2, x3, if_false, and_false, or_false]; omega

/-- A symbol that is neither a sign nor the currency symbol. -/
theorem sym_inv (env : EditEnv) (cat0 : PicBits) (st st1 : PicSt) (b : List Nat) (c n : Nat) (hn : 0 < n)
    (hi : PInv env cat0 st b) (hlen : b.length + n < 536870912) (h67 : 67 ∉ b)
    (hcat : st1.cat = if c = 67 then st.cat.or { n := true, e := true } else st.cat)
    (hsize : st1.size = st.size) (hbuff : st1.buff = st.buff)
    (hsign : picSignSym c = false) (hc : c ≠ env.cur)
    (hdig : st1.digits = if picPlace c then st.digits + n else st.digits)
    (hscale : st1.scale = if picPlace c = true ∧ st.vCount ≠ 0 then st.scale + n else st.scale)
    (hchar : st1.charLen = if picChar c then st.charLen + n else st.charLen)
    (hs : st1.sCount = if picSg c then st.sCount + 1 else st.sCount)
    (hc83 : c ≠ 83) (hc80 : c ≠ 80) (hpt : picPointSym env c = false) (hsSeen : st1.sSeen = st.sSeen)
    (hpSeen : st1.pSeen = st.pSeen) (hcur : st1.curSeen = st.curSeen)
    (hv : st1.vCount = st.vCount) :
    PInv env cat0 (picStore st1 c n) (b ++ List.replicate n c) := by
  have hbd := pbnd env cat0 st b n hi hlen
  apply pinv_plain env cat0 st _ b c n hn hi
  · exact hcat
  · rw [store_size st1 c n b.length (by rw [hsize]; exact hbd.size) hlen, hsize]
    have e1 : st1.cat = picNE ∧ picInsert c = true ↔ cat0 = picNE ∧ picInsert c = true := by
      rw [hcat, hi.cat, if_neg h67]
      by_cases h : c = 67
      · subst h; simp [picInsert]
      · rw [if_neg h]
    simp only [hc83, or_false, e1]
  · rw [show (picStore st1 c n).digits = st1.digits from rfl, hdig, hi.digits, countP_rep, countP_rep, count_rep, if_neg hc, hsign]
    cases picPlace c <;> simp <;> omega
  · exact hscale
  · rw [show (picStore st1 c n).charLen = st1.charLen from rfl, hchar, hi.charLen, countP_rep, countP_rep, count_rep, if_neg hc, hsign]
    cases picChar c <;> simp <;> omega
  · exact hs
  · exact hc83
  · exact hc80
  · exact hpt
  · exact hsSeen
  · exact hpSeen
  · rw [if_neg hc]; exact hcur
  · exact hv
  · rw [show (picStore st1 c n).buff = st1.buff ++ [(c, (n : Int))] from rfl, hbuff]

/-- A sign or a currency symbol. -/
theorem float_inv (env : EditEnv) (cat0 : PicBits) (st st1 : PicSt) (b : List Nat) (c n : Nat) (hn : 0 < n)
    (hi : PInv env cat0 st b) (hlen : b.length + n < 536870912) (h67 : 67 ∉ b) (first : Bool)
    (hkind : (picSignSym c = true ∧ c ≠ env.cur ∧ (first = true ↔ b.countP picSignSym = 0)) ∨
      (picSignSym c = false ∧ c = env.cur ∧ (first = true ↔ b.count env.cur = 0)))
    (hpl : picPlace c = false) (hch : picChar c = false) (hin : picInsert c = false)
    (hcat : st1.cat = st.cat) (h67c : c ≠ 67)
    (hsize : st1.size = st.size) (hbuff : st1.buff = st.buff)
    (hdig : st1.digits = if first then st.digits + (n - 1) else st.digits + n)
    (hscale : st1.scale = st.scale)
    (hchar : st1.charLen = if first then st.charLen + (n - 1) else st.charLen + n)
    (hs : st1.sCount = if picSg c then st.sCount + 1 else st.sCount)
    (hc83 : c ≠ 83) (hc80 : c ≠ 80) (hpt : picPointSym env c = false) (hsSeen : st1.sSeen = st.sSeen)
    (hpSeen : st1.pSeen = st.pSeen) (hcur : st1.curSeen = if c = env.cur then true else st.curSeen)
    (hv : st1.vCount = st.vCount) :
    PInv env cat0 (picStore st1 c n) (b ++ List.replicate n c) := by
  have hbd := pbnd env cat0 st b n hi hlen
  apply pinv_plain env cat0 st _ b c n hn hi
  · rw [if_neg h67c]; exact hcat
  · rw [store_size st1 c n b.length (by rw [hsize]; exact hbd.size) hlen, hsize, hin]
    simp [hc83]
  · rw [show (picStore st1 c n).digits = st1.digits from rfl, hdig, hi.digits, countP_rep, countP_rep, count_rep, hpl]
    rcases hkind with ⟨h1, h2, h3⟩ | ⟨h1, h2, h3⟩
    · rw [h1, if_neg h2]
      cases first
      · have : b.countP picSignSym ≠ 0 := fun h => by simpa using h3.2 h
        simp only [Bool.false_eq_true, if_false, if_true]; omega
      · have := h3.1 rfl
        simp only [Bool.false_eq_true, if_false, if_true]; omega
    · rw [h1, if_pos h2]
      cases first
      · have : b.count env.cur ≠ 0 := fun h => by simpa using h3.2 h
        simp only [Bool.false_eq_true, if_false]; omega
      · have := h3.1 rfl
        simp only [Bool.false_eq_true, if_false, if_true]; omega
  · rw [hpl, show (picStore st1 c n).scale = st1.scale from rfl]; simpa using hscale
  · rw [show (picStore st1 c n).charLen = st1.charLen from rfl, hchar, hi.charLen, countP_rep, countP_rep, count_rep, hch]
    rcases hkind with ⟨h1, h2, h3⟩ | ⟨h1, h2, h3⟩
    · rw [h1, if_neg h2]
      cases first
      · have : b.countP picSignSym ≠ 0 := fun h => by simpa using h3.2 h
        simp only [Bool.false_eq_true, if_false, if_true]; omega
      · have := h3.1 rfl
        simp only [Bool.false_eq_true, if_false, if_true]; omega
    · rw [h1, if_pos h2]
      cases first
      · have : b.count env.cur ≠ 0 := fun h => by simpa using h3.2 h
        simp only [Bool.false_eq_true, if_false]; omega
      · have := h3.1 rfl
        simp only [Bool.false_eq_true, if_false, if_true]; omega
  · exact hs
  · exact hc83
  · exact hc80
  · exact hpt
  · exact hsSeen
  · exact hpSeen
  · exact hcur
  · exact hv
  · rw [show (picStore st1 c n).buff = st1.buff ++ [(c, (n : Int))] from rfl, hbuff]

/-- 'V' or the decimal point. -/
theorem point_inv (env : EditEnv) (hdp : env.dp = 46 ∨ env.dp = 44) (cat0 : PicBits) (st : PicSt) (b : List Nat) (c : Nat)
    (hi : PInv env cat0 st b) (hlen : b.length + 1 < 536870912) (h67 : 67 ∉ b)
    (hc : c = 86 ∨ c = 44 ∨ c = 46) (hcur : c ≠ env.cur) (hpt : picPointSym env c = true) (hv0 : st.vCount = 0) :
    PInv env cat0 (picStore { st with vCount := 1 } c 1) (b ++ List.replicate 1 c) := by
  have hbd := pbnd env cat0 st b 1 hi hlen
  have hnp : hasPoint env (picNoS b) = false := by
    cases h : hasPoint env (picNoS b) with
    | false => rfl
    | true => exact absurd hv0 (hi.vIff.2 h)
  have hnoS : picNoS (b ++ List.replicate 1 c) = picNoS b ++ [c] := by
    rw [noS_append, if_neg (by omega)]; rfl
  have hpl : picPlace c = false := by rcases hc with rfl | rfl | rfl <;> rfl
  have hch : picChar c = false := by rcases hc with rfl | rfl | rfl <;> rfl
  have hsn : picSignSym c = false := by rcases hc with rfl | rfl | rfl <;> rfl
  have hsg : picSg c = false := by rcases hc with rfl | rfl | rfl <;> rfl
  have hin : picInsert c = false := by rcases hc with rfl | rfl | rfl <;> rfl
  have hcd : picCD c = false := by rcases hc with rfl | rfl | rfl <;> rfl
  have hpts : b.countP (picPointSym env) = 0 := by
    have hh : b.any (picPointSym env) = false := by
      unfold hasPoint at hnp
      rw [Bool.or_eq_false_iff] at hnp
      have := hnp.2
      rw [List.any_eq_false] at this ⊢
      intro x hx
      by_cases h83 : x = 83
      · intro hh
        subst h83
        -- 'S' is no decimal point
        simp only [picPointSym, Bool.or_eq_true, beq_iff_eq] at hh hpt
        omega
      · exact this x (by unfold picNoS; rw [List.mem_filter]; exact ⟨hx, by simpa using h83⟩)
    rw [List.any_eq_false] at hh
    rw [List.countP_eq_zero]
    exact hh
  constructor
  · show st.cat = _
    rw [hi.cat, if_neg h67, if_neg]
    rw [mem_rep _ _ _ _ (by omega)]
    rintro (h | h)
    · exact h67 h
    · omega
  · have := store_size { st with vCount := 1 } c 1 b.length hbd.size hlen
    rw [show ((1 : Nat) : Int) = 1 from rfl] at this
    rw [this]
    simp only [countP_rep, count_rep, hin, hcd, hi.size]
    have : ¬ c = 78 := by omega
    have : ¬ c = 83 := by omega
    simp only [*, Bool.false_eq_true, if_false, and_false, or_false, Nat.add_zero]
    cases picByte c <;> simp <;> omega
  · show st.digits = _
    simp only [countP_rep, count_rep, hpl, hsn, if_neg hcur, hi.digits]
    simp
  · show st.scale = _
    rw [hnoS, scale_point env _ c hnp hpt hpl (by omega), hi.scale]
  · show st.charLen = _
    simp only [countP_rep, count_rep, hch, hsn, if_neg hcur, hi.charLen]
    simp
  · show 0 ≤ st.sCount ∧ st.sCount ≤ _
    have := hi.sPos
    simp only [List.length_append, List.length_replicate]; omega
  · show 0 < st.sCount ↔ _
    rw [countP_rep, hsg, hi.sIff]; simp
  · show st.sSeen = true ↔ _
    rw [hi.sSeen, mem_rep _ _ _ _ (by omega)]
    constructor
    · exact Or.inl
    · rintro (h | h)
      · exact h
      · omega
  · show st.pSeen = true ↔ _
    rw [hi.pSeen, mem_rep _ _ _ _ (by omega)]
    constructor
    · exact Or.inl
    · rintro (h | h)
      · exact h
      · omega
  · show st.curSeen = true ↔ _
    rw [hi.curSeen, count_rep, if_neg hcur]; simp
  · show (0 : Int) ≤ 1 ∧ (1 : Int) ≤ 2
    omega
  · show (1 : Int) ≠ 0 ↔ _
    rw [hnoS]
    have := hasPoint_append env (picNoS b) c 1 (by omega)
    rw [show List.replicate 1 c = [c] from rfl] at this
    rw [this, hpt]; simp
  · intro _
    show (1 : Int) = _
    rw [countP_rep, hpt, hpts]; simp
  · rw [countP_rep, hpt, hpts]; simp
  · show (st.buff ++ [(c, (1 : Int))]).flatMap _ = _
    rw [hnoS, List.flatMap_append, hi.buff]; simp
  · show ∀ p ∈ st.buff ++ [(c, (1 : Int))], _
    intro p hp
    rw [List.mem_append, List.mem_singleton] at hp
    rcases hp with hp | hp
    · exact hi.buffPos p hp
    · subst hp; simp

/-- 'P'. -/
theorem p_inv (env : EditEnv) (hdp : env.dp = 46 ∨ env.dp = 44) (hcur : 80 ≠ env.cur) (cat0 : PicBits) (st : PicSt) (b rest : List Nat) (n : Nat)
    (hn : 0 < n) (hi : PInv env cat0 st b) (hlen : b.length + n < 536870912) (h67 : 67 ∉ b) (h80 : 80 ∉ b)
    (v : Int) (hv : v = if (picPPlace st rest).1 then st.vCount + 1 else st.vCount) :
    PInv env cat0 (picStore { st with
      pSeen := true, vCount := v, digits := st.digits + n, charLen := st.charLen + n
      scale := if v ≠ 0 then st.scale + n else st.scale - n } 80 n) (b ++ List.replicate n 80) := by
  have hbd := pbnd env cat0 st b n hi hlen
  have hnoS : picNoS (b ++ List.replicate n 80) = picNoS b ++ List.replicate n 80 := by
    rw [noS_append, if_neg (by omega)]
  have hpb := pplace_begin env cat0 st b rest hi
  have hvp := hi.vPos
  have hvn := hi.vNoP h80
  have hA80 : (picNoS b).head? ≠ some 80 := by
    intro h
    have := List.mem_of_mem_head? h
    unfold picNoS at this
    rw [List.mem_filter] at this
    exact h80 this.1
  have hnpt : picPointSym env 80 = false := by
    simp only [picPointSym, Bool.or_eq_false_iff, beq_eq_false_iff_ne]; omega
  have hhp := hasPoint_append env (picNoS b) 80 n hn
  rw [hnpt, Bool.or_false] at hhp
  have hvIff : v ≠ 0 ↔ hasPoint env (picNoS b ++ List.replicate n 80) = true := by
    rw [hhp, hv]
    by_cases hb : (picPPlace st rest).1 = true
    · rw [if_pos hb]
      constructor
      · intro _
        rcases hpb.1 hb with h | h
        · simp [h]
        · rw [h]; simp [hasPoint, picPointSym]
      · intro _; omega
    · rw [if_neg hb, hi.vIff]
      have : picNoS b ≠ [] := fun h => hb (hpb.2 (Or.inl h))
      simp [this]
  constructor
  · show st.cat = _
    rw [hi.cat, if_neg h67, if_neg]
    rw [mem_rep _ _ _ _ hn]
    rintro (h | h)
    · exact h67 h
    · omega
  · rw [store_size _ 80 n b.length (by exact hbd.size) hlen]
    simp only [countP_rep, count_rep, hi.size]
    simp [picByte, picCD, picInsert]
  · show st.digits + (n : Int) = _
    simp only [countP_rep, count_rep, hi.digits, if_neg hcur]
    simp [picPlace, picSignSym]; omega
  · show (if v ≠ 0 then st.scale + (n : Int) else st.scale - n) = _
    rw [hnoS, hi.scale]
    by_cases h0 : v ≠ 0
    · rw [if_pos h0]
      by_cases hp : hasPoint env (picNoS b) = true
      · rw [scale_after env _ _ hp, List.countP_replicate]; simp [picPlace]
      · rw [hvIff, hhp] at h0
        simp only [hp, Bool.false_or] at h0
        simp only [Bool.and_eq_true, beq_iff_eq] at h0
        rw [h0.1]
        obtain ⟨k, rfl⟩ : ∃ k, n = k + 1 := ⟨n - 1, by omega⟩
        simp [picScaleA, picPointPos, List.replicate_succ, picPlace, List.countP_replicate]
    · rw [if_neg h0]
      have : hasPoint env (picNoS b ++ List.replicate n 80) = false := by
        cases h : hasPoint env (picNoS b ++ List.replicate n 80) with
        | false => rfl
        | true => exact absurd (hvIff.2 h) h0
      rw [scale_before env _ _ this]; simp
  · show st.charLen + (n : Int) = _
    simp only [countP_rep, count_rep, hi.charLen, if_neg hcur]
    simp [picPlace, picSignSym, picChar]; omega
  · show 0 ≤ st.sCount ∧ st.sCount ≤ _
    have := hi.sPos
    simp only [List.length_append, List.length_replicate]; omega
  · show 0 < st.sCount ↔ _
    rw [countP_rep, hi.sIff]; simp [picSg]
  · show st.sSeen = true ↔ _
    rw [hi.sSeen, mem_rep _ _ _ _ hn]; simp
  · show true = true ↔ _
    rw [mem_rep _ _ _ _ hn]; simp
  · show st.curSeen = true ↔ _
    rw [hi.curSeen, count_rep, if_neg hcur]; simp
  · show 0 ≤ v ∧ v ≤ 2
    have := hi.pts
    rw [hv]; split <;> omega
  · show v ≠ 0 ↔ _
    rw [hnoS]; exact hvIff
  · intro h
    exact absurd ((mem_rep _ _ _ _ hn).2 (Or.inr rfl)) h
  · rw [countP_rep, hnpt]; simpa using hi.pts
  · show (st.buff ++ [(80, (n : Int))]).flatMap _ = _
    rw [hnoS, List.flatMap_append, hi.buff]; simp
  · show ∀ p ∈ st.buff ++ [(80, (n : Int))], _
    intro p hp
    rw [List.mem_append, List.mem_singleton] at hp
    rcases hp with hp | hp
    · exact hi.buffPos p hp
    · subst hp; simp; omega

/-- 'S', which can only be the first symbol. -/
theorem s_inv (env : EditEnv) (hdp : env.dp = 46 ∨ env.dp = 44) (hcur : 83 ≠ env.cur) (cat0 : PicBits) (st : PicSt) (b : List Nat)
    (hi : PInv env cat0 st b) (hs0 : st.sCount = 0) (hb : st.buff = []) :
    b = [] ∧ PInv env cat0 { st with sCount := 1, sSeen := true } (b ++ List.replicate 1 83) := by
  have h83 : 83 ∉ b := by
    intro h
    have h1 : 0 < b.countP picSg := List.countP_pos_iff.2 ⟨83, h, rfl⟩
    have := hi.sIff.2 h1
    omega
  have hbn : b = [] := by
    have h1 := hi.buff
    rw [hb] at h1
    simp only [List.flatMap_nil] at h1
    have h2 : picNoS b = b := by
      unfold picNoS
      rw [List.filter_eq_self]
      intro x hx
      have : x ≠ 83 := fun hh => h83 (hh ▸ hx)
      simpa using this
    rw [← h2, ← h1]
  refine ⟨hbn, ?_⟩
  subst hbn
  have hnpt : picPointSym env 83 = false := by
    simp only [picPointSym, Bool.or_eq_false_iff, beq_eq_false_iff_ne]; omega
  have hnoS : picNoS ([] ++ List.replicate 1 83) = [] := rfl
  have e1 : ([] : List Nat) ++ List.replicate 1 83 = [83] := rfl
  constructor
  · show st.cat = _
    rw [hi.cat]; simp
  · show st.size = _
    rw [hi.size]; simp [picByte, picCD, picInsert]
  · show st.digits = _
    rw [hi.digits]
    rw [e1, List.count_singleton]
    simp [picPlace, picSignSym, hcur]
  · show st.scale = _
    rw [hi.scale]; rfl
  · show st.charLen = _
    rw [hi.charLen]
    rw [e1, List.count_singleton]
    simp [picPlace, picSignSym, picChar, picInsert, hcur]
  · show (0 : Int) ≤ 1 ∧ (1 : Int) ≤ _
    simp
  · show (0 : Int) < 1 ↔ _
    simp [picSg]
  · show true = true ↔ _
    simp
  · show st.pSeen = true ↔ _
    rw [hi.pSeen]; simp
  · show st.curSeen = true ↔ _
    rw [hi.curSeen, e1, List.count_singleton]; simp [hcur]
  · exact hi.vPos
  · show st.vCount ≠ 0 ↔ _
    rw [hi.vIff]; rfl
  · intro _
    show st.vCount = _
    rw [hi.vNoP (by simp)]
    simp [hnpt]
  · simp [hnpt]
  · show st.buff.flatMap _ = _
    rw [hi.buff]; rfl
  · exact hi.buffPos

/-- One turn of the loop. -/
theorem step_inv (env : EditEnv) (he : PicEnvOk env) (cat0 : PicBits) (st st' : PicSt) (b : List Nat) (c n : Nat)
    (rest rest' : List Nat) (hn : 0 < n) (hlen : b.length + n < 536870912) (hi : PInv env cat0 st b) (h67 : 67 ∉ b)
    (h68 : 68 ∉ b) (h : picStep env st c n rest = some (st', rest')) :
    PInv env cat0 st' (b ++ List.replicate n c) ∧
      ((c = 67 ∧ rest = [82] ∧ rest' = []) ∨ (c = 68 ∧ rest = [66] ∧ rest' = []) ∨ (c ≠ 67 ∧ c ≠ 68 ∧ rest' = rest)) := by
  obtain ⟨hdp, hcl⟩ := he
  have hcur : ∀ d ∈ [0, 40, 41, 42, 43, 44, 45, 46, 47, 48, 57, 65, 66, 67, 68, 78, 80, 82, 83, 86, 88, 90], ¬ d = env.cur :=
    fun d hd hh => hcl (hh ▸ hd)
  have hbd := pbnd env cat0 st b n hi hlen
  have hdpn : ∀ d, d ≠ 86 → d ≠ 44 → d ≠ 46 → picPointSym env d = false := by
    intro d h1 h2 h3
    simp only [picPointSym, Bool.or_eq_false_iff, beq_eq_false_iff_ne]; omega
  obtain ⟨_, hb2, hb3, hb4, hb5⟩ := hbd
  have hsp := hi.sPos
  have hvp := hi.vPos
  have hin : incLen st.charLen n = st.charLen + n := incLen_ok (by omega) (by omega) (by omega)
  have w1 : wrap32 (st.digits + n) = st.digits + n := wrap32_id (by omega) (by omega)
  have w5 : wrap32 (st.scale + n) = st.scale + n := wrap32_id (by omega) (by omega)
  rw [picStep] at h
  by_cases c83 : c = 83
  · subst c83
    rw [if_pos rfl] at h
    split at h
    · exact absurd h (by simp)
    rw [wrap32_id (by omega) (by omega)] at h
    split at h
    · exact absurd h (by simp)
    rename_i h1
    simp only [Option.some.injEq, Prod.mk.injEq] at h
    obtain ⟨rfl, rfl⟩ := h
    have hb : st.buff = [] := by
      by_contra hh
      exact h1 (Or.inr hh)
    have hs : ¬ (st.sCount + n > 1) := fun hh => h1 (Or.inl hh)
    have h0 : st.sCount = 0 := by omega
    have hn1 : n = 1 := by omega
    subst hn1
    rw [h0]
    exact ⟨(s_inv env hdp (hcur 83 (by simp)) cat0 st b hi h0 hb).2, Or.inr (Or.inr ⟨by omega, by omega, rfl⟩)⟩
  rw [if_neg c83] at h
  rw [Option.map_eq_some_iff] at h
  obtain ⟨⟨st1, r1⟩, h, heq⟩ := h
  simp only [Prod.mk.injEq] at heq
  obtain ⟨rfl, rfl⟩ := heq
  rw [picSym] at h
  simp only at h
  by_cases g1 : c = 65 ∨ c = 88
  · rw [if_pos g1, hin] at h
    split at h
    · exact absurd h (by simp)
    simp only [Option.some.injEq, Prod.mk.injEq] at h
    obtain ⟨rfl, rfl⟩ := h
    refine ⟨?_, Or.inr (Or.inr ⟨by omega, by omega, rfl⟩)⟩
    rcases g1 with rfl | rfl
    · exact sym_inv env cat0 st _ b 65 n hn hi hlen h67 rfl rfl rfl rfl (hcur 65 (by simp)) rfl rfl rfl rfl c83 (by omega)
        (hdpn 65 (by omega) (by omega) (by omega)) rfl rfl rfl rfl
    · exact sym_inv env cat0 st _ b 88 n hn hi hlen h67 rfl rfl rfl rfl (hcur 88 (by simp)) rfl rfl rfl rfl c83 (by omega)
        (hdpn 88 (by omega) (by omega) (by omega)) rfl rfl rfl rfl
  rw [if_neg g1] at h
  by_cases g2 : c = 57
  · subst g2
    rw [if_pos rfl, hin, w1, w5] at h
    simp only [Option.some.injEq, Prod.mk.injEq] at h
    obtain ⟨rfl, rfl⟩ := h
    refine ⟨?_, Or.inr (Or.inr ⟨by omega, by omega, rfl⟩)⟩
    exact sym_inv env cat0 st _ b 57 n hn hi hlen h67 rfl rfl rfl rfl (hcur 57 (by simp)) rfl (by simp [picPlace]) rfl rfl c83 (by omega)
        (hdpn 57 (by omega) (by omega) (by omega)) rfl rfl rfl rfl
  rw [if_neg g2] at h
  by_cases g3 : c = 78
  · subst g3
    rw [if_pos rfl, hin] at h
    split at h
    · exact absurd h (by simp)
    simp only [Option.some.injEq, Prod.mk.injEq] at h
    obtain ⟨rfl, rfl⟩ := h
    refine ⟨?_, Or.inr (Or.inr ⟨by omega, by omega, rfl⟩)⟩
    exact sym_inv env cat0 st _ b 78 n hn hi hlen h67 rfl rfl rfl rfl (hcur 78 (by simp)) rfl rfl rfl rfl c83 (by omega)
        (hdpn 78 (by omega) (by omega) (by omega)) rfl rfl rfl rfl
  rw [if_neg g3] at h
  by_cases g4 : c = 44 ∨ c = 46 ∨ c = 86
  · rw [if_pos g4] at h
    split at h
    · exact absurd h (by simp)
    split at h
    · rename_i _ hnp
      simp only [Option.some.injEq, Prod.mk.injEq] at h
      obtain ⟨rfl, rfl⟩ := h
      refine ⟨?_, Or.inr (Or.inr ⟨by omega, by omega, rfl⟩)⟩
      have hnpt : picPointSym env c = false := by
        simp only [picPointSym, Bool.or_eq_false_iff, beq_eq_false_iff_ne]; exact hnp
      rcases g4 with rfl | rfl | rfl
      · exact sym_inv env cat0 st st b 44 n hn hi hlen h67 rfl rfl rfl rfl (hcur 44 (by simp)) rfl rfl rfl rfl c83 (by omega)
          hnpt rfl rfl rfl rfl
      · exact sym_inv env cat0 st st b 46 n hn hi hlen h67 rfl rfl rfl rfl (hcur 46 (by simp)) rfl rfl rfl rfl c83 (by omega)
          hnpt rfl rfl rfl rfl
      · exact absurd rfl hnp.1
    · rename_i _ hnp
      split at h
      · exact absurd h (by simp)
      rw [wrap32_id (by omega) (by omega)] at h
      split at h
      · exact absurd h (by simp)
      rename_i hv
      simp only [Option.some.injEq, Prod.mk.injEq] at h
      obtain ⟨rfl, rfl⟩ := h
      refine ⟨?_, Or.inr (Or.inr ⟨by omega, by omega, rfl⟩)⟩
      have h0 : st.vCount = 0 := by omega
      have hn1 : n = 1 := by omega
      subst hn1
      rw [h0]
      refine point_inv env hdp cat0 st b c hi hlen h67 (by omega) ?_ ?_ h0
      · rcases g4 with rfl | rfl | rfl
        · exact hcur 44 (by simp)
        · exact hcur 46 (by simp)
        · exact hcur 86 (by simp)
      · simp only [picPointSym, Bool.or_eq_true, beq_iff_eq]
        by_cases h86 : c = 86
        · exact Or.inl h86
        · right
          by_contra hh
          exact hnp ⟨h86, hh⟩
  rw [if_neg g4] at h
  by_cases g5 : c = 80
  · subst g5
    rw [if_pos rfl] at h
    split at h
    · exact absurd h (by simp)
    split at h
    · exact absurd h (by simp)
    rename_i _ hps
    split at h
    · exact absurd h (by simp)
    rw [hin, w1, w5, show wrap32 (st.scale - n) = st.scale - n from wrap32_id (by omega) (by omega)] at h
    simp only [Option.some.injEq, Prod.mk.injEq] at h
    obtain ⟨rfl, rfl⟩ := h
    refine ⟨?_, Or.inr (Or.inr ⟨by omega, by omega, rfl⟩)⟩
    exact p_inv env hdp (hcur 80 (by simp)) cat0 st b rest n hn hi hlen h67 (fun hh => hps (hi.pSeen.2 hh)) _ rfl
  rw [if_neg g5] at h
  by_cases g6 : c = 48 ∨ c = 66 ∨ c = 47
  · rw [if_pos g6, hin] at h
    split at h
    · exact absurd h (by simp)
    simp only [Option.some.injEq, Prod.mk.injEq] at h
    obtain ⟨rfl, rfl⟩ := h
    refine ⟨?_, Or.inr (Or.inr ⟨by omega, by omega, rfl⟩)⟩
    rcases g6 with rfl | rfl | rfl
    · exact sym_inv env cat0 st _ b 48 n hn hi hlen h67 rfl rfl rfl rfl (hcur 48 (by simp)) rfl rfl rfl rfl c83 (by omega)
        (hdpn 48 (by omega) (by omega) (by omega)) rfl rfl rfl rfl
    · exact sym_inv env cat0 st _ b 66 n hn hi hlen h67 rfl rfl rfl rfl (hcur 66 (by simp)) rfl rfl rfl rfl c83 (by omega)
        (hdpn 66 (by omega) (by omega) (by omega)) rfl rfl rfl rfl
    · exact sym_inv env cat0 st _ b 47 n hn hi hlen h67 rfl rfl rfl rfl (hcur 47 (by simp)) rfl rfl rfl rfl c83 (by omega)
        (hdpn 47 (by omega) (by omega) (by omega)) rfl rfl rfl rfl
  rw [if_neg g6] at h
  by_cases g7 : c = 42 ∨ c = 90
  · rw [if_pos g7, hin, w1, w5] at h
    split at h
    · exact absurd h (by simp)
    split at h
    · exact absurd h (by simp)
    simp only [Option.some.injEq, Prod.mk.injEq] at h
    obtain ⟨rfl, rfl⟩ := h
    refine ⟨?_, Or.inr (Or.inr ⟨by omega, by omega, rfl⟩)⟩
    rcases g7 with rfl | rfl
    · exact sym_inv env cat0 st _ b 42 n hn hi hlen h67 rfl rfl rfl rfl (hcur 42 (by simp)) rfl (by simp [picPlace]) rfl rfl c83 (by omega)
        (hdpn 42 (by omega) (by omega) (by omega)) rfl rfl rfl rfl
    · exact sym_inv env cat0 st _ b 90 n hn hi hlen h67 rfl rfl rfl rfl (hcur 90 (by simp)) rfl (by simp [picPlace]) rfl rfl c83 (by omega)
        (hdpn 90 (by omega) (by omega) (by omega)) rfl rfl rfl rfl
  rw [if_neg g7] at h
  have w3 : wrap32 ((n : Int) - 1) = (n : Int) - 1 := wrap32_id (by omega) (by omega)
  have w2 : wrap32 (st.digits + ((n : Int) - 1)) = st.digits + ((n : Int) - 1) := wrap32_id (by omega) (by omega)
  have hin1 : incLen st.charLen ((n : Int) - 1) = st.charLen + ((n : Int) - 1) := incLen_ok (by omega) (by omega) (by omega)
  by_cases g8 : c = 43 ∨ c = 45
  · rw [if_pos g8] at h
    split at h
    · exact absurd h (by simp)
    split at h
    · exact absurd h (by simp)
    rename_i _ hsp2
    have hin2 : incLen (st.charLen + ((n : Int) - 1)) 1 = st.charLen + n := by
      rw [incLen_ok (by omega) (by omega) (by omega)]; omega
    have w4 : wrap32 (st.digits + ((n : Int) - 1) + 1) = st.digits + n := by rw [wrap32_id (by omega) (by omega)]; omega
    rw [w3, w2, hin1, hin2, w4] at h
    simp only [Option.some.injEq, Prod.mk.injEq] at h
    obtain ⟨rfl, rfl⟩ := h
    refine ⟨?_, Or.inr (Or.inr ⟨by omega, by omega, rfl⟩)⟩
    have h83 : 83 ∉ b := by
      intro hh
      have := hi.sSeen.2 hh
      simp [this] at hsp2
    have hfirst : ¬ (st.sCount > 0) ↔ b.countP picSignSym = 0 := by
      have hsg : b.countP picSg = b.countP picSignSym := by
        apply List.countP_congr
        intro x hx
        have x1 : x ≠ 83 := fun hh => h83 (hh ▸ hx)
        have x2 : x ≠ 67 := fun hh => h67 (hh ▸ hx)
        have x3 : x ≠ 68 := fun hh => h68 (hh ▸ hx)
        simp [picSg, picSignSym, x1, x2, x3]
      have := hi.sIff
      rw [hsg] at this
      omega
    have hcc : c ≠ env.cur := by
      rcases g8 with rfl | rfl
      · exact hcur 43 (by simp)
      · exact hcur 45 (by simp)
    refine float_inv env cat0 st _ b c n hn hi hlen h67 (decide (¬ (st.sCount > 0)))
      (Or.inl ⟨by rcases g8 with rfl | rfl <;> rfl, hcc, by rw [decide_eq_true_iff]; exact hfirst⟩)
      (by rcases g8 with rfl | rfl <;> rfl) (by rcases g8 with rfl | rfl <;> rfl) (by rcases g8 with rfl | rfl <;> rfl)
      ?_ (by omega) ?_ ?_ ?_ ?_ ?_ ?_ c83 (by omega) (hdpn c (by omega) (by omega) (by omega)) ?_ ?_ ?_ ?_
    all_goals by_cases hs : st.sCount > 0 <;> simp only [hs, if_true, if_false, not_true, not_false_eq_true, decide_true, decide_false, Bool.false_eq_true]
    all_goals first
      | rfl
      | (rcases g8 with rfl | rfl <;> rfl)
      | (rw [if_neg hcc])
  rw [if_neg g8] at h
  by_cases g9 : c = 67
  · subst g9
    rw [if_pos rfl] at h
    split at h
    · exact absurd h (by simp)
    rename_i hr
    split at h
    · exact absurd h (by simp)
    simp only [Option.some.injEq, Prod.mk.injEq] at h
    obtain ⟨rfl, rfl⟩ := h
    refine ⟨?_, Or.inl ⟨rfl, by simpa using hr, rfl⟩⟩
    exact sym_inv env cat0 st _ b 67 n hn hi hlen h67 rfl rfl rfl rfl (hcur 67 (by simp)) rfl rfl rfl rfl c83 (by omega)
      (hdpn 67 (by omega) (by omega) (by omega)) rfl rfl rfl rfl
  rw [if_neg g9] at h
  by_cases g10 : c = 68
  · subst g10
    rw [if_pos rfl] at h
    split at h
    · exact absurd h (by simp)
    rename_i hr
    split at h
    · exact absurd h (by simp)
    simp only [Option.some.injEq, Prod.mk.injEq] at h
    obtain ⟨rfl, rfl⟩ := h
    refine ⟨?_, Or.inr (Or.inl ⟨rfl, by simpa using hr, rfl⟩)⟩
    exact sym_inv env cat0 st _ b 68 n hn hi hlen h67 rfl rfl rfl rfl (hcur 68 (by simp)) rfl rfl rfl rfl c83 (by omega)
      (hdpn 68 (by omega) (by omega) (by omega)) rfl rfl rfl rfl
  rw [if_neg g10] at h
  by_cases g11 : c = env.cur
  · rw [if_pos g11, w3, w2, w1, hin1, hin] at h
    have hpl : picPlace c = false := by
      simp only [picPlace, Bool.or_eq_false_iff, beq_eq_false_iff_ne]; omega
    have hinn : picInsert c = false := by
      simp only [picInsert, Bool.or_eq_false_iff, beq_eq_false_iff_ne]; omega
    have hcha : picChar c = false := by
      simp only [picChar, hpl, hinn, Bool.or_eq_false_iff, beq_eq_false_iff_ne]; exact ⟨⟨⟨⟨by omega, by omega⟩, by omega⟩, trivial⟩, trivial⟩
    have hsn : picSignSym c = false := by
      simp only [picSignSym, Bool.or_eq_false_iff, beq_eq_false_iff_ne]; omega
    have hsg : picSg c = false := by
      simp only [picSg, Bool.or_eq_false_iff, beq_eq_false_iff_ne]; omega
    have hcs := hi.curSeen
    split at h
    · rename_i hcf
      simp only [Option.some.injEq, Prod.mk.injEq] at h
      obtain ⟨rfl, rfl⟩ := h
      refine ⟨?_, Or.inr (Or.inr ⟨by omega, by omega, rfl⟩)⟩
      refine float_inv env cat0 st _ b c n hn hi hlen h67 true (Or.inr ⟨hsn, g11, ?_⟩) hpl hcha hinn rfl g9 rfl rfl rfl rfl rfl
        (by rw [hsg]; rfl) c83 g5 (hdpn c (by omega) (by omega) (by omega)) rfl rfl (by rw [if_pos g11]) rfl
      rw [hcf] at hcs
      simp only [Bool.false_eq_true, false_iff] at hcs
      simp only [true_iff]
      omega
    · rename_i hcf
      simp only [Option.some.injEq, Prod.mk.injEq] at h
      obtain ⟨rfl, rfl⟩ := h
      refine ⟨?_, Or.inr (Or.inr ⟨by omega, by omega, rfl⟩)⟩
      have hct : st.curSeen = true := by simpa using hcf
      refine float_inv env cat0 st _ b c n hn hi hlen h67 false (Or.inr ⟨hsn, g11, ?_⟩) hpl hcha hinn rfl g9 rfl rfl rfl rfl rfl
        (by rw [hsg]; rfl) c83 g5 (hdpn c (by omega) (by omega) (by omega)) rfl rfl (by rw [if_pos g11]; exact hct) rfl
      have := hcs.1 hct
      simp only [Bool.false_eq_true, false_iff]
      omega
  · rw [if_neg g11] at h
    exact absurd h (by simp)

end Cob
