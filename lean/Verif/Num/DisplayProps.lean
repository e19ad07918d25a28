import Verif.Num.FieldSpec
import Verif.Num.FieldLemmas
import Mathlib.Data.List.Induction
import Mathlib.Tactic.IntervalCases
/-
Properties C01 (zoned round trip), C45 (operational sign), C04 for DISPLAY receivers.
-/
namespace Cob

/-! ### helper lemmas -/

theorem getD_lt {l : List Nat} {i : Nat} (h : i < l.length) : l.getD i 0 = l[i] := by
  simp [List.getD, h]

theorem fixedDigits_length (k n : Nat) : (fixedDigits k n).length = k := by
  induction k generalizing n with
  | zero => rfl
  | succ k ih => simp [fixedDigits, ih]

theorem fixedDigits_le (k n : Nat) : ∀ d ∈ fixedDigits k n, d ≤ 9 := by
  induction k generalizing n with
  | zero => simp [fixedDigits]
  | succ k ih =>
    intro d hd
    simp only [fixedDigits, List.mem_append, List.mem_singleton] at hd
    rcases hd with h | h
    · exact ih _ d h
    · omega

theorem digitsVal_append (a b : List Nat) :
    digitsVal (a ++ b) = digitsVal a * 10 ^ b.length + digitsVal b := by
  induction a with
  | nil => simp [digitsVal]
  | cons d a ih =>
    simp only [List.cons_append, digitsVal, List.length_append, ih, pow_add]
    ring

theorem digitsVal_fixedDigits (k n : Nat) : digitsVal (fixedDigits k n) = n % 10 ^ k := by
  induction k generalizing n with
  | zero => simp [fixedDigits, digitsVal, Nat.mod_one]
  | succ k ih =>
    rw [fixedDigits, digitsVal_append, ih]
    simp only [digitsVal, List.length_singleton, List.length_nil]
    rw [show 10 ^ (k + 1) = 10 * 10 ^ k from Nat.pow_succ', Nat.mod_mul]
    omega

theorem strVal_map (ds : List Nat) : strVal (ds.map (48 + ·)) = digitsVal ds := by
  induction ds with
  | nil => rfl
  | cons d ds ih => rw [List.map_cons, strVal_cons, ih, digitsVal]; simp

theorem digitStr_eq (bs : List Nat) (h : ∀ b ∈ bs, 48 ≤ b ∧ b ≤ 57) :
    bs = (fixedDigits bs.length (strVal bs)).map (48 + ·) := by
  induction bs using List.reverseRecOn with
  | nil => rfl
  | append_singleton bs b ih =>
    have hb := h b (by simp)
    have ih' := ih (fun x hx => h x (by simp [hx]))
    have e : strVal (bs ++ [b]) = strVal bs * 10 + (b - 48) := by
      rw [strVal_append]; simp [strVal]
    rw [e, List.length_append, List.length_singleton, fixedDigits]
    have e1 : (strVal bs * 10 + (b - 48)) / 10 = strVal bs := by omega
    have e2 : (strVal bs * 10 + (b - 48)) % 10 = b - 48 := by omega
    rw [e1, e2, List.map_append, ← ih']
    simp
    omega

theorem fixedDigits_mod (k n : Nat) : fixedDigits k (n % 10 ^ k) = fixedDigits k n := by
  induction k generalizing n with
  | zero => rfl
  | succ k ih =>
    rw [fixedDigits, fixedDigits]
    congr 1
    · rw [← ih (n / 10)]
      congr 1
      rw [Nat.pow_succ', Nat.mod_mul_right_div_self]
    · rw [Nat.pow_succ', Nat.mod_mul_right_mod]

/-- The digit characters stored by `decGetDisplay` when nothing is lost. -/
theorem pad_eq (k n : Nat) (hk : 0 < k) (h : n < 10 ^ k) :
    List.replicate (k - (decStr n).length) 48 ++ decStr n = (fixedDigits k n).map (48 + ·) := by
  have hl := (decStr_length_le n k hk).mpr h
  have := digitStr_eq (List.replicate (k - (decStr n).length) 48 ++ decStr n) (by
    intro b hb
    rcases List.mem_append.mp hb with h | h
    · rw [List.mem_replicate] at h; omega
    · exact decStr_digit n b h)
  rw [this, strVal_replicate_zero, strVal_decStr]
  congr 2
  simp; omega

theorem cut_eq (k n : Nat) (h : k ≤ (decStr n).length) :
    (decStr n).drop ((decStr n).length - k) = (fixedDigits k n).map (48 + ·) := by
  have := digitStr_eq ((decStr n).drop ((decStr n).length - k))
    (fun b hb => decStr_digit n b (List.mem_of_mem_drop hb))
  rw [this, strVal_drop n k h, List.length_drop]
  have : (decStr n).length - ((decStr n).length - k) = k := by omega
  rw [this, fixedDigits_mod]

theorem putSignByte_digit (ebc : Bool) (d : Nat) (hd : d ≤ 9) (sign : Int) :
    putSignByte ebc (48 + d) sign = overpunch ebc (decide (sign < 0)) d := by
  unfold putSignByte putSignEbcdic overpunch
  by_cases hs : sign < 0 <;> cases ebc <;> simp only [hs, decide_true, decide_false, if_true, if_false, Bool.false_eq_true] <;>
    (interval_cases d <;> rfl)

theorem getSignByte_overpunch (ebc neg : Bool) (d : Nat) (hd : d ≤ 9) :
    getSignByte ebc (overpunch ebc neg d) = (if neg then -1 else 1, 48 + d) := by
  cases ebc <;> cases neg <;> (interval_cases d <;> rfl)

theorem overpunch_ne (ebc neg : Bool) (d : Nat) (hd : d ≤ 9) :
    overpunch ebc neg d ≠ 0 ∧ overpunch ebc neg d ≠ 255 := by
  cases ebc <;> cases neg <;> (interval_cases d <;> decide)

/-- Storing `dsize` digit characters and then the sign produces the specified image. -/
theorem store_image (ebc : Bool) (f : Field) (hf : WFDisplay f) (ds : List Nat)
    (hl : ds.length = f.dsize) (hd : ∀ d ∈ ds, d ≤ 9) (sign : Int) :
    (f.storeDigits (ds.map (48 + ·))).putSign ebc sign =
      { f with data := zonedImage f.attr ebc (decide (sign < 0)) ds } := by
  obtain ⟨a, data⟩ := f
  obtain ⟨hs, hlen⟩ := hf
  simp only at hs hlen
  simp only [Field.dsize] at hl
  unfold Field.putSign Field.storeDigits zonedImage Field.dataOff Field.signPos
  simp only [List.length_map]
  by_cases hv : a.haveSign = true
  · by_cases hsep : a.separate = true
    · simp only [hsep, if_true] at hlen hl
      by_cases hlead : a.leading = true
      · simp only [hv, hsep, hlead, Bool.not_true, Bool.and_self, if_true, Bool.false_eq_true, if_false]
        match data, hlen with
        | c :: rest, hlen =>
          have : List.drop (1 + ds.length) (c :: rest) = [] := by
            apply List.drop_of_length_le; simp at hl hlen ⊢; omega
          rw [this]
          by_cases hn : sign < 0 <;> simp [hn]
      · have hlead' : a.leading = false := by simpa using hlead
        simp only [hv, hsep, hlead', Bool.not_true, Bool.and_false, Bool.false_eq_true, if_false, if_true, List.take_zero, List.nil_append, Nat.zero_add]
        have hlast : ∃ c, data.drop ds.length = [c] := by
          rw [← List.length_eq_one_iff, List.length_drop]; omega
        obtain ⟨c, hc⟩ := hlast
        rw [hc]
        simp only [List.length_append, List.length_map, List.length_singleton]
        have : (List.map (fun x => 48 + x) ds ++ [c]).length - 1 = ds.length := by simp
        have e : ds.length + 1 - 1 = (List.map (fun x => 48 + x) ds).length := by simp
        rw [e]
        by_cases hn : sign < 0 <;> simp [hn]
    · have hsep' : a.separate = false := by simpa using hsep
      simp only [hsep', Bool.false_eq_true, if_false, Nat.sub_zero] at hlen hl
      simp only [hv, hsep', Bool.not_true, Bool.false_and, Bool.false_eq_true, if_false, List.take_zero, List.nil_append, Nat.zero_add]
      have hdrop : data.drop ds.length = [] := List.drop_of_length_le (by omega)
      rw [hdrop, List.append_nil]
      by_cases hlead : a.leading = true
      · simp only [hlead, if_true]
        match ds, hl, hd with
        | [], hl, _ => simp at hl; omega
        | d :: t, hl, hd =>
          have := putSignByte_digit ebc d (hd d (by simp)) sign
          simp [this]
      · have hlead' : a.leading = false := by simpa using hlead
        simp only [hlead', Bool.false_eq_true, if_false]
        rcases List.eq_nil_or_concat ds with h | ⟨t, d, h⟩
        · subst h; simp at hl; omega
        · subst h
          have := putSignByte_digit ebc d (hd d (by simp)) sign
          simp [this]
  · have hv' : a.haveSign = false := by simpa using hv
    have hsep' : a.separate = false := by
      by_contra h; simp at h; exact hv (hs h)
    simp only [hsep', Bool.false_eq_true, if_false, Nat.sub_zero] at hlen hl
    simp only [hv', hsep', Bool.not_false, if_true, Bool.false_and, Bool.false_eq_true, if_false, List.take_zero, List.nil_append, Nat.zero_add]
    have hdrop : data.drop ds.length = [] := List.drop_of_length_le (by omega)
    rw [hdrop, List.append_nil]

/-- Taking the sign off a well-formed image yields the sign and the bare digits, and putting it
back restores the image. -/
theorem image_getSign (ebc : Bool) (a : Attr) (neg : Bool) (ds : List Nat)
    (hs : a.separate = true → a.haveSign = true) (hne : ds ≠ []) (hd : ∀ d ∈ ds, d ≤ 9) :
    let f : Field := ⟨a, zonedImage a ebc neg ds⟩
    (f.getSign ebc).1 = (if a.haveSign then (if neg then -1 else 1) else 0) ∧
    (f.getSign ebc).2.digitBytes = ds.map (48 + ·) ∧
    (f.getSign ebc).2.putSign ebc (f.getSign ebc).1 = f ∧
    f.data.getD f.dataOff 0 ≠ 0 ∧ f.data.getD f.dataOff 0 ≠ 255 ∧
    f.dsize = ds.length := by
  intro f
  obtain ⟨d0, t0, h0⟩ := List.exists_cons_of_ne_nil hne
  obtain ⟨tl, dl, hl⟩ : ∃ tl dl, ds = tl ++ [dl] := by
    rcases List.eq_nil_or_concat ds with h | ⟨t, d, h⟩
    · exact absurd h hne
    · exact ⟨t, d, by simpa using h⟩
  have hdl : dl ≤ 9 := hd dl (by rw [hl]; simp)
  have hd0 : d0 ≤ 9 := hd d0 (by rw [h0]; simp)
  have hf : f = ⟨a, zonedImage a ebc neg ds⟩ := rfl
  have hg0 := getSignByte_overpunch ebc neg d0 hd0
  have hp0 := fun s => putSignByte_digit ebc d0 hd0 s
  have hn0 := overpunch_ne ebc neg d0 hd0
  have hgl := getSignByte_overpunch ebc neg dl hdl
  have hpl := fun s => putSignByte_digit ebc dl hdl s
  have hnl := overpunch_ne ebc neg dl hdl
  clear hf
  obtain ⟨dg, sc, hv, sep, lead, sw⟩ := a
  cases hv
  · -- unsigned
    have hsep : sep = false := by
      cases sep
      · rfl
      · exact absurd (hs rfl) (by simp)
    subst hsep
    refine ⟨rfl, ?_, rfl, ?_, ?_, ?_⟩
    · show List.take ((ds.map (48 + ·)).length - 0) (List.drop 0 (ds.map (48 + ·))) = _
      simp [List.take_of_length_le]
    · show (ds.map (48 + ·)).getD 0 0 ≠ 0
      rw [h0]; simp
    · show (ds.map (48 + ·)).getD 0 0 ≠ 255
      rw [h0]; simp; omega
    · show (ds.map (48 + ·)).length - 0 = _
      simp
  · cases sep
    · cases lead
      · -- trailing overpunch
        have e : f = ⟨⟨dg, sc, true, false, false, sw⟩, tl.map (48 + ·) ++ [overpunch ebc neg dl]⟩ := by
          simp [f, zonedImage, hl]
        have hlen : (tl.map (48 + ·) ++ [overpunch ebc neg dl]).length - 1 = tl.length := by simp
        have hG : f.getSign ebc = (if neg then -1 else 1,
            ⟨⟨dg, sc, true, false, false, sw⟩, tl.map (48 + ·) ++ [48 + dl]⟩) := by
          rw [e]; simp [Field.getSign, Field.signPos, hgl]
        rw [hG]
        refine ⟨rfl, ?_, ?_, ?_, ?_, ?_⟩
        · simp [Field.digitBytes, Field.dataOff, Field.dsize, hl, List.take_of_length_le]
        · rw [e]; simp [Field.putSign, Field.signPos, hpl]; cases neg <;> simp
        · rw [e]
          cases tl with
          | nil => simpa [Field.dataOff] using hnl.1
          | cons x xs => simp [Field.dataOff]
        · rw [e]
          cases tl with
          | nil => simpa [Field.dataOff] using hnl.2
          | cons x xs =>
            have : x ≤ 9 := hd x (by rw [hl]; simp)
            simp [Field.dataOff]; omega
        · rw [e]; simp [Field.dsize, hl]
      · -- leading overpunch
        have e : f = ⟨⟨dg, sc, true, false, true, sw⟩, overpunch ebc neg d0 :: t0.map (48 + ·)⟩ := by
          simp [f, zonedImage, h0]
        have hG : f.getSign ebc = (if neg then -1 else 1,
            ⟨⟨dg, sc, true, false, true, sw⟩, (48 + d0) :: t0.map (48 + ·)⟩) := by
          rw [e]; simp [Field.getSign, Field.signPos, hg0]
        rw [hG]
        refine ⟨rfl, ?_, ?_, ?_, ?_, ?_⟩
        · simp [Field.digitBytes, Field.dataOff, Field.dsize, h0, List.take_of_length_le]
        · rw [e]; simp [Field.putSign, Field.signPos, hp0]; cases neg <;> simp
        · rw [e]; simpa [Field.dataOff] using hn0.1
        · rw [e]; simpa [Field.dataOff] using hn0.2
        · rw [e]; simp [Field.dsize, h0]
    · cases lead
      · -- trailing separate
        have e : f = ⟨⟨dg, sc, true, true, false, sw⟩, ds.map (48 + ·) ++ [if neg then 45 else 43]⟩ := by
          simp [f, zonedImage]
        have hG : f.getSign ebc = (if neg then -1 else 1, f) := by
          rw [e]; cases neg <;> simp [Field.getSign, Field.signPos]
        rw [hG]
        refine ⟨rfl, ?_, ?_, ?_, ?_, ?_⟩
        · rw [e]; simp [Field.digitBytes, Field.dataOff, Field.dsize]
        · rw [e]; cases neg <;> simp [Field.putSign, Field.signPos]
        · rw [e]; simp [Field.dataOff, h0]
        · rw [e]; simp [Field.dataOff, h0]; omega
        · rw [e]; simp [Field.dsize]
      · -- leading separate
        have e : f = ⟨⟨dg, sc, true, true, true, sw⟩, (if neg then 45 else 43) :: ds.map (48 + ·)⟩ := by
          simp [f, zonedImage]
        have hG : f.getSign ebc = (if neg then -1 else 1, f) := by
          rw [e]; cases neg <;> simp [Field.getSign, Field.signPos]
        rw [hG]
        refine ⟨rfl, ?_, ?_, ?_, ?_, ?_⟩
        · rw [e]; simp [Field.digitBytes, Field.dataOff, Field.dsize, List.take_of_length_le]
        · rw [e]; cases neg <;> simp [Field.putSign, Field.signPos]
        · rw [e]; simp [Field.dataOff, h0]
        · rw [e]; simp [Field.dataOff, h0]; omega
        · rw [e]; simp [Field.dsize]

theorem decSetDisplay_mag (ds : List Nat) (hne : ds ≠ []) (hd : ∀ d ∈ ds, d ≤ 9) :
    (let bs := ds.map (48 + ·)
     let core := bs.dropWhile (· == 48)
     let core := if core.isEmpty then bs.drop (bs.length - 1) else core
     (if core.length < 10 then
        some (core.foldl (fun (n : Int) (b : Nat) => (n * 10 + ((b : Int) - 48)) % 2 ^ 32) 0)
      else if core.all isDigit then some (strVal core : Int)
      else none)) = some (digitsVal ds : Int) := by
  extract_lets bs core core'
  have hdig : ∀ b ∈ bs, 48 ≤ b ∧ b ≤ 57 := by
    intro b hb
    obtain ⟨d, hdm, rfl⟩ := List.mem_map.mp hb
    have := hd d hdm
    omega
  have hsub : ∀ b ∈ core', 48 ≤ b ∧ b ≤ 57 := by
    intro b hb
    by_cases hc : core.isEmpty
    · have : core' = bs.drop (bs.length - 1) := by simp only [core', hc, if_true]
      rw [this] at hb
      exact hdig b (List.mem_of_mem_drop hb)
    · have : core' = core := by simp only [core', hc]; rfl
      rw [this] at hb
      exact hdig b ((List.dropWhile_sublist _).mem hb)
  have hval : strVal core' = digitsVal ds := by
    rw [← strVal_map]
    by_cases hc : core.isEmpty
    · have : core' = bs.drop (bs.length - 1) := by simp only [core', hc, if_true]
      rw [this]
      have h0 : strVal bs = 0 := strVal_all_zero bs (List.isEmpty_iff.mp hc)
      have := strVal_append (bs.take (bs.length - 1)) (bs.drop (bs.length - 1))
      rw [List.take_append_drop] at this
      show _ = strVal bs
      omega
    · have : core' = core := by simp only [core', hc]; rfl
      rw [this]
      exact strVal_dropWhile bs
  split
  · rename_i hlt
    have := foldl_mod_eq core' 0 (2 ^ 32) (fun b hb => (hsub b hb).1)
    simp only [Int.zero_emod, Int.zero_mul, Int.zero_add] at this
    rw [this, hval]
    have hb := strVal_lt core' hsub
    rw [hval] at hb
    have h9 : 10 ^ core'.length ≤ 10 ^ 9 := Nat.pow_le_pow_right (by norm_num) (by omega)
    congr 1
    apply Int.emod_eq_of_lt (by positivity)
    have : digitsVal ds < 2 ^ 32 := by omega
    exact_mod_cast this
  · split
    · rw [hval]
    · rename_i h
      exfalso; apply h
      rw [List.all_eq_true]
      intro b hb
      simpa [isDigit] using hsub b hb

/-! ### C01 -/

/-- C01 (store): storing `v` into a zoned item writes exactly the specified image of its
low-order digits with the sign of `v`; the overflow condition is raised iff digits are lost. -/
theorem C01_store_image (ebc : Bool) (v : Int) (f : Field) (hf : WFDisplay f) (opt : StoreOpt)
    (hk : opt.keep = false ∨ v.natAbs < 10 ^ f.dsize) :
    decGetDisplay ebc v f opt =
      ⟨{ f with data := zonedImage f.attr ebc (decide (v < 0)) (fixedDigits f.dsize v.natAbs) },
        decide (10 ^ f.dsize ≤ v.natAbs), false⟩ := by
  have hdpos : 0 < f.dsize := by
    have := hf.2
    unfold Field.dsize
    split <;> simp_all <;> omega
  have hsgn : decide (v.sign < 0) = decide (v < 0) := by simp [Int.sign_neg_iff]
  have hi := store_image ebc f hf (fixedDigits f.dsize v.natAbs) (fixedDigits_length _ _)
    (fixedDigits_le _ _) v.sign
  rw [hsgn] at hi
  unfold decGetDisplay
  simp only
  by_cases hov : v.natAbs < 10 ^ f.dsize
  · have hl := (decStr_length_le v.natAbs f.dsize hdpos).mpr hov
    rw [if_neg (by omega), pad_eq _ _ hdpos hov, hi]
    simp [hov]
  · have hl : ¬ (decStr v.natAbs).length ≤ f.dsize := fun h => hov ((decStr_length_le _ _ hdpos).mp h)
    have hkf : opt.keep = false := by
      rcases hk with h | h
      · exact h
      · exact absurd h hov
    rw [if_pos (by omega), cut_eq _ _ (by omega), hi, hkf]
    have : 10 ^ f.dsize ≤ v.natAbs := by omega
    simp [this]

/-- C01 (load): using an item whose bytes are the image of digits `ds` with a sign as an
operand yields the signed number written, and leaves the item unchanged. -/
theorem C01_load_image (ebc : Bool) (a : Attr) (neg : Bool) (ds : List Nat)
    (hs : a.separate = true → a.haveSign = true) (hne : ds ≠ []) (hd : ∀ d ∈ ds, d ≤ 9) :
    decSetDisplay ebc ⟨a, zonedImage a ebc neg ds⟩ =
      (some ⟨if a.haveSign && neg then -(digitsVal ds : Int) else digitsVal ds, a.scale⟩,
        ⟨a, zonedImage a ebc neg ds⟩) := by
  obtain ⟨h1, h2, h3, h4, h5, h6⟩ := image_getSign ebc a neg ds hs hne hd
  have hm := decSetDisplay_mag ds hne hd
  simp only at hm
  unfold decSetDisplay
  simp only [h4, h5, if_false, h2, h3, hm, Option.map_some]
  rw [h1]
  cases a.haveSign <;> cases neg <;> simp

/-- C01 (round trip): a value whose magnitude fits the item's digits is read back exactly
from a signed item (and as its absolute value from an unsigned one). -/
theorem C01_roundtrip (ebc : Bool) (v : Int) (f : Field) (hf : WFDisplay f) (opt : StoreOpt)
    (hfit : v.natAbs < 10 ^ f.dsize) :
    let r := decGetDisplay ebc v f opt
    r.raised = false ∧ r.failed = false ∧
    (decSetDisplay ebc r.field).1 =
      some ⟨if f.attr.haveSign then v else (v.natAbs : Int), f.attr.scale⟩ ∧
    (decSetDisplay ebc r.field).2 = r.field := by
  intro r
  have hr : r = _ := C01_store_image ebc v f hf opt (Or.inr hfit)
  have hdpos : 0 < f.dsize := by
    have := hf.2
    unfold Field.dsize
    split <;> simp_all <;> omega
  have hne : fixedDigits f.dsize v.natAbs ≠ [] := by
    intro h
    have := fixedDigits_length f.dsize v.natAbs
    rw [h] at this; simp at this; omega
  have hload := C01_load_image ebc f.attr (decide (v < 0)) (fixedDigits f.dsize v.natAbs) hf.1
    hne (fixedDigits_le _ _)
  rw [hr]
  refine ⟨by simp [hfit], rfl, ?_, by rw [hload]⟩
  rw [hload]
  simp only [digitsVal_fixedDigits, Nat.mod_eq_of_lt hfit]
  congr 2
  cases f.attr.haveSign
  · simp
  · simp only [Bool.true_and, decide_eq_true_eq, if_true]
    split <;> omega

/-- C01 (truncation): without SIZE ERROR handling, reading back a value that does not fit
gives its low-order digits with the sign of the original value. -/
theorem C01_truncation (ebc : Bool) (v : Int) (f : Field) (hf : WFDisplay f) (opt : StoreOpt)
    (hk : opt.keep = false) (hs : f.attr.haveSign = true) :
    (decSetDisplay ebc (decGetDisplay ebc v f opt).field).1 =
      some ⟨v.sign * (v.natAbs % 10 ^ f.dsize : Nat), f.attr.scale⟩ := by
  have hdpos : 0 < f.dsize := by
    have := hf.2
    unfold Field.dsize
    split <;> simp_all <;> omega
  have hne : fixedDigits f.dsize v.natAbs ≠ [] := by
    intro h
    have := fixedDigits_length f.dsize v.natAbs
    rw [h] at this; simp at this; omega
  rw [C01_store_image ebc v f hf opt (Or.inl hk),
    C01_load_image ebc f.attr (decide (v < 0)) (fixedDigits f.dsize v.natAbs) hf.1
    hne (fixedDigits_le _ _), digitsVal_fixedDigits, hs]
  congr 2
  rcases lt_trichotomy v 0 with h | h | h
  · simp [h, Int.sign_eq_neg_one_of_neg h]
  · subst h; simp
  · simp [not_lt.mpr (le_of_lt h), Int.sign_eq_one_of_pos h]

/-- Non-vacuity: PIC S9(3) SIGN TRAILING, -45 is stored as "04u" and read back. -/
example :
    let f : Field := ⟨{ digits := 3, haveSign := true }, [49, 49, 49]⟩
    WFDisplay f ∧ (decGetDisplay false (-45) f {}).field.data = [48, 52, 117] ∧
    (decSetDisplay false ⟨f.attr, [48, 52, 117]⟩).1 = some ⟨-45, 0⟩ := by
  refine ⟨⟨by decide, by decide⟩, by simp [decGetDisplay, decStr]; decide, by decide⟩

/-! ### C04 for DISPLAY receivers -/

/-- C04 (DISPLAY): with SIZE ERROR handling the item is unchanged and the condition raised
exactly when the value does not fit. -/
theorem C04_display_keep (ebc : Bool) (v : Int) (f : Field) (hf : WFDisplay f) (opt : StoreOpt)
    (hk : opt.keep = true) :
    (10 ^ f.dsize ≤ v.natAbs → decGetDisplay ebc v f opt = ⟨f, true, true⟩) ∧
    (v.natAbs < 10 ^ f.dsize → (decGetDisplay ebc v f opt).raised = false ∧
      (decGetDisplay ebc v f opt).failed = false ∧
      (decSetDisplay ebc (decGetDisplay ebc v f opt).field).1 =
        some ⟨if f.attr.haveSign then v else (v.natAbs : Int), f.attr.scale⟩) := by
  have hdpos : 0 < f.dsize := by
    have := hf.2
    unfold Field.dsize
    split <;> simp_all <;> omega
  constructor
  · intro h
    have hl : ¬ (decStr v.natAbs).length ≤ f.dsize := fun h' =>
      absurd ((decStr_length_le _ _ hdpos).mp h') (by omega)
    unfold decGetDisplay
    simp only
    rw [if_pos (by omega), hk]
    rfl
  · intro h
    obtain ⟨h1, h2, h3, _⟩ := C01_roundtrip ebc v f hf opt h
    exact ⟨h1, h2, h3⟩

/-! ### C45: the operational sign -/

/-- C45: for every well-formed signed image, reading the sign and putting it back leaves the
item unchanged, and in between the item shows the bare digits. -/
theorem C45_sign_roundtrip (ebc : Bool) (a : Attr) (neg : Bool) (ds : List Nat)
    (hs : a.separate = true → a.haveSign = true) (hne : ds ≠ []) (hd : ∀ d ∈ ds, d ≤ 9) :
    let f : Field := ⟨a, zonedImage a ebc neg ds⟩
    (f.getSign ebc).1 = (if a.haveSign then (if neg then -1 else 1) else 0) ∧
    (f.getSign ebc).2.digitBytes = ds.map (48 + ·) ∧
    (f.getSign ebc).2.putSign ebc (f.getSign ebc).1 = f := by
  intro f
  have := image_getSign ebc a neg ds hs hne hd
  exact ⟨this.1, this.2.1, this.2.2.1⟩

/-- C45, ASCII convention, arbitrary contents: reading and putting back the sign restores any
item whose sign position is not blank. -/
theorem C45_ascii_any_content (f : Field) (hb : ∀ b ∈ f.data, b < 256)
    (hpos : f.signPos < f.data.length) (hns : f.attr.separate = false)
    (hblank : f.data.getD f.signPos 0 ≠ 32) :
    (f.getSign false).2.putSign false (f.getSign false).1 = f := by
  obtain ⟨a, data⟩ := f
  simp only at hb hpos hns hblank
  unfold Field.getSign Field.putSign
  by_cases hv : a.haveSign = true
  · simp only [hv, hns, Bool.not_true, Bool.false_eq_true, if_false]
    have hpos' : Field.signPos ⟨a, data⟩ < data.length := hpos
    have hsp : ∀ c, Field.signPos ⟨a, data.set (Field.signPos ⟨a, data⟩) c⟩ = Field.signPos ⟨a, data⟩ := by
      intro c; simp [Field.signPos]
    have hbyte : data.getD (Field.signPos ⟨a, data⟩) 0 < 256 := by
      rw [getD_lt hpos']; exact hb _ (List.getElem_mem _)
    rw [hsp]
    generalize hP : Field.signPos ⟨a, data⟩ = P at *
    have hget : ∀ c, (data.set P c).getD P 0 = c := by
      intro c; rw [getD_lt (by simpa using hpos')]; simp
    rw [hget, List.set_set]
    have key : putSignByte false (getSignByte false (data.getD P 0)).2 (getSignByte false (data.getD P 0)).1
        = data.getD P 0 := by
      generalize data.getD P 0 = b at *
      unfold getSignByte putSignByte
      by_cases h1 : 48 ≤ b ∧ b ≤ 57
      · simp [h1]
      · simp only [h1, hblank, if_false, Bool.false_eq_true]
        simp
        omega
    rw [key, getD_lt hpos', List.set_getElem_self]
  · have hv' : a.haveSign = false := by simpa using hv
    simp [hv']

/-- Finding (C45, C24): merely reading the sign of an item whose sign position is blank
changes the item's contents ("12 " becomes "120") and it stays changed. -/
theorem C45_blank_sign_is_overwritten :
    let f : Field := ⟨{ digits := 3, haveSign := true }, [49, 50, 32]⟩
    ((f.getSign false).2.putSign false (f.getSign false).1).data = [49, 50, 48] := by decide

/-- Finding (C45): in the EBCDIC convention an unsigned digit in the sign position is rewritten
as an overpunched one when the item is merely read ("5" becomes "E"); the value is kept. -/
theorem C45_ebcdic_rewrites :
    let f : Field := ⟨{ digits := 1, haveSign := true }, [53]⟩
    ((f.getSign true).2.putSign true (f.getSign true).1).data = [69] ∧
    (decSetDisplay true f).1 = (decSetDisplay true ⟨f.attr, [69]⟩).1 := by decide

end Cob
