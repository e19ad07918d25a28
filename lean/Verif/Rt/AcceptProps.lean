import Verif.Rt.TermioProps
import Verif.Move.SizeProps
import Verif.Cobc.MoveProps
import Mathlib.Data.List.TakeWhile
/-
C53: what ACCEPT stores.
-/
namespace Cob

/-- The number a numeral denotes. -/
def Numeral.value (nm : Numeral) : ℚ :=
  ((if nm.neg then -(digitsVal (nm.int ++ nm.fracDigits) : Int) else digitsVal (nm.int ++ nm.fracDigits) : Int) : ℚ)
    / (10 : ℚ) ^ (nm.fracDigits.length : Int)

theorem fgets_line (n : Nat) (line rest : List Nat) (h : ∀ b ∈ line, b ≠ 10) (hn : line.length < n) :
    fgetsLine n (line ++ 10 :: rest) = (line ++ [10], rest) := by
  induction line generalizing n with
  | nil =>
    obtain ⟨n, rfl⟩ : ∃ m, n = m + 1 := ⟨n - 1, by simp at hn; omega⟩
    simp [fgetsLine]
  | cons b t ih =>
    obtain ⟨n, rfl⟩ : ∃ m, n = m + 1 := ⟨n - 1, by simp at hn; omega⟩
    have hb : b ≠ 10 := h b (by simp)
    simp only [List.cons_append, fgetsLine, if_neg hb]
    rw [ih n (fun x hx => h x (by simp [hx])) (by simpa using hn)]

/-- C53: ACCEPT takes the next line of the input, without its newline, and leaves the rest. -/
theorem C53_line (line rest : List Nat) (h10 : ∀ b ∈ line, b ≠ 10) (h0 : ∀ b ∈ line, b ≠ 0) (hn : line.length < 8191) :
    acceptLine (line ++ 10 :: rest) = (some line, rest) := by
  unfold acceptLine
  rw [if_neg (by simp), fgets_line 8191 line rest h10 hn]
  have : (line ++ [10]).takeWhile (· != 0) = line ++ [10] := by
    rw [List.takeWhile_eq_self_iff]
    intro x hx
    rcases List.mem_append.mp hx with h | h
    · simpa using h0 x h
    · simp at h; simp [h]
  simp only
  rw [this, if_neg (by simp)]
  simp

theorem moveAlnum_space (just : Bool) (n : Nat) : moveAlnum just [32] n = List.replicate n 32 := by
  unfold moveAlnum
  cases n with
  | zero => cases just <;> simp
  | succ n =>
    cases n with
    | zero => cases just <;> simp
    | succ n =>
      have : ¬ (n + 1 + 1 ≤ [32].length) := by simp
      rw [List.length_singleton] at this
      simp only [List.length_singleton, this, if_false]
      cases just
      · simp [List.replicate_succ]
      · simp [← List.replicate_succ']

/-- C53: a text item receives the line from the left, filled with spaces or cut on the right. -/
theorem C53_text (size : Nat) (line rest : List Nat) (h10 : ∀ b ∈ line, b ≠ 10) (h0 : ∀ b ∈ line, b ≠ 0)
    (hn : line.length < 8191) :
    ∃ out, acceptText false size (line ++ 10 :: rest) = (some out, rest) ∧ out.length = size ∧
      ∀ i < size, out[i]? = some (if h : i < line.length then line[i] else 32) := by
  unfold acceptText
  rw [C53_line line rest h10 h0 hn]
  refine ⟨_, rfl, ?_⟩
  simp only
  by_cases hs : size = 0
  · subst hs; simp
  · rw [if_neg hs]
    by_cases hl : line = []
    · subst hl
      rw [if_pos rfl, moveAlnum_space]
      refine ⟨by simp, ?_⟩
      intro i hi
      simp [hi]
    · rw [if_neg hl]
      exact ⟨(C14_left line size 0 (by omega)).1, fun i hi => (C14_left line size i hi).2⟩

/-- C53: a JUSTIFIED text item receives the line from the right. -/
theorem C53_justified (size : Nat) (line rest : List Nat) (h10 : ∀ b ∈ line, b ≠ 10) (h0 : ∀ b ∈ line, b ≠ 0)
    (hn : line.length < 8191) :
    ∃ out, acceptText true size (line ++ 10 :: rest) = (some out, rest) ∧ out.length = size ∧
      ∀ i < size, out[size - 1 - i]? = some (if h : i < line.length then line[line.length - 1 - i] else 32) := by
  unfold acceptText
  rw [C53_line line rest h10 h0 hn]
  refine ⟨_, rfl, ?_⟩
  simp only
  by_cases hs : size = 0
  · subst hs; simp
  · rw [if_neg hs]
    by_cases hl : line = []
    · subst hl
      rw [if_pos rfl, moveAlnum_space]
      refine ⟨by simp, ?_⟩
      intro i hi
      rw [List.getElem?_replicate]
      simp
      omega
    · rw [if_neg hl]
      exact ⟨(C14_justified line size 0 (by omega)).1, fun i hi => (C14_justified line size i hi).2⟩

/-- C53: at the end of the input text items are filled with spaces. -/
theorem C53_end (just : Bool) (size : Nat) : acceptText just size [] = (some (List.replicate size 32), []) := by
  unfold acceptText acceptLine
  simp only [if_true, Option.map_some]
  by_cases hs : size = 0
  · subst hs; simp
  · rw [if_neg hs, if_neg (by simp), moveAlnum_space]

/-- ACCEPT one text item after the other: sizes of the items, their contents, and the rest of the input. -/
def acceptMany : List Nat → List Nat → List (Option (List Nat)) × List Nat
  | [], s => ([], s)
  | n :: ns, s =>
    let r := acceptText false n s
    (r.1 :: (acceptMany ns r.2).1, (acceptMany ns r.2).2)

/-- C53: successive ACCEPTs read successive lines: no line is skipped and none is read twice. -/
theorem C53_sequence (items : List (Nat × List Nat)) (rest : List Nat)
    (h : ∀ p ∈ items, (∀ b ∈ p.2, b ≠ 10 ∧ b ≠ 0) ∧ p.2.length < 8191) :
    acceptMany (items.map (·.1)) (items.flatMap (fun p => p.2 ++ [10]) ++ rest) =
      (items.map (fun p => some ((p.2 ++ List.replicate p.1 32).take p.1)), rest) := by
  induction items with
  | nil => rfl
  | cons p t ih =>
    obtain ⟨hp, hl⟩ := h p (by simp)
    obtain ⟨out, h1, h2, h3⟩ := C53_text p.1 p.2 (t.flatMap (fun p => p.2 ++ [10]) ++ rest) (fun b hb => (hp b hb).1)
      (fun b hb => (hp b hb).2) hl
    have hout : out = (p.2 ++ List.replicate p.1 32).take p.1 := by
      apply List.ext_getElem?
      intro i
      by_cases hi : i < p.1
      · rw [h3 i hi, List.getElem?_take, if_pos hi]
        by_cases hlt : i < p.2.length
        · rw [List.getElem?_append_left hlt, dif_pos hlt, List.getElem?_eq_getElem hlt]
        · rw [List.getElem?_append_right (by omega), dif_neg hlt, List.getElem?_replicate, if_pos (by omega)]
      · rw [List.getElem?_eq_none (by omega), List.getElem?_eq_none (by simp; omega)]
    simp only [List.map_cons, acceptMany, List.flatMap_cons]
    rw [show p.2 ++ [10] ++ t.flatMap (fun p => p.2 ++ [10]) ++ rest = p.2 ++ 10 :: (t.flatMap (fun p => p.2 ++ [10]) ++ rest) by simp]
    rw [h1]
    simp only
    rw [ih (fun q hq => h q (by simp [hq])), hout]

theorem numeral_text_bytes (dp : Nat) (hdp : dp = 46 ∨ dp = 44) (nm : Numeral) (hI : ∀ d ∈ nm.int, d ≤ 9)
    (hF : ∀ d ∈ nm.fracDigits, d ≤ 9) : ∀ b ∈ nm.text dp, 32 ≤ b := by
  obtain ⟨lead, sg, I, fr, tr⟩ := nm
  intro b hb
  simp only [Numeral.text, List.mem_append, List.mem_replicate, List.mem_map] at hb
  rcases hb with (((h | h) | h) | h) | h
  · omega
  · rcases sg with _ | (_ | _) <;> simp at h <;> omega
  · obtain ⟨d, _, rfl⟩ := h; omega
  · cases fr with
    | none => simp at h
    | some F =>
      simp only [List.mem_cons, List.mem_map] at h
      rcases h with h | ⟨d, _, rfl⟩ <;> omega
  · omega

/-- The numeral that an empty line counts as. -/
theorem empty_numeral (dp : Nat) (nm : Numeral) (h : nm.text dp = []) :
    nm.neg = false ∧ nm.int = [] ∧ nm.fracDigits = [] := by
  obtain ⟨lead, sg, I, fr, tr⟩ := nm
  simp only [Numeral.text, List.append_eq_nil_iff, List.map_eq_nil_iff] at h
  obtain ⟨⟨⟨⟨_, h1⟩, h2⟩, h3⟩, _⟩ := h
  rcases sg with _ | (_ | _) <;> simp at h1
  cases fr with
  | some F => simp at h3
  | none => exact ⟨rfl, h2, rfl⟩

/-- C47 for the line an ACCEPT has read. -/
theorem accept_numeral (ebc : Bool) (dp sep : Nat) (hdp : dp = 46 ∨ dp = 44) (nm : Numeral)
    (hI : ∀ d ∈ nm.int, d ≤ 9) (hF : ∀ d ∈ nm.fracDigits, d ≤ 9) (f2 : Field) (hw : WFDisplay f2)
    (hroom : f2.attr.scale ≤ (f2.dsize : Int) + nm.fracDigits.length) :
    ∃ r u, moveAlnumDisp ebc dp sep (if nm.text dp = [] then [32] else nm.text dp) f2 = .done r ∧ WFItem ⟨.display, r⟩ ∧
      r.attr = f2.attr ∧ HoldsUnits ebc ⟨.display, r⟩ u ∧ MovedUnits ⟨.display, f2⟩ nm.value u := by
  by_cases h : nm.text dp = []
  · rw [if_pos h]
    obtain ⟨h1, h2, h3⟩ := empty_numeral dp nm h
    have := C47_text_to_number ebc dp sep hdp ⟨1, none, [], none, 0⟩ (by simp) (by simp [Numeral.fracDigits]) f2 hw
      (by rw [h3] at hroom; simpa [Numeral.fracDigits] using hroom)
    unfold Numeral.value
    rw [h1, h2, h3]
    simpa [Numeral.text, Numeral.neg, Numeral.fracDigits] using this
  · rw [if_neg h]
    exact C47_text_to_number ebc dp sep hdp nm hI hF f2 hw hroom

/-- C53: a zoned item that is long enough for the characters of the line receives the number written on it, as by MOVE. -/
theorem C53_zoned (ebc cut : Bool) (dp sep : Nat) (hdp : dp = 46 ∨ dp = 44) (nm : Numeral)
    (hI : ∀ d ∈ nm.int, d ≤ 9) (hF : ∀ d ∈ nm.fracDigits, d ≤ 9) (f : Field) (hw : WFDisplay f)
    (hlen : (nm.text dp).length ≤ f.data.length) (hn : (nm.text dp).length < 8191)
    (hroom : f.attr.scale ≤ (f.dsize : Int) + nm.fracDigits.length) (rest : List Nat) :
    ∃ it u, acceptNum ebc cut dp sep ⟨.display, f⟩ (nm.text dp ++ 10 :: rest) = (some (.done it), rest) ∧
      it.usage = .display ∧ it.field.attr = f.attr ∧ WFItem it ∧ HoldsUnits ebc it u ∧ MovedUnits ⟨.display, f⟩ nm.value u := by
  have hb := numeral_text_bytes dp hdp nm hI hF
  obtain ⟨r, u, h1, h2, h3, h4, h5⟩ := accept_numeral ebc dp sep hdp nm hI hF f hw hroom
  refine ⟨⟨.display, r⟩, u, ?_, rfl, h3, h2, h4, h5⟩
  unfold acceptNum
  rw [C53_line (nm.text dp) rest (fun b hx => by have := hb b hx; omega) (fun b hx => by have := hb b hx; omega) hn]
  simp only [Option.map_some, if_true]
  rw [if_neg (wf_nonempty ⟨.display, f⟩ hw), List.take_of_length_le hlen]
  unfold textToItem
  simp only
  rw [h1]

/-- C53: a packed or binary item receives the number written on the line, as by MOVE, if it has at most 18 digits on
each side of the decimal point. -/
theorem C53_packed_binary (ebc cut : Bool) (dp sep : Nat) (hdp : dp = 46 ∨ dp = 44) (nm : Numeral)
    (hI : ∀ d ∈ nm.int, d ≤ 9) (hF : ∀ d ∈ nm.fracDigits, d ≤ 9) (it : Item) (hw : WFItem it) (hu : it.usage ≠ .display)
    (hi : nm.int.length ≤ 18) (hf : nm.fracDigits.length ≤ 18) (hn : (nm.text dp).length < 8191)
    (hb : it.usage = .binary → cut = true ∧ BinaryHasRoom it.field ∧ -18 ≤ it.field.attr.scale ∧
      ∀ t, IsTrunc (nm.value * (10 : ℚ) ^ it.field.attr.scale) t → t.natAbs < 2 ^ 63) (rest : List Nat) :
    ∃ it' u, acceptNum ebc cut dp sep it (nm.text dp ++ 10 :: rest) = (some (.done it'), rest) ∧
      it'.usage = it.usage ∧ it'.field.attr = it.field.attr ∧ WFItem it' ∧ HoldsUnits ebc it' u ∧ MovedUnits it nm.value u := by
  have hbt := numeral_text_bytes dp hdp nm hI hF
  have hwt : WFDisplay (tempItem 36 18) := by
    refine ⟨by simp [tempItem], by simp [tempItem]⟩
  obtain ⟨r, u0, h1, h2, h3, h4, t, ht, hu0⟩ := accept_numeral ebc dp sep hdp nm hI hF (tempItem 36 18) hwt
    (by simp [tempItem, Field.dsize]; omega)
  have hsame := moveAlnumDisp_same _ _ _ _ _ _ hwt h1
  have hrl : r.dsize = 36 ∧ r.attr.digits = 36 := by
    rw [dsize_same _ _ hsame, h3]
    exact ⟨by simp [tempItem, Field.dsize], rfl⟩
  -- the temporary item holds the number exactly
  have hx : Holds ebc ⟨.display, r⟩ nm.value := by
    set D := nm.fracDigits.length with hD
    set M := digitsVal (nm.int ++ nm.fracDigits) with hM
    have hMlt : M < 10 ^ (nm.int.length + D) := by
      have := digitsVal_lt (nm.int ++ nm.fracDigits) (fun d hd => by
        rcases List.mem_append.mp hd with h | h
        · exact hI d h
        · exact hF d h)
      rwa [List.length_append] at this
    set m : Int := (if nm.neg then -(M : Int) else M) * 10 ^ (18 - D) with hm
    have hval : nm.value * (10 : ℚ) ^ (18 : Int) = (m : ℚ) := by
      have hp : (10 : ℚ) ^ (18 : Int) = (10 : ℚ) ^ (D : Int) * (10 : ℚ) ^ ((18 - D : Nat) : Int) := by
        rw [← zpow_add₀ (by norm_num)]; congr 1; omega
      unfold Numeral.value
      rw [hp, hm, ← mul_assoc, div_mul_cancel₀ _ (zpow_ne_zero _ (by norm_num)), zpow_natCast]
      push_cast
      rfl
    have hmabs : m.natAbs < 10 ^ 36 := by
      have e1 : m.natAbs = M * 10 ^ (18 - D) := by
        rw [hm, Int.natAbs_mul, Int.natAbs_pow]
        have : (if nm.neg then -(M : Int) else (M : Int)).natAbs = M := by split <;> simp
        rw [this]; rfl
      rw [e1]
      calc M * 10 ^ (18 - D) < 10 ^ (nm.int.length + D) * 10 ^ (18 - D) := by
            exact Nat.mul_lt_mul_of_pos_right hMlt (by positivity)
        _ = 10 ^ (nm.int.length + D + (18 - D)) := (pow_add _ _ _).symm
        _ ≤ 10 ^ 36 := Nat.pow_le_pow_right (by omega) (by omega)
    have htm : t = m := by
      have ht' : IsTrunc ((m : Int) : ℚ) t := by
        rw [← hval]; exact ht
      exact isTrunc_unique _ _ _ ht' (isTrunc_int m)
    have hu1 : u0 = m := by
      rw [hu0, htm]
      have hp : (⟨.display, tempItem 36 18⟩ : Item).positions = 36 := by simp [Item.positions, tempItem, Field.dsize]
      rw [hp]
      have : (tempItem 36 18).attr.haveSign = true := rfl
      simp only [this, if_true]
      exact tmod_of_small m 36 hmabs
    refine ⟨u0, h4, ?_⟩
    have hs : r.attr.scale = 18 := by rw [h3]; rfl
    simp only [hs]
    rw [hu1, ← hval, mul_div_assoc, div_self (by positivity), mul_one]
  obtain ⟨it', u, g1, g2, g3, g4, g5, g6⟩ := C13_move ebc cut ⟨.display, r⟩ it h2 hw nm.value hx
    (fun _ => by simp only; rw [hrl.1, hrl.2])
    (fun hbin => by
      obtain ⟨b1, b2, b3, b4⟩ := hb hbin
      refine ⟨b1, b2, ?_, b4⟩
      simp only [Item.sent, hrl.1, h3]
      simp [tempItem]
      omega)
  refine ⟨it', u, ?_, g2, g3, g4, g5, g6⟩
  unfold acceptNum
  rw [C53_line (nm.text dp) rest (fun b hx => by have := hbt b hx; omega) (fun b hx => by have := hbt b hx; omega) hn]
  simp only [Option.map_some]
  rw [if_neg (wf_nonempty it hw), if_neg hu]
  unfold textToItem
  rw [h1]
  simp only [cobMoveNum] at g1
  cases hus : it.usage with
  | display => exact absurd hus hu
  | packed => simp only [g1]
  | binary => simp only [g1]

/-- C53: what DISPLAY has written for an unsigned whole number, ACCEPT reads back. -/
theorem C53_roundtrip (ebc cut : Bool) (env : TermEnv) (hp : env.pretty = true) (he : EnvOk env.edit) (dp sep : Nat)
    (hdp : dp = 46 ∨ dp = 44) (f g : Field) (hw : WFDisplay f) (hg : WFDisplay g) (hga : g.attr = f.attr)
    (hgl : g.data.length = f.data.length) (hsg : f.attr.haveSign = false) (hsc : f.attr.scale = 0)
    (hd : f.attr.digits = f.data.length) (hlen : f.data.length < 8191) (v : Int) (hv : HoldsUnits env.ebc ⟨.display, f⟩ v)
    (rest : List Nat) :
    ∃ out it, cobDisplay env true [.num false ⟨.display, f⟩] = some out ∧
      acceptNum ebc cut dp sep ⟨.display, g⟩ (out ++ rest) = (some (.done it), rest) ∧ HoldsUnits ebc it v := by
  have hpos := wf_nonempty ⟨.display, f⟩ hw
  simp only at hpos
  have hsep : f.attr.separate = false := by
    have := hw.1
    rw [hsg] at this
    cases h : f.attr.separate <;> simp_all
  have hds : f.dsize = f.data.length := by simp [Field.dsize, hsep]
  have hv' := hv
  obtain ⟨ng, ds, hdat, hne, hdg, hval⟩ := hv'
  simp only [hsg, Bool.false_and, Bool.false_eq_true, if_false] at hval
  have hdl : ds.length = f.data.length := by
    rw [hdat]
    simp [zonedImage, hsg]
  have hvlt : v.natAbs < 10 ^ f.attr.digits := by
    rw [hval, hd, ← hdl]
    simpa using digitsVal_lt ds hdg
  obtain ⟨neg, _, _, h3⟩ := C52_pretty env hp he false ⟨.display, f⟩ hw (fun h => by cases h) v hv (by simp only; omega)
    (by simp only; omega) (by simp only [hsc, wholeUnits]; simpa using hvlt)
  have htext : prettyText env.edit.dp f.attr neg v.natAbs = ds.map (48 + ·) := by
    unfold prettyText numberText digitText wholeUnits
    simp only [hsg, hsc]
    have hfd : fixedDigits f.attr.digits v.natAbs = ds := by
      rw [hval, hd, ← hdl]
      simpa using fixedDigits_digitsVal ds hdg
    simp [hfd]
  rw [htext] at h3
  have hnt : Numeral.text dp ⟨0, none, ds, none, 0⟩ = ds.map (48 + ·) := by simp [Numeral.text]
  obtain ⟨it, u, a1, a2, a3, a4, a5, t, ht, hu⟩ := C53_zoned ebc cut dp sep hdp ⟨0, none, ds, none, 0⟩ hdg (by simp [Numeral.fracDigits]) g hg
    (by rw [hnt, List.length_map]; omega) (by rw [hnt, List.length_map]; omega)
    (by rw [hga, hsc]; omega) rest
  rw [hnt] at a1
  refine ⟨ds.map (48 + ·) ++ [10], it, ?_, ?_, ?_⟩
  · have := C52_statement env true [.num false ⟨.display, f⟩] [ds.map (48 + ·)] (.cons h3 .nil)
    simpa using this
  · rw [List.append_assoc]; exact a1
  · have hx : IsTrunc ((v : Int) : ℚ) t := by
      have : Numeral.value ⟨0, none, ds, none, 0⟩ * (10 : ℚ) ^ g.attr.scale = ((v : Int) : ℚ) := by
        rw [hga, hsc, hval]
        simp [Numeral.value, Numeral.neg, Numeral.fracDigits]
      rw [← this]; exact ht
    have htv := isTrunc_unique _ _ _ hx (isTrunc_int v)
    have hgd : (⟨.display, g⟩ : Item).positions = f.attr.digits := by
      simp only [Item.positions, Field.dsize, hga, hsep, hgl, hd]; simp
    rw [hga, hsg, htv, hgd, Nat.mod_eq_of_lt hvlt] at hu
    simp only [Bool.false_eq_true, if_false] at hu
    have : u = v := by rw [hu]; omega
    rw [← this]; exact a5

/-- A line for PIC X(5), the next for PIC S9(3) COMP-3; PIC S9(3)V99. -/
example : acceptText false 5 (codes "abc\nxyz\n") = (some (codes "abc  "), codes "xyz\n") ∧
    acceptNum false true 46 44 ⟨.packed, ⟨{ digits := 3, haveSign := true }, [0, 12]⟩⟩ (codes "-12\n") =
      (some (.done ⟨.packed, ⟨{ digits := 3, haveSign := true }, [0x01, 0x2D]⟩⟩), []) ∧
    acceptNum false true 46 44 ⟨.display, ⟨{ digits := 5, scale := 2, haveSign := true }, codes "00000"⟩⟩ (codes "-1.5\nx") =
      (some (.done ⟨.display, ⟨{ digits := 5, scale := 2, haveSign := true }, codes "0015p"⟩⟩), codes "x") := by
  decide +kernel

/-- Finding: the last line of an input that does not end with a newline loses its last character. -/
theorem C53_finding_last_line : acceptText false 5 (codes "abc") = (some (codes "ab   "), []) := by decide +kernel

/-- Finding: a line for a zoned item is cut to the size of the item before it is read: the sign and the decimal
point take the place of digits (-5 for PIC S9 is 0, 12.34 for PIC 99V99 is 12.30), and of 123 for PIC 99 the first two digits are
stored although 23 is the number modulo 100. -/
theorem C53_finding_cut :
    acceptNum false true 46 44 ⟨.display, ⟨{ digits := 1, haveSign := true }, codes "0"⟩⟩ (codes "-5\n") =
      (some (.done ⟨.display, ⟨{ digits := 1, haveSign := true }, codes "p"⟩⟩), []) ∧
    acceptNum false true 46 44 ⟨.display, ⟨{ digits := 4, scale := 2 }, codes "0000"⟩⟩ (codes "12.34\n") =
      (some (.done ⟨.display, ⟨{ digits := 4, scale := 2 }, codes "1230"⟩⟩), []) ∧
    acceptNum false true 46 44 ⟨.display, ⟨{ digits := 2 }, codes "00"⟩⟩ (codes "123\n") =
      (some (.done ⟨.display, ⟨{ digits := 2 }, codes "12"⟩⟩), []) ∧
    acceptNum false true 46 44 ⟨.packed, ⟨{ digits := 2 }, [0, 15]⟩⟩ (codes "123\n") =
      (some (.done ⟨.packed, ⟨{ digits := 2 }, [0x02, 0x3F]⟩⟩), []) := by decide +kernel

/-- Finding: a line that begins with a NUL byte makes the size of the text wrap around. -/
theorem C53_finding_nul (l : List Nat) : (acceptLine (0 :: l)).1 = none := by
  simp [acceptLine, fgetsLine]

end Cob
