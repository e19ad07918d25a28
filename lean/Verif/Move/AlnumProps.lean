import Verif.Move.Alnum
import Verif.Move.NumericLemmas
/-
Properties C14 (alphanumeric MOVE), C15 (MOVE ALL) and C47 (MOVE text to a numeric item).
-/
namespace Cob
open Dec

/-- C14: moving text to an alphanumeric item: byte `i` of the receiver is byte `i` of the sender,
or a space beyond its end. -/
theorem C14_left (src : List Nat) (n i : Nat) (hi : i < n) :
    (moveAlnum false src n).length = n ∧
    (moveAlnum false src n)[i]? = some (if h : i < src.length then src[i] else 32) := by
  unfold moveAlnum
  simp only [Bool.false_eq_true, if_false]
  split
  · rename_i h
    refine ⟨by simp; omega, ?_⟩
    rw [List.getElem?_take, if_pos hi, dif_pos (by omega), List.getElem?_eq_getElem]
  · rename_i h
    refine ⟨by simp; omega, ?_⟩
    by_cases hlt : i < src.length
    · rw [List.getElem?_append_left hlt, dif_pos hlt, List.getElem?_eq_getElem]
    · rw [List.getElem?_append_right (by omega), dif_neg hlt, List.getElem?_replicate, if_pos (by omega)]

/-- C14: with JUSTIFIED RIGHT the bytes are aligned at the right: counting from the right end,
byte `i` of the receiver is byte `i` of the sender, or a space beyond its beginning. -/
theorem C14_justified (src : List Nat) (n i : Nat) (hi : i < n) :
    (moveAlnum true src n).length = n ∧
    (moveAlnum true src n)[n - 1 - i]? =
      some (if h : i < src.length then src[src.length - 1 - i] else 32) := by
  unfold moveAlnum
  simp only [if_true]
  split
  · rename_i h
    refine ⟨by simp; omega, ?_⟩
    rw [List.getElem?_take, if_pos (by omega), dif_pos (by omega), List.getElem?_drop, List.getElem?_eq_getElem (by omega)]
    congr 2
    omega
  · rename_i h
    refine ⟨by simp; omega, ?_⟩
    by_cases hlt : i < src.length
    · rw [List.getElem?_append_right (by simp; omega), dif_pos hlt, List.length_replicate, List.getElem?_eq_getElem (by omega)]
      congr 2
      omega
    · rw [List.getElem?_append_left (by simp; omega), dif_neg hlt, List.getElem?_replicate, if_pos (by omega)]

example : moveAlnum false [65, 66] 4 = [65, 66, 32, 32] ∧ moveAlnum true [65, 66, 67] 2 = [66, 67] := by decide

/-- C14: a second MOVE to an item of the same size changes nothing (idempotence), and a
round trip through a larger item recovers the bytes. -/
theorem C14_roundtrip (src : List Nat) (n : Nat) (h : src.length ≤ n) :
    moveAlnum false (moveAlnum false src n) src.length = src := by
  unfold moveAlnum
  simp only [Bool.false_eq_true, if_false]
  by_cases he : n ≤ src.length
  · have : n = src.length := by omega
    subst this
    simp
  · rw [if_neg he]
    simp

/-- C15: MOVE ALL literal to an alphanumeric item makes byte `i` of the receiver byte
`i mod length` of the literal — for text whose bytes are below 0x81 (see
`C15_last_lead_byte_blanked` for the exception). -/
theorem C15_move_all (just : Bool) (lit : List Nat) (hl : lit ≠ []) (hb : ∀ b ∈ lit, b < 0x81) (n i : Nat) (hi : i < n) :
    (moveAllAlnum just lit n).length = n ∧
    (moveAllAlnum just lit n)[i]? = lit[i % lit.length]? := by
  have hpos : 0 < lit.length := List.length_pos_iff.mpr hl
  have hfill : fillAll lit n = (List.range n).map fun i => lit.getD (i % lit.length) 0 := by
    unfold fillAll
    split
    · rename_i h1
      rw [h1]
      apply List.ext_getElem
      · simp
      · intro k h2 h3; simp [Nat.mod_one]
    · simp only
      rw [if_neg]
      have : ((List.range n).map fun i => lit.getD (i % lit.length) 0).getD (n - 1) 0 < 0x81 := by
        rw [getD_lt (by simp; omega)]
        simp only [List.getElem_map, List.getElem_range]
        have hm : (n - 1) % lit.length < lit.length := Nat.mod_lt _ hpos
        rw [getD_lt hm]
        exact hb _ (List.getElem_mem hm)
      omega
  have hlen : (fillAll lit n).length = n := by rw [hfill]; simp
  have hmove : moveAllAlnum just lit n = fillAll lit n := by
    unfold moveAllAlnum moveAlnum
    rw [hlen]
    cases just <;> simp [hlen]
    all_goals rw [List.take_of_length_le (by omega)]
  rw [hmove]
  refine ⟨hlen, ?_⟩
  rw [hfill]
  have hm : i % lit.length < lit.length := Nat.mod_lt _ hpos
  rw [List.getElem?_map, List.getElem?_range hi, List.getElem?_eq_getElem hm]
  simp [List.getD, List.getElem?_eq_getElem hm]

example : moveAllAlnum false [65, 66] 5 = [65, 66, 65, 66, 65] := by decide

/-- C15 (figurative constants, one-byte literals of any value): every byte is that byte. -/
theorem C15_one_byte (just : Bool) (b n : Nat) : moveAllAlnum just [b] n = List.replicate n b := by
  unfold moveAllAlnum moveAlnum fillAll
  cases just <;> simp

/-- Finding: with a literal of two or more bytes, a receiver ending in a byte 0x81..0x9F or
0xE0..0xFC has it replaced by a space (move.c:1449-1452). -/
theorem C15_last_lead_byte_blanked : moveAllAlnum false [0x41, 0x81] 4 = [0x41, 0x81, 0x41, 32] := by decide

/-- Finding: a numeric receiver of more than 18 digits is not filled by MOVE ALL: MOVE ALL "9"
TO PIC 9(20) gives 00999999999999999999 (move.c:1412-1415). -/
theorem C15_numeric_receiver_18_digits :
    (moveAllDisp false [57] ⟨{ digits := 20 }, List.replicate 20 48⟩).data
      = [48, 48] ++ List.replicate 18 57 := by decide

/-- C14 (numeric to alphanumeric): an unsigned integer zoned item moved to text gives its
digits, left aligned and space padded; a signed one gives the digits of its absolute value,
and is itself unchanged. -/
theorem C14_display_to_text (ebc : Bool) (a : Attr) (neg : Bool) (ds : List Nat)
    (hs : a.separate = true → a.haveSign = true) (hne : ds ≠ []) (hd : ∀ d ∈ ds, d ≤ 9)
    (hsc : 0 ≤ a.scale) (n : Nat) :
    moveDispAlnum ebc ⟨a, zonedImage a ebc neg ds⟩ n =
      (⟨a, zonedImage a ebc neg ds⟩, moveAlnum false (ds.map (48 + ·)) n) := by
  obtain ⟨h1, h2, h3, h4, h5, h6⟩ := image_getSign ebc a neg ds hs hne hd
  unfold moveDispAlnum moveAlnum
  simp only [h2, h3, h6, Bool.false_eq_true, if_false, List.length_map]
  have hz : (if a.scale < 0 then min (-a.scale).toNat (n - ds.length) else 0) = 0 := if_neg (by omega)
  rw [hz]
  simp

example : (moveDispAlnum false ⟨{ digits := 2, haveSign := true }, [49, 114]⟩ 4).2 = [49, 50, 32, 32] := by decide

/-! ### C47: text to number -/

/-- The text of a numeral: blanks, an optional sign, digits, optionally a decimal point and more
digits, blanks. -/
structure Numeral where
  lead : Nat
  sign : Option Bool  -- `some true` is '-'
  int : List Nat
  frac : Option (List Nat)
  trail : Nat

/-- The characters of a numeral. -/
def Numeral.text (dp : Nat) (n : Numeral) : List Nat :=
  List.replicate n.lead 32 ++
  (match n.sign with | none => [] | some true => [45] | some false => [43]) ++
  n.int.map (48 + ·) ++
  (match n.frac with | none => [] | some F => dp :: F.map (48 + ·)) ++
  List.replicate n.trail 32

def Numeral.fracDigits (n : Numeral) : List Nat := n.frac.getD []

def Numeral.neg (n : Numeral) : Bool := n.sign == some true

theorem isDigit_map (d : Nat) (h : d ≤ 9) : isDigit (48 + d) = true := by
  unfold isDigit; simp; omega

theorem copyDigits_spaces (dp sep : Nat) (hdp : isSpace dp = false) (k r pt : Nat) :
    copyDigits dp sep (List.replicate k 32) r pt = some [] := by
  induction k with
  | zero => cases r <;> rfl
  | succ k ih =>
    rw [List.replicate_succ]
    cases r with
    | zero => rfl
    | succ r =>
      have h1 : isDigit 32 = false := by decide
      have h2 : ¬ (32 = dp) := by
        intro h; rw [← h] at hdp; simp [isSpace] at hdp
      have h3 : isSpace 32 = true := by decide
      simp only [copyDigits, h1, h2, h3, Bool.false_eq_true, if_false, Bool.true_or, if_true]
      exact ih

theorem copyDigits_digits (dp sep : Nat) (D rest : List Nat) (hD : ∀ d ∈ D, d ≤ 9) (r pt : Nat)
    (w : List Nat) (hw : ∀ r', copyDigits dp sep rest r' pt = some (w.take r')) :
    copyDigits dp sep (D.map (48 + ·) ++ rest) r pt = some ((D.map (48 + ·) ++ w).take r) := by
  induction D generalizing r with
  | nil => simpa using hw r
  | cons d t ih =>
    cases r with
    | zero => simp [copyDigits]
    | succ r =>
      simp only [List.map_cons, List.cons_append, copyDigits, isDigit_map d (hD d (by simp)), if_true]
      rw [ih (fun x hx => hD x (by simp [hx]))]
      simp

/-- The characters after the sign: digits, then optionally the point and digits, then blanks. -/
def tailText (dp : Nat) (D : List Nat) (fr : Option (List Nat)) (k : Nat) : List Nat :=
  D.map (48 + ·) ++ (match fr with | none => [] | some F => dp :: F.map (48 + ·)) ++ List.replicate k 32

theorem copyDigits_tail (dp sep : Nat) (hdp : isSpace dp = false) (hdd : isDigit dp = false)
    (D : List Nat) (fr : Option (List Nat)) (hD : ∀ d ∈ D, d ≤ 9) (hF : ∀ d ∈ fr.getD [], d ≤ 9)
    (k r : Nat) :
    copyDigits dp sep (tailText dp D fr k) r 0 = some (((D ++ fr.getD []).map (48 + ·)).take r) := by
  unfold tailText
  rw [List.append_assoc, List.map_append]
  apply copyDigits_digits dp sep D _ hD r 0
  intro r'
  cases fr with
  | none => simpa using copyDigits_spaces dp sep hdp k r' 0
  | some F =>
    simp only [Option.getD_some]
    cases r' with
    | zero => rfl
    | succ r' =>
      simp only [List.cons_append, copyDigits, hdd, Bool.false_eq_true, if_false, if_true]
      rw [if_neg (by omega)]
      have := copyDigits_digits dp sep F (List.replicate k 32) hF (r' + 1) (0 + 1) []
        (by intro r''; simpa using copyDigits_spaces dp sep hdp k r'' 1)
      simpa using this

theorem skipDigits_digits (D rest : List Nat) (hD : ∀ d ∈ D, d ≤ 9) (k : Nat) :
    skipDigits k (D.map (48 + ·) ++ rest) =
      if k ≤ D.length then some ((D.drop k).map (48 + ·) ++ rest) else skipDigits (k - D.length) rest := by
  induction D generalizing k with
  | nil =>
    cases k with
    | zero => simp [skipDigits]
    | succ k => simp
  | cons d t ih =>
    cases k with
    | zero => simp [skipDigits]
    | succ k =>
      simp only [List.map_cons, List.cons_append, skipDigits, isDigit_map d (hD d (by simp)), if_true]
      rw [ih (fun x hx => hD x (by simp [hx]))]
      simp

theorem skipDigits_tail (dp : Nat) (hdd : isDigit dp = false) (D : List Nat) (fr : Option (List Nat))
    (hD : ∀ d ∈ D, d ≤ 9) (hF : ∀ d ∈ fr.getD [], d ≤ 9) (k j : Nat)
    (hj : j ≤ D.length + (fr.getD []).length) :
    ∃ D' fr', skipDigits j (tailText dp D fr k) = some (tailText dp D' fr' k) ∧
      D' ++ fr'.getD [] = (D ++ fr.getD []).drop j ∧ (∀ d ∈ D', d ≤ 9) ∧ (∀ d ∈ fr'.getD [], d ≤ 9) := by
  unfold tailText
  rw [List.append_assoc, skipDigits_digits D _ hD]
  by_cases h : j ≤ D.length
  · rw [if_pos h]
    refine ⟨D.drop j, fr, by rw [List.append_assoc], ?_, fun d hd => hD d (List.mem_of_mem_drop hd), hF⟩
    rw [List.drop_append_of_le_length h]
  · rw [if_neg h]
    cases fr with
    | none => simp at hj; omega
    | some F =>
      simp only [Option.getD_some] at hj hF
      obtain ⟨e, he⟩ : ∃ e, j - D.length = e + 1 := ⟨j - D.length - 1, by omega⟩
      refine ⟨F.drop (j - D.length), none, ?_, ?_, fun d hd => hF d (List.mem_of_mem_drop hd), by simp⟩
      · rw [he]
        simp only [List.cons_append, skipDigits, hdd, Bool.false_eq_true, if_false]
        rw [skipDigits_digits F _ hF, if_pos (by omega)]
        simp
      · simp only [Option.getD_some, Option.getD_none, List.append_nil]
        have hDj : D.drop j = [] := List.drop_of_length_le (by omega)
        rw [List.drop_append, hDj]
        simp

theorem count_tail (dp : Nat) (hdp : isSpace dp = false) (hdd : isDigit dp = false) (D : List Nat)
    (fr : Option (List Nat)) (hD : ∀ d ∈ D, d ≤ 9) (k : Nat) :
    ((tailText dp D fr k).takeWhile (· != dp)).countP isDigit = D.length := by
  have h32 : (32 != dp) = true := by
    simp only [bne_iff_ne, ne_eq]
    intro h; rw [← h] at hdp; simp [isSpace] at hdp
  have hsp : ((List.replicate k 32).takeWhile (· != dp)).countP isDigit = 0 := by
    rw [List.countP_eq_zero]
    intro x hx
    have := List.eq_of_mem_replicate ((List.takeWhile_prefix _).subset hx)
    rw [this]; decide
  unfold tailText
  rw [List.append_assoc]
  induction D with
  | nil =>
    cases fr with
    | none => simpa using hsp
    | some F => simp
  | cons d t ih =>
    have hd := hD d (by simp)
    have hne : (48 + d != dp) = true := by
      simp only [bne_iff_ne, ne_eq]
      intro h; rw [← h, isDigit_map d hd] at hdd; simp at hdd
    simp only [List.map_cons, List.cons_append, List.takeWhile_cons, hne, if_true, List.countP_cons,
      isDigit_map d hd, List.length_cons]
    rw [ih (fun x hx => hD x (by simp [hx]))]

/-- The region written by the text move is the aligned region. -/
theorem text_region (I F : List Nat) (n2 : Nat) (s2 : Int) (off k : Nat)
    (hoff : off = ((n2 : Int) - s2 - I.length).toNat) (hk : k = ((I.length : Int) - ((n2 : Int) - s2)).toNat) :
    List.replicate (min off n2) 48 ++
      (if n2 < off then [] else (((I ++ F).drop k).map (48 + ·)).take (n2 - off)) ++
      List.replicate (n2 - off - (if n2 < off then [] else (((I ++ F).drop k).map (48 + ·)).take (n2 - off)).length) 48
    = commonRegion ((I ++ F).map (48 + ·)) F.length n2 s2 := by
  unfold commonRegion
  simp only [List.length_map, List.length_append]
  by_cases hlt : n2 < off
  · rw [if_pos hlt, if_neg (by push_cast; omega)]
    simp
    omega
  · rw [if_neg hlt]
    split
    · rename_i hg
      have e1 : (((n2 : Int) + -s2) - min (((I.length + F.length : Nat) : Int) + -(F.length : Int)) ((n2 : Int) + -s2)).toNat = min off n2 := by
        push_cast; omega
      have e2 : ((((I.length + F.length : Nat) : Int) + -(F.length : Int)) - min (((I.length + F.length : Nat) : Int) + -(F.length : Int)) ((n2 : Int) + -s2)).toNat = k := by
        push_cast; omega
      rw [e1, e2]
      have e3 : (min (((I.length + F.length : Nat) : Int) + -(F.length : Int)) ((n2 : Int) + -s2) - max (-(F.length : Int)) (-s2)).toNat
          = min (n2 - off) (I.length + F.length - k) := by
        push_cast; omega
      rw [e3]
      have hmap : ∀ l : List Nat, (l.map (48 + ·)).map (fun b => if b = 32 then 48 else b) = l.map (48 + ·) := by
        intro l
        rw [List.map_map]
        apply List.map_congr_left
        intro x _
        simp only [Function.comp]
        rw [if_neg (by omega)]
      simp only [← List.map_take, ← List.map_drop, hmap]
      have e4 : ((I ++ F).drop k).take (min (n2 - off) (I.length + F.length - k)) = ((I ++ F).drop k).take (n2 - off) := by
        rcases Nat.le_total (n2 - off) (I.length + F.length - k) with h | h
        · rw [Nat.min_eq_left h]
        · rw [Nat.min_eq_right h, List.take_of_length_le (by simp), List.take_of_length_le (by simp; omega)]
      rw [e4]
      congr 2
      simp
      omega
    · rename_i hg
      have : (((I ++ F).drop k).map (48 + ·)).take (n2 - off) = [] := by
        rw [List.take_eq_nil_iff]
        by_cases h0 : n2 - off = 0
        · exact Or.inl h0
        · right
          simp
          push_cast at hg
          omega
      rw [this]
      simp
      omega

/-- C47: moving text that is a numeral (blanks, sign, digits, decimal point, digits, blanks) to a
zoned item stores the number written, aligned on the decimal point, whatever the module's
decimal point character; provided the item's highest position is not more than one place
below the digits written (else see `C47_reads_past_source`). -/
theorem C47_text_to_number (ebc : Bool) (dp sep : Nat) (hdp : dp = 46 ∨ dp = 44) (nm : Numeral)
    (hI : ∀ d ∈ nm.int, d ≤ 9) (hF : ∀ d ∈ nm.fracDigits, d ≤ 9) (f2 : Field) (hw : WFDisplay f2)
    (hroom : f2.attr.scale ≤ (f2.dsize : Int) + nm.fracDigits.length) :
    ∃ r u, moveAlnumDisp ebc dp sep (nm.text dp) f2 = .done r ∧ WFItem ⟨.display, r⟩ ∧ r.attr = f2.attr ∧
      HoldsUnits ebc ⟨.display, r⟩ u ∧
      MovedUnits ⟨.display, f2⟩
        (((if nm.neg then -(digitsVal (nm.int ++ nm.fracDigits) : Int) else digitsVal (nm.int ++ nm.fracDigits) : Int) : ℚ)
          / (10 : ℚ) ^ (nm.fracDigits.length : Int)) u := by
  have hsp : isSpace dp = false := by rcases hdp with h | h <;> rw [h] <;> decide
  have hdd : isDigit dp = false := by rcases hdp with h | h <;> rw [h] <;> decide
  obtain ⟨lead, sg, I, fr, tr⟩ := nm
  simp only [Numeral.fracDigits, Numeral.neg] at *
  have hdrop : ∀ l : List Nat, (List.replicate lead 32 ++ l).dropWhile isSpace = l.dropWhile isSpace := by
    intro l
    induction lead with
    | zero => rfl
    | succ k ih => rw [List.replicate_succ, List.cons_append, List.dropWhile_cons, if_pos (by decide)]; exact ih
  -- after skipping blanks and the sign
  have hscan : ∃ tr', ∃ sgn : Int, decide (sgn < 0) = (sg == some true) ∧
      scanSign ((Numeral.text dp ⟨lead, sg, I, fr, tr⟩).dropWhile isSpace) = (sgn, tailText dp I fr tr') := by
    unfold Numeral.text
    simp only [List.append_assoc]
    rw [hdrop]
    cases sg with
    | some b =>
      cases b
      · refine ⟨tr, 1, rfl, ?_⟩
        simp only [List.cons_append, List.nil_append]
        rw [List.dropWhile_cons, if_neg (by decide)]
        simp [tailText, scanSign]
      · refine ⟨tr, -1, rfl, ?_⟩
        simp only [List.cons_append, List.nil_append]
        rw [List.dropWhile_cons, if_neg (by decide)]
        simp [tailText, scanSign]
    | none =>
      simp only [List.nil_append]
      cases I with
      | cons d t =>
        have hd := hI d (by simp)
        refine ⟨tr, 0, rfl, ?_⟩
        simp only [List.map_cons, List.cons_append]
        rw [List.dropWhile_cons, if_neg (by unfold isSpace; simp; omega)]
        have h1 : 48 + d ≠ 43 := by omega
        have h2 : 48 + d ≠ 45 := by omega
        simp only [tailText, List.map_cons, List.cons_append, List.append_assoc]
        unfold scanSign
        split
        · rename_i h; simp only [List.cons.injEq] at h; omega
        · rename_i h; simp only [List.cons.injEq] at h; omega
        · rfl
      | nil =>
        cases fr with
        | some F =>
          refine ⟨tr, 0, rfl, ?_⟩
          simp only [List.map_nil, List.nil_append, List.cons_append]
          rw [List.dropWhile_cons, if_neg (by simp [hsp])]
          simp only [tailText, List.map_nil, List.nil_append, List.cons_append, List.append_assoc]
          unfold scanSign
          split
          · rename_i h; simp only [List.cons.injEq] at h; omega
          · rename_i h; simp only [List.cons.injEq] at h; omega
          · rfl
        | none =>
          refine ⟨0, 0, rfl, ?_⟩
          have : (List.replicate tr 32).dropWhile isSpace = [] := by
            clear hdrop
            induction tr with
            | zero => rfl
            | succ k ih => rw [List.replicate_succ, List.dropWhile_cons, if_pos (by decide)]; exact ih
          simp only [List.map_nil, List.nil_append, this, tailText, List.append_nil, List.replicate_zero, scanSign]
  obtain ⟨tr', sgn, hsgn, hscan⟩ := hscan
  have hcount := count_tail dp hsp hdd I fr hI tr'
  set off := ((f2.dsize : Int) - f2.attr.scale - I.length).toNat with hoff
  set k := ((I.length : Int) - ((f2.dsize : Int) - f2.attr.scale)).toNat with hk
  have hstart : ∃ D' fr', (if (I.length : Int) < (f2.dsize : Int) - f2.attr.scale then
        some (((f2.dsize : Int) - f2.attr.scale - I.length).toNat, tailText dp I fr tr')
      else (skipDigits ((I.length : Int) - ((f2.dsize : Int) - f2.attr.scale)).toNat (tailText dp I fr tr')).map
        fun s => (0, s)) = some (off, tailText dp D' fr' tr') ∧
      D' ++ fr'.getD [] = (I ++ fr.getD []).drop k ∧ (∀ d ∈ D', d ≤ 9) ∧ (∀ d ∈ fr'.getD [], d ≤ 9) := by
    by_cases h : (I.length : Int) < (f2.dsize : Int) - f2.attr.scale
    · rw [if_pos h]
      refine ⟨I, fr, rfl, ?_, hI, hF⟩
      rw [show k = 0 by omega]; rfl
    · rw [if_neg h]
      obtain ⟨D', fr', e1, e2, e3, e4⟩ := skipDigits_tail dp hdd I fr hI hF tr' k (by omega)
      refine ⟨D', fr', ?_, e2, e3, e4⟩
      rw [← hk, e1, show off = 0 by omega]
      rfl
  obtain ⟨D', fr', e1, e2, e3, e4⟩ := hstart
  have hcopy := copyDigits_tail dp sep hsp hdd D' fr' e3 e4 tr' (f2.dsize - off)
  rw [e2] at hcopy
  have hreg := text_region I (fr.getD []) f2.dsize f2.attr.scale off k hoff hk
  have hall : ∀ d ∈ I ++ fr.getD [], d ≤ 9 := by
    intro d hd
    rcases List.mem_append.mp hd with h | h
    · exact hI d h
    · exact hF d h
  have hcommon := commonRegion_eq ((I ++ fr.getD []).map (48 + ·)) (by
    intro b hb
    obtain ⟨d, hd', rfl⟩ := List.mem_map.mp hb
    have := hall d hd'
    omega) ((fr.getD []).length : Int) f2.dsize f2.attr.scale
  rw [charDigit_map _ hall] at hcommon
  set zf : Field := { f2 with data := List.replicate f2.data.length 48 } with hzf
  have hzw : WFDisplay zf := by
    unfold WFDisplay at hw ⊢
    simpa [hzf] using hw
  have hzd : zf.dsize = f2.dsize := by simp [hzf, Field.dsize]
  have himg := store_image ebc zf hzw (fixedDigits f2.dsize (rescale (digitsVal (I ++ fr.getD [])) ((fr.getD []).length : Int) f2.attr.scale))
    (by rw [fixedDigits_length, hzd]) (fixedDigits_le _ _) sgn
  have hres : moveAlnumDisp ebc dp sep (Numeral.text dp ⟨lead, sg, I, fr, tr⟩) f2 =
      .done ⟨f2.attr, zonedImage f2.attr ebc (sg == some true)
        (fixedDigits f2.dsize (rescale (digitsVal (I ++ fr.getD [])) ((fr.getD []).length : Int) f2.attr.scale))⟩ := by
    unfold moveAlnumDisp
    simp only
    rw [hscan]
    simp only
    rw [hcount, e1]
    simp only
    rw [hcopy]
    simp only
    rw [hreg, hcommon, himg, hsgn]
  have hz := zoned_holds ebc f2 hw (sg == some true) (rescale (digitsVal (I ++ fr.getD [])) ((fr.getD []).length : Int) f2.attr.scale)
  refine ⟨_, _, hres, hz.1, rfl, hz.2, ?_⟩
  exact movedUnits_of ⟨.display, f2⟩ (sg == some true) (digitsVal (I ++ fr.getD [])) ((fr.getD []).length : Int)

/-- The hypotheses of C47 are met by " -12.5 " moved to PIC S9(3)V99. -/
example : (Numeral.text 46 ⟨1, some true, [1, 2], some [5], 1⟩) = [32, 45, 49, 50, 46, 53, 32] ∧
    moveAlnumDisp false 46 44 [32, 45, 49, 50, 46, 53, 32]
      ⟨{ digits := 5, scale := 2, haveSign := true }, [48, 48, 48, 48, 48]⟩ =
      .done ⟨{ digits := 5, scale := 2, haveSign := true }, [48, 49, 50, 53, 112]⟩ := by decide

/-- Finding: MOVE "5" TO an item PIC VPP9 (scale 3, one stored digit): the loop that skips
digits runs past the end of the sending item (move.c:249-258). -/
theorem C47_reads_past_source :
    moveAlnumDisp false 46 44 [53] ⟨{ digits := 3, scale := 3 }, [48]⟩ = .outside := by decide

/-- Text with any other character makes the receiver zero, with no exception raised. -/
theorem C47_bad_text_is_zero :
    moveAlnumDisp false 46 44 [49, 65, 50] ⟨{ digits := 3 }, [57, 57, 57]⟩ = .done ⟨{ digits := 3 }, [48, 48, 48]⟩ := by
  decide

end Cob
