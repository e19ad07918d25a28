import Verif.Move.Text
import Verif.Cobc.PictureMore
import Verif.Rt.TermioProps
/-
C67: MOVE to an alphanumeric-edited item, and of numbers to text items.
-/
namespace Cob

/-! ### Specification -/

/-- A position of the PICTURE that takes a character of the sender: `A`, `X` or `9`. -/
def takesChar (c : Nat) : Bool := c == 65 || c == 88 || c == 57

/-- The text `out` is the text `src` edited by the symbols `cs`: one character for each symbol; `A`, `X` and
`9` take the characters of the sender one after the other (spaces when there are no more), `B` is a space,
and `0` and `/` stand for themselves. -/
def EditedBy (cs src out : List Nat) : Prop :=
  out.length = cs.length ∧ ∀ i, i < cs.length →
    out[i]? = some (
      if takesChar (cs.getD i 0) then src.getD ((cs.take i).countP takesChar) 32
      else if cs.getD i 0 = 66 then 32
      else cs.getD i 0)

/-- The text `out` of `size` characters is `src`, left aligned, with spaces to its right or cut off. -/
def LeftAligned (size : Nat) (src out : List Nat) : Prop :=
  out.length = size ∧ ∀ i, i < size → out[i]? = some (src.getD i 32)

/-! ### The loop -/

theorem editRun_eq (c : Nat) (hc : c ∈ [65, 88, 57, 48, 66, 47]) : ∀ (n : Nat) (src : List Nat),
    editRun c n src = (if takesChar c then
      ((List.range n).map fun i => src.getD i 32, src.drop n) else (List.replicate n (if c = 66 then 32 else c), src))
  | 0, src => by cases h : takesChar c <;> simp [editRun]
  | n + 1, src => by
    simp only [List.mem_cons, List.not_mem_nil, or_false] at hc
    unfold editRun
    by_cases h : c = 65 ∨ c = 88 ∨ c = 57
    · have ht : takesChar c = true := by rcases h with h | h | h <;> subst h <;> rfl
      rw [if_pos h, if_pos ht]
      cases src with
      | nil =>
        simp only [editRun_eq c (by simpa using hc) n [], ht, if_true]
        rw [List.range_succ_eq_map]
        simp [Function.comp_def]
      | cons b src =>
        simp only [editRun_eq c (by simpa using hc) n src, ht, if_true]
        rw [List.range_succ_eq_map]
        simp [Function.comp_def]
    · have ht : takesChar c = false := by
        simp only [takesChar]
        simp only [not_or] at h
        simp [h]
      rw [if_neg h, ht]
      simp only [editRun_eq c (by simpa using hc) n src, ht, Bool.false_eq_true, if_false]
      have : (if c = 48 ∨ c = 47 then c else if c = 66 then 32 else 63) = (if c = 66 then 32 else c) := by
        have : c = 48 ∨ c = 66 ∨ c = 47 := by omega
        rcases this with h | h | h <;> subst h <;> rfl
      rw [this, List.replicate_succ]

/-- Editing by a list of symbols. -/
theorem editText_append (out2 cs1 cs2 src out1 : List Nat) (h1 : EditedBy cs1 src out1)
    (h2 : EditedBy cs2 (src.drop (cs1.countP takesChar)) out2) : EditedBy (cs1 ++ cs2) src (out1 ++ out2) := by
  obtain ⟨l1, g1⟩ := h1
  obtain ⟨l2, g2⟩ := h2
  refine ⟨by simp [l1, l2], fun i hi => ?_⟩
  rw [List.length_append] at hi
  have gd : ∀ a b : List Nat, ∀ i, (a ++ b).getD i 0 = if i < a.length then a.getD i 0 else b.getD (i - a.length) 0 := by
    intro a b i
    rw [List.getD_eq_getElem?_getD, List.getElem?_append]
    split <;> rw [List.getD_eq_getElem?_getD]
  by_cases h : i < cs1.length
  · rw [List.getElem?_append_left (by omega), g1 i h, gd, if_pos h, List.take_append_of_le_length (by omega)]
  · rw [List.getElem?_append_right (by omega), l1, g2 _ (by omega), gd, if_neg h, List.take_append, List.countP_append,
      List.take_of_length_le (l := cs1) (by omega)]
    have : (src.drop (cs1.countP takesChar)).getD ((cs2.take (i - cs1.length)).countP takesChar) 32
        = src.getD (cs1.countP takesChar + (cs2.take (i - cs1.length)).countP takesChar) 32 := by
      simp [List.getD_eq_getElem?_getD]
    rw [this]

theorem editText_edited : ∀ (pic : List (Nat × Nat)), (∀ c ∈ expandPic pic, c ∈ [65, 88, 57, 48, 66, 47]) →
    ∀ src, EditedBy (expandPic pic) src (editText pic src)
  | [], _, src => ⟨rfl, fun i hi => by simp [expandPic] at hi⟩
  | (c, 0) :: pic, h, src => by
    have := editText_edited pic (by simpa [expandPic] using h) src
    simpa [expandPic, editText, editRun] using this
  | (c, n + 1) :: pic, h, src => by
    have hc : c ∈ [65, 88, 57, 48, 66, 47] := h c (by simp [expandPic, List.replicate_succ])
    have ih := editText_edited pic (fun d hd => h d (by simp only [expandPic, List.flatMap_cons, List.mem_append] at hd ⊢; exact Or.inr hd))
    have he : expandPic ((c, n + 1) :: pic) = List.replicate (n + 1) c ++ expandPic pic := rfl
    rw [he]
    have gr : ∀ i, i < n + 1 → (List.replicate (n + 1) c).getD i 0 = c := by
      intro i hi
      rw [List.getD_eq_getElem?_getD, List.getElem?_replicate, if_pos hi]; rfl
    unfold editText
    simp only [editRun_eq c hc]
    by_cases ht : takesChar c = true
    · simp only [if_pos ht]
      apply editText_append
      · refine ⟨by simp, fun i hi => ?_⟩
        rw [List.length_replicate] at hi
        rw [gr i hi, if_pos ht, List.getElem?_map, List.getElem?_range hi]
        simp only [List.take_replicate, List.countP_replicate, ht, if_true, Option.map_some]
        rw [Nat.min_eq_left (by omega)]
      · simp only [List.countP_replicate, ht, if_true]
        exact ih _
    · simp only [if_neg ht]
      apply editText_append
      · refine ⟨by simp, fun i hi => ?_⟩
        rw [List.length_replicate] at hi
        rw [gr i hi, if_neg ht, List.getElem?_replicate, if_pos hi]
      · simp only [List.countP_replicate, ht, Bool.false_eq_true, if_false, List.drop_zero]
        exact ih _

/-! ### Text to an edited item -/

/-- **C67** MOVE of text to an alphanumeric-edited item: whatever PICTURE of `A`, `X`, `9`, `B`, `0` and `/` the
item was declared with, its positions are filled as the PICTURE says, and the whole item is written. -/
theorem C67_text_to_edited (env : EditEnv) (he : PicEnvOk env) (lim : PicLimits) (str cs : List Nat)
    (hg : GoodPic env lim.alpha lim.sjis str cs []) (hlen : cs.length < 536870912)
    (hcs : ∀ c ∈ cs, c ∈ [65, 88, 57, 48, 66, 47]) :
    ∃ p, buildPicture env lim str = some p ∧ p.cat.toClass = picClass cs ∧
      ∀ src : List Nat, EditedBy cs src (moveAlnumEdited (p.str.map fun q => (q.1, q.2.toNat)) src) ∧
        ((moveAlnumEdited (p.str.map fun q => (q.1, q.2.toNat)) src).length : Int) = p.size := by
  have hn : ∀ d ∈ [86, 83, 78], d ∉ cs := by
    intro d hd hh
    have := hcs d hh
    simp only [List.mem_cons, List.not_mem_nil, or_false] at hd this
    omega
  obtain ⟨p, h1, h2, h3, h4⟩ := C43_runtime_picture env he lim str cs [] hg (by simpa using hlen)
    (hn 86 (by simp)) (hn 83 (by simp)) (hn 78 (by simp))
  simp only [List.append_nil, List.take_nil] at h2 h3 h4
  refine ⟨p, h1, h2, fun src => ?_⟩
  have := editText_edited (p.str.map fun q => (q.1, q.2.toNat)) (by rw [h4]; exact hcs) src
  rw [h4] at this
  exact ⟨this, by unfold moveAlnumEdited; rw [this.1, h3]⟩

/-- The case PICTURE `X(2)/9(2)BA0` with a sender of four characters. -/
example : ∃ p, buildPicture {} {} (codes "X(2)/99BA0") = some p ∧
    moveAlnumEdited (p.str.map fun q => (q.1, q.2.toNat)) (codes "abcd") = codes "ab/cd  0" := by
  refine ⟨⟨8, 2, 0, 0, .alphanumericEdited, [(88, 2), (47, 1), (57, 2), (66, 1), (65, 1), (48, 1)]⟩, ?_, ?_⟩ <;> decide +kernel

/-! ### Numbers to text -/

/-- The characters an item of any usage that holds `m` units of its last place (without the sign) sends to a text
item: its digits, and zeros for the `P` positions at the right of its PICTURE. -/
def sentText (it : Item) (m : Nat) : List Nat :=
  digitText (it.positions + (-it.field.attr.scale).toNat) (wholeUnits m it.field.attr.scale)

theorem digitText_zeros (k M p : Nat) : digitText (k + p) (M * 10 ^ p) = digitText k M ++ List.replicate p 48 := by
  induction p with
  | zero => simp
  | succ p ih =>
    unfold digitText at ih ⊢
    rw [← Nat.add_assoc, fixedDigits, List.map_append]
    rw [show M * 10 ^ (p + 1) / 10 = M * 10 ^ p by rw [pow_succ, ← mul_assoc]; omega, ih,
      show M * 10 ^ (p + 1) % 10 = 0 by rw [pow_succ, ← mul_assoc]; omega]
    rw [List.replicate_succ']
    simp

theorem digitText_image (ds : List Nat) (hd : ∀ d ∈ ds, d ≤ 9) : digitText ds.length (digitsVal ds) = ds.map (48 + ·) := by
  unfold digitText
  rw [fixedDigits_digitsVal ds hd]

theorem leftAligned_of (size : Nat) (src : List Nat) (z : Nat) (hz : z = min src.length size) :
    LeftAligned size src (src.take z ++ List.replicate (size - z) 32) := by
  subst hz
  refine ⟨by simp, fun i hi => ?_⟩
  rw [List.getD_eq_getElem?_getD]
  by_cases h : i < src.length
  · rw [List.getElem?_append_left (by simp; omega), List.getElem?_take, if_pos (by omega), List.getElem?_eq_getElem h]
    rfl
  · rw [List.getElem?_append_right (by simp; omega), List.getElem?_replicate, if_pos (by simp; omega),
      List.getElem?_eq_none (by omega)]
    rfl

theorem digitText_low (n D m : Nat) (h : n ≤ D) : digitText n (m % 10 ^ D) = digitText n m := by
  unfold digitText
  congr 1
  apply List.ext_getElem
  · rw [fixedDigits_length, fixedDigits_length]
  · intro j h1 h2
    rw [fixedDigits_length] at h2
    rw [fixedDigits_getElem, fixedDigits_getElem]
    obtain ⟨k, hk⟩ : ∃ k, D = (n - 1 - j) + (k + 1) := ⟨D - (n - 1 - j) - 1, by omega⟩
    generalize n - 1 - j = w at hk ⊢
    rw [hk, pow_add, Nat.mod_mul_right_div_self, Nat.mod_mod_of_dvd _ ⟨10 ^ k, by rw [pow_succ]; ring⟩]

theorem dispText_alnum (ebc : Bool) (a : Attr) (neg : Bool) (ds : List Nat)
    (hs : a.separate = true → a.haveSign = true) (hne : ds ≠ []) (hd : ∀ d ∈ ds, d ≤ 9) (n : Nat) :
    (moveDispText ebc ⟨a, zonedImage a ebc neg ds⟩ (.alnum n)).1 = ⟨a, zonedImage a ebc neg ds⟩ ∧
    LeftAligned n (digitText (ds.length + (-a.scale).toNat) (wholeUnits (digitsVal ds) a.scale))
      (moveDispText ebc ⟨a, zonedImage a ebc neg ds⟩ (.alnum n)).2 := by
  obtain ⟨h1, h2, h3, h4, h5, h6⟩ := image_getSign ebc a neg ds hs hne hd
  unfold moveDispText moveDispAlnum
  simp only [h2, h3, h6, true_and]
  unfold wholeUnits
  rw [digitText_zeros, digitText_image ds hd]
  generalize hc : ds.map (48 + ·) = chars
  have hl : chars.length = ds.length := by rw [← hc]; simp
  rw [← hl]
  split
  · rename_i hle
    have := leftAligned_of n (chars ++ List.replicate (-a.scale).toNat 48) n (by simp; omega)
    rw [Nat.sub_self, List.replicate_zero, List.append_nil, List.take_append_of_le_length hle] at this
    exact this
  · rename_i hle
    have hz : (if a.scale < 0 then min (-a.scale).toNat (n - chars.length) else 0) = min (-a.scale).toNat (n - chars.length) := by
      split <;> omega
    rw [hz]
    generalize hk : (-a.scale).toNat = k
    have := leftAligned_of n (chars ++ List.replicate k 48) (chars.length + min k (n - chars.length)) (by simp; omega)
    rw [List.take_append, List.take_of_length_le (by omega), List.take_replicate,
      show min (chars.length + min k (n - chars.length) - chars.length) k = min k (n - chars.length) by omega,
      show n - (chars.length + min k (n - chars.length)) = n - chars.length - min k (n - chars.length) by omega] at this
    exact this

/-- The number of characters a number sends to an alphanumeric-edited item. -/
def sentWidth (it : Item) : Nat :=
  if it.field.attr.scale < 0 then it.field.attr.digits else it.positions

theorem dispText_edited (ebc : Bool) (a : Attr) (neg : Bool) (ds : List Nat)
    (hs : a.separate = true → a.haveSign = true) (hne : ds ≠ []) (hd : ∀ d ∈ ds, d ≤ 9) (hdg : 0 < a.digits) (hsd : a.scale ≤ a.digits)
    (pic : List (Nat × Nat)) (hcs : ∀ c ∈ expandPic pic, c ∈ [65, 88, 57, 48, 66, 47]) :
    (moveDispText ebc ⟨a, zonedImage a ebc neg ds⟩ (.edited pic)).1 = ⟨a, zonedImage a ebc neg ds⟩ ∧
    EditedBy (expandPic pic) (digitText (if a.scale < 0 then a.digits else ds.length) (wholeUnits (digitsVal ds) a.scale))
      (moveDispText ebc ⟨a, zonedImage a ebc neg ds⟩ (.edited pic)).2 := by
  obtain ⟨h1, h2, h3, h4, h5, h6⟩ := image_getSign ebc a neg ds hs hne hd
  unfold moveDispText
  have hc : (a.scale < 0 ∨ a.scale > a.digits) ↔ a.scale < 0 := by omega
  simp only [hc]
  by_cases h : a.scale < 0
  · simp only [if_pos h]
    generalize hn : (max (a.digits : Int) a.scale).toNat = n
    have hn' : a.digits = n := by omega
    have hn0 : 0 < n := by omega
    rw [hn']
    generalize ht : tempItem n (max 0 a.scale) = t
    have hwt : WFDisplay t := by rw [← ht]; exact wf_temp n hn0 _
    have hts : t.dsize = n := by rw [← ht]; exact temp_dsize n _
    have hsc : t.attr.scale = max 0 a.scale := by rw [← ht]; rfl
    have hre : rescale (digitsVal ds) a.scale t.attr.scale = wholeUnits (digitsVal ds) a.scale := by
      rw [hsc]
      unfold rescale wholeUnits
      rw [if_pos (by omega)]
      congr 2
      omega
    unfold moveDispDisp
    refine ⟨h3, ?_⟩
    simp only [h2]
    rw [region_holds ebc t hwt ds hd, hre, hts]
    obtain ⟨_, g2, _⟩ := image_getSign ebc t.attr (decide ((Field.getSign ebc ⟨a, zonedImage a ebc neg ds⟩).1 < 0))
      (fixedDigits n (wholeUnits (digitsVal ds) a.scale)) hwt.1
      (by intro he; have := congrArg List.length he; rw [fixedDigits_length] at this; simp at this; omega)
      (fixedDigits_le _ _)
    unfold moveDispAlnumEdited
    simp only [g2]
    exact editText_edited pic hcs _
  · simp only [if_neg h]
    unfold moveDispAlnumEdited
    refine ⟨h3, ?_⟩
    simp only [h2]
    rw [show wholeUnits (digitsVal ds) a.scale = digitsVal ds by
      unfold wholeUnits; rw [show (-a.scale).toNat = 0 by omega]; simp, digitText_image ds hd]
    exact editText_edited pic hcs _

/-- **C67** MOVE of a number to an alphanumeric item writes the digits of its absolute value, left aligned; the
number itself is unchanged. -/
theorem C67_number_to_text (ebc : Bool) (src : Item) (hw : WFItem src) (hdg : 0 < src.field.attr.digits) (v : Int)
    (hv : HoldsUnits ebc src v) (size : Nat) :
    (moveNumText ebc src (.alnum size)).1 = src ∧
    LeftAligned size (sentText src v.natAbs) (moveNumText ebc src (.alnum size)).2 := by
  have hsf := src_forms ebc src hw v hv
  obtain ⟨us, f⟩ := src
  obtain ⟨a, data⟩ := f
  unfold moveNumText sentText Item.positions
  cases us with
  | display =>
    obtain ⟨neg, ds, hdat, hne, hd, hsz, hval⟩ := hsf
    simp only at hdat hval hsz ⊢
    have hna : v.natAbs = digitsVal ds := by rw [hval]; split <;> simp
    rw [hsz, hna, hdat]
    have := dispText_alnum ebc a neg ds hw.1 hne hd size
    exact ⟨by rw [this.1], this.2⟩
  | packed =>
    obtain ⟨neg, hval, hmv⟩ := hsf
    obtain ⟨hm, hlt⟩ := hmv (tempItem a.digits a.scale) (wf_temp a.digits hdg a.scale)
    simp only at hm hlt ⊢
    rw [temp_dsize, show (tempItem a.digits a.scale).attr.scale = a.scale from rfl, rescale_self] at hm
    rw [hm]
    have := dispText_alnum ebc (tempItem a.digits a.scale).attr neg (fixedDigits a.digits v.natAbs)
      (wf_temp a.digits hdg a.scale).1
      (by intro he; have := congrArg List.length he; rw [fixedDigits_length] at this; simp at this; simp at hdg; omega) (fixedDigits_le _ _) size
    rw [fixedDigits_length, digitsVal_fixedDigits, Nat.mod_eq_of_lt hlt] at this
    exact ⟨trivial, this.2⟩
  | binary =>
    obtain ⟨neg, hval, hmv⟩ := hsf
    obtain ⟨hm, hlt⟩ := hmv (tempItem a.digits a.scale) (wf_temp a.digits hdg a.scale)
    simp only at hm hlt ⊢
    rw [temp_dsize, show (tempItem a.digits a.scale).attr.scale = a.scale from rfl, rescale_self] at hm
    rw [hm]
    have := dispText_alnum ebc (tempItem a.digits a.scale).attr neg (fixedDigits a.digits v.natAbs)
      (wf_temp a.digits hdg a.scale).1
      (by intro he; have := congrArg List.length he; rw [fixedDigits_length] at this; simp at this; simp at hdg; omega) (fixedDigits_le _ _) size
    rw [fixedDigits_length] at this
    refine ⟨trivial, ?_⟩
    have h2 := this.2
    unfold wholeUnits at h2 ⊢
    rw [digitText_zeros] at h2 ⊢
    have hd : digitText a.digits (digitsVal (fixedDigits a.digits v.natAbs)) = digitText a.digits v.natAbs := by
      unfold digitText
      have := fixedDigits_digitsVal (fixedDigits a.digits v.natAbs) (fixedDigits_le _ _)
      rw [fixedDigits_length] at this
      rw [this]
    rw [hd] at h2
    exact h2

/-- **C67** MOVE of a number to an alphanumeric-edited item: the PICTURE is filled with the digits of its absolute
value (with the zeros of the `P` positions); the number itself is unchanged. -/
theorem C67_number_to_edited (ebc : Bool) (src : Item) (hw : WFItem src) (hdg : 0 < src.field.attr.digits)
    (hsd : src.field.attr.scale ≤ src.field.attr.digits) (v : Int)
    (hv : HoldsUnits ebc src v) (pic : List (Nat × Nat)) (hcs : ∀ c ∈ expandPic pic, c ∈ [65, 88, 57, 48, 66, 47]) :
    (moveNumText ebc src (.edited pic)).1 = src ∧
    EditedBy (expandPic pic) (digitText (sentWidth src) (wholeUnits v.natAbs src.field.attr.scale))
      (moveNumText ebc src (.edited pic)).2 := by
  have hsf := src_forms ebc src hw v hv
  obtain ⟨us, f⟩ := src
  obtain ⟨a, data⟩ := f
  unfold moveNumText sentWidth Item.positions
  cases us with
  | display =>
    obtain ⟨neg, ds, hdat, hne, hd, hsz, hval⟩ := hsf
    simp only at hdat hval hsz ⊢
    have hna : v.natAbs = digitsVal ds := by rw [hval]; split <;> simp
    rw [hsz, hna, hdat]
    have := dispText_edited ebc a neg ds hw.1 hne hd hdg hsd pic hcs
    exact ⟨by rw [this.1], this.2⟩
  | packed =>
    obtain ⟨neg, hval, hmv⟩ := hsf
    obtain ⟨hm, hlt⟩ := hmv (tempItem a.digits a.scale) (wf_temp a.digits hdg a.scale)
    simp only at hm hlt ⊢
    rw [temp_dsize, show (tempItem a.digits a.scale).attr.scale = a.scale from rfl, rescale_self] at hm
    rw [hm]
    have := dispText_edited ebc (tempItem a.digits a.scale).attr neg (fixedDigits a.digits v.natAbs)
      (wf_temp a.digits hdg a.scale).1
      (by intro he; have := congrArg List.length he; rw [fixedDigits_length] at this; simp at this; simp at hdg; omega)
      (fixedDigits_le _ _) hdg hsd pic hcs
    rw [fixedDigits_length, digitsVal_fixedDigits, Nat.mod_eq_of_lt hlt] at this
    exact ⟨trivial, this.2⟩
  | binary =>
    obtain ⟨neg, hval, hmv⟩ := hsf
    obtain ⟨hm, hlt⟩ := hmv (tempItem a.digits a.scale) (wf_temp a.digits hdg a.scale)
    simp only at hm hlt ⊢
    rw [temp_dsize, show (tempItem a.digits a.scale).attr.scale = a.scale from rfl, rescale_self] at hm
    rw [hm]
    have := dispText_edited ebc (tempItem a.digits a.scale).attr neg (fixedDigits a.digits v.natAbs)
      (wf_temp a.digits hdg a.scale).1
      (by intro he; have := congrArg List.length he; rw [fixedDigits_length] at this; simp at this; simp at hdg; omega)
      (fixedDigits_le _ _) hdg hsd pic hcs
    rw [fixedDigits_length, digitsVal_fixedDigits] at this
    refine ⟨trivial, ?_⟩
    have h2 := this.2
    have hlow : digitText (if a.scale < 0 then a.digits else a.digits) (wholeUnits (v.natAbs % 10 ^ a.digits) a.scale)
        = digitText (if a.scale < 0 then a.digits else a.digits) (wholeUnits v.natAbs a.scale) := by
      rw [ite_self]
      unfold wholeUnits
      rw [← digitText_low a.digits (a.digits + (-a.scale).toNat) (v.natAbs * _) (by omega), pow_add, Nat.mul_mod_mul_right]
    rw [show (tempItem a.digits a.scale).attr.scale = a.scale from rfl,
      show (tempItem a.digits a.scale).attr.digits = a.digits from rfl, hlow] at h2
    exact h2

/-- The number -12.5, packed: `PIC S9(3)V9 COMP-3`, moved to `PIC X(6)` and to `PIC X/XX0XX`. -/
example : (moveNumText false ⟨.packed, ⟨{ digits := 4, scale := 1, haveSign := true }, [0, 18, 93]⟩⟩ (.alnum 6)).2
      = codes "0125  " ∧
    (moveNumText false ⟨.packed, ⟨{ digits := 4, scale := 1, haveSign := true }, [0, 18, 93]⟩⟩
      (.edited [(88, 1), (47, 1), (88, 2), (48, 1), (88, 2)])).2 = codes "0/1205 " ∧
    HoldsUnits false ⟨.packed, ⟨{ digits := 4, scale := 1, haveSign := true }, [0, 18, 93]⟩⟩ (-125) :=
  ⟨by decide +kernel, by decide +kernel, true, 125, by decide, by decide +kernel, by decide⟩

/-- The number 12300 in a zoned item `PIC 9(3)P(2)`: the zeros of `P` are sent. -/
example : (moveNumText false ⟨.display, ⟨{ digits := 5, scale := -2 }, [49, 50, 51]⟩⟩ (.alnum 6)).2 = codes "12300 " ∧
    (moveNumText false ⟨.display, ⟨{ digits := 5, scale := -2 }, [49, 50, 51]⟩⟩ (.edited [(88, 3), (66, 1), (88, 3)])).2
      = codes "123 00 " := by decide +kernel

/-- Finding: a JUSTIFIED RIGHT receiver is not right-justified when the sender is a number: the runtime looks at
JUSTIFIED only for text senders (libcob/move.c:296-331), so `MOVE N TO X` with `N PIC 99` holding 12 and `X PIC X(4) JUSTIFIED RIGHT` gives
`"12  "`, and `MOVE "12" TO X` gives `"  12"`. -/
theorem C67_finding_justified :
    (moveNumText false ⟨.display, ⟨{ digits := 2 }, [49, 50]⟩⟩ (.alnum 4)).2 = codes "12  " ∧
    moveAlnum true (codes "12") 4 = codes "  12" := by decide +kernel

end Cob
