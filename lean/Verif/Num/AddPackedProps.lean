import Verif.Num.AddIntProps
/-
Property C11: the fast path for adding an integer to a PACKED-DECIMAL item.
-/
namespace Cob

/-! ### nibble representation -/

/-- Bytes from nibbles listed least significant first. -/
def fromRev : List Nat → List Nat
  | lo :: hi :: t => fromRev t ++ [16 * hi + lo]
  | _ => []

theorem fromRev_length (r : List Nat) : (fromRev r).length = r.length / 2 := by
  induction r using fromRev.induct with
  | case1 lo hi t ih => simp [fromRev, ih]; omega
  | case2 l h =>
    match l, h with
    | [], _ => rfl
    | [x], _ => simp [fromRev]
    | a :: b :: t, h => exact absurd rfl (h a b t)

theorem packNibbles_snoc (l : List Nat) (h : l.length % 2 = 0) (a b : Nat) :
    packNibbles (l ++ [a, b]) = packNibbles l ++ [16 * a + b] := by
  induction l using packNibbles.induct with
  | case1 x y t ih => simp [packNibbles]; rw [← ih (by simp at h; omega)]
  | case2 l hl =>
    match l, hl, h with
    | [], _, _ => simp [packNibbles]
    | [x], _, h => simp at h
    | a :: b :: t, hl, _ => exact absurd rfl (hl a b t)

theorem packNibbles_fromRev (r : List Nat) (h : r.length % 2 = 0) :
    packNibbles r.reverse = fromRev r := by
  induction r using fromRev.induct with
  | case1 lo hi t ih =>
    have ht : t.length % 2 = 0 := by simp at h; omega
    rw [List.reverse_cons, List.reverse_cons, List.append_assoc]
    show packNibbles (t.reverse ++ [hi, lo]) = _
    rw [packNibbles_snoc _ (by simpa using ht), ih ht, fromRev]
  | case2 l hl =>
    match l, hl, h with
    | [], _, _ => rfl
    | [x], _, h => simp at h
    | a :: b :: t, hl, _ => exact absurd rfl (hl a b t)

/-- Byte and half designated by nibble index `j` of a string of `len` nibbles. -/
def nibByte (len j : Nat) : Nat := len / 2 - 1 - j / 2

theorem getNib_fromRev (r : List Nat) (hr : r.length % 2 = 0) (hn : ∀ x ∈ r, x < 16) (j : Nat)
    (hj : j < r.length) :
    getNib (fromRev r) (nibByte r.length j) (decide (j % 2 = 1)) = r.getD j 0 := by
  induction r using fromRev.induct generalizing j with
  | case1 lo hi t ih =>
    have ht : t.length % 2 = 0 := by simp at hr; omega
    have hlo := hn lo (by simp)
    have hhi := hn hi (by simp)
    match j, hj with
    | 0, _ =>
      have hp : nibByte (lo :: hi :: t).length 0 = (fromRev t).length := by
        rw [fromRev_length]; simp [nibByte]; omega
      rw [hp, fromRev]
      simp [getNib]
      omega
    | 1, _ =>
      have hp : nibByte (lo :: hi :: t).length 1 = (fromRev t).length := by
        rw [fromRev_length]; simp [nibByte]; omega
      rw [hp, fromRev]
      simp [getNib]
      omega
    | j + 2, hj =>
      have hj' : j < t.length := by simp at hj; omega
      have := ih ht (fun x hx => hn x (by simp [hx])) j hj'
      have hp : nibByte (lo :: hi :: t).length (j + 2) = nibByte t.length j := by
        simp [nibByte]; omega
      have hlt : nibByte t.length j < (fromRev t).length := by
        rw [fromRev_length]; simp [nibByte]; omega
      rw [hp, fromRev]
      have hg : (fromRev t ++ [16 * hi + lo]).getD (nibByte t.length j) 0 = (fromRev t).getD (nibByte t.length j) 0 := by
        simp [List.getD, List.getElem?_append_left hlt]
      unfold getNib at this ⊢
      rw [hg]
      have : (j + 2) % 2 = j % 2 := by omega
      rw [this]
      simpa using ‹(if decide (j % 2 = 1) = true then _ else _) = t.getD j 0›
  | case2 l hl =>
    match l, hl, hj with
    | [], _, hj => simp at hj
    | [x], _, _ => simp at hr
    | a :: b :: t, hl, _ => exact absurd rfl (hl a b t)

theorem setNib_fromRev (r : List Nat) (hr : r.length % 2 = 0) (hn : ∀ x ∈ r, x < 16) (j v : Nat)
    (hj : j < r.length) :
    setNib (fromRev r) (nibByte r.length j) (decide (j % 2 = 1)) v = fromRev (r.set j v) := by
  induction r using fromRev.induct generalizing j with
  | case1 lo hi t ih =>
    have ht : t.length % 2 = 0 := by simp at hr; omega
    have hlo := hn lo (by simp)
    have hhi := hn hi (by simp)
    match j, hj with
    | 0, _ =>
      have hp : nibByte (lo :: hi :: t).length 0 = (fromRev t).length := by
        rw [fromRev_length]; simp [nibByte]; omega
      rw [hp, fromRev]
      simp [setNib, fromRev]
      omega
    | 1, _ =>
      have hp : nibByte (lo :: hi :: t).length 1 = (fromRev t).length := by
        rw [fromRev_length]; simp [nibByte]; omega
      rw [hp, fromRev]
      simp [setNib, fromRev]
      omega
    | j + 2, hj =>
      have hj' : j < t.length := by simp at hj; omega
      have := ih ht (fun x hx => hn x (by simp [hx])) j hj'
      have hp : nibByte (lo :: hi :: t).length (j + 2) = nibByte t.length j := by
        simp [nibByte]; omega
      have hlt : nibByte t.length j < (fromRev t).length := by
        rw [fromRev_length]; simp [nibByte]; omega
      rw [hp, fromRev]
      have hg : (fromRev t ++ [16 * hi + lo]).getD (nibByte t.length j) 0 = (fromRev t).getD (nibByte t.length j) 0 := by
        simp [List.getD, List.getElem?_append_left hlt]
      unfold setNib at this ⊢
      rw [hg, List.set_append_left _ _ hlt]
      have h2 : (j + 2) % 2 = j % 2 := by omega
      rw [h2, this]
      simp [fromRev]
  | case2 l hl =>
    match l, hl, hj with
    | [], _, hj => simp at hj
    | [x], _, _ => simp at hr
    | a :: b :: t, hl, _ => exact absurd rfl (hl a b t)

/-- The digit loop on lists of digits, least significant first. -/
def digLoop (subtr : Bool) : List Nat → (val carry : Nat) → List Nat × Nat
  | [], _, c => ([], c)
  | d :: t, val, c =>
    let r := packedStep subtr d val c
    let q := digLoop subtr t (val / 10) r.2
    (r.1 :: q.1, q.2)

theorem digLoop_length (s : Bool) (ds : List Nat) (v c : Nat) : (digLoop s ds v c).1.length = ds.length := by
  induction ds generalizing v c with
  | nil => rfl
  | cons d t ih => simp [digLoop, ih]

theorem packedStep_le (s : Bool) (t v c : Nat) (ht : t ≤ 9) (hc : c ≤ 1) :
    (packedStep s t v c).1 ≤ 9 ∧ (packedStep s t v c).2 ≤ 1 := by
  unfold packedStep
  cases s <;> simp <;> split <;> simp <;> omega

theorem nib_advance (len j : Nat) (hj : j + 1 < len) (hl : len % 2 = 0) :
    (if decide (j % 2 = 1) = true then nibByte len j - 1 else nibByte len j) = nibByte len (j + 1) ∧
      (!decide (j % 2 = 1)) = decide ((j + 1) % 2 = 1) := by
  unfold nibByte
  constructor
  · by_cases h : j % 2 = 1
    · simp [h]; omega
    · simp [h]; omega
  · by_cases h : j % 2 = 1
    · have : ¬ (j + 1) % 2 = 1 := by omega
      simp [h, this]
    · have : (j + 1) % 2 = 1 := by omega
      simp [h, this]

/-- The byte loop works on the nibbles like the digit loop. -/
theorem packedAddLoop_eq (s : Bool) (ds : List Nat) (hd : ∀ x ∈ ds, x ≤ 9) :
    ∀ (pre post : List Nat) (v c z : Nat), (∀ x ∈ pre, x < 16) → (∀ x ∈ post, x < 16) → c ≤ 1 →
      (pre ++ ds ++ post).length % 2 = 0 →
      packedAddLoop s ds.length (fromRev (pre ++ ds ++ post)) (nibByte (pre ++ ds ++ post).length pre.length)
          (decide (pre.length % 2 = 1)) v c z =
        (fromRev (pre ++ (digLoop s ds v c).1 ++ post), (digLoop s ds v c).2,
          z + (digLoop s ds v c).1.count 0) := by
  induction ds with
  | nil => intro pre post v c z _ _ _ _; simp [packedAddLoop, digLoop]
  | cons d t ih =>
    intro pre post v c z hpre hpost hc hlen
    have hd0 := hd d (by simp)
    have ht : ∀ x ∈ t, x ≤ 9 := fun x hx => hd x (by simp [hx])
    have hall : ∀ x ∈ pre ++ (d :: t) ++ post, x < 16 := by
      intro x hx
      simp only [List.mem_append] at hx
      rcases hx with (h | h) | h
      · exact hpre x h
      · have := hd x h; omega
      · exact hpost x h
    have hj : pre.length < (pre ++ (d :: t) ++ post).length := by simp
    rw [List.length_cons, packedAddLoop]
    rw [getNib_fromRev _ hlen hall _ hj, setNib_fromRev _ hlen hall _ _ hj]
    have hg : (pre ++ (d :: t) ++ post).getD pre.length 0 = d := by simp
    rw [hg]
    obtain ⟨st1, st2⟩ := packedStep_le s d v c hd0 hc
    set r := packedStep s d v c with hr
    have hset : (pre ++ (d :: t) ++ post).set pre.length r.1 = (pre ++ [r.1]) ++ t ++ post := by
      simp
    rw [hset]
    simp only [digLoop, ← hr]
    have hlen2 : ((pre ++ [r.1]) ++ t ++ post).length = (pre ++ (d :: t) ++ post).length := by
      simp
    cases t with
    | nil =>
      simp only [List.length_nil, packedAddLoop, digLoop]
      simp
      split <;> simp_all
    | cons e t' =>
      have hadv := nib_advance (pre ++ (d :: e :: t') ++ post).length pre.length (by simp) hlen
      rw [hadv.1, hadv.2]
      have hih := ih ht (pre ++ [r.1]) post (v / 10) r.2 (if r.1 = 0 then z + 1 else z)
        (by intro x hx
            rcases List.mem_append.mp hx with h | h
            · exact hpre x h
            · simp at h; omega) hpost st2 (by rw [hlen2]; exact hlen)
      rw [hlen2] at hih
      have e1 : (pre ++ [r.1]).length = pre.length + 1 := by simp
      rw [e1] at hih
      rw [hih]
      simp only [Prod.mk.injEq, true_and]
      refine ⟨by simp, ?_⟩
      rw [List.count_cons]
      split
      · simp_all; omega
      · have : ¬ (r.1 == 0) = true := by simpa using ‹¬ r.1 = 0›
        simp [this]

/-- The complement loop on lists of digits. -/
def complLoop : List Nat → (carry : Nat) → List Nat
  | [], _ => []
  | d :: t, c => (if 0 < d + c then 10 - (d + c) else d + c) :: complLoop t (if 0 < d + c then 1 else 0)

theorem packedComplLoop_eq (ds : List Nat) (hd : ∀ x ∈ ds, x ≤ 9) :
    ∀ (pre post : List Nat) (c : Nat), (∀ x ∈ pre, x < 16) → (∀ x ∈ post, x < 16) → c ≤ 1 →
      (pre ++ ds ++ post).length % 2 = 0 →
      packedComplLoop ds.length (fromRev (pre ++ ds ++ post)) (nibByte (pre ++ ds ++ post).length pre.length)
          (decide (pre.length % 2 = 1)) c = fromRev (pre ++ complLoop ds c ++ post) := by
  induction ds with
  | nil => intro pre post c _ _ _ _; simp [packedComplLoop, complLoop]
  | cons d t ih =>
    intro pre post c hpre hpost hc hlen
    have hd0 := hd d (by simp)
    have ht : ∀ x ∈ t, x ≤ 9 := fun x hx => hd x (by simp [hx])
    have hall : ∀ x ∈ pre ++ (d :: t) ++ post, x < 16 := by
      intro x hx
      simp only [List.mem_append] at hx
      rcases hx with (h | h) | h
      · exact hpre x h
      · have := hd x h; omega
      · exact hpost x h
    have hj : pre.length < (pre ++ (d :: t) ++ post).length := by simp
    rw [List.length_cons, packedComplLoop]
    rw [getNib_fromRev _ hlen hall _ hj, setNib_fromRev _ hlen hall _ _ hj]
    have hg : (pre ++ (d :: t) ++ post).getD pre.length 0 = d := by simp
    rw [hg]
    set r := (if 0 < d + c then 10 - (d + c) else d + c) with hr
    have hr10 : r < 16 := by rw [hr]; split <;> omega
    have hset : (pre ++ (d :: t) ++ post).set pre.length r = (pre ++ [r]) ++ t ++ post := by
      simp
    rw [hset]
    simp only [complLoop, ← hr]
    have hlen2 : ((pre ++ [r]) ++ t ++ post).length = (pre ++ (d :: t) ++ post).length := by
      simp
    cases t with
    | nil => simp [packedComplLoop, complLoop]
    | cons e t' =>
      have hadv := nib_advance (pre ++ (d :: e :: t') ++ post).length pre.length (by simp) hlen
      rw [hadv.1, hadv.2]
      have hih := ih ht (pre ++ [r]) post (if 0 < d + c then 1 else 0)
        (by intro x hx
            rcases List.mem_append.mp hx with h | h
            · exact hpre x h
            · simp at h; omega) hpost (by split <;> omega) (by rw [hlen2]; exact hlen)
      rw [hlen2] at hih
      have e1 : (pre ++ [r]).length = pre.length + 1 := by simp
      rw [e1] at hih
      rw [hih]
      simp

/-! ### what the digit loops compute -/

theorem digLoop_add (ds : List Nat) (hd : ∀ x ∈ ds, x ≤ 9) (v c : Nat) (hc : c ≤ 1) :
    (∀ x ∈ (digLoop false ds v c).1, x ≤ 9) ∧
      (lsbVal (digLoop false ds v c).1 : Int) = ((lsbVal ds : Int) + v + c) % 10 ^ ds.length := by
  induction ds generalizing v c with
  | nil => simp [digLoop, lsbVal, Int.emod_one]
  | cons d t ih =>
    have hd0 := hd d (by simp)
    have ht : ∀ x ∈ t, x ≤ 9 := fun x hx => hd x (by simp [hx])
    obtain ⟨st1, st2⟩ := packedStep_le false d v c hd0 hc
    obtain ⟨i1, i2⟩ := ih ht (v / 10) (packedStep false d v c).2 st2
    have := digitsFor_cons t.length _ _ (packedStep false d v c).1 st1
      ⟨_, rfl, digLoop_length _ _ _ _, i1, i2⟩
    obtain ⟨q, h1, h2, h3, h4⟩ := this
    have hq : q = (digLoop false (d :: t) v c).1 := by
      have hinj : Function.Injective (List.map (fun x : Nat => 48 + x)) :=
        List.map_injective_iff.mpr (fun a b h => by simpa using h)
      apply hinj
      rw [← h1]; simp [digLoop]
    rw [← hq]
    refine ⟨h3, ?_⟩
    rw [h4]
    congr 1
    simp only [lsbVal]
    have hs : 10 * (packedStep false d v c).2 + (packedStep false d v c).1 = d + c + v % 10 := by
      unfold packedStep
      simp only [Bool.false_eq_true, if_false]
      split <;> simp <;> omega
    push_cast
    omega

theorem digLoop_sub (ds : List Nat) (hd : ∀ x ∈ ds, x ≤ 9) (v c : Nat) (hc : c ≤ 1) :
    (∀ x ∈ (digLoop true ds v c).1, x ≤ 9) ∧
      (lsbVal (digLoop true ds v c).1 : Int) = ((lsbVal ds : Int) - v - c) % 10 ^ ds.length ∧
      (v < 10 ^ ds.length → (digLoop true ds v c).2 = if lsbVal ds < v + c then 1 else 0) := by
  induction ds generalizing v c with
  | nil =>
    simp [digLoop, lsbVal, Int.emod_one]
    intro h; subst h
    split <;> omega
  | cons d t ih =>
    have hd0 := hd d (by simp)
    have ht : ∀ x ∈ t, x ≤ 9 := fun x hx => hd x (by simp [hx])
    obtain ⟨st1, st2⟩ := packedStep_le true d v c hd0 hc
    obtain ⟨i1, i2, i3⟩ := ih ht (v / 10) (packedStep true d v c).2 st2
    have := digitsFor_cons t.length _ _ (packedStep true d v c).1 st1
      ⟨_, rfl, digLoop_length _ _ _ _, i1, i2⟩
    obtain ⟨q, h1, h2, h3, h4⟩ := this
    have hq : q = (digLoop true (d :: t) v c).1 := by
      have hinj : Function.Injective (List.map (fun x : Nat => 48 + x)) :=
        List.map_injective_iff.mpr (fun a b h => by simpa using h)
      apply hinj
      rw [← h1]; simp [digLoop]
    have hs : (packedStep true d v c).1 + c + v % 10 = d + 10 * (packedStep true d v c).2 := by
      unfold packedStep
      simp only [if_true]
      split <;> simp <;> omega
    rw [← hq]
    refine ⟨h3, ?_, ?_⟩
    · rw [h4]
      congr 1
      simp only [lsbVal]
      push_cast
      omega
    · intro hv
      simp only [digLoop, List.length_cons, pow_succ] at hv ⊢
      rw [i3 (by omega)]
      have hl : lsbVal (d :: t) = d + 10 * lsbVal t := rfl
      split <;> split <;> omega

theorem complLoop_spec (ds : List Nat) (hd : ∀ x ∈ ds, x ≤ 9) (c : Nat) (hc : c ≤ 1) :
    (complLoop ds c).length = ds.length ∧ (∀ x ∈ complLoop ds c, x ≤ 9) ∧
      (lsbVal (complLoop ds c) : Int) = (-(lsbVal ds : Int) - c) % 10 ^ ds.length := by
  induction ds generalizing c with
  | nil => simp [complLoop, lsbVal, Int.emod_one]
  | cons d t ih =>
    have hd0 := hd d (by simp)
    have ht : ∀ x ∈ t, x ≤ 9 := fun x hx => hd x (by simp [hx])
    have hc' : (if 0 < d + c then 1 else 0) ≤ 1 := by split <;> omega
    obtain ⟨i0, i1, i2⟩ := ih ht _ hc'
    have hr : (if 0 < d + c then 10 - (d + c) else d + c) ≤ 9 := by split <;> omega
    have := digitsFor_cons t.length _ _ _ hr ⟨_, rfl, i0, i1, i2⟩
    obtain ⟨q, h1, h2, h3, h4⟩ := this
    have hq : q = complLoop (d :: t) c := by
      have hinj : Function.Injective (List.map (fun x : Nat => 48 + x)) :=
        List.map_injective_iff.mpr (fun a b h => by simpa using h)
      apply hinj
      rw [← h1]; simp [complLoop]
    rw [← hq]
    refine ⟨h2, h3, ?_⟩
    rw [h4]
    congr 1
    simp only [lsbVal]
    split <;> push_cast <;> omega

theorem lsbVal_zero (ds : List Nat) (hd : ∀ x ∈ ds, x ≤ 9) :
    ds.length = ds.count 0 ↔ lsbVal ds = 0 := by
  induction ds with
  | nil => simp [lsbVal]
  | cons d t ih =>
    have := ih (fun x hx => hd x (by simp [hx]))
    have hle := List.count_le_length (a := 0) (l := t)
    simp only [List.length_cons, List.count_cons, lsbVal]
    by_cases h : d = 0
    · simp [h, this]
    · simp [h]; omega

/-! ### C11 -/

theorem fixedDigits_lsb (ds : List Nat) (hd : ∀ x ∈ ds, x ≤ 9) :
    fixedDigits ds.length (lsbVal ds) = ds.reverse := by
  induction ds with
  | nil => rfl
  | cons d t ih =>
    have hd0 := hd d (by simp)
    rw [List.length_cons, fixedDigits, lsbVal, List.reverse_cons]
    have e1 : (d + 10 * lsbVal t) / 10 = lsbVal t := by omega
    have e2 : (d + 10 * lsbVal t) % 10 = d := by omega
    rw [e1, e2, ih (fun x hx => hd x (by simp [hx]))]

/-- The padding nibble of items with an even number of digits. -/
def padNib (digits : Nat) : List Nat := if digits % 2 = 0 then [0] else []

theorem rev_image (D s : Nat) (ds : List Nat) (hl : ds.length = D) (hd : ∀ x ∈ ds, x ≤ 9) :
    fromRev ([s] ++ ds ++ padNib D) = packedImage D (lsbVal ds) s := by
  unfold packedImage
  have hf := fixedDigits_lsb ds hd
  rw [hl] at hf
  rw [hf]
  have he : ([s] ++ ds ++ padNib D).length % 2 = 0 := by
    unfold padNib
    split <;> simp [hl] <;> omega
  rw [← packNibbles_fromRev _ he]
  congr 1
  unfold padNib
  split <;> simp

theorem setSign_rev (D s k : Nat) (hs : s < 16) (ds : List Nat) (hl : ds.length = D) (h0 : 0 < D) :
    setSignNibble (fromRev ([s] ++ ds ++ padNib D)) k = fromRev ([k] ++ ds ++ padNib D) := by
  cases ds with
  | nil => simp at hl; omega
  | cons d t =>
    simp only [List.cons_append, List.nil_append, fromRev]
    unfold setSignNibble
    simp
    omega

/-- C11: let a packed item with a non-negative scale hold `u` units, and `T = u + n * 10^scale`.
If the integer itself, brought to the scale, and `T` both have no more digits than the item,
then the fast path leaves `T` in the item (its absolute value if the item is unsigned). -/
theorem C11_add_packed (ebc : Bool) (f : Field) (hf : WFPacked f) (u n : Int)
    (hu : HoldsUnits ebc ⟨.packed, f⟩ u)
    (hn : (n * 10 ^ f.attr.scale.toNat).natAbs < 10 ^ f.attr.digits)
    (hfit : (u + n * 10 ^ f.attr.scale.toNat).natAbs < 10 ^ f.attr.digits) :
    let T := u + n * 10 ^ f.attr.scale.toNat
    (cobAddPacked f n).attr = f.attr ∧
    HoldsUnits ebc ⟨.packed, cobAddPacked f n⟩
      (if f.attr.haveSign then T else (T.natAbs : Int)) := by
  intro T
  obtain ⟨neg, m, hm, hd, hu⟩ := hu
  simp only at hm hd hu
  obtain ⟨a, data⟩ := f
  simp only at hm hd hu hn hfit
  have hD : 0 < a.digits := hf.1
  set D := a.digits with hDdef
  set s := signNibble a neg with hs
  have hs16 : s < 16 := by rw [hs]; unfold signNibble; split <;> [skip; split] <;> omega
  -- digits, least significant first
  obtain ⟨ds, hdl, hd9, hdv, hdimg⟩ : ∃ ds : List Nat, ds.length = D ∧ (∀ x ∈ ds, x ≤ 9) ∧
      lsbVal ds = m ∧ data = fromRev ([s] ++ ds ++ padNib D) := by
    refine ⟨(fixedDigits D m).reverse, by simp [fixedDigits_length], ?_, ?_, ?_⟩
    · intro x hx; exact fixedDigits_le D m x (by simpa using hx)
    · rw [lsbVal_reverse, digitsVal_fixedDigits, Nat.mod_eq_of_lt hm]
    · rw [rev_image D s _ (by simp [fixedDigits_length])
        (fun x hx => fixedDigits_le D m x (by simpa using hx)), lsbVal_reverse,
        digitsVal_fixedDigits, Nat.mod_eq_of_lt hm]
      exact hd
  have hlen2 : ([s] ++ ds ++ padNib D).length % 2 = 0 := by
    unfold padNib
    split <;> simp [hdl] <;> omega
  have hpad16 : ∀ x ∈ padNib D, x < 16 := by
    unfold padNib; split <;> simp
  have hs16' : ∀ x ∈ [s], x < 16 := by simpa using hs16
  have hstart : packedStart ⟨a, data⟩ = nibByte ([s] ++ ds ++ padNib D).length [s].length := by
    unfold packedStart nibByte padNib
    simp only [← hDdef]
    split <;> simp [hdl] <;> omega
  have hsign : packedGetSign ⟨a, data⟩ = if a.haveSign then (if neg then -1 else 1) else 0 := by
    unfold packedGetSign
    simp only
    rw [hdimg]
    cases hdsc : ds with
    | nil => rw [hdsc] at hdl; simp at hdl; omega
    | cons d t =>
      simp only [List.cons_append, List.nil_append, fromRev]
      simp only [List.length_append, List.length_singleton, Nat.add_sub_cancel]
      have : (fromRev (t ++ padNib D) ++ [16 * d + s]).getD (fromRev (t ++ padNib D)).length 0 = 16 * d + s := by simp
      rw [this]
      have : (16 * d + s) % 16 = s := by omega
      rw [this, hs]
      unfold signNibble
      cases a.haveSign <;> cases neg <;> simp
  set N := n * 10 ^ a.scale.toNat with hN
  set w : Int := (if packedGetSign ⟨a, data⟩ < 0 then -1 else 1) * N with hw
  have hwabs : w.natAbs < 10 ^ D := by
    have : w.natAbs = N.natAbs := by
      rw [hw]; split <;> simp
    rw [this]; exact hn
  have hTm : T = if a.haveSign && neg then -((m : Int) + w) else (m : Int) + w := by
    show u + N = _
    rw [hu, hw, hsign]
    cases a.haveSign <;> cases neg <;> simp
    ring
  have hTabs : ((m : Int) + w).natAbs < 10 ^ D := by
    have : ((m : Int) + w).natAbs = T.natAbs := by
      rw [hTm]; split <;> [rw [Int.natAbs_neg]; rfl]
    rw [this]; exact hfit
  have hcode : cobAddPacked ⟨a, data⟩ n =
      (let r := digLoop (decide (w < 0)) ds w.natAbs 0
       let compl := fromRev ([s] ++ complLoop r.1 0 ++ padNib D)
       let plain := fromRev ([s] ++ r.1 ++ padNib D)
       if packedGetSign ⟨a, data⟩ ≠ 0 then
        if D = r.1.count 0 then ⟨a, setSignNibble plain 12⟩
        else if w < 0 ∧ r.2 ≠ 0 then
          ⟨a, setSignNibble compl (if -packedGetSign ⟨a, data⟩ < 0 then 13 else 12)⟩
        else ⟨a, plain⟩
      else if w < 0 ∧ r.2 ≠ 0 then ⟨a, compl⟩
      else ⟨a, plain⟩) := by
    have hl := packedAddLoop_eq (decide (w < 0)) ds hd9 [s] (padNib D) w.natAbs 0 0 hs16' hpad16
      (by omega) hlen2
    have hr9 : ∀ x ∈ (digLoop (decide (w < 0)) ds w.natAbs 0).1, x ≤ 9 := by
      cases decide (w < 0)
      · exact (digLoop_add ds hd9 _ 0 (by omega)).1
      · exact (digLoop_sub ds hd9 _ 0 (by omega)).1
    have hrl := digLoop_length (decide (w < 0)) ds w.natAbs 0
    have hlen3 : ([s] ++ (digLoop (decide (w < 0)) ds w.natAbs 0).1 ++ padNib D).length =
        ([s] ++ ds ++ padNib D).length := by simp [hrl]
    have hc := packedComplLoop_eq (digLoop (decide (w < 0)) ds w.natAbs 0).1 hr9 [s] (padNib D) 0 hs16' hpad16
      (by omega) (by rw [hlen3]; exact hlen2)
    rw [hlen3, ← hstart, hrl, hdl] at hc
    rw [← hstart, ← hdimg, hdl] at hl
    have hb1 : (decide ([s].length % 2 = 1)) = true := by simp
    rw [hb1] at hl hc
    unfold cobAddPacked
    simp only [← hDdef, if_neg (show ¬ D = 0 by omega), ← hN, ← hw]
    rw [hl]
    simp only [hc, Nat.zero_add, decide_eq_true_eq]
  rw [hcode]
  have fin : ∀ (ds' : List Nat) (ng : Bool) (k : Nat), ds'.length = D → (∀ x ∈ ds', x ≤ 9) →
      k = signNibble a ng →
      (if a.haveSign && ng then -(lsbVal ds' : Int) else (lsbVal ds' : Int)) =
        (if a.haveSign then T else (T.natAbs : Int)) →
      (Field.attr ⟨a, fromRev ([k] ++ ds' ++ padNib D)⟩ = a ∧
      HoldsUnits ebc ⟨.packed, ⟨a, fromRev ([k] ++ ds' ++ padNib D)⟩⟩
        (if a.haveSign then T else (T.natAbs : Int))) := by
    intro ds' ng k h1 h2 hk h3
    refine ⟨rfl, ng, lsbVal ds', ?_, ?_, h3.symm⟩
    · have := lsbVal_lt ds' h2
      rw [h1] at this
      exact this
    · simp only
      rw [rev_image D k ds' h1 h2, hk]
  simp only
  set r := digLoop (decide (w < 0)) ds w.natAbs 0 with hr
  have hrl : r.1.length = D := by rw [hr, digLoop_length, hdl]
  have hTabs' : ((m : Int) + w) < 10 ^ D ∧ -(10 ^ D : Int) < (m : Int) + w := by
    have : (((m : Int) + w).natAbs : Int) < 10 ^ D := by exact_mod_cast hTabs
    omega
  have hM : (0 : Int) < 10 ^ D := by positivity
  by_cases hwn : w < 0
  · -- subtraction
    have hb : decide (w < 0) = true := by simpa using hwn
    rw [hb] at hr
    obtain ⟨e1, e2, e3⟩ := digLoop_sub ds hd9 w.natAbs 0 (by omega)
    rw [← hr] at e1 e2 e3
    rw [hdl] at e2 e3
    have e3' := e3 hwabs
    rw [hdv] at e2 e3'
    have hwa : (w.natAbs : Int) = -w := by omega
    rw [hwa] at e2
    by_cases hbor : m < w.natAbs + 0
    · -- borrow: the magnitude is -(m + w)
      rw [if_pos hbor] at e3'
      have e2' : (lsbVal r.1 : Int) = (m : Int) + w + 10 ^ D := by
        rw [e2]
        have : (m : Int) - -w - ((0 : Nat) : Int) = ((m : Int) + w + 10 ^ D) + 10 ^ D * (-1) := by push_cast; ring
        rw [this, Int.add_mul_emod_self_left]
        exact Int.emod_eq_of_lt (by omega) (by omega)
      have hnz : ¬ D = r.1.count 0 := by
        rw [← hrl, lsbVal_zero _ e1]
        omega
      obtain ⟨c1, c2, c3⟩ := complLoop_spec r.1 e1 0 (by omega)
      rw [hrl] at c1 c3
      have c3' : (lsbVal (complLoop r.1 0) : Int) = -((m : Int) + w) := by
        rw [c3, e2']
        have : -((m : Int) + w + 10 ^ D) - ((0 : Nat) : Int) = -((m : Int) + w) + 10 ^ D * (-1) := by push_cast; ring
        rw [this, Int.add_mul_emod_self_left]
        exact Int.emod_eq_of_lt (by omega) (by omega)
      have hcond : w < 0 ∧ r.2 ≠ 0 := ⟨hwn, by rw [e3']; omega⟩
      by_cases hhs : a.haveSign = true
      · have hsg : packedGetSign ⟨a, data⟩ ≠ 0 := by rw [hsign, if_pos hhs]; split <;> omega
        rw [if_pos hsg, if_neg hnz, if_pos hcond, setSign_rev D s _ hs16 _ c1 hD]
        apply fin (complLoop r.1 0) (!neg) _ c1 c2
        · rw [hsign, if_pos hhs]; unfold signNibble; rw [hhs]; cases neg <;> simp
        · rw [hTm, c3', hhs]; cases neg <;> simp
      · have hhf : a.haveSign = false := by simpa using hhs
        have hsg : ¬ packedGetSign ⟨a, data⟩ ≠ 0 := by rw [hsign]; simp [hhf]
        rw [if_neg hsg, if_pos hcond]
        apply fin (complLoop r.1 0) neg s c1 c2 rfl
        rw [c3', hTm, hhf]
        simp only [Bool.false_and, Bool.false_eq_true, if_false]
        omega
    · rw [if_neg hbor] at e3'
      have e2' : (lsbVal r.1 : Int) = (m : Int) + w := by
        rw [e2]
        have : (m : Int) - -w - ((0 : Nat) : Int) = ((m : Int) + w) := by push_cast; ring
        rw [this]
        exact Int.emod_eq_of_lt (by omega) (by omega)
      have hcond : ¬ (w < 0 ∧ r.2 ≠ 0) := by rw [e3']; simp
      by_cases hhs : a.haveSign = true
      · have hsg : packedGetSign ⟨a, data⟩ ≠ 0 := by rw [hsign, if_pos hhs]; split <;> omega
        rw [if_pos hsg, if_neg hcond]
        by_cases hz : D = r.1.count 0
        · rw [if_pos hz, setSign_rev D s _ hs16 _ hrl hD]
          have hz' : lsbVal r.1 = 0 := (lsbVal_zero _ e1).mp (by rw [hrl]; exact hz)
          apply fin r.1 false 12 hrl e1
          · unfold signNibble; rw [hhs]; simp
          · have : (m : Int) + w = 0 := by omega
            rw [hTm, this, hz']; simp
        · rw [if_neg hz]
          apply fin r.1 neg s hrl e1 rfl
          rw [hTm, e2', hhs]; simp
      · have hhf : a.haveSign = false := by simpa using hhs
        have hsg : ¬ packedGetSign ⟨a, data⟩ ≠ 0 := by rw [hsign]; simp [hhf]
        rw [if_neg hsg, if_neg hcond]
        apply fin r.1 neg s hrl e1 rfl
        rw [e2', hTm, hhf]
        simp only [Bool.false_and, Bool.false_eq_true, if_false]
        omega
  · -- addition
    have hb : decide (w < 0) = false := by simpa using hwn
    rw [hb] at hr
    obtain ⟨e1, e2⟩ := digLoop_add ds hd9 w.natAbs 0 (by omega)
    rw [← hr] at e1 e2
    rw [hdl, hdv] at e2
    have hwa : (w.natAbs : Int) = w := by omega
    rw [hwa] at e2
    have e2' : (lsbVal r.1 : Int) = (m : Int) + w := by
      rw [e2]
      have : (m : Int) + w + ((0 : Nat) : Int) = ((m : Int) + w) := by push_cast; ring
      rw [this]
      exact Int.emod_eq_of_lt (by omega) (by omega)
    have hcond : ¬ (w < 0 ∧ r.2 ≠ 0) := fun h => hwn h.1
    by_cases hhs : a.haveSign = true
    · have hsg : packedGetSign ⟨a, data⟩ ≠ 0 := by rw [hsign, if_pos hhs]; split <;> omega
      rw [if_pos hsg, if_neg hcond]
      by_cases hz : D = r.1.count 0
      · rw [if_pos hz, setSign_rev D s _ hs16 _ hrl hD]
        have hz' : lsbVal r.1 = 0 := (lsbVal_zero _ e1).mp (by rw [hrl]; exact hz)
        apply fin r.1 false 12 hrl e1
        · unfold signNibble; rw [hhs]; simp
        · have : (m : Int) + w = 0 := by omega
          rw [hTm, this, hz']; simp
      · rw [if_neg hz]
        apply fin r.1 neg s hrl e1 rfl
        rw [hTm, e2', hhs]; simp
    · have hhf : a.haveSign = false := by simpa using hhs
      have hsg : ¬ packedGetSign ⟨a, data⟩ ≠ 0 := by rw [hsign]; simp [hhf]
      rw [if_neg hsg, if_neg hcond]
      apply fin r.1 neg s hrl e1 rfl
      rw [e2', hTm, hhf]
      simp only [Bool.false_and, Bool.false_eq_true, if_false]
      omega

/-- Finding (C11): an integer with more digits than the item is mishandled even when the sum
fits: S9 COMP-3 holding 5, ADD -12, gives +3 instead of -7. -/
theorem C11_wide_operand_wrong :
    cobAddPacked ⟨{ digits := 1, haveSign := true }, [0x5C]⟩ (-12) =
      ⟨{ digits := 1, haveSign := true }, [0x3C]⟩ := by decide

/-- Finding (C11): overflow is silent: 9 COMP-3 holding 9, ADD 3, gives 2 and nothing is
reported (`cob_add_int` returns 0 for packed items, numeric.c:1306-1308). -/
theorem C11_overflow_silent :
    cobAddPacked ⟨{ digits := 1 }, [0x9F]⟩ 3 = ⟨{ digits := 1 }, [0x2F]⟩ := by decide

/-- Finding (C11): a negative scale is ignored: PIC 9P COMP-3 holding 50 (digit 5, scale -1),
ADD 1, gives 60. -/
theorem C11_negative_scale_wrong :
    cobAddPacked ⟨{ digits := 1, scale := -1 }, [0x5F]⟩ 1 = ⟨{ digits := 1, scale := -1 }, [0x6F]⟩ ∧
    decSetPacked ⟨{ digits := 1, scale := -1 }, [0x6F]⟩ = ⟨6, -1⟩ := by decide

/-- Non-vacuity: S9(4) COMP-3 holding -12, ADD 345 gives +333. -/
example :
    let f : Field := ⟨{ digits := 4, haveSign := true }, [0x00, 0x01, 0x2D]⟩
    WFPacked f ∧ HoldsUnits false ⟨.packed, f⟩ (-12) ∧ (345 * 10 ^ (0 : Nat) : Int).natAbs < 10 ^ 4 ∧
      cobAddPacked f 345 = ⟨f.attr, [0x00, 0x33, 0x3C]⟩ := by
  refine ⟨⟨by decide, by decide⟩, ⟨true, 12, by decide, by decide, by decide⟩, by decide, by decide⟩

end Cob
