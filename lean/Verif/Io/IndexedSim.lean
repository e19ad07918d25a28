import Verif.Io.IndexedLib2
/- The model follows the specification of INDEXED files, statement by statement. -/
namespace Cob

/-- The trees hold the records. -/
structure IxTrees (cfg : IxCfg) (db0 : List (List Nat × List Nat)) (alts : Nat → List IxEnt)
    (recs : List Nat → Option (List Nat)) (num : Nat → List Nat → Nat) : Prop where
  sorted0 : db0.Pairwise fun a b => a.1 < b.1
  mem0 : ∀ k r, (k, r) ∈ db0 ↔ recs k = some r
  wf : ∀ k r, recs k = some r → cfg.keyOf 0 r = k ∧ cfg.recMin ≤ r.length ∧ r.length ≤ cfg.recMax
  sorted : ∀ i, 0 < i → i < cfg.keys.length → (alts i).Pairwise EntLt
  mem : ∀ i, 0 < i → i < cfg.keys.length → ∀ e, e ∈ alts i ↔
    ∃ r, recs e.pk = some r ∧ cfg.keyOf i r = e.key ∧ num i e.pk = e.dup
  num0 : ∀ i pk, ¬ (0 < i ∧ (cfg.key i).dups = true) → (recs pk).isSome → num i pk = 0

/-- The saved keys stand for the position. -/
def IxAt (cfg : IxCfg) (f : IxFile) (i : Nat) (k : List Nat) (n : Nat) : Prop :=
  f.keyIndex = i ∧ i < cfg.keys.length ∧ f.lastRead i = k ∧ (¬ (0 < i ∧ (cfg.key i).dups = true) → n = 0) ∧
    (0 < i ∧ (cfg.key i).dups = true → n = f.lastDup i)

/-- The position. -/
def IxPosRel (cfg : IxCfg) (f : IxFile) : IxPos → Prop
  | .undef => True
  | .found o i k n pk => IxAt cfg f i k n ∧ (i = 0 → pk = k) ∧ (0 < i → f.lastPrim i = pk) ∧ f.firstRead = if o then 2 else 1
  | .read i k n => IxAt cfg f i k n ∧ f.firstRead = 0

/-- The registers. -/
structure IxRegs (cfg : IxCfg) (f : IxFile) (A : IxAbs) : Prop where
  null : f.dataNull = true → f.db0 = []
  size : f.size = A.size
  eof : f.eof = A.eof
  bof : f.bof = A.bof
  lastKey : f.lastKey = A.lastW
  cur : match A.cur with
    | none => f.readDone = false
    | some pk => f.readDone = true ∧ f.curKey = pk ∧ (A.recs pk).isSome
  pos : IxPosRel cfg f A.pos

/-- The file and what the program knows of it. -/
def IxRel (cfg : IxCfg) (f : IxFile) (A : IxAbs) : Prop := IxTrees cfg f.db0 f.alts A.recs A.num ∧ IxRegs cfg f A

section
variable {cfg : IxCfg} {db0 : List (List Nat × List Nat)} {alts : Nat → List IxEnt}
  {recs : List Nat → Option (List Nat)} {num : Nat → List Nat → Nat}

theorem getRec_eq (h : IxTrees cfg db0 alts recs num) (k : List Nat) : getRec db0 k = recs k := by
  unfold getRec
  cases hf : db0.find? fun p => p.1 == k with
  | none =>
    rw [List.find?_eq_none] at hf
    cases hr : recs k with
    | none => rfl
    | some r =>
      have := hf _ ((h.mem0 k r).mpr hr)
      simp at this
  | some p =>
    have h1 := List.mem_of_find?_eq_some hf
    have h2 := List.find?_some hf
    simp only [beq_iff_eq] at h2
    subst h2
    exact ((h.mem0 p.1 p.2).mp h1).symm

theorem tree_nil (h : IxTrees cfg db0 alts recs num) (h0 : db0 = []) (k : List Nat) : recs k = none := by
  rw [← getRec_eq h k, h0]
  rfl

end

variable {cfg : IxCfg} {f : IxFile} {A : IxAbs}

theorem index_mem (h : IxTrees cfg f.db0 f.alts A.recs A.num) (i : Nat) (hi : i < cfg.keys.length) (e : IxEnt) :
    e ∈ f.index i ↔ A.Has cfg i e.key e.dup e.pk := by
  unfold IxFile.index IxAbs.Has
  by_cases h0 : i = 0
  · rw [if_pos h0]
    subst h0
    simp only [List.mem_map]
    constructor
    · rintro ⟨⟨k, r⟩, hm, rfl⟩
      have := (h.mem0 k r).mp hm
      exact ⟨r, this, (h.wf k r this).1, h.num0 0 k (by simp) (by simp [this])⟩
    · rintro ⟨r, h1, h2, h3⟩
      refine ⟨(e.pk, r), (h.mem0 _ _).mpr h1, ?_⟩
      have h4 := (h.wf _ _ h1).1
      have h5 := h.num0 0 e.pk (by simp) (by simp [h1])
      obtain ⟨k, p, d⟩ := e
      simp only at *
      rw [h4] at h2
      rw [h5] at h3
      rw [h2, h3]
  · rw [if_neg h0]
    exact h.mem i (by omega) hi e

theorem index_sorted (h : IxTrees cfg f.db0 f.alts A.recs A.num) (i : Nat) (hi : i < cfg.keys.length) :
    (f.index i).Pairwise EntLt := by
  unfold IxFile.index
  by_cases h0 : i = 0
  · rw [if_pos h0, List.pairwise_map]
    exact h.sorted0.imp fun h => Or.inl h
  · rw [if_neg h0]
    exact h.sorted i (by omega) hi

theorem has_dup_zero (h : IxTrees cfg f.db0 f.alts A.recs A.num) (i : Nat) (hn : ¬ (0 < i ∧ (cfg.key i).dups = true))
    (k : List Nat) (n : Nat) (pk : List Nat) (hh : A.Has cfg i k n pk) : n = 0 := by
  obtain ⟨r, h1, -, h3⟩ := hh
  rw [← h3]
  exact h.num0 i pk hn (by simp [h1])

theorem keyOf_length (hc : cfg.Ok) (i : Nat) (hi : i < cfg.keys.length) (r : List Nat) (hr : cfg.recMin ≤ r.length) :
    (cfg.keyOf i r).length = (cfg.key i).len := by
  have := hc.inside i hi
  simp only [IxCfg.keyOf, List.length_take, List.length_drop]
  omega

theorem keyOf_take (hc : cfg.Ok) (i : Nat) (hi : i < cfg.keys.length) (r : List Nat) (n : Nat) (hn : cfg.recMin ≤ n) :
    cfg.keyOf i (r.take n) = cfg.keyOf i r := by
  have := hc.inside i hi
  unfold IxCfg.keyOf
  rw [List.drop_take, List.take_take, Nat.min_eq_left (by omega)]

theorem has_key_length (hc : cfg.Ok) (h : IxTrees cfg f.db0 f.alts A.recs A.num) (i : Nat) (hi : i < cfg.keys.length)
    (k : List Nat) (n : Nat) (pk : List Nat) (hh : A.Has cfg i k n pk) : k.length = (cfg.key i).len := by
  obtain ⟨r, h1, h2, -⟩ := hh
  rw [← h2]
  exact keyOf_length hc i hi r (h.wf _ _ h1).2.1

/-- From the list to the records. -/
theorem eFirst_first (h : IxTrees cfg f.db0 f.alts A.recs A.num) (i : Nat) (hi : i < cfg.keys.length)
    (P : List Nat → Nat → Prop) (o : Option IxEnt) (ho : EFirst (f.index i) (fun e => P e.key e.dup) o) :
    A.First cfg i P (o.map fun e => (e.key, e.dup, e.pk)) := by
  cases o with
  | none =>
    intro k n pk hh
    exact ho ⟨k, pk, n⟩ ((index_mem h i hi _).mpr hh)
  | some e =>
    refine ⟨(index_mem h i hi e).mp ho.1, ho.2.1, fun k' n' pk' hh hp => ?_⟩
    exact ho.2.2 ⟨k', pk', n'⟩ ((index_mem h i hi _).mpr hh) hp

theorem eLast_last (h : IxTrees cfg f.db0 f.alts A.recs A.num) (i : Nat) (hi : i < cfg.keys.length)
    (P : List Nat → Nat → Prop) (o : Option IxEnt) (ho : ELast (f.index i) (fun e => P e.key e.dup) o) :
    A.Last cfg i P (o.map fun e => (e.key, e.dup, e.pk)) := by
  cases o with
  | none =>
    intro k n pk hh
    exact ho ⟨k, pk, n⟩ ((index_mem h i hi _).mpr hh)
  | some e =>
    refine ⟨(index_mem h i hi e).mp ho.1, ho.2.1, fun k' n' pk' hh hp => ?_⟩
    exact ho.2.2 ⟨k', pk', n'⟩ ((index_mem h i hi _).mpr hh) hp

theorem findKey_eq (hc : cfg.Ok) (i : Nat) (hi : i < cfg.keys.length) : ixFindKey cfg (cfg.key i).off = i := by
  unfold ixFindKey
  rw [List.findIdx_eq hi]
  have hkey : ∀ j (hj : j < cfg.keys.length), cfg.keys[j] = cfg.key j := by
    intro j hj
    unfold IxCfg.key
    rw [List.getD_eq_getElem?_getD, List.getElem?_eq_getElem hj]
    rfl
  refine ⟨by rw [hkey i hi]; simp, fun j hj => ?_⟩
  rw [hkey j (by omega)]
  rw [beq_eq_false_iff_ne]
  intro h
  have := hc.places j i (by omega) hi h
  omega

/-! ### START and READ -/

theorem start_sim (hc : cfg.Ok) (h : IxTrees cfg f.db0 f.alts A.recs A.num) (cond : StartCond) (i : Nat) (hi : i < cfg.keys.length)
    (arg : List Nat) (hlen : arg.length ≤ (cfg.key i).len) (hle : cond = .le → arg.length = (cfg.key i).len) :
    (A.Finds cfg i cond arg none ∧ ixStartInt cfg f cond (cfg.key i).off arg = (23, { f with keyIndex := i }, [])) ∨
    ∃ k n pk r, A.Finds cfg i cond arg (some (k, n, pk)) ∧ A.recs pk = some r ∧
      ixStartInt cfg f cond (cfg.key i).off arg = (0, ixArrive cfg { f with keyIndex := i } i ⟨k, pk, n⟩, r) := by
  have hL := index_sorted h i hi
  have hkl : ∀ e ∈ f.index i, e.key.length = (cfg.key i).len := fun e he =>
    has_key_length hc h i hi _ _ _ ((index_mem h i hi e).mp he)
  have hs := search_finds (cfg.key i).dups (f.index i) cond arg hL
    (fun e he => by rw [hkl e he]; exact hlen)
    (fun hd e he => has_dup_zero h i (by simp [hd]) _ _ _ ((index_mem h i hi e).mp he))
    (fun hce e he => by rw [hkl e he, hle hce])
  have hfinds : A.Finds cfg i cond arg
      (((ixSearch (cfg.key i).dups (f.index i) cond arg).bind fun j => (f.index i)[j]?).map fun e => (e.key, e.dup, e.pk)) := by
    cases cond
    · exact eFirst_first h i hi (fun k _ => k.take arg.length = arg) _ hs
    · exact eLast_last h i hi (fun k _ => k.take arg.length < arg) _ hs
    · exact eLast_last h i hi (fun k _ => ¬ arg < k.take arg.length) _ hs
    · exact eFirst_first h i hi (fun k _ => arg < k.take arg.length) _ hs
    · exact eFirst_first h i hi (fun k _ => ¬ k.take arg.length < arg) _ hs
  have hidx : IxFile.index { f with keyIndex := i } i = f.index i := rfl
  unfold ixStartInt
  simp only [findKey_eq hc i hi, hidx]
  cases hsr : ixSearch (cfg.key i).dups (f.index i) cond arg with
  | none =>
    rw [hsr] at hfinds
    exact Or.inl ⟨hfinds, rfl⟩
  | some j =>
    rw [hsr] at hfinds
    simp only [Option.bind_some] at hfinds
    simp only
    cases hg : (f.index i)[j]? with
    | none =>
      rw [hg] at hfinds
      exact Or.inl ⟨hfinds, rfl⟩
    | some e =>
      rw [hg] at hfinds
      obtain ⟨r, h1, -, -⟩ := (index_mem h i hi e).mp (List.mem_of_getElem? hg)
      simp only [getRec_eq h, h1]
      exact Or.inr ⟨e.key, e.dup, e.pk, r, hfinds, h1, rfl⟩

/-! ### READ NEXT and PREVIOUS -/

theorem ixSame_eq (h : IxTrees cfg f.db0 f.alts A.recs A.num) (i : Nat) (k : List Nat) (n : Nat) (pk : List Nat)
    (hat : IxAt cfg f i k n) (h0 : i = 0 → pk = k) (h1 : 0 < i → f.lastPrim i = pk) :
    (A.Has cfg i k n pk → ixSame cfg f = some ⟨k, pk, n⟩) ∧ (¬ A.Has cfg i k n pk → ixSame cfg f = none) := by
  obtain ⟨rfl, hi, rfl, hn0, hn1⟩ := hat
  have hL := index_sorted h _ hi
  have hm := index_mem h _ hi
  have hz : ¬ (0 < f.keyIndex ∧ (cfg.key f.keyIndex).dups = true) → ∀ e ∈ f.index f.keyIndex, e.dup = 0 := fun hd e he =>
    has_dup_zero h _ hd _ _ _ ((hm e).mp he)
  -- the entry at the cut
  have hent : ∀ e, (f.index f.keyIndex)[cut (pLt (f.lastRead f.keyIndex) n) (f.index f.keyIndex)]? = some e →
      e.key = f.lastRead f.keyIndex → e.dup = n → A.Has cfg f.keyIndex (f.lastRead f.keyIndex) n pk → e = ⟨f.lastRead f.keyIndex, pk, n⟩ := by
    intro e he hk hd hh
    have hme := List.mem_of_getElem? he
    have hmx := (hm ⟨f.lastRead f.keyIndex, pk, n⟩).mpr hh
    by_contra hne
    obtain ⟨a, ha⟩ := List.mem_iff_getElem?.mp hme
    obtain ⟨b, hb⟩ := List.mem_iff_getElem?.mp hmx
    have hab : a ≠ b := by
      rintro rfl
      rw [ha] at hb
      exact hne (Option.some.inj hb)
    obtain ⟨a1, a2⟩ := List.getElem?_eq_some_iff.mp ha
    obtain ⟨b1, b2⟩ := List.getElem?_eq_some_iff.mp hb
    rcases Nat.lt_or_gt_of_ne hab with hlt | hlt
    · have := List.pairwise_iff_getElem.mp hL a b a1 b1 hlt
      rw [a2, b2] at this
      unfold EntLt at this
      rw [hk, hd] at this
      exact IxBefore.irrefl _ _ this
    · have := List.pairwise_iff_getElem.mp hL b a b1 a1 hlt
      rw [a2, b2] at this
      unfold EntLt at this
      rw [hk, hd] at this
      exact IxBefore.irrefl _ _ this
  -- if the record is there, the entry is at the cut
  have hthere : A.Has cfg f.keyIndex (f.lastRead f.keyIndex) n pk →
      (f.index f.keyIndex)[cut (pLt (f.lastRead f.keyIndex) n) (f.index f.keyIndex)]? = some ⟨f.lastRead f.keyIndex, pk, n⟩ := by
    intro hh
    have hmx := (hm ⟨f.lastRead f.keyIndex, pk, n⟩).mpr hh
    have hF := eFirst_cut hL (down_pLt (f.lastRead f.keyIndex) n)
      (P := fun e => ¬ IxBefore e.key e.dup (f.lastRead f.keyIndex) n) (by intro e _; simp [pLt])
    cases hcut : (f.index f.keyIndex)[cut (pLt (f.lastRead f.keyIndex) n) (f.index f.keyIndex)]? with
    | none =>
      rw [hcut] at hF
      exact absurd (hF _ hmx) (by simpa using IxBefore.irrefl _ _)
    | some e =>
      rw [hcut] at hF
      have h2 := hF.2.2 _ hmx (by simpa using IxBefore.irrefl _ _)
      have h3 := hF.2.1
      rcases ixBefore_total e.key e.dup (f.lastRead f.keyIndex) n with h4 | h4 | h4
      · exact absurd h4 h3
      · rw [hent e hcut h4.1 h4.2 hh]
      · exact absurd h4 h2
  have hmono := cut_mono (kLt (f.lastRead f.keyIndex)) (pLt (f.lastRead f.keyIndex) n) (f.index f.keyIndex) hL (down_kLt _) (down_pLt _ n) (by
    intro e _ h
    simp only [kLt, pLt, decide_eq_true_eq] at *
    exact Or.inl h)
  unfold ixSame
  simp only
  rw [seekKey_cut _ _ hL]
  by_cases hdd : 0 < f.keyIndex ∧ (cfg.key f.keyIndex).dups = true
  · -- duplicates
    have hne : f.keyIndex ≠ 0 := by omega
    simp only [hne, if_false, hdd.2, if_true, ← hn1 hdd, h1 hdd.1]
    constructor
    · intro hh
      have ht := hthere hh
      have hlt : cut (kLt (f.lastRead f.keyIndex)) (f.index f.keyIndex) < (f.index f.keyIndex).length :=
        lt_of_le_of_lt hmono (List.getElem?_eq_some_iff.mp ht).1
      have he := List.getElem?_eq_getElem hlt
      have hkey : (f.index f.keyIndex)[cut (kLt (f.lastRead f.keyIndex)) (f.index f.keyIndex)].key = f.lastRead f.keyIndex := by
        have h5 := (cut_spec _ (down_kLt (f.lastRead f.keyIndex)) _ hL _ _ he).not.mpr (by omega)
        rcases (kLt_false _ _).mp (by simpa using h5) with h6 | h6
        · exact h6
        · exfalso
          have hF := eFirst_cut hL (down_kLt (f.lastRead f.keyIndex))
            (P := fun e => ¬ e.key < f.lastRead f.keyIndex) (by intro e _; simp [kLt])
          rw [he] at hF
          exact hF.2.2 _ ((hm ⟨f.lastRead f.keyIndex, pk, n⟩).mpr hh) (lt_irrefl _) (Or.inl h6)
      rw [he]
      simp only [Option.bind_some, hkey, if_true]
      rw [skip_dups _ _ _ hL, if_pos (List.getElem?_eq_some_iff.mp ht).1]
      simp only [Option.bind_some, ht]
      simp [Option.filter]
    · intro hh
      cases hg : (f.index f.keyIndex)[cut (kLt (f.lastRead f.keyIndex)) (f.index f.keyIndex)]? with
      | none => rfl
      | some e =>
        simp only [Option.bind_some]
        by_cases hk : e.key = f.lastRead f.keyIndex
        · simp only [hk, if_true, Option.bind_some]
          rw [skip_dups _ _ _ hL]
          split
          · simp only [Option.bind_some]
            cases hg2 : (f.index f.keyIndex)[cut (pLt (f.lastRead f.keyIndex) n) (f.index f.keyIndex)]? with
            | none => rfl
            | some e2 =>
              have h7 := (hm e2).mp (List.mem_of_getElem? hg2)
              rw [Option.filter_some, if_neg]
              intro h8
              simp only [Bool.and_eq_true, beq_iff_eq] at h8
              rw [h8.1.1, h8.1.2, h8.2] at h7
              exact hh h7
          · rfl
        · simp only [hk, if_false, Option.bind_none]
  · -- unique keys
    have hn : n = 0 := hn0 hdd
    subst hn
    rw [pLt_zero] at hthere hent
    constructor
    · intro hh
      have ht := hthere hh
      simp only [ht, Option.bind_some, if_true]
      by_cases hz0 : f.keyIndex = 0
      · rw [if_pos hz0]
      · rw [if_neg hz0, if_neg (by intro h; exact hdd ⟨by omega, h⟩)]
        simp [h1 (by omega)]
    · intro hh
      cases hg : (f.index f.keyIndex)[cut (kLt (f.lastRead f.keyIndex)) (f.index f.keyIndex)]? with
      | none => rfl
      | some e =>
        simp only [Option.bind_some]
        have h7 := (hm e).mp (List.mem_of_getElem? hg)
        have h8 := hz hdd e (List.mem_of_getElem? hg)
        by_cases hk : e.key = f.lastRead f.keyIndex
        · rw [hk, h8] at h7
          simp only [hk, if_true, Option.bind_some]
          by_cases hz0 : f.keyIndex = 0
          · exfalso
            obtain ⟨r, r1, r2, r3⟩ := h7
            have := (h.wf _ _ r1).1
            rw [hz0] at r2 h0
            rw [r2] at this
            apply hh
            refine ⟨r, ?_, by rw [hz0]; exact r2, ?_⟩
            · rw [h0 rfl, this]; exact r1
            · rw [h0 rfl, this]; exact r3
          · rw [if_neg hz0, if_neg (by intro h; exact hdd ⟨by omega, h⟩), hg, Option.filter_some, if_neg]
            intro h9
            simp only [beq_iff_eq] at h9
            rw [h9, h1 (by omega)] at h7
            exact hh h7
        · simp only [hk, if_false, Option.bind_none]

theorem cut_all (L : List IxEnt) : cut (fun _ => true) L = L.length := by
  induction L with
  | nil => rfl
  | cons x L ih => rw [cut_cons, if_pos rfl, ih, List.length_cons]

theorem cut_none (L : List IxEnt) : cut (fun _ => false) L = 0 := by
  cases L with
  | nil => rfl
  | cons x L => rw [cut_cons]; rfl

/-- Where READ NEXT or PREVIOUS goes. -/
theorem beyond_sim (h : IxTrees cfg f.db0 f.alts A.recs A.num) (hr : IxRegs cfg f A) (prev : Bool) (i : Nat) (k : List Nat) (n : Nat)
    (hat : IxAt cfg f i k n) :
    A.Beyond cfg prev i k n
      (((ixStepTo cfg f (ixMove f prev)).bind fun j => (f.index i)[j]?).map fun e => (e.key, e.dup, e.pk)) := by
  obtain ⟨rfl, hi, rfl, hn0, hn1⟩ := hat
  have hL := index_sorted h _ hi
  have hm := index_mem h _ hi
  have hd1 : ¬ (f.keyIndex ≠ 0 ∧ (cfg.key f.keyIndex).dups = true) → n = 0 := fun hd => hn0 (by
    intro hx; exact hd ⟨by omega, hx.2⟩)
  have hd2 : f.keyIndex ≠ 0 ∧ (cfg.key f.keyIndex).dups = true → n = f.lastDup f.keyIndex := fun hd => hn1 ⟨by omega, hd.2⟩
  have hz : ¬ (f.keyIndex ≠ 0 ∧ (cfg.key f.keyIndex).dups = true) → ∀ e ∈ f.index f.keyIndex, e.dup = 0 := fun hd e he =>
    has_dup_zero h f.keyIndex (by intro hx; exact hd ⟨by omega, hx.2⟩) _ _ _ ((hm e).mp he)
  unfold IxAbs.Beyond ixMove
  cases prev with
  | true =>
    simp only [if_true]
    cases he : f.eof with
    | true =>
      simp only [if_true]
      refine eLast_last h _ hi _ _ ?_
      have hF := eLast_cut hL (q := fun _ => true) (by intro a b _ _; rfl)
        (P := fun e => A.eof = true ∨ IxBefore e.key e.dup (f.lastRead f.keyIndex) n) (by
          intro e _
          rw [← hr.eof, he]
          simp)
      rw [cut_all] at hF
      unfold ixStepTo seekLast
      simp only
      cases hx : f.index f.keyIndex with
      | nil => rw [hx] at hF; simpa using hF
      | cons x L => rw [hx] at hF; simpa using hF
    | false =>
      simp only [Bool.false_eq_true, if_false]
      refine eLast_last h _ hi _ _ ?_
      rw [prev_cut cfg f n hL hd1 hd2]
      exact eLast_cut hL (down_pLt _ n) (by
        intro e _
        rw [← hr.eof, he]
        simp [pLt])
  | false =>
    simp only [Bool.false_eq_true, if_false]
    cases he : f.bof with
    | true =>
      simp only [if_true]
      refine eFirst_first h _ hi _ _ ?_
      have hF := eFirst_cut hL (q := fun _ => false) (by intro a b _ h; exact h)
        (P := fun e => A.bof = true ∨ IxBefore (f.lastRead f.keyIndex) n e.key e.dup) (by
          intro e _
          rw [← hr.bof, he]
          simp)
      rw [cut_none] at hF
      unfold ixStepTo seekFirst
      simp only
      cases hx : f.index f.keyIndex with
      | nil => rw [hx] at hF; simpa using hF
      | cons x L => rw [hx] at hF; simpa using hF
    | false =>
      simp only [Bool.false_eq_true, if_false]
      refine eFirst_first h _ hi _ _ ?_
      rw [next_cut cfg f n hL (fun hd => ⟨hd1 hd, hz hd⟩) hd2]
      exact eFirst_cut hL (down_pLe _ n) (by
        intro e _
        rw [← hr.bof, he]
        simp [pLe])

theorem arrive_at (h : IxTrees cfg f.db0 f.alts A.recs A.num) (i : Nat) (hi : i < cfg.keys.length) (hk : f.keyIndex = i)
    (k : List Nat) (n : Nat) (pk : List Nat) (hh : A.Has cfg i k n pk) :
    let g := ixArrive cfg f i ⟨k, pk, n⟩
    IxAt cfg g i k n ∧ (i = 0 → pk = k) ∧ (0 < i → g.lastPrim i = pk) ∧ g.curKey = pk ∧ g.dataNull = false ∧ g.db0 = f.db0 ∧
      g.alts = f.alts ∧ g.lastKey = f.lastKey ∧ g.firstRead = f.firstRead ∧ g.size = f.size ∧ g.eof = f.eof ∧ g.bof = f.bof ∧
      g.readDone = f.readDone := by
  have hz := has_dup_zero h i
  unfold ixArrive IxAt
  simp only
  by_cases h0 : i = 0
  · subst h0
    simp only [if_true, setAt]
    refine ⟨⟨hk, hi, trivial, fun hd => hz hd _ _ _ hh, fun hd => absurd hd.1 (by omega)⟩, fun _ => ?_, fun h => absurd h (by omega),
      trivial, trivial, trivial, trivial, trivial, trivial, trivial, trivial, trivial, trivial⟩
    obtain ⟨r, r1, r2, -⟩ := hh
    rw [← r2, (h.wf _ _ r1).1]
  · simp only [if_neg h0, setAt, if_true]
    refine ⟨⟨hk, hi, trivial, fun hd => hz hd _ _ _ hh, fun hd => ?_⟩, fun h => absurd h h0, fun _ => trivial,
      trivial, trivial, trivial, trivial, trivial, trivial, trivial, trivial, trivial, trivial⟩
    simp [hd.2, setAt]

theorem readNext_sim (h : IxTrees cfg f.db0 f.alts A.recs A.num) (hr : IxRegs cfg f A) (prev : Bool) (hp : A.pos ≠ .undef) :
    (∃ i, A.Delivers cfg prev i none ∧ ixReadNext cfg f prev = (10, f, [])) ∨
    ∃ i k n pk r g, A.Delivers cfg prev i (some (k, n, pk)) ∧ A.recs pk = some r ∧ ixReadNext cfg f prev = (0, g, r) ∧
      IxAt cfg g i k n ∧ g.curKey = pk ∧ g.dataNull = false ∧ g.db0 = f.db0 ∧ g.alts = f.alts ∧ g.lastKey = f.lastKey := by
  -- stepping
  have hstep : ∀ (i : Nat) (k : List Nat) (n : Nat), IxAt cfg f i k n →
      (A.Beyond cfg prev i k n none ∧ ((ixStepTo cfg f (ixMove f prev)).bind fun j => (f.index f.keyIndex)[j]?) = none) ∨
      (∃ k' n' pk' r, A.Beyond cfg prev i k n (some (k', n', pk')) ∧
        ((ixStepTo cfg f (ixMove f prev)).bind fun j => (f.index f.keyIndex)[j]?) = some ⟨k', pk', n'⟩ ∧
        A.recs pk' = some r ∧ A.Has cfg i k' n' pk') := by
    intro i k n hat
    have hb := beyond_sim h hr prev i k n hat
    obtain ⟨rfl, hi, -⟩ := hat
    cases ho : (ixStepTo cfg f (ixMove f prev)).bind fun j => (f.index f.keyIndex)[j]? with
    | none => rw [ho] at hb; exact Or.inl ⟨hb, rfl⟩
    | some e =>
      rw [ho] at hb
      simp only [Option.map_some] at hb
      have hm : e ∈ f.index f.keyIndex := by
        cases hs : ixStepTo cfg f (ixMove f prev) with
        | none => rw [hs] at ho; cases ho
        | some j => rw [hs] at ho; exact List.mem_of_getElem? ho
      have hh := (index_mem h _ hi e).mp hm
      obtain ⟨r, hr1, -⟩ := id hh
      exact Or.inr ⟨e.key, e.dup, e.pk, r, hb, rfl, hr1, hh⟩
  cases hpos : A.pos with
  | undef => exact absurd hpos hp
  | read i k n =>
    have hpr := hr.pos
    rw [hpos] at hpr
    obtain ⟨hat, hf0⟩ := hpr
    unfold ixReadNext
    simp only [hf0, ne_eq, not_true_eq_false, false_and, if_false]
    rcases hstep i k n hat with ⟨h1, h2⟩ | ⟨k', n', pk', r, h1, h2, h3, h4⟩
    · left
      refine ⟨i, ?_, ?_⟩
      · unfold IxAbs.Delivers
        rw [hpos]
        exact ⟨rfl, h1⟩
      · rw [h2]
    · right
      obtain ⟨rfl, hi, -⟩ := id hat
      obtain ⟨a1, a2, a3, a4, a5, a6, a7, a8, -⟩ := arrive_at h _ hi rfl k' n' pk' h4
      refine ⟨f.keyIndex, k', n', pk', r, ixArrive cfg f f.keyIndex ⟨k', pk', n'⟩, ?_, h3, ?_, a1, a4, a5, a6, a7, a8⟩
      · unfold IxAbs.Delivers
        rw [hpos]
        exact ⟨rfl, h1⟩
      · rw [h2]
        simp only [getRec_eq h, h3]
  | found o i k n pk =>
    have hpr := hr.pos
    rw [hpos] at hpr
    obtain ⟨hat, hp0, hp1, hfr⟩ := hpr
    have hne : f.firstRead ≠ 0 := by rw [hfr]; split <;> omega
    obtain ⟨hs1, hs2⟩ := ixSame_eq h i k n pk hat hp0 hp1
    have hmv : (f.firstRead = 2 ∧ ixMove f prev = .prev) ↔ (o = true ∧ prev = true ∧ A.eof = false) := by
      rw [hfr, ← hr.eof]
      unfold ixMove
      cases o <;> cases prev <;> cases f.eof <;> cases f.bof <;> simp
    unfold ixReadNext
    simp only [ne_eq, hne, not_false_eq_true, true_and, if_true]
    by_cases hc1 : o = true ∧ prev = true ∧ A.eof = false
    · left
      refine ⟨i, ?_, ?_⟩
      · unfold IxAbs.Delivers
        rw [hpos]
        exact ⟨rfl, by rw [if_pos hc1]⟩
      · rw [if_pos (Or.inr (hmv.mpr hc1))]
    · by_cases hnull : f.dataNull = true
      · left
        have hnone := tree_nil h (hr.null hnull)
        have hno : ∀ i k n pk, ¬ A.Has cfg i k n pk := by
          rintro i k n pk ⟨r, hr1, -⟩
          rw [hnone] at hr1
          cases hr1
        refine ⟨i, ?_, ?_⟩
        · unfold IxAbs.Delivers
          rw [hpos]
          refine ⟨rfl, ?_⟩
          rw [if_neg hc1]
          refine Or.inr ⟨hno _ _ _ _, ?_⟩
          unfold IxAbs.Beyond
          split
          · exact fun k n pk hh => absurd hh (hno _ _ _ _)
          · exact fun k n pk hh => absurd hh (hno _ _ _ _)
        · rw [if_pos (Or.inl hnull)]
      · rw [if_neg (by rintro (h | h); exacts [hnull h, hc1 (hmv.mp h)])]
        by_cases hhas : A.Has cfg i k n pk
        · right
          obtain ⟨r, r1, r2, r3⟩ := id hhas
          rw [hs1 hhas]
          simp only [Option.bind_some, getRec_eq h, r1, Option.map_some]
          refine ⟨i, k, n, pk, r, _, ?_, r1, rfl, hat, rfl, rfl, rfl, rfl, rfl⟩
          unfold IxAbs.Delivers
          rw [hpos]
          refine ⟨rfl, ?_⟩
          rw [if_neg hc1]
          exact Or.inl ⟨hhas, rfl⟩
        · rw [hs2 hhas]
          simp only [Option.bind_none]
          rcases hstep i k n hat with ⟨h1, h2⟩ | ⟨k', n', pk', r, h1, h2, h3, h4⟩
          · left
            refine ⟨i, ?_, ?_⟩
            · unfold IxAbs.Delivers
              rw [hpos]
              refine ⟨rfl, ?_⟩
              rw [if_neg hc1]
              exact Or.inr ⟨hhas, h1⟩
            · rw [h2]
          · right
            obtain ⟨rfl, hi, -⟩ := id hat
            obtain ⟨a1, a2, a3, a4, a5, a6, a7, a8, -⟩ := arrive_at h _ hi rfl k' n' pk' h4
            refine ⟨f.keyIndex, k', n', pk', r, ixArrive cfg f f.keyIndex ⟨k', pk', n'⟩, ?_, h3, ?_, a1, a4, a5, a6, a7, a8⟩
            · unfold IxAbs.Delivers
              rw [hpos]
              refine ⟨rfl, ?_⟩
              rw [if_neg hc1]
              exact Or.inr ⟨hhas, h1⟩
            · rw [h2]
              simp only [getRec_eq h, h3]

end Cob
