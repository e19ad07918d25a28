import Verif.Str.InspectLemmas
import Verif.Num.DisplayProps
/-
Properties C18 (INSPECT TALLYING), C19 (REPLACING), C20 (CONVERTING).
-/
namespace Cob

/-! ### One phrase on a fresh item -/

theorem init_region (d : List Nat) (rs : List Region) :
    inspRegion (inspInit d) rs = ⟨(regionOf d rs).1 ++ (regionOf d rs).2.1 ++ (regionOf d rs).2.2,
      List.replicate (regionOf d rs).1.length none ++ List.replicate (regionOf d rs).2.1.length none ++
        List.replicate (regionOf d rs).2.2.length none,
      (regionOf d rs).1.length, (regionOf d rs).1.length + (regionOf d rs).2.1.length⟩ := by
  obtain ⟨⟨h1, h2, h3, h4⟩, h5, h6⟩ := region_spec (inspInit d) (by simp [inspInit]) rs
  have hm : (inspInit d).marks = List.replicate d.length none := rfl
  have hd : (inspInit d).data = d := rfl
  rw [hd] at h1 h2 h3 h5
  have hlen : d.length = (regionOf d rs).1.length + (regionOf d rs).2.1.length + (regionOf d rs).2.2.length := by
    have := congrArg List.length (regionOf_append d rs)
    simpa [Nat.add_assoc] using this
  generalize hs : inspRegion (inspInit d) rs = s at *
  obtain ⟨sd, sm, s1, s2⟩ := s
  simp only at h1 h2 h3 h4 h5 h6
  rw [h6, hm, h2, h3, h1, hlen]
  simp [List.replicate_append_replicate]

theorem scan_all_fresh (a w b : List Nat) (pat vals : List Nat) (hp : pat ≠ []) (hv : vals.length = pat.length) :
    inspScan ⟨a ++ w ++ b, List.replicate a.length none ++ List.replicate w.length none ++ List.replicate b.length none,
      a.length, a.length + w.length⟩ (.fwd .all) pat vals =
    (⟨a ++ w ++ b, List.replicate a.length none ++ (claimAll pat vals [] (w.map (·, none))).1 ++ List.replicate b.length none,
      a.length, a.length + w.length⟩, (claimAll pat vals [] (w.map (·, none))).2) := by
  unfold inspScan
  simp only [Nat.add_sub_cancel_left]
  rw [fwd_all a.length w.length pat vals hp hv (w.length + 1) 0 0 (List.replicate a.length none)
    (List.replicate w.length none) (List.replicate b.length none) a w b (by simp) (by simp) (by simp) (by simp) (by omega),
    zip_replicate]
  simp

theorem scan_leading_fresh (a w b : List Nat) (pat vals : List Nat) (hp : pat ≠ []) (hv : vals.length = pat.length) :
    inspScan ⟨a ++ w ++ b, List.replicate a.length none ++ List.replicate w.length none ++ List.replicate b.length none,
      a.length, a.length + w.length⟩ (.fwd .leading) pat vals =
    (⟨a ++ w ++ b, List.replicate a.length none ++ (claimLead pat vals [] w).1 ++ List.replicate b.length none,
      a.length, a.length + w.length⟩, (claimLead pat vals [] w).2) := by
  unfold inspScan
  simp only [Nat.add_sub_cancel_left]
  rw [fwd_leading a.length w.length pat vals hp hv (w.length + 1) 0 0 (List.replicate a.length none)
    (List.replicate b.length none) a w b (by simp) (by simp) (by simp) (by omega)]
  simp

theorem scan_first_fresh (a w b : List Nat) (pat vals : List Nat) (hp : pat ≠ []) (hv : vals.length = pat.length) :
    inspScan ⟨a ++ w ++ b, List.replicate a.length none ++ List.replicate w.length none ++ List.replicate b.length none,
      a.length, a.length + w.length⟩ (.fwd .first) pat vals =
    (⟨a ++ w ++ b, List.replicate a.length none ++ (claimFirst pat vals w).1 ++ List.replicate b.length none,
      a.length, a.length + w.length⟩, (claimFirst pat vals w).2) := by
  unfold inspScan
  simp only [Nat.add_sub_cancel_left]
  rw [fwd_first a.length w.length pat vals hp hv (w.length + 1) 0 0 (List.replicate a.length none)
    (List.replicate b.length none) a w b (by simp) (by simp) (by simp) (by omega)]
  simp

theorem scan_trailing_fresh (a w b : List Nat) (pat vals : List Nat) (hp : pat ≠ []) (hv : vals.length = pat.length) :
    inspScan ⟨a ++ w ++ b, List.replicate a.length none ++ List.replicate w.length none ++ List.replicate b.length none,
      a.length, a.length + w.length⟩ .trailing pat vals =
    (⟨a ++ w ++ b, List.replicate a.length none ++ (claimLead pat.reverse vals.reverse [] w.reverse).1.reverse ++ List.replicate b.length none,
      a.length, a.length + w.length⟩, (claimLead pat.reverse vals.reverse [] w.reverse).2) := by
  unfold inspScan
  simp only [Nat.add_sub_cancel_left]
  rw [bwd_free a.length pat vals hp hv (w.length + 1) 0 (List.replicate a.length none)
    (List.replicate b.length none) a w b (by simp) (by simp) (by omega)]
  simp

/-- C18: INSPECT item TALLYING n FOR ALL pat, in the region selected by BEFORE/AFTER phrases: the
item is unchanged and the number of non-overlapping occurrences, from the left, is added to n. -/
theorem C18_all (d pat : List Nat) (hp : pat ≠ []) (rs : List Region) :
    inspectTallying d [.cmp (.fwd .all) pat rs] = (d, [countAll pat 0 (regionOf d rs).2.1]) := by
  unfold inspectTallying
  simp only [tallyGo, tallyPhrase, inspTally]
  rw [init_region, scan_all_fresh _ _ _ _ _ hp (by simp)]
  simp only [inspFinish]
  rw [(claimAll_free pat _ hp (by simp) _ []).1, if_neg (by simp), ← regionOf_append]
  rfl

/-- C18: LEADING counts the contiguous occurrences at the beginning of the region. -/
theorem C18_leading (d pat : List Nat) (hp : pat ≠ []) (rs : List Region) :
    inspectTallying d [.cmp (.fwd .leading) pat rs] = (d, [countLeading pat 0 (regionOf d rs).2.1]) := by
  unfold inspectTallying
  simp only [tallyGo, tallyPhrase, inspTally]
  rw [init_region, scan_leading_fresh _ _ _ _ _ hp (by simp)]
  simp only [inspFinish]
  rw [(claimLead_spec pat _ hp (by simp) _ []).1, if_neg (by simp), ← regionOf_append]
  rfl

/-- C18: TRAILING counts the contiguous occurrences at the end of the region, i.e. the leading
occurrences of the reversed operand in the reversed region. -/
theorem C18_trailing (d pat : List Nat) (hp : pat ≠ []) (rs : List Region) :
    inspectTallying d [.cmp .trailing pat rs] =
      (d, [countLeading pat.reverse 0 (regionOf d rs).2.1.reverse]) := by
  unfold inspectTallying
  simp only [tallyGo, tallyPhrase, inspTally]
  rw [init_region, scan_trailing_fresh _ _ _ _ _ hp (by simp)]
  simp only [inspFinish]
  rw [(claimLead_spec pat.reverse _ (by simpa using hp) (by simp) _ []).1, if_neg (by simp), ← regionOf_append]
  rfl

/-- C18: CHARACTERS counts the characters of the region. -/
theorem C18_characters (d : List Nat) (rs : List Region) :
    inspectTallying d [.chars rs] = (d, [(regionOf d rs).2.1.length]) := by
  unfold inspectTallying
  simp only [tallyGo, tallyPhrase, inspChars]
  rw [init_region]
  simp only [Nat.add_sub_cancel_left]
  have h := char_loop 1 (regionOf d rs).2.1.length 0 (List.replicate (regionOf d rs).1.length none)
    (List.replicate (regionOf d rs).2.1.length none) (List.replicate (regionOf d rs).2.2.length none) (by simp)
  rw [List.length_replicate] at h
  rw [h]
  simp only [inspFinish]
  rw [if_neg (by simp), ← regionOf_append]
  have hc : List.countP (fun x : Option Nat => x.isNone) (List.replicate (regionOf d rs).2.1.length none) = (regionOf d rs).2.1.length := by
    rw [List.countP_eq_length.mpr, List.length_replicate]
    intro x hx
    rw [List.eq_of_mem_replicate hx]; rfl
  rw [hc]
  simp

/-- "ABABA" AFTER INITIAL "B": region "ABA", one ALL "AB"; the specification says the same. -/
example : inspectTallying [65, 66, 65, 66, 65] [.cmp (.fwd .all) [65, 66] [.after [66]]] = ([65, 66, 65, 66, 65], [1]) ∧
    countAll [65, 66] 0 [65, 66, 65, 66, 65] = 2 ∧ countAll [65, 65] 0 [65, 65, 65] = 1 ∧
    (regionOf [65, 66, 65, 66, 65] [.after [66], .before [65, 65]]) = ([65, 66], [65, 66, 65], []) ∧
    countLeading [65] 0 [65, 65, 66, 65] = 2 := by decide

/-- C18, several phrases: a phrase ALL met in any state (whatever earlier phrases have claimed)
claims and counts exactly the occurrences, from the left and without overlap, made of characters
of its region that no earlier phrase has claimed. -/
theorem C18_all_in_sequence (s : Insp) (hs : s.marks.length = s.data.length) (pat : List Nat) (hp : pat ≠ [])
    (rs : List Region) :
    let a := (regionOf s.data rs).1
    let w := (regionOf s.data rs).2.1
    let r := claimAll pat (List.replicate pat.length 1) [] (w.zip ((s.marks.drop a.length).take w.length))
    tallyPhrase s (.cmp (.fwd .all) pat rs) =
      (⟨s.data, s.marks.take a.length ++ r.1 ++ s.marks.drop (a.length + w.length), a.length, a.length + w.length⟩, r.2) := by
  intro a w r
  obtain ⟨⟨h1, h2, h3, h4⟩, h5, h6⟩ := region_spec s hs rs
  simp only [tallyPhrase, inspTally, inspScan]
  have hlen : s.data.length = a.length + w.length + (regionOf s.data rs).2.2.length := by
    have := congrArg List.length (regionOf_append s.data rs)
    simpa [Nat.add_assoc] using this
  rw [h5, h6, h2, h3]
  simp only [Nat.add_sub_cancel_left]
  have hsplit : s.marks = s.marks.take a.length ++ (s.marks.drop a.length).take w.length ++ s.marks.drop (a.length + w.length) := by
    rw [← List.drop_drop, List.append_assoc, List.take_append_drop, List.take_append_drop]
  have h := fwd_all a.length w.length pat (List.replicate pat.length 1) hp (by simp) (w.length + 1) 0 0
    (s.marks.take a.length) ((s.marks.drop a.length).take w.length) (s.marks.drop (a.length + w.length)) a w
    (regionOf s.data rs).2.2 (by simp; omega) (by simp) (by simp; omega) (by simp) (by omega)
  rw [← hsplit, ← regionOf_append s.data rs] at h
  change (Insp.mk s.data (fwdLoop .all s.data a.length w.length pat (List.replicate pat.length 1) (w.length + 1) 0 s.marks 0).1
    a.length (a.length + w.length), (fwdLoop .all s.data a.length w.length pat (List.replicate pat.length 1) (w.length + 1) 0 s.marks 0).2) = _
  rw [h]
  simp [r]

/-- Finding: phrases are processed one after the other over the whole region, not in one pass as
the standard requires.  TALLYING n1 FOR ALL "BC" n2 FOR ALL "AB" on "ABC": in one pass from the left "AB" is
met first; here "BC" claims B and "AB" is not counted. -/
theorem C18_phrase_order_beats_position :
    inspectTallying [65, 66, 67] [.cmp (.fwd .all) [66, 67] [], .cmp (.fwd .all) [65, 66] []] =
      ([65, 66, 67], [1, 0]) := by decide

/-- Finding: LEADING goes on past characters claimed by an earlier phrase, so an occurrence that is
not at the beginning is counted: TALLYING n1 FOR CHARACTERS BEFORE "AB" n2 FOR LEADING "A" on
"AAB" gives n2 = 1 although the first character was never an occurrence for LEADING. -/
theorem C18_leading_skips_claimed :
    inspectTallying [65, 65, 66] [.chars [.before [65, 66]], .cmp (.fwd .leading) [65] []] = ([65, 65, 66], [1, 1]) := by
  decide

/-! ### Marks only grow -/

/-- `m'` extends the claims `m` inside the window `[st, en)` only. -/
def Ext (st en : Nat) (m m' : List (Option Nat)) : Prop :=
  m'.length = m.length ∧ (∀ (i v : Nat), m[i]? = some (some v) → m'[i]? = some (some v)) ∧
  (∀ i : Nat, i < st ∨ en ≤ i → m'[i]? = m[i]?)

theorem Ext.refl (st en : Nat) (m : List (Option Nat)) : Ext st en m m :=
  ⟨rfl, fun _ _ h => h, fun _ _ => rfl⟩

theorem Ext.trans {st en : Nat} {m m' m'' : List (Option Nat)} (h : Ext st en m m') (g : Ext st en m' m'') :
    Ext st en m m'' :=
  ⟨g.1.trans h.1, fun i v hi => g.2.1 i v (h.2.1 i v hi), fun i hi => (g.2.2 i hi).trans (h.2.2 i hi)⟩

theorem setMarks_get (m : List (Option Nat)) (i : Nat) (vals : List Nat) (h : i + vals.length ≤ m.length) (j : Nat) :
    (setMarks m i vals)[j]? = if i ≤ j ∧ j < i + vals.length then (vals[j - i]?).map some else m[j]? := by
  unfold setMarks
  by_cases h1 : j < i
  · rw [if_neg (by omega), List.append_assoc, List.getElem?_append_left (by simp; omega), List.getElem?_take, if_pos h1]
  · by_cases h2 : j < i + vals.length
    · rw [if_pos ⟨by omega, h2⟩, List.getElem?_append_left (by simp; omega), List.getElem?_append_right (by simp; omega)]
      simp only [List.length_take, List.getElem?_map]
      rw [Nat.min_eq_left (by omega)]
    · rw [if_neg (by omega), List.getElem?_append_right (by simp; omega)]
      simp only [List.length_append, List.length_take, List.length_map, List.getElem?_drop]
      congr 1 <;> omega

theorem setMarks_ext (st en : Nat) (m : List (Option Nat)) (i : Nat) (vals : List Nat) (hst : st ≤ i)
    (hen : i + vals.length ≤ en) (hm : en ≤ m.length) (hf : freeAt m i vals.length = true) :
    Ext st en m (setMarks m i vals) := by
  refine ⟨?_, ?_, ?_⟩
  · unfold setMarks; simp; omega
  · intro j v hj
    rw [setMarks_get m i vals (by omega), if_neg]
    · exact hj
    · rintro ⟨h1, h2⟩
      unfold freeAt at hf
      rw [List.all_eq_true] at hf
      have hmem : (some v : Option Nat) ∈ (m.drop i).take vals.length := by
        rw [List.mem_iff_getElem?]
        refine ⟨j - i, ?_⟩
        rw [List.getElem?_take, if_pos (by omega), List.getElem?_drop, ← hj]
        congr 1
        omega
      have := hf _ hmem
      simp at this
  · intro j hj
    rw [setMarks_get m i vals (by omega), if_neg (by omega)]

theorem fwd_ext (ty : FwdType) (d : List Nat) (st len : Nat) (pat vals : List Nat) (hv : vals.length = pat.length)
    (fuel : Nat) : ∀ (i : Nat) (m : List (Option Nat)) (n : Nat), st + len ≤ m.length →
    Ext st (st + len) m (fwdLoop ty d st len pat vals fuel i m n).1 := by
  induction fuel with
  | zero => intro i m n _; exact Ext.refl _ _ _
  | succ fuel ih =>
    intro i m n hm
    unfold fwdLoop
    split
    · split
      · split
        · rename_i hroom _ hfree
          have he := setMarks_ext st (st + len) m (st + i) vals (by omega) (by omega) hm (by rw [hv]; exact hfree)
          split
          · exact he
          · exact he.trans (ih _ _ _ (by rw [he.1]; exact hm))
        · exact ih _ _ _ hm
      · split
        · exact Ext.refl _ _ _
        · exact ih _ _ _ hm
    · exact Ext.refl _ _ _

theorem bwd_ext (d : List Nat) (st len : Nat) (pat vals : List Nat) (hv : vals.length = pat.length)
    (fuel : Nat) : ∀ (k : Nat) (m : List (Option Nat)) (n : Nat), st + len ≤ m.length → k + pat.length ≤ len + 1 ∨ k = 0 →
    Ext st (st + len) m (bwdLoop d st pat vals fuel k m n).1 := by
  induction fuel with
  | zero => intro k m n _ _; exact Ext.refl _ _ _
  | succ fuel ih =>
    intro k m n hm hk
    cases k with
    | zero => exact Ext.refl _ _ _
    | succ k =>
      unfold bwdLoop
      split
      · split
        · rename_i _ hfree
          have he := setMarks_ext st (st + len) m (st + k) vals (by omega) (by omega) hm (by rw [hv]; exact hfree)
          exact he.trans (ih _ _ _ (by rw [he.1]; exact hm) (by omega))
        · exact ih _ _ _ hm (by omega)
      · exact Ext.refl _ _ _

theorem scan_ext (s : Insp) (ty : CmpType) (pat vals : List Nat) (hv : vals.length = pat.length)
    (h1 : s.start ≤ s.stop) (h2 : s.stop ≤ s.marks.length) :
    Ext s.start s.stop s.marks (inspScan s ty pat vals).1.marks := by
  have e : s.start + (s.stop - s.start) = s.stop := by omega
  unfold inspScan
  cases ty with
  | fwd t =>
    have := fwd_ext t s.data s.start (s.stop - s.start) pat vals hv (s.stop - s.start + 1) 0 s.marks 0 (by omega)
    rw [e] at this
    exact this
  | trailing =>
    have := bwd_ext s.data s.start (s.stop - s.start) pat vals hv (s.stop - s.start + 1) (s.stop - s.start + 1 - pat.length) s.marks 0
      (by omega) (by omega)
    rw [e] at this
    exact this

theorem charLoop_ext (v k : Nat) : ∀ (i : Nat) (m : List (Option Nat)) (n : Nat), i + k ≤ m.length →
    Ext i (i + k) m (charLoop v k i m n).1 := by
  induction k with
  | zero => intro i m n _; exact Ext.refl _ _ _
  | succ k ih =>
    intro i m n hm
    unfold charLoop
    have widen : ∀ m', Ext (i + 1) (i + 1 + k) m m' → Ext i (i + (k + 1)) m m' := by
      rintro m' ⟨g1, g2, g3⟩
      exact ⟨g1, g2, fun j hj => g3 j (by omega)⟩
    split
    · rename_i hnone
      have he : Ext i (i + (k + 1)) m (m.set i (some v)) := by
        refine ⟨by simp, ?_, ?_⟩
        · intro j w hj
          rw [List.getElem?_set]
          split
          · rename_i h
            subst h
            simp [List.getD, hj] at hnone
          · exact hj
        · intro j hj
          rw [List.getElem?_set, if_neg (by omega)]
      refine he.trans ?_
      obtain ⟨g1, g2, g3⟩ := ih (i + 1) (m.set i (some v)) (n + 1) (by simp; omega)
      exact ⟨g1, g2, fun j hj => g3 j (by omega)⟩
    · exact widen _ (ih (i + 1) m n (by omega))

/-- The window of a phrase: where its region begins and ends. -/
def windowOf (d : List Nat) (rs : List Region) : Nat × Nat :=
  ((regionOf d rs).1.length, (regionOf d rs).1.length + (regionOf d rs).2.1.length)

/-- The region phrases of a REPLACING phrase. -/
def ReplPhrase.regions : ReplPhrase → List Region
  | .chars _ rs => rs
  | .cmp _ _ _ _ rs => rs

theorem figurative_length (f : List Nat) (n : Nat) : (figurative f n).length = n := by simp [figurative]

theorem phrase_ext (s : Insp) (hs : s.marks.length = s.data.length) (p : ReplPhrase) :
    (replPhrase s p).data = s.data ∧
    Ext (windowOf s.data p.regions).1 (windowOf s.data p.regions).2 s.marks (replPhrase s p).marks := by
  cases p with
  | chars v rs =>
    obtain ⟨⟨h1, h2, h3, h4⟩, h5, h6⟩ := region_spec s hs rs
    have hl := congrArg List.length (regionOf_append s.data rs)
    simp only [List.length_append] at hl
    simp only [replPhrase, inspReplaceChars, windowOf, ReplPhrase.regions]
    refine ⟨h5, ?_⟩
    have := charLoop_ext v ((inspRegion s rs).stop - (inspRegion s rs).start) (inspRegion s rs).start (inspRegion s rs).marks 0
      (by rw [h2, h3, h6]; omega)
    rw [h2, h3, h6, Nat.add_sub_cancel_left] at this
    rw [h2, h3, h6, Nat.add_sub_cancel_left]
    exact this
  | cmp ty pat rep isAll rs =>
    obtain ⟨⟨h1, h2, h3, h4⟩, h5, h6⟩ := region_spec s hs rs
    have hl := congrArg List.length (regionOf_append s.data rs)
    simp only [List.length_append] at hl
    simp only [replPhrase, windowOf, ReplPhrase.regions]
    have key : ∀ vals : List Nat, vals.length = pat.length →
        (inspScan (inspRegion s rs) ty pat vals).1.data = s.data ∧
        Ext (regionOf s.data rs).1.length ((regionOf s.data rs).1.length + (regionOf s.data rs).2.1.length) s.marks
          (inspScan (inspRegion s rs) ty pat vals).1.marks := by
      intro vals hv
      refine ⟨h5, ?_⟩
      have := scan_ext (inspRegion s rs) ty pat vals hv (by omega) (by rw [h3, h6]; omega)
      rw [h2, h3, h6] at this
      exact this
    unfold inspReplace
    split
    · split
      · exact key _ (figurative_length _ _)
      · exact ⟨h5, by rw [h6]; exact Ext.refl _ _ _⟩
    · rename_i h
      exact key rep (by omega)

theorem phrases_inv (ps : List ReplPhrase) : ∀ s : Insp, s.marks.length = s.data.length →
    (ps.foldl replPhrase s).data = s.data ∧ (ps.foldl replPhrase s).marks.length = s.data.length ∧
    (∀ (i v : Nat), s.marks[i]? = some (some v) → (ps.foldl replPhrase s).marks[i]? = some (some v)) ∧
    (∀ i : Nat, (∀ p ∈ ps, i < (windowOf s.data p.regions).1 ∨ (windowOf s.data p.regions).2 ≤ i) →
      (ps.foldl replPhrase s).marks[i]? = s.marks[i]?) := by
  induction ps with
  | nil => intro s hs; exact ⟨rfl, hs, fun _ _ h => h, fun _ _ => rfl⟩
  | cons p ps ih =>
    intro s hs
    obtain ⟨e1, e2, e3, e4⟩ := phrase_ext s hs p
    obtain ⟨g1, g2, g3, g4⟩ := ih (replPhrase s p) (by rw [e2, e1]; exact hs)
    rw [e1] at g1 g2 g4
    refine ⟨g1, g2, fun i v h => g3 i v (e3 i v h), ?_⟩
    intro i hi
    rw [List.foldl_cons, g4 i (fun q hq => hi q (by simp [hq])), e4 i (hi p (by simp))]

theorem finish_get (d : List Nat) (m : List (Option Nat)) (a b : Nat) (h : m.length = d.length) (i : Nat) :
    (inspFinish true ⟨d, m, a, b⟩)[i]? = match d[i]?, m[i]? with
      | some c, some x => some (x.getD c)
      | _, _ => none := by
  unfold inspFinish
  simp only [if_true]
  rw [List.getElem?_zipWith]
  cases d[i]? <;> cases m[i]? <;> rfl

/-- C19: any sequence of REPLACING phrases keeps the length of the item. -/
theorem C19_length (d : List Nat) (ps : List ReplPhrase) : (inspectReplacing d ps).length = d.length := by
  obtain ⟨h1, h2, _, _⟩ := phrases_inv ps (inspInit d) (by simp [inspInit])
  unfold inspectReplacing inspFinish
  simp only [if_true, List.length_zipWith]
  rw [h1, h2]
  simp [inspInit]

/-- C19: a position that lies in no phrase's region keeps its character. -/
theorem C19_outside_region (d : List Nat) (ps : List ReplPhrase) (i : Nat)
    (h : ∀ p ∈ ps, i < (windowOf d p.regions).1 ∨ (windowOf d p.regions).2 ≤ i) :
    (inspectReplacing d ps)[i]? = d[i]? := by
  obtain ⟨h1, h2, _, h4⟩ := phrases_inv ps (inspInit d) (by simp [inspInit])
  unfold inspectReplacing
  generalize ps.foldl replPhrase (inspInit d) = s at *
  obtain ⟨sd, sm, a, b⟩ := s
  simp only at h1 h2
  have hd : (inspInit d).data = d := rfl
  rw [hd] at h1 h2
  rw [finish_get sd sm a b (by rw [h1, h2])]
  have := h4 i h
  simp only at this
  rw [this, h1]
  have hm : (inspInit d).marks = List.replicate d.length none := rfl
  rw [hm]
  cases hi : d[i]? with
  | none => rfl
  | some c =>
    have : i < d.length := by
      rw [List.getElem?_eq_some_iff] at hi
      exact hi.1
    rw [List.getElem?_replicate, if_pos this]
    rfl

/-- C19: each position is replaced at most once, earlier phrases win: a position whose character
the phrases `ps` changed has the same character after any further phrases `qs`. -/
theorem C19_first_phrase_wins (d : List Nat) (ps qs : List ReplPhrase) (i : Nat)
    (h : (inspectReplacing d ps)[i]? ≠ d[i]?) :
    (inspectReplacing d (ps ++ qs))[i]? = (inspectReplacing d ps)[i]? := by
  obtain ⟨h1, h2, _, _⟩ := phrases_inv ps (inspInit d) (by simp [inspInit])
  have hd : (inspInit d).data = d := rfl
  rw [hd] at h1 h2
  obtain ⟨g1, g2, g3, _⟩ := phrases_inv qs (ps.foldl replPhrase (inspInit d)) (by rw [h1, h2])
  rw [h1] at g1 g2
  unfold inspectReplacing at h ⊢
  rw [List.foldl_append]
  generalize hs : ps.foldl replPhrase (inspInit d) = s at *
  generalize ht : qs.foldl replPhrase s = t at *
  obtain ⟨sd, sm, a, b⟩ := s
  obtain ⟨td, tm, a', b'⟩ := t
  simp only at h1 h2 g1 g2 g3
  subst h1 g1
  rw [finish_get td sm a b h2] at h ⊢
  rw [finish_get td tm a' b' g2]
  cases hi : td[i]? with
  | none => rfl
  | some c =>
    rw [hi] at h
    cases hm : sm[i]? with
    | none => rw [List.getElem?_eq_none_iff] at hm; rw [List.getElem?_eq_some_iff] at hi; obtain ⟨hi, _⟩ := hi; omega
    | some x =>
      rw [hm] at h
      cases x with
      | none => simp at h
      | some v =>
        rw [g3 i v hm]

/-- "AABA" REPLACING FIRST "A" BY "X", ALL "A" BY "Y": the first A stays X. -/
example : inspectReplacing [65, 65, 66, 65] [.cmp (.fwd .first) [65] [88] false [], .cmp (.fwd .all) [65] [89] false []]
    = [88, 89, 66, 89] := by decide

theorem finish_window (a w b : List Nat) (cl : List (Option Nat)) (h : cl.length = w.length) (x y : Nat) :
    inspFinish true ⟨a ++ w ++ b, List.replicate a.length none ++ cl ++ List.replicate b.length none, x, y⟩ =
      a ++ List.zipWith (fun c m => Option.getD m c) w cl ++ b := by
  unfold inspFinish
  simp only [if_true]
  rw [List.zipWith_append (by simp [h]), List.zipWith_append (by simp), zipWith_none, zipWith_none]

theorem claimAll_length (pat vals : List Nat) (cs : List (Nat × Option Nat)) : ∀ pend,
    (claimAll pat vals pend cs).1.length = cs.length := by
  induction cs with
  | nil => intro pend; cases pend <;> simp [claimAll]
  | cons c cs ih =>
    intro pend
    cases pend with
    | cons p ps => simp [claimAll, ih]
    | nil =>
      rw [claimAll.eq_def]
      simp only
      split
      · split
        · simp
        · simp [ih]
      · simp [ih]

theorem claimFirst_length (pat vals : List Nat) (hv : vals.length = pat.length) (cs : List Nat) :
    (claimFirst pat vals cs).1.length = cs.length := by
  induction cs with
  | nil => simp [claimFirst]
  | cons c cs ih =>
    rw [claimFirst]
    split
    · rename_i h
      have := h.length_le
      simp only [List.length_cons] at this
      simp
      omega
    · simp [ih]

/-- What a REPLACING phrase writes: the replacement itself, or a figurative constant repeated. -/
def Replacement (pat rep : List Nat) (isAll : Bool) (out : List Nat) : Prop :=
  (rep.length = pat.length ∧ out = rep) ∨ (rep.length ≠ pat.length ∧ isAll = true ∧ out = figurative rep pat.length)

theorem replace_scan (s : Insp) (ty : CmpType) (pat rep out : List Nat) (isAll : Bool) (h : Replacement pat rep isAll out) :
    (inspReplace s ty pat rep isAll).1 = (inspScan s ty pat out).1 ∧ out.length = pat.length := by
  unfold inspReplace
  rcases h with ⟨h1, rfl⟩ | ⟨h1, h2, rfl⟩
  · rw [if_neg (by omega)]; exact ⟨rfl, h1⟩
  · rw [if_pos h1, if_pos h2]; exact ⟨rfl, figurative_length _ _⟩

/-- C19: REPLACING ALL pat BY rep: in the region every occurrence (from the left, no overlap) is
replaced, everything else is kept. -/
theorem C19_all (d pat rep out : List Nat) (isAll : Bool) (hp : pat ≠ []) (h : Replacement pat rep isAll out) (rs : List Region) :
    inspectReplacing d [.cmp (.fwd .all) pat rep isAll rs] =
      (regionOf d rs).1 ++ replaceAll pat out [] (regionOf d rs).2.1 ++ (regionOf d rs).2.2 := by
  unfold inspectReplacing
  simp only [List.foldl_cons, List.foldl_nil, replPhrase]
  obtain ⟨h1, h2⟩ := replace_scan (inspRegion (inspInit d) rs) (.fwd .all) pat rep out isAll h
  rw [h1, init_region, scan_all_fresh _ _ _ _ _ hp h2]
  simp only
  rw [finish_window _ _ _ _ (by rw [claimAll_length]; simp), (claimAll_free pat out hp h2 _ []).2]

/-- C19: REPLACING LEADING. -/
theorem C19_leading (d pat rep out : List Nat) (isAll : Bool) (hp : pat ≠ []) (h : Replacement pat rep isAll out) (rs : List Region) :
    inspectReplacing d [.cmp (.fwd .leading) pat rep isAll rs] =
      (regionOf d rs).1 ++ replaceLeading pat out [] (regionOf d rs).2.1 ++ (regionOf d rs).2.2 := by
  unfold inspectReplacing
  simp only [List.foldl_cons, List.foldl_nil, replPhrase]
  obtain ⟨h1, h2⟩ := replace_scan (inspRegion (inspInit d) rs) (.fwd .leading) pat rep out isAll h
  rw [h1, init_region, scan_leading_fresh _ _ _ _ _ hp h2]
  simp only
  have hc := claimLead_spec pat out hp h2 (regionOf d rs).2.1 []
  rw [finish_window _ _ _ _ hc.2.2, hc.2.1]

/-- C19: REPLACING FIRST. -/
theorem C19_first (d pat rep out : List Nat) (isAll : Bool) (hp : pat ≠ []) (h : Replacement pat rep isAll out) (rs : List Region) :
    inspectReplacing d [.cmp (.fwd .first) pat rep isAll rs] =
      (regionOf d rs).1 ++ replaceFirst pat out (regionOf d rs).2.1 ++ (regionOf d rs).2.2 := by
  unfold inspectReplacing
  simp only [List.foldl_cons, List.foldl_nil, replPhrase]
  obtain ⟨h1, h2⟩ := replace_scan (inspRegion (inspInit d) rs) (.fwd .first) pat rep out isAll h
  rw [h1, init_region, scan_first_fresh _ _ _ _ _ hp h2]
  simp only
  rw [finish_window _ _ _ _ (claimFirst_length _ _ h2 _), claimFirst_spec pat out hp h2]

/-- C19: REPLACING TRAILING (the mirror image of LEADING). -/
theorem C19_trailing (d pat rep out : List Nat) (isAll : Bool) (hp : pat ≠ []) (h : Replacement pat rep isAll out) (rs : List Region) :
    inspectReplacing d [.cmp .trailing pat rep isAll rs] =
      (regionOf d rs).1 ++ (replaceLeading pat.reverse out.reverse [] (regionOf d rs).2.1.reverse).reverse ++ (regionOf d rs).2.2 := by
  unfold inspectReplacing
  simp only [List.foldl_cons, List.foldl_nil, replPhrase]
  obtain ⟨h1, h2⟩ := replace_scan (inspRegion (inspInit d) rs) .trailing pat rep out isAll h
  rw [h1, init_region, scan_trailing_fresh _ _ _ _ _ hp h2]
  simp only
  have hc := claimLead_spec pat.reverse out.reverse (by simpa using hp) (by simpa using h2) (regionOf d rs).2.1.reverse []
  rw [finish_window _ _ _ _ (by simpa using hc.2.2), ← hc.2.1]
  have hz : ∀ (w : List Nat) (cl : List (Option Nat)), cl.length = w.length →
      List.zipWith (fun c m => Option.getD m c) w cl.reverse = (List.zipWith (fun c m => Option.getD m c) w.reverse cl).reverse := by
    intro w cl hl
    rw [List.reverse_zipWith (by simpa using hl.symm), List.reverse_reverse]
  rw [hz _ _ (by simpa using hc.2.2)]

/-- C19: REPLACING CHARACTERS BY one character. -/
theorem C19_characters (d : List Nat) (v : Nat) (rs : List Region) :
    inspectReplacing d [.chars v rs] =
      (regionOf d rs).1 ++ List.replicate (regionOf d rs).2.1.length v ++ (regionOf d rs).2.2 := by
  unfold inspectReplacing
  simp only [List.foldl_cons, List.foldl_nil, replPhrase, inspReplaceChars]
  rw [init_region]
  simp only [Nat.add_sub_cancel_left]
  have h := char_loop v (regionOf d rs).2.1.length 0 (List.replicate (regionOf d rs).1.length none)
    (List.replicate (regionOf d rs).2.1.length none) (List.replicate (regionOf d rs).2.2.length none) (by simp)
  rw [List.length_replicate] at h
  rw [h]
  simp only
  rw [finish_window _ _ _ _ (by simp)]
  congr 2
  simp only [List.map_replicate, Option.getD_none]
  generalize (regionOf d rs).2.1 = w
  induction w with
  | nil => rfl
  | cons c w ih => simp [List.replicate_succ, ih]

/-- C19: operands of different length (and no figurative constant): nothing is replaced and
COB_EC_RANGE_INSPECT_SIZE is raised. -/
theorem C19_size_mismatch (s : Insp) (ty : CmpType) (pat rep : List Nat) (h : rep.length ≠ pat.length) :
    inspReplace s ty pat rep false = (s, true) := by
  unfold inspReplace
  rw [if_pos h]
  simp

example : Replacement [65, 66] [88, 89] false [88, 89] ∧ Replacement [65, 66] [32] true [32, 32] := by
  constructor
  · exact Or.inl ⟨rfl, rfl⟩
  · exact Or.inr ⟨by decide, rfl, by decide⟩

/-! ### CONVERTING -/

/-- The state of the conversion of the region `w` after part `done` of the table: characters in
the table are converted and marked. -/
theorem conv_inner (c : Nat) (t : Option Nat) (a b : List Nat) (k : Nat) :
    ∀ (W1 W2 : List Nat) (M1 M2 : List (Option Nat)) (M3 : List (Option Nat)), W2.length = k → M2.length = k → M1.length = W1.length →
    (t = none → ∀ x ∈ W2.zip M2, ¬ (x.2 = none ∧ x.1 = c)) →
    convInner c t a.length k W1.length (a ++ (W1 ++ W2) ++ b) (M1 ++ M2 ++ M3) =
      some (a ++ (W1 ++ (W2.zip M2).map (fun x => if x.2 = none ∧ x.1 = c then t.getD 0 else x.1)) ++ b,
        M1 ++ (W2.zip M2).map (fun x => if x.2 = none ∧ x.1 = c then some 1 else x.2) ++ M3) := by
  induction k with
  | zero =>
    intro W1 W2 M1 M2 M3 h1 h2 _ _
    rw [List.length_eq_zero_iff] at h1 h2
    subst h1 h2
    simp [convInner]
  | succ k ih =>
    intro W1 W2 M1 M2 M3 h1 h2 h3 ht
    cases W2 with
    | nil => simp at h1
    | cons x W2 =>
      cases M2 with
      | nil => simp at h2
      | cons m M2 =>
        unfold convInner
        have g1 : (M1 ++ m :: M2 ++ M3).getD W1.length none = m := by simp [List.getD, ← h3]
        have g2 : (a ++ (W1 ++ x :: W2) ++ b).getD (a.length + W1.length) 0 = x := by
          simp [List.getD]
        rw [g1, g2]
        by_cases hc : m = none ∧ x = c
        · rw [if_pos hc]
          cases t with
          | none => exact absurd hc (ht rfl (x, m) (by simp))
          | some t =>
            simp only
            have e1 : (a ++ (W1 ++ x :: W2) ++ b).set (a.length + W1.length) t = a ++ ((W1 ++ [t]) ++ W2) ++ b := by
              simp [List.set_append]
            have e2 : (M1 ++ m :: M2 ++ M3).set W1.length (some 1) = (M1 ++ [some 1]) ++ M2 ++ M3 := by
              rw [← h3]; simp
            rw [e1, e2]
            have := ih (W1 ++ [t]) W2 (M1 ++ [some 1]) M2 M3 (by simpa using h1) (by simpa using h2) (by simp [h3]) (by simp)
            rw [List.length_append, List.length_singleton] at this
            rw [this]
            simp [hc]
        · rw [if_neg hc]
          have := ih (W1 ++ [x]) W2 (M1 ++ [m]) M2 M3 (by simpa using h1) (by simpa using h2) (by simp [h3])
            (fun h y hy => ht h y (by simp [hy]))
          rw [List.length_append, List.length_singleton] at this
          rw [show a ++ (W1 ++ x :: W2) ++ b = a ++ ((W1 ++ [x]) ++ W2) ++ b by simp,
            show M1 ++ m :: M2 ++ M3 = (M1 ++ [m]) ++ M2 ++ M3 by simp, this]
          simp [hc]

/-- Result of the conversion loop from a state in which `W` is the current text and `M` its marks. -/
theorem conv_outer (a b : List Nat) (tab : List (Nat × Nat)) :
    ∀ (W : List Nat) (M M3 : List (Option Nat)), M.length = W.length →
    ∃ M', convOuter a.length W.length (tab.map (fun p => (p.1, some p.2))) (a ++ W ++ b) (M ++ M3) =
      some (a ++ (W.zip M).map (fun x => if x.2 = none then convertChar tab x.1 else x.1) ++ b, M' ++ M3) := by
  induction tab with
  | nil =>
    intro W M M3 hM
    refine ⟨M, ?_⟩
    simp only [List.map_nil, convOuter, convertChar, ite_self]
    rw [zip_fst _ _ hM]
  | cons p tab ih =>
    intro W M M3 hM
    simp only [List.map_cons, convOuter]
    have h := conv_inner p.1 (some p.2) a b W.length [] W [] M M3 rfl hM rfl (by simp)
    simp only [List.nil_append, List.length_nil] at h
    rw [h]
    simp only
    have hl : ((W.zip M).map (fun x => if x.2 = none ∧ x.1 = p.1 then (some p.2).getD 0 else x.1)).length = W.length := by
      simp [hM]
    have := ih ((W.zip M).map (fun x => if x.2 = none ∧ x.1 = p.1 then (some p.2).getD 0 else x.1))
      ((W.zip M).map (fun x => if x.2 = none ∧ x.1 = p.1 then some 1 else x.2)) M3 (by simp)
    rw [hl] at this
    obtain ⟨M', hM'⟩ := this
    refine ⟨M', ?_⟩
    rw [hM']
    congr 4
    rw [List.zip_map_left, List.zip_map_right, List.map_map, List.map_map]
    have hzz : ∀ l : List (Nat × Option Nat), l.zip l = l.map (fun x => (x, x)) := by
      intro l
      induction l with
      | nil => rfl
      | cons y l ih => simp [ih]
    rw [hzz, List.map_map]
    apply List.map_congr_left
    intro x _
    obtain ⟨x, m⟩ := x
    simp only [Function.comp, Prod.map, id]
    cases m with
    | none =>
      by_cases hx : x = p.1
      · simp [hx, convertChar]
      · simp [hx, convertChar]
    | some v => simp

/-- C20: CONVERTING from TO to (operands of equal length, or the TO operand one of QUOTE, SPACE,
ZERO): each character of the region that occurs in `from_` becomes the `to` character at its first
position there, once; all others, and everything outside the region, are kept. -/
theorem C20_converting (d from_ to_ : List Nat) (fig : Bool) (rs : List Region)
    (h : if fig then to_.length = 1 else to_.length = from_.length) :
    inspectConverting d from_ to_ fig rs = some
      ((regionOf d rs).1 ++ (regionOf d rs).2.1.map
        (convertChar (from_.zip (if fig then List.replicate from_.length (to_.getD 0 0) else to_))) ++ (regionOf d rs).2.2) := by
  unfold inspectConverting inspConvert
  rw [init_region]
  simp only [Nat.add_sub_cancel_left]
  have htos : ((List.range from_.length).map fun j => if fig then to_[0]? else to_[j]?) =
      (if fig then List.replicate from_.length (to_.getD 0 0) else to_).map some := by
    cases fig with
    | true =>
      simp only [if_true] at h ⊢
      match to_, h with
      | [x], _ =>
        apply List.ext_getElem
        · simp
        · intro n h1 h2; simp
    | false =>
      simp only [Bool.false_eq_true, if_false] at h ⊢
      apply List.ext_getElem
      · simp [h]
      · intro n h1 h2
        have : n < to_.length := by simpa using h2
        simp [List.getElem?_eq_getElem this]
  rw [htos]
  generalize (if fig then List.replicate from_.length (to_.getD 0 0) else to_) = tos
  have hz : from_.zip (tos.map some) = (from_.zip tos).map (fun p => (p.1, some p.2)) := by
    rw [List.zip_map_right]; rfl
  rw [hz]
  have := conv_outer (regionOf d rs).1 (regionOf d rs).2.2 (from_.zip tos) (regionOf d rs).2.1
    (List.replicate (regionOf d rs).2.1.length none)
    (List.replicate (regionOf d rs).1.length none ++ List.replicate (regionOf d rs).2.2.length none) (by simp)
  obtain ⟨M', hM⟩ := this
  rw [show List.replicate (regionOf d rs).1.length none ++ List.replicate (regionOf d rs).2.1.length none ++
      List.replicate (regionOf d rs).2.2.length (none : Option Nat) = List.replicate (regionOf d rs).2.1.length none ++
      (List.replicate (regionOf d rs).1.length none ++ List.replicate (regionOf d rs).2.2.length none) by
        simp only [List.replicate_append_replicate]; congr 1; omega]
  rw [hM]
  simp only [Option.map_some, inspFinish]
  rw [if_neg (by simp), zip_replicate, List.map_map]
  congr 3

/-- "ABCA" CONVERTING "ABA" TO "XYZ": A becomes X (its first position), not Z. -/
example : inspectConverting [65, 66, 67, 65] [65, 66, 65] [88, 89, 90] false [] = some [88, 89, 67, 88] := by decide

/-- C20: no chains: a character produced by the conversion is not converted again. -/
example : inspectConverting [65, 66] [65, 66] [66, 65] false [] = some [66, 65] := by decide

/-- Finding: CONVERTING "AB" TO LOW-VALUES (a one-byte figurative constant, not among the three
the runtime looks for) reads beyond the operand (strings.c:507-511). -/
theorem C20_low_values_reads_outside : inspectConverting [66] [65, 66] [0] false [] = none := by decide

/-! ### Numeric items -/

/-- libcob/strings.c:236-238, 533: INSPECT TALLYING of a zoned item works on its digits with the
sign taken off, and puts the sign back. -/
def inspectTallyingField (ebc : Bool) (f : Field) (ps : List TallyPhrase) : Field × List Nat :=
  let g := f.getSign ebc
  let r := inspectTallying g.2.digitBytes ps
  (g.2.putSign ebc g.1, r.2)

/-- C18: TALLYING phrases never change a zoned item, and see the digits of its absolute value. -/
theorem C18_numeric_item (ebc : Bool) (a : Attr) (neg : Bool) (ds : List Nat)
    (hs : a.separate = true → a.haveSign = true) (hne : ds ≠ []) (hd : ∀ d ∈ ds, d ≤ 9) (ps : List TallyPhrase) :
    inspectTallyingField ebc ⟨a, zonedImage a ebc neg ds⟩ ps =
      (⟨a, zonedImage a ebc neg ds⟩, (inspectTallying (ds.map (48 + ·)) ps).2) := by
  obtain ⟨h1, h2, h3, h4, h5, h6⟩ := image_getSign ebc a neg ds hs hne hd
  unfold inspectTallyingField
  simp only [h2, h3]

/-- C18: TALLYING phrases never change the inspected text. -/
theorem C18_item_unchanged (d : List Nat) (ps : List TallyPhrase) : (inspectTallying d ps).1 = d := by
  have key : ∀ (ps : List TallyPhrase) (s : Insp), s.marks.length = s.data.length →
      (tallyGo s ps).1.data = s.data := by
    intro ps
    induction ps with
    | nil => intro s _; rfl
    | cons p ps ih =>
      intro s hs
      simp only [tallyGo]
      have hp : (tallyPhrase s p).1.data = s.data ∧ (tallyPhrase s p).1.marks.length = s.data.length := by
        cases p with
        | chars rs =>
          obtain ⟨g1, g2⟩ := phrase_ext s hs (.chars 1 rs)
          exact ⟨g1, by have := g2.1; simp only [replPhrase, inspReplaceChars] at this; simp only [tallyPhrase, inspChars]; omega⟩
        | cmp ty pat rs =>
          obtain ⟨g1, g2⟩ := phrase_ext s hs (.cmp ty pat (List.replicate pat.length 1) false rs)
          simp only [replPhrase, inspReplace, List.length_replicate, ne_eq, not_true_eq_false, if_false] at g1 g2
          exact ⟨g1, by have := g2.1; simp only [tallyPhrase, inspTally]; omega⟩
      rw [ih _ (by rw [hp.1, hp.2]), hp.1]
  unfold inspectTallying inspFinish
  simp only [Bool.false_eq_true, if_false]
  exact key ps (inspInit d) (by simp [inspInit])

end Cob
