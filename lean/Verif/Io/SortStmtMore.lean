import Verif.Io.SortGiving
/-
C76: INPUT and OUTPUT PROCEDURE beside USING and GIVING; examples; findings.
-/
namespace Cob

theorem releaseAll_of_submitAll (lt : SItem → SItem → Bool) (fs : Nat) (rs : List (Nat × List Nat)) : ∀ (h h' : Sorter),
    submitAll lt fs rs h = some h' → releaseAll lt fs rs h = some h' := by
  induction rs with
  | nil => intro h h' hh; exact hh
  | cons r rs ih =>
    intro h h' hh
    simp only [submitAll, releaseAll] at hh ⊢
    cases hq : sortSubmit lt fs h r.1 r.2 with
    | none => rw [hq] at hh; cases hh
    | some p =>
      rw [hq] at hh
      dsimp only at hh ⊢
      split at hh
      · cases hh
      · exact ih _ _ hh

/-- **C76.** SORT with an INPUT PROCEDURE that releases the records `rs`, GIVING `gs`: every GIVING file then holds exactly these
records, sorted, made as long as its own record. -/
theorem C76_procedure_giving (ebc : Bool) (col : Option (Nat → Nat)) (ks : List SortKey) (size memory fs fuel : Nat)
    (gs : List Nat) (f : SFiles) (area : List Nat) (rs : List (Nat × List Nat)) (hgn : gs.Nodup)
    (hv : ∀ x ∈ rs, x.2.length = size ∧ RecValid ebc ks x.2) (hn : rs.length < 2 ^ 64) (hm : 4 ≤ memory ∨ rs.length ≤ memory)
    (hfs : 2 * rs.length + 3 ≤ fs) (hfuel : rs.length < fuel) (hg : ∀ g ∈ gs, GivingOk (f g))
    (hb : ∀ g ∈ gs, ∀ x ∈ rs, HoldsBytes (f g) (fitTo (f g).recMax x.2)) :
    ∃ o f', SortedReleases ebc col ks rs o ∧
      (releaseAll (sortLt ebc col ks) fs rs (.init size memory)).bind (sortGiving (sortLt ebc col ks) fs fuel gs f area) =
        some (0, f') ∧
      (∀ g ∈ gs, FileHas (f' g) (o.map fun a => fitTo (f g).recMax a.1.2)) ∧ (∀ k, k ∉ gs → f' k = f k) := by
  obtain ⟨o, h, h1, h2, h3, out, h4, h5⟩ := sorted_all ebc col ks size memory fs rs hv hn hm hfs
  have hoe : ∀ r ∈ out, ∃ q ∈ rs, r.1 = q.2 := by
    intro r hr
    have : r.1 ∈ o.map fun a => a.1.2 := by rw [← h4]; exact List.mem_map.2 ⟨r, hr, rfl⟩
    obtain ⟨a, ha, e⟩ := List.mem_map.1 this
    exact ⟨a.1, List.fst_mem_of_mem_zipIdx (h1.1.mem_iff.1 ha), e.symm⟩
  have hol : out.length = rs.length := by
    have := congrArg List.length h4
    rw [List.length_map, List.length_map] at this
    rw [this, h1.1.length_eq, List.length_zipIdx]
  obtain ⟨f2, k1, k2, k3⟩ := sortGiving_all ebc col ks size fs fuel h h3 out (by
      intro r hr
      obtain ⟨q, hq, e⟩ := hoe r hr
      rw [e]; exact (hv q hq).1) h5 gs hgn f area (by omega) hg (by
      intro g hgm r hr
      obtain ⟨q, hq, e⟩ := hoe r hr
      rw [e]; exact hb g hgm q hq)
  refine ⟨o, f2, h1, ?_, ?_, k3⟩
  · rw [releaseAll_of_submitAll _ _ _ _ _ h2]
    exact k1
  · intro g hgm
    have := k2 g hgm
    have e : (out.map fun r => fitTo (f g).recMax r.1) = o.map fun a => fitTo (f g).recMax a.1.2 := by
      have := congrArg (List.map (fitTo (f g).recMax)) h4
      rw [List.map_map, List.map_map] at this
      exact this
    rw [e] at this
    exact this

theorem sortSpec_releases (rs : List (Nat × List Nat)) (out : List (List Nat × Option Nat)) (ops : List SortOp) :
    sortSpec out false (rs.map (fun r => SortOp.release r.1 r.2) ++ ops) =
      rs.map (fun _ => ⟨0, none, none⟩) ++ sortSpec out false ops := by
  induction rs with
  | nil => rfl
  | cons r rs ih => simp only [List.map_cons, List.cons_append, sortSpec, ih]

theorem released_ret (rs : List (Nat × List Nat)) (ops : List SortOp) :
    released (rs.map (fun r => SortOp.release r.1 r.2) ++ .ret :: ops) = rs := by
  induction rs with
  | nil => rfl
  | cons r rs ih => simp only [List.map_cons, List.cons_append, released, ih]

/-- **C76.** SORT USING `us` with an OUTPUT PROCEDURE: whatever the procedure does from its first RETURN on, it is given the
records of the files, made as long as the sort record, in sorted order, and is then told the end. -/
theorem C76_using_procedure (ebc : Bool) (col : Option (Nat → Nat)) (ks : List SortKey) (size memory fs fuel : Nat)
    (dep : Option Nat) (us : List Nat) (f : SFiles) (area : List Nat) (rss : List (List (List Nat))) (ops : List SortOp)
    (hu : us.Nodup) (hr : List.Forall₂ (fun u rs => FileHas (f u) rs ∧ rs.length < fuel) us rss)
    (hv : ∀ r ∈ rss.flatten, RecValid ebc ks (fitTo size r))
    (hn : rss.flatten.length < 2 ^ 64) (hm : 4 ≤ memory ∨ rss.flatten.length ≤ memory)
    (hfs : 2 * rss.flatten.length + 3 ≤ fs) :
    ∃ o f' area' h, SortedReleases ebc col ks (rss.flatten.map fun r => (dep.getD size, fitTo size r)) o ∧
      sortUsings (sortLt ebc col ks) fs fuel dep us f area (.init size memory) = some (f', area', h) ∧
      sortRun (sortLt ebc col ks) fs h (.ret :: ops) = some (sortSpec (o.map fun a =>
        (a.1.2, if rss.flatten.length ≤ memory then some a.1.1 else none)) false (.ret :: ops)) ∧
      ∀ k, (f' k).disk = (f k).disk := by
  generalize hrs : (rss.flatten.map fun r => (dep.getD size, fitTo size r)) = rs
  have hl : rs.length = rss.flatten.length := by rw [← hrs, List.length_map]
  obtain ⟨o, h1, h2⟩ := C40_sort ebc col ks size memory fs (rs.map (fun r => SortOp.release r.1 r.2) ++ .ret :: ops)
    (by
      rw [released_ret, ← hrs]
      intro x hx
      obtain ⟨r, hr, rfl⟩ := List.mem_map.1 hx
      exact ⟨fitTo_length _ _, hv r hr⟩)
    (by rw [released_ret, hl]; exact hn) (by rw [released_ret, hl]; exact hm) (by rw [released_ret, hl]; exact hfs)
  rw [released_ret] at h1 h2
  rw [sortSpec_releases] at h2
  obtain ⟨h, m1, m2⟩ := sortRun_releases _ fs rs _ _ _ h2
  rw [← hrs] at m1
  obtain ⟨f1, area1, g1, g2, g3⟩ := sortUsings_reads (sortLt ebc col ks) fs fuel dep us f rss area (.init size memory) h hu hr m1
  refine ⟨o, f1, area1, h, h1, g1, ?_, fun k => (g2 k).disk⟩
  rw [m2, hl]

/-! ### Examples -/

/-- A SEQUENTIAL file with records of 3 characters, a LINE SEQUENTIAL one with lines of up to 4, an OPTIONAL file that is
missing, and two files to be written. -/
def exSortFiles : SFiles := fun
  | 0 => ⟨false, false, false, 3, 3, 3, [0, 0, 0], none, some [66, 49, 49, 65, 49, 50]⟩
  | 1 => ⟨true, false, false, 0, 4, 4, [0, 0, 0, 0], none, some [67, 10, 65, 50, 10]⟩
  | 3 => ⟨true, false, false, 0, 2, 2, [0, 0], none, none⟩
  | 4 => ⟨false, false, false, 1, 5, 5, [0, 0, 0, 0, 0], none, some [1, 2, 3]⟩
  | _ => ⟨false, false, false, 3, 3, 3, [0, 0, 0], none, none⟩

/-- The hypotheses of `C76_using_giving` hold. -/
example : List.Forall₂ (fun u rs => FileHas (exSortFiles u) rs) [0, 1, 2]
      [[[66, 49, 49], [65, 49, 50]], [[67, 32, 32, 32], [65, 50, 32, 32]], []] ∧
    (∀ g ∈ [3, 4, 0], GivingOk (exSortFiles g) ∧
      ((exSortFiles g).line = true ∨ (exSortFiles g).recMin = (exSortFiles g).recMax ∨ g ∉ [0, 1, 2])) := by
  refine ⟨?_, ?_⟩
  · refine .cons ?_ (.cons ?_ (.cons ?_ .nil)) <;> decide +kernel
  · intro g hg
    simp only [List.mem_cons, List.not_mem_nil, or_false] at hg
    rcases hg with rfl | rfl | rfl
    · exact ⟨⟨rfl, rfl, by decide, by decide, by decide⟩, by decide⟩
    · exact ⟨⟨rfl, rfl, by decide, by decide, by decide⟩, by decide⟩
    · exact ⟨⟨rfl, rfl, by decide, by decide, by decide⟩, by decide⟩

/-- SORT on the first character. -/
example : (sortStmt (sortLt false none exSortKey) 40 40 3 4 none [0, 1, 2] [3, 4, 0] exSortFiles [0, 0, 0]).map
      (fun p => (p.1, (p.2 3).disk, (p.2 4).disk, (p.2 0).disk)) =
    some (0, some [65, 49, 10, 65, 50, 10, 66, 49, 10, 67, 10],
      some [0, 5, 0, 0, 65, 49, 50, 32, 32, 0, 5, 0, 0, 65, 50, 32, 32, 32, 0, 5, 0, 0, 66, 49, 49, 32, 32,
        0, 5, 0, 0, 67, 32, 32, 32, 32],
      some [65, 49, 50, 65, 50, 32, 66, 49, 49, 67, 32, 32]) := by
  decide +kernel

/-! ### Findings -/

/-- **C76, finding.** The size of the record area is not set back by OPEN.  SORT S USING F GIVING F with records of variable
length: all records are written with the length of the one that was read last.  "BXXXX" and "A" come back as "A" and "B". -/
theorem C76_finding_same_file :
    let f : SFiles := fun _ => ⟨false, false, false, 1, 5, 5, [0, 0, 0, 0, 0], none,
      some ([0, 5, 0, 0, 66, 88, 88, 88, 88] ++ [0, 1, 0, 0, 65])⟩
    FileHas (f 0) [[66, 88, 88, 88, 88], [65]] ∧
    (sortStmt (sortLt false none exSortKey) 40 40 5 4 none [0] [0] f [0, 0, 0, 0, 0]).map (fun p => (p.1, (p.2 0).disk)) =
      some (0, some ([0, 1, 0, 0, 65] ++ [0, 1, 0, 0, 66])) := by
  refine ⟨?_, ?_⟩
  · decide +kernel
  · decide +kernel

/-- **C76, finding.** A GIVING file with RECORD DEPENDING ON: the item is not set, its old value is the length of all records;
when it is 0, every WRITE fails and the file stays empty, though SORT-RETURN is 0. -/
theorem C76_finding_depending : ∀ d ∈ [0, 2],
    let f : SFiles := fun k => if k = 0 then ⟨false, false, false, 3, 3, 3, [0, 0, 0], none, some [66, 49, 49, 65, 49, 50]⟩
      else ⟨false, false, false, 1, 3, 3, [0, 0, 0], some d, none⟩
    (sortStmt (sortLt false none exSortKey) 40 40 3 4 none [0] [1] f [0, 0, 0]).map (fun p => (p.1, (p.2 1).disk)) =
      some (0, some (if d = 0 then [] else [0, 2, 0, 0, 65, 49] ++ [0, 2, 0, 0, 66, 49])) := by
  decide +kernel

/-- **C76, finding.** A USING file that is missing is taken for empty also when it is not OPTIONAL: the GIVING file is made
empty, SORT-RETURN is 0. -/
theorem C76_finding_missing :
    let f : SFiles := fun k => if k = 0 then ⟨false, false, false, 3, 3, 3, [0, 0, 0], none, none⟩
      else ⟨false, false, false, 3, 3, 3, [0, 0, 0], none, some [66, 49, 49]⟩
    (sortStmt (sortLt false none exSortKey) 40 40 3 4 none [0] [1] f [0, 0, 0]).map (fun p => (p.1, (p.2 1).disk)) =
      some (0, some []) := by
  decide +kernel

/-- **C76, finding.** A last record that is too short (READ answers 04) is sorted with the end of the record before it: "ABC"
and "DE" give "ABC" and "DEC". -/
theorem C76_finding_short_record :
    let f : SFiles := fun k => if k = 0 then ⟨false, false, false, 3, 3, 3, [0, 0, 0], none, some [65, 66, 67, 68, 69]⟩
      else ⟨false, false, false, 3, 3, 3, [0, 0, 0], none, none⟩
    (sortStmt (sortLt false none exSortKey) 40 40 3 4 none [0] [1] f [0, 0, 0]).map (fun p => (p.1, (p.2 1).disk)) =
      some (0, some [65, 66, 67, 68, 69, 67]) := by
  decide +kernel

end Cob
