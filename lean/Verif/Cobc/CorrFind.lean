import Verif.Cobc.CorrRun
/-
CORRESPONDING: a sample that meets the hypotheses, and findings.
-/
namespace Cob

/-- `01 A. 05 N. 05 G. 10 C. 10 D. 05 T OCCURS. 05 H. 10 E.` and
`01 B. 05 G. 10 D. 10 F. 10 C. 05 N. 05 T. 05 H.` -/
def corrEntries : List DEntry :=
  [.item [48, 49] (some [65]), .item [48, 53] (some [78]), .item [48, 53] (some [71]),
   .item [49, 48] (some [67]), .item [49, 48] (some [68]), .item [48, 53] (some [84]),
   .item [48, 53] (some [72]), .item [49, 48] (some [69]),
   .item [48, 49] (some [66]), .item [48, 53] (some [71]), .item [49, 48] (some [68]),
   .item [49, 48] (some [70]), .item [49, 48] (some [67]), .item [48, 53] (some [78]),
   .item [48, 53] (some [84]), .item [48, 53] (some [72])]

def corrItems : CItems where
  nodes := match buildTree false dstart corrEntries with
    | .ok st => st.nodes
    | _ => []
  redefines := fun _ => false
  occurs := fun i => i == 5

def corrText : GText where
  levels := [1, 5, 5, 10, 10, 5, 5, 10, 1, 5, 10, 10, 10, 5, 5, 5]
  name := corrItems.nameOf
  plain := corrItems.plainItem

theorem corr_items : ItemsOf corrItems corrText where
  tree := by
    refine ⟨corrEntries, [some [65], some [78], some [71], some [67], some [68], some [84], some [72],
      some [69], some [66], some [71], some [68], some [70], some [67], some [78], some [84], some [72]],
      (match buildTree false dstart corrEntries with
        | .ok st => st
        | _ => dstart), ?_, ?_, ?_⟩
    · unfold corrEntries corrText
      repeat' first
        | exact .nil
        | apply Entries.item (by unfold IsLevel; decide) (by decide)
    · decide +kernel
    · decide +kernel
  name := fun _ => rfl
  flags := fun _ => rfl
  renames := by
    intro i h
    have : ∀ x ∈ corrText.levels, x ≠ 66 := by decide
    unfold lvlAt at h
    rw [List.getD_eq_getElem?_getD] at h
    cases hx : corrText.levels[i]? with
    | none => rw [hx] at h; cases h
    | some x =>
      rw [hx] at h
      exact absurd h (this x (List.mem_of_getElem? hx))

theorem corr_part {g i : Nat} (h : corrText.PartOf g i) : i < 16 ∧ ownerOf corrText.levels i = some g :=
  ⟨h.1, h.2.1⟩

example : corrText.NamesDiffer := by
  intro g i j hi hj hn
  have h : ∀ i < 16, ∀ j < 16, ownerOf corrText.levels i = ownerOf corrText.levels j →
      (ownerOf corrText.levels i).isSome = true → corrText.name i = corrText.name j → i = j := by
    decide +kernel
  have a := corr_part hi
  have b := corr_part hj
  exact h i a.1 j b.1 (by rw [a.2, b.2]) (by rw [a.2]; rfl) hn

/-- Every item of one byte, groups around: `LaidOut`. -/
def corrArea (i : Nat) : Nat × Nat :=
  [(0, 5), (0, 1), (1, 2), (1, 1), (2, 1), (3, 1), (4, 1), (4, 1),
   (8, 6), (8, 3), (8, 1), (9, 1), (10, 1), (11, 1), (12, 1), (13, 1)].getD i (0, 0)

example : corrText.LaidOut corrArea where
  inside := by
    intro g i h
    have a := corr_part h
    have all : ∀ i < 16, ∀ g < 16, ownerOf corrText.levels i = some g →
        (corrArea g).1 ≤ (corrArea i).1 ∧
        (corrArea i).1 + (corrArea i).2 ≤ (corrArea g).1 + (corrArea g).2 := by decide +kernel
    have := owner_lt a.2
    exact all i a.1 g (by omega) a.2
  apart := by
    intro g i j hi hj hne
    have a := corr_part hi
    have b := corr_part hj
    have : ∀ i < 16, ∀ j < 16, ownerOf corrText.levels i = ownerOf corrText.levels j →
        (ownerOf corrText.levels i).isSome = true → i = j ∨
        (corrArea i).1 + (corrArea i).2 ≤ (corrArea j).1 ∨
        (corrArea j).1 + (corrArea j).2 ≤ (corrArea i).1 := by decide +kernel
    exact (this i a.1 j b.1 (by rw [a.2, b.2]) (by rw [a.2]; rfl)).resolve_left hne

example : corrText.IsGroup 0 ∧ corrText.IsGroup 8 ∧ Apart (corrArea 0) (corrArea 8) :=
  ⟨⟨1, by decide⟩, ⟨9, by decide⟩, by unfold Apart; decide⟩

/-- `N`, `C` and `D` of `G`, and the group `H`, which is elementary in `B`; not
the table `T`. MOVE goes by the source, ADD by the target. -/
example : moveCorr corrItems corrItems 0 [8] = ([(1, 13), (3, 12), (4, 10), (6, 15)], false) ∧
    addCorr corrItems corrItems 0 8 = ([(4, 10), (3, 12), (1, 13), (6, 15)], false) := by
  decide +kernel

example : Corresponds corrText corrText 0 8 3 12 := by
  have part : ∀ {g i : Nat}, i < 16 → ownerOf corrText.levels i = some g → corrText.plain i = true →
      lvlAt corrText.levels i ≠ 88 → lvlAt corrText.levels i ≠ 66 → corrText.PartOf g i :=
    fun a b c d e => ⟨a, b, d, e, c⟩
  have p1 : corrText.PartOf 0 2 := part (by decide) (by decide) (by decide) (by decide) (by decide)
  have p2 : corrText.PartOf 2 3 := part (by decide) (by decide) (by decide) (by decide) (by decide)
  have p3 : corrText.PartOf 8 9 := part (by decide) (by decide) (by decide) (by decide) (by decide)
  have p4 : corrText.PartOf 9 12 := part (by decide) (by decide) (by decide) (by decide) (by decide)
  refine ⟨[corrText.name 2, corrText.name 3], .more p1 (.one p2), ?_, fun h =>
    absurd ((group_iff corr_items 3).1 h.1) (by decide +kernel)⟩
  have e : [corrText.name 2, corrText.name 3] = [corrText.name 9, corrText.name 12] := by
    decide +kernel
  rw [e]
  exact .more p3 (.one p4)

/-- **C72** Two items of one name in a group are accepted: in
`01 A. 05 N. 05 N.` and `01 B. 05 N.` both are moved to the target, one after
the other; the other way round both targets are set. -/
theorem C72_finding_duplicate :
    let T : CItems := {
      nodes := match buildTree false dstart
          [.item [48, 49] (some [65]), .item [48, 53] (some [78]), .item [48, 53] (some [78]),
           .item [48, 49] (some [66]), .item [48, 53] (some [78])] with
        | .ok st => st.nodes
        | _ => []
      redefines := fun _ => false
      occurs := fun _ => false }
    moveCorr T T 0 [3] = ([(1, 4), (2, 4)], false) ∧ moveCorr T T 3 [0] = ([(4, 1), (4, 2)], false) := by
  decide +kernel

/-- **C72** Names are compared with regard to the case of letters, and every
program has its own spelling of a word, the first that was written in it: a
GLOBAL group with an item `N` and a group of a contained program with an item
`n` have no corresponding items. -/
theorem C72_finding_case :
    let T (n : Nat) : CItems := {
      nodes := match buildTree false dstart [.item [48, 49] (some [65]), .item [48, 53] (some [n])] with
        | .ok st => st.nodes
        | _ => []
      redefines := fun _ => false
      occurs := fun _ => false }
    moveCorr (T 78) (T 78) 0 [0] = ([(1, 1)], false) ∧ moveCorr (T 78) (T 110) 0 [0] = ([], false) := by
  decide +kernel

end Cob
