import Verif.Cobc.RefsProps
/-
Sample programs for the theorems about references, and what the compiler does
in cases the theorems leave out.
-/
namespace Cob

/-- The items `01 A. 05 B. 10 C. 05 D. 10 C.` and `01 E. 05 C.`, `E` the record
of the file `F`, index `I` of the table `B`; section `S` (position 8) with the
paragraph `P`, section `T` (10) with the paragraphs `P` and `Q`. -/
def refProg : NProg where
  level := 0
  nodes := match buildTree false dstart
      [.item [48, 49] (some [65]), .item [48, 53] (some [66]), .item [49, 48] (some [67]),
       .item [48, 53] (some [68]), .item [49, 48] (some [67]),
       .item [48, 49] (some [69]), .item [48, 53] (some [67])] with
    | .ok st => st.nodes
    | _ => []
  fileOf := fun r => if r = 5 then some 0 else none
  isGlobal := fun i => i == 1 || i == 4
  defs := [([70], .file), ([65], .data 0), ([66], .data 1), ([73], .index 1), ([67], .data 2),
    ([68], .data 3), ([67], .data 4), ([67], .data 6), ([83], .label none), ([80], .label (some 8)),
    ([84], .label none), ([80], .label (some 10)), ([81], .label (some 10))]

/-! `c OF a` is ambiguous, `c OF b` and `c OF b OF A` are the first, `C OF d`
the second, `C OF F` the third. -/

theorem ref_one {P : NProg} {name : List Nat} {quals : List (List Nat)} {i : Nat}
    (h : (itemsOf P name).filter (fun j => (ownRest P quals j).isEmpty) = [i]) :
    Meant P name quals i ∧ ∀ j, Meant P name quals j → j = i := by
  have hm : ∀ j, Meant P name quals j ↔ j = i := fun j => by
    rw [meant_fit, ← List.mem_filter (p := fun j => (ownRest P quals j).isEmpty), h,
      List.mem_singleton]
  exact ⟨(hm i).2 rfl, fun j hj => (hm j).1 hj⟩

example : Meant refProg [99] [[98], [65]] 4 ∧ ∀ j, Meant refProg [99] [[98], [65]] j → j = 4 :=
  ref_one (by decide +kernel)

example : NotLocal refProg [99] [[98], [65]] none := fun h => absurd h (by decide)

example : Meant refProg [67] [[70]] 7 ∧ ∀ j, Meant refProg [67] [[70]] j → j = 7 :=
  ref_one (by decide +kernel)

example : Meant refProg [73] [[65]] 3 ∧ ∀ j, Meant refProg [73] [[65]] j → j = 3 :=
  ref_one (by decide +kernel)

example : Meant refProg [80] [[84]] 11 ∧ ∀ j, Meant refProg [80] [[84]] j → j = 11 :=
  ref_one (by decide +kernel)

example : cbRef refProg [] [99] [[98]] none = .found 0 4 ∧
    cbRef refProg [] [67] [[68]] none = .found 0 6 ∧
    cbRef refProg [] [67] [[70]] none = .found 0 7 ∧
    cbRef refProg [] [67] [[69], [70]] none = .found 0 7 ∧
    cbRef refProg [] [67] [[65]] none = .ambiguous ∧
    cbRef refProg [] [67] [[65], [66]] none = .undefined ∧
    cbRef refProg [] [80] [] (some 8) = .found 0 9 ∧
    cbRef refProg [] [80] [] (some 10) = .found 0 11 ∧
    cbRef refProg [] [80] [] none = .ambiguous ∧
    cbRef refProg [] [81] [] (some 8) = .found 0 12 := by decide +kernel

/-- Ambiguous: two definitions fit. -/
example : Meant refProg [67] [[65]] 4 ∧ Meant refProg [67] [[65]] 6 := by
  refine ⟨(meant_fit ..).2 ?_, (meant_fit ..).2 ?_⟩ <;> decide +kernel

/-- Own section: the hypotheses of `C71_own_section`. -/
example : 9 ∈ itemsOf refProg [80] ∧ defAt refProg 9 = .label (some 8) ∧
    ∀ j ∈ itemsOf refProg [80], defAt refProg j = .label (some 8) → j = 9 := by
  refine ⟨by decide +kernel, by decide +kernel, by decide +kernel⟩

/-- No definition fits. -/
example : ∀ i, ¬ Meant refProg [67] [[65], [66]] i := by
  intro i h
  have h := (meant_fit ..).1 h
  exact absurd (List.mem_filter (p := fun j => (ownRest refProg [[65], [66]] j).isEmpty).2 h)
    (by
      have e : (itemsOf refProg [67]).filter (fun j => (ownRest refProg [[65], [66]] j).isEmpty) = [] := by
        decide +kernel
      rw [e]
      simp)

/-! ### Contained programs -/

/-- A program of a nesting level with these words, which are all other things
than data items, and GLOBAL. -/
def miniProg (level : Nat) (defs : List (List Nat × NDef)) : NProg :=
  { level := level, nodes := [DNode.mk 77 [88] none none none], fileOf := fun _ => none,
    isGlobal := fun _ => true, defs := defs }

/-- `C OF B` with `C` GLOBAL in the program around. -/
example : containing 1 1 [refProg] = [(1, refProg)] ∧
    cbRef (miniProg 1 []) [refProg] [67] [[66]] none = .found 1 4 ∧
    cbRef (miniProg 1 []) [refProg] [67] [[68]] none = .undefined ∧
    (∀ i, ¬ Meant (miniProg 1 []) [67] [[66]] i) := by
  refine ⟨rfl, by decide +kernel, by decide +kernel, fun i h => ?_⟩
  have h := h.1
  have e : itemsOf (miniProg 1 []) [67] = [] := by decide
  rw [e] at h
  cases h

/-- An item of the innermost containing program hides one further out; the
program beside it, of the same level as the reference, is not looked at. -/
example : cbRef (miniProg 2 []) [miniProg 2 [([88], .data 0)], miniProg 1 [([88], .data 0)],
      miniProg 0 [([88], .data 0)]] [88] [] none = .found 2 0 ∧
    (containing 2 1 [miniProg 2 [([88], .data 0)], miniProg 1 [([88], .data 0)],
      miniProg 0 [([88], .data 0)]]).map (·.1) = [2, 3] := by decide +kernel

/-- **C71** The search does not follow the nesting: program 1 of a source
contains 2 (which ends) and 3, which contains the reference. A GLOBAL item of
program 2, which does not contain the reference, is taken before the item of
program 1. -/
theorem C71_finding_not_containing :
    let before := [miniProg 1 [], miniProg 1 [([88], .data 0)], miniProg 0 [([88], .data 0)]]
    (containing 2 1 before).map (·.1) = [1, 3] ∧
    cbRef (miniProg 2 []) before [88] [] none = .found 2 0 := by decide +kernel

/-- **C71** Paragraphs and files that are not GLOBAL are found from contained
programs: only data items are looked at for GLOBAL. -/
theorem C71_finding_label_file :
    let outer : NProg := { miniProg 0 [([80], .label none), ([70], .file)] with isGlobal := fun _ => false }
    cbRef (miniProg 1 []) [outer] [80] [] none = .found 1 0 ∧
    cbRef (miniProg 1 []) [outer] [70] [] none = .found 1 1 := by decide +kernel

/-- **C71** The item of a GLOBAL record can be qualified by the name of the
GLOBAL file in its own program, not in a contained one. -/
theorem C71_finding_global_file :
    let outer : NProg := { refProg with isGlobal := fun _ => true }
    cbRef outer [] [67] [[70]] none = .found 0 7 ∧
    cbRef (miniProg 1 []) [outer] [67] [[69]] none = .found 1 7 ∧
    cbRef (miniProg 1 []) [outer] [67] [[70]] none = .undefined := by decide +kernel

/-- **C71** A paragraph whose name is a number cannot be qualified by a
section whose name is a number: the qualifier is dropped. In section `10`,
`100 OF 20` is paragraph `100` of section `10`. -/
theorem C71_finding_number_label :
    let P := miniProg 0 [([49, 48], .label none), ([49, 48, 48], .label (some 0)),
      ([50, 48], .label none), ([49, 48, 48], .label (some 2))]
    let r := labelRef (.integerIn [49, 48, 48] [50, 48])
    cbRef P [] r.1 r.2 (some 0) = .found 0 1 ∧
    Meant P [49, 48, 48] [[50, 48]] 3 ∧ ∀ j, Meant P [49, 48, 48] [[50, 48]] j → j = 3 :=
  ⟨by decide +kernel, ref_one (by decide +kernel)⟩

end Cob
