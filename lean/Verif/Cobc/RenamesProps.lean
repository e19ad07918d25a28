import Verif.Cobc.Renames
import Verif.Cobc.LayoutProps
/-
C96: RENAMES.
-/
namespace Cob.Renames

/-! ### Specification vocabulary -/

/-- In the source text the entry at the path `p` is in front of that at `q`, and neither contains the other: below some entry one is, or is in, the
subordinate entry `i`, the other is, or is in, the subordinate entry `j > i`, which is not a redefinition. -/
def Before (rcd : Lay) (p q : List Nat) : Prop :=
  ∃ r i j s t g, p = r ++ i :: s ∧ q = r ++ j :: t ∧ i < j ∧ item rcd (r ++ [j]) = some g ∧ g.redef = false

/-- The entry at `q` is that at `p` or belongs to it. -/
def Under (p q : List Nat) : Prop := ∃ s, q = p ++ s

/-! ### Lemmas -/

theorem item_append (p q : List Nat) (l : Lay) : item l (p ++ q) = (item l p).bind fun c => item c q := by
  induction p generalizing l with
  | nil => rfl
  | cons k ks ih =>
    simp only [List.cons_append, item]
    cases l.children[k]? with
    | none => rfl
    | some c => exact ih c

theorem item_move (l : Lay) (pad k : Nat) (ks : List Nat) : item (l.move pad) (k :: ks) = item l (k :: ks) := by
  cases l; rfl

theorem placeList_mem (cs : List Dd) (foff size poff ptotal : Nat) (l : Lay) (h : l ∈ (placeList id foff size poff ptotal cs).1) :
    ∃ c ∈ cs, ∃ o pad, l = (place id o c).move pad := by
  induction cs generalizing foff size poff ptotal with
  | nil => simp [placeList] at h
  | cons c cs ih =>
    rw [placeList] at h
    split at h
    · simp only at h
      rcases List.mem_cons.1 h with rfl | h
      · exact ⟨c, List.mem_cons_self, _, 0, (Lay.move_zero _).symm⟩
      · obtain ⟨d, hd, x⟩ := ih _ _ _ _ h
        exact ⟨d, List.mem_cons_of_mem _ hd, x⟩
    · simp only at h
      rcases List.mem_cons.1 h with rfl | h
      · exact ⟨c, List.mem_cons_self, _, _, rfl⟩
      · obtain ⟨d, hd, x⟩ := ih _ _ _ _ h
        exact ⟨d, List.mem_cons_of_mem _ hd, x⟩

theorem item_place (p : List Nat) (d : Dd) (off : Nat) (x : Lay) (hp : Plain d) (pad : Nat)
    (h : item ((place id off d).move pad) p = some x) : ∃ d' off' pad', Plain d' ∧ x = (place id off' d').move pad' := by
  induction p generalizing d off pad with
  | nil =>
    simp only [item, Option.some.injEq] at h
    exact ⟨d, off, pad, hp, h.symm⟩
  | cons k ks ih =>
    rw [item_move] at h
    cases d with
    | elem => simp [item, place, Lay.children] at h
    | group occurs sync redef cs =>
      simp only [item, place, Lay.children] at h
      cases hk : (placeList id off 0 0 0 cs).1[k]? with
      | none => rw [hk] at h; cases h
      | some c =>
        rw [hk] at h
        simp only at h
        obtain ⟨d', hd', o, pad', rfl⟩ := placeList_mem cs _ _ _ _ c (List.mem_of_getElem? hk)
        exact ih d' o (hp.groupInv.2.2 d' hd') pad' h

theorem item_nested (p : List Nat) (l x : Lay) (hn : Nested l) (h : item l p = some x) : Nested x := by
  induction p generalizing l with
  | nil => simp only [item, Option.some.injEq] at h; exact h ▸ hn
  | cons k ks ih =>
    simp only [item] at h
    cases hk : l.children[k]? with
    | none => rw [hk] at h; cases h
    | some c =>
      rw [hk] at h
      refine ih c ?_ h
      cases hn with
      | mk o size occurs redef cs hin hc => exact hc c (List.mem_of_getElem? hk)

/-- What holds of every entry of a record. -/
theorem item_facts (d : Dd) (off : Nat) (hp : Plain d) (p : List Nat) (x : Lay) (h : item (layout off d) p = some x) :
    Nested x ∧ 1 ≤ x.occurs ∧ ∃ e q, LaidOut e q x.children := by
  refine ⟨item_nested p _ x (C48_nested d off hp) h, ?_⟩
  obtain ⟨d', o, pad, hp', rfl⟩ := item_place p d off x hp 0 (by rw [Lay.move_zero]; exact h)
  cases hp' with
  | elem _ _ _ _ ho => exact ⟨ho, 0, 0, .nil _ _⟩
  | group occurs redef cs ho hf hc => exact ⟨ho, o, 0, C48_disjoint occurs redef cs o (.group occurs redef cs ho hf hc)⟩

theorem size_total {x : Lay} (h : 1 ≤ x.occurs) : x.size ≤ x.total := Nat.le_mul_of_pos_right _ h

/-- An entry lies in the entries that contain it. -/
theorem inside (d : Dd) (off : Nat) (hp : Plain d) (q : List Nat) :
    ∀ (p : List Nat) (g x : Lay), item (layout off d) p = some g → item g q = some x →
      g.offset ≤ x.offset ∧ x.offset + x.total ≤ g.offset + g.total ∧ (q ≠ [] → x.offset + x.total ≤ g.offset + g.size) := by
  induction q with
  | nil =>
    intro p g x _ h
    simp only [item, Option.some.injEq] at h
    subst h
    exact ⟨Nat.le_refl _, Nat.le_refl _, fun h => absurd rfl h⟩
  | cons k ks ih =>
    intro p g x hg h
    have h0 := h
    simp only [item] at h
    cases hk : g.children[k]? with
    | none => rw [hk] at h; cases h
    | some c =>
      rw [hk] at h
      simp only at h
      have hc : item (layout off d) (p ++ [k]) = some c := by
        rw [item_append, hg]
        simp [item, hk]
      obtain ⟨a, b, _⟩ := ih (p ++ [k]) c x hc h
      obtain ⟨hn, ho, _⟩ := item_facts d off hp p g hg
      have hin : g.offset ≤ c.offset ∧ c.offset + c.total ≤ g.offset + g.size := by
        cases hn with
        | mk o size occurs redef cs hin hc => exact hin c (List.mem_of_getElem? hk)
      have := size_total ho
      exact ⟨by omega, by omega, fun _ => by omega⟩

theorem before_apart (d : Dd) (off : Nat) (hp : Plain d) (p q : List Nat) (x y : Lay) (hx : item (layout off d) p = some x)
    (hy : item (layout off d) q = some y) (h : Before (layout off d) p q) : x.offset + x.total ≤ y.offset := by
  obtain ⟨r, i, j, s, t, g, rfl, rfl, hij, hg, hr⟩ := h
  cases hm : item (layout off d) r with
  | none => rw [item_append, hm] at hg; cases hg
  | some m =>
    rw [item_append, hm] at hx hy hg
    simp only [Option.bind_some, item] at hx hy hg
    cases hi : m.children[i]? with
    | none => rw [hi] at hx; cases hx
    | some ci =>
      cases hj : m.children[j]? with
      | none => rw [hj] at hy; cases hy
      | some cj =>
        rw [hi] at hx
        rw [hj] at hy hg
        simp only at hx hy
        simp only [Option.some.injEq] at hg
        subst hg
        obtain ⟨_, _, e, o, hl⟩ := item_facts d off hp r m hm
        have h1 := (C48_ordered_disjoint hl).2 i j ci cj hij hi hj hr
        have ei : item (layout off d) (r ++ [i]) = some ci := by rw [item_append, hm]; simp [item, hi]
        have ej : item (layout off d) (r ++ [j]) = some cj := by rw [item_append, hm]; simp [item, hj]
        have h2 := inside d off hp s _ ci x ei hx
        have h3 := inside d off hp t _ cj y ej hy
        omega

theorem under_in (d : Dd) (off : Nat) (hp : Plain d) (p q : List Nat) (x y : Lay) (hx : item (layout off d) p = some x)
    (hy : item (layout off d) q = some y) (h : Under p q) :
    x.offset ≤ y.offset ∧ y.offset + y.total ≤ x.offset + x.total ∧ (p ≠ q → y.offset + y.total ≤ x.offset + x.size) := by
  obtain ⟨s, rfl⟩ := h
  rw [item_append, hx] at hy
  simp only [Option.bind_some] at hy
  have := inside d off hp s p x y hx hy
  exact ⟨this.1, this.2.1, fun hne => this.2.2 fun hs => hne (by rw [hs, List.append_nil])⟩

theorem levelOk_iff (n : Nat) : levelOk n = true ↔ n ≠ 1 ∧ n ≤ 50 := by
  simp [levelOk]

/-! ### Properties -/

/-- C96: a 66 item is accepted exactly if what it names is not at level 01 and not at a level above 50 (so no 66, 77, 78 or 88 item). -/
theorem C96_accepted (b : Nat × Lay) (c : Option (Nat × Lay)) :
    (renames b c).isSome = true ↔ (b.1 ≠ 1 ∧ b.1 ≤ 50) ∧ ∀ x, c = some x → x.1 ≠ 1 ∧ x.1 ≤ 50 := by
  rw [← levelOk_iff]
  unfold renames
  cases hb : levelOk b.1 with
  | false => simp
  | true =>
    cases c with
    | none => simp
    | some x =>
      cases hx : levelOk x.1 with
      | false =>
        have : ¬(x.1 ≠ 1 ∧ x.1 ≤ 50) := fun h => by rw [(levelOk_iff _).2 h] at hx; cases hx
        simp only [Bool.not_true, Bool.false_eq_true, if_false, hx, Bool.not_false, if_true, Option.isSome_none, false_iff]
        exact fun h => this (h.2 x rfl)
      | true =>
        have := (levelOk_iff _).1 hx
        simp only [Bool.not_true, Bool.false_eq_true, if_false, hx, Option.isSome_some, true_iff]
        exact ⟨trivial, fun y hy => by cases hy; exact this⟩

/-- C96: `66 R RENAMES B` stands for the bytes of B (of its first occurrence, if it has OCCURS). -/
theorem C96_one (b : Nat × Lay) (r : Nat × Int) (h : renames b none = some r) : r.1 = b.2.offset ∧ r.2 = b.2.size := by
  unfold renames at h
  split at h
  · cases h
  · simp only [Option.some.injEq] at h
    subst h
    exact ⟨rfl, rfl⟩

/-- C96: `66 R RENAMES B THRU C`, in a record of any depth, where B stands in front of C: R begins where B begins, ends where (the first occurrence of)
C ends, and is not empty if C is not; B and everything in it, and every entry between B and C with everything in it, lies wholly in R; C and
everything in it too, if C has no OCCURS clause; what stands in front of B ends before R begins, and what stands behind C begins after R has ended;
and R lies in the record. -/
theorem C96_range (d : Dd) (off : Nat) (hp : Plain d) (pb pc : List Nat) (b c : Lay) (lb lc : Nat) (r : Nat × Int)
    (hb : item (layout off d) pb = some b) (hc : item (layout off d) pc = some c) (hord : Before (layout off d) pb pc)
    (hr : renames (lb, b) (some (lc, c)) = some r) :
    r.1 = b.offset ∧ r.1 + r.2 = c.offset + c.size ∧ (0 < c.size → 0 < r.2) ∧
    (∀ px x, item (layout off d) px = some x →
      (Under pb px ∨ (Before (layout off d) pb px ∧ Before (layout off d) px pc) ∨ (Under pc px ∧ c.occurs = 1) →
        r.1 ≤ x.offset ∧ (x.offset + x.total : Int) ≤ r.1 + r.2) ∧
      (Before (layout off d) px pb → x.offset + x.total ≤ r.1) ∧
      (Before (layout off d) pc px → r.1 + r.2 ≤ x.offset)) ∧
    off ≤ r.1 ∧ r.1 + r.2 ≤ off + (layout off d).total := by
  have hr' : r = (b.offset, (c.offset : Int) + c.size - b.offset) := by
    unfold renames at hr
    split at hr
    · cases hr
    · simp only at hr
      split at hr
      · cases hr
      · simp only [Option.some.injEq] at hr
        exact hr.symm
  subst hr'
  have hbc := before_apart d off hp pb pc b c hb hc hord
  have fc := item_facts d off hp pc c hc
  have hcs := size_total fc.2.1
  have hroot : item (layout off d) [] = some (layout off d) := rfl
  have ib := under_in d off hp [] pb _ b hroot hb ⟨pb, rfl⟩
  have ic := under_in d off hp [] pc _ c hroot hc ⟨pc, rfl⟩
  have ho : (layout off d).offset = off := place_offset id off d
  have hpos : b.size ≤ b.total := size_total (item_facts d off hp pb b hb).2.1
  refine ⟨rfl, by simp only; omega, fun h => by simp only; omega, fun px x hx => ⟨?_, fun h => ?_, fun h => ?_⟩, by simp only; omega, by simp only; omega⟩
  · simp only
    rintro (h | ⟨h1, h2⟩ | ⟨h, hocc⟩)
    · have := under_in d off hp pb px b x hb hx h
      omega
    · have := before_apart d off hp pb px b x hb hx h1
      have := before_apart d off hp px pc x c hx hc h2
      omega
    · have := under_in d off hp pc px c x hc hx h
      have e : c.total = c.size := by simp only [Lay.total, hocc, Nat.mul_one]
      omega
  · exact before_apart d off hp px pb x b hx hb h
  · have := before_apart d off hp pc px c x hc hx h
    simp only
    omega

/-- C96: without THRU the new name of a numeric item `it` is the same numeric item: picture (digits, scale, sign), usage, sign position and bytes; if its
USAGE clause and, for a signed item, its SIGN clause are those of the 01 entry. -/
theorem C96_value (it : Item) (rc ic : Clauses) (hplain : it.field.attr.haveSign = false → it.field.attr.separate = false ∧ it.field.attr.leading = false)
    (hu : rc.usage = it.usage) (hw : rc.swap = it.field.attr.swap)
    (hs : it.field.attr.haveSign = true → rc.separate = it.field.attr.separate ∧ rc.leading = it.field.attr.leading) :
    renamedItem rc ic it.field.attr.digits it.field.attr.scale it.field.attr.haveSign it.field.data = it := by
  obtain ⟨u, ⟨⟨dg, sc, hsg, sep, ld, sw⟩, data⟩⟩ := it
  simp only at hplain hu hw hs
  subst hu hw
  cases hsg with
  | false =>
    obtain ⟨rfl, rfl⟩ := hplain rfl
    rfl
  | true =>
    obtain ⟨rfl, rfl⟩ := hs rfl
    simp [renamedItem, described]

example : renamedItem { separate := true } {} 3 1 true [49, 50, 51, 45] =
    ⟨.display, ⟨{ digits := 3, scale := 1, haveSign := true, separate := true }, [49, 50, 51, 45]⟩⟩ := by decide +kernel

/-! ### Findings and cases that meet the hypotheses -/

/-- `01 G. 05 A PIC X(2). 05 T OCCURS 3. 10 X PIC X(4). 05 H. 10 B PIC X(3). 10 C PIC X(5). 05 Z PIC X.` -/
def sample : Dd := .group 1 .none false
  [.elem 2 1 .none false, .group 3 .none false [.elem 4 1 .none false], .group 1 .none false [.elem 3 1 .none false, .elem 5 1 .none false],
   .elem 1 1 .none false]

theorem sample_plain : Plain sample := by
  refine .group _ _ _ (by decide) (by simp [Dd.redef]) fun c hc => ?_
  simp only [List.mem_cons, List.not_mem_nil, or_false] at hc
  rcases hc with rfl | rfl | rfl | rfl
  · exact .elem _ _ _ _ (by decide)
  · refine .group _ _ _ (by decide) (by simp [Dd.redef]) fun c hc => ?_
    simp only [List.mem_cons, List.not_mem_nil, or_false] at hc
    subst hc
    exact .elem _ _ _ _ (by decide)
  · refine .group _ _ _ (by decide) (by simp [Dd.redef]) fun c hc => ?_
    simp only [List.mem_cons, List.not_mem_nil, or_false] at hc
    rcases hc with rfl | rfl <;> exact .elem _ _ _ _ (by decide)
  · exact .elem _ _ _ _ (by decide)

/-- `66 R RENAMES A THRU B`: bytes 0 to 16 of the record of 23. -/
example : ∃ b c, item (layout 0 sample) [0] = some b ∧ item (layout 0 sample) [2, 0] = some c ∧ Before (layout 0 sample) [0] [2, 0] ∧
    renames (5, b) (some (10, c)) = some (0, 17) ∧ (layout 0 sample).total = 23 := by
  refine ⟨_, _, rfl, rfl, ⟨[], 0, 2, [], [0], _, rfl, rfl, by decide, rfl, rfl⟩, by decide +kernel, by decide +kernel⟩

/-- C96, finding: nothing checks that the second item does not stand in front of the first.  `66 R RENAMES C THRU A` is accepted and R has a size below
zero. -/
theorem C96_finding_backwards : ∃ b c, item (layout 0 sample) [2, 1] = some b ∧ item (layout 0 sample) [0] = some c ∧
    renames (10, b) (some (5, c)) = some (17, -15) := ⟨_, _, rfl, rfl, by decide +kernel⟩

/-- C96, finding: nothing checks that the second item has no OCCURS clause.  `66 R RENAMES A THRU T` is accepted and R has only the first of the three
occurrences of T. -/
theorem C96_finding_occurs : ∃ b c, item (layout 0 sample) [0] = some b ∧ item (layout 0 sample) [1] = some c ∧ c.occurs = 3 ∧
    c.offset + c.total = 14 ∧ renames (5, b) (some (5, c)) = some (0, 6) := ⟨_, _, rfl, rfl, by decide +kernel, by decide +kernel, by decide +kernel⟩

/-- C96, finding: nothing checks that the renamed item belongs to the record in front of the 66 entry.  `01 S. 05 P PIC X. 66 R RENAMES C.` behind the
sample is accepted; R is the bytes 17 to 21 of S, which has one byte. -/
theorem C96_finding_other_record : ∃ b, item (layout 0 sample) [2, 1] = some b ∧ renames (10, b) none = some (17, 5) ∧
    (layout 0 (.group 1 .none false [.elem 1 1 .none false])).total = 1 := ⟨_, rfl, by decide +kernel, by decide +kernel⟩

/-- C96, finding: the USAGE of the renamed item is not taken over.  `01 G. 05 N PIC 9(4) COMP. 66 R RENAMES N.`: with 1234 in N, R is the two
characters X"04D2" with USAGE DISPLAY, which are not digits. -/
theorem C96_finding_usage :
    (readItem false (described 4 0 false { usage := .binary, swap := true } [4, 210])).1 = some ⟨1234, 0⟩ ∧
    (renamedItem {} { usage := .binary, swap := true } 4 0 false [4, 210]).usage = .display ∧
    (readItem false (renamedItem {} { usage := .binary, swap := true } 4 0 false [4, 210])).1 ≠ some ⟨1234, 0⟩ := by
  decide +kernel

/-- C96, finding: nor is SIGN SEPARATE.  `01 G. 05 N PIC S9(2) SIGN TRAILING SEPARATE. 66 R RENAMES N.`: with -12 in N ("12-") R is not -12. -/
theorem C96_finding_separate :
    (readItem false (described 2 0 true { separate := true } [49, 50, 45])).1 = some ⟨-12, 0⟩ ∧
    (readItem false (renamedItem {} { separate := true } 2 0 true [49, 50, 45])).1 ≠ some ⟨-12, 0⟩ := by
  decide +kernel

end Cob.Renames
