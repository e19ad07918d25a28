import Verif.Cobc.CorrSpec
/-
CORRESPONDING: the theorems.
-/
namespace Cob

variable {T1 T2 : CItems} {X Y : GText}

theorem items_walk {T : CItems} {X : GText} (h : ItemsOf T X) (g : Nat) :
    kidsWalk T.nodes g = contents X.levels g := by
  obtain ⟨es, ns, st, he, hb, hn⟩ := h.tree
  rw [hn]
  exact (C70_hierarchy he hb).2.2.2.2.1 g

theorem items_len {T : CItems} {X : GText} (h : ItemsOf T X) : T.nodes.length = X.levels.length := by
  obtain ⟨es, ns, st, he, hb, hn⟩ := h.tree
  rw [hn]
  exact (C70_hierarchy he hb).1

theorem part_walk {T : CItems} {X : GText} (h : ItemsOf T X) (g i : Nat) :
    X.PartOf g i ↔ i ∈ kidsWalk T.nodes g ∧ T.plainItem i = true := by
  rw [items_walk h, ← h.flags]
  unfold GText.PartOf contents
  rw [List.mem_filter, List.mem_range]
  constructor
  · rintro ⟨h1, h2, h3, h4, h5⟩
    refine ⟨⟨h1, ?_⟩, h5⟩
    unfold isPart
    simp [h2, h3, h4]
  · rintro ⟨⟨h1, h2⟩, h5⟩
    have n66 : lvlAt X.levels i ≠ 66 := fun e => by
      rw [h.renames i e] at h5
      cases h5
    unfold isPart at h2
    simp [n66] at h2
    exact ⟨h1, h2.1, h2.2, n66, h5⟩

theorem group_iff {T : CItems} {X : GText} (h : ItemsOf T X) (g : Nat) :
    X.IsGroup g ↔ T.hasChildren g = true := by
  unfold CItems.hasChildren
  have e : (T.nodes[g]?).bind (·.children) = (contents X.levels g).head? := by
    obtain ⟨es, ns, st, he, hb, hn⟩ := h.tree
    rw [hn]
    exact (built_ok he hb).tree.kid g
  rw [e]
  have : (contents X.levels g).head?.isSome = true ↔ contents X.levels g ≠ [] := by
    cases contents X.levels g <;> simp
  rw [this]
  constructor
  · rintro ⟨i, h1, h2, h3, h4⟩ e
    have : i ∈ contents X.levels g := by
      unfold contents
      rw [List.mem_filter, List.mem_range]
      refine ⟨h1, ?_⟩
      unfold isPart
      simp [h2, h3, h4]
    rw [e] at this
    cases this
  · intro hne
    obtain ⟨i, hi⟩ := List.exists_mem_of_ne_nil _ hne
    have hb := mem_contents hi
    unfold contents at hi
    rw [List.mem_filter, List.mem_range] at hi
    have part : ∀ k, k < X.levels.length → isPart X.levels g k = true → X.IsGroup g := by
      intro k hk hp
      unfold isPart at hp
      simp only [Bool.and_eq_true, beq_iff_eq, bne_iff_ne, ne_eq] at hp
      exact ⟨k, hk, hp.1.1, hp.1.2, hp.2⟩
    rcases Bool.or_eq_true _ _ ▸ hi.2 with hp | hp
    · exact part i hi.1 hp
    · simp only [Bool.and_eq_true, List.any_eq_true, List.mem_range] at hp
      obtain ⟨_, k, hk, hp⟩ := hp
      exact part k (by omega) hp

theorem part_lt {X : GText} {g i : Nat} (h : X.PartOf g i) : g < i ∧ i < X.levels.length :=
  ⟨owner_lt h.2.1, h.1⟩

theorem reach_lt {X : GText} {g i : Nat} {ns : List (List Nat)} (h : X.Reach g ns i) :
    g < i ∧ i < X.levels.length := by
  induction h with
  | one h => exact part_lt h
  | more h _ ih =>
    have := part_lt h
    omega

/-- The members of the list of pairs. -/
theorem corr_mem (h1 : ItemsOf T1 X) (h2 : ItemsOf T2 Y) : ∀ (fuel g h i j : Nat),
    X.levels.length ≤ fuel + g →
    ((i, j) ∈ emitCorr T1 T2 fuel g h ↔ Corresponds X Y g h i j)
  | 0, g, h, i, j, hf => by
    refine ⟨fun x => by simp [emitCorr] at x, ?_⟩
    rintro ⟨ns, hr, _⟩
    have := reach_lt hr
    omega
  | fuel + 1, g, h, i, j, hf => by
    rw [emitCorr]
    simp only [List.mem_flatMap]
    constructor
    · rintro ⟨f1, hf1, hx⟩
      split at hx
      · rename_i p1
        have part1 := (part_walk h1 g f1).2 ⟨hf1, p1⟩
        simp only [List.mem_flatMap] at hx
        obtain ⟨f2, hf2, hx⟩ := hx
        split at hx
        · rename_i p2
          have part2 := (part_walk h2 h f2).2 ⟨hf2, p2⟩
          split at hx
          · rename_i hn
            rw [← h1.name, ← h2.name] at hn
            split at hx
            · have hl := part_lt part1
              obtain ⟨ns, r1, r2, ng⟩ := (corr_mem h1 h2 fuel f1 f2 i j (by omega)).1 hx
              exact ⟨X.name f1 :: ns, .more part1 r1, by rw [hn]; exact .more part2 r2, ng⟩
            · rename_i hc
              simp only [List.mem_singleton, Prod.mk.injEq] at hx
              obtain ⟨rfl, rfl⟩ := hx
              refine ⟨[X.name i], .one part1, by rw [hn]; exact .one part2, ?_⟩
              rintro ⟨g1, g2⟩
              rw [group_iff h1] at g1
              rw [group_iff h2] at g2
              rw [g1, g2] at hc
              exact hc rfl
          · cases hx
        · cases hx
      · cases hx
    · rintro ⟨ns, r1, r2, ng⟩
      have step : ∀ f1 f2, X.PartOf g f1 → Y.PartOf h f2 → X.name f1 = Y.name f2 →
          (i, j) ∈ (if T1.hasChildren f1 && T2.hasChildren f2 then emitCorr T1 T2 fuel f1 f2
            else [(f1, f2)]) →
          ∃ a, a ∈ kidsWalk T1.nodes g ∧ (i, j) ∈
            (if T1.plainItem a then
              (kidsWalk T2.nodes h).flatMap fun f2 =>
                if T2.plainItem f2 then
                  if T1.nameOf a = T2.nameOf f2 then
                    if T1.hasChildren a && T2.hasChildren f2 then emitCorr T1 T2 fuel a f2
                    else [(a, f2)]
                  else []
                else []
            else []) := by
        intro f1 f2 p1 p2 hn hm
        obtain ⟨k1, q1⟩ := (part_walk h1 g f1).1 p1
        obtain ⟨k2, q2⟩ := (part_walk h2 h f2).1 p2
        refine ⟨f1, k1, ?_⟩
        rw [if_pos q1, List.mem_flatMap]
        refine ⟨f2, k2, ?_⟩
        rw [if_pos q2, if_pos (by rw [← h1.name, ← h2.name]; exact hn)]
        exact hm
      have grp : ∀ {Z : GText} {a b : Nat} {ms : List (List Nat)}, Z.Reach a ms b → Z.IsGroup a := by
        intro Z a b ms hr
        cases hr with
        | one hp => exact ⟨_, hp.1, hp.2.1, hp.2.2.1, hp.2.2.2.1⟩
        | more hp _ => exact ⟨_, hp.1, hp.2.1, hp.2.2.1, hp.2.2.2.1⟩
      cases r1 with
      | one p1 =>
        generalize hms : [X.name i] = ms at r2
        cases r2 with
        | one p2 =>
          simp only [List.cons.injEq, and_true] at hms
          refine step i j p1 p2 hms ?_
          rw [group_iff h1, group_iff h2] at ng
          rw [if_neg (by simpa using ng)]
          exact List.mem_singleton.2 rfl
        | more p2 r2 =>
          simp only [List.cons.injEq] at hms
          rw [← hms.2] at r2
          cases r2
      | more p1 r1 =>
        rename_i f1 ns
        generalize hms : X.name f1 :: ns = ms at r2
        cases r2 with
        | one p2 =>
          simp only [List.cons.injEq] at hms
          rw [hms.2] at r1
          cases r1
        | more p2 r2 =>
          rename_i f2 ns'
          simp only [List.cons.injEq] at hms
          obtain ⟨hn, rfl⟩ := hms
          refine step f1 f2 p1 p2 hn ?_
          have hl := part_lt p1
          rw [if_pos (by rw [(group_iff h1 f1).1 (grp r1), (group_iff h2 f2).1 (grp r2)]; rfl)]
          exact (corr_mem h1 h2 fuel f1 f2 i j (by omega)).2 ⟨ns, r1, r2, ng⟩

/-! ### Order -/

theorem part_level {X : GText} {g i : Nat} (h : X.PartOf g i) :
    lvlAt X.levels g < lvlAt X.levels i ∧ ∀ k, g < k → k < i → lvlAt X.levels i ≤ lvlAt X.levels k := by
  obtain ⟨_, ho, n88, n66, _⟩ := h
  unfold ownerOf at ho
  split at ho
  · cases ho
  · obtain ⟨_, hp, hq⟩ := lastBefore_some.1 ho
    refine ⟨by simpa using hp, fun k h1 h2 => ?_⟩
    have := hq k h1 h2
    simpa using this

theorem reach_level {X : GText} {g i : Nat} {ns : List (List Nat)} (h : X.Reach g ns i) :
    ∀ k, g < k → k ≤ i → lvlAt X.levels g < lvlAt X.levels k := by
  induction h with
  | one h =>
    rename_i g i
    intro k h1 h2
    obtain ⟨a, b⟩ := part_level h
    by_cases e : k = i
    · rw [e]; exact a
    · have := b k h1 (by omega)
      omega
  | more h hr ih =>
    rename_i g f ns i
    intro k h1 h2
    obtain ⟨a, b⟩ := part_level h
    by_cases e : k = f
    · rw [e]; exact a
    · by_cases e2 : k < f
      · have := b k h1 e2
        omega
      · have := ih k (by omega) h2
        omega

/-- What is in a part comes before the next part. -/
theorem part_before {X : GText} {g f f' i : Nat} {ns : List (List Nat)} (p : X.PartOf g f)
    (p' : X.PartOf g f') (hlt : f < f') (hr : X.Reach f ns i) : i < f' := by
  apply Classical.byContradiction
  intro hn
  have h1 := reach_level hr f' hlt (by omega)
  have h2 := (part_level p').2 f (part_lt p).1 hlt
  omega

theorem contents_sorted (ls : List Nat) (g : Nat) : (contents ls g).Pairwise (· < ·) :=
  List.Pairwise.sublist List.filter_sublist List.pairwise_lt_range

theorem corr_first (h1 : ItemsOf T1 X) (h2 : ItemsOf T2 Y) {fuel f1 f2 : Nat}
    (hf : X.levels.length ≤ fuel + f1) {p : Nat × Nat}
    (hp : p ∈ (if T1.hasChildren f1 && T2.hasChildren f2 then emitCorr T1 T2 fuel f1 f2
            else [(f1, f2)])) : p.1 = f1 ∨ ∃ ns, X.Reach f1 ns p.1 := by
  split at hp
  · obtain ⟨ns, r, _⟩ := (corr_mem h1 h2 fuel f1 f2 p.1 p.2 hf).1 hp
    exact .inr ⟨ns, r⟩
  · rw [List.mem_singleton.1 hp]
    exact .inl rfl

theorem corr_sorted (h1 : ItemsOf T1 X) (h2 : ItemsOf T2 Y) (dy : Y.NamesDiffer) :
    ∀ (fuel g h : Nat), X.levels.length ≤ fuel + g →
    (emitCorr T1 T2 fuel g h).Pairwise (fun p q => p.1 < q.1)
  | 0, _, _, _ => by rw [emitCorr]; exact .nil
  | fuel + 1, g, h, hf => by
    rw [emitCorr, List.pairwise_flatMap]
    constructor
    · intro f1 hf1
      split
      · rename_i p1
        have part1 := (part_walk h1 g f1).2 ⟨hf1, p1⟩
        have hl := part_lt part1
        rw [List.pairwise_flatMap]
        constructor
        · intro f2 _
          split
          · split
            · split
              · exact corr_sorted h1 h2 dy fuel f1 f2 (by omega)
              · exact List.pairwise_singleton _ _
            · exact .nil
          · exact .nil
        · rw [items_walk h2]
          refine List.Pairwise.imp_of_mem ?_ (contents_sorted Y.levels h)
          intro a b ha hb hlt p hp q hq
          exfalso
          rw [← items_walk h2] at ha hb
          split at hp
          · rename_i pa
            split at hp
            · rename_i na
              split at hq
              · rename_i pb
                split at hq
                · rename_i nb
                  have := dy h a b ((part_walk h2 h a).2 ⟨ha, pa⟩) ((part_walk h2 h b).2 ⟨hb, pb⟩)
                    (by rw [h2.name, h2.name, ← na, ← nb])
                  omega
                · cases hq
              · cases hq
            · cases hp
          · cases hp
      · exact .nil
    · rw [items_walk h1]
      refine List.Pairwise.imp_of_mem ?_ (contents_sorted X.levels g)
      intro a b ha hb hlt p hp q hq
      rw [← items_walk h1] at ha hb
      have get : ∀ a, a ∈ kidsWalk T1.nodes g → ∀ p : Nat × Nat, p ∈ (if T1.plainItem a then
              (kidsWalk T2.nodes h).flatMap fun f2 =>
                if T2.plainItem f2 then
                  if T1.nameOf a = T2.nameOf f2 then
                    if T1.hasChildren a && T2.hasChildren f2 then emitCorr T1 T2 fuel a f2
                    else [(a, f2)]
                  else []
                else []
            else []) → X.PartOf g a ∧ (p.1 = a ∨ ∃ ns, X.Reach a ns p.1) := by
        intro a ha p hp
        split at hp
        · rename_i pa
          have part1 := (part_walk h1 g a).2 ⟨ha, pa⟩
          have hl := part_lt part1
          refine ⟨part1, ?_⟩
          rw [List.mem_flatMap] at hp
          obtain ⟨f2, _, hp⟩ := hp
          split at hp
          · split at hp
            · exact corr_first h1 h2 (by omega) hp
            · cases hp
          · cases hp
        · cases hp
      obtain ⟨pa, ca⟩ := get a ha p hp
      obtain ⟨pb, cb⟩ := get b hb q hq
      have hq1 : b ≤ q.1 := by
        rcases cb with e | ⟨ns, r⟩
        · omega
        · have := (reach_lt r).1
          omega
      have hp1 : p.1 < b := by
        rcases ca with e | ⟨ns, r⟩
        · omega
        · exact part_before pa pb hlt r
      omega

/-! ### Uniqueness -/

theorem reach_head {X : GText} {g i : Nat} {ns : List (List Nat)} (h : X.Reach g ns i) :
    ∃ f ms, ns = X.name f :: ms ∧ X.PartOf g f ∧ ((ms = [] ∧ f = i) ∨ X.Reach f ms i) := by
  cases h with
  | one h => exact ⟨i, [], rfl, h, .inl ⟨rfl, rfl⟩⟩
  | more h hr => exact ⟨_, _, rfl, h, .inr hr⟩

/-- Names lead to one item. -/
theorem reach_fun {X : GText} (d : X.NamesDiffer) {g i : Nat} {ns : List (List Nat)}
    (h : X.Reach g ns i) : ∀ {k}, X.Reach g ns k → i = k := by
  induction h with
  | one h =>
    rename_i g i
    intro k hk
    obtain ⟨f, ms, e, hp, hc⟩ := reach_head hk
    simp only [List.cons.injEq] at e
    have hfi := d g i f h hp e.1
    rcases hc with ⟨_, rfl⟩ | hr
    · exact hfi
    · rw [← e.2] at hr
      cases hr
  | more h hr ih =>
    rename_i g f ns i
    intro k hk
    obtain ⟨f', ms, e, hp, hc⟩ := reach_head hk
    simp only [List.cons.injEq] at e
    have hff := d g f f' h hp e.1
    subst hff
    rw [e.2] at hr ih
    rcases hc with ⟨e3, _⟩ | hr2
    · rw [e3] at hr
      cases hr
    · exact ih hr2

/-- One list of names leads to an item. -/
theorem reach_names {X : GText} {g i : Nat} {ns : List (List Nat)}
    (h : X.Reach g ns i) : ∀ {ms}, X.Reach g ms i → ns = ms := by
  have one : ∀ {g i ms}, X.PartOf g i → X.Reach g ms i → ms = [X.name i] := by
    intro g i ms hp hr
    cases hr with
    | one _ => rfl
    | more hp2 hr2 =>
      rename_i f ns
      have hl := (part_level hp).2 f (part_lt hp2).1 (reach_lt hr2).1
      have := reach_level hr2 i (reach_lt hr2).1 (Nat.le_refl _)
      omega
  have first : ∀ {g f f' i ns ms}, X.PartOf g f → X.PartOf g f' → X.Reach f ns i → X.Reach f' ms i →
      f = f' := by
    intro g f f' i ns ms p p' r r'
    apply Classical.byContradiction
    intro hne
    rcases Nat.lt_or_ge f f' with h | h
    · have := part_before p p' h r
      have := (reach_lt r').1
      omega
    · have := part_before p' p (by omega) r'
      have := (reach_lt r).1
      omega
  induction h with
  | one h => intro ms hr; exact (one h hr).symm
  | more h hr ih =>
    rename_i g f ns i
    intro ms hm
    cases hm with
    | one hp => exact one hp (.more h hr)
    | more hp hr2 =>
      have := first h hp hr hr2
      subst this
      rw [ih hr2]

theorem corr_target {g h i i' j : Nat} (dx : X.NamesDiffer)
    (c : Corresponds X Y g h i j) (c' : Corresponds X Y g h i' j) : i = i' := by
  obtain ⟨ns, r1, r2, _⟩ := c
  obtain ⟨ms, s1, s2, _⟩ := c'
  have := reach_names r2 s2
  subst this
  exact reach_fun dx r1 s1

theorem takeWhile_all {α : Type} {p : α → Bool} : ∀ {l : List α}, (∀ x ∈ l, p x = true) →
    l.takeWhile p = l
  | [], _ => rfl
  | a :: r, h => by
    rw [List.takeWhile_cons, if_pos (h a List.mem_cons_self),
      takeWhile_all fun x hx => h x (List.mem_cons_of_mem _ hx)]

/-! ### The theorems -/

/-- **C72** MOVE CORRESPONDING: statements are emitted for exactly the pairs
of items that correspond - the same names lead to them from the two groups,
through items without REDEFINES, RENAMES and OCCURS, and they are not both
groups. -/
theorem C72_move_pairs (h1 : ItemsOf T1 X) (h2 : ItemsOf T2 Y) {g : Nat} {hs : List Nat}
    (hg : X.IsGroup g) (hh : ∀ h ∈ hs, Y.IsGroup h) :
    (moveCorr T1 T2 g hs).2 = false ∧
    ∀ i j, (i, j) ∈ (moveCorr T1 T2 g hs).1 ↔ ∃ h ∈ hs, Corresponds X Y g h i j := by
  unfold moveCorr isGroupName
  rw [if_pos ((group_iff h1 g).1 hg)]
  have e : hs.takeWhile (fun x => T2.hasChildren x) = hs := by
    exact takeWhile_all fun x hx => (group_iff h2 x).1 (hh x hx)
  dsimp only
  rw [e]
  refine ⟨by simp, fun i j => ?_⟩
  rw [List.mem_flatMap]
  have := items_len h1
  constructor
  · rintro ⟨h, hx, hm⟩
    exact ⟨h, hx, (corr_mem h1 h2 _ g h i j (by omega)).1 hm⟩
  · rintro ⟨h, hx, hm⟩
    exact ⟨h, hx, (corr_mem h1 h2 _ g h i j (by omega)).2 hm⟩

/-- **C72** The same for ADD and SUBTRACT CORRESPONDING. -/
theorem C72_add_pairs (h1 : ItemsOf T1 X) (h2 : ItemsOf T2 Y) {g h : Nat}
    (hg : X.IsGroup g) (hh : Y.IsGroup h) :
    (addCorr T1 T2 g h).2 = false ∧
    ∀ i j, (i, j) ∈ (addCorr T1 T2 g h).1 ↔ Corresponds X Y g h i j := by
  unfold addCorr isGroupName
  rw [if_pos (by rw [(group_iff h1 g).1 hg, (group_iff h2 h).1 hh]; rfl)]
  refine ⟨rfl, fun i j => ?_⟩
  have hl := items_len h2
  rw [List.mem_map]
  have sym : Corresponds Y X h g j i ↔ Corresponds X Y g h i j := by
    constructor
    · rintro ⟨ns, r1, r2, n⟩
      exact ⟨ns, r2, r1, fun x => n ⟨x.2, x.1⟩⟩
    · rintro ⟨ns, r1, r2, n⟩
      exact ⟨ns, r2, r1, fun x => n ⟨x.2, x.1⟩⟩
  rw [← sym, ← corr_mem h2 h1 T2.nodes.length h g j i (by omega)]
  constructor
  · rintro ⟨⟨a, b⟩, hm, e⟩
    simp only [Prod.mk.injEq] at e
    obtain ⟨rfl, rfl⟩ := e
    exact hm
  · intro hm
    exact ⟨(j, i), hm, rfl⟩

/-- **C72** An operand that is no group is an error, and nothing is emitted
for it. -/
theorem C72_not_group (h1 : ItemsOf T1 X) (h2 : ItemsOf T2 Y) {g h : Nat}
    (hn : ¬ (X.IsGroup g ∧ Y.IsGroup h)) :
    moveCorr T1 T2 g [h] = ([], true) ∧ addCorr T1 T2 g h = ([], true) := by
  rw [group_iff h1, group_iff h2] at hn
  unfold moveCorr addCorr isGroupName
  cases e1 : T1.hasChildren g <;> cases e2 : T2.hasChildren h <;>
    simp_all [List.takeWhile]

/-- **C72** MOVE CORRESPONDING to one group, when the names in a group
differ: one statement for each source item, in the order in which the source
items are written, and at most one for a target. -/
theorem C72_move_order (h1 : ItemsOf T1 X) (h2 : ItemsOf T2 Y) (dx : X.NamesDiffer)
    (dy : Y.NamesDiffer) {g h : Nat} (hg : X.IsGroup g) (hh : Y.IsGroup h) :
    (moveCorr T1 T2 g [h]).1.Pairwise (fun p q => p.1 < q.1 ∧ p.2 ≠ q.2) := by
  have hm := (C72_move_pairs h1 h2 hg (hs := [h]) (by simpa using hh)).2
  have e : (moveCorr T1 T2 g [h]).1 = emitCorr T1 T2 T1.nodes.length g h := by
    unfold moveCorr isGroupName
    rw [if_pos ((group_iff h1 g).1 hg)]
    simp [List.takeWhile, (group_iff h2 h).1 hh]
  have hs := corr_sorted h1 h2 dy T1.nodes.length g h (by rw [items_len h1]; omega)
  rw [← e] at hs
  refine List.Pairwise.imp_of_mem ?_ hs
  rintro ⟨a, b⟩ ⟨c, d⟩ hp hq hlt
  refine ⟨hlt, fun e2 => ?_⟩
  dsimp only at e2 hlt
  subst e2
  obtain ⟨x, hx, cx⟩ := (hm a b).1 hp
  obtain ⟨y, hy, cy⟩ := (hm c b).1 hq
  rw [List.mem_singleton] at hx hy
  subst hx hy
  have := corr_target dx cx cy
  omega

/-- **C72** ADD and SUBTRACT CORRESPONDING, when the names in a group differ:
one statement for each target, in the order in which the targets are
written. -/
theorem C72_add_order (h1 : ItemsOf T1 X) (h2 : ItemsOf T2 Y) (dx : X.NamesDiffer)
    {g h : Nat} (hg : X.IsGroup g) (hh : Y.IsGroup h) :
    (addCorr T1 T2 g h).1.Pairwise (fun p q => p.2 < q.2) := by
  unfold addCorr isGroupName
  rw [if_pos (by rw [(group_iff h1 g).1 hg, (group_iff h2 h).1 hh]; rfl)]
  dsimp only
  rw [List.pairwise_map]
  exact corr_sorted h2 h1 dx _ h g (by rw [items_len h2]; omega)

end Cob
