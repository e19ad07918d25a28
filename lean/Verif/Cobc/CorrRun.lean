import Verif.Cobc.CorrProps
/-
CORRESPONDING: what the statements do together.
-/
namespace Cob

variable {T1 T2 : CItems} {X Y : GText}

theorem read_far {m : Nat → Nat} {a : Nat × Nat} {at_ : Nat} {l : List Nat}
    (h : Apart a (at_, l.length)) : readArea (writeArea m at_ l) a = readArea m a := by
  unfold readArea
  apply List.map_congr_left
  intro k hk
  rw [List.mem_range] at hk
  unfold writeArea
  unfold Apart at h
  dsimp only at h
  rw [if_neg (by omega)]

theorem read_written {m : Nat → Nat} {at_ : Nat} {l : List Nat} :
    readArea (writeArea m at_ l) (at_, l.length) = l := by
  unfold readArea
  apply List.ext_getElem
  · simp
  · intro k h1 h2
    simp only [List.getElem_map, List.getElem_range]
    unfold writeArea
    rw [if_pos (by omega), show at_ + k - at_ = k by omega, List.getD_eq_getElem?_getD,
      List.getElem?_eq_getElem h2]
    rfl

/-- Statements with targets apart from each other and from the sources. -/
theorem run_effect (op : Nat → Nat → List Nat → List Nat → List Nat) (area1 area2 : Nat → Nat × Nat)
    (hop : ∀ s t src old, (op s t src old).length = (area2 t).2) :
    ∀ (L : List (Nat × Nat)) (m : Nat → Nat),
    L.Pairwise (fun p q => Apart (area2 p.2) (area2 q.2)) →
    (∀ p ∈ L, ∀ q ∈ L, Apart (area1 p.1) (area2 q.2)) →
    (∀ p ∈ L, readArea (runCorr op area1 area2 L m) (area2 p.2) =
      op p.1 p.2 (readArea m (area1 p.1)) (readArea m (area2 p.2))) ∧
    (∀ x, (∀ p ∈ L, ¬ ((area2 p.2).1 ≤ x ∧ x < (area2 p.2).1 + (area2 p.2).2)) →
      runCorr op area1 area2 L m x = m x)
  | [], m, _, _ => ⟨fun p hp => (by cases hp), fun _ _ => rfl⟩
  | (s, t) :: r, m, hpw, hsrc => by
    rw [List.pairwise_cons] at hpw
    obtain ⟨hfirst, hrest⟩ := hpw
    have ih := run_effect op area1 area2 hop r
      (writeArea m (area2 t).1 (op s t (readArea m (area1 s)) (readArea m (area2 t)))) hrest
      (fun p hp q hq => hsrc p (List.mem_cons_of_mem _ hp) q (List.mem_cons_of_mem _ hq))
    rw [runCorr]
    have far : ∀ a, Apart a (area2 t) →
        readArea (writeArea m (area2 t).1 (op s t (readArea m (area1 s)) (readArea m (area2 t)))) a =
          readArea m a := by
      intro a ha
      apply read_far
      rw [hop]
      exact ha
    constructor
    · intro p hp
      rcases List.mem_cons.1 hp with rfl | hp
      · have keep : readArea (runCorr op area1 area2 r
            (writeArea m (area2 t).1 (op s t (readArea m (area1 s)) (readArea m (area2 t)))))
            (area2 t) =
            readArea (writeArea m (area2 t).1 (op s t (readArea m (area1 s)) (readArea m (area2 t))))
              (area2 t) := by
          unfold readArea
          apply List.map_congr_left
          intro k hk
          rw [List.mem_range] at hk
          apply ih.2
          intro q hq
          have := hfirst q hq
          unfold Apart at this
          dsimp only at this
          omega
        dsimp only
        rw [keep]
        have := read_written (m := m) (at_ := (area2 t).1)
          (l := op s t (readArea m (area1 s)) (readArea m (area2 t)))
        rw [hop] at this
        exact this
      · rw [ih.1 p hp, far _ (hsrc p (List.mem_cons_of_mem _ hp) (s, t) List.mem_cons_self),
          far]
        have := hfirst p hp
        unfold Apart at this ⊢
        dsimp only at this
        omega
    · intro x hx
      rw [ih.2 x (fun p hp => hx p (List.mem_cons_of_mem _ hp))]
      have := hx (s, t) List.mem_cons_self
      dsimp only at this
      unfold writeArea
      rw [hop, if_neg this]

theorem reach_inside {X : GText} {area : Nat → Nat × Nat} (lo : X.LaidOut area) {g i : Nat}
    {ns : List (List Nat)} (h : X.Reach g ns i) :
    (area g).1 ≤ (area i).1 ∧ (area i).1 + (area i).2 ≤ (area g).1 + (area g).2 := by
  induction h with
  | one h => exact lo.inside _ _ h
  | more h _ ih =>
    have := lo.inside _ _ h
    omega

/-- Targets of different statements lie apart. -/
theorem corr_apart {area : Nat → Nat × Nat} (lo : Y.LaidOut area) (dx : X.NamesDiffer) :
    ∀ {ns : List (List Nat)} {g h i j : Nat}, X.Reach g ns i → Y.Reach h ns j →
    ¬ (X.IsGroup i ∧ Y.IsGroup j) → ∀ {ms : List (List Nat)} {i' j' : Nat}, X.Reach g ms i' →
    Y.Reach h ms j' → ¬ (X.IsGroup i' ∧ Y.IsGroup j') → j ≠ j' → Apart (area j) (area j') := by
  have grp : ∀ {Z : GText} {a b : Nat} {ms : List (List Nat)}, Z.Reach a ms b → Z.IsGroup a := by
    intro Z a b ms hr
    cases hr with
    | one hp => exact ⟨_, hp.1, hp.2.1, hp.2.2.1, hp.2.2.2.1⟩
    | more hp _ => exact ⟨_, hp.1, hp.2.1, hp.2.2.1, hp.2.2.2.1⟩
  intro ns
  induction ns with
  | nil =>
    intro g h i j r
    cases r
  | cons n ns ih =>
    intro g h i j r1 r2 ng ms i' j' s1 s2 ng' hne
    obtain ⟨f, l, e, p, c⟩ := reach_head r2
    obtain ⟨f', l', e', p', c'⟩ := reach_head s2
    have below : ∀ {f l j}, ((l = [] ∧ f = j) ∨ Y.Reach f l j) →
        (area f).1 ≤ (area j).1 ∧ (area j).1 + (area j).2 ≤ (area f).1 + (area f).2 := by
      intro f l j hc
      rcases hc with ⟨_, rfl⟩ | hr
      · exact ⟨Nat.le_refl _, Nat.le_refl _⟩
      · exact reach_inside lo hr
    by_cases hff : f = f'
    · subst hff
      obtain ⟨a, k, ea, pa, ca⟩ := reach_head r1
      obtain ⟨b, k', eb, pb, cb⟩ := reach_head s1
      simp only [List.cons.injEq] at e ea
      rw [eb] at e'
      simp only [List.cons.injEq] at e'
      have hab : a = b := dx g a b pa pb (by rw [← ea.1, e.1, e'.1])
      subst hab
      obtain ⟨_, rfl⟩ := e
      obtain ⟨_, rfl⟩ := ea
      obtain ⟨_, rfl⟩ := e'
      rcases c with ⟨l0, rfl⟩ | c <;> rcases c' with ⟨l0', rfl⟩ | c'
      · exact absurd rfl hne
      · exfalso
        rcases ca with ⟨_, rfl⟩ | ca
        · rcases cb with ⟨k0, rfl⟩ | cb
          · rw [k0] at c'
            cases c'
          · exact ng ⟨grp cb, grp c'⟩
        · rw [l0] at ca
          cases ca
      · exfalso
        rcases cb with ⟨_, rfl⟩ | cb
        · rcases ca with ⟨k0, rfl⟩ | ca
          · rw [k0] at c
            cases c
          · exact ng' ⟨grp ca, grp c⟩
        · rw [l0'] at cb
          cases cb
      · rcases ca with ⟨k0, _⟩ | ca
        · rw [k0] at c
          cases c
        · rcases cb with ⟨k0, _⟩ | cb
          · rw [k0] at c'
            cases c'
          · exact ih ca c ng cb c' ng' hne
    · have h1 := below c
      have h2 := below c'
      have := lo.apart h f f' p p' hff
      unfold Apart
      omega

/-- **C72** MOVE CORRESPONDING to groups that lie apart from the source and
from each other, when the names in a group differ: afterwards each target
item that corresponds to a source item has what the MOVE of this source item
makes of it - from the contents before the statement -, and no other byte of
the memory is changed. -/
theorem C72_move_effect (h1 : ItemsOf T1 X) (h2 : ItemsOf T2 Y) (dx : X.NamesDiffer)
    (dy : Y.NamesDiffer) {area1 area2 : Nat → Nat × Nat} (l1 : X.LaidOut area1) (l2 : Y.LaidOut area2)
    {g : Nat} {hs : List Nat} (hg : X.IsGroup g) (hh : ∀ h ∈ hs, Y.IsGroup h)
    (sep : hs.Pairwise (fun a b => Apart (area2 a) (area2 b)))
    (ssep : ∀ h ∈ hs, Apart (area1 g) (area2 h))
    (op : Nat → Nat → List Nat → List Nat → List Nat)
    (hop : ∀ s t src old, (op s t src old).length = (area2 t).2) (m : Nat → Nat) :
    let after := runCorr op area1 area2 (moveCorr T1 T2 g hs).1 m
    (∀ h ∈ hs, ∀ i j, Corresponds X Y g h i j →
      readArea after (area2 j) = op i j (readArea m (area1 i)) (readArea m (area2 j))) ∧
    (∀ x, (∀ h ∈ hs, ∀ i j, Corresponds X Y g h i j →
      ¬ ((area2 j).1 ≤ x ∧ x < (area2 j).1 + (area2 j).2)) → after x = m x) := by
  have hm := (C72_move_pairs h1 h2 hg hh).2
  have pw : (moveCorr T1 T2 g hs).1.Pairwise (fun p q => Apart (area2 p.2) (area2 q.2)) := by
    have e : (moveCorr T1 T2 g hs).1 = hs.flatMap (emitCorr T1 T2 T1.nodes.length g) := by
      unfold moveCorr isGroupName
      rw [if_pos ((group_iff h1 g).1 hg)]
      dsimp only
      rw [takeWhile_all fun x hx => (group_iff h2 x).1 (hh x hx)]
    rw [e, List.pairwise_flatMap]
    have hlen : X.levels.length ≤ T1.nodes.length + g := by rw [items_len h1]; omega
    constructor
    · intro h _
      refine List.Pairwise.imp_of_mem ?_ (corr_sorted h1 h2 dy T1.nodes.length g h hlen)
      rintro ⟨a, b⟩ ⟨c, d⟩ hp hq hlt
      have c1 := (corr_mem h1 h2 _ g h a b hlen).1 hp
      have c2 := (corr_mem h1 h2 _ g h c d hlen).1 hq
      have hne : b ≠ d := fun e => by
        subst e
        have := corr_target dx c1 c2
        dsimp only at hlt
        omega
      obtain ⟨ns, r1, r2, n1⟩ := c1
      obtain ⟨ms, s1, s2, n2⟩ := c2
      exact corr_apart l2 dx r1 r2 n1 s1 s2 n2 hne
    · refine List.Pairwise.imp ?_ sep
      rintro a b hab ⟨p, q⟩ hp ⟨p', q'⟩ hq
      obtain ⟨_, _, r, _⟩ := (corr_mem h1 h2 _ g a p q hlen).1 hp
      obtain ⟨_, _, s, _⟩ := (corr_mem h1 h2 _ g b p' q' hlen).1 hq
      have i1 := reach_inside l2 r
      have i2 := reach_inside l2 s
      unfold Apart at hab ⊢
      dsimp only
      omega
  have src : ∀ p ∈ (moveCorr T1 T2 g hs).1, ∀ q ∈ (moveCorr T1 T2 g hs).1,
      Apart (area1 p.1) (area2 q.2) := by
    rintro ⟨a, b⟩ hp ⟨c, d⟩ hq
    obtain ⟨_, _, _, r, _, _⟩ := (hm a b).1 hp
    obtain ⟨h, hx, _, _, s, _⟩ := (hm c d).1 hq
    have i1 := reach_inside l1 r
    have i2 := reach_inside l2 s
    have := ssep h hx
    unfold Apart at this ⊢
    dsimp only
    omega
  obtain ⟨e1, e2⟩ := run_effect op area1 area2 hop _ m pw src
  refine ⟨fun h hx i j c => e1 (i, j) ((hm i j).2 ⟨h, hx, c⟩), fun x hx => e2 x ?_⟩
  rintro ⟨a, b⟩ hp
  obtain ⟨h, hx2, c⟩ := (hm a b).1 hp
  exact hx h hx2 a b c

/-- **C72** ADD and SUBTRACT CORRESPONDING, with two groups that lie apart and
whose names differ: each target that corresponds to a source item gets the
sum or difference of the two as they were before; no other byte changes. -/
theorem C72_add_effect (h1 : ItemsOf T1 X) (h2 : ItemsOf T2 Y) (dx : X.NamesDiffer)
    {area1 area2 : Nat → Nat × Nat} (l1 : X.LaidOut area1) (l2 : Y.LaidOut area2)
    {g h : Nat} (hg : X.IsGroup g) (hh : Y.IsGroup h) (sep : Apart (area1 g) (area2 h))
    (op : Nat → Nat → List Nat → List Nat → List Nat)
    (hop : ∀ s t src old, (op s t src old).length = (area2 t).2) (m : Nat → Nat) :
    let after := runCorr op area1 area2 (addCorr T1 T2 g h).1 m
    (∀ i j, Corresponds X Y g h i j →
      readArea after (area2 j) = op i j (readArea m (area1 i)) (readArea m (area2 j))) ∧
    (∀ x, (∀ i j, Corresponds X Y g h i j →
      ¬ ((area2 j).1 ≤ x ∧ x < (area2 j).1 + (area2 j).2)) → after x = m x) := by
  have hm := (C72_add_pairs h1 h2 hg hh).2
  have pw : (addCorr T1 T2 g h).1.Pairwise (fun p q => Apart (area2 p.2) (area2 q.2)) := by
    refine List.Pairwise.imp_of_mem ?_ (C72_add_order h1 h2 dx hg hh)
    rintro ⟨a, b⟩ ⟨c, d⟩ hp hq hlt
    obtain ⟨ns, r1, r2, n1⟩ := (hm a b).1 hp
    obtain ⟨ms, s1, s2, n2⟩ := (hm c d).1 hq
    dsimp only at hlt
    exact corr_apart l2 dx r1 r2 n1 s1 s2 n2 (by omega)
  have src : ∀ p ∈ (addCorr T1 T2 g h).1, ∀ q ∈ (addCorr T1 T2 g h).1,
      Apart (area1 p.1) (area2 q.2) := by
    rintro ⟨a, b⟩ hp ⟨c, d⟩ hq
    obtain ⟨_, r, _, _⟩ := (hm a b).1 hp
    obtain ⟨_, _, s, _⟩ := (hm c d).1 hq
    have i1 := reach_inside l1 r
    have i2 := reach_inside l2 s
    unfold Apart at sep ⊢
    dsimp only
    omega
  obtain ⟨e1, e2⟩ := run_effect op area1 area2 hop _ m pw src
  refine ⟨fun i j c => e1 (i, j) ((hm i j).2 c), fun x hx => e2 x ?_⟩
  rintro ⟨a, b⟩ hp
  exact hx a b ((hm a b).1 hp)

end Cob
