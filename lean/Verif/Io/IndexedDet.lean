import Verif.Io.IndexedStep
/- The specification of INDEXED files leaves nothing open: one statement, one answer. -/
namespace Cob
variable {cfg : IxCfg} {f : IxFile} {A : IxAbs}

def IxAbs.Distinct (cfg : IxCfg) (A : IxAbs) : Prop :=
  ∀ i, i < cfg.keys.length → ∀ k n pk pk', A.Has cfg i k n pk → A.Has cfg i k n pk' → pk = pk'

theorem rel_distinct (h : IxRel cfg f A) : A.Distinct cfg := by
  intro i hi k n pk pk' h1 h2
  have hL := index_sorted h.1 i hi
  have m1 := (index_mem h.1 i hi ⟨k, pk, n⟩).mpr h1
  have m2 := (index_mem h.1 i hi ⟨k, pk', n⟩).mpr h2
  obtain ⟨a, ha⟩ := List.mem_iff_getElem?.mp m1
  obtain ⟨b, hb⟩ := List.mem_iff_getElem?.mp m2
  obtain ⟨a1, a2⟩ := List.getElem?_eq_some_iff.mp ha
  obtain ⟨b1, b2⟩ := List.getElem?_eq_some_iff.mp hb
  rcases Nat.lt_trichotomy a b with hlt | rfl | hlt
  · have := List.pairwise_iff_getElem.mp hL a b a1 b1 hlt
    rw [a2, b2] at this
    exact absurd this (IxBefore.irrefl _ _)
  · rw [ha] at hb
    injection hb with hb
    injection hb
  · have := List.pairwise_iff_getElem.mp hL b a b1 a1 hlt
    rw [a2, b2] at this
    exact absurd this (IxBefore.irrefl _ _)

theorem first_unique (hd : A.Distinct cfg) (i : Nat) (hi : i < cfg.keys.length) (P : List Nat → Nat → Prop) (o o') (h : A.First cfg i P o)
    (h' : A.First cfg i P o') : o = o' := by
  rcases o with _ | ⟨k, n, pk⟩ <;> rcases o' with _ | ⟨k', n', pk'⟩
  · rfl
  · exact absurd h'.2.1 (h _ _ _ h'.1)
  · exact absurd h.2.1 (h' _ _ _ h.1)
  · have a := h.2.2 _ _ _ h'.1 h'.2.1
    have b := h'.2.2 _ _ _ h.1 h.2.1
    rcases ixBefore_total k n k' n' with hx | ⟨rfl, rfl⟩ | hx
    · exact absurd hx b
    · rw [hd i hi _ _ _ _ h.1 h'.1]
    · exact absurd hx a

theorem last_unique (hd : A.Distinct cfg) (i : Nat) (hi : i < cfg.keys.length) (P : List Nat → Nat → Prop) (o o') (h : A.Last cfg i P o)
    (h' : A.Last cfg i P o') : o = o' := by
  rcases o with _ | ⟨k, n, pk⟩ <;> rcases o' with _ | ⟨k', n', pk'⟩
  · rfl
  · exact absurd h'.2.1 (h _ _ _ h'.1)
  · exact absurd h.2.1 (h' _ _ _ h.1)
  · have a := h.2.2 _ _ _ h'.1 h'.2.1
    have b := h'.2.2 _ _ _ h.1 h.2.1
    rcases ixBefore_total k n k' n' with hx | ⟨rfl, rfl⟩ | hx
    · exact absurd hx a
    · rw [hd i hi _ _ _ _ h.1 h'.1]
    · exact absurd hx b

theorem finds_unique (hd : A.Distinct cfg) (i : Nat) (hi : i < cfg.keys.length) (c : StartCond) (a : List Nat) (o o') (h : A.Finds cfg i c a o)
    (h' : A.Finds cfg i c a o') : o = o' := by
  cases c
  · exact first_unique hd i hi _ o o' h h'
  · exact last_unique hd i hi _ o o' h h'
  · exact last_unique hd i hi _ o o' h h'
  · exact first_unique hd i hi _ o o' h h'
  · exact first_unique hd i hi _ o o' h h'

theorem beyond_unique (hd : A.Distinct cfg) (prev : Bool) (i : Nat) (hi : i < cfg.keys.length) (k : List Nat) (n : Nat) (o o')
    (h : A.Beyond cfg prev i k n o) (h' : A.Beyond cfg prev i k n o') : o = o' := by
  cases prev
  · exact first_unique hd i hi _ o o' h h'
  · exact last_unique hd i hi _ o o' h h'

/-- The key of the position is a key of the file. -/
def IxPos.Within (cfg : IxCfg) : IxPos → Prop
  | .undef => True
  | .found _ i _ _ _ => i < cfg.keys.length
  | .read i _ _ => i < cfg.keys.length

theorem delivers_unique (hd : A.Distinct cfg) (hw : A.pos.Within cfg) (prev : Bool) (i i' : Nat) (o o')
    (h : A.Delivers cfg prev i o) (h' : A.Delivers cfg prev i' o') : i = i' ∧ o = o' := by
  unfold IxAbs.Delivers at *
  cases hp : A.pos with
  | undef => rw [hp] at h; exact h.elim
  | found op j k n pk =>
    rw [hp] at h h' hw
    obtain ⟨rfl, h⟩ := h
    obtain ⟨rfl, h'⟩ := h'
    refine ⟨rfl, ?_⟩
    split at h
    · rename_i hc
      rw [if_pos hc] at h'
      rw [h, h']
    · rename_i hc
      rw [if_neg hc] at h'
      rcases h with ⟨h1, h2⟩ | ⟨h1, h2⟩ <;> rcases h' with ⟨h3, h4⟩ | ⟨h3, h4⟩
      · rw [h2, h4]
      · exact absurd h1 h3
      · exact absurd h3 h1
      · exact beyond_unique hd prev _ hw k n o o' h2 h4
  | read j k n =>
    rw [hp] at h h' hw
    obtain ⟨rfl, h⟩ := h
    obtain ⟨rfl, h'⟩ := h'
    exact ⟨rfl, beyond_unique hd prev _ hw k n o o' h h'⟩

theorem newNum_unique (own : List Nat) (i : Nat) (k : List Nat) (n n' : Nat) (h : A.NewNum cfg own i k n) (h' : A.NewNum cfg own i k n') :
    n = n' := by
  obtain ⟨h1, h2⟩ := h
  obtain ⟨h3, h4⟩ := h'
  rcases h2 with rfl | ⟨pk, r, a1, a2, a3, a4⟩ <;> rcases h4 with rfl | ⟨pk', r', b1, b2, b3, b4⟩
  · rfl
  · have := h1 _ _ b1 b2 b3; omega
  · have := h3 _ _ a1 a2 a3; omega
  · have := h1 _ _ b1 b2 b3
    have := h3 _ _ a1 a2 a3
    omega


theorem opened_unique (p p' : IxPos) (h : A.Opened cfg p) (h' : A.Opened cfg p') : p = p' := by
  obtain ⟨k, rfl, h⟩ := h
  obtain ⟨k', rfl, h'⟩ := h'
  have : k = k' := by
    rcases h with ⟨h1, rfl⟩ | ⟨⟨r, h1⟩, h2⟩ <;> rcases h' with ⟨h3, rfl⟩ | ⟨⟨r', h3⟩, h4⟩
    · rfl
    · rw [h1] at h3; cases h3
    · rw [h3] at h1; cases h1
    · rcases lt_trichotomy k k' with hx | hx | hx
      · exact absurd hx (h4 _ _ h1)
      · exact hx
      · exact absurd hx (h2 _ _ h3)
  rw [this]

theorem does_unique (hc : cfg.Ok) (hd : A.Distinct cfg) (hw : A.pos.Within cfg) (op : IxOp) (o o' : IxOut) (B B' : IxAbs)
    (h : IxDoes cfg A op o B) (h' : IxDoes cfg A op o' B') : o = o' ∧ B = B' := by
  generalize he : op = op' at h'
  cases op with
  | write area len =>
    cases h <;> cases h' <;> cases he <;> first | exact ⟨rfl, rfl⟩ | skip
    all_goals try (exfalso; simp_all; done)
    all_goals try (exfalso; omega)
    · rename_i new h1 h2 h3 h4 h0 new' h5 h6 h7 h8 h0'
      have : new = new' := by
        funext i
        have a := h4 i
        have b := h8 i
        split at a
        · rename_i hi
          rw [if_pos hi] at b
          exact newNum_unique _ _ _ _ _ a b
        · rename_i hi
          rw [if_neg hi] at b
          rw [a, b]
      rw [this]
      exact ⟨rfl, rfl⟩
  | rewrite area =>
    cases h <;> cases h' <;> cases he <;> first | exact ⟨rfl, rfl⟩ | skip
    all_goals try (exfalso; simp_all; done)
    · rename_i old new h1 h2 h3 h4 old' new' h5 h6 h7 h8
      rw [h3] at h7
      injection h7 with h7
      subst h7
      have : new = new' := by
        funext i
        have a := h4 i
        have b := h8 i
        by_cases hx : cfg.keyOf i old = cfg.keyOf i area
        · rw [if_pos hx] at a b
          rw [a, b]
        · rw [if_neg hx] at a b
          split at a
          · rename_i hi
            rw [if_pos hi] at b
            exact newNum_unique _ _ _ _ _ a b
          · rename_i hi
            rw [if_neg hi] at b
            rw [a, b]
      rw [this]
      exact ⟨rfl, rfl⟩
  | delete area =>
    cases h <;> cases h' <;> cases he <;> first | exact ⟨rfl, rfl⟩ | skip
    all_goals try (exfalso; simp_all; done)
    all_goals simp_all
  | next =>
    cases h <;> cases h' <;> cases he <;> first | exact ⟨rfl, rfl⟩ | skip
    all_goals try (exfalso; simp_all; done)
    · rename_i i h1 h2 j k n pk r h3 h4 h5
      cases (delivers_unique hd hw _ _ _ _ _ h2 h4).2
    · rename_i j k n pk r h3 h4 h5 i h1 h2
      cases (delivers_unique hd hw _ _ _ _ _ h2 h4).2
    · rename_i j k n pk r h3 h4 h5 j' k' n' pk' r' h3' h4' h5'
      obtain ⟨rfl, h⟩ := delivers_unique hd hw _ _ _ _ _ h4 h4'
      cases h
      rw [h5] at h5'
      cases h5'
      exact ⟨rfl, rfl⟩
  | prev =>
    cases h <;> cases h' <;> cases he <;> first | exact ⟨rfl, rfl⟩ | skip
    all_goals try (exfalso; simp_all; done)
    · rename_i i h1 h2 j k n pk r h3 h4 h5
      cases (delivers_unique hd hw _ _ _ _ _ h2 h4).2
    · rename_i j k n pk r h3 h4 h5 i h1 h2
      cases (delivers_unique hd hw _ _ _ _ _ h2 h4).2
    · rename_i j k n pk r h3 h4 h5 j' k' n' pk' r' h3' h4' h5'
      obtain ⟨rfl, h⟩ := delivers_unique hd hw _ _ _ _ _ h4 h4'
      cases h
      rw [h5] at h5'
      cases h5'
      exact ⟨rfl, rfl⟩
  | reopen =>
    cases he
    generalize hx : IxOp.reopen = op at h'
    cases h with
    | reopen p h1 =>
      cases h' <;> cases hx
      rename_i p' h2
      rw [opened_unique _ _ h1 h2]
      exact ⟨rfl, rfl⟩
  | start cond off len area =>
    cases h <;> cases h' <;> first | (exfalso; injection he; done) | (injection he with e1 e2 e3 e4; subst e1; subst e3; subst e4)
    · exact ⟨rfl, rfl⟩
    · rename_i i h1 h2 j k n pk h3 h4
      have := hc.places _ _ h1 h3 e2
      subst this
      cases finds_unique hd _ h1 _ _ _ _ h2 h4
    · rename_i j k n pk h3 h4 i h1 h2
      have := hc.places _ _ h3 h1 e2
      subst this
      cases finds_unique hd _ h1 _ _ _ _ h2 h4
    · rename_i j k n pk h3 h4 j' k' n' pk' h3' h4'
      have := hc.places _ _ h3 h3' e2
      subst this
      cases finds_unique hd _ h3 _ _ _ _ h4 h4'
      exact ⟨rfl, rfl⟩
  | read off len area =>
    cases h <;> cases h' <;> first | (exfalso; injection he; done) | (injection he with e2 e3 e4; subst e3; subst e4)
    · exact ⟨rfl, rfl⟩
    · rename_i i h1 h2 j k n pk r h3 h5 h4
      have := hc.places _ _ h1 h3 e2
      subst this
      cases finds_unique hd _ h1 _ _ _ _ h2 h4
    · rename_i j k n pk r h3 h5 h4 i h1 h2
      have := hc.places _ _ h3 h1 e2
      subst this
      cases finds_unique hd _ h1 _ _ _ _ h2 h4
    · rename_i j k n pk r h3 h5 h4 j' k' n' pk' r' h3' h5' h4'
      have := hc.places _ _ h3 h3' e2
      subst this
      cases finds_unique hd _ h3 _ _ _ _ h4 h4'
      rw [h5] at h5'
      cases h5'
      exact ⟨rfl, rfl⟩

theorem rel_within (h : IxRel cfg f A) : A.pos.Within cfg := by
  have := h.2.pos
  cases hp : A.pos with
  | undef => trivial
  | found o i k n pk => rw [hp] at this; exact this.1.2.1
  | read i k n => rw [hp] at this; exact this.1.2.1

/-- Whatever the specification says of the statements is what the program sees. -/
theorem ix_do (hc : cfg.Ok) (ops : List IxOp) : ∀ (f : IxFile) (A : IxAbs) (outs : List IxOut) (B : IxAbs), IxRel cfg f A → IxLegal cfg A ops →
    IxDo cfg A ops outs B → ∃ g, ixRun cfg f ops = some (outs, g) ∧ IxRel cfg g B := by
  induction ops with
  | nil =>
    intro f A outs B h _ hd
    cases hd
    exact ⟨f, rfl, h⟩
  | cons op ops ih =>
    intro f A outs B h hl hd
    cases hd with
    | cons _ C _ _ out _ outs h1 h2 =>
      obtain ⟨out', g, C', h3, h4, h5⟩ := ix_step hc h op hl.1
      obtain ⟨rfl, rfl⟩ := does_unique hc (rel_distinct h) (rel_within h) op _ _ _ _ h4 h1
      obtain ⟨g', h6, h7⟩ := ih g _ outs B h5 (hl.2 _ _ h4) h2
      refine ⟨g', ?_, h7⟩
      unfold ixRun
      rw [h3]
      simp only [Option.bind_some, h6, Option.map_some]

end Cob
