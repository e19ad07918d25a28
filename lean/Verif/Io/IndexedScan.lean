import Verif.Io.IndexedDet
/- INDEXED files: histories, and reading in the order of a key. -/
namespace Cob
variable {cfg : IxCfg}

/-- The statement is a REWRITE or DELETE for the record key `pk`. -/
def IxOp.Changes (cfg : IxCfg) (pk : List Nat) : IxOp → Prop
  | .rewrite area => cfg.keyOf 0 area = pk
  | .delete area => cfg.keyOf 0 area = pk
  | _ => False

/-! ### Histories -/

theorem legal_append (ops ops' : List IxOp) : ∀ A : IxAbs, IxLegal cfg A (ops ++ ops') →
    IxLegal cfg A ops ∧ ∀ outs B, IxDo cfg A ops outs B → IxLegal cfg B ops' := by
  induction ops with
  | nil =>
    intro A h
    exact ⟨trivial, fun outs B hd => by cases hd; exact h⟩
  | cons op ops ih =>
    intro A h
    refine ⟨⟨h.1, fun out B hb => (ih B (h.2 out B hb)).1⟩, fun outs B hd => ?_⟩
    cases hd with
    | cons _ C _ _ out _ outs h1 h2 => exact (ih C (h.2 out C h1)).2 outs B h2

theorem do_append (ops ops' : List IxOp) : ∀ (A : IxAbs) (outs : List IxOut) (B : IxAbs), IxDo cfg A (ops ++ ops') outs B ↔
    ∃ outs1 outs2 C, outs = outs1 ++ outs2 ∧ IxDo cfg A ops outs1 C ∧ IxDo cfg C ops' outs2 B := by
  induction ops with
  | nil =>
    intro A outs B
    constructor
    · exact fun h => ⟨[], outs, A, rfl, .nil A, h⟩
    · rintro ⟨o1, o2, C, rfl, h1, h2⟩
      cases h1
      exact h2
  | cons op ops ih =>
    intro A outs B
    constructor
    · intro h
      cases h with
      | cons _ C _ _ out _ outs h1 h2 =>
        obtain ⟨o1, o2, D, rfl, h3, h4⟩ := (ih C outs B).mp h2
        exact ⟨out :: o1, o2, D, rfl, .cons _ _ _ _ _ _ _ h1 h3, h4⟩
    · rintro ⟨o1, o2, C, rfl, h1, h2⟩
      cases h1 with
      | cons _ D _ _ out _ outs h3 h4 => exact .cons _ D _ _ _ _ _ h3 ((ih D _ B).mpr ⟨outs, o2, C, rfl, h4, h2⟩)

theorem do_length (ops : List IxOp) : ∀ (A : IxAbs) (outs : List IxOut) (B : IxAbs), IxDo cfg A ops outs B → outs.length = ops.length := by
  induction ops with
  | nil => intro A outs B h; cases h; rfl
  | cons op ops ih =>
    intro A outs B h
    cases h with
    | cons _ D _ _ out _ outs h3 h4 => simp [ih _ _ _ h4]

theorem run_do (hc : cfg.Ok) (f : IxFile) (A : IxAbs) (h : IxRel cfg f A) (ops : List IxOp) (hl : IxLegal cfg A ops) (outs : List IxOut)
    (g : IxFile) (hr : ixRun cfg f ops = some (outs, g)) : ∃ B, IxDo cfg A ops outs B ∧ IxRel cfg g B := by
  obtain ⟨outs', g', B, h1, h2, h3⟩ := ix_run hc ops f A h hl
  rw [h1] at hr
  cases hr
  exact ⟨B, h2, h3⟩

/-- A statement that does not change the record with this key leaves it and its numbers alone. -/
theorem does_keep (hns : cfg.access ≠ .sequential) (A B : IxAbs) (op : IxOp) (out : IxOut) (h : IxDoes cfg A op out B)
    (pk r : List Nat) (hr : A.recs pk = some r) (hk : ¬ op.Changes cfg pk) :
    B.recs pk = some r ∧ ∀ i, B.num i pk = A.num i pk := by
  cases h <;> try exact ⟨hr, fun _ => rfl⟩
  · rename_i h _ _
    rename_i area len new h0 h1 h2 h3
    have : pk ≠ cfg.keyOf 0 area := by rintro rfl; rw [hr] at h; cases h
    simp [IxAbs.put, this, hr]
  · rename_i area old new h1 h2 h3 h4
    have : pk ≠ cfg.keyOf 0 area := fun h => hk h.symm
    simp [IxAbs.put, this, hr]
  · rename_i h _
    exact absurd h hns
  · rename_i area h1 h2
    have : pk ≠ cfg.keyOf 0 area := fun h => hk h.symm
    simp [IxAbs.del, this, hr]

theorem do_keep (hns : cfg.access ≠ .sequential) (ops : List IxOp) : ∀ (A B : IxAbs) (outs : List IxOut), IxDo cfg A ops outs B →
    ∀ (pk r : List Nat), A.recs pk = some r → (∀ op ∈ ops, ¬ op.Changes cfg pk) →
    B.recs pk = some r ∧ ∀ i, B.num i pk = A.num i pk := by
  induction ops with
  | nil => intro A B outs h pk r hr hk; cases h; exact ⟨hr, fun _ => rfl⟩
  | cons op ops ih =>
    intro A B outs h pk r hr hk
    cases h with
    | cons _ D _ _ out _ outs h3 h4 =>
      obtain ⟨a1, a2⟩ := does_keep hns A D op out h3 pk r hr (hk _ (by simp))
      obtain ⟨b1, b2⟩ := ih D B outs h4 pk r a1 (fun op ho => hk op (by simp [ho]))
      exact ⟨b1, fun i => by rw [b2, a2]⟩

theorem write_ok (A B : IxAbs) (area : List Nat) (len : Nat) (o : IxOut) (h : IxDoes cfg A (.write area len) o B) (ho : o.status = 0) :
    B.recs (cfg.keyOf 0 area) = some (area.take len) ∧
    (∀ i, 0 < i → (cfg.key i).dups = true → ∀ pk r, A.recs pk = some r → cfg.keyOf i r = cfg.keyOf i area →
      A.num i pk < B.num i (cfg.keyOf 0 area)) ∧
    (∀ pk, pk ≠ cfg.keyOf 0 area → ∀ i, B.recs pk = A.recs pk ∧ B.num i pk = A.num i pk) ∧ A.recs (cfg.keyOf 0 area) = none ∧
    cfg.recMin ≤ len := by
  cases h
  · simp at ho
  · simp at ho
  · simp at ho
  · rename_i new h1 h2 h3 h4 h0
    refine ⟨by simp [IxAbs.put], fun i hi hd pk r hr hk => ?_, fun pk hp i => by simp [IxAbs.put, hp], h2, h0.1⟩
    have := h4 i
    rw [if_pos ⟨hi, hd⟩] at this
    have hp : pk ≠ cfg.keyOf 0 area := by rintro rfl; rw [h2] at hr; cases hr
    simpa [IxAbs.put] using this.1 pk r hp hr hk

/-! ### Reading in the order of a key -/

theorem distinct_congr {A B : IxAbs} (h1 : B.recs = A.recs) (h2 : B.num = A.num) (h : A.Distinct cfg) : B.Distinct cfg := by
  intro i hi k n pk pk' a b
  unfold IxAbs.Has at *
  rw [h1, h2] at a b
  exact h i hi k n pk pk' a b

theorem next_end_do (hc : cfg.Ok) (A : IxAbs) (hd : A.Distinct cfg) (i : Nat) (hw : A.pos.Within cfg) (hp : A.pos ≠ .undef)
    (he : A.eof = false) (h : A.Delivers cfg false i none) :
    IxLegal cfg A [.next] ∧ ∃ B, IxDo cfg A [.next] [⟨10, none⟩] B :=
  ⟨⟨hp, fun _ _ _ => trivial⟩, _, .cons _ _ _ _ _ _ _ (.nextEnd i he h) (.nil _)⟩

/-- From the record of the entry `e` on: `es` are the entries behind it. -/
theorem scan_do (hc : cfg.Ok) (i : Nat) (hi : i < cfg.keys.length) (es : List IxEnt) : ∀ (A : IxAbs) (e : IxEnt), A.Distinct cfg →
    A.pos = .read i e.key e.dup → A.eof = false → A.bof = false → (e :: es).Pairwise EntLt →
    (∀ x : IxEnt, x ∈ es ↔ A.Has cfg i x.key x.dup x.pk ∧ EntLt e x) →
    IxLegal cfg A (List.replicate (es.length + 1) .next) ∧
      ∃ B, IxDo cfg A (List.replicate (es.length + 1) .next) (es.map (fun x => ⟨0, A.recs x.pk⟩) ++ [⟨10, none⟩]) B := by
  induction es with
  | nil =>
    intro A e hd hp he hb hs hm
    refine next_end_do hc A hd i (by rw [hp]; exact hi) (by rw [hp]; simp) he ?_
    unfold IxAbs.Delivers
    rw [hp]
    refine ⟨rfl, ?_⟩
    unfold IxAbs.Beyond
    rw [if_neg (by decide)]
    rintro k n pk h1 (h2 | h2)
    · rw [hb] at h2; cases h2
    · have := (hm ⟨k, pk, n⟩).mpr ⟨h1, h2⟩
      simp at this
  | cons x es ih =>
    intro A e hd hp he hb hs hm
    have hx := (hm x).mp (by simp)
    obtain ⟨r, hr1, hr2, hr3⟩ := hx.1
    have hs' := (List.pairwise_cons.mp hs).2
    have hdel : A.Delivers cfg false i (some (x.key, x.dup, x.pk)) := by
      unfold IxAbs.Delivers
      rw [hp]
      refine ⟨rfl, ?_⟩
      unfold IxAbs.Beyond
      rw [if_neg (by decide)]
      refine ⟨hx.1, Or.inr hx.2, ?_⟩
      rintro k n pk h1 (h2 | h2) h3
      · rw [hb] at h2; cases h2
      · have := (hm ⟨k, pk, n⟩).mpr ⟨h1, h2⟩
        rcases List.mem_cons.mp this with h | h
        · have e1 : k = x.key := congrArg IxEnt.key h
          have e2 : n = x.dup := congrArg IxEnt.dup h
          subst e1 e2
          exact IxBefore.irrefl _ _ h3
        · have h4 : EntLt x ⟨k, pk, n⟩ := (List.pairwise_cons.mp hs').1 _ h
          exact IxBefore.irrefl _ _ (IxBefore.trans h3 h4)
    have hstep : IxDoes cfg A .next ⟨0, A.recs x.pk⟩
        { A with cur := some x.pk, pos := .read i x.key x.dup, eof := false, bof := false, size := r.length } := by
      rw [hr1]
      exact .next i _ _ _ r he hdel hr1
    obtain ⟨l1, B, l2⟩ := ih { A with cur := some x.pk, pos := .read i x.key x.dup, eof := false, bof := false, size := r.length } x
      (distinct_congr rfl rfl hd) rfl rfl rfl hs' (by
        intro y
        have hy := hm y
        constructor
        · intro h
          exact ⟨(hy.mp (by simp [h])).1, (List.pairwise_cons.mp hs').1 _ h⟩
        · rintro ⟨h1, h2⟩
          have h3 : EntLt e y := IxBefore.trans hx.2 h2
          rcases List.mem_cons.mp (hy.mpr ⟨h1, h3⟩) with h | h
          · subst h; exact absurd h2 (IxBefore.irrefl _ _)
          · exact h)
    refine ⟨⟨by unfold IxAllowed; rw [hp]; simp, fun out C hC => ?_⟩, B, .cons _ _ _ _ _ _ _ hstep l2⟩
    obtain ⟨rfl, rfl⟩ := does_unique hc hd (by rw [hp]; exact hi) .next _ _ _ _ hC hstep
    exact l1

/-- From a record found on. -/
theorem scan_found (hc : cfg.Ok) (i : Nat) (hi : i < cfg.keys.length) (es : List IxEnt) (A : IxAbs) (e : IxEnt) (hd : A.Distinct cfg) (o : Bool)
    (hp : A.pos = .found o i e.key e.dup e.pk) (he : A.eof = false) (hs : (e :: es).Pairwise EntLt)
    (hm : ∀ x : IxEnt, x ∈ e :: es ↔ A.Has cfg i x.key x.dup x.pk) :
    IxLegal cfg A (List.replicate (es.length + 2) .next) ∧
      ∃ B, IxDo cfg A (List.replicate (es.length + 2) .next) ((e :: es).map (fun x => ⟨0, A.recs x.pk⟩) ++ [⟨10, none⟩]) B := by
  have hx := (hm e).mp (by simp)
  obtain ⟨r, hr1, hr2, hr3⟩ := hx
  have hdel : A.Delivers cfg false i (some (e.key, e.dup, e.pk)) := by
    unfold IxAbs.Delivers
    rw [hp]
    refine ⟨rfl, ?_⟩
    rw [if_neg (by simp)]
    exact Or.inl ⟨⟨r, hr1, hr2, hr3⟩, rfl⟩
  have hstep : IxDoes cfg A .next ⟨0, A.recs e.pk⟩
      { A with cur := some e.pk, pos := .read i e.key e.dup, eof := false, bof := false, size := r.length } := by
    rw [hr1]
    exact .next i _ _ _ r he hdel hr1
  obtain ⟨l1, B, l2⟩ := scan_do hc i hi es
    { A with cur := some e.pk, pos := .read i e.key e.dup, eof := false, bof := false, size := r.length } e
    (distinct_congr rfl rfl hd) rfl rfl rfl hs (by
      intro y
      have hy := hm y
      constructor
      · intro h
        exact ⟨hy.mp (by simp [h]), (List.pairwise_cons.mp hs).1 _ h⟩
      · rintro ⟨h1, h2⟩
        rcases List.mem_cons.mp (hy.mpr h1) with h | h
        · subst h; exact absurd h2 (IxBefore.irrefl _ _)
        · exact h)
  refine ⟨⟨by unfold IxAllowed; rw [hp]; simp, fun out C hC => ?_⟩, B, .cons _ _ _ _ _ _ _ hstep l2⟩
  obtain ⟨rfl, rfl⟩ := does_unique hc hd (by rw [hp]; exact hi) .next _ _ _ _ hC hstep
  exact l1

theorem run_append (hc : cfg.Ok) (pre post : List IxOp) (f : IxFile) (A : IxAbs) (hf : IxRel cfg f A) (hl : IxLegal cfg A pre)
    (outs : List IxOut) (B : IxAbs) (h : IxDo cfg A pre outs B) (hl2 : IxLegal cfg B post) (outs2 : List IxOut) (C : IxAbs)
    (h2 : IxDo cfg B post outs2 C) : (ixRun cfg f (pre ++ post)).map (·.1) = some (outs ++ outs2) := by
  have hleg : IxLegal cfg A (pre ++ post) := by
    clear h2
    induction pre generalizing f A outs with
    | nil => cases h; exact hl2
    | cons op pre ih =>
      cases h with
      | cons _ D _ _ out _ outs h3 h4 =>
        obtain ⟨out', g, D', e1, e2, e3⟩ := ix_step hc hf op hl.1
        refine ⟨hl.1, fun o E hE => ?_⟩
        obtain ⟨rfl, rfl⟩ := does_unique hc (rel_distinct hf) (rel_within hf) op _ _ _ _ hE h3
        obtain ⟨rfl, rfl⟩ := does_unique hc (rel_distinct hf) (rel_within hf) op _ _ _ _ hE e2
        exact ih g _ e3 (hl.2 _ _ hE) outs h4
  obtain ⟨g, h3, -⟩ := ix_do hc (pre ++ post) f A (outs ++ outs2) C hf hleg ((do_append pre post A _ C).mpr ⟨outs, outs2, B, rfl, h, h2⟩)
  rw [h3]
  rfl

/-- The records of a state, as the entries of key `i`. -/
theorem reached_index (hc : cfg.Ok) (pre : List IxOp) (hl : IxLegal cfg (IxAbs.empty cfg) pre) (outs : List IxOut) (A : IxAbs)
    (h : IxDo cfg (IxAbs.empty cfg) pre outs A) (i : Nat) (hi : i < cfg.keys.length) :
    A.Distinct cfg ∧ (∀ pk r, A.recs pk = some r → cfg.keyOf 0 r = pk) ∧ (∀ pk, (A.recs pk).isSome → A.num 0 pk = 0) ∧
      (∀ pk r, A.recs pk = some r → (cfg.key i).dups = false → A.num i pk = 0) ∧
      ∃ L : List IxEnt, L.Pairwise EntLt ∧ ∀ x : IxEnt, x ∈ L ↔ A.Has cfg i x.key x.dup x.pk := by
  obtain ⟨g, -, hg⟩ := ix_do hc pre _ _ outs A (new_rel hc) hl h
  exact ⟨rel_distinct hg, fun pk r hr => (hg.1.wf pk r hr).1, fun pk hr => hg.1.num0 0 pk (by simp) hr,
    fun pk r hr hd => hg.1.num0 i pk (by simp [hd]) (by simp [hr]),
    g.index i, index_sorted hg.1 i hi, fun x => index_mem hg.1 i hi x⟩

end Cob
