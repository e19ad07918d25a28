import Verif.Io.IndexedScan
import Verif.Move.EditedExamples
/- C61: INDEXED files, what a program can rely on. -/
namespace Cob
variable {cfg : IxCfg}

/-- Every program within the rules gets exactly the answers of the specification, which gives one answer to every statement. -/
theorem C61_history (cfg : IxCfg) (hc : cfg.Ok) (ops : List IxOp) (hl : IxLegal cfg (IxAbs.empty cfg) ops) :
    ∃ outs, (ixRun cfg (ixNew cfg) ops).map (·.1) = some outs ∧
      ∀ outs', (∃ A, IxDo cfg (IxAbs.empty cfg) ops outs' A) ↔ outs' = outs := by
  obtain ⟨outs, g, B, h1, h2, h3⟩ := ix_run hc ops _ _ (new_rel hc) hl
  refine ⟨outs, by rw [h1]; rfl, fun outs' => ⟨fun ⟨A, hA⟩ => ?_, fun h => ⟨B, h ▸ h2⟩⟩⟩
  obtain ⟨g', h4, -⟩ := ix_do hc ops _ _ outs' A (new_rel hc) hl hA
  rw [h1] at h4
  cases h4
  rfl

/-- What WRITE stored is what READ finds, whatever is written, read or deleted in between, as long as it is not this record. -/
theorem C61_read_back (cfg : IxCfg) (hc : cfg.Ok) (hns : cfg.access ≠ .sequential) (pre mid : List IxOp) (area area' : List Nat) (len : Nat)
    (hl : IxLegal cfg (IxAbs.empty cfg) (pre ++ .write area len :: mid ++ [.read (cfg.key 0).off (cfg.key 0).len area']))
    (hk : cfg.keyOf 0 area' = cfg.keyOf 0 area) (hmid : ∀ op ∈ mid, ¬ op.Changes cfg (cfg.keyOf 0 area))
    (outs : List IxOut)
    (hr : (ixRun cfg (ixNew cfg) (pre ++ .write area len :: mid ++ [.read (cfg.key 0).off (cfg.key 0).len area'])).map (·.1) = some outs)
    (hw : (outs[pre.length]?).map (·.status) = some 0) :
    outs.getLast? = some ⟨0, some (area.take len)⟩ := by
  cases hrr : ixRun cfg (ixNew cfg) (pre ++ .write area len :: mid ++ [.read (cfg.key 0).off (cfg.key 0).len area']) with
  | none => rw [hrr] at hr; cases hr
  | some q =>
  obtain ⟨o, g⟩ := q
  rw [hrr] at hr
  cases hr
  obtain ⟨B, hB, hg⟩ := run_do hc _ _ (new_rel hc) _ hl _ _ hrr
  obtain ⟨o1, o2, C, rfl, h1, h2⟩ := (do_append _ _ _ _ _).mp hB
  obtain ⟨p1, p2, D, rfl, h3, h4⟩ := (do_append _ _ _ _ _).mp h1
  cases h4 with
  | cons _ E _ _ out _ outs h5 h6 =>
    have hlen := do_length _ _ _ _ h3
    rw [List.append_assoc, List.getElem?_append_right (by omega), hlen] at hw
    simp only [Nat.sub_self, List.cons_append, List.getElem?_cons_zero, Option.map_some, Option.some.injEq] at hw
    have h7 := (write_ok D E area len out h5 hw).1
    have h8 := (do_keep hns mid E C outs h6 _ _ h7 hmid).1
    have hpre := legal_append _ _ _ hl
    obtain ⟨f1, -, hf1⟩ := ix_do hc _ _ _ _ C (new_rel hc) hpre.1 h1
    cases h2 with
    | cons _ F _ _ out2 _ outs2 h9 h10 =>
      cases h10
      have hlast := hpre.2 _ _ h1
      simp only [List.getLast?_append, List.getLast?_singleton, Option.some_or, Option.some.injEq]
      have hfind : IxDoes cfg C (.read (cfg.key 0).off (cfg.key 0).len area') ⟨0, some (area.take len)⟩
          { C with cur := some (cfg.keyOf 0 area), pos := .read 0 (cfg.keyOf 0 area) 0, eof := false, bof := false,
                   size := (area.take len).length } := by
        refine .read 0 _ _ _ 0 _ _ hc.nonempty ?_ h8
        have ek : (area'.drop (cfg.key 0).off).take (cfg.key 0).len = cfg.keyOf 0 area := hk
        rw [ek]
        have hkk := (hf1.1.wf _ _ h8)
        have hkl : (cfg.keyOf 0 area).length = (cfg.key 0).len := by
          rw [← hkk.1]; exact keyOf_length hc 0 hc.nonempty _ hkk.2.1
        refine ⟨⟨_, h8, hkk.1, hf1.1.num0 0 _ (by simp) (by simp [h8])⟩, by simp, ?_⟩
        intro k' n' pk' hh he hb
        obtain ⟨r', q1, q2, q3⟩ := hh
        have hk' : k' = cfg.keyOf 0 area := by
          rw [← he, hkl, ← q2, List.take_of_length_le]
          have := keyOf_length hc 0 hc.nonempty _ (hf1.1.wf _ _ q1).2.1
          omega
        rcases hb with hb | ⟨-, hb⟩
        · rw [hk'] at hb; exact lt_irrefl _ hb
        · omega
      exact (does_unique hc (rel_distinct hf1) (rel_within hf1) _ _ _ _ _ h9 hfind).1

/-- After START (not less than nothing) READ NEXT delivers every record of the file once, in the order of the key named, records with
the same key by their numbers; then the end is reported. -/
theorem C61_scan (cfg : IxCfg) (hc : cfg.Ok) (pre : List IxOp) (hl : IxLegal cfg (IxAbs.empty cfg) pre) (outs : List IxOut) (A : IxAbs)
    (h : IxDo cfg (IxAbs.empty cfg) pre outs A) (i : Nat) (hi : i < cfg.keys.length) (area : List Nat) (ha : area.length = cfg.recMax) :
    ∃ pks : List (List Nat), (∀ pk, pk ∈ pks ↔ A.recs pk ≠ none) ∧
      (pks.Pairwise fun p q => ∃ r s, A.recs p = some r ∧ A.recs q = some s ∧
        IxBefore (cfg.keyOf i r) (A.num i p) (cfg.keyOf i s) (A.num i q)) ∧
      (pks = [] → (ixRun cfg (ixNew cfg) (pre ++ [.start .ge (cfg.key i).off 0 area])).map (·.1) = some (outs ++ [⟨23, none⟩])) ∧
      (pks ≠ [] → (ixRun cfg (ixNew cfg)
          (pre ++ (.start .ge (cfg.key i).off 0 area :: List.replicate (pks.length + 1) .next))).map (·.1) =
        some (outs ++ (⟨0, none⟩ :: (pks.map (fun p => ⟨0, A.recs p⟩) ++ [⟨10, none⟩])))) := by
  obtain ⟨hd, -, -, -, L, hs, hm⟩ := reached_index hc pre hl outs A h i hi
  have hal : IxAllowed cfg A (.start .ge (cfg.key i).off 0 area) := ⟨ha, i, hi, rfl, Nat.zero_le _, by simp⟩
  have hfw : A.pos.Within cfg := by
    obtain ⟨g, -, hg⟩ := ix_do hc pre _ _ outs A (new_rel hc) hl h
    exact rel_within hg
  refine ⟨L.map (·.pk), ?_, ?_, ?_, ?_⟩
  · intro pk
    simp only [List.mem_map]
    constructor
    · rintro ⟨e, he, rfl⟩
      obtain ⟨r, h1, -⟩ := (hm e).mp he
      simp [h1]
    · intro hne
      obtain ⟨r, hr⟩ := Option.ne_none_iff_exists'.mp hne
      exact ⟨⟨cfg.keyOf i r, pk, A.num i pk⟩, (hm _).mpr ⟨r, hr, rfl, rfl⟩, rfl⟩
  · rw [List.pairwise_map]
    refine List.Pairwise.imp_of_mem (fun {a b} h1 h2 h => ?_) hs
    obtain ⟨r, a1, a2, a3⟩ := (hm a).mp h1
    obtain ⟨s, b1, b2, b3⟩ := (hm b).mp h2
    refine ⟨r, s, a1, b1, ?_⟩
    rw [a2, a3, b2, b3]
    exact h
  · intro he
    have hL : L = [] := List.map_eq_nil_iff.mp he
    refine run_append hc pre [.start .ge (cfg.key i).off 0 area] _ _ (new_rel hc) hl outs A h ⟨hal, fun _ _ _ => trivial⟩ _ _
      (.cons _ _ _ _ _ _ _ (.startMissing .ge i 0 area hi ?_) (.nil _))
    intro k n pk hh
    have := (hm ⟨k, pk, n⟩).mpr hh
    rw [hL] at this
    cases this
  · intro hne
    cases L with
    | nil => simp at hne
    | cons e es =>
      have hstart : IxDoes cfg A (.start .ge (cfg.key i).off 0 area) ⟨0, none⟩
          { A with cur := none, pos := .found false i e.key e.dup e.pk, eof := false, bof := false } := by
        refine .start .ge i 0 area e.key e.dup e.pk hi ⟨(hm e).mp (by simp), by simp, ?_⟩
        intro k n pk hh _ hb
        have := (hm ⟨k, pk, n⟩).mpr hh
        rcases List.mem_cons.mp this with h | h
        · subst h; exact IxBefore.irrefl _ _ hb
        · exact IxBefore.irrefl _ _ (IxBefore.trans hb ((List.pairwise_cons.mp hs).1 _ h))
      obtain ⟨l1, B, l2⟩ := scan_found hc i hi es { A with cur := none, pos := .found false i e.key e.dup e.pk, eof := false, bof := false }
        e (distinct_congr rfl rfl hd) false rfl rfl hs hm
      have := run_append hc pre (.start .ge (cfg.key i).off 0 area :: List.replicate (es.length + 2) .next) _ _ (new_rel hc) hl outs A h
        ⟨hal, fun o C hC => by
          obtain ⟨rfl, rfl⟩ := does_unique hc hd hfw _ _ _ _ _ hC hstart
          exact l1⟩ _ _ (.cons _ _ _ _ _ _ _ hstart l2)
      rw [List.map_map, List.length_map]
      exact this

/-- After CLOSE and OPEN, READ NEXT delivers every record once in ascending order of the record key; then the end is reported. -/
theorem C61_scan_open (cfg : IxCfg) (hc : cfg.Ok) (pre : List IxOp) (hl : IxLegal cfg (IxAbs.empty cfg) pre) (outs : List IxOut) (A : IxAbs)
    (h : IxDo cfg (IxAbs.empty cfg) pre outs A) :
    ∃ pks : List (List Nat), (∀ pk, pk ∈ pks ↔ A.recs pk ≠ none) ∧ pks.Pairwise (fun p q => p < q) ∧
      (ixRun cfg (ixNew cfg) (pre ++ (.reopen :: List.replicate (pks.length + 1) .next))).map (·.1) =
        some (outs ++ (⟨0, none⟩ :: (pks.map (fun p => ⟨0, A.recs p⟩) ++ [⟨10, none⟩]))) := by
  obtain ⟨hd, hk, h0, -, L, hs, hm⟩ := reached_index hc pre hl outs A h 0 hc.nonempty
  have hfw : A.pos.Within cfg := by
    obtain ⟨g, -, hg⟩ := ix_do hc pre _ _ outs A (new_rel hc) hl h
    exact rel_within hg
  have hkey : ∀ e ∈ L, e.key = e.pk ∧ e.dup = 0 := by
    intro e he
    obtain ⟨r, h1, h2, h3⟩ := (hm e).mp he
    exact ⟨by rw [← h2, hk _ _ h1], by rw [← h3, h0 _ (by simp [h1])]⟩
  refine ⟨L.map (·.pk), ?_, ?_, ?_⟩
  · intro pk
    simp only [List.mem_map]
    constructor
    · rintro ⟨e, he, rfl⟩
      obtain ⟨r, h1, -⟩ := (hm e).mp he
      simp [h1]
    · intro hne
      obtain ⟨r, hr⟩ := Option.ne_none_iff_exists'.mp hne
      exact ⟨⟨cfg.keyOf 0 r, pk, A.num 0 pk⟩, (hm _).mpr ⟨r, hr, rfl, rfl⟩, rfl⟩
  · rw [List.pairwise_map]
    refine List.Pairwise.imp_of_mem (fun {a b} h1 h2 h => ?_) hs
    obtain ⟨a1, a2⟩ := hkey a h1
    obtain ⟨b1, b2⟩ := hkey b h2
    rcases h with h | ⟨-, h⟩
    · rwa [a1, b1] at h
    · omega
  · cases L with
    | nil =>
      have hno : ∀ pk, A.recs pk = none := by
        intro pk
        cases hr : A.recs pk with
        | none => rfl
        | some r =>
          have := (hm ⟨cfg.keyOf 0 r, pk, A.num 0 pk⟩).mpr ⟨r, hr, rfl, rfl⟩
          cases this
      let z := List.replicate (cfg.key 0).len 0
      have hop : IxDoes cfg A .reopen ⟨0, none⟩
          { A with cur := none, pos := .found true 0 z 0 z, eof := false, bof := false, lastW := none } :=
        .reopen _ ⟨z, rfl, Or.inl ⟨hno, rfl⟩⟩
      have hnh : ∀ k n pk, ¬ A.Has cfg 0 k n pk := by
        rintro k n pk ⟨r, hr, -⟩
        rw [hno] at hr
        cases hr
      obtain ⟨l1, B, l2⟩ := next_end_do hc { A with cur := none, pos := .found true 0 z 0 z, eof := false, bof := false, lastW := none }
        (distinct_congr rfl rfl hd) 0 hc.nonempty (by simp) rfl (by
          unfold IxAbs.Delivers
          refine ⟨rfl, ?_⟩
          rw [if_neg (by simp)]
          refine Or.inr ⟨hnh z 0 z, ?_⟩
          unfold IxAbs.Beyond
          rw [if_neg (by decide)]
          exact fun k n pk hh => absurd hh (hnh k n pk))
      exact run_append hc pre (.reopen :: [.next]) _ _ (new_rel hc) hl outs A h
        ⟨trivial, fun o C hC => by
          obtain ⟨rfl, rfl⟩ := does_unique hc hd hfw _ _ _ _ _ hC hop
          exact l1⟩ _ _ (.cons _ _ _ _ _ _ _ hop l2)
    | cons e es =>
      obtain ⟨q1, q2⟩ := hkey e (by simp)
      have hop : IxDoes cfg A .reopen ⟨0, none⟩
          { A with cur := none, pos := .found true 0 e.key e.dup e.pk, eof := false, bof := false, lastW := none } := by
        rw [q1, q2]
        refine .reopen _ ⟨e.pk, rfl, Or.inr ⟨?_, ?_⟩⟩
        · obtain ⟨r, h1, -⟩ := (hm e).mp (by simp)
          exact ⟨r, h1⟩
        · intro pk r hr hlt
          have hmem := (hm ⟨cfg.keyOf 0 r, pk, A.num 0 pk⟩).mpr ⟨r, hr, rfl, rfl⟩
          have := (hkey _ hmem).1
          simp only at this
          rcases List.mem_cons.mp hmem with hx | hx
          · have hpk : pk = e.pk := congrArg IxEnt.pk hx
            rw [hpk] at hlt
            exact lt_irrefl _ hlt
          · rcases (List.pairwise_cons.mp hs).1 _ hx with hy | ⟨-, hy⟩
            · simp only [this, q1] at hy
              exact asymm hy hlt
            · simp only [q2, h0 pk (by simp [hr])] at hy
              omega
      obtain ⟨l1, B, l2⟩ := scan_found hc 0 hc.nonempty es
        { A with cur := none, pos := .found true 0 e.key e.dup e.pk, eof := false, bof := false, lastW := none }
        e (distinct_congr rfl rfl hd) true rfl rfl hs hm
      have := run_append hc pre (.reopen :: List.replicate (es.length + 2) .next) _ _ (new_rel hc) hl outs A h
        ⟨trivial, fun o C hC => by
          obtain ⟨rfl, rfl⟩ := does_unique hc hd hfw _ _ _ _ _ hC hop
          exact l1⟩ _ _ (.cons _ _ _ _ _ _ _ hop l2)
      rw [List.map_map, List.length_map]
      exact this

/-- No two records of the file ever have the same record key, or the same alternate key WITHOUT DUPLICATES. -/
theorem C61_unique (cfg : IxCfg) (hc : cfg.Ok) (ops : List IxOp) (hl : IxLegal cfg (IxAbs.empty cfg) ops) (outs : List IxOut) (A : IxAbs)
    (h : IxDo cfg (IxAbs.empty cfg) ops outs A) (i : Nat) (hi : i < cfg.keys.length) (hd : (cfg.key i).dups = false)
    (pk pk' r r' : List Nat) (hr : A.recs pk = some r) (hr' : A.recs pk' = some r') (he : cfg.keyOf i r = cfg.keyOf i r') : pk = pk' := by
  obtain ⟨hdd, -, -, h1, -⟩ := reached_index hc ops hl outs A h i hi
  exact hdd i hi _ _ _ _ ⟨r, hr, rfl, h1 _ _ hr hd⟩ ⟨r', hr', he.symm, h1 _ _ hr' hd⟩

/-- Records with the same alternate key are in the order they were written: `C61_scan` delivers the record written first
before the other, as long as neither is rewritten or deleted. -/
theorem C61_duplicates (cfg : IxCfg) (hc : cfg.Ok) (hns : cfg.access ≠ .sequential) (pre mid post : List IxOp) (a b : List Nat) (la lb : Nat)
    (hl : IxLegal cfg (IxAbs.empty cfg) (pre ++ .write a la :: (mid ++ .write b lb :: post)))
    (outs : List IxOut) (A : IxAbs) (h : IxDo cfg (IxAbs.empty cfg) (pre ++ .write a la :: (mid ++ .write b lb :: post)) outs A)
    (hwa : (outs[pre.length]?).map (·.status) = some 0) (hwb : (outs[pre.length + 1 + mid.length]?).map (·.status) = some 0)
    (hma : ∀ op ∈ mid ++ post, ¬ op.Changes cfg (cfg.keyOf 0 a)) (hmb : ∀ op ∈ post, ¬ op.Changes cfg (cfg.keyOf 0 b))
    (i : Nat) (hi : 0 < i) (hin : i < cfg.keys.length) (hd : (cfg.key i).dups = true) (he : cfg.keyOf i a = cfg.keyOf i b) :
    A.recs (cfg.keyOf 0 a) = some (a.take la) ∧ A.recs (cfg.keyOf 0 b) = some (b.take lb) ∧
      A.num i (cfg.keyOf 0 a) < A.num i (cfg.keyOf 0 b) := by
  obtain ⟨o1, o2, C, rfl, h1, h2⟩ := (do_append _ _ _ _ _).mp h
  have hl1 := do_length _ _ _ _ h1
  have hleg := (legal_append _ _ _ hl).2 _ _ h1
  cases h2 with
  | cons _ D _ _ outa _ outs h3 h4 =>
    obtain ⟨p1, p2, E, rfl, h5, h6⟩ := (do_append _ _ _ _ _).mp h4
    have hl2 := do_length _ _ _ _ h5
    cases h6 with
    | cons _ F _ _ outb _ outs2 h7 h8 =>
      rw [List.getElem?_append_right (by omega), hl1] at hwa
      simp only [Nat.sub_self, List.getElem?_cons_zero, Option.map_some, Option.some.injEq] at hwa
      rw [List.getElem?_append_right (by omega), hl1, show pre.length + 1 + mid.length - pre.length = mid.length + 1 by omega] at hwb
      rw [List.getElem?_cons_succ, List.getElem?_append_right (by omega), hl2] at hwb
      simp only [Nat.sub_self, List.getElem?_cons_zero, Option.map_some, Option.some.injEq] at hwb
      obtain ⟨a1, -, -, -, a5⟩ := write_ok C D a la outa h3 hwa
      obtain ⟨b1, b2⟩ := do_keep hns mid D E p1 h5 _ _ a1 (fun op ho => hma op (by simp [ho]))
      obtain ⟨c1, c2, c3, c4, -⟩ := write_ok E F b lb outb h7 hwb
      have hne : cfg.keyOf 0 a ≠ cfg.keyOf 0 b := by
        intro hx
        rw [hx, c4] at b1
        cases b1
      obtain ⟨d1, d2⟩ := do_keep hns post F A outs2 h8 _ _ (by rw [(c3 _ hne 0).1]; exact b1) (fun op ho => hma op (by simp [ho]))
      obtain ⟨e1, e2⟩ := do_keep hns post F A outs2 h8 _ _ c1 hmb
      refine ⟨d1, e1, ?_⟩
      rw [d2, e2, (c3 _ hne i).2]
      refine c2 i hi hd _ _ b1 ?_
      rw [keyOf_take hc i hin a la a5]
      exact he

/-! ### The hypotheses can be met -/

/-- Allowed wherever it stands. -/
def IxOp.Static (cfg : IxCfg) : IxOp → Prop
  | .write area len => area.length = cfg.recMax ∧ cfg.recMin ≤ len ∧ len ≤ cfg.recMax
  | .rewrite area => area.length = cfg.recMax ∧ cfg.access ≠ .sequential
  | .delete area => area.length = cfg.recMax
  | .start cond off len area => area.length = cfg.recMax ∧ ∃ i, i < cfg.keys.length ∧ off = (cfg.key i).off ∧ len ≤ (cfg.key i).len ∧
      (cond = .le → len = (cfg.key i).len)
  | .read off len area => area.length = cfg.recMax ∧ ∃ i, i < cfg.keys.length ∧ off = (cfg.key i).off ∧ len ≤ (cfg.key i).len
  | .reopen => True
  | _ => False

/-- The length of the record area and of the records is within the limits. -/
def IxAbs.Sized (cfg : IxCfg) (A : IxAbs) : Prop :=
  (cfg.recMin ≤ A.size ∧ A.size ≤ cfg.recMax) ∧ ∀ pk r, A.recs pk = some r → cfg.recMin ≤ r.length ∧ r.length ≤ cfg.recMax

theorem sized_empty (hc : cfg.Ok) : (IxAbs.empty cfg).Sized cfg := ⟨⟨hc.lengths, Nat.le_refl _⟩, fun _ _ h => by cases h⟩

theorem sized_put (A : IxAbs) (h : A.Sized cfg) (pk r : List Nat) (new : Nat → Nat) (hr : cfg.recMin ≤ r.length ∧ r.length ≤ cfg.recMax)
    (q s : List Nat) (hq : (A.put pk r new).recs q = some s) : cfg.recMin ≤ s.length ∧ s.length ≤ cfg.recMax := by
  unfold IxAbs.put at hq
  simp only at hq
  split at hq
  · cases hq; exact hr
  · exact h.2 _ _ hq

theorem sized_del (A : IxAbs) (h : A.Sized cfg) (pk : List Nat)
    (q s : List Nat) (hq : (A.del pk).recs q = some s) : cfg.recMin ≤ s.length ∧ s.length ≤ cfg.recMax := by
  unfold IxAbs.del at hq
  simp only at hq
  split at hq
  · cases hq
  · exact h.2 _ _ hq

theorem sized_does (A B : IxAbs) (op : IxOp) (out : IxOut) (h : A.Sized cfg) (hs : op.Static cfg) (hd : IxDoes cfg A op out B) : B.Sized cfg := by
  cases hd <;> try exact h
  · have := hs.2; rename_i h1; omega
  · rename_i area len new h0 h1 h2 h3 h4
    refine ⟨h.1, sized_put A h _ _ new ?_⟩
    rw [List.length_take, hs.1]
    omega
  · rename_i area old new h1 h2 h3 h4
    refine ⟨h.1, sized_put A h _ _ new ?_⟩
    have := h.1
    rw [List.length_take, hs.1]
    omega
  · exact ⟨h.1, sized_del A h _⟩
  · exact ⟨h.1, sized_del A h _⟩
  · rename_i hr; exact ⟨h.2 _ _ hr, h.2⟩
  · exact hs.elim
  · exact hs.elim

theorem legal_static (ops : List IxOp) : ∀ A : IxAbs, A.Sized cfg → (∀ op ∈ ops, op.Static cfg) → IxLegal cfg A ops := by
  induction ops with
  | nil => exact fun _ _ _ => trivial
  | cons op ops ih =>
    intro A ha h
    have := h op (by simp)
    refine ⟨?_, fun out B hB => ih B (sized_does A B op out ha this hB) fun o ho => h o (by simp [ho])⟩
    cases op <;> try exact this
    · exact this.1
    · exact ⟨this.1, ha.1, fun hs => absurd hs this.2⟩
    · exact this.elim
    · exact this.elim

/-- A file with a record key of two bytes and an alternate key of one byte WITH DUPLICATES. -/
def exIx : IxCfg := { keys := [⟨0, 2, false⟩, ⟨2, 1, true⟩], access := .dynamic, recMin := 3, recMax := 5 }

theorem exIx_ok : exIx.Ok where
  nonempty := by decide
  primary := rfl
  inside := by
    intro i hi
    have : i < 2 := hi
    rcases i with _ | _ | i
    · decide
    · decide
    · omega
  lengths := by decide
  places := by
    intro i j hi hj
    have h1 : i < 2 := hi
    have h2 : j < 2 := hj
    rcases i with _ | _ | i <;> rcases j with _ | _ | j <;> first | omega | (intro h; exact absurd h (by decide))

/-- Three records, then one is deleted and one is written again with another alternate key. -/
def exIxOps : List IxOp :=
  [.write (codes "K2BXX") 5, .write (codes "K1BYY") 4, .write (codes "K3AZZ") 3, .write (codes "K1CQQ") 5, .rewrite (codes "K3BWW"),
    .delete (codes "K9BVV")]

theorem exIx_legal : IxLegal exIx (IxAbs.empty exIx) exIxOps := by
  refine legal_static _ _ (sized_empty exIx_ok) ?_
  intro op ho
  simp only [exIxOps, List.mem_cons, List.not_mem_nil, or_false] at ho
  rcases ho with rfl | rfl | rfl | rfl | rfl | rfl <;> first | exact (show (_ : List Nat).length = _ by decide) | exact ⟨by decide, by decide⟩

example : (ixRun exIx (ixNew exIx) exIxOps).map (·.1) =
    some [⟨0, none⟩, ⟨0, none⟩, ⟨0, none⟩, ⟨22, none⟩, ⟨0, none⟩, ⟨23, none⟩] := by decide +kernel

/- In the order of the alternate key: K2 was written before K1, K3 got the key later; K1 in the length it was written with. -/
example : ((ixRun exIx (ixNew exIx) (exIxOps ++ (.start .ge 2 0 (codes "     ") :: List.replicate 4 .next))).map (·.1)) =
    some [⟨0, none⟩, ⟨0, none⟩, ⟨0, none⟩, ⟨22, none⟩, ⟨0, none⟩, ⟨23, none⟩, ⟨0, none⟩, ⟨0, some (codes "K2BXX")⟩, ⟨0, some (codes "K1BY")⟩,
      ⟨0, some (codes "K3BWW")⟩, ⟨10, none⟩] := by decide +kernel

example : ∃ outs A, IxDo exIx (IxAbs.empty exIx) exIxOps outs A := by
  obtain ⟨outs, -, h⟩ := C61_history exIx exIx_ok exIxOps exIx_legal
  obtain ⟨A, hA⟩ := (h outs).mpr rfl
  exact ⟨outs, A, hA⟩

/- READ of K1 after the history: WRITE was the second statement, nothing after it is for K1 but a WRITE that failed. -/
example : (ixRun exIx (ixNew exIx) (exIxOps ++ [.read 0 2 (codes "K1***")])).map (fun r => r.1.getLast?) =
    some (some ⟨0, some (codes "K1BY")⟩) := by decide +kernel

/-! ### Findings -/

/-- ACCESS SEQUENTIAL with an alternate key WITHOUT DUPLICATES. -/
def exIxSeq : IxCfg := { keys := [⟨0, 2, false⟩, ⟨2, 2, false⟩], access := .sequential, recMin := 4, recMax := 5 }

/-- REWRITE of the record just read (`K1`, with the alternate key K2) deletes the record `K2` and answers 22: what is to be deleted is
looked up with the alternate key that was checked. -/
theorem C61_finding_rewrite_unique_alternate :
    (ixRun exIxSeq (ixNew exIxSeq) [.write (codes "K1A1x") 5, .write (codes "K2A2x") 5, .reopen, .next, .rewrite (codes "K1K2y"), .reopen,
      .next, .next]).map (·.1) =
    some [⟨0, none⟩, ⟨0, none⟩, ⟨0, none⟩, ⟨0, some (codes "K1A1x")⟩, ⟨22, none⟩, ⟨0, none⟩, ⟨0, some (codes "K1A1x")⟩, ⟨10, none⟩] := by
  decide +kernel

/-- In general the bytes of the alternate key are no record key: the behaviour is undefined. -/
theorem C61_finding_rewrite_unique_undefined :
    ixRun exIxSeq (ixNew exIxSeq) [.write (codes "K1A1x") 5, .reopen, .next, .rewrite (codes "K1A1y")] = none := by
  have : (ixRun exIxSeq (ixNew exIxSeq) [.write (codes "K1A1x") 5, .reopen, .next, .rewrite (codes "K1A1y")]).isNone = true := by
    decide +kernel
  simpa using this

/-- ACCESS SEQUENTIAL with an alternate key WITH DUPLICATES. -/
def exIxSeqDup : IxCfg := { exIx with access := .sequential }

/-- REWRITE with another record key that is in use: 22, and the record read is lost. -/
theorem C61_finding_rewrite_loses_record :
    (ixRun exIxSeqDup (ixNew exIxSeqDup) [.write (codes "K1A1x") 5, .write (codes "K2A2x") 5, .reopen, .next, .rewrite (codes "K2A1x"), .reopen,
      .next, .next]).map (·.1) =
    some [⟨0, none⟩, ⟨0, none⟩, ⟨0, none⟩, ⟨0, some (codes "K1A1x")⟩, ⟨22, none⟩, ⟨0, none⟩, ⟨0, some (codes "K2A2x")⟩, ⟨10, none⟩] := by
  decide +kernel

/-- Within the rules, but hardly expected: the last of the duplicates is read and deleted, a new one is written; READ NEXT does
not deliver it, the new record got the number of the deleted one. -/
theorem C61_finding_number_reused :
    (ixRun exIx (ixNew exIx) [.write (codes "K1B  ") 3, .write (codes "K2B  ") 3, .start .ge 2 0 (codes "     "), .next, .next,
      .delete (codes "K2B  "), .write (codes "K3B  ") 3, .next]).map (·.1.getLast?) = some (some ⟨10, none⟩) := by
  decide +kernel

/-- OPEN notes the first record: a record with a lower key written before the first READ NEXT is not delivered. -/
theorem C61_finding_open_then_lower :
    (ixRun exIx (ixNew exIx) [.write (codes "K5B  ") 3, .reopen, .write (codes "K1B  ") 3, .next, .next]).map (·.1) =
    some [⟨0, none⟩, ⟨0, none⟩, ⟨0, none⟩, ⟨0, some (codes "K5B")⟩, ⟨10, none⟩] := by
  decide +kernel

/-- START for `<=` with the first byte of the record key (outside the rules of `C61_history`): of K1 and K2, both of which
begin with K, the first is found, although the last not greater is K2. -/
theorem C61_finding_start_le_partial :
    (ixRun exIx (ixNew exIx) [.write (codes "K1B  ") 3, .write (codes "K2B  ") 3, .start .le 0 1 (codes "K    "), .next]).map
      (·.1.getLast?) = some (some ⟨0, some (codes "K1B")⟩) := by
  decide +kernel

/-- REWRITE stores the record in the length of the record read last, whichever that was. -/
theorem C61_finding_rewrite_length :
    (ixRun exIx (ixNew exIx) [.write (codes "K1Bxx") 5, .write (codes "K2B  ") 3, .read 0 2 (codes "K2   "), .rewrite (codes "K1Byy"),
      .read 0 2 (codes "K1   ")]).map (·.1.getLast?) = some (some ⟨0, some (codes "K1B")⟩) := by
  decide +kernel

/-- A WRITE refused because of its length (44) leaves its length behind: REWRITE then stores a record shorter than any record of
the file may be (outside the rules of `C61_history`). -/
theorem C61_finding_length_left :
    (ixRun exIx (ixNew exIx) [.write (codes "K1Bxx") 5, .write (codes "K2B  ") 2, .rewrite (codes "K1Byy"),
      .read 0 2 (codes "K1   ")]).map (·.1) = some [⟨0, none⟩, ⟨44, none⟩, ⟨0, none⟩, ⟨0, some (codes "K1")⟩] := by
  decide +kernel

/-- An alternate key that begins where the record key begins (outside the rules of `C61_history`): the record key is meant. -/
theorem C61_finding_same_place :
    (ixRun { exIx with keys := [⟨0, 2, false⟩, ⟨0, 3, true⟩] } (ixNew { exIx with keys := [⟨0, 2, false⟩, ⟨0, 3, true⟩] })
      [.write (codes "K1B  ") 3, .read 0 3 (codes "K1B  ")]).map (·.1.getLast?) = some (some ⟨23, none⟩) := by
  decide +kernel

end Cob
