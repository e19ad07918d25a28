import Verif.Io.SortStmtSpec
import Verif.Io.SortProps
import Verif.Io.SeqProps
import Verif.Io.LineProps
import Mathlib.Data.List.Forall2
/-
C76: proofs.
-/
namespace Cob

theorem fitTo_length (n : Nat) (r : List Nat) : (fitTo n r).length = n := by
  unfold fitTo; simp; omega

theorem copyCheck_fit (n : Nat) (area : List Nat) (m : Nat) (a : List Nat) (hm : m ≤ a.length) :
    copyCheck n area m a = overlay (fitTo n (a.take m)) area := by
  unfold copyCheck fitTo
  have hl : (a.take m).length = m := by simp [hm]
  rw [hl]
  by_cases h : m < n
  · rw [if_pos h, List.take_of_length_le (l := a.take m) (by rw [hl]; omega)]
  · rw [if_neg h, List.take_take, show n - m = 0 by omega, Nat.min_eq_left (by omega)]
    simp

theorem take_overlay_fit (n : Nat) (r area : List Nat) : (overlay (fitTo n r) area).take n = fitTo n r := by
  have := overlay_take (fitTo n r) area
  rwa [fitTo_length] at this

/-- The records given to the sorter one after the other. -/
def submitAll (lt : SItem → SItem → Bool) (fs : Nat) : List (Nat × List Nat) → Sorter → Option Sorter
  | [], h => some h
  | r :: rs, h =>
    match sortSubmit lt fs h r.1 r.2 with
    | none => none
    | some (c, h) => if c ≠ 0 then none else submitAll lt fs rs h

theorem submitAll_append (lt : SItem → SItem → Bool) (fs : Nat) (a b : List (Nat × List Nat)) (h : Sorter) :
    submitAll lt fs (a ++ b) h = (submitAll lt fs a h).bind (submitAll lt fs b) := by
  induction a generalizing h with
  | nil => rfl
  | cons r rs ih =>
    simp only [List.cons_append, submitAll]
    cases sortSubmit lt fs h r.1 r.2 with
    | none => rfl
    | some p =>
      obtain ⟨c, h'⟩ := p
      dsimp only
      by_cases hc : c ≠ 0
      · rw [if_pos hc, if_pos hc]; rfl
      · rw [if_neg hc, if_neg hc]; exact ih h'

/-- The first half of `cob_file_sort_submit`: a full memory is written out. -/
def flushed (lt : SItem → SItem → Bool) (fs : Nat) (h : Sorter) : Option Sorter :=
  if h.q0.length + h.q1.length ≥ h.memory then
    let h := if h.filesUsed then h else { h with s0 := .empty, s1 := .empty, filesUsed := true, dest := 0 }
    match sortQueues lt fs h.q0 h.q1 with
    | none => none
    | some q =>
      let h := { h with q0 := [], q1 := [] }.writeQueue q
      some { h with dest := if h.dest = 0 then 1 else 0 }
  else some h

/-- The second half: the record is put into a queue. -/
def enqueued (n : Nat) (rec : List Nat) (h : Sorter) : Nat × Sorter :=
  let q : SItem := { uniq := h.unique, recSize := n, data := rec.take h.size, eob := true }
  let h := { h with free := h.free - 1, unique := (h.unique + 1) % 2 ^ 64 }
  if h.q0.length ≤ h.q1.length then (0, { h with q0 := q :: h.q0 }) else (0, { h with q1 := q :: h.q1 })

theorem sortSubmit_eq (lt : SItem → SItem → Bool) (fs : Nat) (h : Sorter) (n : Nat) (r : List Nat) :
    sortSubmit lt fs h n r = if h.retrieving then some (2, h) else (flushed lt fs h).map (enqueued n r) := by
  unfold sortSubmit
  split
  · rfl
  · change (match flushed lt fs h with | none => _ | some h => _) = _
    cases flushed lt fs h with
    | none => rfl
    | some h2 =>
      dsimp only [Option.map_some, enqueued]
      split <;> rfl

theorem flushed_size (lt : SItem → SItem → Bool) (fs : Nat) (h h2 : Sorter) (hq : flushed lt fs h = some h2) :
    h2.size = h.size := by
  unfold flushed at hq
  split at hq
  · dsimp only at hq
    split at hq
    · cases hq
    · cases hq
      dsimp only [Sorter.writeQueue]
      split <;> split <;> rfl
  · cases hq; rfl

theorem sortSubmit_size (lt : SItem → SItem → Bool) (fs : Nat) (h : Sorter) (n : Nat) (r : List Nat) (c : Nat) (h' : Sorter)
    (hh : sortSubmit lt fs h n r = some (c, h')) : h'.size = h.size := by
  rw [sortSubmit_eq] at hh
  split at hh
  · cases hh; rfl
  · cases hf : flushed lt fs h with
    | none => rw [hf] at hh; cases hh
    | some h2 =>
      rw [hf, Option.map_some, Option.some.injEq] at hh
      have e := flushed_size lt fs h h2 hf
      have e2 : (enqueued n r h2).2.size = h2.size := by
        unfold enqueued; dsimp only; split <;> rfl
      rw [hh] at e2
      exact e2.trans e

/-- Only the first `size` bytes of the record count. -/
theorem sortSubmit_take (lt : SItem → SItem → Bool) (fs : Nat) (h : Sorter) (n : Nat) (r r' : List Nat)
    (e : r.take h.size = r'.take h.size) : sortSubmit lt fs h n r = sortSubmit lt fs h n r' := by
  rw [sortSubmit_eq, sortSubmit_eq]
  split
  · rfl
  · cases hf : flushed lt fs h with
    | none => rfl
    | some h2 =>
      have e2 := flushed_size lt fs h h2 hf
      simp only [Option.map_some, enqueued, e2, e]

/-- After a READ with status 00 the record area has at least the size of the record. -/
theorem read_area (o : OConn) (h : o.read.1 = 0) : o.read.2.size ≤ o.read.2.area.length := by
  have hov : ∀ a b : List Nat, a.length ≤ (overlay a b).length := by
    intro a b; unfold overlay; simp
  cases o with
  | seq f =>
    unfold OConn.read at h ⊢
    dsimp only [OConn.size, OConn.area] at h ⊢
    have key : ∀ g : SeqFile, (sequentialRead g).1 = 0 → (sequentialRead g).2.size ≤ (sequentialRead g).2.area.length := by
      intro g hg
      unfold sequentialRead at hg ⊢
      dsimp only at hg ⊢
      by_cases hv : g.recMin ≠ g.recMax
      · rw [if_pos hv] at hg ⊢
        by_cases h4 : (g.stream.fread 4).1.length ≠ 4
        · rw [if_pos h4] at hg; cases hg
        · rw [if_neg h4] at hg ⊢
          split at hg
          · split at hg <;> cases hg
          · rename_i hb
            rw [if_neg hb]
            have := hov ((g.stream.fread 4).2.fread ((g.stream.fread 4).1.getD 0 0 * 256 + (g.stream.fread 4).1.getD 1 0)).1 g.area
            dsimp only at hb ⊢
            omega
      · rw [if_neg hv] at hg ⊢
        split at hg
        · split at hg <;> cases hg
        · rename_i hb
          rw [if_neg hb]
          have := hov (g.stream.fread g.size).1 g.area
          dsimp only at hb ⊢
          omega
    unfold seqExRead at h ⊢
    dsimp only at h ⊢
    by_cases he : f.endOfFile = true
    · rw [if_pos he] at h; cases h
    · rw [if_neg he] at h ⊢
      by_cases h0 : (sequentialRead { f with readDone := false }).1 = 0
      · rw [if_pos h0]
        exact key _ h0
      · rw [if_neg h0] at h
        split at h
        · cases h
        · exact absurd h h0
  | ls f =>
    unfold OConn.read at h ⊢
    dsimp only [OConn.size, OConn.area] at h ⊢
    unfold lsExRead at h ⊢
    dsimp only at h ⊢
    by_cases he : f.endOfFile = true
    · rw [if_pos he] at h; cases h
    · rw [if_neg he] at h ⊢
      have key : (lineseqRead f).1 = 0 → (lineseqRead f).2.size ≤ (lineseqRead f).2.area.length := by
        unfold lineseqRead
        dsimp only
        split
        · intro h; cases h
        · intro h; cases h
        · rename_i st rest _
          intro _
          have := hov (st ++ List.replicate (f.size - st.length) 32) f.area
          simp only [List.length_append, List.length_replicate] at this
          dsimp only
          omega
      by_cases h0 : (lineseqRead f).1 = 0
      · rw [if_pos h0]
        exact key h0
      · rw [if_neg h0] at h
        split at h
        · cases h
        · exact absurd h h0

/-- The reading loop gives the sorter the records of the file. -/
theorem usingLoop_reads (lt : SItem → SItem → Bool) (fs : Nat) (dep : Option Nat) (rs : List (List Nat)) :
    ∀ (n : Nat) (o : OConn) (area : List Nat) (h h' : Sorter),
    readAll o (rs.length + 1) = rs.map (fun r => (0, some r)) ++ [(10, none)] → rs.length < n →
    submitAll lt fs (rs.map fun r => (dep.getD h.size, fitTo h.size r)) h = some h' →
    ∃ o' area', usingLoop lt fs dep n o area h = some (o', area', h') := by
  induction rs with
  | nil =>
    intro n o area h h' hr hn hs
    obtain ⟨n, rfl⟩ : ∃ k, n = k + 1 := ⟨n - 1, by simp at hn; omega⟩
    simp only [List.length_nil, readAll, List.map_nil, List.nil_append, List.cons.injEq, Prod.mk.injEq, and_true] at hr
    simp only [submitAll, List.map_nil] at hs
    cases hs
    refine ⟨o.read.2, area, ?_⟩
    unfold usingLoop
    dsimp only
    rw [if_pos (by omega)]
  | cons r rs ih =>
    intro n o area h h' hr hn hs
    obtain ⟨n, rfl⟩ : ∃ k, n = k + 1 := ⟨n - 1, by simp at hn; omega⟩
    simp only [List.length_cons, readAll, List.map_cons, List.cons_append, List.cons.injEq, Prod.mk.injEq] at hr
    obtain ⟨⟨h1, h2⟩, h3⟩ := hr
    rw [if_pos h1, Option.some.injEq] at h2
    unfold usingLoop
    dsimp only
    rw [if_neg (by omega), copyCheck_fit _ _ _ _ (read_area o h1), h2]
    simp only [List.map_cons, submitAll] at hs
    have e : sortSubmit lt fs h (dep.getD h.size) (overlay (fitTo h.size r) area) =
        sortSubmit lt fs h (dep.getD h.size) (fitTo h.size r) := by
      apply sortSubmit_take
      rw [take_overlay_fit, List.take_of_length_le (by rw [fitTo_length])]
    rw [e]
    cases hq : sortSubmit lt fs h (dep.getD h.size) (fitTo h.size r) with
    | none => rw [hq] at hs; cases hs
    | some p =>
      obtain ⟨c, h2⟩ := p
      rw [hq] at hs
      dsimp only at hs ⊢
      by_cases hc : c ≠ 0
      · rw [if_pos hc] at hs; cases hs
      · rw [if_neg hc] at hs ⊢
        have e2 := sortSubmit_size lt fs h _ _ _ _ hq
        rw [← e2] at hs
        refine ih n o.read.2 _ h2 h' h3 ?_ hs
        simp only [List.length_cons] at hn
        omega

/-- What READ leaves as it is. -/
def KeptBy : OConn → OConn → Prop
  | .seq f, .seq g => g.recMin = f.recMin ∧ g.recMax = f.recMax ∧ g.stream.data = f.stream.data ∧
      (f.depending = none → g.depending = none) ∧ (f.recMin = f.recMax → g.size = f.size)
  | .ls f, .ls g => g.nulls = f.nulls ∧ g.fixedLen = f.fixedLen ∧ g.recMin = f.recMin ∧ g.recMax = f.recMax ∧
      g.stream.data = f.stream.data ∧ (f.depending = none → g.depending = none) ∧ g.size = f.size ∧ g.needsNl = f.needsNl ∧
      g.linage = f.linage
  | _, _ => False

theorem KeptBy.refl (o : OConn) : KeptBy o o := by
  cases o <;> simp [KeptBy]

theorem KeptBy.trans {a b c : OConn} (h1 : KeptBy a b) (h2 : KeptBy b c) : KeptBy a c := by
  cases a <;> cases b <;> cases c <;> simp only [KeptBy] at h1 h2 ⊢
  · obtain ⟨x1, x2, x3, x4, x5⟩ := h1
    obtain ⟨y1, y2, y3, y4, y5⟩ := h2
    exact ⟨y1.trans x1, y2.trans x2, y3.trans x3, fun h => y4 (x4 h), fun h => (y5 (by rw [x1, x2]; exact h)).trans (x5 h)⟩
  · obtain ⟨x1, x2, x3, x4, x5, x6, x7, x8, x9⟩ := h1
    obtain ⟨y1, y2, y3, y4, y5, y6, y7, y8, y9⟩ := h2
    exact ⟨y1.trans x1, y2.trans x2, y3.trans x3, y4.trans x4, y5.trans x5, fun h => y6 (x6 h), y7.trans x7, y8.trans x8,
      y9.trans x9⟩

theorem read_kept (o : OConn) : KeptBy o o.read.2 := by
  cases o with
  | seq f =>
    have key : ∀ g : SeqFile, KeptBy (.seq g) (.seq (sequentialRead g).2) := by
      intro g
      unfold sequentialRead
      dsimp only
      by_cases hv : g.recMin ≠ g.recMax
      · rw [if_pos hv]
        by_cases h4 : (g.stream.fread 4).1.length ≠ 4
        · rw [if_pos h4]; simp [KeptBy, Stream.fread]
        · rw [if_neg h4]
          split
          · split <;> simp [KeptBy, Stream.fread, hv]
          · simp [KeptBy, Stream.fread, hv]
      · rw [if_neg hv]
        split
        · split <;> simp [KeptBy, Stream.fread]
        · simp [KeptBy, Stream.fread]
    unfold OConn.read seqExRead
    dsimp only
    by_cases he : f.endOfFile = true
    · rw [if_pos he]; simp [KeptBy]
    · rw [if_neg he]
      have hk := key { f with readDone := false }
      split
      · simp only [KeptBy] at hk ⊢
        refine ⟨hk.1, hk.2.1, hk.2.2.1, fun h => ?_, hk.2.2.2.2⟩
        rw [hk.2.2.2.1 h]; rfl
      · split
        · exact hk
        · exact hk
  | ls f =>
    have key : KeptBy (.ls f) (.ls (lineseqRead f).2) := by
      unfold lineseqRead
      dsimp only
      split
      · simp [KeptBy]
      · simp [KeptBy]
      · simp [KeptBy]
    unfold OConn.read lsExRead
    dsimp only
    by_cases he : f.endOfFile = true
    · rw [if_pos he]; exact KeptBy.refl _
    · rw [if_neg he]
      split
      · exact key
      · split
        · exact key
        · exact key

theorem usingLoop_kept (lt : SItem → SItem → Bool) (fs : Nat) (dep : Option Nat) (n : Nat) :
    ∀ (o : OConn) (area : List Nat) (h : Sorter) (o' : OConn) (area' : List Nat) (h' : Sorter),
    usingLoop lt fs dep n o area h = some (o', area', h') → KeptBy o o' := by
  induction n with
  | zero => intro o area h o' area' h' hh; cases hh
  | succ n ih =>
    intro o area h o' area' h' hh
    unfold usingLoop at hh
    dsimp only at hh
    split at hh
    · cases hh; exact read_kept o
    · split at hh
      · cases hh
      · split at hh
        · cases hh; exact read_kept o
        · exact (read_kept o).trans (ih _ _ _ _ _ _ hh)

/-- What USING leaves of a connector. -/
structure SameConn (c c' : SConn) : Prop where
  line : c'.line = c.line
  nulls : c'.nulls = c.nulls
  fixedLen : c'.fixedLen = c.fixedLen
  recMin : c'.recMin = c.recMin
  recMax : c'.recMax = c.recMax
  disk : c'.disk = c.disk
  dep : c.depending = none → c'.depending = none
  size : (c.line = true ∨ c.recMin = c.recMax) → c'.size = c.size

theorem SameConn.refl (c : SConn) : SameConn c c := ⟨rfl, rfl, rfl, rfl, rfl, rfl, id, fun _ => rfl⟩

theorem sortUsing_reads (lt : SItem → SItem → Bool) (fs fuel : Nat) (dep : Option Nat) (c : SConn) (rs : List (List Nat))
    (area : List Nat) (h h' : Sorter) (hc : FileHas c rs) (hf : rs.length < fuel)
    (hs : submitAll lt fs (rs.map fun r => (dep.getD h.size, fitTo h.size r)) h = some h') :
    ∃ c' area', sortUsing lt fs fuel dep c area h = some (c', area', h') ∧ SameConn c c' := by
  unfold sortUsing
  unfold FileHas at hc
  cases hd : c.disk with
  | none =>
    rw [hd] at hc
    subst hc
    simp only [List.map_nil, submitAll, Option.some.injEq] at hs
    subst hs
    exact ⟨c, area, rfl, SameConn.refl c⟩
  | some d =>
    rw [hd] at hc
    dsimp only at hc ⊢
    have hr : readAll (c.opened d) (rs.length + 1) = rs.map (fun r => (0, some r)) ++ [(10, none)] := by
      have pre : ∀ (n : Nat) (o : OConn), readAll o n = (readAll o (n + 1)).take n := by
        intro n
        induction n with
        | zero => intro o; simp [readAll]
        | succ n ih =>
          intro o
          conv_lhs => unfold readAll
          conv_rhs => unfold readAll
          dsimp only
          rw [List.take_succ_cons, ← ih]
      rw [pre, hc]
      simp [List.take_append, List.take_of_length_le]
    obtain ⟨o', area', hu⟩ := usingLoop_reads lt fs dep rs fuel _ area h h' hr hf hs
    rw [hu]
    refine ⟨_, _, rfl, ?_⟩
    have hk := usingLoop_kept lt fs dep fuel _ _ _ _ _ _ hu
    unfold SConn.opened at hk
    by_cases hl : c.line = true
    · rw [if_pos hl] at hk
      cases o' with
      | seq g => exact hk.elim
      | ls g =>
        obtain ⟨_, _, _, _, x5, x6, x7, _⟩ := hk
        exact ⟨rfl, rfl, rfl, rfl, rfl, by simp only [SConn.closed, OConn.data, hd]; rw [x5], x6, fun _ => x7⟩
    · rw [if_neg hl] at hk
      cases o' with
      | ls g => exact hk.elim
      | seq g =>
        obtain ⟨_, _, x3, x4, x5⟩ := hk
        exact ⟨rfl, rfl, rfl, rfl, rfl, by simp only [SConn.closed, OConn.data, hd]; rw [x3], x4, fun h => x5 (h.resolve_left hl)⟩

theorem submitAll_size (lt : SItem → SItem → Bool) (fs : Nat) (rs : List (Nat × List Nat)) : ∀ (h h' : Sorter),
    submitAll lt fs rs h = some h' → h'.size = h.size := by
  induction rs with
  | nil => intro h h' hh; cases hh; rfl
  | cons r rs ih =>
    intro h h' hh
    simp only [submitAll] at hh
    cases hq : sortSubmit lt fs h r.1 r.2 with
    | none => rw [hq] at hh; cases hh
    | some p =>
      rw [hq] at hh
      dsimp only at hh
      split at hh
      · cases hh
      · rw [ih _ _ hh]
        exact sortSubmit_size lt fs h _ _ p.1 p.2 hq

theorem forall2_mem {R S : Nat → List (List Nat) → Prop} {l : List Nat} {m : List (List (List Nat))}
    (h : List.Forall₂ R l m) (hi : ∀ x ∈ l, ∀ y, R x y → S x y) : List.Forall₂ S l m := by
  induction h with
  | nil => exact .nil
  | cons hx _ ih => exact .cons (hi _ (by simp) _ hx) (ih fun x hx' => hi x (by simp [hx']))

theorem sortUsings_reads (lt : SItem → SItem → Bool) (fs fuel : Nat) (dep : Option Nat) (us : List Nat) :
    ∀ (f : SFiles) (rss : List (List (List Nat))) (area : List Nat) (h h' : Sorter), us.Nodup →
    List.Forall₂ (fun u rs => FileHas (f u) rs ∧ rs.length < fuel) us rss →
    submitAll lt fs (rss.flatten.map fun r => (dep.getD h.size, fitTo h.size r)) h = some h' →
    ∃ f' area', sortUsings lt fs fuel dep us f area h = some (f', area', h') ∧
      (∀ k, SameConn (f k) (f' k)) ∧ (∀ k, k ∉ us → f' k = f k) := by
  induction us with
  | nil =>
    intro f rss area h h' _ hr hs
    cases hr
    simp only [List.flatten_nil, List.map_nil, submitAll, Option.some.injEq] at hs
    subst hs
    exact ⟨f, area, rfl, fun k => SameConn.refl _, fun _ _ => rfl⟩
  | cons u us ih =>
    intro f rss area h h' hnd hr hs
    cases hr with
    | cons hu hrest =>
      rename_i rs rss
      rw [List.flatten_cons, List.map_append, submitAll_append] at hs
      cases h1 : submitAll lt fs (rs.map fun r => (dep.getD h.size, fitTo h.size r)) h with
      | none => rw [h1] at hs; cases hs
      | some h2 =>
        rw [h1, Option.bind_some] at hs
        obtain ⟨c', area', k1, k2⟩ := sortUsing_reads lt fs fuel dep (f u) rs area h h2 hu.1 hu.2 h1
        have e := submitAll_size lt fs _ _ _ h1
        rw [← e] at hs
        have hnd' := List.nodup_cons.1 hnd
        have hrest' : List.Forall₂ (fun v rs => FileHas ((f.set u c') v) rs ∧ rs.length < fuel) us rss := by
          refine forall2_mem hrest fun x hx y hy => ?_
          have : x ≠ u := fun e => hnd'.1 (e ▸ hx)
          simp only [SFiles.set, if_neg this]
          exact hy
        obtain ⟨f', a', m1, m2, m3⟩ := ih (f.set u c') rss area' h2 h' hnd'.2 hrest' hs
        refine ⟨f', a', ?_, ?_, ?_⟩
        · unfold sortUsings; rw [k1]; exact m1
        · intro k
          have := m2 k
          by_cases hk : k = u
          · subst hk
            rw [m3 k hnd'.1]
            simp only [SFiles.set, if_true]
            exact k2
          · simp only [SFiles.set, if_neg hk] at this
            exact this
        · intro k hk
          rw [List.mem_cons, not_or] at hk
          rw [m3 k hk.2]
          simp only [SFiles.set, if_neg hk.1]

end Cob
