import Verif.Cobc.SourceProps
import Mathlib.Data.List.Forall2
/-
C65: columns, line numbers, continued literals; findings.
-/
namespace Cob

/-! ### Columns -/

/-- Columns 7 to 72. -/
def card (l : List Nat) : List Nat := (l.drop 6).take 66

theorem card_area (l : List Nat) : area l = (card l).drop 1 := by
  unfold area card
  rw [List.drop_take, List.drop_drop]

theorem card_ind (l : List Nat) : l[6]? = (card l).head? := by
  unfold card
  rw [List.head?_take]
  simp [List.head?_drop]

theorem card_ignored (dbg : Bool) (l : List Nat) : ignored dbg l = ((card l).isEmpty || (card l).head? == some 42 ||
    (card l).head? == some 47 || (((card l).head? == some 68 || (card l).head? == some 100) && !dbg)) := by
  unfold ignored
  rw [card_ind]
  have : decide (l.length < 7) = (card l).isEmpty := by
    unfold card
    by_cases h : l.length < 7
    · rw [List.drop_of_length_le (by omega)]; simp [h]
    · simp only [h, decide_false]
      cases hx : List.take 66 (List.drop 6 l) with
      | nil =>
        have := congrArg List.length hx
        simp at this; omega
      | cons a b => rfl
  rw [this]

theorem sourceText_card (dbg : Bool) {lines lines' : List (List Nat)}
    (h : List.Forall₂ (fun l l' => card l = card l') lines lines') : ∀ k s, sourceText dbg k s lines = sourceText dbg k s lines' := by
  induction h with
  | nil => intro k s; rfl
  | @cons l l' ls ls' hl _ ih =>
    intro k s
    rw [sourceText, sourceText]
    simp only [blankText, card_ignored, card_ind, card_area, hl, ih]

/-- Only columns 7 to 72 are looked at. -/
theorem C65_columns (cfg : SCfg) (hcol : cfg.textCol = 72) (hmf : cfg.mfcomment = false) (lines lines' : List (List Nat))
    (hok : ∀ l ∈ lines, SrcOk l) (hok' : ∀ l ∈ lines', SrcOk l)
    (h : List.Forall₂ (fun l l' => (l.drop 6).take 66 = (l'.drop 6).take 66) lines lines') :
    ppSource cfg .fixed (fileOf lines) = ppSource cfg .fixed (fileOf lines') := by
  rw [C65_source cfg hcol hmf lines hok, C65_source cfg hcol hmf lines' hok', sourceText_card cfg.debugging h, h.length_eq]

/-! ### Line numbers -/

theorem visible_no_nl (s : Lit) (col : Nat) (t : List Nat) (h : 10 ∉ t) : 10 ∉ visible s col t := by
  have hr : 10 ∉ (t.reverse.dropWhile (· == 32)).reverse := by
    intro hc
    rw [List.mem_reverse] at hc
    exact h (List.mem_reverse.1 ((List.dropWhile_sublist _).subset hc))
  unfold visible
  split
  · dsimp only
    split
    · simp only [List.mem_append, List.mem_singleton, not_or]; exact ⟨hr, by omega⟩
    · exact hr
  · simp only [List.mem_append, List.mem_replicate, not_or]
    exact ⟨h, by omega⟩

theorem count_no_nl {t : List Nat} (h : 10 ∉ t) : t.count 10 = 0 := List.count_eq_zero.2 h

theorem contStart_sub {s : Lit} {t : List Nat} {p : Lit × Nat × List Nat} (h : contStart s t = some p) :
    ∀ c ∈ p.2.2, c ∈ t := by
  unfold contStart at h
  dsimp only at h
  have hd : ∀ c ∈ t.drop (t.takeWhile (· == 32)).length, c ∈ t := fun c hc => List.mem_of_mem_drop hc
  revert h hd
  generalize t.drop (t.takeWhile (· == 32)).length = r
  intro h hd
  cases s with
  | closed => simp only [Option.some.injEq] at h; rw [← h]; exact hd
  | opened q =>
    cases r with
    | nil => simp at h
    | cons c r =>
      simp only at h
      split at h
      · simp only [Option.some.injEq] at h; rw [← h]; exact fun x hx => hd x (by simp [hx])
      · simp at h
  | edge q =>
    cases r with
    | nil => simp at h
    | cons c r =>
      cases r with
      | nil => simp at h
      | cons d r =>
        simp only at h
        split at h
        · simp only [Option.some.injEq] at h; rw [← h]; exact fun x hx => hd x (by simp only [List.mem_cons] at hx ⊢; exact .inr hx)
        · simp at h

theorem numbers (dbg : Bool) : ∀ (lines : List (List Nat)) (k : Nat) (s : Lit) (ps : List SrcPiece) (done total : Nat),
    (∀ l ∈ lines, 10 ∉ l) → sourceText dbg k s lines = some ps → done ≤ k → k + lines.length ≤ total →
    (layOut total done ps).count 10 = total - done ∧
    ∀ (j : Nat) l, lines[j]? = some l → ignored dbg l = false → blankText l = false → l[6]? ≠ some 45 →
      ∃ a b, layOut total done ps = a ++ visible (Lit.closed.after 7 (area l)) 7 (area l) ++ b ∧ a.count 10 = k + j - done := by
  intro lines
  induction lines with
  | nil =>
    intro k s ps done total _ h hd ht
    simp only [sourceText, Option.some.injEq] at h
    subst h
    exact ⟨by simp [layOut], by simp⟩
  | cons l lines ih =>
    intro k s ps done total hn h hd ht
    have hn' : ∀ l ∈ lines, 10 ∉ l := fun x hx => hn x (by simp [hx])
    have hl10 : 10 ∉ area l := fun hc => hn l (by simp) (List.mem_of_mem_drop (List.mem_of_mem_take hc))
    simp only [List.length_cons] at ht
    rw [sourceText] at h
    have skipcase : sourceText dbg (k + 1) s lines = some ps → (ignored dbg l = true ∨ blankText l = true) →
        (layOut total done ps).count 10 = total - done ∧
        ∀ (j : Nat) l', (l :: lines)[j]? = some l' → ignored dbg l' = false → blankText l' = false → l'[6]? ≠ some 45 →
          ∃ a b, layOut total done ps = a ++ visible (Lit.closed.after 7 (area l')) 7 (area l') ++ b ∧ a.count 10 = k + j - done := by
      intro h1 h2
      obtain ⟨h3, h4⟩ := ih (k + 1) s ps done total hn' h1 (by omega) (by omega)
      refine ⟨h3, fun j l' hj hi hb hc => ?_⟩
      cases j with
      | zero =>
        simp only [List.getElem?_cons_zero, Option.some.injEq] at hj
        subst hj
        rcases h2 with h2 | h2
        · rw [h2] at hi; simp at hi
        · rw [h2] at hb; simp at hb
      | succ j =>
        obtain ⟨a, b, h5, h6⟩ := h4 j l' (by simpa using hj) hi hb hc
        exact ⟨a, b, h5, by omega⟩
    by_cases hi : ignored dbg l = true
    · rw [if_pos hi] at h; exact skipcase h (.inl hi)
    · rw [if_neg hi] at h
      split at h
      · simp at h
      · by_cases hb : blankText l = true
        · rw [if_pos hb] at h; exact skipcase h (.inr hb)
        · rw [if_neg hb] at h
          by_cases hc : l[6]? = some 45
          · rw [if_pos hc, Option.bind_eq_some_iff] at h
            obtain ⟨p, hp, h⟩ := h
            simp only [Option.map_eq_some_iff] at h
            obtain ⟨ps', h1, rfl⟩ := h
            obtain ⟨h3, h4⟩ := ih (k + 1) _ ps' done total hn' h1 (by omega) (by omega)
            have hv := visible_no_nl (p.1.after p.2.1 p.2.2) p.2.1 p.2.2 (fun hx => hl10 (contStart_sub hp _ hx))
            simp only [layOut, if_true]
            refine ⟨by rw [List.count_append, count_no_nl hv, h3]; omega, fun j l' hj hi' hb' hc' => ?_⟩
            cases j with
            | zero =>
              simp only [List.getElem?_cons_zero, Option.some.injEq] at hj
              subst hj
              exact absurd hc hc'
            | succ j =>
              obtain ⟨a, b, h5, h6⟩ := h4 j l' (by simpa using hj) hi' hb' hc'
              refine ⟨visible (p.1.after p.2.1 p.2.2) p.2.1 p.2.2 ++ a, b, by rw [h5]; simp, ?_⟩
              rw [List.count_append, count_no_nl hv, h6]; omega
          · rw [if_neg hc] at h
            simp only [Option.map_eq_some_iff] at h
            obtain ⟨ps', h1, rfl⟩ := h
            obtain ⟨h3, h4⟩ := ih (k + 1) _ ps' k total hn' h1 (by omega) (by omega)
            have hv := visible_no_nl (Lit.closed.after 7 (area l)) 7 (area l) hl10
            simp only [layOut, Bool.false_eq_true, if_false]
            refine ⟨?_, fun j l' hj hi' hb' hc' => ?_⟩
            · rw [List.count_append, List.count_append, count_no_nl hv, h3]; simp; omega
            · cases j with
              | zero =>
                simp only [List.getElem?_cons_zero, Option.some.injEq] at hj
                subst hj
                exact ⟨List.replicate (k - done) 10, layOut total k ps', rfl, by simp⟩
              | succ j =>
                obtain ⟨a, b, h5, h6⟩ := h4 j l' (by simpa using hj) hi' hb' hc'
                refine ⟨List.replicate (k - done) 10 ++ visible (Lit.closed.after 7 (area l)) 7 (area l) ++ a, b, by rw [h5]; simp, ?_⟩
                rw [List.count_append, List.count_append, count_no_nl hv, h6]; simp; omega

/-- The text of every line that has its own text stands behind exactly as many newlines as there are lines in front of it; in
all there are as many newlines as lines. -/
theorem C65_line_numbers (cfg : SCfg) (hcol : cfg.textCol = 72) (hmf : cfg.mfcomment = false) (lines : List (List Nat))
    (hok : ∀ l ∈ lines, SrcOk l) (out : List Nat) (hout : ppSource cfg .fixed (fileOf lines) = some out) :
    out.count 10 = lines.length ∧
    ∀ (k : Nat) l, lines[k]? = some l → ignored cfg.debugging l = false → blankText l = false → l[6]? ≠ some 45 →
      ∃ a b, out = a ++ visible (Lit.closed.after 7 (area l)) 7 (area l) ++ b ∧ a.count 10 = k := by
  rw [C65_source cfg hcol hmf lines hok, Option.map_eq_some_iff] at hout
  obtain ⟨ps, h1, rfl⟩ := hout
  have := numbers cfg.debugging lines 0 .closed ps 0 lines.length (fun l hl hc => (hok l hl).chars 10 hc |>.2.1 rfl) h1
    (Nat.le_refl _) (by omega)
  simpa using this

/-! ### Continuation -/

theorem after_open (q : Nat) : ∀ (t : List Nat) (col : Nat), q ∉ t → (Lit.opened q).after col t = .opened q := by
  intro t
  induction t with
  | nil => intro _ _; rfl
  | cons c t ih =>
    intro col h
    simp only [List.mem_cons, not_or] at h
    rw [Lit.after, if_neg (Ne.symm h.1)]
    exact ih _ h.2

theorem takeWhile_spaces (n q : Nat) (hq : q ≠ 32) (t : List Nat) :
    ((List.replicate n 32 ++ q :: t).takeWhile (· == 32)).length = n := by
  induction n with
  | zero => simp [List.takeWhile_cons, hq]
  | succ n ih => simp only [List.replicate_succ, List.cons_append, List.takeWhile_cons, beq_self_eq_true, if_true, List.length_cons, ih]

theorem contStart_open (q n : Nat) (hq : q = 39 ∨ q = 34) (t : List Nat) :
    contStart (.opened q) (List.replicate n 32 ++ q :: t) = some (.opened q, 7 + n + 1, t) := by
  unfold contStart
  dsimp only
  rw [takeWhile_spaces n q (by omega) t, List.drop_append_of_le_length (by simp), List.drop_of_length_le (by simp)]
  simp

/-- A line that continues an open literal: `-`, spaces, the quotation mark, text. -/
structure ContLit (q : Nat) (l chunk : List Nat) : Prop where
  ind : l[6]? = some 45
  text : ∃ n, area l = List.replicate n 32 ++ q :: chunk

theorem contLit_facts {q : Nat} (hq : q = 39 ∨ q = 34) {l chunk : List Nat} (h : ContLit q l chunk) (dbg : Bool) :
    ignored dbg l = false ∧ blankText l = false := by
  obtain ⟨n, hn⟩ := h.text
  refine ⟨?_, ?_⟩
  · have : 6 < l.length := (List.getElem?_eq_some_iff.1 h.ind).1
    simp [ignored, h.ind, show ¬ l.length < 7 by omega]
  · unfold blankText
    rw [hn]
    rcases hq with rfl | rfl <;> simp

theorem literal_lines (dbg : Bool) (q : Nat) (hq : q = 39 ∨ q = 34) (last rest : List Nat) (hlast : ContLit q last rest)
    (hclose : ∀ n, area last = List.replicate n 32 ++ q :: rest → (Lit.opened q).after (7 + n + 1) rest = .closed) :
    ∀ (mids : List (List Nat × List Nat)) (k : Nat),
    (∀ m ∈ mids, ContLit q m.1 m.2 ∧ q ∉ m.2 ∧ (area m.1).length = 65) →
    ∃ ps, sourceText dbg k (.opened q) (mids.map Prod.fst ++ [last]) = some ps ∧
      ∀ done, layOut (k + mids.length + 1) done ps =
        (mids.map Prod.snd).flatten ++ visible .closed 0 rest ++ List.replicate (k + mids.length + 1 - done) 10 := by
  intro mids
  induction mids with
  | nil =>
    intro k _
    obtain ⟨h1, h2⟩ := contLit_facts hq hlast dbg
    obtain ⟨n, hn⟩ := hlast.text
    refine ⟨[⟨k, true, visible .closed (7 + n + 1) rest⟩], ?_, fun done => ?_⟩
    · simp only [List.map_nil, List.nil_append, sourceText, h1, h2, hlast.ind, Bool.false_eq_true, if_false, hn,
        contStart_open q n hq rest, Option.bind_some, hclose n hn, Option.map_some]
      simp
    · simp [layOut, visible]
  | cons m mids ih =>
    intro k hm
    obtain ⟨ps, h3, h4⟩ := ih (k + 1) (fun x hx => hm x (by simp [hx]))
    obtain ⟨hc, hnq, hlen⟩ := hm m (by simp)
    obtain ⟨h1, h2⟩ := contLit_facts hq hc dbg
    obtain ⟨n, hn⟩ := hc.text
    have h72 : 72 - (7 + n + 1 + m.2.length) = 0 := by
      rw [hn] at hlen
      simp at hlen
      omega
    refine ⟨⟨k, true, m.2⟩ :: ps, ?_, fun done => ?_⟩
    · simp only [List.map_cons, List.cons_append, sourceText, h1, h2, hc.ind, Bool.false_eq_true, if_false, hn,
        contStart_open q n hq m.2, Option.bind_some, after_open q m.2 _ hnq, h3, Option.map_some]
      simp [visible, h72]
    · have := h4 done
      rw [show k + 1 + mids.length + 1 = k + (m :: mids).length + 1 by simp; omega] at this
      simp only [layOut, if_true, this, List.map_cons, List.flatten_cons, List.append_assoc]

/-- A literal continued over any number of lines: its characters up to column 72 of each line, and behind the quotation mark
of the next, stand together. -/
theorem C65_continued_literal (cfg : SCfg) (hcol : cfg.textCol = 72) (hmf : cfg.mfcomment = false) (q : Nat)
    (hq : q = 39 ∨ q = 34) (first last rest : List Nat) (mids : List (List Nat × List Nat))
    (hok : ∀ l ∈ first :: (mids.map Prod.fst ++ [last]), SrcOk l)
    (hind : first[6]? = some 32) (hfull : (area first).length = 65) (hopen : Lit.closed.after 7 (area first) = .opened q)
    (hmids : ∀ m ∈ mids, ContLit q m.1 m.2 ∧ q ∉ m.2 ∧ (area m.1).length = 65) (hlast : ContLit q last rest)
    (hclose : ∀ n, area last = List.replicate n 32 ++ q :: rest → (Lit.opened q).after (7 + n + 1) rest = .closed) :
    ppSource cfg .fixed (fileOf (first :: (mids.map Prod.fst ++ [last]))) =
      some (area first ++ (mids.map Prod.snd).flatten ++ visible .closed 0 rest ++ List.replicate (mids.length + 2) 10) := by
  rw [C65_source cfg hcol hmf _ hok]
  obtain ⟨ps, h1, h2⟩ := literal_lines cfg.debugging q hq last rest hlast hclose mids 1 hmids
  have hi : ignored cfg.debugging first = false := by
    have : 6 < first.length := (List.getElem?_eq_some_iff.1 hind).1
    simp [ignored, hind, show ¬ first.length < 7 by omega]
  have hb : blankText first = false := by
    unfold blankText
    cases hx : (area first).all (· == 32) with
    | false => rfl
    | true =>
      exfalso
      have hall : ∀ (t : List Nat) (col : Nat), t.all (· == 32) = true → Lit.closed.after col t = .closed := by
        intro t
        induction t with
        | nil => intro _ _; rfl
        | cons c t ih =>
          intro col h
          simp only [List.all_cons, Bool.and_eq_true, beq_iff_eq] at h
          rw [Lit.after, if_neg (by omega)]
          exact ih _ h.2
      rw [hall _ _ hx] at hopen
      simp at hopen
  rw [sourceText, if_neg (by simp [hi]), if_neg (by simp [hind]), if_neg (by simp [hb]), if_neg (by simp [hind])]
  simp only [hopen, Nat.zero_add, h1, Option.map_some, layOut, Bool.false_eq_true, if_false]
  have htot : (first :: (mids.map Prod.fst ++ [last])).length = 1 + mids.length + 1 := by simp; omega
  rw [htot, h2 0]
  have hv : visible (.opened q) 7 (area first) = area first := by simp [visible, hfull]
  rw [hv, show 1 + mids.length + 1 - 0 = mids.length + 2 by omega]
  simp

/-- A word continued on the next line: spaces at the end of the first line and in front of the second are dropped. -/
theorem C65_continued_text (cfg : SCfg) (hcol : cfg.textCol = 72) (hmf : cfg.mfcomment = false) (first next : List Nat)
    (hok : SrcOk first) (hok' : SrcOk next) (hind : first[6]? = some 32) (hind' : next[6]? = some 45)
    (hb : blankText first = false) (hb' : blankText next = false)
    (hc : Lit.closed.after 7 (area first) = .closed) (n : Nat) (r : List Nat) (hr : area next = List.replicate n 32 ++ r)
    (hr' : r.head? ≠ some 32) :
    ppSource cfg .fixed (fileOf [first, next]) =
      some (visible .closed 7 (area first) ++ visible (Lit.closed.after (7 + n) r) (7 + n) r ++ [10, 10]) := by
  rw [C65_source cfg hcol hmf _ (by simp [hok, hok'])]
  have hi : ignored cfg.debugging first = false := by
    have : 6 < first.length := (List.getElem?_eq_some_iff.1 hind).1
    simp [ignored, hind, show ¬ first.length < 7 by omega]
  have hi' : ignored cfg.debugging next = false := by
    have : 6 < next.length := (List.getElem?_eq_some_iff.1 hind').1
    simp [ignored, hind', show ¬ next.length < 7 by omega]
  have hne : r ≠ [] := by
    rintro rfl
    simp [blankText, hr] at hb'
  have hcs : contStart .closed (area next) = some (.closed, 7 + n, r) := by
    unfold contStart
    dsimp only
    cases r with
    | nil => exact absurd rfl hne
    | cons c r =>
      rw [hr, takeWhile_spaces n c (by simpa using hr') r, List.drop_append_of_le_length (by simp), List.drop_of_length_le (by simp)]
      simp
  rw [sourceText, if_neg (by simp [hi]), if_neg (by simp [hind]), if_neg (by simp [hb]), if_neg (by simp [hind])]
  simp only [hc]
  rw [sourceText, if_neg (by simp [hi']), if_neg (by simp [hind']), if_neg (by simp [hb']), if_pos hind']
  simp only [hcs, Option.bind_some, sourceText, Option.map_some, layOut, if_true, Bool.false_eq_true, if_false]
  simp [List.replicate]

end Cob
