import Mathlib.Tactic.Tauto
import Verif.Io.LineProps
/-
C44: LINAGE.  Specification: a printed report made of logical pages.
-/
namespace Cob

/-! ### Specification -/

/-- The shape of a logical page: body lines, line where the footing starts (0: no footing area), top
and bottom margin. -/
structure PageShape where
  lines : Nat
  foot : Nat
  top : Nat
  bot : Nat
deriving DecidableEq, Repr

/-- The values of the LINAGE items make sense: at least one line, the footing inside the page, no
negative margin. -/
def LinItems.valid (i : LinItems) : Prop :=
  1 ≤ i.lines ∧ (∀ x, i.foot = some x → 1 ≤ x ∧ x ≤ i.lines) ∧ (∀ x, i.top = some x → 0 ≤ x) ∧
    (∀ x, i.bot = some x → 0 ≤ x)

instance (i : LinItems) : Decidable i.valid :=
  decidable_of_iff (1 ≤ i.lines ∧ (i.foot.all fun x => 1 ≤ x ∧ x ≤ i.lines) = true ∧
      (i.top.all fun x => 0 ≤ x) = true ∧ (i.bot.all fun x => 0 ≤ x) = true) (by
    obtain ⟨a, b, c, d⟩ := i
    unfold LinItems.valid
    cases b <;> cases c <;> cases d <;> simp)

/-- The page the items describe. -/
def LinItems.shape (i : LinItems) : PageShape :=
  ⟨i.lines.toNat, (i.foot.getD 0).toNat, (i.top.getD 0).toNat, (i.bot.getD 0).toNat⟩

/-- A report: the pages that are complete, the current page and the line of its body (from 1) on which
the paper stands. -/
structure Report where
  done : List PageShape
  page : PageShape
  line : Nat
deriving DecidableEq, Repr

/-- The number of physical lines above the line on which the paper stands. -/
def Report.above (r : Report) : Nat :=
  (r.done.map fun p => p.top + p.lines + p.bot).sum + r.page.top + (r.line - 1)

/-- Advancing: the next line on this page, or the first line of a new page with the shape the items
have now (`none`: they do not make sense). -/
def Report.advance (r : Report) (items : LinItems) : Adv → Option Report
  | .lines n =>
    if r.line + n ≤ r.page.lines then some { r with line := r.line + n }
    else if items.valid then some ⟨r.done ++ [r.page], items.shape, 1⟩ else none
  | .page => if items.valid then some ⟨r.done ++ [r.page], items.shape, 1⟩ else none

/-- The END-OF-PAGE condition: advancing by lines into the footing area or over the end of the page. -/
def Report.endOfPage (r : Report) : Adv → Prop
  | .lines n => (r.page.foot ≠ 0 ∧ r.page.foot ≤ r.line + n) ∨ r.page.lines < r.line + n
  | .page => False

instance (r : Report) (a : Adv) : Decidable (r.endOfPage a) := by
  unfold Report.endOfPage; cases a <;> infer_instance

/-- A WRITE: the values of the LINAGE items at that time, the record, the options. -/
structure LinWrite where
  items : LinItems
  record : List Nat
  opt : WOpt
deriving DecidableEq, Repr

/-- What is observed of a WRITE: the status, LINAGE-COUNTER and - unless it failed - the number of
physical lines above the paper's position, i.e. of line feeds in the file. -/
structure LinObs where
  status : Nat
  counter : Nat
  above : Option Nat
deriving DecidableEq, Repr

/-- The observations expected: 52 exactly when there is an END-OF-PAGE phrase and the condition holds;
57 from the moment the items do not make sense at the start of a page. -/
def reportRun : Option Report → List LinWrite → List LinObs
  | _, [] => []
  | none, _ :: ws => ⟨57, 0, none⟩ :: reportRun none ws
  | some r, w :: ws =>
    match r.advance w.items w.opt.adv with
    | none => ⟨57, 0, none⟩ :: reportRun none ws
    | some r' =>
      ⟨if w.opt.eop = true ∧ r.endOfPage w.opt.adv then 52 else 0, r'.line, some r'.above⟩ ::
        reportRun (some r') ws

/-! ### The program -/

/-- The program sets the LINAGE items and executes the WRITE; `eop` is the C global `eop_status`. -/
def linWrite (eop : Bool) (f : LsFile) (w : LinWrite) : Nat × Bool × LsFile :=
  lsExWrite eop { f with linage := f.linage.map fun l => { l with items := w.items } }
    (overlay w.record f.area) w.record.length w.opt

/-- The observations of a history of WRITEs. -/
def linRun (eop : Bool) (f : LsFile) : List LinWrite → List LinObs
  | [] => []
  | w :: ws =>
    let q := linWrite eop f w
    ⟨q.1, (q.2.2.linage.map (·.ctr)).getD 0,
      if q.1 = 57 then none else some (q.2.2.stream.data.count 10)⟩ :: linRun q.2.1 q.2.2 ws

/-- A file with LINAGE opened for OUTPUT (the OPEN fails with 57 if the items do not make sense). -/
def linOpen (nulls fixedLen : Bool) (recMin recMax : Nat) (area : List Nat) (items : LinItems) :
    Option LsFile :=
  (linageOpen items).map fun l =>
    ⟨nulls, fixedLen, recMin, recMax, ⟨[], 0⟩, recMax, area, none, false, false, some l⟩

/-- The WRITEs considered: the record fits and has no line feed in it; advancing by at least one
line. -/
def LinWriteOk (recMin recMax : Nat) (w : LinWrite) : Prop :=
  recMin ≤ w.record.length ∧ w.record.length ≤ recMax ∧ 10 ∉ w.record ∧ w.opt.adv ≠ .lines 0

/-! ### Proofs -/

theorem linageCheck_valid (l : Linage) (h : l.items.valid) :
    linageCheck l = some { l with lines := l.items.shape.lines, foot := l.items.shape.foot,
                                  top := l.items.shape.top, bot := l.items.shape.bot } := by
  obtain ⟨⟨a, b, c, d⟩, li, fo, to, bo, ct, nt⟩ := l
  obtain ⟨h1, h2, h3, h4⟩ := h
  simp only at h1 h2 h3 h4
  unfold linageCheck
  simp only
  rw [if_neg (by omega), if_neg, if_neg, if_neg]
  · rfl
  · cases d with
    | none => simp
    | some x => have := h4 x rfl; simp; omega
  · cases c with
    | none => simp
    | some x => have := h3 x rfl; simp; omega
  · cases b with
    | none => simp
    | some x => have := h2 x rfl; simp; omega

theorem linageCheck_invalid (l : Linage) (h : ¬ l.items.valid) : linageCheck l = none := by
  obtain ⟨⟨a, b, c, d⟩, li, fo, to, bo, ct, nt⟩ := l
  unfold linageCheck
  simp only
  by_cases h1 : a < 1
  · rw [if_pos h1]
  rw [if_neg h1]
  by_cases h2 : (b.any fun x => decide (x < 1) || decide (a < x)) = true
  · rw [if_pos h2]
  rw [if_neg h2]
  by_cases h3 : c.getD 0 < 0
  · rw [if_pos h3]
  rw [if_neg h3]
  by_cases h4 : d.getD 0 < 0
  · rw [if_pos h4]
  exfalso
  apply h
  refine ⟨by simp only; omega, ?_, ?_, ?_⟩
  · intro x hx
    simp only at hx; subst hx
    simp only [Option.any_some, Bool.or_eq_true, decide_eq_true_eq, not_or] at h2
    simp only; omega
  · intro x hx
    simp only at hx; subst hx
    simp only [Option.getD_some] at h3; omega
  · intro x hx
    simp only at hx; subst hx
    simp only [Option.getD_some] at h4; omega

/-- The connector agrees with the report. -/
structure LinInv (f : LsFile) (r : Report) (l : Linage) : Prop where
  lin : f.linage = some l
  lines : l.lines = r.page.lines
  foot : l.foot = r.page.foot
  top : l.top = r.page.top
  bot : l.bot = r.page.bot
  ctr : l.ctr = r.line
  pos : 1 ≤ r.line
  le : r.line ≤ r.page.lines
  above : f.stream.data.count 10 + (if l.needsTop then l.top else 0) = r.above
  dep : f.depending = none

theorem count_newlines (n : Nat) : (newlines n).count 10 = n := by
  simp [newlines]

theorem lsBytes_no_lf (nulls : Bool) (d : List Nat) (h : 10 ∉ d) : (lsBytes nulls d).count 10 = 0 := by
  rw [List.count_eq_zero]
  unfold lsBytes
  split
  · intro hm
    obtain ⟨b, hb, hm⟩ := List.mem_flatMap.1 hm
    split at hm
    · simp at hm; exact h (hm ▸ hb)
    · simp at hm; exact h (hm ▸ hb)
  · exact h

/-- `cob_linage_write_opt` does what the report does. -/
theorem linageWriteOpt_ok (l : Linage) (r r' : Report) (opt : WOpt)
    (h1 : l.lines = r.page.lines) (h2 : l.foot = r.page.foot) (h4 : l.bot = r.page.bot)
    (h5 : l.ctr = r.line) (hp : 1 ≤ r.line) (hle : r.line ≤ r.page.lines)
    (hadv : r.advance l.items opt.adv = some r') (hn : opt.adv ≠ .lines 0)
    (ht : l.top = r.page.top) :
    ∃ out l', linageWriteOpt l opt = (0, out, decide (opt.eop = true ∧ r.endOfPage opt.adv), l') ∧
      l'.items = l.items ∧ l'.lines = r'.page.lines ∧ l'.foot = r'.page.foot ∧ l'.top = r'.page.top ∧
      l'.bot = r'.page.bot ∧ l'.ctr = r'.line ∧ l'.needsTop = l.needsTop ∧ 1 ≤ r'.line ∧
      r'.line ≤ r'.page.lines ∧ r.above + 1 + out.count 10 = r'.above := by
  obtain ⟨after, adv, eop⟩ := opt
  simp only at hadv hn
  have hab : r.above = (r.done.map fun p => p.top + p.lines + p.bot).sum + r.page.top + (r.line - 1) := rfl
  cases adv with
  | page =>
    simp only [Report.advance] at hadv
    by_cases hv : l.items.valid
    · rw [if_pos hv] at hadv
      obtain rfl := Option.some.inj hadv
      refine ⟨newlines (l.lines - l.ctr) ++ newlines l.bot ++ newlines l.items.shape.top,
        { l with lines := l.items.shape.lines, foot := l.items.shape.foot, top := l.items.shape.top, bot := l.items.shape.bot, ctr := 1 }, ?_, ?_⟩
      · unfold linageWriteOpt
        simp only
        rw [if_neg (by omega), linageCheck_valid l hv]
        simp only [Report.endOfPage, and_false, decide_false]
      · refine ⟨rfl, rfl, rfl, rfl, rfl, rfl, rfl, by simp, ?_, ?_⟩
        · have := hv.1
          simp only [LinItems.shape]; omega
        · simp only [Report.above, List.map_append, List.sum_append, List.map_cons, List.map_nil,
            List.sum_cons, List.sum_nil, List.count_append, count_newlines]
          simp only [LinItems.shape]
          omega
    · rw [if_neg hv] at hadv; cases hadv
  | lines n =>
    have hn0 : n ≠ 0 := fun h => hn (by rw [h])
    simp only [Report.advance] at hadv
    have heop : ((eop && decide (l.foot ≠ 0) && decide (l.foot ≤ l.ctr + n)) ||
        (decide (l.lines < l.ctr + n) && eop)) =
        decide (eop = true ∧ r.endOfPage (.lines n)) := by
      simp only [Report.endOfPage, h1, h2, h5]
      cases eop <;> simp
    by_cases hb : r.line + n ≤ r.page.lines
    · rw [if_pos hb] at hadv
      obtain rfl := Option.some.inj hadv
      refine ⟨newlines (n - 1), { l with ctr := l.ctr + n }, ?_, ?_⟩
      · unfold linageWriteOpt
        simp only
        rw [if_neg (by omega), if_neg (by omega), heop]
      · refine ⟨rfl, h1, h2, ht, h4, by simp only; omega, rfl, by simp only; omega, hb, ?_⟩
        simp only [count_newlines, Report.above]
        omega
    · rw [if_neg hb] at hadv
      by_cases hv : l.items.valid
      · rw [if_pos hv] at hadv
        obtain rfl := Option.some.inj hadv
        refine ⟨newlines (l.lines - l.ctr) ++ newlines l.bot ++ newlines l.items.shape.top,
          { l with lines := l.items.shape.lines, foot := l.items.shape.foot, top := l.items.shape.top, bot := l.items.shape.bot, ctr := 1 }, ?_, ?_⟩
        · unfold linageWriteOpt
          simp only
          rw [if_neg (by omega), if_pos (by omega), linageCheck_valid l hv]
          simp only [heop]
        · refine ⟨rfl, rfl, rfl, rfl, rfl, rfl, rfl, by simp, ?_, ?_⟩
          · have := hv.1
            simp only [LinItems.shape]; omega
          · simp only [Report.above, List.map_append, List.sum_append, List.map_cons, List.map_nil,
              List.sum_cons, List.sum_nil, List.count_append, count_newlines]
            simp only [LinItems.shape]
            omega
      · rw [if_neg hv] at hadv; cases hadv

theorem linageWriteOpt_lost (l : Linage) (r : Report) (opt : WOpt)
    (h1 : l.lines = r.page.lines) (h5 : l.ctr = r.line) (hp : 1 ≤ r.line)
    (hadv : r.advance l.items opt.adv = none) :
    (linageWriteOpt l opt).1 = 57 ∧ (linageWriteOpt l opt).2.2.2.ctr = 0 := by
  obtain ⟨after, adv, eop⟩ := opt
  simp only at hadv
  cases adv with
  | page =>
    simp only [Report.advance] at hadv
    have hv : ¬ l.items.valid := fun hv => by rw [if_pos hv] at hadv; cases hadv
    unfold linageWriteOpt
    simp only
    rw [if_neg (by omega), linageCheck_invalid l hv]
    exact ⟨rfl, rfl⟩
  | lines n =>
    simp only [Report.advance] at hadv
    by_cases hb : r.line + n ≤ r.page.lines
    · rw [if_pos hb] at hadv; cases hadv
    · rw [if_neg hb] at hadv
      have hv : ¬ l.items.valid := fun hv => by rw [if_pos hv] at hadv; cases hadv
      unfold linageWriteOpt
      simp only
      rw [if_neg (by omega), if_pos (by omega), linageCheck_invalid l hv]
      exact ⟨rfl, rfl⟩

theorem linageWriteOpt_zero (l : Linage) (opt : WOpt) (h : l.ctr = 0) :
    linageWriteOpt l opt = (57, [], false, l) := by
  obtain ⟨after, adv, eop⟩ := opt
  unfold linageWriteOpt
  cases adv <;> simp [h]

/-- `lineseq_write` with LINAGE, the option code having succeeded. -/
theorem lineseqWrite_linage (f : LsFile) (l l' : Linage) (opt : WOpt) (eop st : Bool) (out : List Nat)
    (hl : f.linage = some l)
    (ho : linageWriteOpt { l with needsTop := false } opt = (0, out, eop, l')) :
    ∃ f', lineseqWrite st f opt =
      (if st || eop then 52 else 0,
        (if l.needsTop then newlines l.top else []) ++ (if opt.after then out else []) ++
          lsBytes f.nulls (f.area.take (if f.fixedLen then f.size else lsTrim f.area f.size)) ++
          newlines 1 ++ (if opt.after then [] else out), false, f') ∧
      f'.linage = some l' ∧ f'.depending = f.depending ∧ f'.recMin = f.recMin ∧ f'.recMax = f.recMax := by
  obtain ⟨nulls, fixedLen, recMin, recMax, stream, size, area, dep, eof, needsNl, linage⟩ := f
  obtain ⟨li, a, b, c, d, e, nt⟩ := l
  simp only at hl ho
  subst hl
  obtain ⟨after, adv, eo⟩ := opt
  cases after <;> cases nt <;> cases st <;> cases eop <;>
    simp [lineseqWrite, fileWriteOpt, ho]

theorem lineseqWrite_linage_err (f : LsFile) (l : Linage) (opt : WOpt) (st : Bool)
    (hl : f.linage = some l)
    (h57 : (linageWriteOpt { l with needsTop := false } opt).1 = 57)
    (h0 : (linageWriteOpt { l with needsTop := false } opt).2.2.2.ctr = 0) :
    (lineseqWrite st f opt).1 = 57 ∧
      ∃ l', (lineseqWrite st f opt).2.2.2.linage = some l' ∧ l'.ctr = 0 ∧
      (lineseqWrite st f opt).2.2.2.depending = f.depending ∧
      (lineseqWrite st f opt).2.2.2.recMin = f.recMin ∧
      (lineseqWrite st f opt).2.2.2.recMax = f.recMax := by
  obtain ⟨nulls, fixedLen, recMin, recMax, stream, size, area, dep, eof, needsNl, linage⟩ := f
  obtain ⟨li, a, b, c, d, e, nt⟩ := l
  simp only at hl h57 h0
  subst hl
  obtain ⟨after, adv, eo⟩ := opt
  cases after <;> cases nt <;> simp [lineseqWrite, fileWriteOpt, h57, h0]

theorem overlay_take_le (r area : List Nat) (n : Nat) (h : n ≤ r.length) :
    (overlay r area).take n = r.take n := by
  have h1 := overlay_take r area
  rw [show n = min n r.length by omega, ← List.take_take, h1, show min n r.length = n by omega]

theorem linWrite_ok (f : LsFile) (r r' : Report) (l : Linage) (w : LinWrite) (hi : LinInv f r l)
    (hok : LinWriteOk f.recMin f.recMax w) (hadv : r.advance w.items w.opt.adv = some r') :
    ∃ f' l', linWrite false f w =
        (if w.opt.eop = true ∧ r.endOfPage w.opt.adv then 52 else 0, false, f') ∧
      LinInv f' r' l' ∧ l'.needsTop = false ∧ f'.recMin = f.recMin ∧ f'.recMax = f.recMax ∧
      ∃ pre body post, f'.stream.data = f.stream.data ++ pre ++ body ++ post ∧
        (w.opt.after = false → (f.stream.data ++ pre).count 10 = r.above) ∧
        (w.opt.after = true → (f.stream.data ++ pre).count 10 + 1 = r'.above) ∧
        (∃ k, k ≤ w.record.length ∧ body = lsBytes f.nulls (w.record.take k) ∧
          ∀ b ∈ w.record.drop k, b = 32) := by
  obtain ⟨e1, e2, e3, e4⟩ := hok
  obtain ⟨out, l', ho, g1, g2, g3, g4, g5, g6, g7, g8, g9, g10⟩ :=
    linageWriteOpt_ok { l with items := w.items, needsTop := false } r r' w.opt hi.lines hi.foot
      hi.bot hi.ctr hi.pos hi.le hadv e4 hi.top
  have hd := hi.dep
  have hlin := hi.lin
  obtain ⟨f', k1, k2, k3, k4, k5⟩ := lineseqWrite_linage
    { f with area := overlay w.record f.area, size := w.record.length,
             linage := some { l with items := w.items } }
    { l with items := w.items } l' w.opt _ false out rfl ho
  simp only [Bool.false_or, decide_eq_true_eq] at k1
  generalize hsz : (if f.fixedLen = true then w.record.length else
      lsTrim (overlay w.record f.area) w.record.length) = k at k1
  have hk : k ≤ w.record.length := by
    rw [← hsz]; split
    · exact Nat.le_refl _
    · exact lsTrim_le _ _
  have hbody : (overlay w.record f.area).take k = w.record.take k := overlay_take_le _ _ _ hk
  have hsp : ∀ b ∈ w.record.drop k, b = 32 := by
    intro b hb
    obtain ⟨i, hi', rfl⟩ := List.mem_iff_getElem.1 hb
    rw [List.getElem_drop]
    rw [List.length_drop] at hi'
    have hi2 : k + i < w.record.length := by omega
    have h32 : (overlay w.record f.area).getD (k + i) 0 = 32 := by
      split at hsz
      · omega
      · exact lsTrim_spaces _ w.record.length (k + i) (by omega) hi2
    have h1 := overlay_take w.record f.area
    have h2 : (overlay w.record f.area)[k + i]? = w.record[k + i]? := by
      conv => rhs; rw [← h1]
      rw [List.getElem?_take, if_pos hi2]
    rw [List.getD_eq_getElem?_getD, h2, List.getElem?_eq_getElem hi2] at h32
    simpa using h32
  rw [hbody] at k1
  have hnobody : (lsBytes f.nulls (w.record.take k)).count 10 = 0 :=
    lsBytes_no_lf _ _ (fun hm => e3 (List.mem_of_mem_take hm))
  have hab := hi.above
  obtain ⟨bytes, hby⟩ : ∃ bytes, bytes = (if l.needsTop then newlines l.top else []) ++
      (if w.opt.after then out else []) ++ lsBytes f.nulls (w.record.take k) ++ newlines 1 ++
      (if w.opt.after then [] else out) := ⟨_, rfl⟩
  refine ⟨{ f' with size := f.size, stream := f.stream.append bytes }, l',
      ?_, ?_, g7, k4, k5, ?_⟩
  · unfold linWrite lsExWrite
    simp only [hd, hlin, Option.map_some, Option.getD_none]
    rw [if_neg (by omega), ← hd, k1, hby]
  · refine ⟨k2, g2, g3, g4, g5, g6, g8, g9, ?_, by rw [← hd]; exact k3⟩
    rw [g7]
    simp only [Stream.append, hby, List.count_append, count_newlines, hnobody, Bool.false_eq_true, if_false]
    have htop : List.count 10 (if l.needsTop = true then newlines l.top else []) =
        if l.needsTop = true then l.top else 0 := by split <;> simp [count_newlines]
    rw [htop]
    have : List.count 10 (if w.opt.after = true then out else []) +
        List.count 10 (if w.opt.after = true then [] else out) = out.count 10 := by split <;> simp
    omega
  · refine ⟨(if l.needsTop then newlines l.top else []) ++ (if w.opt.after then out else []),
      lsBytes f.nulls (w.record.take k), newlines 1 ++ (if w.opt.after then [] else out), ?_, ?_, ?_,
      k, hk, rfl, hsp⟩
    · simp [Stream.append, hby]
    · intro ha
      have htop : List.count 10 (if l.needsTop = true then newlines l.top else []) =
        if l.needsTop = true then l.top else 0 := by split <;> simp [count_newlines]
      rw [ha]
      simp only [List.count_append, htop, Bool.false_eq_true, if_false, List.count_nil]
      omega
    · intro ha
      have htop : List.count 10 (if l.needsTop = true then newlines l.top else []) =
        if l.needsTop = true then l.top else 0 := by split <;> simp [count_newlines]
      rw [ha]
      simp only [List.count_append, htop, if_true]
      omega

theorem linWrite_lost (f : LsFile) (r : Report) (l : Linage) (w : LinWrite) (hi : LinInv f r l)
    (hok : LinWriteOk f.recMin f.recMax w) (hadv : r.advance w.items w.opt.adv = none) :
    (linWrite false f w).1 = 57 ∧ ∃ l', (linWrite false f w).2.2.linage = some l' ∧ l'.ctr = 0 ∧
      (linWrite false f w).2.2.depending = none ∧
      (linWrite false f w).2.2.recMin = f.recMin ∧ (linWrite false f w).2.2.recMax = f.recMax := by
  obtain ⟨e1, e2, e3, e4⟩ := hok
  have hd := hi.dep
  have hlin := hi.lin
  obtain ⟨h1, h2⟩ := linageWriteOpt_lost { l with items := w.items, needsTop := false } r w.opt
    hi.lines hi.ctr hi.pos hadv
  have := lineseqWrite_linage_err
    { f with area := overlay w.record f.area, size := w.record.length,
             linage := some { l with items := w.items } }
    { l with items := w.items } w.opt false rfl h1 h2
  unfold linWrite lsExWrite
  simp only [hd, hlin, Option.map_some, Option.getD_none]
  rw [if_neg (by omega)]
  simp only [hd] at this
  exact this

theorem linWrite_dead (f : LsFile) (l : Linage) (w : LinWrite) (eop : Bool) (hl : f.linage = some l)
    (h0 : l.ctr = 0) (hd : f.depending = none) (hok : LinWriteOk f.recMin f.recMax w) :
    (linWrite eop f w).1 = 57 ∧ ∃ l', (linWrite eop f w).2.2.linage = some l' ∧ l'.ctr = 0 ∧
      (linWrite eop f w).2.2.depending = none ∧
      (linWrite eop f w).2.2.recMin = f.recMin ∧ (linWrite eop f w).2.2.recMax = f.recMax := by
  obtain ⟨e1, e2, e3, e4⟩ := hok
  have hz := linageWriteOpt_zero { l with items := w.items, needsTop := false } w.opt h0
  have := lineseqWrite_linage_err
    { f with area := overlay w.record f.area, size := w.record.length,
             linage := some { l with items := w.items } }
    { l with items := w.items } w.opt eop rfl (by simp only; rw [hz]) (by simp only; rw [hz]; exact h0)
  unfold linWrite lsExWrite
  simp only [hd, hl, Option.map_some, Option.getD_none]
  rw [if_neg (by omega)]
  simp only [hd] at this
  exact this

theorem linRun_dead (ws : List LinWrite) : ∀ (eop : Bool) (f : LsFile) (l : Linage),
    f.linage = some l → l.ctr = 0 → f.depending = none →
    (∀ w ∈ ws, LinWriteOk f.recMin f.recMax w) → linRun eop f ws = reportRun none ws := by
  induction ws with
  | nil => intros; simp [linRun, reportRun]
  | cons w ws ih =>
    intro eop f l hl h0 hd hok
    obtain ⟨h1, l', h2, h3, h4, h5, h6⟩ := linWrite_dead f l w eop hl h0 hd (hok w (by simp))
    have := ih (linWrite eop f w).2.1 _ l' h2 h3 h4
      (by rw [h5, h6]; exact fun w hw => hok w (by simp [hw]))
    rw [linRun, reportRun]
    rw [this, h1, h2, Option.map_some, Option.getD_some, h3, if_pos rfl]

theorem linRun_ok (ws : List LinWrite) : ∀ (f : LsFile) (r : Report) (l : Linage), LinInv f r l →
    (∀ w ∈ ws, LinWriteOk f.recMin f.recMax w) → linRun false f ws = reportRun (some r) ws := by
  induction ws with
  | nil => intros; simp [linRun, reportRun]
  | cons w ws ih =>
    intro f r l hi hok
    rw [linRun, reportRun]
    cases hadv : r.advance w.items w.opt.adv with
    | none =>
      obtain ⟨h1, l', h2, h3, h4, h5, h6⟩ := linWrite_lost f r l w hi (hok w (by simp)) hadv
      have := linRun_dead ws (linWrite false f w).2.1 _ l' h2 h3 h4
        (by rw [h5, h6]; exact fun w hw => hok w (by simp [hw]))
      simp only
      rw [this, h1, h2, Option.map_some, Option.getD_some, h3, if_pos rfl]
    | some r' =>
      obtain ⟨f', l', h1, h2, h3, h4, h5, _⟩ := linWrite_ok f r r' l w hi (hok w (by simp)) hadv
      have := ih f' r' l' h2 (by rw [h4, h5]; exact fun w hw => hok w (by simp [hw]))
      simp only [h1]
      rw [this, h2.lin, Option.map_some, Option.getD_some, h2.ctr]
      have hc : f'.stream.data.count 10 = r'.above := by
        have := h2.above
        rw [h3] at this
        simpa using this
      by_cases he : w.opt.eop = true ∧ r.endOfPage w.opt.adv
      · rw [if_pos he, if_neg (by decide), hc]
      · rw [if_neg he, if_neg (by decide), hc]

/-- **C44.** For every history of WRITEs to a file with LINAGE - each with whatever values the LINAGE
items have by then - the statuses, LINAGE-COUNTER and the number of lines on the paper after each
WRITE are those of a report made of logical pages: the shape of a page is what the items say when the
page starts, every complete page has top margin + body + bottom margin physical lines, 52 comes
exactly when an END-OF-PAGE phrase is there and the footing area or the end of the page is reached. -/
theorem C44_report (nulls fixedLen : Bool) (recMin recMax : Nat) (area : List Nat) (items : LinItems)
    (f : LsFile) (ws : List LinWrite) (ho : linOpen nulls fixedLen recMin recMax area items = some f)
    (hok : ∀ w ∈ ws, LinWriteOk recMin recMax w) :
    linRun false f ws = reportRun (some ⟨[], items.shape, 1⟩) ws := by
  unfold linOpen linageOpen at ho
  by_cases hv : items.valid
  · rw [linageCheck_valid _ (by exact hv)] at ho
    simp only [Option.map_some, Option.some.injEq] at ho
    subst ho
    refine linRun_ok ws _ _ _ ⟨rfl, rfl, rfl, rfl, rfl, rfl, by simp, ?_, ?_, rfl⟩ hok
    · have := hv.1
      simp only [LinItems.shape]; omega
    · simp [Report.above]
  · rw [linageCheck_invalid _ (by exact hv)] at ho
    simp at ho

/-- **C44.** OPEN succeeds exactly when the items make sense. -/
theorem C44_open (nulls fixedLen : Bool) (recMin recMax : Nat) (area : List Nat) (items : LinItems) :
    (linOpen nulls fixedLen recMin recMax area items).isSome = true ↔ items.valid := by
  unfold linOpen linageOpen
  by_cases hv : items.valid
  · rw [linageCheck_valid _ (by exact hv)]; simp [hv]
  · rw [linageCheck_invalid _ (by exact hv)]; simp [hv]

/-- The report after a history that did not fail. -/
def reportAfter : Option Report → List LinWrite → Option Report
  | r, [] => r
  | none, _ :: _ => none
  | some r, w :: ws => reportAfter (r.advance w.items w.opt.adv) ws

/-- The connector after a history. -/
def linAfter (f : LsFile) : List LinWrite → LsFile
  | [] => f
  | w :: ws => linAfter (linWrite false f w).2.2 ws

theorem linAfter_inv (ws : List LinWrite) : ∀ (f : LsFile) (r r' : Report) (l : Linage),
    LinInv f r l → (∀ w ∈ ws, LinWriteOk f.recMin f.recMax w) → reportAfter (some r) ws = some r' →
    ∃ l', LinInv (linAfter f ws) r' l' ∧ (linAfter f ws).recMin = f.recMin ∧
      (linAfter f ws).recMax = f.recMax := by
  induction ws with
  | nil =>
    intro f r r' l hi _ h
    simp only [reportAfter, Option.some.injEq] at h
    subst h
    exact ⟨l, hi, rfl, rfl⟩
  | cons w ws ih =>
    intro f r r' l hi hok h
    rw [reportAfter] at h
    cases hadv : r.advance w.items w.opt.adv with
    | none => rw [hadv] at h; cases ws <;> simp [reportAfter] at h
    | some r1 =>
      rw [hadv] at h
      obtain ⟨f', l', h1, h2, h3, h4, h5, _⟩ := linWrite_ok f r r1 l w hi (hok w (by simp)) hadv
      obtain ⟨l'', k1, k2, k3⟩ := ih f' r1 r' l' h2
        (by rw [h4, h5]; exact fun w hw => hok w (by simp [hw])) h
      refine ⟨l'', ?_, ?_, ?_⟩ <;> rw [linAfter, h1]
      · exact k1
      · rw [k2, h4]
      · rw [k3, h5]

/-- **C44.** LINAGE-COUNTER stays on the page, and a record written BEFORE ADVANCING stands on the
line of the page body that LINAGE-COUNTER named before the WRITE: exactly the lines of the complete
pages, the top margin and LINAGE-COUNTER - 1 lines are above it.  (Trailing spaces are not written.) -/
theorem C44_record_line (nulls fixedLen : Bool) (recMin recMax : Nat) (area : List Nat)
    (items : LinItems) (f : LsFile) (ws : List LinWrite) (w : LinWrite) (r r' : Report)
    (ho : linOpen nulls fixedLen recMin recMax area items = some f)
    (hok : ∀ w ∈ ws, LinWriteOk recMin recMax w) (hokw : LinWriteOk recMin recMax w)
    (hr : reportAfter (some ⟨[], items.shape, 1⟩) ws = some r)
    (hr' : r.advance w.items w.opt.adv = some r') (hb : w.opt.after = false) :
    ((linAfter f ws).linage.map (·.ctr)) = some r.line ∧ 1 ≤ r.line ∧ r.line ≤ r.page.lines ∧
    ∃ above body below, (linWrite false (linAfter f ws) w).2.2.stream.data = above ++ body ++ below ∧
      above.count 10 = (r.done.map fun p => p.top + p.lines + p.bot).sum + r.page.top + (r.line - 1) ∧
      ∃ k, k ≤ w.record.length ∧ body = lsBytes (linAfter f ws).nulls (w.record.take k) ∧
        ∀ b ∈ w.record.drop k, b = 32 := by
  unfold linOpen linageOpen at ho
  by_cases hv : items.valid
  · rw [linageCheck_valid _ (by exact hv)] at ho
    simp only [Option.map_some, Option.some.injEq] at ho
    obtain ⟨l', hi, h1, h2⟩ := linAfter_inv ws f ⟨[], items.shape, 1⟩ r _
      (by
        subst ho
        refine ⟨rfl, rfl, rfl, rfl, rfl, rfl, by simp, ?_, ?_, rfl⟩
        · have := hv.1
          simp only [LinItems.shape]; omega
        · simp [Report.above])
      (by subst ho; exact hok) hr
    have hokw' : LinWriteOk (linAfter f ws).recMin (linAfter f ws).recMax w := by
      rw [h1, h2]; subst ho; exact hokw
    obtain ⟨f', l'', g1, g2, g3, g4, g5, pre, body, post, g6, g7, _, g8⟩ :=
      linWrite_ok (linAfter f ws) r r' l' w hi hokw' hr'
    refine ⟨by rw [hi.lin, Option.map_some, hi.ctr], hi.pos, hi.le,
      (linAfter f ws).stream.data ++ pre, body, post, by rw [g1]; exact g6, g7 hb, g8⟩
  · rw [linageCheck_invalid _ (by exact hv)] at ho
    simp at ho

/-! ### Non-vacuity and findings -/

/-- LINAGE IS 5 LINES WITH FOOTING AT 4 LINES AT TOP 1 LINES AT BOTTOM 2. -/
def exItems : LinItems := ⟨5, some 4, some 1, some 2⟩

/-- A record `A` of three bytes, BEFORE ADVANCING 2 LINES AT EOP. -/
def exWrite : LinWrite := ⟨exItems, [65, 32, 32], ⟨false, .lines 2, true⟩⟩

example : (∀ w ∈ [exWrite, exWrite, exWrite, exWrite], LinWriteOk 3 3 w) ∧
    (linOpen false false 3 3 [0, 0, 0] exItems).map (fun f =>
      linRun false f [exWrite, exWrite, exWrite, exWrite]) =
    some [⟨0, 3, some 3⟩, ⟨52, 5, some 5⟩, ⟨52, 1, some 9⟩, ⟨0, 3, some 11⟩] ∧
    reportAfter (some ⟨[], exItems.shape, 1⟩) [exWrite, exWrite, exWrite] =
      some ⟨[⟨5, 4, 1, 2⟩], ⟨5, 4, 1, 2⟩, 1⟩ := by
  refine ⟨?_, by decide +kernel, by decide +kernel⟩
  intro w hw
  simp only [List.mem_cons, List.not_mem_nil, or_false] at hw
  have : w = exWrite := by tauto
  subst this
  exact ⟨by decide, by decide, by decide, by decide⟩

/-- Finding: after ADVANCING 0 LINES the paper is a line further down although LINAGE-COUNTER has not
changed (the line feed after the record is always written), so this page gets a line too many. -/
theorem C44_finding_zero_lines :
    (linOpen false false 3 3 [0, 0, 0] exItems).map (fun f =>
      linRun false f [⟨exItems, [65, 32, 32], ⟨false, .lines 0, false⟩⟩,
        ⟨exItems, [65, 32, 32], ⟨false, .page, false⟩⟩]) =
    some [⟨0, 1, some 2⟩, ⟨0, 1, some 10⟩] := by decide +kernel

/-- Finding: a record written AFTER ADVANCING stands one line above the line that LINAGE-COUNTER names
afterwards: here AFTER ADVANCING PAGE on the last line of the top margin (bytes: top margin, rest of
page 1, bottom margin, top margin, record, line feed). -/
theorem C44_finding_after_one_line_early :
    (linOpen false false 1 1 [0] exItems).map (fun f =>
      (linWrite false f ⟨exItems, [65], ⟨true, .page, false⟩⟩).2.2.stream.data) =
    some [10, 10, 10, 10, 10, 10, 10, 10, 65, 10] ∧
    (linOpen false false 1 1 [0] exItems).map (fun f =>
      ((linWrite false f ⟨exItems, [65], ⟨true, .page, false⟩⟩).2.2.linage.map (·.ctr))) =
    some (some 1) := by decide +kernel

/-- Finding: when the items do not make sense at a page break, a WRITE with an END-OF-PAGE phrase
answers 57 and leaves the global end-of-page flag set: the next WRITE to any line sequential file
without error answers 52. -/
theorem C44_finding_flag_leaks :
    (linOpen false false 1 1 [0] ⟨1, none, none, none⟩).map (fun f =>
      let q := linWrite false f ⟨⟨0, none, none, none⟩, [65], ⟨false, .lines 1, true⟩⟩
      (q.1, q.2.1, (lsExWrite q.2.1 (lsOpen false false 1 1 [] [0] none) [66] 1 plainWrite).1)) =
    some (57, true, 52) := by decide +kernel

end Cob
