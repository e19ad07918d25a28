import Verif.Io.Line
/-
C38: a LINE SEQUENTIAL file gives back the records written, and any text file its lines.
-/
namespace Cob

/-! ### Specification -/

/-- The lines of a text: the parts between line feeds; after the last line feed there is a line only
if there are characters. -/
def textLines : List Nat → List (List Nat)
  | [] => []
  | c :: cs =>
    if c = 10 then [] :: textLines cs
    else
      match textLines cs with
      | [] => [[c]]
      | l :: ls => (c :: l) :: ls

/-- A line in a record of `size` bytes: cut, or padded with spaces. -/
def fitLine (size : Nat) (l : List Nat) : List Nat :=
  l.take size ++ List.replicate (size - l.length) 32

/-- Consecutive READs: the status and, for a successful READ, the record. -/
def lsReads (f : LsFile) : Nat → List (Nat × Option (List Nat))
  | 0 => []
  | n + 1 =>
    let r := lsExRead f
    (r.1, if r.1 = 0 then some (r.2.area.take r.2.size) else none) :: lsReads r.2 n

/-- A connector opened for INPUT. -/
def lsOpen (nulls fixedLen : Bool) (recMin recMax : Nat) (data area : List Nat) (dep : Option Nat) :
    LsFile :=
  ⟨nulls, fixedLen, recMin, recMax, ⟨data, 0⟩, recMax, area, dep, false, false, none⟩

/-- Consecutive WRITEs of records with options (the program fills the record area and, if there is
one, the DEPENDING item): the statuses and the connector. -/
def lsWrites (f : LsFile) : List (List Nat × WOpt) → List Nat × LsFile
  | [] => ([], f)
  | (r, opt) :: ws =>
    let q := lsExWrite false { f with depending := f.depending.map fun _ => r.length }
      (overlay r f.area) r.length opt
    let t := lsWrites q.2.2 ws
    (q.1 :: t.1, t.2)

/-- The records a WRITE puts into the file: AFTER ADVANCING n LINES first n empty ones, BEFORE
ADVANCING n LINES afterwards n - 1. -/
def written : List Nat × WOpt → List (List Nat)
  | (r, ⟨after, .lines n, _⟩) =>
    if after then List.replicate n [] ++ [r] else r :: List.replicate (n - 1) []
  | (r, ⟨_, .page, _⟩) => [r]

/-- The WRITEs considered: the length within the limits, no carriage return or line feed in the
record unless COB_LS_NULLS is set, advancing by lines (by at least one for BEFORE). -/
def LsWriteOk (nulls : Bool) (recMin recMax : Nat) (w : List Nat × WOpt) : Prop :=
  recMin ≤ w.1.length ∧ w.1.length ≤ recMax ∧
    (nulls = false → ∀ b ∈ w.1, b ≠ 10 ∧ b ≠ 13) ∧
    ∃ n, w.2.adv = .lines n ∧ (w.2.after = false → 1 ≤ n)

/-! ### Reading any text -/

theorem lsScan_text (size : Nat) (hs : 0 < size) (d : List Nat) : ∀ (acc : List Nat),
    acc.length ≤ size →
    match textLines (d.filter (· ≠ 13)) with
    | [] => lsScan false size d acc = if acc.length = 0 then .eof else .line acc []
    | l :: ls => ∃ pre rest, d = pre ++ rest ∧ lsScan false size d acc = .line ((acc ++ l).take size) rest ∧
        textLines (rest.filter (· ≠ 13)) = ls := by
  induction d with
  | nil => intro acc _; simp [textLines, lsScan]
  | cons c cs ih =>
    intro acc hacc
    by_cases h13 : c = 13
    · subst h13
      have := ih acc hacc
      have hf : (13 :: cs).filter (· ≠ 13) = cs.filter (· ≠ 13) := by simp
      rw [hf]
      have hstep : lsScan false size (13 :: cs) acc = lsScan false size cs acc := by
        rw [lsScan.eq_def]; simp
      rw [hstep]
      cases ht : textLines (cs.filter (· ≠ 13)) with
      | nil => rw [ht] at this; exact this
      | cons l ls =>
        rw [ht] at this
        obtain ⟨pre, rest, h1, h2, h3⟩ := this
        exact ⟨13 :: pre, rest, by rw [h1]; rfl, h2, h3⟩
    · by_cases h10 : c = 10
      · subst h10
        have hf : (10 :: cs).filter (· ≠ 13) = 10 :: cs.filter (· ≠ 13) := by simp
        rw [hf, textLines, if_pos rfl]
        refine ⟨[10], cs, rfl, ?_, rfl⟩
        rw [lsScan.eq_def]
        simp [List.take_of_length_le hacc]
      · have hf : (c :: cs).filter (· ≠ 13) = c :: cs.filter (· ≠ 13) := by simp [h13]
        rw [hf, textLines, if_neg h10]
        have hstep : lsScan false size (c :: cs) acc =
            lsScan false size cs (if acc.length < size then acc ++ [c] else acc) := by
          rw [lsScan.eq_def]; simp [h13, h10]
        rw [hstep]
        have hacc' : (if acc.length < size then acc ++ [c] else acc).length ≤ size := by
          split
          · rw [List.length_append, List.length_singleton]; omega
          · exact hacc
        have hne : ¬ (if acc.length < size then acc ++ [c] else acc).length = 0 := by
          split
          · simp
          · omega
        have htake : ∀ l, ((if acc.length < size then acc ++ [c] else acc) ++ l).take size =
            (acc ++ c :: l).take size := by
          intro l
          split
          · simp
          · rw [List.take_append_of_le_length (by omega), List.take_append_of_le_length (by omega)]
        have := ih _ hacc'
        cases ht : textLines (cs.filter (· ≠ 13)) with
        | nil =>
          rw [ht] at this
          simp only at this ⊢
          refine ⟨c :: cs, [], by simp, ?_, by simp [textLines]⟩
          rw [this, if_neg hne]
          congr 1
          have := htake []
          rw [List.append_nil, List.take_of_length_le hacc'] at this
          exact this
        | cons l ls =>
          rw [ht] at this
          obtain ⟨pre, rest, h1, h2, h3⟩ := this
          refine ⟨c :: pre, rest, by rw [h1]; rfl, ?_, h3⟩
          rw [h2, htake]

theorem fitLine_of_scan (size : Nat) (l : List Nat) :
    l.take size ++ List.replicate (size - (l.take size).length) 32 = fitLine size l := by
  unfold fitLine
  rw [List.length_take]
  by_cases h : size ≤ l.length
  · rw [Nat.min_eq_left h, show size - size = 0 by omega, show size - l.length = 0 by omega]
  · rw [Nat.min_eq_right (by omega)]

theorem fitLine_length (size : Nat) (l : List Nat) : (fitLine size l).length = size := by
  unfold fitLine
  rw [List.length_append, List.length_take, List.length_replicate]
  omega

/-- Reading on when the next line is known. -/
theorem lsReads_line (f : LsFile) (n : Nat) (l rest : List Nat) (he : f.endOfFile = false)
    (h : lsScan f.nulls f.size (f.stream.data.drop f.stream.pos) [] = .line (l.take f.size) rest) :
    ∃ f', lsReads f (n + 1) = (0, some (fitLine f.size l)) :: lsReads f' n ∧
      f'.endOfFile = false ∧ f'.nulls = f.nulls ∧ f'.size = f.size ∧
      f'.stream = ⟨f.stream.data, f.stream.data.length - rest.length⟩ := by
  refine ⟨(lsExRead f).2, ?_, ?_⟩
  · rw [lsReads]
    unfold lsExRead lineseqRead
    simp only [he, Bool.false_eq_true, if_false, h, if_true]
    have := overlay_take (fitLine f.size l) f.area
    rw [fitLine_length] at this
    rw [fitLine_of_scan, this]
  · unfold lsExRead lineseqRead
    simp only [he, Bool.false_eq_true, if_false, h, if_true]
    exact ⟨trivial, trivial, trivial, trivial⟩

theorem lsReads_eof (f : LsFile) (he : f.endOfFile = false)
    (h : lsScan f.nulls f.size (f.stream.data.drop f.stream.pos) [] = .eof) :
    lsReads f 2 = [(10, none), (46, none)] := by
  simp only [lsReads, lsExRead, lineseqRead, he, Bool.false_eq_true, if_false, h,
    show ¬ (10 : Nat) = 0 by decide, if_true]
  rfl

theorem drop_of_suffix (pre rest : List Nat) :
    (pre ++ rest).drop ((pre ++ rest).length - rest.length) = rest := by
  rw [List.length_append, Nat.add_sub_cancel, List.drop_left]

theorem lsReads_text (lines : List (List Nat)) : ∀ (f : LsFile),
    f.nulls = false → 0 < f.size → f.endOfFile = false →
    textLines ((f.stream.data.drop f.stream.pos).filter (· ≠ 13)) = lines →
    lsReads f (lines.length + 2) =
      lines.map (fun l => (0, some (fitLine f.size l))) ++ [(10, none), (46, none)] := by
  induction lines with
  | nil =>
    intro f hn hs he ht
    have := lsScan_text f.size hs (f.stream.data.drop f.stream.pos) [] (by simp)
    rw [ht] at this
    simp only [List.length_nil, if_true] at this
    have := lsReads_eof f he (by rw [hn]; exact this)
    simpa using this
  | cons l ls ih =>
    intro f hn hs he ht
    have := lsScan_text f.size hs (f.stream.data.drop f.stream.pos) [] (by simp)
    rw [ht] at this
    obtain ⟨pre, rest, h1, h2, h3⟩ := this
    simp only [List.nil_append] at h2
    obtain ⟨f', g1, g2, g3, g4, g5⟩ := lsReads_line f (ls.length + 2) l rest he (by rw [hn]; exact h2)
    have hd : f'.stream.data.drop f'.stream.pos = rest := by
      rw [g5]
      simp only
      have : f.stream.data = f.stream.data.take f.stream.pos ++ pre ++ rest := by
        rw [List.append_assoc, ← h1, List.take_append_drop]
      rw [this, drop_of_suffix]
    have := ih f' (by rw [g3, hn]) (by rw [g4]; exact hs) g2 (by rw [hd]; exact h3)
    rw [List.length_cons, show ls.length + 1 + 2 = (ls.length + 2) + 1 by omega, g1, this, g4]
    simp

/-- **C38.** Reading any text file to its end gives its lines, without the carriage returns, each cut
to or padded with spaces to the record length, then 10, then 46. -/
theorem C38_any_text (fixedLen : Bool) (recMin recMax : Nat) (data area : List Nat)
    (dep : Option Nat) (h : 0 < recMax) :
    let lines := textLines (data.filter (· ≠ 13))
    lsReads (lsOpen false fixedLen recMin recMax data area dep) (lines.length + 2) =
      lines.map (fun l => (0, some (fitLine recMax l))) ++ [(10, none), (46, none)] :=
  lsReads_text _ (lsOpen false fixedLen recMin recMax data area dep) rfl h rfl (by simp [lsOpen])

example : textLines (([65, 13, 10, 66, 67, 10, 10, 68] : List Nat).filter (· ≠ 13)) =
    [[65], [66, 67], [], [68]] := by decide

/-! ### The round trip -/

/-- A line of the file. -/
def lsImage (nulls : Bool) (t : List Nat) : List Nat := lsBytes nulls t ++ [10]

theorem lsScan_image (nulls : Bool) (size : Nat) (t rest : List Nat)
    (h : nulls = false → ∀ b ∈ t, b ≠ 10 ∧ b ≠ 13) : ∀ (acc : List Nat), acc.length ≤ size →
    lsScan nulls size (lsImage nulls t ++ rest) acc = .line ((acc ++ t).take size) rest := by
  induction t with
  | nil =>
    intro acc hacc
    have : lsImage nulls [] ++ rest = 10 :: rest := by cases nulls <;> simp [lsImage, lsBytes]
    rw [this, lsScan.eq_def]
    simp [List.take_of_length_le hacc]
  | cons c cs ih =>
    intro acc hacc
    have hacc' : (if acc.length < size then acc ++ [c] else acc).length ≤ size := by
      split
      · rw [List.length_append, List.length_singleton]; omega
      · exact hacc
    have htake : ((if acc.length < size then acc ++ [c] else acc) ++ cs).take size =
        (acc ++ c :: cs).take size := by
      split
      · simp
      · rw [List.take_append_of_le_length (by omega), List.take_append_of_le_length (by omega)]
    have := ih (fun hn b hb => h hn b (by simp [hb])) _ hacc'
    rw [htake] at this
    rw [← this]
    cases nulls with
    | false =>
      have hc := h rfl c (by simp)
      have : lsImage false (c :: cs) ++ rest = c :: (lsImage false cs ++ rest) := by
        simp [lsImage, lsBytes]
      rw [this]
      conv => lhs; rw [lsScan.eq_def]
      simp [hc.1, hc.2]
    | true =>
      by_cases h32 : c < 32
      · have : lsImage true (c :: cs) ++ rest = 0 :: c :: (lsImage true cs ++ rest) := by
          simp [lsImage, lsBytes, h32]
        rw [this]
        conv => lhs; rw [lsScan.eq_def]
        simp
      · have : lsImage true (c :: cs) ++ rest = c :: (lsImage true cs ++ rest) := by
          simp [lsImage, lsBytes, h32]
        rw [this]
        conv => lhs; rw [lsScan.eq_def]
        have h0 : c ≠ 0 := by omega
        have h10 : c ≠ 10 := by omega
        have h13 : c ≠ 13 := by omega
        simp [h0, h10, h13]

theorem lsReads_images (ts : List (List Nat)) : ∀ (f : LsFile) (pre : List Nat),
    (f.nulls = false → ∀ t ∈ ts, ∀ b ∈ t, b ≠ 10 ∧ b ≠ 13) → f.endOfFile = false →
    f.stream = ⟨pre ++ ts.flatMap (lsImage f.nulls), pre.length⟩ →
    lsReads f (ts.length + 2) =
      ts.map (fun l => (0, some (fitLine f.size l))) ++ [(10, none), (46, none)] := by
  induction ts with
  | nil =>
    intro f pre _ he hs
    have := lsReads_eof f he (by rw [hs]; simp [lsScan])
    simpa using this
  | cons t ts ih =>
    intro f pre hb he hs
    have hdrop : f.stream.data.drop f.stream.pos =
        lsImage f.nulls t ++ ts.flatMap (lsImage f.nulls) := by
      rw [hs]; simp
    have hscan := lsScan_image f.nulls f.size t (ts.flatMap (lsImage f.nulls))
      (fun hn b hm => hb hn t (by simp) b hm) [] (by simp)
    rw [← hdrop] at hscan
    simp only [List.nil_append] at hscan
    obtain ⟨f', g1, g2, g3, g4, g5⟩ := lsReads_line f (ts.length + 2) t _ he hscan
    have := ih f' (pre ++ lsImage f.nulls t) (by rw [g3]; exact fun hn t ht => hb hn t (by simp [ht])) g2
      (by
        rw [g5, g3, hs]
        simp only [List.flatMap_cons, List.length_append, Stream.mk.injEq, List.append_assoc,
          true_and]
        omega)
    rw [List.length_cons, show ts.length + 1 + 2 = (ts.length + 2) + 1 by omega, g1, this, g4]
    simp

theorem lsTrim_le (d : List Nat) : ∀ n, lsTrim d n ≤ n := by
  intro n
  induction n with
  | zero => exact Nat.le_refl _
  | succ n ih => rw [lsTrim]; split <;> omega

theorem lsTrim_spaces (d : List Nat) : ∀ (n i : Nat), lsTrim d n ≤ i → i < n → d.getD i 0 = 32 := by
  intro n
  induction n with
  | zero => intro i _ h; omega
  | succ n ih =>
    intro i h1 h2
    rw [lsTrim] at h1
    split at h1
    · omega
    · rename_i hd
      by_cases hi : i = n
      · subst hi; simpa using hd
      · exact ih i h1 (by omega)

/-- Cutting trailing spaces does not change the padded record. -/
theorem fitLine_trim (size : Nat) (r : List Nat) (hr : r.length ≤ size) (d : List Nat)
    (hd : d.take r.length = r) :
    fitLine size (d.take (lsTrim d r.length)) = fitLine size r := by
  have hle := lsTrim_le d r.length
  have hlen : (d.take (lsTrim d r.length)).length = lsTrim d r.length := by
    have : r.length ≤ d.length := by
      have := congrArg List.length hd
      rw [List.length_take] at this; omega
    rw [List.length_take]; omega
  have hr' : r = d.take (lsTrim d r.length) ++ List.replicate (r.length - lsTrim d r.length) 32 := by
    apply List.ext_getElem?
    intro i
    by_cases h1 : i < lsTrim d r.length
    · rw [List.getElem?_append_left (by omega)]
      conv => lhs; rw [← hd]
      rw [List.getElem?_take, List.getElem?_take, if_pos (by omega), if_pos h1]
    · rw [List.getElem?_append_right (by omega), hlen]
      by_cases h2 : i < r.length
      · have h3 := lsTrim_spaces d r.length i (by omega) h2
        rw [List.getElem?_replicate, if_pos (by omega)]
        conv => lhs; rw [← hd]
        rw [List.getElem?_take, if_pos h2]
        have hid : i < d.length := by
          have := congrArg List.length hd
          rw [List.length_take] at this; omega
        rw [List.getD_eq_getElem?_getD, List.getElem?_eq_getElem hid] at h3
        rw [List.getElem?_eq_getElem hid]
        simpa using h3
      · rw [List.getElem?_eq_none (by omega), List.getElem?_eq_none (by simp; omega)]
  have h5 : fitLine size r = r ++ List.replicate (size - r.length) 32 := by
    unfold fitLine; rw [List.take_of_length_le hr]
  have h6 : fitLine size (d.take (lsTrim d r.length)) =
      d.take (lsTrim d r.length) ++ List.replicate (size - lsTrim d r.length) 32 := by
    unfold fitLine
    rw [hlen, List.take_of_length_le (by omega)]
  rw [h5, h6]
  conv => rhs; rw [hr']
  rw [List.append_assoc, List.replicate_append_replicate]
  have : (List.take (lsTrim d r.length) d ++ List.replicate (r.length - lsTrim d r.length) 32).length =
      r.length := by rw [← hr']
  rw [this]
  congr 2
  omega

/-- A WRITE to a file without LINAGE, advancing by lines. -/
theorem lineseqWrite_lines (f : LsFile) (after eop : Bool) (n : Nat) (hl : f.linage = none)
    (hn : f.needsNl = false) :
    lineseqWrite false f ⟨after, .lines n, eop⟩ =
      (0, (if after then newlines n else []) ++
        lsBytes f.nulls (f.area.take (if f.fixedLen then f.size else lsTrim f.area f.size)) ++
        (if after then newlines 1 else newlines n), false, f) := by
  obtain ⟨nulls, fixedLen, recMin, recMax, stream, size, area, dep, eof, needsNl, linage⟩ := f
  simp only at hl hn
  subst hl; subst hn
  cases after <;> simp [lineseqWrite, fileWriteOpt]

/-- What a WRITE leaves in the file. -/
theorem lsWrite_bytes (f : LsFile) (w : List Nat × WOpt) (hl : f.linage = none)
    (hn : f.needsNl = false) (hok : LsWriteOk f.nulls f.recMin f.recMax w) :
    ∃ (ts : List (List Nat)) (f' : LsFile), lsExWrite false { f with depending := f.depending.map fun _ => w.1.length }
        (overlay w.1 f.area) w.1.length w.2 = (0, false, f') ∧
      f'.linage = none ∧ f'.needsNl = false ∧ f'.nulls = f.nulls ∧ f'.recMin = f.recMin ∧
      f'.recMax = f.recMax ∧ f'.stream = f.stream.append (ts.flatMap (lsImage f.nulls)) ∧
      (f.nulls = false → ∀ t ∈ ts, ∀ b ∈ t, b ≠ 10 ∧ b ≠ 13) ∧
      ts.map (fitLine f.recMax) = (written w).map (fitLine f.recMax) := by
  obtain ⟨r, ⟨after, adv, eop⟩⟩ := w
  obtain ⟨h1, h2, h3, n, h4, h5⟩ := hok
  simp only at h1 h2 h3 h4 h5
  subst h4
  have hsize : (f.depending.map fun _ => r.length).getD r.length = r.length := by
    cases f.depending <;> rfl
  have hov : (overlay r f.area).take r.length = r := overlay_take r f.area
  -- the bytes of the record itself
  obtain ⟨t, ht, htb, htf⟩ : ∃ t, (overlay r f.area).take
      (if f.fixedLen = true then r.length else lsTrim (overlay r f.area) r.length) = t ∧
      (f.nulls = false → ∀ b ∈ t, b ≠ 10 ∧ b ≠ 13) ∧ fitLine f.recMax t = fitLine f.recMax r := by
    refine ⟨_, rfl, ?_, ?_⟩
    · intro hnu b hb
      apply h3 hnu b
      rw [← hov]
      split at hb
      · exact hb
      · refine (List.IsPrefix.subset ?_) hb
        exact List.take_prefix_take_left (lsTrim_le _ _)
    · split
      · rw [hov]
      · exact fitLine_trim f.recMax r h2 _ hov
  have hnl : ∀ k, (List.replicate k ([] : List Nat)).flatMap (lsImage f.nulls) = newlines k := by
    intro k
    induction k with
    | zero => rfl
    | succ k ih =>
      rw [List.replicate_succ, List.flatMap_cons, ih, newlines, newlines, List.replicate_succ]
      cases f.nulls <;> simp [lsImage, lsBytes]
  unfold lsExWrite
  simp only [hsize]
  rw [if_neg (by omega), lineseqWrite_lines _ _ _ _ (by exact hl) (by exact hn)]
  simp only [ht]
  cases after with
  | true =>
    refine ⟨List.replicate n [] ++ [t], _, rfl, hl, hn, rfl, rfl, rfl, ?_, ?_, ?_⟩
    · simp only [List.flatMap_append, hnl, List.flatMap_cons, List.flatMap_nil, List.append_nil,
        lsImage, newlines, List.replicate_one, List.append_assoc, if_true]
    · intro hnu u hu
      rcases List.mem_append.1 hu with hu | hu
      · rw [List.eq_of_mem_replicate hu]; simp
      · simp only [List.mem_singleton] at hu; subst hu; exact htb hnu
    · simp [written, htf]
  | false =>
    have h1n := h5 rfl
    refine ⟨t :: List.replicate (n - 1) [], _, rfl, hl, hn, rfl, rfl, rfl, ?_, ?_, ?_⟩
    · simp only
      congr 1
      rw [List.flatMap_cons, hnl, lsImage]
      obtain ⟨k, rfl⟩ : ∃ k, n = k + 1 := ⟨n - 1, by omega⟩
      simp [newlines, List.replicate_succ]
    · intro hnu u hu
      rcases List.mem_cons.1 hu with hu | hu
      · subst hu; exact htb hnu
      · rw [List.eq_of_mem_replicate hu]; simp
    · simp [written, htf]

theorem lsWrites_bytes (ws : List (List Nat × WOpt)) : ∀ (f : LsFile), f.linage = none →
    f.needsNl = false → (∀ w ∈ ws, LsWriteOk f.nulls f.recMin f.recMax w) →
    f.stream.pos = f.stream.data.length →
    ∃ ts : List (List Nat), (lsWrites f ws).1 = ws.map (fun _ => 0) ∧
      (lsWrites f ws).2.stream.data = f.stream.data ++ ts.flatMap (lsImage f.nulls) ∧
      (f.nulls = false → ∀ t ∈ ts, ∀ b ∈ t, b ≠ 10 ∧ b ≠ 13) ∧
      ts.map (fitLine f.recMax) = (ws.flatMap written).map (fitLine f.recMax) := by
  induction ws with
  | nil => intro f _ _ _ _; exact ⟨[], by simp [lsWrites], by simp [lsWrites], by simp, by simp⟩
  | cons w ws ih =>
    intro f hl hn hok hpos
    obtain ⟨ts, f', e, g1, g2, g3, g4, g5, g6, g7, g8⟩ :=
      lsWrite_bytes f w hl hn (hok w (by simp))
    obtain ⟨ts', k1, k2, k3, k4⟩ := ih f' g1 g2
      (by rw [g3, g4, g5]; exact fun w hw => hok w (by simp [hw])) (by rw [g6]; simp [Stream.append])
    refine ⟨ts ++ ts', ?_, ?_, ?_, ?_⟩
    · obtain ⟨r, opt⟩ := w
      simp only [lsWrites]
      rw [e]
      simp only
      rw [k1]; rfl
    · obtain ⟨r, opt⟩ := w
      simp only [lsWrites]
      rw [e]
      simp only
      rw [k2, g6, g3]
      simp [Stream.append]
    · intro hnu t ht
      rcases List.mem_append.1 ht with ht | ht
      · exact g7 hnu t ht
      · exact k3 (by rw [g3]; exact hnu) t ht
    · rw [g5] at k4
      simp [g8, k4]

/-- **C38.** Writing any records - with any number of lines advanced - to a new file succeeds, and
reading the file back gives exactly these records in order (with the empty records of the lines
advanced), padded with spaces to the record length, then 10, then 46.  Records may contain any bytes
with COB_LS_NULLS, any but carriage return and line feed without; with COB_LS_FIXED or not. -/
theorem C38_round_trip (nulls fixedLen : Bool) (recMin recMax : Nat) (ws : List (List Nat × WOpt))
    (area area' : List Nat) (dep dep' : Option Nat)
    (hok : ∀ w ∈ ws, LsWriteOk nulls recMin recMax w) :
    let w := lsWrites (lsOpen nulls fixedLen recMin recMax [] area dep) ws
    w.1 = ws.map (fun _ => 0) ∧
    lsReads (lsOpen nulls fixedLen recMin recMax w.2.stream.data area' dep')
        ((ws.flatMap written).length + 2) =
      (ws.flatMap written).map (fun r => (0, some (r ++ List.replicate (recMax - r.length) 32))) ++
        [(10, none), (46, none)] := by
  obtain ⟨ts, k1, k2, k3, k4⟩ := lsWrites_bytes ws
    (lsOpen nulls fixedLen recMin recMax [] area dep) rfl rfl hok rfl
  refine ⟨k1, ?_⟩
  have k2' : (lsWrites (lsOpen nulls fixedLen recMin recMax [] area dep) ws).2.stream.data =
      ts.flatMap (lsImage nulls) := by simpa [lsOpen] using k2
  have hlen : ts.length = (ws.flatMap written).length := by
    simpa using congrArg List.length k4
  rw [k2', ← hlen]
  rw [lsReads_images ts (lsOpen nulls fixedLen recMin recMax (ts.flatMap (lsImage nulls)) area' dep') []
    k3 rfl (by simp [lsOpen])]
  congr 1
  have hmap : ts.map (fun l => ((0 : Nat), some (fitLine recMax l))) =
      (ts.map (fitLine recMax)).map (fun x => (0, some x)) := by simp
  have h2 : (lsOpen nulls fixedLen recMin recMax (ts.flatMap (lsImage nulls)) area' dep').size =
    recMax := rfl
  rw [h2, hmap]
  have k4' : ts.map (fitLine recMax) = (ws.flatMap written).map (fitLine recMax) := k4
  rw [k4', List.map_map]
  apply List.map_congr_left
  intro r hr
  obtain ⟨w, hw, hrw⟩ := List.mem_flatMap.1 hr
  have hrl : r.length ≤ recMax := by
    obtain ⟨h1, h2, _, n, h4, _⟩ := hok w hw
    obtain ⟨q, ⟨after, adv, eop⟩⟩ := w
    simp only at h4 h2
    subst h4
    simp only [written] at hrw
    split at hrw
    · rcases List.mem_append.1 hrw with h | h
      · rw [List.eq_of_mem_replicate h]; simp
      · simp at h; subst h; exact h2
    · rcases List.mem_cons.1 hrw with h | h
      · subst h; exact h2
      · rw [List.eq_of_mem_replicate h]; simp
  simp [fitLine, List.take_of_length_le hrl]

/-- Non-vacuity: under COB_LS_NULLS a record with NUL, line feed and carriage return. -/
example :
    (∀ w ∈ [([0, 10, 13, 65, 32], plainWrite), ([66], ⟨true, .lines 2, false⟩)], LsWriteOk true 1 5 w) ∧
    lsReads (lsOpen true false 1 5 (lsWrites (lsOpen true false 1 5 [] [9, 9, 9, 9, 9] none)
        [([0, 10, 13, 65, 32], plainWrite), ([66], ⟨true, .lines 2, false⟩)]).2.stream.data
        [9, 9, 9, 9, 9] none) 6 =
      [(0, some [0, 10, 13, 65, 32]), (0, some [32, 32, 32, 32, 32]), (0, some [32, 32, 32, 32, 32]),
       (0, some [66, 32, 32, 32, 32]), (10, none), (46, none)] := by
  refine ⟨?_, by decide +kernel⟩
  intro w hw
  simp only [List.mem_cons, List.not_mem_nil, or_false] at hw
  rcases hw with rfl | rfl
  · exact ⟨by decide, by decide, by decide, 1, rfl, by decide⟩
  · exact ⟨by decide, by decide, by decide, 2, rfl, by decide⟩

/-- Finding: without COB_LS_NULLS a record with a line feed comes back as two. -/
theorem C38_finding_line_feed :
    lsReads (lsOpen false false 3 3 (lsWrites (lsOpen false false 3 3 [] [9, 9, 9] none)
        [([65, 10, 66], plainWrite)]).2.stream.data [9, 9, 9] none) 3 =
      [(0, some [65, 32, 32]), (0, some [66, 32, 32]), (10, none)] := by decide +kernel

/-- Finding: BEFORE ADVANCING PAGE ends the line with a form feed only: the next record is on the
same line. -/
theorem C38_finding_page_joins :
    lsReads (lsOpen false false 3 3 (lsWrites (lsOpen false false 3 3 [] [9, 9, 9] none)
        [([65, 32, 32], ⟨false, .page, false⟩), ([66, 32, 32], plainWrite)]).2.stream.data
        [9, 9, 9] none) 2 =
      [(0, some [65, 12, 66]), (10, none)] := by decide +kernel

end Cob
