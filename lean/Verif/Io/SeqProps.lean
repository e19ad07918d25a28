import Verif.Io.Seq
/-
C37: a SEQUENTIAL file gives back the records written; REWRITE replaces the record read last.
-/
namespace Cob

/-! ### Specification: a list of records with a cursor -/

/-- A sequential file while it is read: the records before and after the position, whether the last
statement was a successful READ, whether the end was reported. -/
structure SeqSpec where
  past : List (List Nat)
  todo : List (List Nat)
  last : Bool
  atEnd : Bool

/-- READ, or REWRITE of the given record. -/
inductive SeqOp where
  | read
  | rewrite (r : List Nat)

/-- The answer: the status, and for a successful READ the record. -/
abbrev SeqAns := Nat × Option (List Nat)

/-- What a READ or a REWRITE answers and does. -/
def SeqSpec.step (s : SeqSpec) : SeqOp → SeqAns × SeqSpec
  | .read =>
    if s.atEnd then ((46, none), { s with last := false })
    else
      match s.todo with
      | [] => ((10, none), { s with last := false, atEnd := true })
      | r :: rs => ((0, some r), ⟨s.past ++ [r], rs, true, false⟩)
  | .rewrite r =>
    if !s.last then ((43, none), { s with last := false })
    else if r.length ≠ (s.past.getLastD []).length then ((44, none), { s with last := false })
    else ((0, none), { s with past := s.past.dropLast ++ [r], last := false })

/-- The answers to a run of statements and the state they leave. -/
def SeqSpec.run (s : SeqSpec) : List SeqOp → List SeqAns × SeqSpec
  | [] => ([], s)
  | op :: ops => let r := s.step op; let q := r.2.run ops; (r.1 :: q.1, q.2)

/-! ### The code -/

/-- One statement on the connector; REWRITE finds the record in the record area. -/
def seqStep (f : SeqFile) : SeqOp → SeqAns × SeqFile
  | .read =>
    let r := seqExRead f
    ((r.1, if r.1 = 0 then some (r.2.area.take r.2.size) else none), r.2)
  | .rewrite r =>
    let q := seqExRewrite f (overlay r f.area) r.length
    ((q.1, none), q.2)

def seqRun (f : SeqFile) : List SeqOp → List SeqAns × SeqFile
  | [] => ([], f)
  | op :: ops => let r := seqStep f op; let q := seqRun r.2 ops; (r.1 :: q.1, q.2)

/-- A WRITE of a record: the program fills the record area and, if there is one, the DEPENDING
item. -/
def seqWrite (f : SeqFile) (extend : Bool) (r : List Nat) : Nat × SeqFile :=
  seqExWrite { f with depending := f.depending.map fun _ => r.length } extend (overlay r f.area)
    r.length

def seqWrites (f : SeqFile) (extend : Bool) : List (List Nat) → List Nat × SeqFile
  | [] => ([], f)
  | r :: rs => let q := seqWrite f extend r; let t := seqWrites q.2 extend rs; (q.1 :: t.1, t.2)

/-- The records a file can hold: their length is within the limits of the file, and variable records
are shorter than 65536. -/
def SeqRec (recMin recMax : Nat) (r : List Nat) : Prop :=
  0 < r.length ∧ recMin ≤ r.length ∧ r.length ≤ recMax ∧
    (recMin ≠ recMax → r.length < 65536) ∧ ∀ b ∈ r, b < 256

/-! ### Proofs -/

/-- A record as it lies in the file. -/
def seqImage (recMin recMax : Nat) (r : List Nat) : List Nat :=
  if recMin ≠ recMax then seqHeader r.length ++ r else r

theorem seqHeader_length (n : Nat) : (seqHeader n).length = 4 := rfl

theorem seqHeader_val (n : Nat) (h : n < 65536) :
    (seqHeader n).getD 0 0 * 256 + (seqHeader n).getD 1 0 = n := by
  simp [seqHeader]; omega

theorem sequentialRead_rec (f : SeqFile) (a r c : List Nat) (hr : SeqRec f.recMin f.recMax r)
    (hs : f.stream = ⟨a ++ seqImage f.recMin f.recMax r ++ c, a.length⟩)
    (hsz : f.recMin = f.recMax → f.size = f.recMax) :
    sequentialRead f =
      (0, { f with stream := ⟨a ++ seqImage f.recMin f.recMax r ++ c,
                              (a ++ seqImage f.recMin f.recMax r).length⟩,
                   size := r.length, area := overlay r f.area }) := by
  obtain ⟨h0, h1, h2, h3, _⟩ := hr
  unfold sequentialRead
  by_cases hv : f.recMin = f.recMax
  · have hl : f.size = r.length := by rw [hsz hv]; omega
    have himg : seqImage f.recMin f.recMax r = r := by unfold seqImage; rw [if_neg (by simpa using hv)]
    rw [himg] at hs ⊢
    rw [if_neg (by simpa using hv)]
    simp only
    rw [hs, hl, Stream.fread_at]
    simp
  · have himg : seqImage f.recMin f.recMax r = seqHeader r.length ++ r := by
      unfold seqImage; rw [if_pos hv]
    rw [himg] at hs ⊢
    rw [if_pos hv]
    have hs' : f.stream = ⟨a ++ seqHeader r.length ++ (r ++ c), a.length⟩ := by
      rw [hs]; simp
    have e1 := Stream.fread_at a (seqHeader r.length) (r ++ c)
    rw [seqHeader_length] at e1
    simp only
    rw [hs', e1]
    simp only [seqHeader_length, ne_eq, not_true_eq_false, if_false]
    rw [seqHeader_val _ (h3 hv)]
    have e2 := Stream.fread_at (a ++ seqHeader r.length) r c
    have : (⟨a ++ seqHeader r.length ++ (r ++ c), (a ++ seqHeader r.length).length⟩ : Stream) =
        ⟨a ++ seqHeader r.length ++ r ++ c, (a ++ seqHeader r.length).length⟩ := by simp
    rw [this, e2]
    simp

theorem sequentialRead_eof (f : SeqFile) (a : List Nat) (hs : f.stream = ⟨a, a.length⟩)
    (hsz : f.recMin = f.recMax → 0 < f.size) :
    sequentialRead f = (10, f) := by
  have e : ∀ n, Stream.fread ⟨a, a.length⟩ n = ([], ⟨a, a.length⟩) := fun n =>
    Stream.fread_end a n 0
  unfold sequentialRead
  obtain ⟨mn, mx, st, sz, ar, dp, rd, ef⟩ := f
  simp only at hs hsz
  subst hs
  by_cases hv : mn = mx
  · have := hsz hv
    simp only [hv, ne_eq, not_true_eq_false, if_false, e, List.length_nil]
    rw [if_pos (by omega)]
    simp [overlay]
  · simp only [hv, ne_eq, not_false_eq_true, if_true, e, List.length_nil]
    simp

/-- The connector shows what the specification says. -/
structure SeqIs (f : SeqFile) (s : SeqSpec) : Prop where
  data : f.stream = ⟨s.past.flatMap (seqImage f.recMin f.recMax) ++
      s.todo.flatMap (seqImage f.recMin f.recMax),
    (s.past.flatMap (seqImage f.recMin f.recMax)).length⟩
  recs : ∀ r ∈ s.past ++ s.todo, SeqRec f.recMin f.recMax r
  fixed : f.recMin = f.recMax → f.size = f.recMax ∧ 0 < f.size
  last : f.readDone = s.last
  atEnd : f.endOfFile = s.atEnd
  size : s.last = true → s.past ≠ [] ∧ f.size = (s.past.getLastD []).length ∧
    (f.depending = none ∨ f.depending = some f.size)

theorem seqIs_step (f : SeqFile) (s : SeqSpec) (op : SeqOp) (h : SeqIs f s)
    (hop : ∀ r, op = .rewrite r → ∀ b ∈ r, b < 256) :
    (seqStep f op).1 = (s.step op).1 ∧ SeqIs (seqStep f op).2 (s.step op).2 := by
  cases op with
  | read =>
    simp only [seqStep, SeqSpec.step, seqExRead]
    have he := h.atEnd
    by_cases hend : s.atEnd = true
    · rw [hend] at he
      simp only [he, hend, if_true]
      exact ⟨rfl, ⟨h.data, h.recs, h.fixed, rfl, by simp [he, hend], by simp⟩⟩
    · have hend' : s.atEnd = false := by simpa using hend
      rw [hend'] at he
      simp only [he, hend', Bool.false_eq_true, if_false]
      cases htodo : s.todo with
      | nil =>
        have hd := h.data
        rw [htodo] at hd
        simp only [List.flatMap_nil, List.append_nil] at hd
        have := sequentialRead_eof { f with readDone := false, endOfFile := false } _ hd
          (fun hv => (h.fixed hv).2)
        rw [this]
        simp only [show (10 : Nat) ≠ 0 by decide, if_false, if_true]
        refine ⟨trivial, ⟨by simpa [htodo] using hd, by simpa [htodo] using h.recs, h.fixed, rfl, rfl,
          by simp⟩⟩
      | cons r rs =>
        have hrec : SeqRec f.recMin f.recMax r := h.recs r (by simp [htodo])
        have hd := h.data
        rw [htodo, List.flatMap_cons, ← List.append_assoc] at hd
        have := sequentialRead_rec { f with readDone := false, endOfFile := false } _ r _ hrec hd
          (fun hv => (h.fixed hv).1)
        rw [this]
        simp only [if_true]
        refine ⟨?_, ⟨?_, ?_, ?_, rfl, rfl, ?_⟩⟩
        · rw [overlay_take]
        · simp
        · have := h.recs
          rw [htodo] at this
          simpa using this
        · intro hv
          have h0 := h.fixed hv
          have h1 := hrec
          unfold SeqRec at h1
          simp only at hv ⊢
          omega
        · intro _
          refine ⟨by simp, by simp [List.getLastD_eq_getLast?], ?_⟩
          cases f.depending <;> simp
  | rewrite r =>
    simp only [seqStep, SeqSpec.step, seqExRewrite]
    have hl := h.last
    by_cases hlast : s.last = true
    · rw [hlast] at hl
      obtain ⟨hne, hsz, hdep⟩ := h.size hlast
      simp only [hl, hlast, Bool.not_true, Bool.false_eq_true, if_false]
      by_cases hlen : r.length = (s.past.getLastD []).length
      · rw [if_neg (by rw [hsz]; simpa using hlen.symm), 
          if_neg (by rcases hdep with h1 | h1 <;> simp [h1]), if_neg (by omega)]
        obtain ⟨init, x, hx⟩ : ∃ q x, s.past = q ++ [x] :=
          ⟨s.past.dropLast, s.past.getLast hne, (List.dropLast_concat_getLast hne).symm⟩
        have hgl : s.past.getLastD [] = x := by rw [hx]; simp [List.getLastD_eq_getLast?]
        rw [hgl] at hlen hsz
        have hxrec : SeqRec f.recMin f.recMax x := h.recs x (by simp [hx])
        have hrrec : SeqRec f.recMin f.recMax r := by
          unfold SeqRec at hxrec ⊢
          rw [hlen]
          exact ⟨hxrec.1, hxrec.2.1, hxrec.2.2.1, hxrec.2.2.2.1, hop r rfl⟩
        have hx0 : 0 < x.length := hxrec.1
        -- the bytes of the file around the record
        obtain ⟨hdr, hdr1, hdr2⟩ : ∃ hdr, seqImage f.recMin f.recMax x = hdr ++ x ∧
            seqImage f.recMin f.recMax r = hdr ++ r := by
          unfold seqImage
          by_cases hv : f.recMin = f.recMax
          · exact ⟨[], by simp [hv], by simp [hv]⟩
          · exact ⟨seqHeader x.length, by rw [if_pos hv], by rw [if_pos hv, hlen]⟩
        have hd := h.data
        rw [hx] at hd
        simp only [List.flatMap_append, List.flatMap_cons, List.flatMap_nil, List.append_nil,
          hdr1] at hd
        have hd' : f.stream = ⟨(init.flatMap (seqImage f.recMin f.recMax) ++ hdr) ++ x ++
            s.todo.flatMap (seqImage f.recMin f.recMax),
            (init.flatMap (seqImage f.recMin f.recMax) ++ hdr).length + x.length⟩ := by
          rw [hd]
          simp [Nat.add_assoc]
        unfold sequentialRewrite
        simp only
        have hseek : f.stream.seekCur (-(f.size : Int)) =
            some ⟨(init.flatMap (seqImage f.recMin f.recMax) ++ hdr) ++ x ++
              s.todo.flatMap (seqImage f.recMin f.recMax),
              (init.flatMap (seqImage f.recMin f.recMax) ++ hdr).length⟩ := by
          rw [hd', hsz]
          unfold Stream.seekCur Stream.seekSet
          rw [if_neg (by simp only; omega)]
          congr 2
          simp only; omega
        rw [hseek]
        simp only
        rw [if_neg (by omega)]
        have hta : (overlay r f.area).take f.size = r := by
          rw [hsz, ← hlen, overlay_take]
        rw [hta, Stream.fwrite_at _ x r _ hlen]
        refine ⟨rfl, ⟨?_, ?_, ?_, rfl, h.atEnd, by simp⟩⟩
        · simp [hx, hdr2]
        · intro y hy
          simp only [List.mem_append, List.mem_singleton] at hy
          rcases hy with (hy | hy) | hy
          · exact h.recs y (by simp [(List.dropLast_sublist _).mem hy])
          · subst hy; exact hrrec
          · exact h.recs y (by simp [hy])
        · intro hv
          exact h.fixed hv
      · rw [if_pos (by rw [hsz]; exact fun hh => hlen hh.symm), if_pos hlen]
        exact ⟨rfl, ⟨h.data, h.recs, h.fixed, rfl, h.atEnd, by simp⟩⟩
    · have hlast' : s.last = false := by simpa using hlast
      rw [hlast'] at hl
      simp only [hl, hlast', Bool.not_false, if_true]
      exact ⟨trivial, ⟨h.data, h.recs, h.fixed, rfl, h.atEnd, by simp⟩⟩

theorem seqIs_run (ops : List SeqOp) : ∀ (f : SeqFile) (s : SeqSpec), SeqIs f s →
    (∀ r, SeqOp.rewrite r ∈ ops → ∀ b ∈ r, b < 256) →
    (seqRun f ops).1 = (s.run ops).1 ∧ SeqIs (seqRun f ops).2 (s.run ops).2 := by
  induction ops with
  | nil => intro f s h _; exact ⟨rfl, h⟩
  | cons op ops ih =>
    intro f s h hop
    obtain ⟨h1, h2⟩ := seqIs_step f s op h (fun r hr => hop r (by simp [hr]))
    obtain ⟨h3, h4⟩ := ih _ _ h2 (fun r hr => hop r (by simp [hr]))
    simp only [seqRun, SeqSpec.run]
    exact ⟨by rw [h1, h3], h4⟩

/-- A connector just opened on a file: at its start for INPUT and I-O, the record area and the
DEPENDING item arbitrary. -/
def seqOpen (recMin recMax : Nat) (data : List Nat) (area : List Nat) (dep : Option Nat) : SeqFile :=
  ⟨recMin, recMax, ⟨data, 0⟩, recMax, area, dep, false, false⟩

/-- A connector opened for EXTEND: at the end of the file. -/
def seqOpenExtend (recMin recMax : Nat) (data : List Nat) (area : List Nat) (dep : Option Nat) :
    SeqFile :=
  ⟨recMin, recMax, ⟨data, data.length⟩, recMax, area, dep, false, false⟩

theorem seqWrite_rec (f : SeqFile) (extend : Bool) (r : List Nat) (hr : SeqRec f.recMin f.recMax r)
    (a : List Nat) (hs : f.stream = ⟨a, a.length⟩) :
    (seqWrite f extend r).1 = 0 ∧
    (seqWrite f extend r).2.recMin = f.recMin ∧ (seqWrite f extend r).2.recMax = f.recMax ∧
    (seqWrite f extend r).2.size = f.size ∧
    (seqWrite f extend r).2.stream = ⟨a ++ seqImage f.recMin f.recMax r,
      (a ++ seqImage f.recMin f.recMax r).length⟩ := by
  obtain ⟨h0, h1, h2, h3, _⟩ := hr
  have happ : ∀ (x y : List Nat), Stream.append ⟨x, x.length⟩ y = ⟨x ++ y, (x ++ y).length⟩ := by
    intro x y; simp [Stream.append]
  have hput : ∀ (x y : List Nat), (if extend = true then Stream.append ⟨x, x.length⟩ y
      else Stream.fwrite ⟨x, x.length⟩ y) = ⟨x ++ y, (x ++ y).length⟩ := by
    intro x y
    cases extend
    · simp [Stream.fwrite_end]
    · simp [happ]
  have hsize : (f.depending.map fun _ => r.length).getD r.length = r.length := by
    cases f.depending <;> rfl
  unfold seqWrite seqExWrite
  simp only [hsize]
  rw [if_neg (by omega)]
  unfold sequentialWrite
  simp only
  by_cases hv : f.recMin = f.recMax
  · simp only [hv, ne_eq, not_true_eq_false, if_false]
    rw [if_neg (by omega)]
    simp only
    rw [overlay_take, hs, hput]
    simp [seqImage]
  · simp only [hv, ne_eq, not_false_eq_true, if_true]
    rw [if_neg (by omega)]
    simp only
    rw [overlay_take, hs, hput, hput]
    simp [seqImage, hv]

theorem seqWrites_recs (rs : List (List Nat)) : ∀ (f : SeqFile) (extend : Bool) (a : List Nat),
    (∀ r ∈ rs, SeqRec f.recMin f.recMax r) → f.stream = ⟨a, a.length⟩ →
    (seqWrites f extend rs).1 = rs.map (fun _ => 0) ∧
    (seqWrites f extend rs).2.stream.data = a ++ rs.flatMap (seqImage f.recMin f.recMax) := by
  induction rs with
  | nil => intro f extend a _ hs; simp [seqWrites, hs]
  | cons r rs ih =>
    intro f extend a hr hs
    obtain ⟨h1, h2, h3, _, h4⟩ := seqWrite_rec f extend r (hr r (by simp)) a hs
    obtain ⟨h5, h6⟩ := ih (seqWrite f extend r).2 extend _
      (fun x hx => by rw [h2, h3]; exact hr x (by simp [hx])) h4
    simp only [seqWrites]
    refine ⟨by rw [h1, h5]; rfl, ?_⟩
    rw [h6, h2, h3]
    simp

theorem seqOpen_is (recMin recMax : Nat) (rs : List (List Nat)) (area : List Nat) (dep : Option Nat)
    (hmax : 0 < recMax) (hr : ∀ r ∈ rs, SeqRec recMin recMax r) :
    SeqIs (seqOpen recMin recMax (rs.flatMap (seqImage recMin recMax)) area dep)
      ⟨[], rs, false, false⟩ :=
  ⟨by simp [seqOpen], by simpa [seqOpen] using hr, by simp [seqOpen, hmax], rfl, rfl, by simp⟩

/-! ### C37 -/

/-- **C37.** Writing any records to a new file, all WRITEs succeed; opening the file again, every
history of READs and REWRITEs behaves as on the list of the records: READ gives the next record
(with its length), then 10 at the end and 46 afterwards; REWRITE is refused with 43 when the last
statement was not a successful READ, with 44 when the length differs, and otherwise replaces exactly
the record read last.  Fixed and variable record lengths, with and without DEPENDING. -/
theorem C37_io_history (recMin recMax : Nat) (rs : List (List Nat)) (ops : List SeqOp)
    (area area' : List Nat) (dep dep' : Option Nat) (hmax : 0 < recMax)
    (hr : ∀ r ∈ rs, SeqRec recMin recMax r)
    (hop : ∀ r, SeqOp.rewrite r ∈ ops → ∀ b ∈ r, b < 256) :
    let w := seqWrites (seqOpen recMin recMax [] area dep) false rs
    w.1 = rs.map (fun _ => 0) ∧
    (seqRun (seqOpen recMin recMax w.2.stream.data area' dep') ops).1 =
      (SeqSpec.run ⟨[], rs, false, false⟩ ops).1 := by
  obtain ⟨h1, h2⟩ := seqWrites_recs rs (seqOpen recMin recMax [] area dep) false [] hr rfl
  refine ⟨h1, ?_⟩
  have h2' : (seqWrites (seqOpen recMin recMax [] area dep) false rs).2.stream.data =
      rs.flatMap (seqImage recMin recMax) := by simpa [seqOpen] using h2
  rw [h2']
  exact (seqIs_run ops _ _ (seqOpen_is recMin recMax rs area' dep' hmax hr) hop).1

theorem specReads (rs : List (List Nat)) : ∀ (past : List (List Nat)) (l : Bool),
    (SeqSpec.run ⟨past, rs, l, false⟩ (List.replicate (rs.length + 2) .read)).1 =
      rs.map (fun r => (0, some r)) ++ [(10, none), (46, none)] := by
  induction rs with
  | nil => intro past l; simp [List.replicate, SeqSpec.run, SeqSpec.step]
  | cons r rs ih =>
    intro past l
    have : List.replicate ((r :: rs).length + 2) SeqOp.read =
        .read :: List.replicate (rs.length + 2) .read := by
      rw [List.length_cons, show rs.length + 1 + 2 = (rs.length + 2) + 1 by omega,
        List.replicate_succ]
    rw [this]
    simp only [SeqSpec.run, SeqSpec.step, Bool.false_eq_true, if_false]
    rw [ih]
    simp

/-- **C37.** In particular reading to the end returns exactly the records written, in order and with
their lengths, then 10, then 46. -/
theorem C37_read_back (recMin recMax : Nat) (rs : List (List Nat)) (area area' : List Nat)
    (dep dep' : Option Nat) (hmax : 0 < recMax) (hr : ∀ r ∈ rs, SeqRec recMin recMax r) :
    (seqRun (seqOpen recMin recMax
        (seqWrites (seqOpen recMin recMax [] area dep) false rs).2.stream.data area' dep')
      (List.replicate (rs.length + 2) .read)).1 =
      rs.map (fun r => (0, some r)) ++ [(10, none), (46, none)] := by
  have := (C37_io_history recMin recMax rs (List.replicate (rs.length + 2) .read) area area' dep
    dep' hmax hr (fun r h => by simp at h)).2
  rw [this, specReads]

/-- **C37.** OPEN EXTEND appends: the records that were there stay, the new ones follow. -/
theorem C37_extend (recMin recMax : Nat) (rs qs : List (List Nat)) (ops : List SeqOp)
    (area area' area'' : List Nat) (dep dep' dep'' : Option Nat) (hmax : 0 < recMax)
    (hr : ∀ r ∈ rs ++ qs, SeqRec recMin recMax r)
    (hop : ∀ r, SeqOp.rewrite r ∈ ops → ∀ b ∈ r, b < 256) :
    let w := (seqWrites (seqOpen recMin recMax [] area dep) false rs).2.stream.data
    let x := seqWrites (seqOpenExtend recMin recMax w area' dep') true qs
    x.1 = qs.map (fun _ => 0) ∧
    (seqRun (seqOpen recMin recMax x.2.stream.data area'' dep'') ops).1 =
      (SeqSpec.run ⟨[], rs ++ qs, false, false⟩ ops).1 := by
  obtain ⟨_, h2⟩ := seqWrites_recs rs (seqOpen recMin recMax [] area dep) false []
    (fun r h => hr r (by simp [h])) rfl
  have h2' : (seqWrites (seqOpen recMin recMax [] area dep) false rs).2.stream.data =
      rs.flatMap (seqImage recMin recMax) := by simpa [seqOpen] using h2
  simp only
  rw [h2']
  obtain ⟨h3, h4⟩ := seqWrites_recs qs
    (seqOpenExtend recMin recMax (rs.flatMap (seqImage recMin recMax)) area' dep') true
    (rs.flatMap (seqImage recMin recMax)) (fun r h => hr r (by simp [h])) rfl
  refine ⟨h3, ?_⟩
  rw [h4]
  have : rs.flatMap (seqImage recMin recMax) ++ qs.flatMap (seqImage recMin recMax) =
      (rs ++ qs).flatMap (seqImage recMin recMax) := by simp
  have hx : (seqOpenExtend recMin recMax (rs.flatMap (seqImage recMin recMax)) area' dep').recMin =
    recMin := rfl
  have hy : (seqOpenExtend recMin recMax (rs.flatMap (seqImage recMin recMax)) area' dep').recMax =
    recMax := rfl
  rw [hx, hy, this]
  exact (seqIs_run ops _ _ (seqOpen_is recMin recMax (rs ++ qs) area'' dep'' hmax hr) hop).1

/-- **C37.** A file that was changed by REWRITE and closed holds the changed records. -/
theorem C37_rewritten_file (recMin recMax : Nat) (rs : List (List Nat)) (ops ops' : List SeqOp)
    (area0 area area' : List Nat) (dep0 dep dep' : Option Nat) (hmax : 0 < recMax)
    (hr : ∀ r ∈ rs, SeqRec recMin recMax r)
    (hop : ∀ r, SeqOp.rewrite r ∈ ops ++ ops' → ∀ b ∈ r, b < 256) :
    let d := (seqWrites (seqOpen recMin recMax [] area0 dep0) false rs).2.stream.data
    let q := (seqRun (seqOpen recMin recMax d area dep) ops).2.stream.data
    let s := (SeqSpec.run ⟨[], rs, false, false⟩ ops).2
    (seqRun (seqOpen recMin recMax q area' dep') ops').1 =
      (SeqSpec.run ⟨[], s.past ++ s.todo, false, false⟩ ops').1 := by
  have hkeep : ∀ (ops : List SeqOp) (f : SeqFile),
      (seqRun f ops).2.recMin = f.recMin ∧ (seqRun f ops).2.recMax = f.recMax := by
    intro ops
    induction ops with
    | nil => intro f; exact ⟨rfl, rfl⟩
    | cons op ops ih =>
      intro f
      simp only [seqRun]
      obtain ⟨h1, h2⟩ := ih (seqStep f op).2
      rw [h1, h2]
      cases op with
      | read =>
        simp only [seqStep, seqExRead, sequentialRead]
        split
        · exact ⟨rfl, rfl⟩
        · split
          · split
            · split
              · exact ⟨rfl, rfl⟩
              · split <;> exact ⟨rfl, rfl⟩
            · split
              · split
                · split <;> exact ⟨rfl, rfl⟩
                · split <;> exact ⟨rfl, rfl⟩
              · exact ⟨rfl, rfl⟩
          · split
            · split
              · split <;> exact ⟨rfl, rfl⟩
              · split <;> exact ⟨rfl, rfl⟩
            · exact ⟨rfl, rfl⟩
      | rewrite r =>
        simp only [seqStep, seqExRewrite, sequentialRewrite]
        split
        · exact ⟨rfl, rfl⟩
        · split
          · exact ⟨rfl, rfl⟩
          · split
            · exact ⟨rfl, rfl⟩
            · split
              · exact ⟨rfl, rfl⟩
              · split <;> exact ⟨rfl, rfl⟩
  simp only
  obtain ⟨_, w2⟩ := seqWrites_recs rs (seqOpen recMin recMax [] area0 dep0) false [] hr rfl
  have w2' : (seqWrites (seqOpen recMin recMax [] area0 dep0) false rs).2.stream.data =
      rs.flatMap (seqImage recMin recMax) := by simpa [seqOpen] using w2
  rw [w2']
  have h := (seqIs_run ops _ _ (seqOpen_is recMin recMax rs area dep hmax hr)
    (fun r h => hop r (by simp [h]))).2
  obtain ⟨k1, k2⟩ := hkeep ops (seqOpen recMin recMax (rs.flatMap (seqImage recMin recMax)) area dep)
  have hd := h.data
  have hrec := h.recs
  rw [k1, k2] at hd hrec
  rw [hd]
  have hx : (seqOpen recMin recMax (rs.flatMap (seqImage recMin recMax)) area dep).recMin =
    recMin := rfl
  have hy : (seqOpen recMin recMax (rs.flatMap (seqImage recMin recMax)) area dep).recMax =
    recMax := rfl
  rw [hx, hy] at hrec ⊢
  simp only
  rw [← List.flatMap_append]
  exact (seqIs_run ops' _ _ (seqOpen_is recMin recMax _ area' dep' hmax hrec)
    (fun r h => hop r (by simp [h]))).1

/-- Non-vacuity: a file of variable records of 1 to 5 bytes. -/
example :
    (∀ r ∈ [[65, 66], [67], [68, 69, 70]], SeqRec 1 5 r) ∧
    (seqRun (seqOpen 1 5 (seqWrites (seqOpen 1 5 [] [0, 0, 0, 0, 0] (some 9)) false
        [[65, 66], [67], [68, 69, 70]]).2.stream.data [1, 2, 3, 4, 5] none)
      [.read, .rewrite [88, 89], .rewrite [88, 89], .read, .rewrite [1, 2], .read, .read, .read]).1 =
      [(0, some [65, 66]), (0, none), (43, none), (0, some [67]), (44, none),
       (0, some [68, 69, 70]), (10, none), (46, none)] := by
  refine ⟨?_, by decide⟩
  intro r hr
  simp at hr
  rcases hr with rfl | rfl | rfl <;> refine ⟨by decide, by decide, by decide, by decide, by decide⟩

/-- A WRITE of a record shorter than the minimum or longer than the maximum of the file is refused
with 44 and writes nothing. -/
theorem seqWrite_refused (f : SeqFile) (extend : Bool) (r : List Nat)
    (hr : r.length < f.recMin ∨ f.recMax < r.length) :
    (seqWrite f extend r).1 = 44 ∧
    (seqWrite f extend r).2.recMin = f.recMin ∧ (seqWrite f extend r).2.recMax = f.recMax ∧
    (seqWrite f extend r).2.stream = f.stream := by
  have hsize : (f.depending.map fun _ => r.length).getD r.length = r.length := by
    cases f.depending <;> rfl
  unfold seqWrite seqExWrite
  simp only [hsize]
  rw [if_pos hr]
  exact ⟨rfl, rfl, rfl, rfl⟩

/-- **C37.** A history of WRITEs in which some records do not fit the limits of the file: those are
refused with 44, the others succeed, and the file holds exactly the others, in their order. -/
theorem C37_write_limits (recMin recMax : Nat) (rs qs : List (List Nat)) (area area' : List Nat)
    (dep dep' : Option Nat) (ops : List SeqOp) (hmax : 0 < recMax)
    (hr : ∀ r ∈ rs, SeqRec recMin recMax r ∨ r.length < recMin ∨ recMax < r.length)
    (hq : qs = rs.filter (fun r => decide (recMin ≤ r.length) && decide (r.length ≤ recMax)))
    (hop : ∀ r, SeqOp.rewrite r ∈ ops → ∀ b ∈ r, b < 256) :
    let w := seqWrites (seqOpen recMin recMax [] area dep) false rs
    w.1 = rs.map (fun r => if r.length < recMin ∨ recMax < r.length then 44 else 0) ∧
    (seqRun (seqOpen recMin recMax w.2.stream.data area' dep') ops).1 =
      (SeqSpec.run ⟨[], qs, false, false⟩ ops).1 := by
  have key : ∀ (rs : List (List Nat)) (f : SeqFile) (a : List Nat), f.recMin = recMin → f.recMax = recMax →
      (∀ r ∈ rs, SeqRec recMin recMax r ∨ r.length < recMin ∨ recMax < r.length) →
      f.stream = ⟨a, a.length⟩ →
      (seqWrites f false rs).1 = rs.map (fun r => if r.length < recMin ∨ recMax < r.length then 44 else 0) ∧
      (seqWrites f false rs).2.stream.data = a ++
        (rs.filter (fun r => decide (recMin ≤ r.length) && decide (r.length ≤ recMax))).flatMap
          (seqImage recMin recMax) := by
    intro rs
    induction rs with
    | nil => intro f a _ _ _ hs; simp [seqWrites, hs]
    | cons r rs ih =>
      intro f a h1 h2 hr hs
      have hrs : ∀ x ∈ rs, SeqRec recMin recMax x ∨ x.length < recMin ∨ recMax < x.length :=
        fun x hx => hr x (List.mem_cons_of_mem _ hx)
      rcases hr r List.mem_cons_self with g | g
      · have hg := g
        obtain ⟨_, g1, g2, _⟩ := g
        rw [← h1, ← h2] at hg
        obtain ⟨k1, k2, k3, _, k4⟩ := seqWrite_rec f false r hg a hs
        obtain ⟨i1, i2⟩ := ih (seqWrite f false r).2 _ (by rw [k2, h1]) (by rw [k3, h2]) hrs k4
        simp only [seqWrites, List.map_cons, List.filter_cons]
        rw [if_neg (by omega), if_pos (by simp [g1, g2]), i1, i2, k1, h1, h2]
        simp
      · obtain ⟨k1, k2, k3, k4⟩ := seqWrite_refused f false r (by rw [h1, h2]; exact g)
        obtain ⟨i1, i2⟩ := ih (seqWrite f false r).2 a (by rw [k2, h1]) (by rw [k3, h2]) hrs
          (by rw [k4, hs])
        simp only [seqWrites, List.map_cons, List.filter_cons]
        rw [if_pos g, if_neg (by simp; omega), i1, i2, k1]
        simp
  subst hq
  obtain ⟨h1, h2⟩ := key rs (seqOpen recMin recMax [] area dep) [] rfl rfl hr rfl
  refine ⟨h1, ?_⟩
  rw [h2, List.nil_append]
  refine (seqIs_run ops _ _ (seqOpen_is recMin recMax _ area' dep' hmax ?_) hop).1
  intro r hx
  obtain ⟨m, hx⟩ := List.mem_filter.1 hx
  simp only [Bool.and_eq_true, decide_eq_true_eq] at hx
  rcases hr r m with g | g
  · exact g
  · omega

/-- Non-vacuity of `C37_write_limits`: records of 2 to 3 bytes; one too short, one too long. -/
example :
    (∀ r ∈ [[65, 66], [67], [68, 69, 70, 71], [68, 69, 70]], SeqRec 2 3 r ∨ r.length < 2 ∨ 3 < r.length) ∧
    (seqWrites (seqOpen 2 3 [] [0, 0, 0] none) false [[65, 66], [67], [68, 69, 70, 71], [68, 69, 70]]).1 =
      [0, 44, 44, 0] := by
  refine ⟨?_, by decide⟩
  intro r hr
  simp at hr
  rcases hr with rfl | rfl | rfl | rfl
  · left; refine ⟨by decide, by decide, by decide, by decide, by decide⟩
  · right; left; decide
  · right; right; decide
  · left; refine ⟨by decide, by decide, by decide, by decide, by decide⟩

/-- Finding: the length field of a variable record has 16 bits.  A record of 65536 bytes is written
completely, but its length field says 0: reading it back gives an empty record with status 00 and
the next READ takes the bytes of the record for a length field. -/
theorem C37_finding_long_record (recMax : Nat) (h : 65536 ≤ recMax) (area : List Nat) :
    let w := seqWrites (seqOpen 1 recMax [] area none) false [List.replicate 65536 65]
    w.1 = [0] ∧
    (seqRun (seqOpen 1 recMax w.2.stream.data area none) [.read]).1 = [(0, some [])] := by
  have hlen : (List.replicate 65536 65).length = 65536 := List.length_replicate
  generalize hr : List.replicate 65536 65 = r at *
  have hv : ¬ (1 : Nat) = recMax := by omega
  simp only [seqWrites, seqWrite, seqExWrite, seqOpen, Option.map_none, hlen]
  rw [if_neg (by simp only [Option.getD_none]; omega)]
  unfold sequentialWrite
  simp only [Option.getD_none, hv, ne_eq, not_false_eq_true, if_true, Bool.false_eq_true, if_false]
  rw [if_neg (by omega)]
  simp only
  have h1 : Stream.fwrite ⟨[], 0⟩ (seqHeader 65536) = ⟨seqHeader 65536, 4⟩ := by decide
  have h2 := Stream.fwrite_end (seqHeader 65536) r
  rw [seqHeader_length] at h2
  have h3 : (overlay r area).take 65536 = r := by rw [← hlen]; exact overlay_take r area
  rw [h1, h3, h2]
  simp only [true_and, seqRun, seqStep, seqExRead, Bool.false_eq_true, if_false, sequentialRead,
    hv, ne_eq, not_false_eq_true, if_true]
  have h4 : Stream.fread ⟨seqHeader 65536 ++ r, 0⟩ 4 = (seqHeader 65536, ⟨seqHeader 65536 ++ r, 4⟩) := by
    simp [Stream.fread, seqHeader]
  rw [h4]
  have h5 : (seqHeader 65536).getD 0 0 * 256 + (seqHeader 65536).getD 1 0 = 0 := by decide
  simp only [seqHeader_length, not_true_eq_false, if_false, h5]
  have h6 : ∀ s : Stream, s.fread 0 = ([], s) := by intro s; simp [Stream.fread]
  rw [h6]
  simp [seqRun]

/-- Finding: the length field in a file is not checked against the record: a file with the length
field 6 read with records of at most 5 bytes puts 6 bytes into the record area. -/
theorem C37_finding_read_overflow :
    (seqExRead (seqOpen 1 5 [0, 6, 0, 0, 1, 2, 3, 4, 5, 6] [9, 9, 9, 9, 9] none)).1 = 0 ∧
    (seqExRead (seqOpen 1 5 [0, 6, 0, 0, 1, 2, 3, 4, 5, 6] [9, 9, 9, 9, 9] none)).2.area.length = 6 := by
  decide

/-- Finding: WRITE of a record of length 0 (allowed when the record minimum is 0) gives 30 after the
length field has already been written; a READ then gives an empty record. -/
theorem C37_finding_empty_record :
    (seqWrites (seqOpen 0 5 [] [0, 0, 0, 0, 0] (some 0)) false [[]]).1 = [30] ∧
    (seqRun (seqOpen 0 5 (seqWrites (seqOpen 0 5 [] [0, 0, 0, 0, 0] (some 0)) false
      [[]]).2.stream.data [0, 0, 0, 0, 0] (some 0)) [.read]).1 = [(0, some [])] := by decide

end Cob
