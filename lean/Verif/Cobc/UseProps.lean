import Verif.Cobc.UseSpec
import Mathlib.Data.List.Basic
import Mathlib.Data.List.Induction
/-
C74: exception phrases and USE procedures.  Properties.
-/
namespace Cob

theorem exc_class : ∀ s < 100, (ioExc s = 0 ↔ s < 10) ∧ (ioExc s = 0x0501 ↔ s / 10 = 1) ∧ (ioExc s = 0x0506 ↔ s / 10 = 2) ∧
    (ioExc s = 0x0502 ↔ s = 52) := by decide +kernel

/-- **C74.** After a statement with a file exactly this is executed: when the status is a successful one (0x) the MOVE of READ
INTO and then the NOT phrase; otherwise the exception phrase, if there is one and the status is of its kind; otherwise the
error procedure. -/
theorem C74_file_statement (k : IoPhrase) (h1 h2 h3 : Bool) (s : Nat) (hs : s < 100) :
    (s < 10 → stmtActs ⟨h1, h2, h3, k.code, true, true⟩ (ioExc s) =
      (if h3 then [.into] else []) ++ (if h2 then [.notPhrase] else [])) ∧
    (10 ≤ s → h1 = true → k.Fits s → stmtActs ⟨h1, h2, h3, k.code, true, true⟩ (ioExc s) = [.phrase]) ∧
    (10 ≤ s → ¬ (h1 = true ∧ k.Fits s) → stmtActs ⟨h1, h2, h3, k.code, true, true⟩ (ioExc s) = [.fileError]) := by
  obtain ⟨e0, e1, e2, e3⟩ := exc_class s hs
  have ht : phraseTest k.code (ioExc s) = true ↔ k.Fits s := by
    cases k
    · unfold phraseTest
      rw [if_neg (by decide)]
      simpa [IoPhrase.code, IoPhrase.Fits] using e1
    · unfold phraseTest
      rw [if_neg (by decide)]
      simpa [IoPhrase.code, IoPhrase.Fits] using e2
    · unfold phraseTest
      rw [if_neg (by decide)]
      simpa [IoPhrase.code, IoPhrase.Fits] using e3
  unfold stmtActs
  rw [if_pos (by simp), if_pos rfl]
  unfold ferrorActs
  refine ⟨?_, ?_, ?_⟩
  · intro h
    rw [if_neg (by rw [e0.2 h]; simp)]
  · intro h a b
    rw [if_pos (fun e => by have := e0.1 e; omega)]
    simp only [a, if_true, ht.2 b]
  · intro h a
    rw [if_pos (fun e => by have := e0.1 e; omega)]
    cases h1 with
    | false => simp
    | true =>
      have hf : phraseTest k.code (ioExc s) = false := by
        cases hh : phraseTest k.code (ioExc s) with
        | false => rfl
        | true => exact absurd ⟨rfl, ht.1 hh⟩ a
      simp [hf]

example : IoPhrase.atEnd.Fits 10 ∧ ¬ IoPhrase.atEnd.Fits 46 ∧
    stmtActs ⟨true, true, true, IoPhrase.atEnd.code, true, true⟩ (ioExc 46) = [.fileError] := by
  refine ⟨by simp [IoPhrase.Fits], by simp [IoPhrase.Fits], by decide +kernel⟩

/-- **C74.** In a statement with a file that has both phrases exactly one of them, or the error procedure, is executed. -/
theorem C74_exactly_one (k : IoPhrase) (h3 : Bool) (s : Nat) (hs : s < 100) :
    (stmtActs ⟨true, true, h3, k.code, true, true⟩ (ioExc s)).count .phrase +
    (stmtActs ⟨true, true, h3, k.code, true, true⟩ (ioExc s)).count .notPhrase +
    (stmtActs ⟨true, true, h3, k.code, true, true⟩ (ioExc s)).count .fileError = 1 := by
  obtain ⟨a, b, c⟩ := C74_file_statement k true true h3 s hs
  by_cases h : s < 10
  · rw [a h]; cases h3 <;> decide
  · by_cases hk : k.Fits s
    · rw [b (by omega) rfl hk]; decide
    · rw [c (by omega) (fun e => hk e.2)]; decide

/-- **C74.** ON SIZE ERROR and ON OVERFLOW: the phrase is executed just when the statement raised an exception of the class;
with both phrases the other one is executed in all other cases; a NOT phrase alone is executed when there was no exception;
and a statement without phrases executes nothing. -/
theorem C74_other_statement (k : ExcPhrase) (h2 io : Bool) (exc : Nat) (he : exc < 0x10000) :
    (stmtActs ⟨true, h2, false, k.class * 256, false, io⟩ exc =
      if exc / 256 = k.class then [.phrase] else if h2 then [.notPhrase] else []) ∧
    (stmtActs ⟨false, true, false, k.class * 256, false, io⟩ exc = if exc = 0 then [.notPhrase] else []) ∧
    stmtActs ⟨false, false, false, k.class * 256, false, io⟩ exc = [] := by
  have hm : exc &&& 0xff00 = exc / 256 * 256 := by
    have e : (0xff00 : Nat) = 0xff <<< 8 := by decide
    have h1 : exc &&& 0xff00 = ((exc >>> 8) &&& 0xff) <<< 8 := by
      apply Nat.eq_of_testBit_eq
      intro i
      rw [e, Nat.testBit_and, Nat.testBit_shiftLeft, Nat.testBit_shiftLeft, Nat.testBit_and, Nat.testBit_shiftRight]
      by_cases hi : 8 ≤ i
      · simp [hi, show 8 + (i - 8) = i by omega]
      · simp [hi]
    rw [h1, Nat.shiftRight_eq_div_pow, show (0xff : Nat) = 2 ^ 8 - 1 by decide, Nat.and_two_pow_sub_one_eq_mod, Nat.shiftLeft_eq]
    have : exc / 2 ^ 8 % 2 ^ 8 = exc / 256 := Nat.mod_eq_of_lt (by omega)
    rw [this]
  have ht : phraseTest (k.class * 256) exc = decide (exc / 256 = k.class) := by
    unfold phraseTest
    rw [hm]
    cases k
    · rw [if_pos (by decide)]
      simp only [ExcPhrase.class]
      by_cases h : exc / 256 = 16
      · simp [h]
      · have : ¬ exc / 256 * 256 = 4096 := by omega
        simp [h, this]
    · rw [if_pos (by decide)]
      simp only [ExcPhrase.class]
      by_cases h : exc / 256 = 10
      · simp [h]
      · have : ¬ exc / 256 * 256 = 2560 := by omega
        simp [h, this]
  refine ⟨?_, ?_, ?_⟩
  · unfold stmtActs
    simp only [true_or, if_true, Bool.false_eq_true, if_false, ht, decide_eq_true_eq]
  · unfold stmtActs
    simp
  · unfold stmtActs
    simp

example : stmtActs ⟨true, true, false, ExcPhrase.sizeError.class * 256, false, true⟩ 0x1007 = [.phrase] ∧
    stmtActs ⟨true, true, false, ExcPhrase.sizeError.class * 256, false, true⟩ 0 = [.notPhrase] := by decide +kernel

/-- **C74, finding.** An exception of another class (here EC-ARGUMENT-FUNCTION of an intrinsic function in a COMPUTE): NOT ON
SIZE ERROR is executed when the statement has ON SIZE ERROR too, and not executed when it stands alone. -/
theorem C74_finding_other_class :
    stmtActs ⟨true, true, false, 0x1000, false, true⟩ 0x0101 = [.notPhrase] ∧
    stmtActs ⟨false, true, false, 0x1000, false, true⟩ 0x0101 = [] := by decide +kernel

/-! ### USE procedures of one program -/

/-- What one USE statement adds. -/
def stmtOwn (u : UseStmt) : List (Nat × Nat) :=
  match u.target with
  | .files l => ((l.filter (fun f => !f.2)).map fun f => (f.1, u.sect)).reverse
  | .mode _ => []

def stmtLocals (prog : Nat) (u : UseStmt) : List UEntry :=
  match u.target with
  | .files l => if u.glob then [] else (l.filter (·.2)).map fun f => ⟨f.1, prog, u.sect⟩
  | .mode _ => []

def stmtGlobals (prog : Nat) (u : UseStmt) : List UEntry :=
  match u.target with
  | .files l => if u.glob then (l.filter (·.2)).map fun f => ⟨f.1, prog, u.sect⟩ else []
  | .mode _ => []

def stmtModes (u : UseStmt) : List (Nat × (Nat × Bool)) :=
  match u.target with
  | .files _ => []
  | .mode m => [(m, (u.sect, u.glob))]

/-- Additions to a list of GLOBAL entries. -/
def addAll (h : UHeap) (p : Option Nat) : List UEntry → UHeap × Option Nat
  | [] => (h, p)
  | e :: es => let r := uAdd h p e; addAll r.1 r.2 es

theorem addAll_append (es fs : List UEntry) : ∀ (h : UHeap) (p : Option Nat),
    addAll h p (es ++ fs) = addAll (addAll h p es).1 (addAll h p es).2 fs := by
  induction es with
  | nil => intro h p; rfl
  | cons e es ih => intro h p; simp only [List.cons_append, addAll]; exact ih _ _

theorem useFiles_eq (prog : Nat) (u : UseStmt) : ∀ (l : List (Nat × Bool)) (h : UHeap) (st : UseSt),
    l.foldl (useFile prog u) (h, st) =
      ((addAll h st.gptr (if u.glob then (l.filter (·.2)).map fun f => ⟨f.1, prog, u.sect⟩ else [])).1,
       { st with
         own := ((l.filter (fun f => !f.2)).map fun f => (f.1, u.sect)).reverse ++ st.own,
         locals := st.locals ++ (if u.glob then [] else (l.filter (·.2)).map fun f => ⟨f.1, prog, u.sect⟩),
         gptr := (addAll h st.gptr (if u.glob then (l.filter (·.2)).map fun f => ⟨f.1, prog, u.sect⟩ else [])).2 }) := by
  intro l
  induction l with
  | nil => intro h st; simp [addAll]
  | cons f l ih =>
    intro h st
    rw [List.foldl_cons]
    obtain ⟨n, g⟩ := f
    cases g with
    | false =>
      rw [show useFile prog u (h, st) (n, false) = (h, { st with own := (n, u.sect) :: st.own }) from rfl, ih]
      simp
    | true =>
      cases hg : u.glob with
      | false =>
        rw [show useFile prog u (h, st) (n, true) = (h, { st with locals := st.locals ++ [⟨n, prog, u.sect⟩] }) by
          simp [useFile, hg], ih]
        simp [hg, addAll]
      | true =>
        rw [show useFile prog u (h, st) (n, true) = ((uAdd h st.gptr ⟨n, prog, u.sect⟩).1,
            { st with gptr := (uAdd h st.gptr ⟨n, prog, u.sect⟩).2 }) by simp [useFile, hg], ih]
        simp [hg, addAll]

theorem useStmt_eq (prog : Nat) (h : UHeap) (st : UseSt) (u : UseStmt) :
    useStmt prog (h, st) u =
      ((addAll h st.gptr (stmtGlobals prog u)).1,
       { st with
         own := stmtOwn u ++ st.own, locals := st.locals ++ stmtLocals prog u,
         gptr := (addAll h st.gptr (stmtGlobals prog u)).2, modes := stmtModes u ++ st.modes }) := by
  unfold useStmt stmtGlobals stmtOwn stmtLocals stmtModes
  cases u.target with
  | files l => dsimp only; rw [useFiles_eq]; simp
  | mode m => simp [addAll]

theorem useStmts_eq (prog : Nat) : ∀ (us : List UseStmt) (h : UHeap) (st : UseSt),
    us.foldl (useStmt prog) (h, st) =
      ((addAll h st.gptr (us.flatMap (stmtGlobals prog))).1,
       { st with
         own := us.reverse.flatMap stmtOwn ++ st.own, locals := st.locals ++ us.flatMap (stmtLocals prog),
         gptr := (addAll h st.gptr (us.flatMap (stmtGlobals prog))).2, modes := us.reverse.flatMap stmtModes ++ st.modes }) := by
  intro us
  induction us with
  | nil => intro h st; simp [addAll]
  | cons u us ih =>
    intro h st
    rw [List.foldl_cons, useStmt_eq, ih]
    simp [addAll_append]

/-- The state of a program. -/
theorem useProg_eq (prog : Nat) (h : UHeap) (prev : Option Nat) (p : UseProg) :
    useProg prog h prev p =
      ((addAll h (if p.level = 0 then none else prev) (p.uses.flatMap (stmtGlobals prog))).1,
       { level := p.level, own := p.uses.reverse.flatMap stmtOwn, locals := p.uses.flatMap (stmtLocals prog),
         gptr := (addAll h (if p.level = 0 then none else prev) (p.uses.flatMap (stmtGlobals prog))).2,
         modes := p.uses.reverse.flatMap stmtModes }) := by
  unfold useProg
  rw [useStmts_eq]
  simp

/-- The part of a program's state that does not depend on the other programs. -/
def plainSt (prog : Nat) (p : UseProg) (g : Option Nat) : UseSt :=
  { level := p.level, own := p.uses.reverse.flatMap stmtOwn, locals := p.uses.flatMap (stmtLocals prog),
    gptr := g, modes := p.uses.reverse.flatMap stmtModes }

theorem useBuild_get : ∀ (ps : List UseProg) (i : Nat) (h : UHeap) (prev : Option Nat) (q : Nat) (p : UseProg),
    ps[q]? = some p → ∃ g, (useBuild i h prev ps).2[q]? = some (plainSt (i + q) p g) := by
  intro ps
  induction ps with
  | nil => intro i h prev q p hp; simp at hp
  | cons p0 ps ih =>
    intro i h prev q p hp
    rw [useBuild]
    dsimp only
    cases q with
    | zero =>
      simp only [List.getElem?_cons_zero, Option.some.injEq] at hp
      subst hp
      rw [useProg_eq]
      exact ⟨_, rfl⟩
    | succ q =>
      simp only [List.getElem?_cons_succ] at hp ⊢
      obtain ⟨g, hg⟩ := ih (i + 1) (useProg i h prev p0).1 (useProg i h prev p0).2.gptr q p hp
      exact ⟨g, by rw [hg]; congr 2; omega⟩

theorem useBuild_length : ∀ (ps : List UseProg) (i : Nat) (h : UHeap) (prev : Option Nat),
    (useBuild i h prev ps).2.length = ps.length := by
  intro ps
  induction ps with
  | nil => intro i h prev; rfl
  | cons p ps ih => intro i h prev; simp [useBuild, ih]

theorem useReverse_get : ∀ (sts : List UseSt) (h : UHeap) (q : Nat) (st : UseSt), sts[q]? = some st →
    ∃ g, (useReverse h sts).2[q]? = some { st with gptr := g } := by
  intro sts
  induction sts with
  | nil => intro h q st hq; simp at hq
  | cons s0 sts ih =>
    intro h q st hq
    rw [useReverse]
    dsimp only
    cases q with
    | zero =>
      simp only [List.getElem?_cons_zero, Option.some.injEq] at hq ⊢
      subst hq
      exact ⟨_, rfl⟩
    | succ q =>
      simp only [List.getElem?_cons_succ] at hq ⊢
      exact ih h q st hq

theorem useReverse_length : ∀ (sts : List UseSt) (h : UHeap), (useReverse h sts).2.length = sts.length := by
  intro sts
  induction sts with
  | nil => intro h; rfl
  | cons s sts ih => intro h; simp [useReverse, ih]

theorem useAll_get (ps : List UseProg) (q : Nat) (p : UseProg) (hp : ps[q]? = some p) :
    ∃ g, (useAll ps).2[q]? = some (plainSt q p g) := by
  obtain ⟨g, hg⟩ := useBuild_get ps 0 [] none q p hp
  obtain ⟨g', hg'⟩ := useReverse_get _ (useBuild 0 [] none ps).1 q _ hg
  refine ⟨g', ?_⟩
  unfold useAll
  rw [hg', Nat.zero_add]
  rfl

theorem useAll_length (ps : List UseProg) : (useAll ps).2.length = ps.length := by
  unfold useAll
  rw [useReverse_length, useBuild_length]

/-- The first pair with a key in a list made of the pieces of the statements, the last statement first. -/
theorem lookup_pieces {β : Type} (f : UseStmt → List (Nat × β)) (k : Nat) : ∀ (us : List UseStmt),
    (us.reverse.flatMap f).lookup k = none ∧ (∀ u ∈ us, (f u).lookup k = none) ∨
    ∃ u, LastSuch us (fun u => (f u).lookup k ≠ none) u ∧ (us.reverse.flatMap f).lookup k = (f u).lookup k := by
  intro us
  induction us using List.reverseRecOn with
  | nil => left; simp
  | append_singleton us u ih =>
    have e : ((us ++ [u]).reverse.flatMap f) = f u ++ us.reverse.flatMap f := by simp
    rw [e]
    have hl : ∀ (a b : List (Nat × β)), (a ++ b).lookup k = (a.lookup k).or (b.lookup k) := by
      intro a b
      induction a with
      | nil => simp
      | cons x a iha =>
        obtain ⟨x1, x2⟩ := x
        rw [List.cons_append, List.lookup_cons, List.lookup_cons]
        cases hkx : k == x1 with
        | true => simp
        | false => simp [iha]
    rw [hl]
    cases hu : (f u).lookup k with
    | some v =>
      right
      refine ⟨u, ⟨us, [], by simp, by show _ ≠ _; rw [hu]; simp, by simp⟩, by rw [hu]; rfl⟩
    | none =>
      rcases ih with ⟨a, b⟩ | ⟨v, ⟨a, b, h1, h2, h3⟩, h4⟩
      · left
        refine ⟨by rw [a]; rfl, fun w hw => ?_⟩
        rcases List.mem_append.mp hw with h | h
        · exact b w h
        · simp at h; subst h; exact hu
      · right
        refine ⟨v, ⟨a, b ++ [u], by simp [h1], h2, fun y hy => ?_⟩, by rw [h4]; rfl⟩
        rcases List.mem_append.mp hy with h | h
        · exact h3 y h
        · simp at h; subst h; simp [hu]

theorem lookup_const (l : List (Nat × Bool)) (b : Bool) (s n : Nat) :
    (((l.filter (fun f => f.2 == b)).map fun f => (f.1, s)).reverse.lookup n) = if (n, b) ∈ l then some s else none := by
  have key : ∀ (m : List (Nat × Nat)), (∀ p ∈ m, p.2 = s) → m.lookup n = if (n, s) ∈ m then some s else none := by
    intro m
    induction m with
    | nil => intro _; simp
    | cons p m ih =>
      intro h
      obtain ⟨a, c⟩ := p
      have hc : c = s := h (a, c) (by simp)
      subst hc
      rw [List.lookup_cons, ih (fun p hp => h p (by simp [hp]))]
      by_cases hn : n = a
      · subst hn; simp
      · have : (n == a) = false := by simp [hn]
        simp only [this]
        simp [hn]
  rw [key _ (by
    intro p hp
    rw [List.mem_reverse, List.mem_map] at hp
    obtain ⟨f, _, rfl⟩ := hp
    rfl)]
  have : ((n, s) ∈ ((l.filter (fun f => f.2 == b)).map fun f => (f.1, s)).reverse) ↔ (n, b) ∈ l := by
    rw [List.mem_reverse, List.mem_map]
    constructor
    · rintro ⟨f, hf, e⟩
      rw [List.mem_filter] at hf
      obtain ⟨f1, f2⟩ := f
      simp only [Prod.mk.injEq, and_true] at e
      have h2 : f2 = b := by simpa using hf.2
      subst e; subst h2
      exact hf.1
    · intro h
      exact ⟨(n, b), List.mem_filter.mpr ⟨h, by simp⟩, rfl⟩
  simp only [this]

theorem stmtOwn_lookup (u : UseStmt) (n : Nat) :
    ((stmtOwn u).lookup n = some u.sect ∧ u.NamesFile n false) ∨ ((stmtOwn u).lookup n = none ∧ ¬ u.NamesFile n false) := by
  unfold stmtOwn UseStmt.NamesFile
  cases h : u.target with
  | mode m => right; simp
  | files l =>
    have e : (fun f : Nat × Bool => !f.2) = (fun f => f.2 == false) := by funext f; cases f.2 <;> rfl
    dsimp only
    rw [e, lookup_const]
    by_cases hm : (n, false) ∈ l
    · left; rw [if_pos hm]; exact ⟨rfl, l, rfl, hm⟩
    · right; rw [if_neg hm]
      refine ⟨rfl, ?_⟩
      rintro ⟨l', h1, h2⟩
      cases h1
      exact hm h2

theorem stmtModes_lookup (u : UseStmt) (m : Nat) :
    ((stmtModes u).lookup m = some (u.sect, u.glob) ∧ u.ForMode m) ∨ ((stmtModes u).lookup m = none ∧ ¬ u.ForMode m) := by
  unfold stmtModes UseStmt.ForMode
  cases h : u.target with
  | files l => right; simp
  | mode k =>
    by_cases hk : m = k
    · subst hk; left; simp
    · right
      have : (m == k) = false := by simp [hk]
      simp only [List.lookup_cons, this, List.lookup_nil, true_and]
      intro e
      cases e
      exact hk rfl

/-- The handler of an own file. -/
theorem own_lookup (us : List UseStmt) (n : Nat) :
    ((us.reverse.flatMap stmtOwn).lookup n = none ∧ ∀ u ∈ us, ¬ u.NamesFile n false) ∨
    ∃ u, LastSuch us (·.NamesFile n false) u ∧ (us.reverse.flatMap stmtOwn).lookup n = some u.sect := by
  rcases lookup_pieces stmtOwn n us with ⟨a, b⟩ | ⟨u, ⟨a, b, h1, h2, h3⟩, h4⟩
  · left
    refine ⟨a, fun u hu hn => ?_⟩
    rcases stmtOwn_lookup u n with h | h
    · rw [b u hu] at h; cases h.1
    · exact h.2 hn
  · right
    refine ⟨u, ⟨a, b, h1, ?_, fun y hy hn => ?_⟩, ?_⟩
    · rcases stmtOwn_lookup u n with h | h
      · exact h.2
      · exact absurd h.1 h2
    · rcases stmtOwn_lookup y n with h | h
      · exact h3 y hy (by show _ ≠ _; rw [h.1]; simp)
      · exact h.2 hn
    · rcases stmtOwn_lookup u n with h | h
      · rw [h4, h.1]
      · exact absurd h.1 h2

theorem modes_lookup (us : List UseStmt) (m : Nat) :
    ((us.reverse.flatMap stmtModes).lookup m = none ∧ ∀ u ∈ us, ¬ u.ForMode m) ∨
    ∃ u, LastSuch us (·.ForMode m) u ∧ (us.reverse.flatMap stmtModes).lookup m = some (u.sect, u.glob) := by
  rcases lookup_pieces stmtModes m us with ⟨a, b⟩ | ⟨u, ⟨a, b, h1, h2, h3⟩, h4⟩
  · left
    refine ⟨a, fun u hu hn => ?_⟩
    rcases stmtModes_lookup u m with h | h
    · rw [b u hu] at h; cases h.1
    · exact h.2 hn
  · right
    refine ⟨u, ⟨a, b, h1, ?_, fun y hy hn => ?_⟩, ?_⟩
    · rcases stmtModes_lookup u m with h | h
      · exact h.2
      · exact absurd h.1 h2
    · rcases stmtModes_lookup y m with h | h
      · exact h3 y hy (by show _ ≠ _; rw [h.1]; simp)
      · exact h.2 hn
    · rcases stmtModes_lookup u m with h | h
      · rw [h4, h.1]
      · exact absurd h.1 h2

end Cob
