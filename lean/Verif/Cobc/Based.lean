import Mathlib.Data.List.Basic
/-
Model of the check of BASED items and of LINKAGE items that are no parameters of the PROCEDURE DIVISION (compiled with -debug or
-fec=BOUND-PTR): what the compiler puts before a statement, and what the statement then does; and its property (C35).

Simplified: a statement is the list of its references, in the order in which the parser builds them, and its body uses the storage of each.
-/
namespace Cob.Based

/-- A reference: the record (level 01 or 77) that contains the item, whether that record is BASED, in the LINKAGE SECTION, and a
parameter (USING) of the PROCEDURE DIVISION. -/
structure Ref where
  record : Nat
  based : Bool
  linkage : Bool
  param : Bool
deriving DecidableEq, Repr

/-- /repo/cobc/typeck.c:923-939 `cb_build_identifier`: what one reference makes of `null_check` of the statement. -/
def noteRef (check : Option Nat) (r : Ref) : Option Nat :=
  if r.based || (r.linkage && !r.param) then some r.record else check

/-- What the parser meets in a statement: a reference, or the end of a condition `... IS OMITTED`. -/
inductive Use where
  | ref (r : Ref)
  | omitted
deriving DecidableEq, Repr

/-- /repo/cobc/typeck.c:923-939 and 2180-2183 `cb_build_expr`: IS OMITTED takes away the check noted so far. -/
def noteUse (check : Option Nat) : Use → Option Nat
  | .ref r => noteRef check r
  | .omitted => none

/-- /repo/cobc/typeck.c:923-939: `null_check` of a statement after all of it. -/
def nullCheck (uses : List Use) : Option Nat := uses.foldl noteUse none

/-- What a statement comes to: it is executed, it is not and the run unit stops with the message about this record, or its body uses
storage at the address NULL. -/
inductive Outcome where
  | done
  | stopped (record : Nat)
  | wild (record : Nat)
deriving DecidableEq, Repr

/-- The body of the statement, given which records have the address NULL.  (The subject of IS OMITTED itself is only asked for its address:
/repo/libcob/common.c:1411-1415 `cob_is_omitted`; it is left out of the references here.) -/
def body (null : Nat → Bool) : List Use → Outcome
  | [] => .done
  | .ref r :: rest => if null r.record then .wild r.record else body null rest
  | .omitted :: rest => body null rest

/-- /repo/cobc/codegen.c:3275-3281 `output_stmt`: the check, then the body; /repo/libcob/common.c:1552-1562 `cob_check_based`: the message and
STOP RUN if the address is NULL. -/
def statement (null : Nat → Bool) (uses : List Use) : Outcome :=
  match nullCheck uses with
  | some i => if null i then .stopped i else body null uses
  | none => body null uses

/-! ### Specification -/

/-- An item whose address the program has to set itself. -/
def Floating (r : Ref) : Prop := r.based = true ∨ (r.linkage = true ∧ r.param = false)

theorem floating_iff (r : Ref) : (r.based || (r.linkage && !r.param)) = true ↔ Floating r := by
  unfold Floating
  cases r.based <;> cases r.linkage <;> cases r.param <;> simp

theorem fold_last (refs : List Ref) (c : Option Nat) :
    (∃ pre r post, refs = pre ++ r :: post ∧ Floating r ∧ (∀ q ∈ post, ¬ Floating q) ∧ refs.foldl noteRef c = some r.record) ∨
    ((∀ q ∈ refs, ¬ Floating q) ∧ refs.foldl noteRef c = c) := by
  induction refs generalizing c with
  | nil => exact Or.inr ⟨by simp, rfl⟩
  | cons a l ih =>
    rcases ih (noteRef c a) with ⟨pre, r, post, h1, h2, h3, h4⟩ | ⟨h1, h2⟩
    · exact Or.inl ⟨a :: pre, r, post, by rw [h1]; rfl, h2, h3, h4⟩
    · by_cases ha : Floating a
      · refine Or.inl ⟨[], a, l, rfl, ha, h1, ?_⟩
        rw [List.foldl_cons, h2]
        exact if_pos ((floating_iff a).2 ha)
      · refine Or.inr ⟨?_, ?_⟩
        · intro q hq
          rcases List.mem_cons.1 hq with rfl | g
          · exact ha
          · exact h1 q g
        · rw [List.foldl_cons, h2]
          exact if_neg fun g => ha ((floating_iff a).1 g)

theorem fold_refs (refs : List Ref) (c : Option Nat) : (refs.map Use.ref).foldl noteUse c = refs.foldl noteRef c := by
  induction refs generalizing c with
  | nil => rfl
  | cons a l ih => exact ih _

theorem body_done (null : Nat → Bool) (refs : List Ref) : body null (refs.map .ref) = .done ↔ ∀ r ∈ refs, null r.record = false := by
  induction refs with
  | nil => simp [body]
  | cons a l ih =>
    rw [List.map_cons]
    unfold body
    by_cases h : null a.record
    · rw [if_pos h]; simp [h]
    · rw [if_neg h, ih]; simp [h]

/-! ### Properties -/

/-- C35: a statement in which at most one record is used whose address the program has to set, and otherwise records that are there, is
executed just when that address is not NULL; if it is NULL the run unit stops with the message about that record before anything of the
statement is done. -/
theorem C35_based_one (null : Nat → Bool) (refs : List Ref) (i : Nat) (hone : ∀ r ∈ refs, Floating r → r.record = i)
    (hrest : ∀ r ∈ refs, ¬ Floating r → null r.record = false) (huse : ∃ r ∈ refs, Floating r) :
    (null i = false → statement null (refs.map .ref) = .done) ∧ (null i = true → statement null (refs.map .ref) = .stopped i) := by
  obtain ⟨x, hx, hfx⟩ := huse
  rcases fold_last refs none with ⟨pre, r, post, h1, h2, _, h4⟩ | ⟨h1, _⟩
  · have hr : r.record = i := hone r (by rw [h1]; simp) h2
    have e : nullCheck (refs.map .ref) = some i := by unfold nullCheck; rw [fold_refs, h4, hr]
    unfold statement
    rw [e]
    refine ⟨fun hn => ?_, fun hn => ?_⟩
    · simp only [hn, Bool.false_eq_true, if_false]
      rw [body_done]
      intro q hq
      by_cases hf : Floating q
      · rw [hone q hq hf]; exact hn
      · exact hrest q hq hf
    · simp only [hn, if_true]
  · exact absurd hfx (h1 x hx)

/-- C35: in general the check is about the record of the last such reference of the statement, and about no other: the run unit stops
with a message exactly when the address of that record is NULL. -/
theorem C35_based_last (null : Nat → Bool) (refs : List Ref) (i : Nat) :
    statement null (refs.map .ref) = .stopped i ↔
      ∃ pre r post, refs = pre ++ r :: post ∧ Floating r ∧ (∀ q ∈ post, ¬ Floating q) ∧ r.record = i ∧ null i = true := by
  have hb : ∀ l : List Use, body null l ≠ .stopped i := by
    intro l
    induction l with
    | nil => simp [body]
    | cons a l ih => cases a <;> (unfold body; first | exact ih | (split <;> simp_all))
  rcases fold_last refs none with ⟨pre, r, post, h1, h2, h3, h4⟩ | ⟨h1, h2⟩
  · have e : nullCheck (refs.map .ref) = some r.record := (fold_refs refs none).trans h4
    have huniq : ∀ pre' r' post', refs = pre' ++ r' :: post' → Floating r' → (∀ q ∈ post', ¬ Floating q) → r'.record = r.record := by
      intro pre' r' post' g1 g2 g3
      have e' : refs.foldl noteRef none = some r'.record := by
        have hpost : ∀ (l : List Ref) (c : Option Nat), (∀ q ∈ l, ¬ Floating q) → l.foldl noteRef c = c := by
          intro l
          induction l with
          | nil => intros; rfl
          | cons a l ih =>
            intro c h
            rw [List.foldl_cons, ih _ fun q hq => h q (List.mem_cons_of_mem _ hq)]
            exact if_neg fun g => h a List.mem_cons_self ((floating_iff a).1 g)
        rw [g1, List.foldl_append, List.foldl_cons, hpost _ _ g3]
        exact if_pos ((floating_iff r').2 g2)
      rw [h4] at e'
      exact (Option.some.inj e').symm
    unfold statement
    rw [e]
    constructor
    · intro h
      by_cases hn : null r.record
      · simp only [hn, if_true, Outcome.stopped.injEq] at h
        exact ⟨pre, r, post, h1, h2, h3, h, h ▸ hn⟩
      · simp only [hn] at h
        exact absurd h (hb _)
    · rintro ⟨pre', r', post', g1, g2, g3, rfl, g5⟩
      rw [huniq pre' r' post' g1 g2 g3] at g5 ⊢
      simp only [g5, if_true]
  · have e : nullCheck (refs.map .ref) = none := (fold_refs refs none).trans h2
    unfold statement
    rw [e]
    constructor
    · intro h; exact absurd h (hb _)
    · rintro ⟨pre, r, post, g1, g2, _⟩
      exact absurd g2 (h1 r (by rw [g1]; simp))

/-- Finding: of two BASED items in a statement only the last one is checked: `MOVE A TO B`, where A has the address NULL and B has
not, goes on and reads at the address NULL. -/
theorem C35_finding_based_two :
    statement (fun i => i == 0) [.ref ⟨0, true, false, false⟩, .ref ⟨1, true, false, false⟩] = .wild 0 ∧
    statement (fun i => i == 1) [.ref ⟨0, true, false, false⟩, .ref ⟨1, true, false, false⟩] = .stopped 1 := by decide +kernel

/-- Finding: a condition IS OMITTED takes away the check of the other items of its statement: `IF A = 1 AND P IS OMITTED` with the BASED item A at
the address NULL. -/
theorem C35_finding_based_omitted : statement (fun i => i == 0) [.ref ⟨0, true, false, false⟩, .omitted] = .wild 0 := by decide +kernel

/-- Finding: a parameter that is OMITTED has the address NULL and is not checked. -/
theorem C35_finding_omitted : statement (fun i => i == 0) [.ref ⟨0, false, true, true⟩] = .wild 0 := by decide +kernel

/-- `MOVE W TO B` with W in WORKING-STORAGE. -/
example : statement (fun i => i == 1) [.ref ⟨0, false, false, false⟩, .ref ⟨1, true, false, false⟩] = .stopped 1 ∧
    statement (fun _ => false) [.ref ⟨0, false, false, false⟩, .ref ⟨1, true, false, false⟩] = .done ∧
    Floating ⟨1, true, false, false⟩ ∧ ¬ Floating ⟨0, false, false, false⟩ := ⟨by decide +kernel, by decide +kernel, Or.inl rfl, by simp [Floating]⟩

end Cob.Based
