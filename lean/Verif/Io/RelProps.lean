import Verif.Io.Rel
import Verif.Num.BinaryProps
/-
C39: a RELATIVE file is a map from record numbers to records.
-/
namespace Cob

/-! ### Specification -/

/-- The statements on a relative file; `setKey` is a MOVE to the RELATIVE KEY item. -/
inductive RelOp where
  | setKey (n : Nat)
  | write (r : List Nat)
  | read
  | readNext
  | rewrite (r : List Nat)
  | delete
  | start (c : StartCond)
deriving DecidableEq, Repr

/-- The file as the programmer sees it: the map from record numbers to records, the highest number
ever written, the RELATIVE KEY item, the number where READ NEXT goes on (`none`: undefined, after an
unsuccessful START), whether READ NEXT is the first READ since OPEN or START, whether the end was
reached, whether the last statement was a successful READ.  `key` is `none` when the item's value
is not specified. -/
structure RelSpec where
  seqAccess : Bool
  recs : Nat → Option (List Nat)
  extent : Nat
  key : Option Nat
  cursor : Option Nat
  first : Bool
  ended : Bool
  readOk : Bool

/-- What is seen of a statement: the status, the record for a successful READ, the RELATIVE KEY item
afterwards (`none`: not specified). -/
structure RelObs where
  status : Nat
  record : Option (List Nat)
  key : Option Nat
deriving DecidableEq, Repr

/-- The map with one entry changed. -/
def setRec (m : Nat → Option (List Nat)) (k : Nat) (v : Option (List Nat)) : Nat → Option (List Nat) :=
  fun j => if j = k then v else m j

/-- The lowest number from `c` on that has a record. -/
def firstFrom (m : Nat → Option (List Nat)) (extent c : Nat) : Option Nat :=
  (List.range' c (extent + 1 - c)).find? fun k => (m k).isSome

/-- The highest number up to `c` that has a record. -/
def lastUpTo (m : Nat → Option (List Nat)) (c : Nat) : Option Nat :=
  (List.range' 1 c).reverse.find? fun k => (m k).isSome

/-- The record START finds.  (Two deviations from the standard are part of this description: START
LESS finds nothing if the number to start from is above every number ever written, and START NOT LESS
finds nothing for the number 0.) -/
def RelSpec.startTarget (s : RelSpec) (k : Nat) : StartCond → Option Nat
  | .eq => if (s.recs k).isSome then some k else none
  | .ge => if k = 0 then none else firstFrom s.recs s.extent k
  | .gt => firstFrom s.recs s.extent (k + 1)
  | .le => if k ≤ s.extent then lastUpTo s.recs k else none
  | .lt => if k ≤ s.extent + 1 then lastUpTo s.recs (k - 1) else none

/-- One statement: status, record read, new state.  (Deviation from the standard: REWRITE and DELETE
of a number that has no record but is not above every number ever written answer 00.) -/
def RelSpec.step (s : RelSpec) : RelOp → Nat × Option (List Nat) × RelSpec
  | .setKey n => (0, none, { s with key := some n })
  | .write r =>
    let s := { s with readOk := false }
    if s.seqAccess then
      let k := s.extent + 1
      (0, none, { s with recs := setRec s.recs k (some r), extent := k, key := some k,
                         cursor := some (k + 1) })
    else
      let k := s.key.getD 0
      if k = 0 then (21, none, s)
      else if (s.recs k).isSome then (22, none, { s with cursor := some k })
      else (0, none, { s with recs := setRec s.recs k (some r), extent := max s.extent k,
                              cursor := some (k + 1) })
  | .read =>
    let s := { s with readOk := false }
    let k := s.key.getD 0
    if k = 0 then (23, none, s)
    else
      match s.recs k with
      | none => (23, none, { s with cursor := some k })
      | some r => (0, some r, { s with cursor := some (k + 1), first := false, ended := false,
                                       readOk := true })
  | .readNext =>
    let s := { s with readOk := false }
    if s.ended then (46, none, s)
    else
      let c := s.cursor.getD 0
      match firstFrom s.recs s.extent c with
      | none => (10, none, { s with cursor := some (max c (s.extent + 1)), ended := true, key := none,
                                    first := s.first && decide (s.extent < c) })
      | some k => (0, s.recs k, { s with cursor := some (k + 1), first := false, readOk := true,
                                         key := if s.first ∧ c ≠ 1 then none else some k })
  | .rewrite r =>
    if s.seqAccess && !s.readOk then (43, none, s)
    else
      let readOk := s.readOk
      let s := { s with readOk := false }
      let k := if s.seqAccess && readOk then s.cursor.getD 0 - 1 else s.key.getD 0
      if k = 0 then (23, none, s)
      else if s.extent < k then (23, none, { s with cursor := some k })
      else if (s.recs k).isSome then
        (0, none, { s with recs := setRec s.recs k (some r), cursor := some (k + 1) })
      else (0, none, { s with cursor := some (k + 1) })
  | .delete =>
    if s.seqAccess && !s.readOk then (43, none, s)
    else
      let s := { s with readOk := false }
      let k := s.key.getD 0
      if k = 0 then (23, none, s)
      else if s.extent < k then (23, none, { s with cursor := some k })
      else (0, none, { s with recs := setRec s.recs k none, cursor := some (k + 1) })
  | .start c =>
    let s := { s with readOk := false, first := false }
    match s.startTarget (s.key.getD 0) c with
    | none => (23, none, { s with cursor := none })
    | some k => (0, none, { s with cursor := some k, key := some k, first := true, ended := false })

/-- The statements considered: records of a length within the limits and not empty; sequential access
writes only to a file that is being created; no READ NEXT after an unsuccessful START; statements
that use RELATIVE KEY have it set; REWRITE does not change the length; a sequential DELETE finds in
RELATIVE KEY the number the READ put there. -/
def RelSpec.legal (recMin recMax : Nat) (s : RelSpec) : RelOp → Prop
  | .setKey _ => True
  | .write r => recMin ≤ r.length ∧ 1 ≤ r.length ∧ r.length ≤ recMax ∧
      if s.seqAccess then s.cursor = some (s.extent + 1) else s.key ≠ none
  | .read => s.seqAccess = false ∧ s.key ≠ none
  | .readNext => s.ended = false → s.cursor ≠ none
  | .rewrite r => r.length ≤ recMax ∧
      if s.seqAccess then ∀ c old, s.readOk = true → s.cursor = some (c + 1) → s.recs c = some old →
        r.length = old.length
      else ∃ k, s.key = some k ∧ ∀ old, s.recs k = some old → r.length = old.length
  | .delete =>
      if s.seqAccess then ∀ c, s.readOk = true → s.cursor = some (c + 1) → s.key = some c
      else s.key ≠ none
  | .start _ => s.key ≠ none

/-- A legal history. -/
def RelSpec.Legal (recMin recMax : Nat) : RelSpec → List RelOp → Prop
  | _, [] => True
  | s, op :: ops => s.legal recMin recMax op ∧ RelSpec.Legal recMin recMax (s.step op).2.2 ops

/-- The observations of a history. -/
def RelSpec.run : RelSpec → List RelOp → List RelObs
  | _, [] => []
  | s, op :: ops =>
    let r := s.step op
    ⟨r.1, r.2.1, r.2.2.key⟩ :: RelSpec.run r.2.2 ops

/-- A new file. -/
def RelSpec.new (seqAccess : Bool) : RelSpec :=
  ⟨seqAccess, fun _ => none, 0, none, some 1, true, false, false⟩

/-- An existing file, opened again. -/
def RelSpec.reopen (s : RelSpec) (seqAccess : Bool) : RelSpec :=
  { s with seqAccess := seqAccess, key := none, cursor := some 1, first := true, ended := false,
           readOk := false }

/-! ### The program -/

/-- One statement: the program fills the record area and executes the statement. -/
def relStep (f : RelFile) : RelOp → Nat × RelFile
  | .setKey n => (0, { f with key := n })
  | .write r => relExWrite f (overlay r f.area) r.length
  | .read => relExRead f true
  | .readNext => relExRead f false
  | .rewrite r => relExRewrite f (overlay r f.area)
  | .delete => relExDelete f
  | .start c => relExStart f c

/-- Whether the statement reads a record. -/
def RelOp.isRead : RelOp → Bool
  | .read => true
  | .readNext => true
  | _ => false

/-- The observations of a history. -/
def relRun (f : RelFile) : List RelOp → List (Nat × Option (List Nat) × Nat)
  | [] => []
  | op :: ops =>
    let r := relStep f op
    (r.1, if op.isRead ∧ r.1 = 0 then some (r.2.area.take r.2.size) else none, r.2.key) ::
      relRun r.2 ops

/-- The connector after a history. -/
def relAfter (f : RelFile) : List RelOp → RelFile
  | [] => f
  | op :: ops => relAfter (relStep f op).2 ops

/-- What the program shows is what is specified. -/
def Follows : List (Nat × Option (List Nat) × Nat) → List RelObs → Prop
  | [], [] => True
  | (st, r, k) :: as, b :: bs =>
    st = b.status ∧ r = b.record ∧ (∀ j, b.key = some j → k = j) ∧ Follows as bs
  | _, _ => False

/-- The connector after OPEN of a file with the given contents. -/
def relOpen (seqAccess : Bool) (recMin recMax : Nat) (data area : List Nat) (key : Nat) : RelFile :=
  ⟨seqAccess, recMin, recMax, ⟨data, 0⟩, recMax, area, key, false, false, true⟩

/-! ### Slots -/

/-- A slot on file. -/
def slotImg (p : Nat × List Nat) : List Nat := leBytes 8 p.1 ++ p.2

/-- The whole file. -/
def flat (L : List (Nat × List Nat)) : List Nat := L.flatMap slotImg

/-- The record in a slot. -/
def slotRec (p : Nat × List Nat) : Option (List Nat) := if p.1 = 0 then none else some (p.2.take p.1)

/-- The records by number. -/
def recsOf (L : List (Nat × List Nat)) (k : Nat) : Option (List Nat) :=
  if k = 0 then none else (L[k - 1]?).bind slotRec

/-- Slots of the right shape. -/
def SlotsOk (m : Nat) (L : List (Nat × List Nat)) : Prop :=
  ∀ p ∈ L, p.2.length = m ∧ p.1 ≤ m

theorem slotImg_length (p : Nat × List Nat) (m : Nat) (h : p.2.length = m) :
    (slotImg p).length = m + 8 := by
  rw [slotImg, List.length_append, leBytes_length, h]; omega

theorem flat_length (m : Nat) (L : List (Nat × List Nat)) (h : SlotsOk m L) :
    (flat L).length = L.length * (m + 8) := by
  induction L with
  | nil => simp [flat]
  | cons p L ih =>
    have := ih (fun q hq => h q (by simp [hq]))
    rw [flat, List.flatMap_cons, List.length_append, slotImg_length p m (h p (by simp)).1,
      List.length_cons, Nat.succ_mul]
    unfold flat at this
    omega

theorem flat_append (A B : List (Nat × List Nat)) : flat (A ++ B) = flat A ++ flat B := by
  simp [flat]

theorem flat_cons (p : Nat × List Nat) (B : List (Nat × List Nat)) : flat (p :: B) = slotImg p ++ flat B := by
  simp [flat]

/-- Splitting the file at a slot. -/
theorem slots_split (m : Nat) (L : List (Nat × List Nat)) (k : Nat) (hk : k < L.length)
    (h : SlotsOk m L) :
    ∃ A p C, L = A ++ p :: C ∧ A.length = k ∧ L[k]? = some p ∧ p.2.length = m ∧ p.1 ≤ m ∧
      (flat A).length = k * (m + 8) := by
  refine ⟨L.take k, L[k], L.drop (k + 1), ?_, ?_, List.getElem?_eq_getElem hk,
    (h _ (List.getElem_mem hk)).1, (h _ (List.getElem_mem hk)).2, ?_⟩
  · rw [List.getElem_cons_drop, List.take_append_drop]
  · rw [List.length_take]; omega
  · rw [flat_length m _ (fun p hp => h p (List.mem_of_mem_take hp)), List.length_take,
      Nat.min_eq_left (by omega)]

theorem readHdr_in (m : Nat) (L : List (Nat × List Nat)) (k : Nat) (p : Nat × List Nat)
    (hm : m < 2 ^ 64) (h : SlotsOk m L) (hp : L[k]? = some p) :
    readHdr ⟨flat L, k * (m + 8)⟩ = (some p.1, ⟨flat L, k * (m + 8) + 8⟩) := by
  have hk : k < L.length := by
    rcases Nat.lt_or_ge k L.length with h | h
    · exact h
    · rw [List.getElem?_eq_none h] at hp; cases hp
  obtain ⟨A, q, C, rfl, hA, hq, h1, h2, h3⟩ := slots_split m L k hk h
  rw [hq] at hp
  obtain rfl := Option.some.inj hp
  have hf : flat (A ++ q :: C) = flat A ++ leBytes 8 q.1 ++ (q.2 ++ flat C) := by
    rw [flat_append, flat_cons, slotImg]; simp
  have := Stream.fread_at (flat A) (leBytes 8 q.1) (q.2 ++ flat C)
  rw [leBytes_length] at this
  unfold readHdr
  rw [hf, ← h3, this]
  simp only [leBytes_length, if_true, leVal_leBytes]
  rw [Nat.mod_eq_of_lt (by have : (256 : Nat) ^ 8 = 2 ^ 64 := by decide
                           omega)]
  rw [List.length_append, leBytes_length]

theorem readHdr_out (m : Nat) (L : List (Nat × List Nat)) (k : Nat) (h : SlotsOk m L)
    (hk : L.length ≤ k) :
    readHdr ⟨flat L, k * (m + 8)⟩ = (none, ⟨flat L, k * (m + 8)⟩) := by
  have hl := flat_length m L h
  have hle : (flat L).length ≤ k * (m + 8) := by rw [hl]; exact Nat.mul_le_mul_right _ hk
  obtain ⟨j, hj⟩ : ∃ j, k * (m + 8) = (flat L).length + j := ⟨k * (m + 8) - (flat L).length, by omega⟩
  unfold readHdr
  rw [hj, Stream.fread_end]
  simp

theorem seekHdr_nat (s : Stream) (k R : Nat) :
    seekHdr s ((k : Int) * R) = readHdr { s with pos := k * R } := by
  unfold seekHdr Stream.seekSet
  have : ¬ ((k : Int) * R < 0) := by
    have : (0 : Int) ≤ (k : Int) * R := Int.mul_nonneg (by omega) (by omega)
    omega
  rw [if_neg this]
  simp only
  have h2 : ((k : Int) * R).toNat = k * R := by
    rw [← Int.natCast_mul, Int.toNat_natCast]
  rw [h2]

theorem seekHdr_neg (s : Stream) (R : Nat) (hR : 0 < R) : seekHdr s ((-1 : Int) * R) = (none, s) := by
  unfold seekHdr Stream.seekSet
  rw [if_pos (by omega)]

theorem back8_at (d : List Nat) (n : Nat) : back8 ⟨d, n + 8⟩ = ⟨d, n⟩ := by
  unfold back8 Stream.seekCur Stream.seekSet
  rw [if_neg (by simp only; omega)]
  simp only [Option.getD_some, Stream.mk.injEq, true_and]
  omega

theorem recsOf_in (L : List (Nat × List Nat)) (k : Nat) (p : Nat × List Nat) (hp : L[k]? = some p) :
    recsOf L (k + 1) = slotRec p := by
  unfold recsOf
  rw [if_neg (by omega), Nat.add_sub_cancel, hp]; rfl

theorem recsOf_out (L : List (Nat × List Nat)) (k : Nat) (h : L.length < k) : recsOf L k = none := by
  unfold recsOf
  rw [if_neg (by omega), List.getElem?_eq_none (by omega)]; rfl

theorem slotRec_isSome (p : Nat × List Nat) : (slotRec p).isSome = true ↔ 0 < p.1 := by
  unfold slotRec
  split
  · simp; omega
  · simp; omega

/-! ### Enumeration -/

theorem firstFrom_rec (m : Nat → Option (List Nat)) (e c : Nat) :
    firstFrom m e c = if e < c then none else if (m c).isSome then some c else firstFrom m e (c + 1) := by
  unfold firstFrom
  by_cases h : e < c
  · rw [if_pos h, show e + 1 - c = 0 by omega]; rfl
  · rw [if_neg h, show e + 1 - c = (e + 1 - (c + 1)) + 1 by omega, List.range'_succ, List.find?_cons]
    cases (m c).isSome <;> simp

theorem lastUpTo_rec (m : Nat → Option (List Nat)) (c : Nat) :
    lastUpTo m (c + 1) = if (m (c + 1)).isSome then some (c + 1) else lastUpTo m c := by
  unfold lastUpTo
  rw [List.range'_concat, List.reverse_append, List.reverse_singleton, List.singleton_append,
    List.find?_cons]
  simp only [Nat.one_mul, Nat.add_comm 1 c]
  cases (m (c + 1)).isSome <;> simp

theorem startUp_ok (m : Nat) (L : List (Nat × List Nat)) (hm : m < 2 ^ 64) (h : SlotsOk m L)
    (fuel : Nat) : ∀ (s : Stream) (k : Nat), s.data = flat L → L.length - k < fuel →
    (∃ s' : Stream, s'.data = flat L ∧ firstFrom (recsOf L) L.length (k + 1) = none ∧
        startUp (m + 8) false fuel s k = (none, s')) ∨
    (∃ j : Nat, firstFrom (recsOf L) L.length (k + 1) = some (j + 1) ∧
        startUp (m + 8) false fuel s k = (some (j : Int), ⟨flat L, j * (m + 8)⟩)) := by
  induction fuel with
  | zero => intro s k _ hf; omega
  | succ fuel ih =>
    intro s k hs hf
    rw [firstFrom_rec, startUp, seekHdr_nat, hs]
    by_cases hk : L.length ≤ k
    · left
      rw [if_pos (by omega), readHdr_out m L k h hk]
      exact ⟨_, rfl, rfl, rfl⟩
    · rw [if_neg (by omega)]
      have hp : L[k]? = some L[k] := List.getElem?_eq_getElem (by omega)
      rw [readHdr_in m L k _ hm h hp, recsOf_in L k _ hp]
      simp only
      by_cases h0 : 0 < L[k].1
      · right
        rw [if_pos h0, if_pos ((slotRec_isSome _).2 h0), back8_at]
        exact ⟨k, rfl, rfl⟩
      · rw [if_neg h0, if_neg (by rw [slotRec_isSome]; exact h0), if_neg (by simp)]
        exact ih _ (k + 1) rfl (by omega)

theorem startDown_ok (m : Nat) (L : List (Nat × List Nat)) (hm : m < 2 ^ 64) (h : SlotsOk m L)
    (fuel : Nat) : ∀ (s : Stream) (k : Nat), s.data = flat L → k + 1 ≤ fuel → k ≤ L.length →
    (∃ s' : Stream, s'.data = flat L ∧ lastUpTo (recsOf L) k = none ∧
        startDown (m + 8) fuel s ((k : Int) - 1) = (none, s')) ∨
    (∃ j : Nat, lastUpTo (recsOf L) k = some (j + 1) ∧
        startDown (m + 8) fuel s ((k : Int) - 1) = (some (j : Int), ⟨flat L, j * (m + 8)⟩)) := by
  induction fuel with
  | zero => intro s k _ hf; omega
  | succ fuel ih =>
    intro s k hs hf hkl
    cases k with
    | zero =>
      left
      rw [startDown]
      have := seekHdr_neg s (m + 8) (by omega)
      refine ⟨s, hs, rfl, ?_⟩
      rw [show ((0 : Nat) : Int) - 1 = -1 by omega, this]
    | succ k =>
      rw [startDown, show ((k + 1 : Nat) : Int) - 1 = (k : Int) by omega, seekHdr_nat, hs, lastUpTo_rec]
      have hp : L[k]? = some L[k] := List.getElem?_eq_getElem (by omega)
      rw [readHdr_in m L k _ hm h hp, recsOf_in L k _ hp]
      simp only
      by_cases h0 : 0 < L[k].1
      · right
        rw [if_pos h0, if_pos ((slotRec_isSome _).2 h0), back8_at]
        exact ⟨k, rfl, rfl⟩
      · rw [if_neg h0, if_neg (by rw [slotRec_isSome]; exact h0)]
        exact ih _ k rfl (by omega) (by omega)

/-! ### Writing slots -/

theorem Stream.fwrite_fwrite (s : Stream) (a b : List Nat) :
    (s.fwrite a).fwrite b = s.fwrite (a ++ b) := by
  obtain ⟨d, p⟩ := s
  have hlen : (d.take p ++ List.replicate (p - d.length) 0).length = p := by
    rw [List.length_append, List.length_take, List.length_replicate]; omega
  unfold Stream.fwrite
  simp only
  generalize hX : d.take p ++ List.replicate (p - d.length) 0 = X at *
  have hXa : (X ++ a).length = p + a.length := by rw [List.length_append, hlen]
  have h1 : (X ++ a ++ d.drop (p + a.length)).take (p + a.length) = X ++ a := by
    rw [← hXa, List.take_left]
  have h2 : (X ++ a ++ d.drop (p + a.length)).drop (p + a.length + b.length) =
      d.drop (p + (a ++ b).length) := by
    rw [← List.drop_drop, ← hXa, List.drop_left, hXa, List.drop_drop, List.length_append, Nat.add_assoc]
  rw [h1, h2]
  have h3 : p + a.length - (X ++ a ++ d.drop (p + a.length)).length = 0 := by
    rw [List.length_append, hXa]; omega
  rw [h3]
  simp [Nat.add_assoc]

/-- The file with one slot written. -/
def putSlot (m : Nat) (L : List (Nat × List Nat)) (k : Nat) (p : Nat × List Nat) : List (Nat × List Nat) :=
  if k < L.length then L.set k p else L ++ List.replicate (k - L.length) (0, List.replicate m 0) ++ [p]

theorem putSlot_length (m : Nat) (L : List (Nat × List Nat)) (k : Nat) (p : Nat × List Nat) :
    (putSlot m L k p).length = max L.length (k + 1) := by
  unfold putSlot
  split
  · rw [List.length_set]; omega
  · simp; omega

theorem putSlot_ok (m : Nat) (L : List (Nat × List Nat)) (k : Nat) (p : Nat × List Nat)
    (h : SlotsOk m L) (h1 : p.2.length = m) (h2 : p.1 ≤ m) : SlotsOk m (putSlot m L k p) := by
  intro q hq
  unfold putSlot at hq
  split at hq
  · rcases List.mem_or_eq_of_mem_set hq with hq | hq
    · exact h q hq
    · subst hq; exact ⟨h1, h2⟩
  · rw [List.mem_append, List.mem_append, List.mem_singleton] at hq
    rcases hq with (hq | hq) | hq
    · exact h q hq
    · rw [List.eq_of_mem_replicate hq]; simp
    · subst hq; exact ⟨h1, h2⟩

theorem putSlot_recs (m : Nat) (L : List (Nat × List Nat)) (k : Nat) (p : Nat × List Nat) :
    recsOf (putSlot m L k p) = setRec (recsOf L) (k + 1) (slotRec p) := by
  funext j
  unfold setRec
  cases j with
  | zero => simp [recsOf]
  | succ j =>
    have hrec : ∀ L, recsOf L (j + 1) = (L[j]?).bind slotRec := by
      intro L
      unfold recsOf
      rw [if_neg (by omega), Nat.add_sub_cancel]
    rw [hrec, hrec]
    unfold putSlot
    by_cases hk : k < L.length
    · rw [if_pos hk, List.getElem?_set]
      by_cases hj : k = j
      · subst hj; rw [if_pos rfl, if_pos hk, if_pos rfl]; rfl
      · rw [if_neg hj, if_neg (by omega)]
    · rw [if_neg hk]
      by_cases hj : j + 1 = k + 1
      · rw [if_pos hj, List.getElem?_append_right (by simp; omega)]
        have : j - (L ++ List.replicate (k - L.length) ((0 : Nat), List.replicate m 0)).length = 0 := by
          simp; omega
        rw [this]; rfl
      · rw [if_neg hj]
        by_cases hj2 : j < L.length
        · rw [List.getElem?_append_left (by simp; omega), List.getElem?_append_left hj2]
        · rw [List.getElem?_eq_none (l := L) (by omega)]
          by_cases hj3 : j < k
          · rw [List.getElem?_append_left (by simp; omega), List.getElem?_append_right (by omega),
              List.getElem?_replicate, if_pos (by omega)]
            rfl
          · rw [List.getElem?_eq_none (by simp; omega)]

theorem leBytes_zero (k : Nat) : leBytes k 0 = List.replicate k 0 := by
  induction k with
  | zero => rfl
  | succ k ih => rw [leBytes, List.replicate_succ]; simp [ih]

theorem flat_holes (m j : Nat) :
    flat (List.replicate j (0, List.replicate m 0)) = List.replicate (j * (m + 8)) 0 := by
  induction j with
  | zero => simp [flat]
  | succ j ih =>
    rw [List.replicate_succ, flat_cons, ih, slotImg, leBytes_zero, List.replicate_append_replicate,
      List.replicate_append_replicate]
    congr 1
    rw [Nat.succ_mul]; omega

theorem write_slot (m : Nat) (L : List (Nat × List Nat)) (k : Nat) (p : Nat × List Nat)
    (h : SlotsOk m L) (h1 : p.2.length = m) :
    (Stream.fwrite ⟨flat L, k * (m + 8)⟩ (leBytes 8 p.1)).fwrite p.2 =
      ⟨flat (putSlot m L k p), (k + 1) * (m + 8)⟩ := by
  rw [Stream.fwrite_fwrite]
  have hs : (k + 1) * (m + 8) = k * (m + 8) + (m + 8) := Nat.succ_mul _ _
  by_cases hk : k < L.length
  · obtain ⟨A, q, C, rfl, hA, hq, g1, g2, g3⟩ := slots_split m L k hk h
    have hput : putSlot m (A ++ q :: C) k p = A ++ p :: C := by
      unfold putSlot
      rw [if_pos hk, ← hA]
      simp
    rw [hput, flat_append, flat_cons, flat_append, flat_cons]
    have := Stream.fwrite_at (flat A) (slotImg q) (slotImg p) (flat C)
      (by rw [slotImg_length p m h1, slotImg_length q m g1])
    rw [← List.append_assoc, ← g3, ← slotImg, this, List.length_append, slotImg_length p m h1,
      ← List.append_assoc, g3, hs]
  · have hl := flat_length m L h
    have hput : putSlot m L k p = L ++ List.replicate (k - L.length) (0, List.replicate m 0) ++ [p] := by
      unfold putSlot; rw [if_neg hk]
    have hpos : k * (m + 8) = (flat L).length + (k - L.length) * (m + 8) := by
      rw [hl, ← Nat.add_mul]; congr 1; omega
    have hnil : flat [] = [] := rfl
    rw [hput, flat_append, flat_append, flat_holes, flat_cons, hnil, List.append_nil, ← slotImg]
    have := Stream.fwrite_hole (flat L) (slotImg p) ((k - L.length) * (m + 8))
    rw [hpos, this]
    congr 1
    rw [List.length_append, List.length_append, List.length_replicate, slotImg_length p m h1, hs, hpos]

/-- Writing only the data part of a slot. -/
theorem write_data (m : Nat) (L : List (Nat × List Nat)) (k : Nat) (p : Nat × List Nat) (b : List Nat)
    (h : SlotsOk m L) (hp : L[k]? = some p) (h1 : b.length = m) :
    Stream.fwrite ⟨flat L, k * (m + 8) + 8⟩ b = ⟨flat (putSlot m L k (p.1, b)), (k + 1) * (m + 8)⟩ := by
  have hk : k < L.length := by
    rcases Nat.lt_or_ge k L.length with h | h
    · exact h
    · rw [List.getElem?_eq_none h] at hp; cases hp
  obtain ⟨A, q, C, rfl, hA, hq, g1, g2, g3⟩ := slots_split m L k hk h
  rw [hq] at hp
  obtain rfl := Option.some.inj hp
  have hput : putSlot m (A ++ q :: C) k (q.1, b) = A ++ (q.1, b) :: C := by
    unfold putSlot
    rw [if_pos hk, ← hA]
    simp
  rw [hput, flat_append, flat_cons, flat_append, flat_cons, slotImg, slotImg]
  have := Stream.fwrite_at (flat A ++ leBytes 8 q.1) q.2 b (flat C) (by rw [h1, g1])
  have e1 : flat A ++ (leBytes 8 q.1 ++ q.2 ++ flat C) = flat A ++ leBytes 8 q.1 ++ q.2 ++ flat C := by simp
  have e2 : k * (m + 8) + 8 = (flat A ++ leBytes 8 q.1).length := by
    rw [List.length_append, leBytes_length, g3]
  rw [e1, e2, this]
  simp only [List.length_append, leBytes_length, h1, g3, List.append_assoc, Nat.succ_mul]
  congr 1
  omega

/-- Reading the data part of a slot. -/
theorem read_data (m : Nat) (L : List (Nat × List Nat)) (k : Nat) (p : Nat × List Nat)
    (h : SlotsOk m L) (hp : L[k]? = some p) :
    Stream.fread ⟨flat L, k * (m + 8) + 8⟩ m = (p.2, ⟨flat L, (k + 1) * (m + 8)⟩) := by
  have hk : k < L.length := by
    rcases Nat.lt_or_ge k L.length with h | h
    · exact h
    · rw [List.getElem?_eq_none h] at hp; cases hp
  obtain ⟨A, q, C, rfl, hA, hq, g1, g2, g3⟩ := slots_split m L k hk h
  rw [hq] at hp
  obtain rfl := Option.some.inj hp
  have := Stream.fread_at (flat A ++ leBytes 8 q.1) q.2 (flat C)
  have e1 : flat (A ++ q :: C) = flat A ++ leBytes 8 q.1 ++ q.2 ++ flat C := by
    rw [flat_append, flat_cons, slotImg]; simp
  have e2 : k * (m + 8) + 8 = (flat A ++ leBytes 8 q.1).length := by
    rw [List.length_append, leBytes_length, g3]
  rw [e1, e2, ← g1, this]
  simp only [List.length_append, leBytes_length, g1, g3, Nat.succ_mul, Prod.mk.injEq, Stream.mk.injEq,
    true_and]
  omega

/-! ### Refinement -/

/-- The connector agrees with the specification. -/
structure RelIs (f : RelFile) (s : RelSpec) (L : List (Nat × List Nat)) : Prop where
  sa : f.seqAccess = s.seqAccess
  ok : SlotsOk f.recMax L
  max : f.recMax < 2 ^ 64
  pos1 : 1 ≤ f.recMax
  data : f.stream.data = flat L
  ext : s.extent = L.length
  recs : s.recs = recsOf L
  cur : ∀ c, s.cursor = some c → 1 ≤ c ∧ f.stream.pos = (c - 1) * (f.recMax + 8)
  key : ∀ k, s.key = some k → f.key = k
  first : f.firstRead = s.first
  eof : f.endOfFile = s.ended
  rd : f.readDone = s.readOk
  area : f.area.length = f.recMax
  readOk : s.readOk = true → ∃ c, 1 ≤ c ∧ s.cursor = some (c + 1) ∧ (s.recs c).isSome = true

/-- One statement done right. -/
def StepOk (f : RelFile) (s : RelSpec) (op : RelOp) : Prop :=
  (relStep f op).1 = (s.step op).1 ∧
  (if op.isRead ∧ (relStep f op).1 = 0 then some ((relStep f op).2.area.take (relStep f op).2.size)
    else none) = (s.step op).2.1 ∧
  (relStep f op).2.recMin = f.recMin ∧ (relStep f op).2.recMax = f.recMax ∧
  ∃ L', RelIs (relStep f op).2 (s.step op).2.2 L'

theorem overlay_length (r area : List Nat) (h : r.length ≤ area.length) :
    (overlay r area).length = area.length := by
  unfold overlay
  rw [List.length_append, List.length_drop]; omega

theorem stream_eta (s : Stream) (d : List Nat) (p : Nat) (h1 : s.data = d) (h2 : s.pos = p) :
    s = ⟨d, p⟩ := by cases s; simp_all

theorem StepOk_setKey (f : RelFile) (s : RelSpec) (L : List (Nat × List Nat)) (n : Nat)
    (hi : RelIs f s L) : StepOk f s (.setKey n) := by
  refine ⟨rfl, rfl, rfl, rfl, L, ?_⟩
  exact ⟨hi.sa, hi.ok, hi.max, hi.pos1, hi.data, hi.ext, hi.recs, hi.cur,
    fun k hk => by simp only [relStep, RelSpec.step, Option.some.injEq] at hk ⊢; exact hk,
    hi.first, hi.eof, hi.rd, hi.area, hi.readOk⟩

theorem StepOk_write (f : RelFile) (s : RelSpec) (L : List (Nat × List Nat)) (r : List Nat)
    (hi : RelIs f s L) (hl : s.legal f.recMin f.recMax (.write r)) : StepOk f s (.write r) := by
  obtain ⟨l1, l2, l3, l4⟩ := hl
  have hsa := hi.sa
  have harea : (overlay r f.area).length = f.recMax := by
    rw [overlay_length r f.area (by rw [hi.area]; exact l3), hi.area]
  have htake : (overlay r f.area).take f.recMax = overlay r f.area :=
    List.take_of_length_le (by omega)
  have hslot : slotRec (r.length, overlay r f.area) = some r := by
    unfold slotRec
    rw [if_neg (by simp only; omega)]
    exact congrArg some (overlay_take r f.area)
  have hrec := hi.recs
  have hext := hi.ext
  cases hs : s.seqAccess with
  | true =>
    rw [hs, if_pos rfl] at l4
    have hpos := (hi.cur _ l4).2
    rw [Nat.add_sub_cancel, hext] at hpos
    have hst := stream_eta f.stream _ _ hi.data hpos
    have hw := write_slot f.recMax L L.length (r.length, overlay r f.area) hi.ok harea
    have hout := readHdr_out f.recMax L L.length hi.ok (Nat.le_refl _)
    have hstep : relStep f (.write r) = (0, { f with readDone := false, area := overlay r f.area, key := L.length + 1, stream :=
          ⟨flat (putSlot f.recMax L L.length (r.length, overlay r f.area)),
            (L.length + 1) * (f.recMax + 8)⟩ }) := by
      unfold relStep relExWrite
      simp only
      rw [if_neg (by omega)]
      unfold relativeWrite
      simp only [hsa, hs, RelFile.relsize]
      rw [if_neg (by simp), hst]
      simp only [if_true, hout, htake, hw]
      have : (L.length * (f.recMax + 8) + (f.recMax + 8)) / (f.recMax + 8) = L.length + 1 := by
        rw [← Nat.succ_mul, Nat.mul_div_cancel _ (by omega)]
      rw [this]
    have hsp : s.step (.write r) = (0, none, { s with
        readOk := false
        recs := setRec s.recs (s.extent + 1) (some r)
        extent := s.extent + 1, key := some (s.extent + 1), cursor := some (s.extent + 1 + 1) }) := by
      unfold RelSpec.step
      simp only [hs, if_true]
    refine ⟨by rw [hstep, hsp], by rw [hstep, hsp]; rfl, by rw [hstep], by rw [hstep],
      putSlot f.recMax L L.length (r.length, overlay r f.area), ?_⟩
    rw [hstep, hsp]
    refine ⟨hi.sa, putSlot_ok _ _ _ _ hi.ok harea l3, hi.max, hi.pos1, rfl, ?_, ?_, ?_, ?_, hi.first,
      hi.eof, rfl, harea, fun h => by cases h⟩
    · simp only [putSlot_length, hext]; omega
    · simp only [putSlot_recs, hslot, hrec, hext]
    · intro c hc
      simp only [Option.some.injEq] at hc
      subst hc
      simp only [hext]
      exact ⟨by omega, rfl⟩
    · intro k hk
      simp only [Option.some.injEq] at hk
      simp only; omega
  | false =>
    rw [hs] at l4
    simp only [Bool.false_eq_true, if_false] at l4
    obtain ⟨k, hk⟩ := Option.ne_none_iff_exists'.1 l4
    have hfk := hi.key k hk
    cases k with
    | zero =>
      have hstep : relStep f (.write r) = (21, { f with readDone := false, area := overlay r f.area }) := by
        unfold relStep relExWrite
        simp only
        rw [if_neg (by omega)]
        unfold relativeWrite
        simp only [hsa, hs, hfk]
        rw [if_pos (by simp)]
      have hsp : s.step (.write r) = (21, none, { s with readOk := false }) := by
        unfold RelSpec.step
        simp [hs, hk]
      refine ⟨by rw [hstep, hsp], by rw [hstep, hsp]; rfl, by rw [hstep], by rw [hstep], L, ?_⟩
      rw [hstep, hsp]
      exact ⟨hi.sa, hi.ok, hi.max, hi.pos1, hi.data, hi.ext, hi.recs, hi.cur, hi.key, hi.first, hi.eof,
        rfl, harea, fun h => by cases h⟩
    | succ k =>
      have hpos : ((((k + 1 : Nat) : Int) - 1) * ((f.recMax + 8 : Nat) : Int)).toNat = k * (f.recMax + 8) := by
        rw [show ((k + 1 : Nat) : Int) - 1 = (k : Int) by omega, ← Int.natCast_mul, Int.toNat_natCast]
      have hneg : ¬ (((k + 1 : Nat) : Int) - 1 < 0) := by omega
      have hw := write_slot f.recMax L k (r.length, overlay r f.area) hi.ok harea
      -- the common outcome of a WRITE that succeeds
      have hput : (s.recs (k + 1)).isSome = false →
          relStep f (.write r) = (0, { f with readDone := false, area := overlay r f.area, stream :=
            ⟨flat (putSlot f.recMax L k (r.length, overlay r f.area)), (k + 1) * (f.recMax + 8)⟩ }) →
          StepOk f s (.write r) := by
        intro hnone hstep
        have hsp : s.step (.write r) = (0, none, { s with
            readOk := false
            recs := setRec s.recs (k + 1) (some r)
            extent := max s.extent (k + 1), cursor := some (k + 1 + 1) }) := by
          unfold RelSpec.step
          simp [hs, hk, hnone]
        refine ⟨by rw [hstep, hsp], by rw [hstep, hsp]; rfl, by rw [hstep], by rw [hstep],
          putSlot f.recMax L k (r.length, overlay r f.area), ?_⟩
        rw [hstep, hsp]
        refine ⟨hi.sa, putSlot_ok _ _ _ _ hi.ok harea l3, hi.max, hi.pos1, rfl, ?_, ?_, ?_, ?_, hi.first,
          hi.eof, rfl, harea, fun h => by cases h⟩
        · simp only [putSlot_length, hext]
        · simp only [putSlot_recs, hslot, hrec]
        · intro c hc
          simp only [Option.some.injEq] at hc
          subst hc
          exact ⟨by omega, rfl⟩
        · intro j hj
          simp only [hk, Option.some.injEq] at hj
          simp only; omega
      by_cases hin : k < L.length
      · have hp : L[k]? = some L[k] := List.getElem?_eq_getElem hin
        have hhdr := readHdr_in f.recMax L k _ hi.max hi.ok hp
        by_cases h0 : 0 < L[k].1
        · have hstep : relStep f (.write r) = (22, { f with
              readDone := false, area := overlay r f.area
              stream := ⟨flat L, k * (f.recMax + 8)⟩ }) := by
            unfold relStep relExWrite
            simp only
            rw [if_neg (by omega)]
            unfold relativeWrite
            simp only [hsa, hs, hfk, RelFile.relsize, hpos, hi.data]
            rw [if_neg (by simp)]
            simp only [Bool.false_eq_true, if_false, hhdr, h0, if_true, back8_at]
          have hsome : (s.recs (k + 1)).isSome = true := by
            rw [hrec, recsOf_in L k _ hp, slotRec_isSome]; exact h0
          have hsp : s.step (.write r) = (22, none, { s with readOk := false, cursor := some (k + 1) }) := by
            unfold RelSpec.step
            simp [hs, hk, hsome]
          refine ⟨by rw [hstep, hsp], by rw [hstep, hsp]; rfl, by rw [hstep], by rw [hstep], L, ?_⟩
          rw [hstep, hsp]
          refine ⟨hi.sa, hi.ok, hi.max, hi.pos1, rfl, hi.ext, hi.recs, ?_, hi.key, hi.first, hi.eof,
            rfl, harea, fun h => by cases h⟩
          intro c hc
          simp only [Option.some.injEq] at hc
          subst hc
          exact ⟨by omega, rfl⟩
        · apply hput
          · rw [hrec, recsOf_in L k _ hp]
            cases h : (slotRec L[k]).isSome
            · rfl
            · exact absurd ((slotRec_isSome _).1 h) h0
          · unfold relStep relExWrite
            simp only
            rw [if_neg (by omega)]
            unfold relativeWrite
            simp only [hsa, hs, hfk, RelFile.relsize, hpos, hi.data]
            rw [if_neg (by simp)]
            simp only [Bool.false_eq_true, if_false, hhdr, h0, back8_at, htake, hw]
      · have hout := readHdr_out f.recMax L k hi.ok (by omega)
        apply hput
        · rw [hrec, recsOf_out L (k + 1) (by omega)]; rfl
        · unfold relStep relExWrite
          simp only
          rw [if_neg (by omega)]
          unfold relativeWrite
          simp only [hsa, hs, hfk, RelFile.relsize, hpos, hi.data]
          rw [if_neg (by simp)]
          simp only [Bool.false_eq_true, if_false, hout, htake, hw]

theorem readData_ok (f : RelFile) (L : List (Nat × List Nat)) (k : Nat) (p : Nat × List Nat)
    (h : SlotsOk f.recMax L) (hp : L[k]? = some p) (ha : f.area.length = f.recMax)
    (hs : f.stream = ⟨flat L, k * (f.recMax + 8) + 8⟩) :
    readData f = (0, { f with stream := ⟨flat L, (k + 1) * (f.recMax + 8)⟩, area := p.2 }) := by
  have hpl : p.2.length = f.recMax := (h p (List.mem_of_getElem? hp)).1
  have hov : overlay p.2 f.area = p.2 := by
    unfold overlay
    rw [List.drop_of_length_le (by omega), List.append_nil]
  unfold readData
  rw [hs, read_data f.recMax L k p h hp]
  simp only [hov]
  rw [if_neg (by simp only [ne_eq, Decidable.not_not]; exact hpl)]

theorem slotRec_pos (p : Nat × List Nat) (h : 0 < p.1) : slotRec p = some (p.2.take p.1) := by
  unfold slotRec
  rw [if_neg (by omega)]

theorem slotRec_zero (p : Nat × List Nat) (h : ¬ 0 < p.1) : slotRec p = none := by
  unfold slotRec
  rw [if_pos (by omega)]

theorem StepOk_read (f : RelFile) (s : RelSpec) (L : List (Nat × List Nat))
    (hi : RelIs f s L) (hl : s.legal f.recMin f.recMax .read) : StepOk f s .read := by
  obtain ⟨l1, l2⟩ := hl
  obtain ⟨k, hk⟩ := Option.ne_none_iff_exists'.1 l2
  have hfk := hi.key k hk
  have hrec := hi.recs
  have hst := stream_eta f.stream _ _ hi.data rfl
  cases k with
  | zero =>
    have hstep : relStep f .read = (23, { f with readDone := false }) := by
      have hrr : relativeRead { f with readDone := false } = (23, { f with readDone := false }) := by
        unfold relativeRead
        have := seekHdr_neg f.stream (f.recMax + 8) (by omega)
        simp only [RelFile.relsize]
        rw [show (f.key : Int) - 1 = -1 by omega, this]
      unfold relStep relExRead
      simp [hrr]
    have hsp : s.step .read = (23, none, { s with readOk := false }) := by
      unfold RelSpec.step
      simp [hk]
    refine ⟨by rw [hstep, hsp], by rw [hstep, hsp]; rfl, by rw [hstep], by rw [hstep], L, ?_⟩
    rw [hstep, hsp]
    exact ⟨hi.sa, hi.ok, hi.max, hi.pos1, hi.data, hi.ext, hi.recs, hi.cur, hi.key, hi.first, hi.eof,
      rfl, hi.area, fun h => by cases h⟩
  | succ k =>
    have hseek : seekHdr f.stream (((f.key : Int) - 1) * ((f.recMax + 8 : Nat) : Int)) =
        readHdr ⟨flat L, k * (f.recMax + 8)⟩ := by
      rw [show (f.key : Int) - 1 = (k : Int) by omega, seekHdr_nat, hi.data]
    -- no record with this number
    have hmiss : s.recs (k + 1) = none → (∃ z, relativeRead { f with readDone := false } = (23, { f with
        readDone := false
        size := z
        stream := ⟨flat L, k * (f.recMax + 8)⟩ })) → StepOk f s .read := by
      intro hnone ⟨z, hrr⟩
      have hstep : relStep f .read = (23, { f with
          readDone := false
          size := z
          stream := ⟨flat L, k * (f.recMax + 8)⟩ }) := by
        unfold relStep relExRead
        simp [hrr]
      have hsp : s.step .read = (23, none, { s with readOk := false, cursor := some (k + 1) }) := by
        unfold RelSpec.step
        simp [hk, hnone]
      refine ⟨by rw [hstep, hsp], by rw [hstep, hsp]; rfl, by rw [hstep], by rw [hstep], L, ?_⟩
      rw [hstep, hsp]
      refine ⟨hi.sa, hi.ok, hi.max, hi.pos1, rfl, hi.ext, hi.recs, ?_, hi.key, hi.first, hi.eof,
        rfl, hi.area, fun h => by cases h⟩
      intro c hc
      simp only [Option.some.injEq] at hc
      subst hc
      exact ⟨by omega, rfl⟩
    by_cases hin : k < L.length
    · have hp : L[k]? = some L[k] := List.getElem?_eq_getElem hin
      have hhdr := readHdr_in f.recMax L k _ hi.max hi.ok hp
      by_cases h0 : 0 < L[k].1
      · have hd := readData_ok { f with
            readDone := false
            stream := ⟨flat L, k * (f.recMax + 8) + 8⟩
            size := L[k].1 } L k _ hi.ok hp hi.area rfl
        have hstep : relStep f .read = (0, { f with
            readDone := true, firstRead := false, endOfFile := false
            stream := ⟨flat L, (k + 1) * (f.recMax + 8)⟩
            area := L[k].2
            size := L[k].1 }) := by
          have hrr : relativeRead { f with readDone := false } = (0, { f with
              readDone := false
              stream := ⟨flat L, (k + 1) * (f.recMax + 8)⟩
              area := L[k].2
              size := L[k].1 }) := by
            unfold relativeRead
            simp only [RelFile.relsize, hseek, hhdr]
            rw [if_neg (by omega), hd]
          unfold relStep relExRead
          simp [hrr]
        have hsome : s.recs (k + 1) = some (L[k].2.take L[k].1) := by
          rw [hrec, recsOf_in L k _ hp, slotRec_pos _ h0]
        have hsp : s.step .read = (0, some (L[k].2.take L[k].1), { s with
            cursor := some (k + 1 + 1), first := false, ended := false, readOk := true }) := by
          unfold RelSpec.step
          simp [hk, hsome]
        refine ⟨by rw [hstep, hsp], by rw [hstep, hsp]; rfl, by rw [hstep], by rw [hstep], L, ?_⟩
        rw [hstep, hsp]
        refine ⟨hi.sa, hi.ok, hi.max, hi.pos1, rfl, hi.ext, hi.recs, ?_, hi.key, rfl, rfl, rfl,
          (hi.ok _ (List.getElem_mem hin)).1, fun _ => ⟨k + 1, by omega, rfl, ?_⟩⟩
        · intro c hc
          simp only [Option.some.injEq] at hc
          subst hc
          exact ⟨by omega, rfl⟩
        · simp only [hsome, Option.isSome_some]
      · apply hmiss
        · rw [hrec, recsOf_in L k _ hp, slotRec_zero _ h0]
        · refine ⟨0, ?_⟩
          unfold relativeRead
          simp only [RelFile.relsize, hseek, hhdr]
          rw [if_pos (by omega), back8_at]
    · apply hmiss
      · rw [hrec, recsOf_out L (k + 1) (by omega)]
      · refine ⟨f.size, ?_⟩
        unfold relativeRead
        simp only [RelFile.relsize, hseek, readHdr_out f.recMax L k hi.ok (by omega)]

/-- The loop of READ NEXT. -/
theorem readNext_loop (L : List (Nat × List Nat)) (fuel : Nat) : ∀ (f : RelFile) (k : Nat),
    f.recMax < 2 ^ 64 → 1 ≤ f.recMax → SlotsOk f.recMax L → f.area.length = f.recMax →
    f.stream = ⟨flat L, k * (f.recMax + 8)⟩ → L.length - k < fuel →
    (firstFrom (recsOf L) L.length (k + 1) = none ∧
      ∃ z y, relativeReadNext fuel f = (10, { f with
        stream := ⟨flat L, max k L.length * (f.recMax + 8)⟩
        firstRead := f.firstRead && decide (L.length < k + 1)
        key := z
        size := y })) ∨
    (∃ j p, firstFrom (recsOf L) L.length (k + 1) = some (j + 1) ∧ L[j]? = some p ∧ 0 < p.1 ∧
      relativeReadNext fuel f = (0, { f with
        stream := ⟨flat L, (j + 1) * (f.recMax + 8)⟩
        firstRead := false
        key := if f.firstRead = true ∧ j = k then 1 else j + 1
        size := p.1
        area := p.2 })) := by
  induction fuel with
  | zero => intro f k _ _ _ _ _ h; omega
  | succ fuel ih =>
    intro f k hm h1 hok ha hs hf
    rw [firstFrom_rec]
    by_cases hk : L.length ≤ k
    · left
      refine ⟨by rw [if_pos (by omega)], f.key, f.size, ?_⟩
      rw [relativeReadNext, hs, readHdr_out f.recMax L k hok hk]
      simp only
      have : decide (L.length < k + 1) = true := by simp; omega
      rw [this, Nat.max_eq_left hk, Bool.and_true]
    · rw [if_neg (by omega)]
      have hp : L[k]? = some L[k] := List.getElem?_eq_getElem (by omega)
      have hhdr := readHdr_in f.recMax L k _ hm hok hp
      have hdiv : (k * (f.recMax + 8) + 8) / (f.recMax + 8) + 1 = k + 1 := by
        rw [Nat.add_comm (k * (f.recMax + 8)), Nat.add_mul_div_right _ _ (by omega),
          Nat.div_eq_of_lt (by omega)]
        omega
      rw [recsOf_in L k _ hp]
      by_cases h0 : 0 < L[k].1
      · right
        refine ⟨k, L[k], by rw [if_pos ((slotRec_isSome _).2 h0)], hp, h0, ?_⟩
        rw [relativeReadNext, hs, hhdr]
        simp only [RelFile.relsize, hdiv]
        rw [if_pos h0]
        have hd := readData_ok { f with
            stream := ⟨flat L, k * (f.recMax + 8) + 8⟩
            firstRead := false
            key := if f.firstRead = true then 1 else k + 1
            size := L[k].1 } L k _ hok hp ha rfl
        rw [hd]
        simp only [and_true]
      · rw [if_neg (by rw [slotRec_isSome]; exact h0)]
        have hstep : relativeReadNext (fuel + 1) f = relativeReadNext fuel { f with
            stream := ⟨flat L, (k + 1) * (f.recMax + 8)⟩
            firstRead := false
            key := if f.firstRead = true then 1 else k + 1
            size := L[k].1 } := by
          rw [relativeReadNext, hs, hhdr]
          simp only [RelFile.relsize, hdiv]
          rw [if_neg h0]
          have : k * (f.recMax + 8) + 8 + f.recMax = (k + 1) * (f.recMax + 8) := by
            rw [Nat.succ_mul]; omega
          rw [this]
        rw [hstep]
        rcases ih { f with
            stream := ⟨flat L, (k + 1) * (f.recMax + 8)⟩
            firstRead := false
            key := if f.firstRead = true then 1 else k + 1
            size := L[k].1 } (k + 1) hm h1 hok ha rfl (by omega) with ⟨e1, z, y, e2⟩ | ⟨j, p, e1, e2, e3, e4⟩
        · left
          refine ⟨e1, z, y, ?_⟩
          rw [e2]
          simp only [Bool.false_and]
          have d1 : decide (L.length < k + 1) = false := by simp; omega
          have d2 : max (k + 1) L.length = max k L.length := by omega
          rw [d1, d2, Bool.and_false]
        · right
          refine ⟨j, p, e1, e2, e3, ?_⟩
          rw [e4]
          have hjk : j ≠ k := by
            intro h
            subst h
            rw [hp] at e2
            obtain rfl := Option.some.inj e2
            exact h0 e3
          simp [hjk]

theorem firstFrom_some (m : Nat → Option (List Nat)) (e c k : Nat) (h : firstFrom m e c = some k) :
    c ≤ k ∧ k ≤ e ∧ (m k).isSome = true ∧ ∀ j, c ≤ j → j < k → m j = none := by
  unfold firstFrom at h
  rw [List.find?_range'_eq_some] at h
  obtain ⟨h1, h2, h3⟩ := h
  simp only [List.mem_range'_1] at h2
  refine ⟨by omega, by omega, h1, ?_⟩
  intro j hj1 hj2
  have := h3 j hj1 hj2
  simpa using this

theorem relExRead_next (f : RelFile) (r : Nat × RelFile) (he : f.endOfFile = false)
    (h : relativeReadNext (f.stream.data.length + 1) { f with readDone := false } = r) :
    relExRead f false =
      if r.1 = 0 then (0, { r.2 with firstRead := false, readDone := true, endOfFile := false })
      else if r.1 = 10 then (10, { r.2 with endOfFile := true })
      else r := by
  subst h
  unfold relExRead
  simp only
  rw [if_neg (by simp [he])]
  rfl

theorem StepOk_readNext (f : RelFile) (s : RelSpec) (L : List (Nat × List Nat))
    (hi : RelIs f s L) (hl : s.legal f.recMin f.recMax .readNext) : StepOk f s .readNext := by
  have hrec := hi.recs
  have hext := hi.ext
  have heof := hi.eof
  cases he : s.ended with
  | true =>
    rw [he] at heof
    have hstep : relStep f .readNext = (46, { f with readDone := false }) := by
      unfold relStep relExRead
      simp [heof]
    have hsp : s.step .readNext = (46, none, { s with readOk := false }) := by
      unfold RelSpec.step
      simp [he]
    refine ⟨by rw [hstep, hsp], by rw [hstep, hsp]; rfl, by rw [hstep], by rw [hstep], L, ?_⟩
    rw [hstep, hsp]
    exact ⟨hi.sa, hi.ok, hi.max, hi.pos1, hi.data, hi.ext, hi.recs, hi.cur, hi.key, hi.first, hi.eof,
      rfl, hi.area, fun h => by cases h⟩
  | false =>
    rw [he] at heof
    obtain ⟨c, hc⟩ := Option.ne_none_iff_exists'.1 (hl he)
    obtain ⟨hc1, hpos⟩ := hi.cur c hc
    obtain ⟨k, rfl⟩ : ∃ k, c = k + 1 := ⟨c - 1, by omega⟩
    rw [Nat.add_sub_cancel] at hpos
    have hst := stream_eta f.stream _ _ hi.data hpos
    have hfl : (flat L).length = L.length * (f.recMax + 8) := flat_length _ _ hi.ok
    have hfuel : L.length - k < f.stream.data.length + 1 := by
      rw [hi.data, hfl]
      have : L.length ≤ L.length * (f.recMax + 8) := Nat.le_mul_of_pos_right _ (by omega)
      omega
    rcases readNext_loop L (f.stream.data.length + 1) { f with readDone := false } k hi.max hi.pos1 hi.ok
      hi.area hst hfuel with ⟨e1, z, y, e2⟩ | ⟨j, p, e1, e2, e3, e4⟩
    · have hstep : relStep f .readNext = (10, { f with
          readDone := false
          endOfFile := true
          stream := ⟨flat L, max k L.length * (f.recMax + 8)⟩
          firstRead := f.firstRead && decide (L.length < k + 1)
          key := z
          size := y }) := by
        rw [relStep, relExRead_next f _ heof e2]
        rfl
      have hsp : s.step .readNext = (10, none, { s with
          readOk := false
          cursor := some (max (k + 1) (s.extent + 1))
          ended := true
          key := none
          first := s.first && decide (s.extent < k + 1) }) := by
        unfold RelSpec.step
        simp only [he, Bool.false_eq_true, if_false, hc, Option.getD_some, hrec, hext, e1]
      refine ⟨by rw [hstep, hsp], by rw [hstep, hsp]; rfl, by rw [hstep], by rw [hstep], L, ?_⟩
      rw [hstep, hsp]
      refine ⟨hi.sa, hi.ok, hi.max, hi.pos1, rfl, hi.ext, hi.recs, ?_, (fun k hk => by cases hk), ?_, rfl,
        rfl, hi.area, fun h => by cases h⟩
      · intro c hc
        simp only [Option.some.injEq] at hc
        subst hc
        refine ⟨by omega, ?_⟩
        simp only [hext]
        congr 1; omega
      · simp only [hext, hi.first]
    · have hsome : s.recs (j + 1) = some (p.2.take p.1) := by
        rw [hrec, recsOf_in L j _ e2, slotRec_pos _ e3]
      have hstep : relStep f .readNext = (0, { f with
          readDone := true
          endOfFile := false
          stream := ⟨flat L, (j + 1) * (f.recMax + 8)⟩
          firstRead := false
          key := if f.firstRead = true ∧ j = k then 1 else j + 1
          size := p.1
          area := p.2 }) := by
        rw [relStep, relExRead_next f _ heof e4]
        rfl
      have hsp : s.step .readNext = (0, some (p.2.take p.1), { s with
          readOk := true
          cursor := some (j + 1 + 1)
          first := false
          key := if s.first ∧ k + 1 ≠ 1 then none else some (j + 1) }) := by
        unfold RelSpec.step
        have e1' : firstFrom s.recs s.extent (k + 1) = some (j + 1) := by rw [hrec, hext]; exact e1
        simp only [he, Bool.false_eq_true, if_false, hc, Option.getD_some, e1', hsome]
      refine ⟨by rw [hstep, hsp], by rw [hstep, hsp]; rfl, by rw [hstep], by rw [hstep], L, ?_⟩
      rw [hstep, hsp]
      refine ⟨hi.sa, hi.ok, hi.max, hi.pos1, rfl, hi.ext, hi.recs, ?_, ?_, rfl, he.symm ▸ rfl, rfl,
        (hi.ok p (List.mem_of_getElem? e2)).1, fun _ => ⟨j + 1, by omega, rfl, ?_⟩⟩
      · intro c hc
        simp only [Option.some.injEq] at hc
        subst hc
        exact ⟨by omega, rfl⟩
      · intro i hik
        simp only at hik ⊢
        rw [hi.first]
        by_cases hf : s.first = true ∧ k + 1 ≠ 1
        · rw [if_pos hf] at hik; cases hik
        · rw [if_neg hf] at hik
          obtain rfl := Option.some.inj hik
          by_cases hf2 : s.first = true ∧ j = k
          · rw [if_pos hf2]
            have : ¬ (k + 1 ≠ 1) := fun h => hf ⟨hf2.1, h⟩
            omega
          · rw [if_neg hf2]
      · simp only [hsome, Option.isSome_some]

theorem setRec_same (m : Nat → Option (List Nat)) (k : Nat) (v : Option (List Nat)) (h : m k = v) :
    setRec m k v = m := by
  funext j
  unfold setRec
  split
  · rename_i hj; rw [hj, h]
  · rfl

/-- The state after the data of a slot has been rewritten. -/
theorem RelIs_rewrite (f f' : RelFile) (s : RelSpec) (L : List (Nat × List Nat)) (k : Nat)
    (p : Nat × List Nat) (r : List Nat) (z : Nat) (hi : RelIs f s L) (hp : L[k]? = some p)
    (hr : r.length ≤ f.recMax) (hlen : ∀ old, s.recs (k + 1) = some old → r.length = old.length)
    (hf : f' = { f with
      readDone := false
      area := overlay r f.area
      size := z
      stream := ⟨flat (putSlot f.recMax L k (p.1, overlay r f.area)), (k + 1) * (f.recMax + 8)⟩ }) :
    ∃ L', RelIs f' (if (s.recs (k + 1)).isSome = true then { s with
        readOk := false
        recs := setRec s.recs (k + 1) (some r)
        cursor := some (k + 1 + 1) } else { s with
        readOk := false
        cursor := some (k + 1 + 1) }) L' := by
  have hk : k < L.length := by
    rcases Nat.lt_or_ge k L.length with h | h
    · exact h
    · rw [List.getElem?_eq_none h] at hp; cases hp
  have harea : (overlay r f.area).length = f.recMax := by
    rw [overlay_length r f.area (by rw [hi.area]; exact hr), hi.area]
  have hpm := hi.ok p (List.mem_of_getElem? hp)
  have hlenput : (putSlot f.recMax L k (p.1, overlay r f.area)).length = L.length := by
    rw [putSlot_length]; omega
  have hrk : s.recs (k + 1) = slotRec p := by rw [hi.recs, recsOf_in L k p hp]
  subst hf
  refine ⟨putSlot f.recMax L k (p.1, overlay r f.area), ?_⟩
  by_cases h0 : 0 < p.1
  · have hsome : (s.recs (k + 1)).isSome = true := by rw [hrk, slotRec_isSome]; exact h0
    rw [if_pos hsome]
    have hrl : r.length = p.1 := by
      have := hlen (p.2.take p.1) (by rw [hrk, slotRec_pos p h0])
      rw [this, List.length_take]; omega
    have hslot : slotRec (p.1, overlay r f.area) = some r := by
      unfold slotRec
      rw [if_neg (by simp only; omega), ← hrl]
      exact congrArg some (overlay_take r f.area)
    refine ⟨hi.sa, putSlot_ok _ _ _ _ hi.ok harea hpm.2, hi.max, hi.pos1, rfl, ?_, ?_, ?_, hi.key, hi.first,
      hi.eof, rfl, harea, fun h => by cases h⟩
    · rw [hlenput]; exact hi.ext
    · simp only [putSlot_recs, hslot, hi.recs]
    · intro c hc
      simp only [Option.some.injEq] at hc
      subst hc
      exact ⟨by omega, rfl⟩
  · have hnone : s.recs (k + 1) = none := by rw [hrk, slotRec_zero p h0]
    rw [if_neg (by rw [hnone]; simp)]
    refine ⟨hi.sa, putSlot_ok _ _ _ _ hi.ok harea hpm.2, hi.max, hi.pos1, rfl, ?_, ?_, ?_, hi.key, hi.first,
      hi.eof, rfl, harea, fun h => by cases h⟩
    · rw [hlenput]; exact hi.ext
    · simp only [putSlot_recs]
      rw [slotRec_zero (p.1, overlay r f.area) h0, ← hi.recs, setRec_same _ _ _ hnone]
    · intro c hc
      simp only [Option.some.injEq] at hc
      subst hc
      exact ⟨by omega, rfl⟩

theorem StepOk_rewrite (f : RelFile) (s : RelSpec) (L : List (Nat × List Nat)) (r : List Nat)
    (hi : RelIs f s L) (hl : s.legal f.recMin f.recMax (.rewrite r)) : StepOk f s (.rewrite r) := by
  obtain ⟨l1, l2⟩ := hl
  have hsa := hi.sa
  have hrd := hi.rd
  have hext := hi.ext
  have harea : (overlay r f.area).length = f.recMax := by
    rw [overlay_length r f.area (by rw [hi.area]; exact l1), hi.area]
  have htake : (overlay r f.area).take f.recMax = overlay r f.area :=
    List.take_of_length_le (by omega)
  cases hs : s.seqAccess with
  | true =>
    rw [hs, if_pos rfl] at l2
    rw [hs] at hsa
    cases hro : s.readOk with
    | false =>
      rw [hro] at hrd
      have hstep : relStep f (.rewrite r) = (43, { f with readDone := false, area := overlay r f.area }) := by
        unfold relStep relExRewrite
        simp [hsa, hrd]
      have hsp : s.step (.rewrite r) = (43, none, s) := by
        unfold RelSpec.step
        simp [hs, hro]
      refine ⟨by rw [hstep, hsp], by rw [hstep, hsp]; rfl, by rw [hstep], by rw [hstep], L, ?_⟩
      rw [hstep, hsp]
      exact ⟨hi.sa, hi.ok, hi.max, hi.pos1, hi.data, hi.ext, hi.recs, hi.cur, hi.key, hi.first, hi.eof,
        hro.symm, harea, hi.readOk⟩
    | true =>
      rw [hro] at hrd
      obtain ⟨c, hc1, hc2, hc3⟩ := hi.readOk hro
      obtain ⟨k, rfl⟩ : ∃ k, c = k + 1 := ⟨c - 1, by omega⟩
      have hpos := (hi.cur _ hc2).2
      rw [Nat.add_sub_cancel] at hpos
      have hst := stream_eta f.stream _ _ hi.data hpos
      have hk : k < L.length := by
        rcases Nat.lt_or_ge k L.length with h | h
        · exact h
        · rw [hi.recs, recsOf_out L _ (by omega)] at hc3; cases hc3
      have hp : L[k]? = some L[k] := List.getElem?_eq_getElem hk
      have hw := write_data f.recMax L k _ (overlay r f.area) hi.ok hp harea
      have hseek : (f.stream.seekCur (-(f.recMax : Int))).getD f.stream =
          ⟨flat L, k * (f.recMax + 8) + 8⟩ := by
        rw [hst]
        unfold Stream.seekCur Stream.seekSet
        have e : ((k + 1) * (f.recMax + 8) : Nat) = k * (f.recMax + 8) + (f.recMax + 8) := Nat.succ_mul _ _
        simp only
        rw [e, if_neg (by omega)]
        simp only [Option.getD_some, Stream.mk.injEq, true_and]
        omega
      have hstep : relStep f (.rewrite r) = (0, { f with
          readDone := false
          area := overlay r f.area
          stream := ⟨flat (putSlot f.recMax L k (L[k].1, overlay r f.area)), (k + 1) * (f.recMax + 8)⟩ }) := by
        unfold relStep relExRewrite
        simp only
        rw [if_neg (by simp [hrd])]
        unfold relativeRewrite
        simp only
        rw [if_pos hsa, hseek, htake, hw]
      have hsp : s.step (.rewrite r) = (0, none, if (s.recs (k + 1)).isSome = true then { s with
          readOk := false
          recs := setRec s.recs (k + 1) (some r)
          cursor := some (k + 1 + 1) } else { s with
          readOk := false
          cursor := some (k + 1 + 1) }) := by
        unfold RelSpec.step
        have : ¬ s.extent < k + 1 := by omega
        simp [hs, hro, hc2, hc3, this]
      obtain ⟨L', hL'⟩ := RelIs_rewrite f (relStep f (.rewrite r)).2 s L k _ r f.size hi hp l1
        (fun old ho => l2 (k + 1) old hro hc2 ho) (by rw [hstep])
      exact ⟨by rw [hstep, hsp], by rw [hstep, hsp]; rfl, by rw [hstep], by rw [hstep], L',
        by rw [hsp]; exact hL'⟩
  | false =>
    rw [hs] at l2
    simp only [Bool.false_eq_true, if_false] at l2
    rw [hs] at hsa
    obtain ⟨k, hk, hlen⟩ := l2
    have hfk := hi.key k hk
    cases k with
    | zero =>
      have hstep : relStep f (.rewrite r) = (23, { f with readDone := false, area := overlay r f.area }) := by
        unfold relStep relExRewrite
        simp only
        rw [if_neg (by simp [hsa])]
        unfold relativeRewrite
        have := seekHdr_neg f.stream (f.recMax + 8) (by omega)
        simp only [RelFile.relsize]
        rw [if_neg (by simp [hsa]), show (f.key : Int) - 1 = -1 by omega, this]
      have hsp : s.step (.rewrite r) = (23, none, { s with readOk := false }) := by
        unfold RelSpec.step
        simp [hs, hk]
      refine ⟨by rw [hstep, hsp], by rw [hstep, hsp]; rfl, by rw [hstep], by rw [hstep], L, ?_⟩
      rw [hstep, hsp]
      exact ⟨hi.sa, hi.ok, hi.max, hi.pos1, hi.data, hi.ext, hi.recs, hi.cur, hi.key, hi.first, hi.eof,
        rfl, harea, fun h => by cases h⟩
    | succ k =>
      have hseek : seekHdr f.stream (((f.key : Int) - 1) * ((f.recMax + 8 : Nat) : Int)) =
          readHdr ⟨flat L, k * (f.recMax + 8)⟩ := by
        rw [show (f.key : Int) - 1 = (k : Int) by omega, seekHdr_nat, hi.data]
      by_cases hin : k < L.length
      · have hp : L[k]? = some L[k] := List.getElem?_eq_getElem hin
        have hhdr := readHdr_in f.recMax L k _ hi.max hi.ok hp
        have hw := write_data f.recMax L k _ (overlay r f.area) hi.ok hp harea
        have hstep : relStep f (.rewrite r) = (0, { f with
            readDone := false
            area := overlay r f.area
            size := L[k].1
            stream := ⟨flat (putSlot f.recMax L k (L[k].1, overlay r f.area)), (k + 1) * (f.recMax + 8)⟩ }) := by
          unfold relStep relExRewrite
          simp only
          rw [if_neg (by simp [hsa])]
          unfold relativeRewrite
          simp only [RelFile.relsize]
          rw [if_neg (by simp [hsa]), hseek, hhdr]
          simp only [htake, hw]
        have hsp : s.step (.rewrite r) = (0, none, if (s.recs (k + 1)).isSome = true then { s with
            readOk := false
            recs := setRec s.recs (k + 1) (some r)
            cursor := some (k + 1 + 1) } else { s with
            readOk := false
            cursor := some (k + 1 + 1) }) := by
          unfold RelSpec.step
          have : ¬ s.extent < k + 1 := by omega
          simp only [hs, hk, this, Bool.false_and, Bool.false_eq_true, if_false, Option.getD_some]
          rw [if_neg (by omega)]
          split <;> rfl
        obtain ⟨L', hL'⟩ := RelIs_rewrite f (relStep f (.rewrite r)).2 s L k _ r L[k].1 hi hp l1
          hlen (by rw [hstep])
        exact ⟨by rw [hstep, hsp], by rw [hstep, hsp]; rfl, by rw [hstep], by rw [hstep], L',
          by rw [hsp]; exact hL'⟩
      · have hout := readHdr_out f.recMax L k hi.ok (by omega)
        have hstep : relStep f (.rewrite r) = (23, { f with
            readDone := false
            area := overlay r f.area
            stream := ⟨flat L, k * (f.recMax + 8)⟩ }) := by
          unfold relStep relExRewrite
          simp only
          rw [if_neg (by simp [hsa])]
          unfold relativeRewrite
          simp only [RelFile.relsize]
          rw [if_neg (by simp [hsa]), hseek, hout]
        have hsp : s.step (.rewrite r) = (23, none, { s with
            readOk := false
            cursor := some (k + 1) }) := by
          unfold RelSpec.step
          have : s.extent < k + 1 := by omega
          simp [hs, hk, this]
        refine ⟨by rw [hstep, hsp], by rw [hstep, hsp]; rfl, by rw [hstep], by rw [hstep], L, ?_⟩
        rw [hstep, hsp]
        refine ⟨hi.sa, hi.ok, hi.max, hi.pos1, rfl, hi.ext, hi.recs, ?_, hi.key, hi.first, hi.eof,
          rfl, harea, fun h => by cases h⟩
        intro c hc
        simp only [Option.some.injEq] at hc
        subst hc
        exact ⟨by omega, rfl⟩

/-- Clearing the length field of a slot. -/
theorem write_hdr (m : Nat) (L : List (Nat × List Nat)) (k : Nat) (p : Nat × List Nat) (n : Nat)
    (h : SlotsOk m L) (hp : L[k]? = some p) :
    Stream.fwrite ⟨flat L, k * (m + 8)⟩ (leBytes 8 n) =
      ⟨flat (putSlot m L k (n, p.2)), k * (m + 8) + 8⟩ := by
  have hk : k < L.length := by
    rcases Nat.lt_or_ge k L.length with h | h
    · exact h
    · rw [List.getElem?_eq_none h] at hp; cases hp
  obtain ⟨A, q, C, rfl, hA, hq, g1, g2, g3⟩ := slots_split m L k hk h
  rw [hq] at hp
  obtain rfl := Option.some.inj hp
  have hput : putSlot m (A ++ q :: C) k (n, q.2) = A ++ (n, q.2) :: C := by
    unfold putSlot
    rw [if_pos hk, ← hA]
    simp
  rw [hput, flat_append, flat_cons, flat_append, flat_cons, slotImg, slotImg]
  have := Stream.fwrite_at (flat A) (leBytes 8 q.1) (leBytes 8 n) (q.2 ++ flat C)
    (by rw [leBytes_length, leBytes_length])
  have e1 : flat A ++ (leBytes 8 q.1 ++ q.2 ++ flat C) = flat A ++ leBytes 8 q.1 ++ (q.2 ++ flat C) := by simp
  rw [e1, ← g3, this]
  simp only [List.length_append, leBytes_length, List.append_assoc]

theorem StepOk_delete (f : RelFile) (s : RelSpec) (L : List (Nat × List Nat))
    (hi : RelIs f s L) (hl : s.legal f.recMin f.recMax .delete) : StepOk f s .delete := by
  have hsa := hi.sa
  have hrd := hi.rd
  have hext := hi.ext
  by_cases h43 : s.seqAccess = true ∧ s.readOk = false
  · obtain ⟨hs, hro⟩ := h43
    rw [hs] at hsa
    rw [hro] at hrd
    have hstep : relStep f .delete = (43, { f with readDone := false }) := by
      unfold relStep relExDelete
      simp [hsa, hrd]
    have hsp : s.step .delete = (43, none, s) := by
      unfold RelSpec.step
      simp [hs, hro]
    refine ⟨by rw [hstep, hsp], by rw [hstep, hsp]; rfl, by rw [hstep], by rw [hstep], L, ?_⟩
    rw [hstep, hsp]
    exact ⟨hi.sa, hi.ok, hi.max, hi.pos1, hi.data, hi.ext, hi.recs, hi.cur, hi.key, hi.first, hi.eof,
      hro.symm, hi.area, hi.readOk⟩
  · have hg : (s.seqAccess && !s.readOk) = false := by
      cases h1 : s.seqAccess <;> cases h2 : s.readOk <;> simp_all
    have hgf : (f.seqAccess && !f.readDone) = false := by rw [hsa, hrd, hg]
    obtain ⟨k, hk⟩ : ∃ k, s.key = some k := by
      unfold RelSpec.legal at hl
      simp only at hl
      cases hs : s.seqAccess with
      | true =>
        rw [hs, if_pos rfl] at hl
        have hro : s.readOk = true := by
          cases h2 : s.readOk
          · exact absurd ⟨hs, h2⟩ h43
          · rfl
        obtain ⟨c, _, hc2, _⟩ := hi.readOk hro
        exact ⟨c, hl c hro hc2⟩
      | false =>
        rw [hs] at hl
        simp only [Bool.false_eq_true, if_false] at hl
        exact Option.ne_none_iff_exists'.1 hl
    have hfk := hi.key k hk
    cases k with
    | zero =>
      have hstep : relStep f .delete = (23, { f with readDone := false }) := by
        unfold relStep relExDelete
        simp only
        rw [if_neg (by rw [hgf]; simp)]
        unfold relativeDelete
        have := seekHdr_neg f.stream (f.recMax + 8) (by omega)
        simp only [RelFile.relsize]
        rw [show (f.key : Int) - 1 = -1 by omega, this]
      have hsp : s.step .delete = (23, none, { s with readOk := false }) := by
        unfold RelSpec.step
        simp [hg, hk]
      refine ⟨by rw [hstep, hsp], by rw [hstep, hsp]; rfl, by rw [hstep], by rw [hstep], L, ?_⟩
      rw [hstep, hsp]
      exact ⟨hi.sa, hi.ok, hi.max, hi.pos1, hi.data, hi.ext, hi.recs, hi.cur, hi.key, hi.first, hi.eof,
        rfl, hi.area, fun h => by cases h⟩
    | succ k =>
      have hseek : seekHdr f.stream (((f.key : Int) - 1) * ((f.recMax + 8 : Nat) : Int)) =
          readHdr ⟨flat L, k * (f.recMax + 8)⟩ := by
        rw [show (f.key : Int) - 1 = (k : Int) by omega, seekHdr_nat, hi.data]
      by_cases hin : k < L.length
      · have hp : L[k]? = some L[k] := List.getElem?_eq_getElem hin
        have hhdr := readHdr_in f.recMax L k _ hi.max hi.ok hp
        have hw := write_hdr f.recMax L k _ 0 hi.ok hp
        have hstep : relStep f .delete = (0, { f with
            readDone := false
            size := 0
            stream := ⟨flat (putSlot f.recMax L k (0, L[k].2)), (k + 1) * (f.recMax + 8)⟩ }) := by
          unfold relStep relExDelete
          simp only
          rw [if_neg (by rw [hgf]; simp)]
          unfold relativeDelete
          simp only [RelFile.relsize]
          rw [hseek, hhdr]
          simp only [back8_at, hw]
          have : k * (f.recMax + 8) + 8 + f.recMax = (k + 1) * (f.recMax + 8) := by
            rw [Nat.succ_mul]; omega
          rw [this]
        have hsp : s.step .delete = (0, none, { s with
            readOk := false
            recs := setRec s.recs (k + 1) none
            cursor := some (k + 1 + 1) }) := by
          unfold RelSpec.step
          have : ¬ s.extent < k + 1 := by omega
          simp [hg, hk, this]
        refine ⟨by rw [hstep, hsp], by rw [hstep, hsp]; rfl, by rw [hstep], by rw [hstep],
          putSlot f.recMax L k (0, L[k].2), ?_⟩
        rw [hstep, hsp]
        refine ⟨hi.sa, putSlot_ok _ _ _ _ hi.ok (hi.ok _ (List.getElem_mem hin)).1 (by simp), hi.max,
          hi.pos1, rfl, ?_, ?_, ?_, hi.key, hi.first, hi.eof, rfl, hi.area, fun h => by cases h⟩
        · simp only [putSlot_length, hext]; omega
        · simp only [putSlot_recs, hi.recs]; rfl
        · intro c hc
          simp only [Option.some.injEq] at hc
          subst hc
          exact ⟨by omega, rfl⟩
      · have hout := readHdr_out f.recMax L k hi.ok (by omega)
        have hstep : relStep f .delete = (23, { f with
            readDone := false
            stream := ⟨flat L, k * (f.recMax + 8)⟩ }) := by
          unfold relStep relExDelete
          simp only
          rw [if_neg (by rw [hgf]; simp)]
          unfold relativeDelete
          simp only [RelFile.relsize]
          rw [hseek, hout]
        have hsp : s.step .delete = (23, none, { s with
            readOk := false
            cursor := some (k + 1) }) := by
          unfold RelSpec.step
          have : s.extent < k + 1 := by omega
          simp [hg, hk, this]
        refine ⟨by rw [hstep, hsp], by rw [hstep, hsp]; rfl, by rw [hstep], by rw [hstep], L, ?_⟩
        rw [hstep, hsp]
        refine ⟨hi.sa, hi.ok, hi.max, hi.pos1, rfl, hi.ext, hi.recs, ?_, hi.key, hi.first, hi.eof,
          rfl, hi.area, fun h => by cases h⟩
        intro c hc
        simp only [Option.some.injEq] at hc
        subst hc
        exact ⟨by omega, rfl⟩

theorem startUp_neg (R : Nat) (hR : 0 < R) (once : Bool) (fuel : Nat) (s : Stream) :
    startUp R once fuel s (-1) = (none, s) := by
  cases fuel with
  | zero => rfl
  | succ fuel => rw [startUp, seekHdr_neg s R hR]

theorem startDown_neg (R : Nat) (hR : 0 < R) (fuel : Nat) (s : Stream) (k : Int) (hk : k < 0) :
    startDown R fuel s k = (none, s) := by
  cases fuel with
  | zero => rfl
  | succ fuel =>
    rw [startDown]
    unfold seekHdr Stream.seekSet
    rw [if_pos (by exact Int.mul_neg_of_neg_of_pos hk (by omega))]

theorem startDown_out (m : Nat) (L : List (Nat × List Nat)) (h : SlotsOk m L) (fuel : Nat) (s : Stream)
    (k : Nat) (hs : s.data = flat L) (hk : L.length ≤ k) :
    ∃ s' : Stream, s'.data = flat L ∧ startDown (m + 8) fuel s (k : Int) = (none, s') := by
  cases fuel with
  | zero => exact ⟨s, hs, rfl⟩
  | succ fuel =>
    refine ⟨⟨flat L, k * (m + 8)⟩, rfl, ?_⟩
    rw [startDown, seekHdr_nat, hs, readHdr_out m L k h hk]

theorem start_cases (f : RelFile) (s : RelSpec) (L : List (Nat × List Nat)) (c : StartCond) (k : Nat)
    (hi : RelIs f s L) (hk : f.key = k) :
    (s.startTarget k c = none ∧ ∃ s' : Stream, s'.data = flat L ∧
      relativeStart f c = (23, { f with stream := s' })) ∨
    (∃ j : Nat, s.startTarget k c = some (j + 1) ∧ relativeStart f c = (0, { f with
      stream := ⟨flat L, j * (f.recMax + 8)⟩
      key := j + 1 })) := by
  have hrec := hi.recs
  have hext := hi.ext
  have hfl : (flat L).length = L.length * (f.recMax + 8) := flat_length _ _ hi.ok
  have hle : L.length ≤ L.length * (f.recMax + 8) := Nat.le_mul_of_pos_right _ (by omega)
  have hR : 0 < f.recMax + 8 := by omega
  have hN : ∀ j : Nat, ((j : Int) + 1).toNat = j + 1 := by intro j; omega
  have hs := hi.data
  cases c with
  | eq =>
    unfold relativeStart RelSpec.startTarget
    simp only [RelFile.relsize, hk, hrec]
    cases k with
    | zero =>
      left
      refine ⟨by simp [recsOf], f.stream, hs, ?_⟩
      rw [show ((0 : Nat) : Int) - 1 = -1 by omega, startUp_neg _ hR]
    | succ k =>
      rw [show ((k + 1 : Nat) : Int) - 1 = (k : Int) by omega, startUp, seekHdr_nat, hs]
      by_cases hin : k < L.length
      · have hp : L[k]? = some L[k] := List.getElem?_eq_getElem hin
        rw [readHdr_in f.recMax L k _ hi.max hi.ok hp, recsOf_in L k _ hp]
        simp only [if_true]
        by_cases h0 : 0 < L[k].1
        · right
          refine ⟨k, by rw [if_pos ((slotRec_isSome _).2 h0)], ?_⟩
          rw [if_pos h0, back8_at]
          simp only [hN]
        · left
          refine ⟨by rw [if_neg (by rw [slotRec_isSome]; exact h0)], ⟨flat L, k * (f.recMax + 8) + 8⟩, rfl, ?_⟩
          rw [if_neg h0]
      · left
        rw [readHdr_out f.recMax L k hi.ok (by omega), recsOf_out L _ (by omega)]
        exact ⟨by simp, _, rfl, rfl⟩
  | ge =>
    unfold relativeStart RelSpec.startTarget
    simp only [RelFile.relsize, hk, hrec, hext]
    cases k with
    | zero =>
      left
      refine ⟨by simp, f.stream, hs, ?_⟩
      rw [show ((0 : Nat) : Int) - 1 = -1 by omega, startUp_neg _ hR]
    | succ k =>
      rw [show ((k + 1 : Nat) : Int) - 1 = (k : Int) by omega, if_neg (by omega)]
      rcases startUp_ok f.recMax L hi.max hi.ok (f.stream.data.length + 1) f.stream k hs
        (by rw [hs]; omega) with ⟨s', e1, e2, e3⟩ | ⟨j, e2, e3⟩
      · left
        exact ⟨e2, s', e1, by rw [e3]⟩
      · right
        exact ⟨j, e2, by rw [e3]; simp only [hN]⟩
  | gt =>
    unfold relativeStart RelSpec.startTarget
    simp only [RelFile.relsize, hk, hrec, hext]
    rw [show (k : Int) - 1 + 1 = (k : Int) by omega]
    rcases startUp_ok f.recMax L hi.max hi.ok (f.stream.data.length + 1) f.stream k hs
      (by rw [hs]; omega) with ⟨s', e1, e2, e3⟩ | ⟨j, e2, e3⟩
    · left
      exact ⟨e2, s', e1, by rw [e3]⟩
    · right
      exact ⟨j, e2, by rw [e3]; simp only [hN]⟩
  | le =>
    unfold relativeStart RelSpec.startTarget
    simp only [RelFile.relsize, hk, hrec, hext]
    by_cases hin : k ≤ L.length
    · rw [if_pos hin]
      rcases startDown_ok f.recMax L hi.max hi.ok (k + 2) f.stream k hs (by omega) hin with
        ⟨s', e1, e2, e3⟩ | ⟨j, e2, e3⟩
      · left
        exact ⟨e2, s', e1, by rw [e3]⟩
      · right
        exact ⟨j, e2, by rw [e3]; simp only [hN]⟩
    · left
      rw [if_neg hin]
      obtain ⟨k', rfl⟩ : ∃ k', k = k' + 1 := ⟨k - 1, by omega⟩
      obtain ⟨s', e1, e2⟩ := startDown_out f.recMax L hi.ok (k' + 1 + 2) f.stream k' hs (by omega)
      refine ⟨rfl, s', e1, ?_⟩
      rw [show ((k' + 1 : Nat) : Int) - 1 = (k' : Int) by omega, e2]
  | lt =>
    unfold relativeStart RelSpec.startTarget
    simp only [RelFile.relsize, hk, hrec, hext]
    by_cases hin : k ≤ L.length + 1
    · rw [if_pos hin]
      cases k with
      | zero =>
        left
        refine ⟨rfl, f.stream, hs, ?_⟩
        rw [startDown_neg _ hR _ _ _ (by omega)]
      | succ k =>
        rw [show ((k + 1 : Nat) : Int) - 1 - 1 = (k : Int) - 1 by omega, Nat.add_sub_cancel]
        rcases startDown_ok f.recMax L hi.max hi.ok (k + 1 + 2) f.stream k hs (by omega) (by omega) with
          ⟨s', e1, e2, e3⟩ | ⟨j, e2, e3⟩
        · left
          exact ⟨e2, s', e1, by rw [e3]⟩
        · right
          exact ⟨j, e2, by rw [e3]; simp only [hN]⟩
    · left
      rw [if_neg hin]
      obtain ⟨k', rfl⟩ : ∃ k', k = k' + 2 := ⟨k - 2, by omega⟩
      obtain ⟨s', e1, e2⟩ := startDown_out f.recMax L hi.ok (k' + 2 + 2) f.stream k' hs (by omega)
      refine ⟨rfl, s', e1, ?_⟩
      rw [show ((k' + 2 : Nat) : Int) - 1 - 1 = (k' : Int) by omega, e2]

theorem StepOk_start (f : RelFile) (s : RelSpec) (L : List (Nat × List Nat)) (c : StartCond)
    (hi : RelIs f s L) (hl : s.legal f.recMin f.recMax (.start c)) : StepOk f s (.start c) := by
  obtain ⟨k, hk⟩ := Option.ne_none_iff_exists'.1 hl
  have hfk := hi.key k hk
  have hi' : RelIs { f with readDone := false, firstRead := false } { s with readOk := false, first := false } L :=
    ⟨hi.sa, hi.ok, hi.max, hi.pos1, hi.data, hi.ext, hi.recs, hi.cur, hi.key, rfl, hi.eof, rfl, hi.area,
      fun h => by cases h⟩
  rcases start_cases _ _ L c k hi' hfk with ⟨e1, s', e2, e3⟩ | ⟨j, e1, e2⟩
  · have hstep : relStep f (.start c) = (23, { f with
        readDone := false
        firstRead := false
        stream := s' }) := by
      unfold relStep relExStart
      simp only [e3]
      rfl
    have hsp : s.step (.start c) = (23, none, { s with
        readOk := false
        first := false
        cursor := none }) := by
      unfold RelSpec.step
      simp only
      rw [show s.key.getD 0 = k by rw [hk]; rfl, e1]
    refine ⟨by rw [hstep, hsp], by rw [hstep, hsp]; rfl, by rw [hstep], by rw [hstep], L, ?_⟩
    rw [hstep, hsp]
    exact ⟨hi.sa, hi.ok, hi.max, hi.pos1, e2, hi.ext, hi.recs, (fun c hc => by cases hc), hi.key, rfl,
      hi.eof, rfl, hi.area, fun h => by cases h⟩
  · have hstep : relStep f (.start c) = (0, { f with
        readDone := false
        firstRead := true
        endOfFile := false
        stream := ⟨flat L, j * (f.recMax + 8)⟩
        key := j + 1 }) := by
      unfold relStep relExStart
      simp only [e2, if_true]
    have hsp : s.step (.start c) = (0, none, { s with
        readOk := false
        first := true
        ended := false
        key := some (j + 1)
        cursor := some (j + 1) }) := by
      unfold RelSpec.step
      simp only
      rw [show s.key.getD 0 = k by rw [hk]; rfl, e1]
    refine ⟨by rw [hstep, hsp], by rw [hstep, hsp]; rfl, by rw [hstep], by rw [hstep], L, ?_⟩
    rw [hstep, hsp]
    refine ⟨hi.sa, hi.ok, hi.max, hi.pos1, rfl, hi.ext, hi.recs, ?_, ?_, rfl, rfl, rfl, hi.area,
      fun h => by cases h⟩
    · intro c hc
      simp only [Option.some.injEq] at hc
      subst hc
      exact ⟨by omega, rfl⟩
    · intro i hik
      simp only [Option.some.injEq] at hik
      exact hik

theorem StepOk_all (f : RelFile) (s : RelSpec) (L : List (Nat × List Nat)) (op : RelOp)
    (hi : RelIs f s L) (hl : s.legal f.recMin f.recMax op) : StepOk f s op := by
  cases op with
  | setKey n => exact StepOk_setKey f s L n hi
  | write r => exact StepOk_write f s L r hi hl
  | read => exact StepOk_read f s L hi hl
  | readNext => exact StepOk_readNext f s L hi hl
  | rewrite r => exact StepOk_rewrite f s L r hi hl
  | delete => exact StepOk_delete f s L hi hl
  | start c => exact StepOk_start f s L c hi hl

theorem relRun_ok (ops : List RelOp) : ∀ (f : RelFile) (s : RelSpec) (L : List (Nat × List Nat)),
    RelIs f s L → s.Legal f.recMin f.recMax ops → Follows (relRun f ops) (s.run ops) := by
  induction ops with
  | nil => intro f s L _ _; simp [relRun, RelSpec.run, Follows]
  | cons op ops ih =>
    intro f s L hi hl
    obtain ⟨h1, h2, h3, h4, L', h5⟩ := StepOk_all f s L op hi hl.1
    have := ih (relStep f op).2 (s.step op).2.2 L' h5 (by rw [h3, h4]; exact hl.2)
    rw [relRun, RelSpec.run]
    simp only [Follows]
    exact ⟨h1, h2, fun j hj => h5.key j hj, this⟩

/-- The specification after a history. -/
def RelSpec.after (s : RelSpec) : List RelOp → RelSpec
  | [] => s
  | op :: ops => RelSpec.after (s.step op).2.2 ops

theorem relAfter_ok (ops : List RelOp) : ∀ (f : RelFile) (s : RelSpec) (L : List (Nat × List Nat)),
    RelIs f s L → s.Legal f.recMin f.recMax ops →
    ∃ L', RelIs (relAfter f ops) (s.after ops) L' ∧ (relAfter f ops).recMax = f.recMax := by
  induction ops with
  | nil => intro f s L hi _; exact ⟨L, hi, rfl⟩
  | cons op ops ih =>
    intro f s L hi hl
    obtain ⟨_, _, h3, h4, L', h5⟩ := StepOk_all f s L op hi hl.1
    obtain ⟨L'', h6, h7⟩ := ih _ _ L' h5 (by rw [h3, h4]; exact hl.2)
    exact ⟨L'', h6, by rw [relAfter, h7, h4]⟩

theorem relOpen_is (seqAccess : Bool) (recMin recMax : Nat) (s : RelSpec) (L : List (Nat × List Nat))
    (area : List Nat) (key : Nat) (hm : recMax < 2 ^ 64) (h1 : 1 ≤ recMax) (ha : area.length = recMax)
    (hok : SlotsOk recMax L) (hext : s.extent = L.length) (hrec : s.recs = recsOf L) :
    RelIs (relOpen seqAccess recMin recMax (flat L) area key) (s.reopen seqAccess) L := by
  refine ⟨rfl, hok, hm, h1, rfl, hext, hrec, ?_, (fun k hk => by cases hk), rfl, rfl, rfl, ha,
    fun h => by cases h⟩
  intro c hc
  simp only [RelSpec.reopen, Option.some.injEq] at hc
  subst hc
  simp [relOpen]

/-- **C39.** For every legal history of statements on a new relative file the statuses, the records
READ gives and the RELATIVE KEY item are those of a map from record numbers to records. -/
theorem C39_history (seqAccess : Bool) (recMin recMax : Nat) (area : List Nat) (key : Nat)
    (ops : List RelOp) (hm : recMax < 2 ^ 64) (h1 : 1 ≤ recMax) (ha : area.length = recMax)
    (hl : (RelSpec.new seqAccess).Legal recMin recMax ops) :
    Follows (relRun (relOpen seqAccess recMin recMax [] area key) ops)
      ((RelSpec.new seqAccess).run ops) := by
  have := relOpen_is seqAccess recMin recMax (RelSpec.new seqAccess) [] area key hm h1 ha
    (by intro p hp; cases hp) rfl (by funext k; simp [RelSpec.new, recsOf])
  exact relRun_ok ops _ _ [] this hl

/-- **C39.** The same when a file left by a history is opened again, with any access mode. -/
theorem C39_reopen (acc acc' : Bool) (recMin recMax : Nat) (area area' : List Nat) (key key' : Nat)
    (ops ops' : List RelOp) (hm : recMax < 2 ^ 64) (h1 : 1 ≤ recMax) (ha : area.length = recMax)
    (ha' : area'.length = recMax)
    (hl : (RelSpec.new acc).Legal recMin recMax ops)
    (hl' : (((RelSpec.new acc).after ops).reopen acc').Legal recMin recMax ops') :
    Follows (relRun (relOpen acc' recMin recMax
        (relAfter (relOpen acc recMin recMax [] area key) ops).stream.data area' key') ops')
      ((((RelSpec.new acc).after ops).reopen acc').run ops') := by
  have h0 : RelIs (relOpen acc recMin recMax [] area key) (RelSpec.new acc) [] :=
    relOpen_is acc recMin recMax (RelSpec.new acc) [] area key hm h1 ha
    (by intro p hp; cases hp) rfl (by funext k; simp [RelSpec.new, recsOf])
  obtain ⟨L', hi, hmx⟩ := relAfter_ok ops _ _ [] h0 hl
  have hmx' : (relAfter (relOpen acc recMin recMax [] area key) ops).recMax = recMax := hmx
  have hok := hi.ok
  rw [hmx'] at hok
  have := relOpen_is acc' recMin recMax ((RelSpec.new acc).after ops) L' area' key' hm h1 ha'
    hok hi.ext hi.recs
  rw [hi.data]
  exact relRun_ok ops' _ _ L' this hl'

/-! ### Enumeration in ascending order -/

/-- The numbers from `c` on that have a record, in ascending order. -/
def present (m : Nat → Option (List Nat)) (extent c : Nat) : List Nat :=
  (List.range' c (extent + 1 - c)).filter fun k => (m k).isSome

theorem present_rec (m : Nat → Option (List Nat)) (e c : Nat) :
    present m e c = if e < c then [] else if (m c).isSome then c :: present m e (c + 1)
      else present m e (c + 1) := by
  unfold present
  by_cases h : e < c
  · rw [if_pos h, show e + 1 - c = 0 by omega]; rfl
  · rw [if_neg h, show e + 1 - c = (e + 1 - (c + 1)) + 1 by omega, List.range'_succ, List.filter_cons]

theorem present_first (m : Nat → Option (List Nat)) (e : Nat) : ∀ (n c : Nat), e + 1 - c ≤ n →
    (present m e c = [] ∧ firstFrom m e c = none) ∨
    (∃ k, present m e c = k :: present m e (k + 1) ∧ firstFrom m e c = some k) := by
  intro n
  induction n with
  | zero =>
    intro c h
    left
    rw [present_rec, firstFrom_rec, if_pos (by omega), if_pos (by omega)]
    exact ⟨rfl, rfl⟩
  | succ n ih =>
    intro c h
    rw [present_rec, firstFrom_rec]
    by_cases hc : e < c
    · left; rw [if_pos hc, if_pos hc]; exact ⟨rfl, rfl⟩
    · rw [if_neg hc, if_neg hc]
      by_cases hm : (m c).isSome
      · right; rw [if_pos hm, if_pos hm]; exact ⟨c, rfl, rfl⟩
      · rw [if_neg hm, if_neg hm]
        exact ih (c + 1) (by omega)

theorem readNexts (n : Nat) : ∀ (s : RelSpec) (c : Nat), s.ended = false → s.cursor = some c →
    (s.first = true → c = 1) → (present s.recs s.extent c).length = n →
    s.run (List.replicate (n + 2) .readNext) =
      (present s.recs s.extent c).map (fun k => ⟨0, s.recs k, some k⟩) ++
        [⟨10, none, none⟩, ⟨46, none, none⟩] := by
  induction n with
  | zero =>
    intro s c he hc hf hn
    have hnil : present s.recs s.extent c = [] := List.length_eq_zero_iff.1 hn
    rcases present_first s.recs s.extent _ c (Nat.le_refl _) with ⟨_, h2⟩ | ⟨k, h1, _⟩
    · have hsp : s.step .readNext = (10, none, { s with
          readOk := false
          cursor := some (max c (s.extent + 1))
          ended := true
          key := none
          first := s.first && decide (s.extent < c) }) := by
        unfold RelSpec.step
        simp only [he, Bool.false_eq_true, if_false, hc, Option.getD_some, h2]
      rw [hnil]
      simp only [List.replicate, RelSpec.run, hsp]
      rfl
    · rw [hnil] at h1; cases h1
  | succ n ih =>
    intro s c he hc hf hn
    rcases present_first s.recs s.extent _ c (Nat.le_refl _) with ⟨h1, _⟩ | ⟨k, h1, h2⟩
    · rw [h1] at hn; cases hn
    · have hsp : s.step .readNext = (0, s.recs k, { s with
          readOk := true
          cursor := some (k + 1)
          first := false
          key := some k }) := by
        unfold RelSpec.step
        have : ¬ (s.first = true ∧ c ≠ 1) := fun h => h.2 (hf h.1)
        simp only [he, Bool.false_eq_true, if_false, hc, Option.getD_some, h2, this]
      rw [h1, List.length_cons] at hn
      have := ih { s with
          readOk := true
          cursor := some (k + 1)
          first := false
          key := some k } (k + 1) he rfl (by intro h; cases h) (by simp only; omega)
      rw [h1, List.replicate_succ, RelSpec.run, hsp]
      simp only [this]
      rfl

/-- **C39.** READ NEXT from the beginning gives all the records in ascending order of their numbers,
RELATIVE KEY being set to the number each time, then 10, then 46. -/
theorem C39_enumeration (acc acc' : Bool) (recMin recMax : Nat) (area area' : List Nat) (key key' : Nat)
    (ops : List RelOp) (hm : recMax < 2 ^ 64) (h1 : 1 ≤ recMax) (ha : area.length = recMax)
    (ha' : area'.length = recMax) (hl : (RelSpec.new acc).Legal recMin recMax ops) :
    let m := ((RelSpec.new acc).after ops).recs
    let nums := (List.range' 1 ((RelSpec.new acc).after ops).extent).filter fun k => (m k).isSome
    Follows (relRun (relOpen acc' recMin recMax
        (relAfter (relOpen acc recMin recMax [] area key) ops).stream.data area' key')
        (List.replicate (nums.length + 2) .readNext))
      (nums.map (fun k => ⟨0, m k, some k⟩) ++ [⟨10, none, none⟩, ⟨46, none, none⟩]) := by
  have hleg : ∀ (n : Nat) (s : RelSpec), s.cursor ≠ none →
      s.Legal recMin recMax (List.replicate n .readNext) := by
    intro n
    induction n with
    | zero => intro s _; trivial
    | succ n ih =>
      intro s hs
      refine ⟨fun _ => hs, ih _ ?_⟩
      simp only [RelSpec.step]
      split
      · exact hs
      · split <;> simp
  have := C39_reopen acc acc' recMin recMax area area' key key' ops
    (List.replicate (((List.range' 1 ((RelSpec.new acc).after ops).extent).filter fun k =>
      (((RelSpec.new acc).after ops).recs k).isSome).length + 2) .readNext) hm h1 ha ha' hl
    (hleg _ _ (by simp [RelSpec.reopen]))
  rw [readNexts _ (((RelSpec.new acc).after ops).reopen acc') 1 rfl rfl (fun _ => rfl)
    (by simp [present, RelSpec.reopen])] at this
  simpa [present, RelSpec.reopen] using this

/-! ### Non-vacuity and findings -/

/-- Records 2 and 5 written, 5 read, 2 deleted, READ NEXT from the beginning. -/
def exRel : List RelOp :=
  [.setKey 5, .write [65, 66], .setKey 2, .write [67], .write [68], .setKey 5, .read, .setKey 2,
   .read, .rewrite [70], .delete, .read, .setKey 1, .start .ge, .readNext, .readNext, .readNext]

example : (RelSpec.new false).Legal 1 2 exRel ∧
    relRun (relOpen false 1 2 [] [9, 9] 0) exRel =
      [(0, none, 5), (0, none, 5), (0, none, 2), (0, none, 2), (22, none, 2), (0, none, 5),
       (0, some [65, 66], 5), (0, none, 2), (0, some [67], 2), (0, none, 2), (0, none, 2),
       (23, none, 2), (0, none, 1), (0, none, 5), (0, some [65, 66], 1), (10, none, 1),
       (46, none, 1)] := by
  refine ⟨?_, by decide +kernel⟩
  simp [exRel, RelSpec.Legal, RelSpec.legal, RelSpec.step, RelSpec.new, setRec, RelSpec.startTarget,
    firstFrom, List.range'_succ, List.find?]

/-- Finding: after START the first READ NEXT puts 1 into RELATIVE KEY whatever record it reads, and
DELETE - also with sequential access, where it should delete the record last read - uses that item:
START at 2, READ NEXT (record 2), DELETE deletes record 1. -/
theorem C39_finding_start_delete :
    let file := (relAfter (relOpen true 2 2 [] [9, 9] 0) [.write [65, 65], .write [66, 66]]).stream.data
    let f := relOpen true 2 2 file [9, 9] 0
    let ops : List RelOp := [.setKey 2, .start .eq, .readNext, .delete]
    relRun f ops = [(0, none, 2), (0, none, 2), (0, some [66, 66], 1), (0, none, 1)] ∧
    relRun (relOpen false 2 2 (relAfter f ops).stream.data [9, 9] 0) [.setKey 1, .read, .setKey 2, .read] =
      [(0, none, 1), (23, none, 1), (0, none, 2), (0, some [66, 66], 2)] := by decide +kernel

/-- Finding: an unsuccessful START of a number whose record has been deleted leaves the stream in the
middle of the slot; READ NEXT then takes data bytes for a length and gives, with status 00, a record
that was never written (and a length greater than the record area); a sequential REWRITE of it
overwrites the length field of the following record. -/
theorem C39_finding_start_garbage :
    let w : List RelOp := [.write [65, 65, 65, 65, 65, 65, 65, 65, 65], .write [66, 66, 66, 66, 66, 66, 66, 66, 66]]
    let area := List.replicate 9 9
    let f0 := relAfter (relOpen true 9 9 [] area 0) w
    let f1 := relAfter (relOpen false 9 9 f0.stream.data area 0) [.setKey 1, .delete]
    let f2 := relOpen true 9 9 f1.stream.data area 0
    let r : List RelOp := [.setKey 1, .start .eq, .readNext, .rewrite [70, 70, 70, 70, 70, 70, 70, 70, 70]]
    relRun f2 r =
      [(0, none, 1), (23, none, 1), (0, some [65, 9, 0, 0, 0, 0, 0, 0, 0], 1), (0, none, 1)] ∧
    relRun (relOpen false 9 9 (relAfter f2 r).stream.data area 0) [.setKey 2, .read] =
      [(0, none, 2), (0, some [66, 66, 66, 66, 66, 66, 66, 66, 66], 2)] ∧
    (relAfter (relOpen false 9 9 (relAfter f2 r).stream.data area 0) [.setKey 2, .read]).size =
      70 * (1 + 256 * (1 + 256 * (1 + 256 * (1 + 256 * (1 + 256 * (1 + 256 * (1 + 256))))))) := by
  decide +kernel

/-- Finding: REWRITE and DELETE of a deleted record answer 00; the record written is not there. -/
theorem C39_finding_rewrite_absent :
    relRun (relOpen false 1 1 [] [9] 0)
      [.setKey 1, .write [65], .delete, .delete, .rewrite [66], .read] =
      [(0, none, 1), (0, none, 1), (0, none, 1), (0, none, 1), (0, none, 1), (23, none, 1)] := by
  decide +kernel

/-- Finding: START LESS THAN from above the last record finds nothing. -/
theorem C39_finding_start_less :
    relRun (relOpen false 1 1 [] [9] 0)
      [.setKey 1, .write [65], .setKey 5, .start .lt, .start .le, .setKey 2, .start .lt] =
      [(0, none, 1), (0, none, 1), (0, none, 5), (23, none, 5), (23, none, 5), (0, none, 2),
       (0, none, 1)] := by
  decide +kernel

/-- Finding: REWRITE with a record of another length keeps the old length. -/
theorem C39_finding_rewrite_length :
    relRun (relOpen false 1 3 [] [9, 9, 9] 0)
      [.setKey 1, .write [65], .rewrite [66, 67, 68], .read] =
      [(0, none, 1), (0, none, 1), (0, none, 1), (0, some [66], 1)] := by
  decide +kernel

end Cob
