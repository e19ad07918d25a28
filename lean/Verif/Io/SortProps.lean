import Verif.Io.SortFile
import Verif.Cmp.SortKeyProps
/-
C40: SORT returns the released records in key order, equal keys in the order of release, with or
without temporary files.
-/
namespace Cob

/-! ### Specification -/

/-- The records (with the size in RECORD DEPENDING ON) released before the first RETURN. -/
def released : List SortOp → List (Nat × List Nat)
  | .release n r :: rest => (n, r) :: released rest
  | _ => []

/-- `o` is the sequence of the released records, each with the position of its release, such that
each record comes before all that follow it in `o`: by the keys, or if the keys do not decide, by the
order of release. -/
def SortedReleases (ebc : Bool) (col : Option (Nat → Nat)) (ks : List SortKey) (rs : List (Nat × List Nat))
    (o : List ((Nat × List Nat) × Nat)) : Prop :=
  o.Perm rs.zipIdx ∧
  o.Pairwise fun a b => SortBefore ebc col ks a.1.2 b.1.2 ∨ (¬ SortBefore ebc col ks b.1.2 a.1.2 ∧ a.2 < b.2)

/-- What the program sees when the records to be returned are `out`: RELEASE answers 00 before the
first RETURN and 30 after it; RETURN gives the records in turn and then answers 10. -/
def sortSpec : (out : List (List Nat × Option Nat)) → (returning : Bool) → List SortOp → List SortObs
  | _, _, [] => []
  | out, false, .release _ _ :: rest => ⟨0, none, none⟩ :: sortSpec out false rest
  | out, true, .release _ _ :: rest => ⟨30, none, none⟩ :: sortSpec out true rest
  | [], _, .ret :: rest => ⟨10, none, none⟩ :: sortSpec [] true rest
  | r :: out, _, .ret :: rest => ⟨0, some r.1, r.2⟩ :: sortSpec out true rest

/-! ### The order -/

theorem sb_facts (ebc : Bool) (col : Option (Nat → Nat)) (ks : List SortKey) (a b c : List Nat)
    (ha : RecValid ebc ks a) (hb : RecValid ebc ks b) (hc : RecValid ebc ks c) :
    (SortBefore ebc col ks a b → ¬ SortBefore ebc col ks b a) ∧
    (¬ SortBefore ebc col ks b a → ¬ SortBefore ebc col ks c b → ¬ SortBefore ebc col ks c a ∧
      (SortBefore ebc col ks a b ∨ SortBefore ebc col ks b c → SortBefore ebc col ks a c)) := by
  obtain ⟨x, hx, x1, x2⟩ := C25_lexicographic ebc col ks a b ha hb
  obtain ⟨y, hy, y1, y2⟩ := C25_lexicographic ebc col ks b c hb hc
  obtain ⟨z, hz, z1, z2⟩ := C25_lexicographic ebc col ks a c ha hc
  obtain ⟨_, _, h3⟩ := C25_total_preorder ebc col ks a b c ha hb hc
  have h3 := h3 x y z hx hy hz
  rw [← x1, ← x2, ← y1, ← y2, ← z1, ← z2]
  constructor
  · omega
  · intro g1 g2
    obtain ⟨k1, k2⟩ := h3 (by omega) (by omega)
    exact ⟨by omega, k2⟩

def recLt (ebc : Bool) (col : Option (Nat → Nat)) (ks : List SortKey) (k1 k2 : Nat × List Nat) : Bool :=
  (fileSortCompare ebc col ks k1 k2).any (· < 0)

theorem sortLt_byKey (ebc : Bool) (col : Option (Nat → Nat)) (ks : List SortKey) :
    ByKey (sortLt ebc col ks) (recLt ebc col ks) := fun _ _ => rfl

theorem byKey_ignores (lt : SItem → SItem → Bool) (f : Nat × List Nat → Nat × List Nat → Bool) (h : ByKey lt f) :
    IgnoresEob lt := by
  intro x y b c
  rw [h, h]; rfl

theorem recLt_iff (ebc : Bool) (col : Option (Nat → Nat)) (ks : List SortKey) (x y : Nat × List Nat)
    (hx : RecValid ebc ks x.2) (hy : RecValid ebc ks y.2) :
    recLt ebc col ks x y = true ↔
      SortBefore ebc col ks x.2 y.2 ∨ (¬ SortBefore ebc col ks y.2 x.2 ∧ x.1 < y.1) := by
  obtain ⟨c, hc, e1, e2⟩ := C25_lexicographic ebc col ks x.2 y.2 hx hy
  unfold recLt fileSortCompare
  rw [hc]
  simp only
  rw [← e1, ← e2]
  by_cases h0 : c ≠ 0
  · rw [if_pos h0]; simp; omega
  · rw [if_neg h0]
    by_cases hlt : x.1 < y.1
    · rw [if_pos hlt]; simp; omega
    · rw [if_neg hlt]; simp; omega

/-- The records that can be sorted. -/
def RecOk (ebc : Bool) (ks : List SortKey) (size : Nat) (k : Nat × List Nat) : Prop :=
  RecValid ebc ks k.2 ∧ KOk size k

theorem recLt_swo (ebc : Bool) (col : Option (Nat → Nat)) (ks : List SortKey) (size : Nat) :
    SWO (recLt ebc col ks) (RecOk ebc ks size) := by
  constructor
  · intro x y hx hy h
    rw [recLt_iff ebc col ks x y hx.1 hy.1] at h
    rw [← Bool.not_eq_true, recLt_iff ebc col ks y x hy.1 hx.1]
    have := (sb_facts ebc col ks x.2 y.2 y.2 hx.1 hy.1 hy.1).1
    have := (sb_facts ebc col ks y.2 x.2 x.2 hy.1 hx.1 hx.1).1
    grind
  · intro x y z hx hy hz h1 h2
    rw [← Bool.not_eq_true, recLt_iff ebc col ks _ _ hy.1 hx.1] at h1
    rw [← Bool.not_eq_true, recLt_iff ebc col ks _ _ hz.1 hy.1] at h2
    rw [← Bool.not_eq_true, recLt_iff ebc col ks _ _ hz.1 hx.1]
    have a1 := (sb_facts ebc col ks x.2 y.2 z.2 hx.1 hy.1 hz.1).2
    have n1 : ¬ SortBefore ebc col ks y.2 x.2 := fun h => h1 (Or.inl h)
    have n2 : ¬ SortBefore ebc col ks z.2 y.2 := fun h => h2 (Or.inl h)
    obtain ⟨b1, b2⟩ := a1 n1 n2
    rintro (h | ⟨h, hlt⟩)
    · exact b1 h
    · have m1 : ¬ SortBefore ebc col ks x.2 y.2 := fun h' => h (b2 (Or.inl h'))
      have m2 : ¬ SortBefore ebc col ks y.2 z.2 := fun h' => h (b2 (Or.inr h'))
      have : ¬ y.1 < x.1 := fun h' => h1 (Or.inr ⟨m1, h'⟩)
      have : ¬ z.1 < y.1 := fun h' => h2 (Or.inr ⟨m2, h'⟩)
      omega

theorem sortLt_swo (ebc : Bool) (col : Option (Nat → Nat)) (ks : List SortKey) (size : Nat) :
    SWO (sortLt ebc col ks) (fun x => RecOk ebc ks size (keyOf x)) := by
  have h := recLt_swo ebc col ks size
  constructor
  · intro x y hx hy; exact h.asymm _ _ hx hy
  · intro x y z hx hy hz; exact h.ntrans _ _ _ hx hy hz

/-! ### Returning -/

/-- The state while records are being returned; `out` are those still to come. -/
def Returning (f : Nat × List Nat → Nat × List Nat → Bool) (h : Sorter) (out : List (List Nat × Option Nat)) : Prop :=
  h.retrieving = true ∧
  ((h.filesUsed = false ∧ out = h.ret.map fun q => (q.data, some q.recSize)) ∨
   (h.filesUsed = true ∧ ∃ c c', Cur h.s0 h.x c [] ∧ Cur h.s1 h.y c' [] ∧ (∀ k ∈ c, KOk h.size k) ∧
      (∀ k ∈ c', KOk h.size k) ∧ out = (List.merge c c' f).map fun k => (k.2, none)))

theorem retrieve_spec (lt : SItem → SItem → Bool) (f : Nat × List Nat → Nat × List Nat → Bool) (hl : ByKey lt f)
    (fuel : Nat) (h : Sorter) (out : List (List Nat × Option Nat)) (hr : Returning f h out) :
    ∃ h', sortRetrieve lt fuel h =
        some (match out with | [] => (1, none, h') | r :: _ => (0, some r, h')) ∧ Returning f h' out.tail := by
  obtain ⟨h1, h2⟩ := hr
  unfold sortRetrieve
  rw [h1]
  simp only [if_true]
  rcases h2 with ⟨hf, ho⟩ | ⟨hf, c, c', hx, hy, hk, hk', ho⟩
  · rw [if_neg (by simp [hf])]
    cases hq : h.ret with
    | nil =>
      subst ho
      rw [hq]
      exact ⟨h, rfl, h1, Or.inl ⟨hf, by rw [hq]; rfl⟩⟩
    | cons q rest =>
      subst ho
      rw [hq]
      exact ⟨_, rfl, h1, Or.inl ⟨hf, rfl⟩⟩
  · rw [if_pos hf]
    rcases chooseItem_spec lt f hl h.s0 h.s1 h.x h.y c c' [] [] hx hy with
      ⟨e, e1, e2⟩ | ⟨e, t, e1, e2, e3⟩ | ⟨e, t, e1, e2, e3⟩
    · rw [e]
      subst e1 e2
      rw [merge_nil_left] at ho
      subst ho
      exact ⟨h, rfl, h1, Or.inr ⟨hf, [], [], hx, hy, hk, hk', by rw [merge_nil_left]; rfl⟩⟩
    · rw [e]
      obtain ⟨s0', x', r1, r2, r3⟩ := readItemFile_next h.size h.s0 h.x t [] (fun k hm => hk k (by rw [e1]; simp [hm])) e3
      simp only [r1]
      rw [e2] at ho
      subst ho
      exact ⟨_, rfl, h1, Or.inr ⟨hf, t, c', r2, hy, fun k hm => hk k (by rw [e1]; simp [hm]), hk', rfl⟩⟩
    · rw [e]
      obtain ⟨s1', y', r1, r2, r3⟩ := readItemFile_next h.size h.s1 h.y t [] (fun k hm => hk' k (by rw [e1]; simp [hm])) e3
      simp only [r1]
      rw [e2] at ho
      subst ho
      exact ⟨_, rfl, h1, Or.inr ⟨hf, c, t, hx, r2, hk, fun k hm => hk' k (by rw [e1]; simp [hm]), rfl⟩⟩

theorem sortRun_returning (lt : SItem → SItem → Bool) (f : Nat × List Nat → Nat × List Nat → Bool) (hl : ByKey lt f)
    (fuel : Nat) : ∀ (ops : List SortOp) (h : Sorter) (out : List (List Nat × Option Nat)), Returning f h out →
    sortRun lt fuel h ops = some (sortSpec out true ops)
  | [], h, out, hr => by cases out <;> rfl
  | .release n r :: ops, h, out, hr => by
    have hs : sortSubmit lt fuel h n r = some (2, h) := by
      unfold sortSubmit; rw [if_pos hr.1]
    rw [sortRun, hs]
    simp only
    rw [sortRun_returning lt f hl fuel ops h out hr]
    cases out <;> rfl
  | .ret :: ops, h, out, hr => by
    obtain ⟨h', h1, h2⟩ := retrieve_spec lt f hl fuel h out hr
    rw [sortRun, h1]
    cases out with
    | nil =>
      simp only
      rw [sortRun_returning lt f hl fuel ops h' _ h2]
      rfl
    | cons r out =>
      simp only
      rw [sortRun_returning lt f hl fuel ops h' _ h2]
      rfl

/-! ### Releasing -/

/-- The flag set, as for the items just released. -/
def on (x : SItem) : SItem := { x with eob := true }

/-- An item as a released record with its position. -/
def full (x : SItem) : (Nat × List Nat) × Nat := ((x.recSize, x.data), x.uniq)

/-- A released record as it is kept in a file. -/
def keyed (a : (Nat × List Nat) × Nat) : Nat × List Nat := (a.2, a.1.2)

theorem keyed_full (x : SItem) : keyed (full x) = keyOf x := rfl

structure Releasing (ebc : Bool) (col : Option (Nat → Nat)) (ks : List SortKey) (size memory : Nat) (h : Sorter)
    (rs : List (Nat × List Nat)) (A B : List SItem) (L : List (List (Nat × List Nat))) (e : Nat) : Prop where
  sizeEq : h.size = size
  memoryEq : h.memory = memory
  ret : h.retrieving = false
  uniq : h.unique = rs.length
  q0 : h.q0 = A.map on
  q1 : h.q1 = B.map on
  offA : Off A
  offB : Off B
  le : B.length ≤ A.length
  le' : A.length ≤ B.length + 1
  okA : ∀ x ∈ A, RecOk ebc ks size (keyOf x)
  okB : ∀ x ∈ B, RecOk ebc ks size (keyOf x)
  w0 : Writing h.s0 (deal L).1 []
  w1 : Writing h.s1 (deal L).2 []
  c0 : h.s0.count = (deal L).1.length
  c1 : h.s1.count = (deal L).2.length
  dest : h.dest = L.length % 2
  used : h.filesUsed = !L.isEmpty
  okL : ∀ b ∈ L, Asc (recLt ebc col ks) b ∧ ∀ k ∈ b, RecOk ebc ks size k
  perm : (L.flatten ++ (A ++ B).map keyOf).Perm (rs.zipIdx.map keyed)
  permMem : L = [] → ((A ++ B).map full).Perm rs.zipIdx
  few : L = [] → rs.length + e ≤ memory
  many : L ≠ [] → memory < rs.length + e ∧ memory ≤ h.free + A.length + B.length
  lenL : L.length ≤ rs.length + e

theorem releasing_init (ebc : Bool) (col : Option (Nat → Nat)) (ks : List SortKey) (size memory : Nat) :
    Releasing ebc col ks size memory (.init size memory) [] [] [] [] 0 := by
  constructor <;> simp [Sorter.init, deal, Off]
  all_goals first | exact empty_writing | rfl

theorem blks_single (A : List SItem) : blks (A.map fun x => [x]) = A.map on := by
  induction A with
  | nil => rfl
  | cons x A ih => rw [List.map_cons, blks_cons, ih]; rfl

theorem deal_append_even {α : Type} : ∀ (L : List α) (b : α),
    deal (L ++ [b]) = if L.length % 2 = 0 then ((deal L).1 ++ [b], (deal L).2) else ((deal L).1, (deal L).2 ++ [b])
  | [], b => rfl
  | x :: L, b => by
    simp only [List.cons_append, deal, deal_append_even L b, List.length_cons]
    by_cases h : L.length % 2 = 0
    · rw [if_pos h, if_neg (by omega)]
    · rw [if_neg h, if_pos (by omega)]

theorem markLast_map_keyOf (c : List SItem) : (markLast c).map keyOf = c.map keyOf := by
  induction c with
  | nil => rfl
  | cons x t ih =>
    rw [markLast_cons, List.map_cons, List.map_cons, ih]
    cases t <;> rfl

theorem markLast_length (c : List SItem) : (markLast c).length = c.length := by
  have := congrArg List.length (markLast_map_keyOf c)
  simpa using this

theorem asc_map (ebc : Bool) (col : Option (Nat → Nat)) (ks : List SortKey) (c : List SItem)
    (h : Asc (sortLt ebc col ks) c) : Asc (recLt ebc col ks) (c.map keyOf) := by
  unfold Asc at *
  rw [List.pairwise_map]
  exact h

/-- Sorting the two queues. -/
theorem releasing_queues (ebc : Bool) (col : Option (Nat → Nat)) (ks : List SortKey) (size memory e : Nat) (h : Sorter)
    (rs : List (Nat × List Nat)) (A B : List SItem) (L : List (List (Nat × List Nat)))
    (hi : Releasing ebc col ks size memory h rs A B L e) (fuel : Nat) (hf : A.length + B.length + 2 ≤ fuel) :
    ∃ c, sortQueues (sortLt ebc col ks) fuel h.q0 h.q1 = some (markLast c) ∧ Off c ∧
      Asc (sortLt ebc col ks) c ∧ c.Perm (A ++ B) := by
  obtain ⟨c, c1, c2, c3, c4⟩ := sortQueues_spec (sortLt ebc col ks) (byKey_ignores _ _ (sortLt_byKey ebc col ks))
    (fun x => RecOk ebc ks size (keyOf x)) (sortLt_swo ebc col ks size) fuel (A.map fun x => [x]) (B.map fun x => [x])
    (by simpa using hf) (by simpa using hi.le) (by simpa using hi.le')
    (by
      intro a ha
      obtain ⟨x, hx, e⟩ := List.mem_map.1 ha
      subst e
      exact ⟨by simp, by intro y hy; simp at hy; subst hy; exact hi.offA y hx, List.pairwise_singleton _ _,
        by intro y hy; simp at hy; subst hy; exact hi.okA y hx⟩)
    (by
      intro a ha
      obtain ⟨x, hx, e⟩ := List.mem_map.1 ha
      subst e
      exact ⟨by simp, by intro y hy; simp at hy; subst hy; exact hi.offB y hx, List.pairwise_singleton _ _,
        by intro y hy; simp at hy; subst hy; exact hi.okB y hx⟩)
  rw [blks_single, blks_single, ← hi.q0, ← hi.q1] at c1
  refine ⟨c, c1, c2, c3, c4.trans (List.Perm.of_eq ?_)⟩
  have : ∀ A : List SItem, (A.map fun x => [x]).flatten = A := by
    intro A
    induction A with
    | nil => rfl
    | cons x A ih => rw [List.map_cons, List.flatten_cons, ih]; rfl
  rw [this, this]

theorem releasing_len {ebc : Bool} {col : Option (Nat → Nat)} {ks : List SortKey} {size memory e : Nat} {h : Sorter}
    {rs : List (Nat × List Nat)} {A B : List SItem} {L : List (List (Nat × List Nat))}
    (hi : Releasing ebc col ks size memory h rs A B L e) :
    L.flatten.length + (A.length + B.length) = rs.length := by
  have := hi.perm.length_eq
  simpa using this

/-- Writing the sorted queues as a further block. -/
theorem releasing_flush (ebc : Bool) (col : Option (Nat → Nat)) (ks : List SortKey) (size memory e : Nat) (h : Sorter)
    (rs : List (Nat × List Nat)) (A B : List SItem) (L : List (List (Nat × List Nat)))
    (hi : Releasing ebc col ks size memory h rs A B L e) (c : List SItem)
    (h3 : Asc (sortLt ebc col ks) c) (h4 : c.Perm (A ++ B)) :
    Writing ({ h with q0 := [], q1 := [] }.writeQueue (markLast c)).s0 (deal (L ++ [c.map keyOf])).1 [] ∧
    Writing ({ h with q0 := [], q1 := [] }.writeQueue (markLast c)).s1 (deal (L ++ [c.map keyOf])).2 [] ∧
    ({ h with q0 := [], q1 := [] }.writeQueue (markLast c)).s0.count = (deal (L ++ [c.map keyOf])).1.length ∧
    ({ h with q0 := [], q1 := [] }.writeQueue (markLast c)).s1.count = (deal (L ++ [c.map keyOf])).2.length ∧
    (∀ b ∈ L ++ [c.map keyOf], Asc (recLt ebc col ks) b ∧ ∀ k ∈ b, RecOk ebc ks size k) ∧
    (L ++ [c.map keyOf]).flatten.Perm (rs.zipIdx.map keyed) ∧
    ({ h with q0 := [], q1 := [] }.writeQueue (markLast c)).free = h.free + (A.length + B.length) := by
  have hlen : (markLast c).length = A.length + B.length := by
    rw [markLast_length, h4.length_eq]; simp
  refine ⟨?_, ?_, ?_, ?_, ?_, ?_, ?_⟩
  · unfold Sorter.writeQueue
    rw [deal_append_even]
    simp only [hi.dest]
    by_cases hp : L.length % 2 = 0
    · rw [if_pos hp, if_pos hp]
      have := (writeBlock_writing h.s0 _ (markLast c) hi.w0).1
      rw [markLast_map_keyOf] at this
      exact this
    · rw [if_neg hp, if_neg hp]; exact hi.w0
  · unfold Sorter.writeQueue
    rw [deal_append_even]
    simp only [hi.dest]
    by_cases hp : L.length % 2 = 0
    · rw [if_pos hp, if_pos hp]; exact hi.w1
    · rw [if_neg hp, if_neg hp]
      have := (writeBlock_writing h.s1 _ (markLast c) hi.w1).1
      rw [markLast_map_keyOf] at this
      exact this
  · unfold Sorter.writeQueue
    rw [deal_append_even]
    simp only [hi.dest]
    by_cases hp : L.length % 2 = 0
    · rw [if_pos hp, if_pos hp]
      have := (writeBlock_writing h.s0 _ (markLast c) hi.w0).2
      simp only [this, hi.c0]; simp
    · rw [if_neg hp, if_neg hp]; exact hi.c0
  · unfold Sorter.writeQueue
    rw [deal_append_even]
    simp only [hi.dest]
    by_cases hp : L.length % 2 = 0
    · rw [if_pos hp, if_pos hp]; exact hi.c1
    · rw [if_neg hp, if_neg hp]
      have := (writeBlock_writing h.s1 _ (markLast c) hi.w1).2
      simp only [this, hi.c1]; simp
  · intro b hb
    rcases List.mem_append.1 hb with hb | hb
    · exact hi.okL b hb
    · simp only [List.mem_singleton] at hb
      subst hb
      refine ⟨asc_map ebc col ks c h3, ?_⟩
      intro k hk
      obtain ⟨x, hx, e⟩ := List.mem_map.1 hk
      subst e
      rcases List.mem_append.1 (h4.mem_iff.1 hx) with h | h
      · exact hi.okA x h
      · exact hi.okB x h
  · refine List.Perm.trans ?_ hi.perm
    rw [List.flatten_append]
    exact List.Perm.append_left _ (by simpa using h4.map keyOf)
  · unfold Sorter.writeQueue
    simp only
    split <;> simp only [hlen]

/-- Putting the new item into one of the queues. -/
theorem releasing_insert (ebc : Bool) (col : Option (Nat → Nat)) (ks : List SortKey) (size memory : Nat) (h : Sorter)
    (rs : List (Nat × List Nat)) (A B : List SItem) (L : List (List (Nat × List Nat)))
    (hi : Releasing ebc col ks size memory h rs A B L 1) (n : Nat) (r : List Nat)
    (hr : r.length = size) (hv : RecValid ebc ks r) (hn : rs.length + 1 < 2 ^ 64) (q : SItem)
    (hq : q = { uniq := h.unique, recSize := n, data := r.take h.size, eob := true }) :
    ∃ A' B', Releasing ebc col ks size memory
      (if h.q0.length ≤ h.q1.length then
        { h with free := h.free - 1, unique := (h.unique + 1) % 2 ^ 64, q0 := q :: h.q0 }
       else { h with free := h.free - 1, unique := (h.unique + 1) % 2 ^ 64, q1 := q :: h.q1 })
      (rs ++ [(n, r)]) A' B' L 0 := by
  have hd : r.take h.size = r := by rw [hi.sizeEq, ← hr, List.take_length]
  rw [hd, hi.uniq] at hq
  have hz : (rs ++ [(n, r)]).zipIdx = rs.zipIdx ++ [((n, r), rs.length)] := by
    rw [List.zipIdx_append]; simp
  have hzm : (rs ++ [(n, r)]).zipIdx.map keyed = rs.zipIdx.map keyed ++ [(rs.length, r)] := by
    rw [hz, List.map_append]; rfl
  have hu : (h.unique + 1) % 2 ^ 64 = (rs ++ [(n, r)]).length := by
    rw [hi.uniq, Nat.mod_eq_of_lt hn]; simp
  have hqk : RecOk ebc ks size (rs.length, r) := ⟨hv, by show rs.length < 2 ^ 64; omega, hr⟩
  have hfew : L = [] → (rs ++ [(n, r)]).length + 0 ≤ memory := by
    intro hl; have := hi.few hl; simpa using this
  have hlen : L.length ≤ (rs ++ [(n, r)]).length + 0 := by
    have := hi.lenL; simpa using this
  have hmany : L ≠ [] → memory < (rs ++ [(n, r)]).length + 0 ∧
      memory ≤ h.free - 1 + (A.length + 1) + B.length ∧ memory ≤ h.free - 1 + A.length + (B.length + 1) := by
    intro hl
    have h1 := (hi.many hl).1
    have h2 := (hi.many hl).2
    refine ⟨?_, by omega, by omega⟩
    simpa using h1
  have hle := hi.le
  have hle' := hi.le'
  let x : SItem := { uniq := rs.length, recSize := n, data := r, eob := false }
  have hqx : q = on x := by rw [hq]; rfl
  have l0 : h.q0.length = A.length := by rw [hi.q0]; simp
  have l1 : h.q1.length = B.length := by rw [hi.q1]; simp
  by_cases hc : h.q0.length ≤ h.q1.length
  · rw [if_pos hc]
    refine ⟨x :: A, B, ?_⟩
    have hok : ∀ y ∈ x :: A, RecOk ebc ks size (keyOf y) := by
      intro y hy
      rcases List.mem_cons.1 hy with h | h
      · subst h; exact hqk
      · exact hi.okA y h
    have hoff : Off (x :: A) := by
      intro y hy
      rcases List.mem_cons.1 hy with h | h
      · subst h; rfl
      · exact hi.offA y h
    have hp : (L.flatten ++ ((x :: A) ++ B).map keyOf).Perm ((rs ++ [(n, r)]).zipIdx.map keyed) := by
      rw [hzm]
      refine List.Perm.trans ?_ (List.Perm.append_right _ hi.perm)
      rw [List.append_assoc]
      refine List.Perm.append_left _ ?_
      exact (List.perm_append_comm (l₁ := [keyOf x]) (l₂ := (A ++ B).map keyOf))
    have hpm : L = [] → (((x :: A) ++ B).map full).Perm (rs ++ [(n, r)]).zipIdx := by
      intro hl
      rw [hz]
      refine List.Perm.trans ?_ (List.Perm.append_right _ (hi.permMem hl))
      exact (List.perm_append_comm (l₁ := [full x]) (l₂ := (A ++ B).map full))
    exact
      { sizeEq := hi.sizeEq, memoryEq := hi.memoryEq, ret := hi.ret, uniq := hu
        q0 := by show q :: h.q0 = _; rw [hi.q0, hqx]; rfl
        q1 := hi.q1, offA := hoff, offB := hi.offB
        le := by simp; omega
        le' := by simp; omega
        okA := hok, okB := hi.okB, w0 := hi.w0, w1 := hi.w1, c0 := hi.c0, c1 := hi.c1
        dest := hi.dest, used := hi.used, okL := hi.okL, perm := hp, permMem := hpm
        few := hfew, many := fun hl => ⟨(hmany hl).1, (hmany hl).2.1⟩, lenL := hlen }
  · rw [if_neg hc]
    refine ⟨A, x :: B, ?_⟩
    have hok : ∀ y ∈ x :: B, RecOk ebc ks size (keyOf y) := by
      intro y hy
      rcases List.mem_cons.1 hy with h | h
      · subst h; exact hqk
      · exact hi.okB y h
    have hoff : Off (x :: B) := by
      intro y hy
      rcases List.mem_cons.1 hy with h | h
      · subst h; rfl
      · exact hi.offB y h
    have hmid : ∀ {β : Type} (g : SItem → β), ((A ++ x :: B).map g).Perm ((A ++ B).map g ++ [g x]) := by
      intro β g
      rw [List.map_append, List.map_append, List.append_assoc]
      exact List.Perm.append_left _ (List.perm_append_comm (l₁ := [g x]) (l₂ := B.map g))
    have hp : (L.flatten ++ (A ++ x :: B).map keyOf).Perm ((rs ++ [(n, r)]).zipIdx.map keyed) := by
      rw [hzm]
      refine List.Perm.trans ?_ (List.Perm.append_right _ hi.perm)
      rw [List.append_assoc]
      exact List.Perm.append_left _ (hmid keyOf)
    have hpm : L = [] → ((A ++ x :: B).map full).Perm (rs ++ [(n, r)]).zipIdx := by
      intro hl
      rw [hz]
      exact List.Perm.trans (hmid full) (List.Perm.append_right _ (hi.permMem hl))
    exact
      { sizeEq := hi.sizeEq, memoryEq := hi.memoryEq, ret := hi.ret, uniq := hu
        q0 := hi.q0
        q1 := by show q :: h.q1 = _; rw [hi.q1, hqx]; rfl
        offA := hi.offA, offB := hoff
        le := by simp; omega
        le' := by simp; omega
        okA := hi.okA, okB := hok, w0 := hi.w0, w1 := hi.w1, c0 := hi.c0, c1 := hi.c1
        dest := hi.dest, used := hi.used, okL := hi.okL, perm := hp, permMem := hpm
        few := hfew, many := fun hl => ⟨(hmany hl).1, (hmany hl).2.2⟩, lenL := hlen }

theorem submit_spec (ebc : Bool) (col : Option (Nat → Nat)) (ks : List SortKey) (size memory : Nat) (h : Sorter)
    (rs : List (Nat × List Nat)) (A B : List SItem) (L : List (List (Nat × List Nat)))
    (hi : Releasing ebc col ks size memory h rs A B L 0) (n : Nat) (r : List Nat)
    (hr : r.length = size) (hv : RecValid ebc ks r) (hn : rs.length + 1 < 2 ^ 64) (fuel : Nat)
    (hf : rs.length + 2 ≤ fuel) :
    ∃ h' A' B' L', sortSubmit (sortLt ebc col ks) fuel h n r = some (0, h') ∧
      Releasing ebc col ks size memory h' (rs ++ [(n, r)]) A' B' L' 0 := by
  have hlen := releasing_len hi
  have l0 : h.q0.length = A.length := by rw [hi.q0]; simp
  have l1 : h.q1.length = B.length := by rw [hi.q1]; simp
  unfold sortSubmit
  rw [if_neg (by rw [hi.ret]; simp)]
  by_cases hc : h.q0.length + h.q1.length ≥ h.memory
  · rw [if_pos hc]
    rw [hi.memoryEq, l0, l1] at hc
    -- the files
    obtain ⟨h1, hh1, hi1⟩ : ∃ h1 : Sorter, (if h.filesUsed then h else
        { h with s0 := .empty, s1 := .empty, filesUsed := true, dest := 0 }) = h1 ∧
        Releasing ebc col ks size memory { h1 with filesUsed := h.filesUsed } rs A B L 0 ∧ h1.filesUsed = true ∧
        h1.q0 = h.q0 ∧ h1.q1 = h.q1 := by
      by_cases hu : h.filesUsed
      · refine ⟨h, by rw [if_pos hu], ?_, hu, rfl, rfl⟩
        exact hi
      · refine ⟨{ h with s0 := .empty, s1 := .empty, filesUsed := true, dest := 0 }, by rw [if_neg hu], ?_, rfl, rfl, rfl⟩
        have hL : L = [] := by
          have := hi.used
          cases L with
          | nil => rfl
          | cons b L => rw [this] at hu; simp at hu
        subst hL
        exact
          { sizeEq := hi.sizeEq, memoryEq := hi.memoryEq, ret := hi.ret, uniq := hi.uniq, q0 := hi.q0, q1 := hi.q1
            offA := hi.offA, offB := hi.offB, le := hi.le, le' := hi.le', okA := hi.okA, okB := hi.okB
            w0 := empty_writing, w1 := empty_writing, c0 := rfl, c1 := rfl, dest := rfl, used := hi.used
            okL := hi.okL, perm := hi.perm, permMem := hi.permMem, few := hi.few, many := hi.many, lenL := hi.lenL }
    obtain ⟨hi1, hu1, e0, e1⟩ := hi1
    rw [hh1]
    obtain ⟨c, c1, c2, c3, c4⟩ := releasing_queues ebc col ks size memory 0 h rs A B L hi fuel (by omega)
    simp only [e0, e1, c1]
    obtain ⟨g1, g2, g3, g4, g5, g6, g7⟩ := releasing_flush ebc col ks size memory 0 _ rs A B L hi1 c c3 c4
    have hdest := hi1.dest
    -- the state after the flush
    have hw : ∀ (h1 : Sorter) (q : List SItem), (h1.writeQueue q).size = h1.size ∧ (h1.writeQueue q).memory = h1.memory ∧
        (h1.writeQueue q).retrieving = h1.retrieving ∧ (h1.writeQueue q).unique = h1.unique ∧
        (h1.writeQueue q).q0 = h1.q0 ∧ (h1.writeQueue q).q1 = h1.q1 ∧ (h1.writeQueue q).dest = h1.dest ∧
        (h1.writeQueue q).filesUsed = h1.filesUsed := by
      intro h1 q
      unfold Sorter.writeQueue
      simp only
      split <;> simp
    obtain ⟨k1, k2, k3, k4, k5, k6, k7, k8⟩ := hw { h1 with q0 := [], q1 := [] } (markLast c)
    have hsame : ∀ b : Bool, ({ h1 with q0 := [], q1 := [], filesUsed := b } : Sorter).writeQueue (markLast c) =
        { ({ h1 with q0 := [], q1 := [] } : Sorter).writeQueue (markLast c) with filesUsed := b } := by
      intro b
      unfold Sorter.writeQueue
      simp only
      split <;> rfl
    rw [hsame] at g1 g2 g3 g4 g7
    have hR : Releasing ebc col ks size memory
        { ({ h1 with q0 := [], q1 := [] } : Sorter).writeQueue (markLast c) with
          dest := if (({ h1 with q0 := [], q1 := [] } : Sorter).writeQueue (markLast c)).dest = 0 then 1 else 0 }
        rs [] [] (L ++ [c.map keyOf]) 1 :=
      { sizeEq := k1.trans hi1.sizeEq, memoryEq := k2.trans hi1.memoryEq, ret := k3.trans hi1.ret
        uniq := k4.trans hi1.uniq, q0 := k5, q1 := k6
        offA := by intro x hx; cases hx
        offB := by intro x hx; cases hx
        le := by simp
        le' := by simp
        okA := by intro x hx; cases hx
        okB := by intro x hx; cases hx
        w0 := g1, w1 := g2, c0 := g3, c1 := g4
        dest := by
          show (if _ = 0 then 1 else 0) = _
          rw [k7]
          show (if h1.dest = 0 then 1 else 0) = _
          have hdest : h1.dest = L.length % 2 := hdest
          rw [hdest]
          simp only [List.length_append, List.length_singleton]
          split <;> omega
        used := by
          show (({ h1 with q0 := [], q1 := [] } : Sorter).writeQueue (markLast c)).filesUsed = _
          rw [k8]
          show h1.filesUsed = _
          rw [hu1]; simp
        okL := g5
        perm := by simpa using g6
        permMem := by intro hl; simp at hl
        few := by intro hl; simp at hl
        many := by
          intro _
          refine ⟨by omega, ?_⟩
          have g7' : (({ h1 with q0 := [], q1 := [] } : Sorter).writeQueue (markLast c)).free = h1.free + (A.length + B.length) := g7
          show memory ≤ (({ h1 with q0 := [], q1 := [] } : Sorter).writeQueue (markLast c)).free + 0 + 0
          omega
        lenL := by have := hi.lenL; simp; omega }
    obtain ⟨A', B', hfin⟩ := releasing_insert ebc col ks size memory _ rs [] [] _ hR n r hr hv hn _ rfl
    refine ⟨_, A', B', _, ?_, hfin⟩
    simp only
    split <;> rfl
  · rw [if_neg hc]
    rw [hi.memoryEq, l0, l1] at hc
    have hR : Releasing ebc col ks size memory h rs A B L 1 :=
      { hi with
        few := by
          intro hl
          subst hl
          simp at hlen
          omega
        many := by intro hl; have := hi.many hl; exact ⟨by omega, this.2⟩
        lenL := by have := hi.lenL; omega }
    obtain ⟨A', B', hfin⟩ := releasing_insert ebc col ks size memory _ rs A B L hR n r hr hv hn _ rfl
    refine ⟨_, A', B', _, ?_, hfin⟩
    simp only
    split <;> rfl

/-! ### From releasing to returning -/

theorem zipIdx_snd_nodup {α : Type} (l : List α) : (l.zipIdx.map Prod.snd).Nodup := by
  rw [List.zipIdx_map_snd]
  exact List.nodup_range'

theorem sortedReleases_of (ebc : Bool) (col : Option (Nat → Nat)) (ks : List SortKey) (size : Nat)
    (rs : List (Nat × List Nat)) (o : List ((Nat × List Nat) × Nat)) (hp : o.Perm rs.zipIdx)
    (hok : ∀ k ∈ o.map keyed, RecOk ebc ks size k) (ha : Asc (recLt ebc col ks) (o.map keyed)) :
    SortedReleases ebc col ks rs o := by
  refine ⟨hp, ?_⟩
  have hnd : (o.map Prod.snd).Nodup := (hp.map Prod.snd).nodup_iff.2 (zipIdx_snd_nodup rs)
  unfold Asc at ha
  rw [List.pairwise_map] at ha
  have hne : o.Pairwise fun a b => a.2 ≠ b.2 := by
    have := hnd
    unfold List.Nodup at this
    rwa [List.pairwise_map] at this
  refine List.Pairwise.imp_of_mem ?_ (ha.and hne)
  intro a b hma hmb hab
  obtain ⟨h1, h2⟩ := hab
  have va := (hok _ (List.mem_map_of_mem hma)).1
  have vb := (hok _ (List.mem_map_of_mem hmb)).1
  rw [← Bool.not_eq_true, recLt_iff ebc col ks _ _ vb va] at h1
  have e1 : (keyed a).2 = a.1.2 := rfl
  have e2 : (keyed b).2 = b.1.2 := rfl
  have e3 : (keyed a).1 = a.2 := rfl
  have e4 : (keyed b).1 = b.2 := rfl
  rw [e1, e2, e3, e4] at h1
  by_cases hs : SortBefore ebc col ks a.1.2 b.1.2
  · exact Or.inl hs
  · refine Or.inr ⟨fun h => h1 (Or.inl h), ?_⟩
    have : ¬ b.2 < a.2 := fun h => h1 (Or.inr ⟨hs, h⟩)
    omega

theorem markLast_map_ret (c : List SItem) :
    ((markLast c).map fun q => (q.data, some q.recSize)) = c.map fun q => (q.data, some q.recSize) := by
  induction c with
  | nil => rfl
  | cons x t ih =>
    rw [markLast_cons, List.map_cons, List.map_cons, ih]
    cases t <;> rfl

theorem deal_balanced {α : Type} (L : List α) :
    (deal L).2.length ≤ (deal L).1.length ∧ (deal L).1.length ≤ (deal L).2.length + 1 := by
  obtain ⟨h1, h2⟩ := deal_length L
  omega

theorem process_spec (ebc : Bool) (col : Option (Nat → Nat)) (ks : List SortKey) (size memory : Nat) (h : Sorter)
    (rs : List (Nat × List Nat)) (A B : List SItem) (L : List (List (Nat × List Nat)))
    (hi : Releasing ebc col ks size memory h rs A B L 0) (hm : 4 ≤ memory ∨ rs.length ≤ memory) (fuel : Nat)
    (hf : 2 * rs.length + 3 ≤ fuel) :
    ∃ h' o, sortProcess (sortLt ebc col ks) fuel h = some h' ∧ SortedReleases ebc col ks rs o ∧
      Returning (recLt ebc col ks) h'
        (o.map fun a => (a.1.2, if rs.length ≤ memory then some a.1.1 else none)) := by
  have hlen := releasing_len hi
  obtain ⟨c, c1, c2, c3, c4⟩ := releasing_queues ebc col ks size memory 0 h rs A B L hi fuel (by omega)
  have hokc : ∀ x ∈ c, RecOk ebc ks size (keyOf x) := by
    intro x hx
    rcases List.mem_append.1 (c4.mem_iff.1 hx) with h | h
    · exact hi.okA x h
    · exact hi.okB x h
  unfold sortProcess
  simp only [c1]
  cases L with
  | nil =>
    have hu : h.filesUsed = false := hi.used
    rw [if_pos hu]
    have hfew : rs.length ≤ memory := hi.few rfl
    refine ⟨_, c.map full, rfl, ?_, rfl, Or.inl ⟨hu, ?_⟩⟩
    · refine sortedReleases_of ebc col ks size rs _ ((c4.map full).trans (hi.permMem rfl)) ?_ ?_
      · intro k hk
        rw [List.map_map] at hk
        obtain ⟨x, hx, e⟩ := List.mem_map.1 hk
        subst e
        exact hokc x hx
      · rw [List.map_map]
        exact asc_map ebc col ks c c3
    · show _ = (markLast c).map _
      rw [markLast_map_ret, List.map_map]
      simp only [if_pos hfew]
      rfl
  | cons b0 L0 =>
    have hu : h.filesUsed = true := hi.used
    rw [if_neg (by rw [hu]; simp)]
    have hm1 : memory < rs.length + 0 := (hi.many (by simp)).1
    have hm2 := (hi.many (by simp)).2
    obtain ⟨g1, g2, g3, g4, g5, g6, g7⟩ := releasing_flush ebc col ks size memory 0 h rs A B (b0 :: L0) hi c c3 c4
    have hsame : ({ h with retrieving := true, q0 := [], q1 := [] } : Sorter).writeQueue (markLast c) =
        { ({ h with q0 := [], q1 := [] } : Sorter).writeQueue (markLast c) with retrieving := true } := by
      unfold Sorter.writeQueue
      simp only
      split <;> rfl
    have hwq : (({ h with q0 := [], q1 := [] } : Sorter).writeQueue (markLast c)).size = h.size ∧
        (({ h with q0 := [], q1 := [] } : Sorter).writeQueue (markLast c)).filesUsed = h.filesUsed := by
      unfold Sorter.writeQueue
      simp only
      split <;> simp
    rw [hsame]
    generalize hwh : ({ h with q0 := [], q1 := [] } : Sorter).writeQueue (markLast c) = hw at *
    simp only
    rw [if_neg (by omega)]
    obtain ⟨b1, b2⟩ := deal_balanced (b0 :: L0 ++ [c.map keyOf])
    obtain ⟨d1, d2⟩ := deal_length (b0 :: L0 ++ [c.map keyOf])
    have hll := hi.lenL
    have hfl : (deal (b0 :: L0 ++ [c.map keyOf])).1.flatten.length + (deal (b0 :: L0 ++ [c.map keyOf])).2.flatten.length
        = rs.length := by
      have := ((deal_perm (b0 :: L0 ++ [c.map keyOf])).trans g6).length_eq
      simpa using this
    obtain ⟨s0', s1', x', y', a, b, r1, r2, r3, r4, r5, r6⟩ :=
      fileSort_spec (sortLt ebc col ks) (recLt ebc col ks) (sortLt_byKey ebc col ks) size (RecOk ebc ks size)
        (recLt_swo ebc col ks size) (fun k hk => hk.2) fuel hw.s0.rewind hw.s1.rewind .empty .empty oldItem oldItem oldItem oldItem
        _ _ (by simp only [List.length_append, List.length_cons, List.length_nil] at d1 d2 hll ⊢; omega)
        (by simp only [List.length_append, List.length_cons, List.length_nil] at d2; omega) b1 b2
        (fun x hx => g5 x ((deal_mem _ x).1 (Or.inl hx))) (fun x hx => g5 x ((deal_mem _ x).1 (Or.inr hx)))
        (rewind_reading _ _ g1).1 (rewind_reading _ _ g2).1 ((rewind_reading _ _ g1).2.trans g3)
        ((rewind_reading _ _ g2).2.trans g4) (fun _ => empty_writing) (fun _ => empty_writing)
    have hsz : hw.size = size := hwq.1.trans hi.sizeEq
    rw [hsz]
    simp only [r1]
    obtain ⟨f0, x0, t1, t2, _⟩ := readItemFile_first size s0' x' a [] (fun k hk => (r4.2 k hk).2) r2
    obtain ⟨f1, y0, t3, t4, _⟩ := readItemFile_first size s1' y' b [] (fun k hk => (r5.2 k hk).2) r3
    simp only [t1, t3]
    let g : Nat × List Nat → (Nat × List Nat) × Nat := fun k => (((rs[k.1]?.map Prod.fst).getD 0, k.2), k.1)
    have hmp : (List.merge a b (recLt ebc col ks)).Perm (rs.zipIdx.map keyed) :=
      (List.merge_perm_append _).trans (r6.trans ((deal_perm _).trans g6))
    have hkg : ∀ l : List (Nat × List Nat), (l.map g).map keyed = l := by
      intro l
      rw [List.map_map]
      exact List.map_id l
    refine ⟨_, (List.merge a b (recLt ebc col ks)).map g, rfl, ?_, rfl, Or.inr ⟨hwq.2.trans hu, a, b, t2, t4, ?_, ?_, ?_⟩⟩
    · refine sortedReleases_of ebc col ks size rs _ ?_ ?_ ?_
      · refine (hmp.map g).trans (List.Perm.of_eq ?_)
        rw [List.map_map]
        conv => rhs; rw [← List.map_id rs.zipIdx]
        apply List.map_congr_left
        intro z hz
        obtain ⟨⟨n, r⟩, i⟩ := z
        have := List.mem_zipIdx_iff_getElem?.1 hz
        simp only at this
        simp [g, keyed, this]
      · rw [hkg]
        intro k hk
        rcases mem_merge_of _ k _ _ hk with h | h
        · exact r4.2 k h
        · exact r5.2 k h
      · rw [hkg]
        exact merge_asc _ _ (recLt_swo ebc col ks size) _ a b (Nat.le_refl _) r4.2 r5.2 r4.1 r5.1
    · intro k hk; exact hsz ▸ (r4.2 k hk).2
    · intro k hk; exact hsz ▸ (r5.2 k hk).2
    · rw [List.map_map]
      apply List.map_congr_left
      intro k _
      simp only [Function.comp, g]
      rw [if_neg (by omega)]

/-- The sort from any point before the first RETURN. -/
theorem sortRun_releasing (ebc : Bool) (col : Option (Nat → Nat)) (ks : List SortKey) (size memory fuel : Nat) :
    ∀ (ops : List SortOp) (h : Sorter) (rs : List (Nat × List Nat)) (A B : List SItem)
    (L : List (List (Nat × List Nat))), Releasing ebc col ks size memory h rs A B L 0 →
    (∀ x ∈ released ops, x.2.length = size ∧ RecValid ebc ks x.2) → (rs ++ released ops).length < 2 ^ 64 →
    (4 ≤ memory ∨ (rs ++ released ops).length ≤ memory) → 2 * (rs ++ released ops).length + 3 ≤ fuel →
    ∃ o, SortedReleases ebc col ks (rs ++ released ops) o ∧
      sortRun (sortLt ebc col ks) fuel h ops =
        some (sortSpec (o.map fun a => (a.1.2, if (rs ++ released ops).length ≤ memory then some a.1.1 else none)) false ops)
  | [], h, rs, A, B, L, hi, hv, hn, hm, hf => by
    have e : rs ++ released [] = rs := by simp [released]
    rw [e] at hn hm hf ⊢
    obtain ⟨h', o, p1, p2, p3⟩ := process_spec ebc col ks size memory h rs A B L hi hm fuel hf
    refine ⟨o, p2, ?_⟩
    rw [sortRun]
    cases o <;> rfl
  | .ret :: ops, h, rs, A, B, L, hi, hv, hn, hm, hf => by
    have e : rs ++ released (.ret :: ops) = rs := by simp [released]
    rw [e] at hn hm hf ⊢
    obtain ⟨h', o, p1, p2, p3⟩ := process_spec ebc col ks size memory h rs A B L hi hm fuel hf
    refine ⟨o, p2, ?_⟩
    have hret : sortRetrieve (sortLt ebc col ks) fuel h = sortRetrieve (sortLt ebc col ks) fuel h' := by
      unfold sortRetrieve
      rw [if_neg (by rw [hi.ret]; simp), if_pos p3.1, p1]
    have hrun : sortRun (sortLt ebc col ks) fuel h (.ret :: ops) = sortRun (sortLt ebc col ks) fuel h' (.ret :: ops) := by
      rw [sortRun, sortRun, hret]
    rw [hrun, sortRun_returning _ _ (sortLt_byKey ebc col ks) fuel _ h' _ p3]
    cases o <;> rfl
  | .release n r :: ops, h, rs, A, B, L, hi, hv, hn, hm, hf => by
    have e : rs ++ released (.release n r :: ops) = (rs ++ [(n, r)]) ++ released ops := by simp [released]
    rw [e] at hn hm hf ⊢
    obtain ⟨v1, v2⟩ := hv (n, r) (by simp [released])
    have l1 : rs.length + 1 ≤ (rs ++ [(n, r)] ++ released ops).length := by simp
    obtain ⟨h', A', B', L', s1, s2⟩ := submit_spec ebc col ks size memory h rs A B L hi n r v1 v2 (by omega) fuel (by omega)
    obtain ⟨o, o1, o2⟩ := sortRun_releasing ebc col ks size memory fuel ops h' _ A' B' L' s2
      (fun x hx => hv x (by simp [released, hx])) hn hm hf
    refine ⟨o, o1, ?_⟩
    rw [sortRun, s1]
    simp only [o2]
    generalize (o.map fun a => (a.1.2, if (rs ++ [(n, r)] ++ released ops).length ≤ memory then some a.1.1 else none)) = out
    cases out <;> rfl

/-! ### The property -/

/-- C40: for every sequence of RELEASE and RETURN, the records returned are the records released before
the first RETURN, each exactly once, ordered by the keys and among equal keys by the order of release;
then RETURN answers 10.  This holds whether or not the records fit in memory; if they do not, blocks of
`memory` records go through temporary files. -/
theorem C40_sort (ebc : Bool) (col : Option (Nat → Nat)) (ks : List SortKey) (size memory fuel : Nat)
    (ops : List SortOp) (hv : ∀ x ∈ released ops, x.2.length = size ∧ RecValid ebc ks x.2)
    (hn : (released ops).length < 2 ^ 64) (hm : 4 ≤ memory ∨ (released ops).length ≤ memory)
    (hf : 2 * (released ops).length + 3 ≤ fuel) :
    ∃ o, SortedReleases ebc col ks (released ops) o ∧
      sortRun (sortLt ebc col ks) fuel (.init size memory) ops =
        some (sortSpec (o.map fun a => (a.1.2, if (released ops).length ≤ memory then some a.1.1 else none)) false ops) := by
  have := sortRun_releasing ebc col ks size memory fuel ops _ [] [] [] [] (releasing_init ebc col ks size memory) hv
  simpa using this hn hm hf

/-- The result is determined: there is only one such order. -/
theorem C40_order_unique (ebc : Bool) (col : Option (Nat → Nat)) (ks : List SortKey) (rs : List (Nat × List Nat))
    (hv : ∀ x ∈ rs, RecValid ebc ks x.2) (o o' : List ((Nat × List Nat) × Nat))
    (h : SortedReleases ebc col ks rs o) (h' : SortedReleases ebc col ks rs o') : o = o' := by
  refine List.Perm.eq_of_pairwise ?_ h.2 h'.2 (h.1.trans h'.1.symm)
  intro a b ha hb hab hba
  have va : RecValid ebc ks a.1.2 := hv _ (List.fst_mem_of_mem_zipIdx (h.1.mem_iff.1 ha))
  have vb : RecValid ebc ks b.1.2 := hv _ (List.fst_mem_of_mem_zipIdx (h'.1.mem_iff.1 hb))
  have f1 := (sb_facts ebc col ks a.1.2 b.1.2 b.1.2 va vb vb).1
  have f2 := (sb_facts ebc col ks b.1.2 a.1.2 a.1.2 vb va va).1
  exfalso
  rcases hab with hab | ⟨h1, h2⟩ <;> rcases hba with hba | ⟨h3, h4⟩
  · exact f1 hab hba
  · exact h3 hab
  · exact h1 hba
  · omega

/-! ### Example and findings -/

/-- Records of two bytes with the first as the key, the second to tell them apart. -/
def exSortKey : List SortKey := [{ numeric := none, offset := 0, size := 1, asc := true }]

/-- Six records, of which only four fit in memory; 50 comes three times. -/
def exSortOps : List SortOp :=
  [.release 2 [50, 1], .release 2 [49, 2], .release 2 [50, 3], .release 2 [52, 4], .release 2 [48, 5],
   .release 2 [50, 6], .ret, .ret, .ret, .ret, .ret, .ret, .ret, .release 2 [48, 7], .ret]

example : (∀ x ∈ released exSortOps, x.2.length = 2 ∧ RecValid false exSortKey x.2) ∧
    (released exSortOps).length < 2 ^ 64 ∧ 4 ≤ 4 ∧ ¬ (released exSortOps).length ≤ 4 := by
  refine ⟨?_, by decide, by decide, by decide⟩
  intro x hx
  simp only [exSortOps, released, List.mem_cons, List.not_mem_nil, or_false] at hx
  rcases hx with h | h | h | h | h | h <;> subst h <;>
    exact ⟨rfl, by intro k hk; simp only [exSortKey, List.mem_singleton] at hk; subst hk; exact ⟨by decide, trivial⟩⟩

example : sortRun (sortLt false none exSortKey) 40 (.init 2 4) exSortOps =
    some ((List.replicate 6 ⟨0, none, none⟩ ++
      [[48, 5], [49, 2], [50, 1], [50, 3], [50, 6], [52, 4]].map fun r => ⟨0, some r, none⟩) ++
      [⟨10, none, none⟩, ⟨30, none, none⟩, ⟨10, none, none⟩]) := by
  decide +kernel

/-- C40, finding: with four records in memory the sort above works, with three (records of a third of
the sort memory or more) the first RETURN dereferences a null pointer, as four free items are needed. -/
theorem C40_finding_three_records :
    (sortRun (sortLt false none exSortKey) 100 (.init 2 4) exSortOps).isSome ∧
    sortRun (sortLt false none exSortKey) 100 (.init 2 3) exSortOps = none := by
  decide +kernel

/-- C40, finding: the sizes of variable-length records (RECORD DEPENDING ON) come back only while no
temporary file is used: with room for six records RETURN restores the sizes, with room for four it
leaves the size item alone. -/
theorem C40_finding_sizes_lost :
    let ops := [SortOp.release 1 [50, 32], .release 2 [49, 49], .release 1 [50, 32], .release 1 [52, 32],
      .release 2 [48, 48], .release 1 [50, 32], .ret, .ret, .ret]
    ((sortRun (sortLt false none exSortKey) 40 (.init 2 6) ops).map fun l => (l.drop 6).map (·.size)) =
      some [some 2, some 2, some 1] ∧
    ((sortRun (sortLt false none exSortKey) 40 (.init 2 4) ops).map fun l => (l.drop 6).map (·.size)) =
      some [none, none, none] := by
  decide +kernel

end Cob
