import Verif.Rt.TabSort
import Verif.Cmp.SortKeyProps
/-
C94: SORT of a table.
-/
namespace Cob.TabSort

/-! ### Specification -/

/-- The bytes of element `i` (from 0) of the table. -/
def element (t : Table) (r : List Nat) (i : Nat) : List Nat := (r.drop (t.base + i * t.esz)).take t.esz

/-- The number of elements the table has now. -/
def Has (t : Table) (n : Nat) : Prop := t.dep = some n ∨ (t.dep = none ∧ t.max = n)

/-- A key, with its place in the element. -/
def inElement (t : Table) (k : KeyRef) : SortKey := ⟨k.numeric, k.offset - t.base, k.size, k.asc⟩

/-- The collating sequence that COBOL prescribes: that of the statement (NATIVE is the order of the characters itself), or that of the program. -/
def prescribed : Phrase → Option (Nat → Nat) → Option (Nat → Nat)
  | .absent, prog => prog
  | .native, _ => none
  | .table f, _ => some f

/-- After the SORT: the elements are those from before, no element must come before an earlier one, and all else in the record is as before. -/
structure Done (ebc : Bool) (col : Option (Nat → Nat)) (ks : List SortKey) (t : Table) (n : Nat) (r r' : List Nat) : Prop where
  same : ((List.range n).map (element t r')).Perm ((List.range n).map (element t r))
  ordered : ∀ i j, i < j → j < n → ¬ SortBefore ebc col ks (element t r' j) (element t r' i)
  length : r'.length = r.length
  front : r'.take t.base = r.take t.base
  rest : r'.drop (t.base + n * t.esz) = r.drop (t.base + n * t.esz)

/-! ### Lemmas -/

theorem chunks_eq (esz n : Nat) (l : List Nat) : chunks esz n l = (List.range n).map fun i => (l.drop (i * esz)).take esz := by
  induction n generalizing l with
  | zero => rfl
  | succ n ih =>
    rw [chunks, ih, List.range_succ_eq_map, List.map_cons, List.map_map]
    congr 1
    · simp
    · apply List.map_congr_left
      intro i _
      simp only [Function.comp, List.drop_drop]
      rw [Nat.succ_mul, Nat.add_comm]

theorem chunks_length (esz n : Nat) (l : List Nat) (h : n * esz ≤ l.length) : ∀ c ∈ chunks esz n l, c.length = esz := by
  rw [chunks_eq]
  intro c hc
  rw [List.mem_map] at hc
  obtain ⟨i, hi, rfl⟩ := hc
  rw [List.mem_range] at hi
  have : (i + 1) * esz ≤ n * esz := Nat.mul_le_mul_right _ hi
  rw [Nat.succ_mul] at this
  rw [List.length_take, List.length_drop]
  omega

theorem flatten_chunk (esz : Nat) (ls : List (List Nat)) (h : ∀ c ∈ ls, c.length = esz) (tail : List Nat) :
    chunks esz ls.length (ls.flatten ++ tail) = ls ∧ ls.flatten.length = ls.length * esz := by
  induction ls with
  | nil => simp [chunks]
  | cons c ls ih =>
    have hc : c.length = esz := h c (by simp)
    obtain ⟨h1, h2⟩ := ih fun x hx => h x (by simp [hx])
    constructor
    · rw [List.length_cons, chunks, List.flatten_cons, List.append_assoc, ← hc, List.take_left, List.drop_left, hc, h1]
    · rw [List.flatten_cons, List.length_append, h2, hc, List.length_cons, Nat.succ_mul, Nat.add_comm]

theorem elements_chunks (t : Table) (n : Nat) (r : List Nat) : (List.range n).map (element t r) = chunks t.esz n (r.drop t.base) := by
  rw [chunks_eq]
  apply List.map_congr_left
  intro i _
  unfold element
  rw [List.drop_drop]

theorem has_count (t : Table) (n : Nat) (h : Has t n) : t.count = n := by
  unfold Table.count
  rcases h with h | ⟨h, h'⟩
  · rw [h]
  · rw [h]; exact h'

theorem consistent_of_valid (ebc : Bool) (col : Option (Nat → Nat)) (ks : List SortKey) (l : List (List Nat))
    (h : ∀ a ∈ l, RecValid ebc ks a) : Consistent (sortCompare ebc col ks) l := by
  refine ⟨fun a ha => (C25_total_preorder ebc col ks a a a (h a ha) (h a ha) (h a ha)).1, fun a ha b hb => ?_, fun a ha b hb c hc x y z hx hy hz h1 h2 => ?_⟩
  · obtain ⟨x, hx, y, hy, h1, h2⟩ := (C25_total_preorder ebc col ks a b a (h a ha) (h b hb) (h a ha)).2.1
    exact ⟨x, y, hx, hy, h1, h2⟩
  · exact ((C25_total_preorder ebc col ks a b c (h a ha) (h b hb) (h c hc)).2.2 x y z hx hy hz h1 h2).1

/-- Sorting by the keys as the runtime sees them. -/
theorem sort_done (ebc : Bool) (ph : Phrase) (prog : Option (Nat → Nat)) (ks : List KeyRef) (t : Table) (n : Nat) (hn : Has t n) (r r' : List Nat)
    (hlen : t.base + n * t.esz ≤ r.length) (hv : ∀ i < n, RecValid ebc (ks.map initKey) (element t r i))
    (hs : SortTable ebc ph prog ks t r r') : Done ebc (sequenceOf ph.pointer prog) (ks.map initKey) t n r r' := by
  obtain ⟨l', hq, rfl⟩ := hs
  rw [has_count t n hn] at *
  rw [← elements_chunks] at hq
  have hval : ∀ a ∈ (List.range n).map (element t r), RecValid ebc (ks.map initKey) a := by
    intro a ha
    rw [List.mem_map] at ha
    obtain ⟨i, hi, rfl⟩ := ha
    exact hv i (List.mem_range.1 hi)
  obtain ⟨hp, ho⟩ := hq (consistent_of_valid _ _ _ _ hval)
  have hl : l'.length = n := by rw [hp.length_eq]; simp
  have hsz : ∀ c ∈ l', c.length = t.esz := by
    intro c hc
    have := hp.mem_iff.1 hc
    rw [elements_chunks] at this
    exact chunks_length t.esz n _ (by rw [List.length_drop]; omega) c this
  obtain ⟨hch, hfl⟩ := flatten_chunk t.esz l' hsz (r.drop (t.base + n * t.esz))
  have htk : (r.take t.base).length = t.base := by rw [List.length_take]; omega
  have hel : (List.range n).map (element t (r.take t.base ++ l'.flatten ++ r.drop (t.base + n * t.esz))) = l' := by
    rw [elements_chunks, List.append_assoc, List.drop_append_of_le_length (by omega), List.drop_of_length_le (by omega), List.nil_append, ← hl]
    rw [hl] at hch ⊢
    exact hch
  refine ⟨by rw [hel]; exact hp, ?_, ?_, ?_, ?_⟩
  · intro i j hij hj hb
    rw [← hel] at ho
    rw [List.pairwise_iff_getElem] at ho
    obtain ⟨x, hx, hx0⟩ := ho i j (by simp; omega) (by simp; omega) hij
    simp only [List.getElem_map, List.getElem_range] at hx
    have hm : ∀ k < n, element t (r.take t.base ++ l'.flatten ++ r.drop (t.base + n * t.esz)) k ∈ l' := by
      intro k hk
      rw [← hel]
      rw [hel]
      have h : element t (r.take t.base ++ l'.flatten ++ r.drop (t.base + n * t.esz)) k ∈
          (List.range n).map (element t (r.take t.base ++ l'.flatten ++ r.drop (t.base + n * t.esz))) :=
        List.mem_map.2 ⟨k, List.mem_range.2 hk, rfl⟩
      rwa [hel] at h
    obtain ⟨c, hc, _, e2⟩ := C25_lexicographic ebc (sequenceOf ph.pointer prog) (ks.map initKey) _ _
      (hval _ (hp.mem_iff.1 (hm i (by omega)))) (hval _ (hp.mem_iff.1 (hm j hj)))
    rw [hx] at hc
    cases hc
    have := e2.2 hb
    omega
  · simp only [List.length_append, List.length_drop, htk, hfl, hl]
    omega
  · rw [List.append_assoc, List.take_append_of_le_length (by omega), List.take_take, Nat.min_self]
  · have : (r.take t.base ++ l'.flatten).length = t.base + n * t.esz := by rw [List.length_append, htk, hfl, hl]
    rw [← this, List.drop_left, this]

/-! ### C94 -/

/-- **C94**: SORT of a table that is at the start of its record, with the program's own sequence or an alphabet that is not NATIVE: afterwards the
elements are those from before, in the order of the keys, and the rest of the record (with DEPENDING also the elements not in use) is unchanged. -/
theorem C94_sorted (ebc : Bool) (ph : Phrase) (prog : Option (Nat → Nat)) (ks : List KeyRef) (t : Table) (n : Nat) (hn : Has t n) (r r' : List Nat)
    (hbase : t.base = 0) (hph : ph ≠ .native ∨ prog = none) (hlen : t.base + n * t.esz ≤ r.length)
    (hv : ∀ i < n, RecValid ebc (ks.map (inElement t)) (element t r i))
    (hs : SortTable ebc ph prog ks t r r') : Done ebc (prescribed ph prog) (ks.map (inElement t)) t n r r' := by
  have hk : ks.map (inElement t) = ks.map initKey := by
    apply List.map_congr_left
    intro k _
    simp [inElement, initKey, hbase]
  have hc : prescribed ph prog = sequenceOf ph.pointer prog := by
    cases ph with
    | absent => rfl
    | table f => rfl
    | native =>
      rcases hph with h | h
      · exact absurd rfl h
      · rw [h]; rfl
  rw [hk] at hv ⊢
  rw [hc]
  exact sort_done ebc ph prog ks t n hn r r' hlen hv hs

/-- C94: if no two elements have equal keys, the result is the same with every C library. -/
theorem C94_unique (ebc : Bool) (ph : Phrase) (prog : Option (Nat → Nat)) (ks : List KeyRef) (t : Table) (n : Nat) (hn : Has t n) (r r1 r2 : List Nat)
    (hbase : t.base = 0) (hph : ph ≠ .native ∨ prog = none) (hlen : t.base + n * t.esz ≤ r.length)
    (hv : ∀ i < n, RecValid ebc (ks.map (inElement t)) (element t r i))
    (hd : ∀ i j, i < j → j < n → SortBefore ebc (prescribed ph prog) (ks.map (inElement t)) (element t r i) (element t r j) ∨
      SortBefore ebc (prescribed ph prog) (ks.map (inElement t)) (element t r j) (element t r i))
    (h1 : SortTable ebc ph prog ks t r r1) (h2 : SortTable ebc ph prog ks t r r2) : r1 = r2 := by
  have d1 := C94_sorted ebc ph prog ks t n hn r r1 hbase hph hlen hv h1
  have d2 := C94_sorted ebc ph prog ks t n hn r r2 hbase hph hlen hv h2
  generalize hcol : prescribed ph prog = col at *
  generalize hks : ks.map (inElement t) = kk at *
  have pw : ∀ q, Done ebc col kk t n r q → ((List.range n).map (element t q)).Pairwise fun a b => ¬ SortBefore ebc col kk b a := by
    intro q d
    rw [List.pairwise_iff_getElem]
    intro i j hi hj hij
    simp only [List.length_map, List.length_range] at hi hj
    simp only [List.getElem_map, List.getElem_range]
    exact d.ordered i j hij hj
  have eq : (List.range n).map (element t r1) = (List.range n).map (element t r2) := by
    refine List.Perm.eq_of_pairwise ?_ (pw r1 d1) (pw r2 d2) (d1.same.trans d2.same.symm)
    intro a b ha hb hab hba
    have ha' := d1.same.mem_iff.1 ha
    have hb' := d2.same.mem_iff.1 hb
    rw [List.mem_map] at ha' hb'
    obtain ⟨i, hi, rfl⟩ := ha'
    obtain ⟨j, hj, rfl⟩ := hb'
    rw [List.mem_range] at hi hj
    rcases Nat.lt_trichotomy i j with h | h | h
    · rcases hd i j h hj with h | h
      · exact absurd h hba
      · exact absurd h hab
    · rw [h]
    · rcases hd j i h hi with h | h
      · exact absurd h hab
      · exact absurd h hba
  have parts : ∀ q, Done ebc col kk t n r q → q = r.take t.base ++ ((List.range n).map (element t q)).flatten ++ r.drop (t.base + n * t.esz) := by
    intro q d
    have hfl : ∀ m (l : List Nat), m * t.esz ≤ l.length → (chunks t.esz m l).flatten = l.take (m * t.esz) := by
      intro m
      induction m with
      | zero => intro l _; simp [chunks]
      | succ m ih =>
        intro l hl
        rw [Nat.succ_mul] at hl
        rw [chunks, List.flatten_cons, ih _ (by rw [List.length_drop]; omega), Nat.succ_mul, Nat.add_comm, List.take_add]
    rw [elements_chunks, hfl n _ (by rw [List.length_drop, d.length]; omega), ← d.front, ← d.rest, ← List.take_add, List.take_append_drop]
  rw [parts r1 d1, parts r2 d2, eq]

/-! ### Cases and findings -/

theorem perm_two (l : List (List Nat)) (a b : List Nat) (h : l.Perm [a, b]) : l = [a, b] ∨ l = [b, a] := by
  have hl := h.length_eq
  match l, hl with
  | [x, y], _ =>
    have hx := h.mem_iff.1 (show x ∈ [x, y] by simp)
    simp only [List.mem_cons, List.not_mem_nil, or_false] at hx
    rcases hx with rfl | rfl
    · have := List.perm_cons x |>.1 h
      rw [List.perm_singleton] at this
      rw [this]; exact Or.inl rfl
    · have h' := h.trans (List.Perm.swap x a [])
      have := List.perm_cons x |>.1 h'
      rw [List.perm_singleton] at this
      rw [this]; exact Or.inr rfl

theorem may_of_dec (cmp : List Nat → List Nat → Option Int) (l l' : List (List Nat)) (hp : l'.Perm l)
    (ho : l'.Pairwise fun a b => (cmp a b).any (· ≤ 0) = true) : Qsort cmp l l' := by
  refine fun _ => ⟨hp, ho.imp ?_⟩
  intro a b h
  rw [Option.any_eq_true] at h
  obtain ⟨x, hx, h0⟩ := h
  exact ⟨x, hx, by simpa using h0⟩

/-- 05 T OCCURS 3. 10 K PIC X. 10 V PIC X. -/
def exT : Table := ⟨0, 2, 3, none⟩

/-- ASCENDING KEY K. -/
def exK : List KeyRef := [⟨none, 0, 1, true⟩]

/-- "B1A2C3" and one more byte. -/
def exR : List Nat := [66, 49, 65, 50, 67, 51, 46]

example : Has exT 3 ∧ exT.base + 3 * exT.esz ≤ exR.length ∧ ∀ i < 3, RecValid false (exK.map (inElement exT)) (element exT exR i) := by
  refine ⟨Or.inr ⟨rfl, rfl⟩, by decide, ?_⟩
  intro i hi k hk
  simp only [exK, List.map_cons, List.map_nil, List.mem_singleton] at hk
  subst hk
  refine ⟨?_, trivial⟩
  revert i
  decide +kernel
example : SortTable false .absent none exK exT exR [65, 50, 66, 49, 67, 51, 46] :=
  ⟨[[65, 50], [66, 49], [67, 51]], may_of_dec _ _ _ (by decide +kernel) (by decide +kernel), by decide +kernel⟩

/-- Finding: WITH DUPLICATES IN ORDER has no effect (/repo/cobc/parser.y:5921-5923) and nothing in the program keeps elements with equal keys in
their order: "B1A2B3" may become "A2B3B1". -/
theorem C94_finding_duplicates :
    SortTable false .absent none exK exT [66, 49, 65, 50, 66, 51] [65, 50, 66, 51, 66, 49] :=
  ⟨[[65, 50], [66, 51], [66, 49]], may_of_dec _ _ _ (by decide +kernel) (by decide +kernel), by decide +kernel⟩

/-- Finding: the place of a key is counted from the start of the record, not of the element.  In 01 R. 05 H PIC X. 05 T OCCURS 2. 10 K PIC X. 10 V
PIC X. the statement SORT T ASCENDING KEY K looks at V: "-A2B1", which is in order, becomes "-B1A2" with every C library. -/
theorem C94_finding_offset (r' : List Nat) (hs : SortTable false .absent none [⟨none, 1, 1, true⟩] ⟨1, 2, 2, none⟩ [45, 65, 50, 66, 49] r') :
    r' = [45, 66, 49, 65, 50] ∧
    SortBefore false none [inElement ⟨1, 2, 2, none⟩ ⟨none, 1, 1, true⟩] [65, 50] [66, 49] := by
  constructor
  · obtain ⟨l', hq, rfl⟩ := hs
    obtain ⟨hp, ho⟩ := hq (consistent_of_valid _ _ _ _ (by
      intro a ha k hk
      simp only [List.map_cons, List.map_nil, List.mem_singleton] at hk
      subst hk
      refine ⟨?_, trivial⟩
      revert a
      decide +kernel))
    have he : chunks 2 (Table.count ⟨1, 2, 2, none⟩) (([45, 65, 50, 66, 49] : List Nat).drop 1) = [[65, 50], [66, 49]] := by decide +kernel
    rw [he] at hp
    rcases perm_two _ _ _ hp with rfl | rfl
    · exfalso
      obtain ⟨x, hx, h0⟩ := (List.pairwise_cons.1 ho).1 [66, 49] (by simp)
      have : sortCompare false (sequenceOf Phrase.absent.pointer none) ([⟨none, 1, 1, true⟩].map initKey) [65, 50] [66, 49] = some 1 := by decide +kernel
      rw [this] at hx
      cases hx
      omega
    · decide +kernel
  · refine ⟨[], _, [], rfl, by simp, ?_⟩
    obtain ⟨c, hc, e1, _⟩ := C25_lexicographic false none [inElement ⟨1, 2, 2, none⟩ ⟨none, 1, 1, true⟩] [65, 50] [66, 49]
      (by intro k hk; rw [List.mem_singleton] at hk; subst hk; exact ⟨by decide, trivial⟩)
      (by intro k hk; rw [List.mem_singleton] at hk; subst hk; exact ⟨by decide, trivial⟩)
    have : sortCompare false none [inElement ⟨1, 2, 2, none⟩ ⟨none, 1, 1, true⟩] [65, 50] [66, 49] = some (-1) := by decide +kernel
    rw [this] at hc
    cases hc
    have h := e1.1 (by decide)
    rw [sortBefore_cons] at h
    rcases h with h | ⟨_, _, pre, q, post, he, _⟩
    · exact h
    · simp at he

/-- Finding: COLLATING SEQUENCE IS an alphabet that is NATIVE has no effect in a program with a collating sequence of its own: with one that runs
backwards, "AB" becomes "BA" although NATIVE was asked for. -/
theorem C94_finding_native (r' : List Nat)
    (hs : SortTable false .native (some fun c => 255 - c) [⟨none, 0, 1, true⟩] ⟨0, 1, 2, none⟩ [65, 66] r') : r' = [66, 65] := by
  obtain ⟨l', hq, rfl⟩ := hs
  obtain ⟨hp, ho⟩ := hq (consistent_of_valid _ _ _ _ (by
    intro a ha k hk
    simp only [List.map_cons, List.map_nil, List.mem_singleton] at hk
    subst hk
    refine ⟨?_, trivial⟩
    revert a
    decide +kernel))
  have he : chunks 1 (Table.count ⟨0, 1, 2, none⟩) (([65, 66] : List Nat).drop 0) = [[65], [66]] := by decide +kernel
  rw [he] at hp
  rcases perm_two _ _ _ hp with rfl | rfl
  · exfalso
    obtain ⟨x, hx, h0⟩ := (List.pairwise_cons.1 ho).1 [66] (by simp)
    have : sortCompare false (sequenceOf Phrase.native.pointer (some fun c => 255 - c)) ([⟨none, 0, 1, true⟩].map initKey) [65] [66] = some 1 := by
      decide +kernel
    rw [this] at hx
    cases hx
    omega
  · decide +kernel

end Cob.TabSort
