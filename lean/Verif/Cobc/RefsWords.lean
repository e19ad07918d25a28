import Verif.Cobc.RefsSpec
/-
The table of the words of a program (`lookup_word` of /repo/cobc/tree.c): two
texts get the same entry exactly when they are the same name.
-/
namespace Cob

/-- `toupper` of a byte in the C locale. -/
def upW (c : Nat) : Nat := if 97 ≤ c ∧ c ≤ 122 then c - 32 else c

/-- `hash` (/repo/cobc/tree.c:132-141), with `CB_WORD_HASH_SIZE` 133
(/repo/cobc/tree.h:675). -/
def wordHash (s : List Nat) : Nat := (s.foldl (fun v c => v + upW c) 0) % 133

/-- The table: for every hash value the entries of this bucket, the newest
first, each with its name; and the number of entries so far, which stands for
the address of the next. -/
structure WordTable where
  buckets : List (List (Nat × List Nat))
  next : Nat

/-- The table of a new program (`cobc_malloc` gives zeroed memory). -/
def emptyWords : WordTable := { buckets := List.replicate 133 [], next := 0 }

/-- `lookup_word` (/repo/cobc/tree.c:143-170) with a current program. -/
def lookupWord (t : WordTable) (name : List Nat) : Nat × WordTable :=
  match (t.buckets.getD (wordHash name) []).find? (fun p => sameWord p.2 name) with
  | some p => (p.1, t)
  | none => (t.next,
      { buckets := t.buckets.set (wordHash name) ((t.next, name) :: t.buckets.getD (wordHash name) []),
        next := t.next + 1 })

/-- The entries a list of texts gets, one after the other. -/
def lookupWords : WordTable → List (List Nat) → List Nat × WordTable
  | t, [] => ([], t)
  | t, n :: r =>
    let a := lookupWord t n
    let b := lookupWords a.2 r
    (a.1 :: b.1, b.2)

theorem up_low (a b : Nat) (h : lowW a = lowW b) : upW a = upW b := by
  unfold lowW at h
  unfold upW
  split at h <;> split at h <;> split <;> split <;> omega

theorem hash_same (a b : List Nat) (h : sameWord a b = true) : wordHash a = wordHash b := by
  unfold sameWord at h
  simp only [Bool.and_eq_true, beq_iff_eq] at h
  replace h := h.2
  unfold wordHash
  generalize (0 : Nat) = v
  congr 1
  induction a generalizing b v with
  | nil =>
    cases b with
    | nil => rfl
    | cons y b => simp at h
  | cons x a ih =>
    cases b with
    | nil => simp at h
    | cons y b =>
      simp only [List.map_cons, List.cons.injEq] at h
      simp only [List.foldl_cons]
      rw [up_low x y h.1]
      exact ih _ h.2 _

theorem sameWord_iff (a b : List Nat) : sameWord a b = true ↔ a.map lowW = b.map lowW := by
  unfold sameWord
  simp only [Bool.and_eq_true, beq_iff_eq]
  refine ⟨fun h => h.2, fun h => ⟨?_, h⟩⟩
  have := congrArg List.length h
  simpa using this

/-- What holds of a table: the entries of a bucket hash to it, entries are
numbered below `next`, and there is one entry for a number and one for a
name. -/
structure WordsOk (t : WordTable) : Prop where
  len : t.buckets.length = 133
  home : ∀ (h : Nat) (l : List (Nat × List Nat)), t.buckets[h]? = some l → ∀ p ∈ l, wordHash p.2 = h ∧ p.1 < t.next
  names : ∀ (h : Nat) (l : List (Nat × List Nat)), t.buckets[h]? = some l → ∀ p ∈ l, ∀ q ∈ l,
    sameWord p.2 q.2 = true → p = q
  nums : ∀ (h k : Nat) (l m : List (Nat × List Nat)), t.buckets[h]? = some l → t.buckets[k]? = some m →
    ∀ p ∈ l, ∀ q ∈ m, p.1 = q.1 → p = q

/-- The table has an entry with this number and name. -/
def Entry (t : WordTable) (p : Nat × List Nat) : Prop := ∃ (h : Nat) (l : List (Nat × List Nat)), t.buckets[h]? = some l ∧ p ∈ l

theorem hash_lt (n : List Nat) : wordHash n < 133 := Nat.mod_lt _ (by decide)

theorem entry_unique {t : WordTable} (ok : WordsOk t) {p q : Nat × List Nat} (hp : Entry t p) (hq : Entry t q) :
    p.1 = q.1 ↔ sameWord p.2 q.2 = true := by
  obtain ⟨h, l, hl, hpl⟩ := hp
  obtain ⟨k, m, hm, hqm⟩ := hq
  constructor
  · intro e
    rw [ok.nums h k l m hl hm p hpl q hqm e, sameWord_iff]
  · intro e
    have h1 := (ok.home h l hl p hpl).1
    have h2 := (ok.home k m hm q hqm).1
    have : h = k := by rw [← h1, ← h2]; exact hash_same _ _ e
    subst this
    rw [hl] at hm
    cases hm
    rw [ok.names h l hl p hpl q hqm e]

/-- One lookup: the table stays right, entries stay, and the number found is
of an entry with the same name. -/
theorem lookup_ok {t : WordTable} (ok : WordsOk t) (name : List Nat) :
    WordsOk (lookupWord t name).2 ∧ (∀ p, Entry t p → Entry (lookupWord t name).2 p) ∧
    ∃ w, Entry (lookupWord t name).2 ((lookupWord t name).1, w) ∧ sameWord w name = true := by
  unfold lookupWord
  have hlt : wordHash name < t.buckets.length := by rw [ok.len]; exact hash_lt name
  obtain ⟨l, hl⟩ : ∃ l, t.buckets[wordHash name]? = some l := ⟨_, List.getElem?_eq_getElem hlt⟩
  have hd : t.buckets.getD (wordHash name) [] = l := by rw [List.getD_eq_getElem?_getD, hl]; rfl
  rw [hd]
  cases hf : l.find? (fun p => sameWord p.2 name) with
  | some p =>
    exact ⟨ok, fun _ h => h, p.2, ⟨_, l, hl, List.mem_of_find?_eq_some hf⟩,
      List.find?_some (p := fun p : Nat × List Nat => sameWord p.2 name) hf⟩
  | none =>
    dsimp only
    rw [List.find?_eq_none] at hf
    have get : ∀ (k : Nat) (m : List (Nat × List Nat)),
        (t.buckets.set (wordHash name) ((t.next, name) :: l))[k]? = some m →
        (k = wordHash name ∧ m = (t.next, name) :: l) ∨ (k ≠ wordHash name ∧ t.buckets[k]? = some m) := by
      intro k m hk
      rw [List.getElem?_set] at hk
      split at hk
      · rename_i e
        cases hk
        exact .inl ⟨e.symm, rfl⟩
      · rename_i e
        exact .inr ⟨fun h => e h.symm, hk⟩
    have self : (t.buckets.set (wordHash name) ((t.next, name) :: l))[wordHash name]? =
        some ((t.next, name) :: l) := by
      rw [List.getElem?_set, if_pos rfl, if_pos hlt]
    refine ⟨⟨?_, ?_, ?_, ?_⟩, ?_, ?_⟩
    · rw [List.length_set]; exact ok.len
    · intro k m hk p hp
      rcases get k m hk with ⟨rfl, rfl⟩ | ⟨_, hk⟩
      · rcases List.mem_cons.1 hp with rfl | hp
        · exact ⟨rfl, Nat.lt_succ_self _⟩
        · have := ok.home _ _ hl p hp
          exact ⟨this.1, Nat.lt_succ_of_lt this.2⟩
      · have := ok.home _ _ hk p hp
        exact ⟨this.1, Nat.lt_succ_of_lt this.2⟩
    · intro k m hk p hp q hq e
      rcases get k m hk with ⟨rfl, rfl⟩ | ⟨_, hk⟩
      · rcases List.mem_cons.1 hp with rfl | hp <;> rcases List.mem_cons.1 hq with rfl | hq
        · rfl
        · refine absurd ?_ (hf q hq)
          rw [sameWord_iff] at e ⊢
          exact e.symm
        · exact absurd e (hf p hp)
        · exact ok.names _ _ hl p hp q hq e
      · exact ok.names _ _ hk p hp q hq e
    · intro k k2 m m2 hk hk2 p hp q hq e
      rcases get k m hk with ⟨rfl, rfl⟩ | ⟨n1, hk⟩ <;> rcases get k2 m2 hk2 with ⟨rfl, rfl⟩ | ⟨n2, hk2⟩
      · rcases List.mem_cons.1 hp with rfl | hp <;> rcases List.mem_cons.1 hq with rfl | hq
        · rfl
        · have := (ok.home _ _ hl q hq).2
          dsimp only at e
          omega
        · have := (ok.home _ _ hl p hp).2
          dsimp only at e
          omega
        · exact ok.nums _ _ _ _ hl hl p hp q hq e
      · rcases List.mem_cons.1 hp with rfl | hp
        · have := (ok.home _ _ hk2 q hq).2
          dsimp only at e
          omega
        · exact ok.nums _ _ _ _ hl hk2 p hp q hq e
      · rcases List.mem_cons.1 hq with rfl | hq
        · have := (ok.home _ _ hk p hp).2
          dsimp only at e
          omega
        · exact ok.nums _ _ _ _ hk hl p hp q hq e
      · exact ok.nums _ _ _ _ hk hk2 p hp q hq e
    · rintro p ⟨k, m, hk, hp⟩
      by_cases e : k = wordHash name
      · subst e
        rw [hl] at hk
        cases hk
        exact ⟨_, _, self, List.mem_cons_of_mem _ hp⟩
      · refine ⟨k, m, ?_, hp⟩
        dsimp only
        rw [List.getElem?_set, if_neg (fun h => e h.symm)]
        exact hk
    · exact ⟨name, ⟨_, _, self, List.mem_cons_self⟩, by rw [sameWord_iff]⟩

theorem lookups_ok : ∀ (ns : List (List Nat)) (t : WordTable), WordsOk t →
    WordsOk (lookupWords t ns).2 ∧ (∀ p, Entry t p → Entry (lookupWords t ns).2 p) ∧
    List.Forall₂ (fun n k => ∃ w, Entry (lookupWords t ns).2 (k, w) ∧ sameWord w n = true) ns
      (lookupWords t ns).1
  | [], t, ok => ⟨ok, fun _ h => h, .nil⟩
  | n :: r, t, ok => by
    obtain ⟨ok1, keep1, w, hw, hs⟩ := lookup_ok ok n
    obtain ⟨ok2, keep2, all⟩ := lookups_ok r _ ok1
    rw [lookupWords]
    dsimp only
    exact ⟨ok2, fun p h => keep2 p (keep1 p h), .cons ⟨w, keep2 _ hw, hs⟩ all⟩

theorem empty_ok : WordsOk emptyWords := by
  have e : ∀ (h : Nat) (l : List (Nat × List Nat)), emptyWords.buckets[h]? = some l → l = [] := by
    intro h l hl
    unfold emptyWords at hl
    exact List.eq_of_mem_replicate (List.mem_of_getElem? hl)
  refine ⟨by simp [emptyWords], ?_, ?_, ?_⟩
  · intro h l hl p hp
    rw [e h l hl] at hp
    cases hp
  · intro h l hl p hp
    rw [e h l hl] at hp
    cases hp
  · intro h k l m hl _ p hp
    rw [e h l hl] at hp
    cases hp

/-- **C71** Whatever words a program has written before, and in whatever
order: two texts get the same word of the table exactly when they differ at
most in the case of letters. -/
theorem C71_word_table (ns : List (List Nat)) (i j a b : Nat) (x y : List Nat)
    (hi : ns[i]? = some x) (hj : ns[j]? = some y)
    (ha : (lookupWords emptyWords ns).1[i]? = some a)
    (hb : (lookupWords emptyWords ns).1[j]? = some b) :
    a = b ↔ x.map lowW = y.map lowW := by
  obtain ⟨ok, _, all⟩ := lookups_ok ns emptyWords empty_ok
  obtain ⟨_, get⟩ := List.forall₂_iff_get.1 all
  have at_ : ∀ (i a : Nat) (x : List Nat), ns[i]? = some x → (lookupWords emptyWords ns).1[i]? = some a →
      ∃ w, Entry (lookupWords emptyWords ns).2 (a, w) ∧ sameWord w x = true := by
    intro i a x hx ha
    obtain ⟨h1, rfl⟩ := List.getElem?_eq_some_iff.1 hx
    obtain ⟨h2, rfl⟩ := List.getElem?_eq_some_iff.1 ha
    exact get i h1 h2
  obtain ⟨w, hw, sw⟩ := at_ i a x hi ha
  obtain ⟨v, hv, sv⟩ := at_ j b y hj hb
  have := entry_unique ok hw hv
  dsimp only at this
  rw [this, sameWord_iff]
  rw [sameWord_iff] at sw sv
  rw [sw, sv]

/-- `TOTAL`, `x`, `Total`, `X`, `LATOT`, which has the hash of `TOTAL`. -/
example : (lookupWords emptyWords [[84, 79, 84, 65, 76], [120], [84, 111, 116, 97, 108], [88],
    [76, 65, 84, 79, 84]]).1 = [0, 1, 0, 1, 2] ∧
    wordHash [76, 65, 84, 79, 84] = wordHash [116, 111, 116, 97, 108] := by decide +kernel

end Cob
