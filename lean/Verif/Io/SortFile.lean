import Verif.Io.SortMem
import Verif.Num.BinaryProps
/-
Lemmas for C40: the merge sort on the temporary files.
-/
namespace Cob

/-- What a temporary file keeps of an item: its number and its record. -/
def keyOf (x : SItem) : Nat × List Nat := (x.uniq, x.data)

def image (k : Nat × List Nat) : List Nat := 0 :: leBytes 8 k.1 ++ k.2
def imgs (l : List (Nat × List Nat)) : List Nat := (l.map image).flatten
def encBlk (b : List (Nat × List Nat)) : List Nat := imgs b ++ [1]
def enc (bs : List (List (Nat × List Nat))) : List Nat := (bs.map encBlk).flatten

/-- The item can be written and read back. -/
def KOk (size : Nat) (k : Nat × List Nat) : Prop := k.1 < 2 ^ 64 ∧ k.2.length = size

/-- The blocks `bs` are still to be read. -/
def Reading (f : SFile) (bs : List (List (Nat × List Nat))) : Prop :=
  ∃ g, f.st.data.drop f.st.pos = enc bs ++ g

/-- The current item `x` and the file hold the rest `c` of the current block, then the blocks `bs`. -/
def Cur (f : SFile) (x : SItem) (c : List (Nat × List Nat)) (bs : List (List (Nat × List Nat))) : Prop :=
  match c with
  | [] => x.eob = true ∧ ∃ g, f.st.data.drop f.st.pos = enc bs ++ g
  | k :: t => x.eob = false ∧ keyOf x = k ∧ ∃ g, f.st.data.drop f.st.pos = imgs t ++ (1 :: (enc bs ++ g))

/-- The blocks `W` and the items `p` of a further one have been written. -/
def Writing (f : SFile) (W : List (List (Nat × List Nat))) (p : List (Nat × List Nat)) : Prop :=
  f.st.data.take f.st.pos = enc W ++ imgs p ∧ f.st.pos ≤ f.st.data.length

theorem fread_drop (s : Stream) (u rest : List Nat) (h : s.data.drop s.pos = u ++ rest) :
    (s.fread u.length).1 = u ∧ (s.fread u.length).2.data = s.data ∧
    (s.fread u.length).2.data.drop (s.fread u.length).2.pos = rest := by
  unfold Stream.fread
  simp only [h, List.take_left]
  refine ⟨trivial, trivial, ?_⟩
  rw [← List.drop_drop, h, List.drop_left]

theorem fwrite_take (s : Stream) (bs : List Nat) (h : s.pos ≤ s.data.length) :
    (s.fwrite bs).data.take (s.fwrite bs).pos = s.data.take s.pos ++ bs ∧
    (s.fwrite bs).pos ≤ (s.fwrite bs).data.length := by
  unfold Stream.fwrite
  simp only
  have h0 : s.pos - s.data.length = 0 := by omega
  rw [h0]
  have hl : (s.data.take s.pos ++ List.replicate 0 0 ++ bs).length = s.pos + bs.length := by
    simp; omega
  constructor
  · rw [← hl, List.take_left]; simp
  · rw [List.length_append, hl]; omega

theorem image_length (size : Nat) (k : Nat × List Nat) (h : KOk size k) : (image k).length = 1 + (8 + size) := by
  simp [image, leBytes_length, h.2]; omega

theorem readItemFile_item (size : Nat) (f : SFile) (cur : SItem) (k : Nat × List Nat) (rest : List Nat)
    (hk : KOk size k) (h : f.st.data.drop f.st.pos = image k ++ rest) :
    ∃ f', readItemFile size f cur = some (f', { cur with eob := false, uniq := k.1, data := k.2 }) ∧
      f'.st.data.drop f'.st.pos = rest ∧ f'.count = f.count := by
  have h1 := fread_drop f.st [0] (leBytes 8 k.1 ++ k.2 ++ rest) (by rw [h]; simp [image])
  simp only [List.length_singleton] at h1
  obtain ⟨a1, a2, a3⟩ := h1
  have h2 := fread_drop (f.st.fread 1).2 (leBytes 8 k.1 ++ k.2) rest a3
  have hl : (leBytes 8 k.1 ++ k.2).length = 8 + size := by simp [leBytes_length, hk.2]
  rw [hl] at h2
  obtain ⟨b1, b2, b3⟩ := h2
  unfold readItemFile
  simp only [a1, ne_eq, not_true_eq_false, if_false, b1, hl, Nat.lt_irrefl]
  refine ⟨{ st := ((f.st.fread 1).2.fread (8 + size)).2, count := f.count }, ?_, b3, rfl⟩
  have e1 : (leBytes 8 k.1 ++ k.2).take 8 = leBytes 8 k.1 := by
    have := leBytes_length 8 k.1
    rw [List.take_append_of_le_length (by omega), List.take_of_length_le (by omega)]
  have e2 : (leBytes 8 k.1 ++ k.2).drop 8 = k.2 := by
    have := leBytes_length 8 k.1
    rw [List.drop_append_of_le_length (by omega), List.drop_of_length_le (by omega)]; rfl
  rw [e1, e2, leVal_leBytes, Nat.mod_eq_of_lt (by have := hk.1; norm_num at this ⊢; exact this)]

theorem readItemFile_end (size : Nat) (f : SFile) (cur : SItem) (rest : List Nat)
    (h : f.st.data.drop f.st.pos = 1 :: rest) :
    ∃ f', readItemFile size f cur = some (f', { cur with eob := true }) ∧
      f'.st.data.drop f'.st.pos = rest ∧ f'.count = f.count := by
  obtain ⟨a1, a2, a3⟩ := fread_drop f.st [1] rest (by rw [h]; rfl)
  simp only [List.length_singleton] at a1 a2 a3
  unfold readItemFile
  simp only [a1]
  exact ⟨_, rfl, a3, rfl⟩

/-- Reading the next item of the current block. -/
theorem readItemFile_next (size : Nat) (f : SFile) (cur : SItem) (t : List (Nat × List Nat))
    (bs : List (List (Nat × List Nat))) (hk : ∀ k ∈ t, KOk size k)
    (h : ∃ g, f.st.data.drop f.st.pos = imgs t ++ (1 :: (enc bs ++ g))) :
    ∃ f' x', readItemFile size f cur = some (f', x') ∧ Cur f' x' t bs ∧ f'.count = f.count := by
  obtain ⟨g, h⟩ := h
  cases t with
  | nil =>
    obtain ⟨f', h1, h2, h3⟩ := readItemFile_end size f cur (enc bs ++ g) (by rw [h]; rfl)
    exact ⟨f', _, h1, ⟨rfl, g, h2⟩, h3⟩
  | cons k t =>
    obtain ⟨f', h1, h2, h3⟩ := readItemFile_item size f cur k (imgs t ++ (1 :: (enc bs ++ g))) (hk k (by simp))
      (by rw [h]; simp [imgs])
    exact ⟨f', _, h1, ⟨rfl, rfl, g, h2⟩, h3⟩

/-- Reading the first item of the next block. -/
theorem readItemFile_first (size : Nat) (f : SFile) (cur : SItem) (b : List (Nat × List Nat))
    (bs : List (List (Nat × List Nat))) (hk : ∀ k ∈ b, KOk size k) (h : Reading f (b :: bs)) :
    ∃ f' x', readItemFile size f cur = some (f', x') ∧ Cur f' x' b bs ∧ f'.count = f.count := by
  obtain ⟨g, h⟩ := h
  exact readItemFile_next size f cur b bs hk ⟨g, by rw [h]; simp [enc, encBlk]⟩

theorem put_writing (f : SFile) (W : List (List (Nat × List Nat))) (p : List (Nat × List Nat)) (x : SItem)
    (h : Writing f W p) : Writing (f.put x) W (p ++ [keyOf x]) ∧ (f.put x).count = f.count := by
  obtain ⟨h1, h2⟩ := h
  obtain ⟨g1, g2⟩ := fwrite_take f.st (itemImage x) h2
  refine ⟨⟨?_, g2⟩, rfl⟩
  show ((f.st.fwrite (itemImage x)).data.take (f.st.fwrite (itemImage x)).pos) = _
  rw [g1, h1]
  simp [imgs, image, keyOf, itemImage]

theorem endBlock_writing (f : SFile) (W : List (List (Nat × List Nat))) (p : List (Nat × List Nat))
    (h : Writing f W p) : Writing f.endBlock (W ++ [p]) [] ∧ f.endBlock.count = f.count + 1 := by
  obtain ⟨h1, h2⟩ := h
  obtain ⟨g1, g2⟩ := fwrite_take f.st [1] h2
  refine ⟨⟨?_, g2⟩, rfl⟩
  show ((f.st.fwrite [1]).data.take (f.st.fwrite [1]).pos) = _
  rw [g1, h1]
  simp [enc, encBlk, imgs]

theorem foldl_put_writing : ∀ (q : List SItem) (f : SFile) (W : List (List (Nat × List Nat)))
    (p : List (Nat × List Nat)), Writing f W p →
    Writing (q.foldl SFile.put f) W (p ++ q.map keyOf) ∧ (q.foldl SFile.put f).count = f.count
  | [], f, W, p, h => by simpa using h
  | x :: q, f, W, p, h => by
    obtain ⟨h1, h2⟩ := put_writing f W p x h
    obtain ⟨g1, g2⟩ := foldl_put_writing q _ W _ h1
    refine ⟨?_, g2.trans h2⟩
    rw [List.foldl_cons]
    simpa using g1

theorem writeBlock_writing (f : SFile) (W : List (List (Nat × List Nat))) (q : List SItem) (h : Writing f W []) :
    Writing (writeBlock f q) (W ++ [q.map keyOf]) [] ∧ (writeBlock f q).count = f.count + 1 := by
  obtain ⟨h1, h2⟩ := foldl_put_writing q f W [] h
  obtain ⟨g1, g2⟩ := endBlock_writing _ W _ h1
  exact ⟨by unfold writeBlock; simpa using g1, by rw [← h2]; exact g2⟩

theorem rewind_reading (f : SFile) (W : List (List (Nat × List Nat))) (h : Writing f W []) :
    Reading f.rewind W ∧ f.rewind.count = f.count := by
  obtain ⟨h1, _⟩ := h
  refine ⟨⟨f.st.data.drop f.st.pos, ?_⟩, rfl⟩
  show f.st.data.drop 0 = _
  rw [List.drop_zero]
  conv => lhs; rw [← List.take_append_drop f.st.pos f.st.data]
  rw [h1]; simp [imgs]

theorem rewind_writing (f : SFile) (n : Nat) : Writing { f.rewind with count := n } [] [] := by
  refine ⟨?_, Nat.zero_le _⟩
  show f.st.data.take 0 = _
  simp [enc, imgs]

theorem empty_writing : Writing .empty [] [] := ⟨rfl, Nat.le_refl _⟩

/-- The order looks at number and record only. -/
def ByKey (lt : SItem → SItem → Bool) (f : Nat × List Nat → Nat × List Nat → Bool) : Prop :=
  ∀ x y, lt x y = f (keyOf x) (keyOf y)

theorem chooseItem_spec (lt : SItem → SItem → Bool) (f : Nat × List Nat → Nat × List Nat → Bool) (hl : ByKey lt f)
    (s0 s1 : SFile) (x y : SItem) (c c' : List (Nat × List Nat)) (A B : List (List (Nat × List Nat)))
    (hx : Cur s0 x c A) (hy : Cur s1 y c' B) :
    (chooseItem lt x y = none ∧ c = [] ∧ c' = []) ∨
    (chooseItem lt x y = some false ∧ ∃ t, c = keyOf x :: t ∧
      List.merge c c' f = keyOf x :: List.merge t c' f ∧
      ∃ g, s0.st.data.drop s0.st.pos = imgs t ++ (1 :: (enc A ++ g))) ∨
    (chooseItem lt x y = some true ∧ ∃ t, c' = keyOf y :: t ∧
      List.merge c c' f = keyOf y :: List.merge c t f ∧
      ∃ g, s1.st.data.drop s1.st.pos = imgs t ++ (1 :: (enc B ++ g))) := by
  unfold chooseItem
  cases c with
  | nil =>
    obtain ⟨ex, _⟩ := hx
    cases c' with
    | nil =>
      obtain ⟨ey, _⟩ := hy
      left; simp [ex, ey]
    | cons k t =>
      obtain ⟨ey, ky, hg⟩ := hy
      right; right
      refine ⟨by simp [ex, ey], t, by rw [ky], ?_, hg⟩
      rw [merge_nil_left, merge_nil_left, ky]
  | cons k t =>
    obtain ⟨ex, kx, hg⟩ := hx
    cases c' with
    | nil =>
      obtain ⟨ey, _⟩ := hy
      right; left
      refine ⟨by simp [ex, ey], t, by rw [kx], ?_, hg⟩
      rw [merge_nil_right, merge_nil_right, kx]
    | cons k' t' =>
      obtain ⟨ey, ky, hg'⟩ := hy
      rw [merge_cons_cons]
      cases hlt : f k k' with
      | true =>
        right; left
        refine ⟨by simp [ex, ey, hl x y, kx, ky, hlt], t, by rw [kx], ?_, hg⟩
        rw [if_pos rfl, kx]
      | false =>
        right; right
        refine ⟨by simp [ex, ey, hl x y, kx, ky, hlt], t', by rw [ky], ?_, hg'⟩
        rw [if_neg (by simp), ky]

theorem fileMerge_spec (lt : SItem → SItem → Bool) (f : Nat × List Nat → Nat × List Nat → Bool) (hl : ByKey lt f)
    (size : Nat) : ∀ (fuel : Nat) (s0 s1 d : SFile) (x y : SItem) (c c' : List (Nat × List Nat))
    (A B W : List (List (Nat × List Nat))) (p : List (Nat × List Nat)), c.length + c'.length < fuel →
    (∀ k ∈ c, KOk size k) → (∀ k ∈ c', KOk size k) → Cur s0 x c A → Cur s1 y c' B → Writing d W p →
    ∃ s0' s1' d' x' y', fileMerge lt size fuel s0 s1 d x y = some (s0', s1', d', x', y') ∧
      Reading s0' A ∧ Reading s1' B ∧ Writing d' W (p ++ List.merge c c' f) ∧
      s0'.count = s0.count ∧ s1'.count = s1.count ∧ d'.count = d.count := by
  intro fuel
  induction fuel with
  | zero => intro s0 s1 d x y c c' A B W p h; omega
  | succ fuel ih =>
    intro s0 s1 d x y c c' A B W p h hk hk' hx hy hw
    rw [fileMerge]
    rcases chooseItem_spec lt f hl s0 s1 x y c c' A B hx hy with ⟨e, h1, h2⟩ | ⟨e, t, h1, h2, h3⟩ | ⟨e, t, h1, h2, h3⟩
    · subst h1 h2
      rw [e]
      obtain ⟨_, hx⟩ := hx
      obtain ⟨_, hy⟩ := hy
      refine ⟨s0, s1, d, x, y, rfl, hx, hy, ?_, rfl, rfl, rfl⟩
      rw [merge_nil_left]; simpa using hw
    · rw [e]
      obtain ⟨s0', x', r1, r2, r3⟩ := readItemFile_next size s0 x t A (fun k hm => hk k (by rw [h1]; simp [hm])) h3
      obtain ⟨w1, w2⟩ := put_writing d W p x hw
      simp only [r1]
      have hlen : c.length = t.length + 1 := by rw [h1]; rfl
      obtain ⟨a1, a2, a3, a4, a5, e1, e2, e3, e4, e5, e6, e7⟩ := ih s0' s1 (d.put x) x' y t c' A B W (p ++ [keyOf x]) (by omega)
        (fun k hm => hk k (by rw [h1]; simp [hm])) hk' r2 hy w1
      refine ⟨a1, a2, a3, a4, a5, e1, e2, e3, ?_, e5.trans r3, e6, e7.trans w2⟩
      rw [h2]
      simpa using e4
    · rw [e]
      obtain ⟨s1', y', r1, r2, r3⟩ := readItemFile_next size s1 y t B (fun k hm => hk' k (by rw [h1]; simp [hm])) h3
      obtain ⟨w1, w2⟩ := put_writing d W p y hw
      simp only [r1]
      have hlen : c'.length = t.length + 1 := by rw [h1]; rfl
      obtain ⟨a1, a2, a3, a4, a5, e1, e2, e3, e4, e5, e6, e7⟩ := ih s0 s1' (d.put y) x y' c t A B W (p ++ [keyOf y]) (by omega)
        hk (fun k hm => hk' k (by rw [h1]; simp [hm])) hx r2 w1
      refine ⟨a1, a2, a3, a4, a5, e1, e2, e3, ?_, e5, e6.trans r3, e7.trans w2⟩
      rw [h2]
      simpa using e4

/-- All items of the blocks can be written and read back. -/
def BsOk (size : Nat) (bs : List (List (Nat × List Nat))) : Prop := ∀ b ∈ bs, ∀ k ∈ b, KOk size k

theorem filePass_spec (lt : SItem → SItem → Bool) (f : Nat × List Nat → Nat × List Nat → Bool) (hl : ByKey lt f)
    (size : Nat) : ∀ (fuel : Nat) (s0 s1 d d' : SFile) (odd : Bool) (x y : SItem)
    (A B W W' : List (List (Nat × List Nat))), A.flatten.length + B.flatten.length + A.length < fuel →
    B.length ≤ A.length → A.length ≤ B.length + 1 → BsOk size A → BsOk size B →
    Reading s0 A → Reading s1 B → s0.count = A.length → (A ≠ [] → s1.count = B.length) →
    Writing d W [] → Writing d' W' [] → d.count = W.length → d'.count = W'.length →
    ∃ s0' s1' d0 d1 x' y', filePass lt size fuel s0 s1 d d' odd x y = some (s0', s1', d0, d1, x', y') ∧
      (if odd then Writing d0 (W' ++ (deal (pairMerge f A B)).2) [] ∧ Writing d1 (W ++ (deal (pairMerge f A B)).1) [] ∧
          d0.count = W'.length + (deal (pairMerge f A B)).2.length ∧ d1.count = W.length + (deal (pairMerge f A B)).1.length
        else Writing d0 (W ++ (deal (pairMerge f A B)).1) [] ∧ Writing d1 (W' ++ (deal (pairMerge f A B)).2) [] ∧
          d0.count = W.length + (deal (pairMerge f A B)).1.length ∧ d1.count = W'.length + (deal (pairMerge f A B)).2.length) := by
  intro fuel
  induction fuel with
  | zero => intro s0 s1 d d' odd x y A B W W' h; omega
  | succ fuel ih =>
    intro s0 s1 d d' odd x y A B W W' h h1 h2 hA hB r0 r1 c0 c1 w w' dc dc'
    rw [filePass]
    cases A with
    | nil =>
      have : B = [] := List.length_eq_zero_iff.1 (by simpa using h1)
      subst this
      rw [if_pos (by simpa using c0)]
      refine ⟨_, _, _, _, _, _, rfl, ?_⟩
      cases odd <;> simp [pairMerge, deal, w, w', dc, dc']
    | cons a A =>
      replace c1 := c1 (by simp)
      rw [if_neg (by rw [c0]; simp)]
      obtain ⟨s0', x', q1, q2, q3⟩ := readItemFile_first size s0 x a A (hA a (by simp)) r0
      simp only [q1]
      simp only [List.flatten_cons, List.length_append, List.length_cons] at h h1 h2 c0
      cases B with
      | nil =>
        have : A = [] := List.length_eq_zero_iff.1 (by simpa using h2)
        subst this
        rw [if_neg (by rw [c1]; simp)]
        simp only
        obtain ⟨a1, a2, a3, a4, a5, e1, e2, e3, e4, e5, e6, e7⟩ := fileMerge_spec lt f hl size fuel s0' s1 d x'
          { y with eob := true } a [] [] [] W [] (by simpa using by omega) (hA a (by simp)) (by intro k hk; cases hk) q2
          ⟨rfl, r1⟩ w
        rw [e1]
        simp only
        rw [merge_nil_right] at e4
        obtain ⟨v1, v2⟩ := endBlock_writing a3 W _ e4
        simp only [List.nil_append] at v1
        obtain ⟨z1, z2, z3, z4, z5, z6, y1, y2⟩ := ih { a1 with count := decCount a1.count }
          { a2 with count := decCount a2.count } d' a3.endBlock (!odd) a4 a5 [] [] W' (W ++ [a]) (by simp; omega)
          (by simp) (by simp) (by intro b hb; cases hb) (by intro b hb; cases hb) e2 e3
          (by show decCount a1.count = 0; rw [e5, q3, c0]; rfl) (by simp) w' v1 dc' (by rw [v2, e7, dc]; simp)
        refine ⟨z1, z2, z3, z4, z5, z6, y1, ?_⟩
        cases odd <;> simp_all [pairMerge, deal]
      | cons b B =>
        simp only [List.flatten_cons, List.length_append, List.length_cons] at h h1 h2 c1
        rw [if_pos (by rw [c1]; omega)]
        obtain ⟨s1', y', p1, p2, p3⟩ := readItemFile_first size s1 y b B (hB b (by simp)) r1
        simp only [p1]
        obtain ⟨a1, a2, a3, a4, a5, e1, e2, e3, e4, e5, e6, e7⟩ := fileMerge_spec lt f hl size fuel s0' s1' d x'
          y' a b A B W [] (by omega) (hA a (by simp)) (hB b (by simp)) q2 p2 w
        rw [e1]
        simp only
        obtain ⟨v1, v2⟩ := endBlock_writing a3 W _ e4
        simp only [List.nil_append] at v1
        obtain ⟨z1, z2, z3, z4, z5, z6, y1, y2⟩ := ih { a1 with count := decCount a1.count }
          { a2 with count := decCount a2.count } d' a3.endBlock (!odd) a4 a5 A B W' (W ++ [List.merge a b f]) (by omega)
          (by omega) (by omega) (fun b hb => hA b (by simp [hb])) (fun b hb => hB b (by simp [hb])) e2 e3
          (by show decCount a1.count = A.length; rw [e5, q3, c0]; simp [decCount])
          (by intro _; show decCount a2.count = B.length; rw [e6, p3, c1]; simp [decCount]) w' v1 dc' (by rw [v2, e7, dc]; simp)
        refine ⟨z1, z2, z3, z4, z5, z6, y1, ?_⟩
        cases odd <;> simp only [pairMerge, deal] <;> simp at y2 ⊢ <;> (obtain ⟨y2, y3, y4, y5⟩ := y2; refine ⟨?_, ?_, ?_, ?_⟩ <;> first | assumption | omega)

theorem flatten_length_perm {α : Type} {a b : List (List α)} (h : a.flatten.Perm b.flatten) :
    a.flatten.length = b.flatten.length := h.length_eq

theorem fileSort_spec (lt : SItem → SItem → Bool) (f : Nat × List Nat → Nat × List Nat → Bool) (hl : ByKey lt f)
    (size : Nat) (P : Nat × List Nat → Prop) (hs : SWO f P) (hP : ∀ k, P k → KOk size k) :
    ∀ (fuel : Nat) (s0 s1 d0 d1 : SFile) (x y z w : SItem)
    (A B : List (List (Nat × List Nat))), A.flatten.length + B.flatten.length + (A.length + B.length) + 2 ≤ fuel →
    1 ≤ B.length → B.length ≤ A.length → A.length ≤ B.length + 1 →
    (∀ a ∈ A, Asc f a ∧ ∀ k ∈ a, P k) → (∀ a ∈ B, Asc f a ∧ ∀ k ∈ a, P k) →
    Reading s0 A → Reading s1 B → s0.count = A.length → s1.count = B.length →
    (∀ n, Writing { d0 with count := n } [] []) → (∀ n, Writing { d1 with count := n } [] []) →
    ∃ s0' s1' x' y' a b, fileSort lt size fuel s0 s1 d0 d1 x y z w = some (s0', s1', x', y') ∧
      Reading s0' [a] ∧ Reading s1' [b] ∧ (Asc f a ∧ ∀ k ∈ a, P k) ∧ (Asc f b ∧ ∀ k ∈ b, P k) ∧
      (a ++ b).Perm (A.flatten ++ B.flatten) := by
  intro fuel
  induction fuel with
  | zero => intro s0 s1 d0 d1 x y z w A B h; omega
  | succ fuel ih =>
    intro s0 s1 d0 d1 x y z w A B h hb1 h1 h2 hA hB r0 r1 c0 c1 wd0 wd1
    rw [fileSort]
    by_cases hc : s0.count ≤ 1
    · rw [if_pos hc]
      match A, B, hA, hB, r0, r1, c0, h1, h2, hb1 with
      | [a], [b], hA, hB, r0, r1, _, _, _, _ =>
        exact ⟨s0, s1, x, y, a, b, rfl, r0, r1, hA a (by simp), hB b (by simp), by simp⟩
      | [], _, _, _, _, _, _, h1, _, hb1 => simp at h1 hb1; simp [h1] at hb1
      | _ :: _ :: _, _, _, _, _, _, c0, _, _, _ => simp at c0; omega
      | [_], [], _, _, _, _, _, _, _, hb1 => simp at hb1
      | [_], _ :: _ :: _, _, _, _, _, _, h1, _, _ => simp at h1
    · rw [if_neg hc]
      obtain ⟨z1, z2, z3, z4, z5, z6, y1, y2⟩ := filePass_spec lt f hl size fuel s0 s1 { d0 with count := 0 }
        { d1 with count := 0 } false x y A B [] [] (by omega) h1 h2
        (fun b hb k hk => hP k ((hA b hb).2 k hk)) (fun b hb k hk => hP k ((hB b hb).2 k hk)) r0 r1 c0
        (fun _ => c1) (wd0 0) (wd1 0) rfl rfl
      rw [y1]
      simp only [Bool.false_eq_true, if_false, List.nil_append, List.length_nil, Nat.zero_add] at y2
      obtain ⟨y2, y3, y4, y5⟩ := y2
      simp only
      have hL := pairMerge_length f A B
      obtain ⟨l1, l2⟩ := deal_length (pairMerge f A B)
      have hp := (deal_perm (pairMerge f A B)).trans (pairMerge_perm f A B)
      have hlen := hp.length_eq
      simp only [List.length_append] at hlen
      have hall := pairMerge_asc f P hs A B hA hB
      obtain ⟨s0', s1', x', y', a, b, e1, e2, e3, e4, e5, e6⟩ := ih z3.rewind z4.rewind z1.rewind z2.rewind z w z5 z6
        (deal (pairMerge f A B)).1 (deal (pairMerge f A B)).2 (by omega) (by omega) (by omega) (by omega)
        (fun a h => hall a ((deal_mem _ a).1 (Or.inl h))) (fun a h => hall a ((deal_mem _ a).1 (Or.inr h)))
        (rewind_reading z3 _ y2).1 (rewind_reading z4 _ y3).1 y4 y5 (rewind_writing z1) (rewind_writing z2)
      exact ⟨s0', s1', x', y', a, b, e1, e2, e3, e4, e5, e6.trans hp⟩

end Cob
