import Verif.Cobc.NamesTree
namespace Cob

/-! ### All entries -/

theorem levelOk_prefix : ∀ (b : List Nat) (a : List Nat) {j : Nat}, j < a.length →
    (LevelOk (a ++ b) j ↔ LevelOk a j)
  | [], a, j, _ => by rw [List.append_nil]
  | x :: b, a, j, h => by
    have e : a ++ x :: b = (a ++ [x]) ++ b := by simp
    rw [e, levelOk_prefix b (a ++ [x]) (by simp; omega), levelOk_old h]

theorem level_loop (d : List Nat) (v : Nat) :
    levelNum d v = if d.all (fun c => decide (48 ≤ c ∧ c ≤ 57)) then
      some (d.foldl (fun v c => v * 10 + (c - 48)) v) else none := by
  induction d generalizing v with
  | nil => rfl
  | cons c r ih =>
    rw [levelNum]
    by_cases h : 48 ≤ c ∧ c ≤ 57
    · rw [if_pos h, ih]
      simp [h]
    · rw [if_neg h]
      have : (c :: r).all (fun c => decide (48 ≤ c ∧ c ≤ 57)) = false := by
        rw [List.all_cons, decide_eq_false h, Bool.false_and]
      rw [this]
      rfl

/-- **C70** A level number is read as the number it is written as, and only
01-49, 66, 77, 78 and 88 are level numbers. -/
theorem C70_level (d : List Nat) (lv : Nat) : (getLevel d = lv ∧ lv ≠ 0) ↔ IsLevel d lv := by
  unfold getLevel IsLevel
  rw [level_loop]
  by_cases h : d.all (fun c => decide (48 ≤ c ∧ c ≤ 57)) = true
  · rw [if_pos h]
    have h' : ∀ c ∈ d, 48 ≤ c ∧ c ≤ 57 := by
      intro c hc
      have := List.all_eq_true.1 h c hc
      simpa using this
    dsimp only
    generalize d.foldl (fun v c => v * 10 + (c - 48)) 0 = v
    constructor
    · rintro ⟨h1, h2⟩
      refine ⟨h', ?_⟩
      split at h1
      · omega
      · split at h1 <;> omega
    · rintro ⟨_, h1, h2⟩
      split
      · omega
      · split <;> omega
  · rw [if_neg h]
    dsimp only
    constructor
    · rintro ⟨h1, h2⟩; omega
    · rintro ⟨h1, _⟩
      exfalso
      apply h
      rw [List.all_eq_true]
      intro c hc
      simpa using h1 c hc

theorem dstart_ok : StOk [] [] dstart := by
  refine ⟨⟨⟨rfl, fun j => rfl, fun j => rfl⟩, rfl, fun j nm h => by simp at h, fun i => rfl,
    fun i => trivial, trivial⟩, fun j h => by simp at h, rfl, rfl⟩

theorem stok_filler {ls : List Nat} {names : List (Option (List Nat))} {st : DSt}
    (h : StOk ls names st) (k : Nat) : StOk ls names { st with filler := k } :=
  ⟨h.tree, h.ok, h.lst, h.n01⟩

theorem build_all {es : List DEntry} {ls : List Nat} {ns : List (Option (List Nat))}
    (he : Entries es ls ns) : ∀ {pre : List Nat} {pn : List (Option (List Nat))} {st : DSt},
    StOk pre pn st →
    ((∀ j, j < (pre ++ ls).length → LevelOk (pre ++ ls) j) →
      ∃ st', buildTree false st es = .ok st' ∧ StOk (pre ++ ls) (pn ++ ns) st') ∧
    ((¬ ∀ j, j < (pre ++ ls).length → LevelOk (pre ++ ls) j) → buildTree false st es = .error) := by
  induction he with
  | nil =>
    intro pre pn st h
    rw [List.append_nil, List.append_nil]
    exact ⟨fun _ => ⟨st, rfl, h⟩, fun hn => absurd h.ok hn⟩
  | @const78 d name es ls ns hd he ih =>
    intro pre pn st h
    have hg := ((C70_level d 78).2 hd).1
    have e : ∃ k, buildEntry false st (.item d name) = .ok { st with filler := k } := by
      unfold buildEntry
      dsimp only
      rw [hg, if_neg (by decide), if_pos rfl]
      cases name with
      | none => exact ⟨_, rfl⟩
      | some nm => exact ⟨_, rfl⟩
    obtain ⟨k, e⟩ := e
    rw [buildTree, e]
    exact ih (stok_filler h k)
  | @item d name es lv ls ns hd hne he ih =>
    intro pre pn st h
    obtain ⟨hg, hz⟩ := (C70_level d lv).2 hd
    have e : ∃ k nm, (∀ x, name = some x → nm = x) ∧
        buildEntry false st (.item d name) = linkItem false { st with filler := k } lv nm := by
      unfold buildEntry
      dsimp only
      rw [hg, if_neg hz, if_neg hne]
      cases name with
      | none => exact ⟨_, _, fun x hx => (by cases hx), rfl⟩
      | some nm => exact ⟨st.filler, nm, fun x hx => Option.some.inj hx, rfl⟩
    obtain ⟨k, nm, hnm, e⟩ := e
    have hstep := link_step (stok_filler h k) (lv := lv) (by
      have := hd.2.2
      omega) (name := nm) (onm := name) hnm
    have ea : pre ++ lv :: ls = (pre ++ [lv]) ++ ls := by simp
    have en : pn ++ name :: ns = (pn ++ [name]) ++ ns := by simp
    rw [ea, en]
    have hpre : LevelOk (pre ++ [lv] ++ ls) pre.length ↔ LevelOk (pre ++ [lv]) pre.length :=
      levelOk_prefix ls (pre ++ [lv]) (by simp)
    by_cases hok : LevelOk (pre ++ [lv]) pre.length
    · obtain ⟨st', s1, s2⟩ := hstep.1 hok
      have e2 : buildTree false st (.item d name :: es) = buildTree false st' es := by
        rw [buildTree, e, s1]
      rw [e2]
      exact ih s2
    · have e2 : buildTree false st (.item d name :: es) = .error := by
        rw [buildTree, e, hstep.2 hok]
      rw [e2]
      refine ⟨fun hall => ?_, fun _ => rfl⟩
      exact absurd (hpre.1 (hall pre.length (by simp))) hok

/-- **C70** The entries of a section are accepted exactly when every one is in
its place. -/
theorem C70_accepted {es : List DEntry} {ls : List Nat} {ns : List (Option (List Nat))}
    (he : Entries es ls ns) :
    (∃ st, buildTree false dstart es = .ok st) ↔ ∀ j, j < ls.length → LevelOk ls j := by
  have h := build_all he dstart_ok
  simp only [List.nil_append] at h
  constructor
  · rintro ⟨st, hst⟩
    apply Classical.byContradiction
    intro hn
    rw [h.2 hn] at hst
    cases hst
  · intro hok
    obtain ⟨st, hst, _⟩ := h.1 hok
    exact ⟨st, hst⟩

theorem built_ok {es : List DEntry} {ls : List Nat} {ns : List (Option (List Nat))} {st : DSt}
    (he : Entries es ls ns) (hb : buildTree false dstart es = .ok st) : StOk ls ns st := by
  have h := build_all he dstart_ok
  simp only [List.nil_append] at h
  obtain ⟨st', h1, h2⟩ := h.1 ((C70_accepted he).1 ⟨st, hb⟩)
  rw [hb] at h1
  cases h1
  exact h2

/-- **C70** When the entries of a section are accepted there is one item for
each (but for level 78), with the level and the name written; its parent is
the item it belongs to by the level numbers, and going from an item to its
first child and on through the sisters meets what the group contains, in the
order of the source text, and nothing else. -/
theorem C70_hierarchy {es : List DEntry} {ls : List Nat} {ns : List (Option (List Nat))} {st : DSt}
    (he : Entries es ls ns) (hb : buildTree false dstart es = .ok st) :
    st.nodes.length = ls.length ∧
    (∀ (j lv : Nat), ls[j]? = some lv → (st.nodes[j]?).map (·.level) = some lv) ∧
    (∀ (j : Nat) (nm : List Nat), ns[j]? = some (some nm) →
      (st.nodes[j]?).map (·.name) = some nm) ∧
    (∀ j : Nat, j < ls.length → (st.nodes[j]?).map (·.parent) = some (ownerOf ls j)) ∧
    (∀ i : Nat, kidsWalk st.nodes i = contents ls i) ∧
    sistersFrom st.nodes st.nodes.length (if ls.length = 0 then none else some 0) = records ls := by
  have h := built_ok he hb
  have len := h.tree.par.1
  refine ⟨len, fun j lv hj => ?_, h.tree.named, fun j hj => ?_, tree_walk h.tree, ?_⟩
  · have hjl : j < ls.length := (List.getElem?_eq_some_iff.1 hj).1
    have := h.tree.par.2.2 j
    unfold nodeLevel lvlAt at this
    rw [List.getD_eq_getElem?_getD, hj, List.getElem?_eq_getElem (by omega)] at this
    rw [List.getElem?_eq_getElem (by omega)]
    exact congrArg some this
  · have := h.tree.par.2.1 j
    unfold nodeParent at this
    rw [if_pos hj, List.getElem?_eq_getElem (by omega)] at this
    rw [List.getElem?_eq_getElem (by omega)]
    exact congrArg some this
  · by_cases h0 : ls.length = 0
    · rw [if_pos h0]
      have : records ls = [] := by
        unfold records
        rw [h0]
        rfl
      rw [this]
      cases st.nodes.length <;> rfl
    · rw [if_neg h0]
      have ht := h.tree.top
      have h00 : isTop (lvlAt ls 0) = true := by
        have := h.ok 0 (by omega)
        unfold LevelOk at this
        dsimp only at this
        unfold isTop
        rcases this with h | h | h | ⟨_, _, k, hk, _⟩
        · simp [h]
        · simp [h]
        · omega
        · cases hk
      have hhead : (records ls).head? = some 0 := by
        unfold records
        obtain ⟨n, hn⟩ : ∃ n, ls.length = n + 1 := ⟨ls.length - 1, by omega⟩
        rw [hn, List.range_succ_eq_map, List.filter_cons, if_pos h00]
        rfl
      rw [← hhead]
      exact sisters_walk (by
        rw [len]
        unfold records
        exact Nat.le_trans (List.length_filter_le _ _) (by simp)) ht

/-- Entries of levels 01 05 10 88 10 05 77 01 05 66, with `04` as a level
below: what the theorems say about them. -/
def dataSample : List DEntry :=
  [.item [48, 49] (some [65]), .item [48, 53] (some [66]), .item [49, 48] (some [67]),
   .item [56, 56] (some [68]), .item [49, 48] none, .item [55, 56] (some [75]), .item [53] (some [69]),
   .item [55, 55] (some [70]), .item [48, 49] (some [71]), .item [48, 50] (some [72]),
   .item [54, 54] (some [73])]

example : Entries dataSample [1, 5, 10, 88, 10, 5, 77, 1, 2, 66]
    [some [65], some [66], some [67], some [68], none, some [69], some [70], some [71], some [72],
      some [73]] := by
  repeat' first
    | exact .nil
    | apply Entries.item (by unfold IsLevel; decide) (by decide)
    | apply Entries.const78 (by unfold IsLevel; decide)

example : (match buildTree false dstart dataSample with
    | .ok st => (st.nodes.map (·.parent), (List.range 10).map (kidsWalk st.nodes))
    | _ => ([], [])) =
    ([none, some 0, some 1, some 2, some 1, some 0, none, none, some 7, some 7],
     [[1, 5], [2, 4], [], [], [], [], [], [8, 9], [], []]) := by decide +kernel

example : buildTree false dstart
    [.item [48, 49] none, .item [48, 53] none, .item [48, 51] none] = .error := by decide +kernel

/-! ### Constants, wrong level numbers -/

/-- **C70** After a `CONSTANT` entry nothing but an 01 or 77 item is
accepted. -/
theorem C70_after_constant (st : DSt) (d : List Nat) (name : Option (List Nat)) (relax : Bool)
    (st1 st2 : DSt) (h1 : buildEntry relax st .constant = .ok st1)
    (h2 : buildEntry relax st1 (.item d name) = .ok st2) :
    IsLevel d 1 ∨ IsLevel d 77 ∨ IsLevel d 78 := by
  have e1 : st1.needs01 = true := by
    unfold buildEntry at h1
    cases h1
    rfl
  unfold buildEntry at h2
  dsimp only at h2
  split at h2
  · cases h2
  · rename_i hz
    have hl := (C70_level d (getLevel d)).1 ⟨rfl, hz⟩
    split at h2
    · rename_i e
      rw [e] at hl
      exact .inr (.inr hl)
    · have key : ∀ s : DSt, s.needs01 = true → ∀ nm, linkItem relax s (getLevel d) nm = .ok st2 →
          getLevel d = 1 ∨ getLevel d = 77 := by
        intro s hs nm hk
        unfold linkItem at hk
        dsimp only at hk
        split at hk
        · cases hk
        · split at hk
          · assumption
          · split at hk
            · cases hk
            · cases hk
      have : getLevel d = 1 ∨ getLevel d = 77 := by
        cases name with
        | none => exact key { st1 with filler := st1.filler + 1 } e1 _ h2
        | some nm => exact key st1 e1 _ h2
      rcases this with e | e
      · rw [e] at hl; exact .inl hl
      · rw [e] at hl; exact .inr (.inl hl)

example : ∃ st2, buildEntry false { dstart with needs01 := true } (.item [48, 49] none) = .ok st2 :=
  ⟨_, rfl⟩

/-! ### relax-level-hierarchy -/

theorem upper_relax {ls : List Nat} {nodes : List DNode} (hlev : ∀ j, nodeLevel nodes j = lvlAt ls j)
    {lv : Nat} : ∀ {l : List Nat}, l.Pairwise (fun a b => lvlAt ls b < lvlAt ls a) →
    ∀ {q}, (upperLoop nodes false lv l).1 = some q → (upperLoop nodes true lv l).1 = some q
  | [], _, q, h => by cases h
  | p :: r, hp, q, h => by
    rw [upperLoop] at h ⊢
    by_cases e : nodeLevel nodes p = lv
    · rw [if_pos e] at h ⊢
      exact h
    · rw [if_neg e] at h ⊢
      rw [if_neg (by simp)] at h
      have hq := h
      rw [upper_find] at hq
      have hmem := List.mem_of_find?_eq_some hq
      have hl := List.find?_some hq
      have hl : nodeLevel nodes q = lv := by simpa using hl
      have := (List.pairwise_cons.1 hp).1 q hmem
      rw [hlev] at hl
      rw [if_neg (by rw [hlev]; omega)]
      exact upper_relax hlev (List.pairwise_cons.1 hp).2 h

theorem chain_sorted {ls : List Nat} {nodes : List DNode} (h : ParentsOk ls nodes) :
    ∀ (fuel c : Nat), c < ls.length → lvlAt ls c ≤ 49 →
      (parentsOf nodes fuel c).Pairwise (fun a b => lvlAt ls b < lvlAt ls a) := by
  intro fuel
  induction fuel with
  | zero => intro c _ _; exact .nil
  | succ fuel ih =>
    intro c hc hl
    rw [parents_succ]
    cases hp : nodeParent nodes c with
    | none => exact .nil
    | some p =>
      have hmem : p ∈ parentsOf nodes (fuel + 1) c := by
        rw [parents_succ, hp]
        exact List.mem_cons_self
      have hpa := chain_above h (fuel + 1) c hc hl p hmem
      have hpl : lvlAt ls p ≤ 49 := by
        have := hpa.2 c hpa.1 (Nat.le_refl _)
        omega
      refine List.Pairwise.cons (fun q hq => ?_) (ih p (by omega) hpl)
      have := chain_above h fuel p (by omega) hpl q hq
      exact this.2 p this.1 (Nat.le_refl _)

theorem link_relax {ls : List Nat} {names : List (Option (List Nat))} {st : DSt}
    (h : StOk ls names st) {lv : Nat} {name : List Nat} {st' : DSt}
    (hs : linkItem false st lv name = .ok st') : linkItem true st lv name = .ok st' := by
  unfold linkItem at hs ⊢
  dsimp only at hs ⊢
  rw [last_real h] at hs ⊢
  split at hs
  · cases hs
  · rename_i g
    rw [if_neg g]
    split at hs
    · rename_i e
      rw [if_pos e]
      exact hs
    · rename_i e
      rw [if_neg e]
      cases hl : lastBefore (fun q => lvlAt ls q != 88) ls.length with
      | none => rw [hl] at hs; cases hs
      | some l =>
        obtain ⟨l1, l2, l3⟩ := real_facts hl
        rw [hl] at hs
        dsimp only at hs ⊢
        rw [h.n01, if_neg (by simp)] at hs ⊢
        by_cases h66 : lv = 66
        · rw [if_pos h66] at hs ⊢; exact hs
        rw [if_neg h66] at hs ⊢
        by_cases h88 : lv = 88
        · rw [if_pos h88] at hs ⊢; exact hs
        rw [if_neg h88] at hs ⊢
        by_cases hlow : lv > nodeLevel st.nodes l
        · rw [if_pos hlow] at hs ⊢; exact hs
        rw [if_neg hlow] at hs ⊢
        by_cases heq : lv = nodeLevel st.nodes l
        · rw [if_pos heq] at hs ⊢; exact hs
        rw [if_neg heq] at hs ⊢
        have hup : ∀ {q}, (upperLoop st.nodes false lv
            (parentsOf st.nodes st.nodes.length l)).1 = some q →
            (upperLoop st.nodes true lv (parentsOf st.nodes st.nodes.length l)).1 = some q := by
          intro q hq
          rcases Nat.lt_or_ge 49 (lvlAt ls l) with e | e
          · -- 66 or 77: one parent at most
            have hok := h.ok l l1
            unfold LevelOk at hok
            dsimp only at hok
            have hown : ∀ t, ownerOf ls l = some t → isTop (lvlAt ls t) = true := by
              intro t ht
              unfold ownerOf at ht
              split at ht
              · cases ht
              · rename_i h1
                split at ht
                · exact (lastBefore_some.1 ht).2.1
                · unfold isTop at h1
                  simp only [Bool.or_eq_true, beq_iff_eq] at h1
                  omega
            refine upper_relax (ls := ls) h.tree.par.2.2 ?_ hq
            rw [h.tree.par.1]
            obtain ⟨n, hn⟩ : ∃ n, ls.length = n + 1 := ⟨ls.length - 1, by omega⟩
            rw [hn, parents_succ, h.tree.par.2.1, if_pos l1]
            cases ho : ownerOf ls l with
            | none => exact .nil
            | some t =>
              have h1 := hown t ho
              have ht : t < ls.length := by have := owner_lt ho; omega
              have : parentsOf st.nodes n t = [] := by
                cases n with
                | zero => rfl
                | succ n =>
                  rw [parents_succ, h.tree.par.2.1, if_pos ht, owner_top h1]
              dsimp only
              rw [this]
              exact List.pairwise_singleton _ _
          · exact upper_relax h.tree.par.2.2 (chain_sorted h.tree.par _ l l1 e) hq
        cases hu : upperLoop st.nodes false lv (parentsOf st.nodes st.nodes.length l) with
        | mk a b =>
          rw [hu] at hs hup
          cases a with
          | none =>
            dsimp only at hs
            rw [if_neg (by simp)] at hs
            cases hs
          | some q =>
            have := hup rfl
            cases hv : upperLoop st.nodes true lv (parentsOf st.nodes st.nodes.length l) with
            | mk c d =>
              rw [hv] at this
              dsimp only at this hs ⊢
              subst this
              exact hs

theorem build_relax {es : List DEntry} {ls : List Nat} {ns : List (Option (List Nat))}
    (he : Entries es ls ns) : ∀ {pre : List Nat} {pn : List (Option (List Nat))} {st st' : DSt},
    StOk pre pn st → buildTree false st es = .ok st' → buildTree true st es = .ok st' := by
  induction he with
  | nil => intro pre pn st st' _ h; exact h
  | @const78 d name es ls ns hd he ih =>
    intro pre pn st st' h hb
    have hg := ((C70_level d 78).2 hd).1
    have e : ∃ k, ∀ r, buildEntry r st (.item d name) = .ok { st with filler := k } := by
      cases name with
      | none =>
        exact ⟨st.filler + 1, fun r => by
          unfold buildEntry; dsimp only; rw [hg, if_neg (by decide), if_pos rfl]⟩
      | some nm =>
        exact ⟨st.filler, fun r => by
          unfold buildEntry; dsimp only; rw [hg, if_neg (by decide), if_pos rfl]⟩
    obtain ⟨k, e⟩ := e
    rw [buildTree, e] at hb ⊢
    exact ih (stok_filler h k) hb
  | @item d name es lv ls ns hd hne he ih =>
    intro pre pn st st' h hb
    obtain ⟨hg, hz⟩ := (C70_level d lv).2 hd
    have e : ∃ k nm, (∀ x, name = some x → nm = x) ∧
        ∀ r, buildEntry r st (.item d name) = linkItem r { st with filler := k } lv nm := by
      cases name with
      | none =>
        exact ⟨st.filler + 1, fillerName st.filler, fun x hx => (by cases hx), fun r => by
          unfold buildEntry; dsimp only; rw [hg, if_neg hz, if_neg hne]; rfl⟩
      | some nm =>
        exact ⟨st.filler, nm, fun x hx => Option.some.inj hx, fun r => by
          unfold buildEntry; dsimp only; rw [hg, if_neg hz, if_neg hne]; rfl⟩
    obtain ⟨k, nm, hnm, e⟩ := e
    have hlv := hd.2.2
    have hstep := link_step (stok_filler h k) (lv := lv) (by omega) (name := nm) (onm := name) hnm
    rw [buildTree, e] at hb ⊢
    by_cases hok : LevelOk (pre ++ [lv]) pre.length
    · obtain ⟨st1, s1, s2⟩ := hstep.1 hok
      rw [link_relax (stok_filler h k) s1]
      rw [s1] at hb
      exact ih s2 hb
    · rw [hstep.2 hok] at hb
      cases hb

/-- **C70** `relax-level-hierarchy` changes nothing for entries that are
accepted without it. -/
theorem C70_relaxed_same {es : List DEntry} {ls : List Nat} {ns : List (Option (List Nat))} {st : DSt}
    (he : Entries es ls ns) (hb : buildTree false dstart es = .ok st) :
    buildTree true dstart es = .ok st := build_relax he dstart_ok hb

/-- **C70** finding. With `relax-level-hierarchy` (bs2000, ibm, mf, mvs) an
item of level 02-49 after a 77 item with a condition name makes the compiler
read through a null pointer: the search for a group goes past the top
(/repo/cobc/field.c:187-206). -/
theorem C70_finding_relaxed_crash :
    buildTree true dstart
      [.item [55, 55] (some [65]), .item [56, 56] (some [66]), .item [48, 53] (some [67])] = .crash ∧
    buildTree false dstart
      [.item [55, 55] (some [65]), .item [56, 56] (some [66]), .item [48, 53] (some [67])] = .error := by
  decide +kernel

end Cob
