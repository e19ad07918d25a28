import Verif.Cobc.NamesMore
namespace Cob

/-! ### The FILLER group of `relax-level-hierarchy` -/

theorem chain_desc {ls : List Nat} {nodes : List DNode} (h : ParentsOk ls nodes) :
    ∀ (fuel c : Nat), c < ls.length → lvlAt ls c ≤ 49 →
      (parentsOf nodes fuel c).Pairwise (fun a b => b < a) := by
  intro fuel
  induction fuel with
  | zero => intro c _ _; exact .nil
  | succ fuel ih =>
    intro c hc hl
    rw [parents_succ]
    cases hp : nodeParent nodes c with
    | none => exact .nil
    | some p =>
      have hmem : p ∈ parentsOf nodes (fuel + 1) c := by
        rw [parents_succ, hp]
        exact List.mem_cons_self
      have hpa := chain_above h (fuel + 1) c hc hl p hmem
      have hpl : lvlAt ls p ≤ 49 := by
        have := hpa.2 c hpa.1 (Nat.le_refl _)
        omega
      refine List.Pairwise.cons (fun q hq => ?_) (ih p (by omega) hpl)
      exact (chain_above h fuel p (by omega) hpl q hq).1

theorem upper_stop {nodes : List DNode} {lv p : Nat} (hp : nodeLevel nodes p < lv) :
    ∀ {l : List Nat}, l.Pairwise (fun a b => b < a) → p ∈ l →
      (∀ q ∈ l, p < q → lv < nodeLevel nodes q) → upperLoop nodes true lv l = (none, some p)
  | [], _, h, _ => by cases h
  | x :: r, hs, hm, hq => by
    rw [upperLoop]
    by_cases e : x = p
    · subst e
      rw [if_neg (by omega), if_pos ⟨rfl, hp⟩]
    · have hmr : p ∈ r := by
        rcases List.mem_cons.1 hm with h | h
        · exact absurd h.symm e
        · exact h
      have hx := hq x List.mem_cons_self ((List.pairwise_cons.1 hs).1 p hmr)
      rw [if_neg (by omega), if_neg (by omega)]
      exact upper_stop hp (List.pairwise_cons.1 hs).2 hmr
        (fun q h1 h2 => hq q (List.mem_cons_of_mem _ h1) h2)

theorem setParents_get {β : Type} (g : DNode → β)
    (hg : ∀ (d : DNode) (v : Option Nat), g { d with parent := v } = g d) (n j : Nat) :
    ∀ (l : List Nat) (nodes : List DNode),
    ((l.foldl (fun ns k => setParent ns k n) nodes)[j]?).map g = (nodes[j]?).map g
  | [], _ => rfl
  | k :: r, nodes => by
    rw [List.foldl_cons, setParents_get g hg n j r]
    exact map_modify g (fun d => { d with parent := some n }) (fun d => hg d (some n)) nodes k j

theorem setParents_len (n : Nat) : ∀ (l : List Nat) (nodes : List DNode),
    (l.foldl (fun ns k => setParent ns k n) nodes).length = nodes.length
  | [], _ => rfl
  | k :: r, nodes => by
    rw [List.foldl_cons, setParents_len n r]
    unfold setParent
    simp

theorem setParents_parent (n j : Nat) : ∀ (l : List Nat) (nodes : List DNode), j < nodes.length →
    nodeParent (l.foldl (fun ns k => setParent ns k n) nodes) j =
      if j ∈ l then some n else nodeParent nodes j
  | [], _, _ => by simp
  | k :: r, nodes, hj => by
    have hlen : (setParent nodes k n).length = nodes.length := by unfold setParent; simp
    rw [List.foldl_cons, setParents_parent n j r _ (by omega)]
    by_cases h : j ∈ r
    · rw [if_pos h, if_pos (List.mem_cons_of_mem _ h)]
    · rw [if_neg h]
      unfold nodeParent setParent
      rw [modify_get]
      by_cases e : k = j
      · subst e
        rw [if_pos rfl, if_pos List.mem_cons_self, List.getElem?_eq_getElem hj]
        rfl
      · rw [if_neg e, if_neg (by
          intro hm
          rcases List.mem_cons.1 hm with hm | hm
          · exact e hm.symm
          · exact h hm)]

/-- **C70** With `relax-level-hierarchy`, an item of level 02-49 for which no
open group has the level gets a FILLER group: when the nearest entry before
that is no condition name has level 01-49, the group stands for all that the
last item with a smaller level number contained so far, and the new item
follows the group. Nothing else moves, and the next entry will follow the new
item. -/
theorem C70_relaxed_filler {es : List DEntry} {ls : List Nat} {ns : List (Option (List Nat))}
    {st : DSt} (he : Entries es ls ns) (hb : buildTree false dstart es = .ok st)
    {d : List Nat} {name : Option (List Nat)} {lv l : Nat} (hd : IsLevel d lv)
    (hlv : 2 ≤ lv ∧ lv ≤ 49)
    (hl : lastBefore (fun q => lvlAt ls q != 88) ls.length = some l) (hl49 : lvlAt ls l ≤ 49)
    (hno : ¬ LevelOk (ls ++ [lv]) ls.length) :
    ∃ st' p, buildTree true dstart (es ++ [.item d name]) = .ok st' ∧
      lastBefore (fun k => decide (lvlAt ls k < lv)) ls.length = some p ∧
      st'.nodes.length = ls.length + 2 ∧
      (∀ nm, name = some nm → (st'.nodes[ls.length + 1]?).map (·.name) = some nm) ∧
      nodeLevel st'.nodes ls.length = lv ∧ nodeLevel st'.nodes (ls.length + 1) = lv ∧
      (∀ j, j < ls.length → nodeLevel st'.nodes j = lvlAt ls j) ∧
      nodeParent st'.nodes ls.length = some p ∧ nodeParent st'.nodes (ls.length + 1) = some p ∧
      (∀ j, j < ls.length → nodeParent st'.nodes j =
        if j ∈ contents ls p then some ls.length else ownerOf ls j) ∧
      kidsWalk st'.nodes p = [ls.length, ls.length + 1] ∧
      kidsWalk st'.nodes ls.length = contents ls p ∧ kidsWalk st'.nodes (ls.length + 1) = [] ∧
      (∀ i, i < ls.length → i ≠ p → kidsWalk st'.nodes i = contents ls i) ∧
      st'.last = some (ls.length + 1) := by
  have h := built_ok he hb
  have len := h.tree.par.1
  obtain ⟨l1, l2, l3⟩ := real_facts hl
  -- the group the new item belongs to
  obtain ⟨t, t1, t2, t3⟩ := in_record h.ok l l (Nat.le_refl _) l1 hl49
  obtain ⟨p, hp, _⟩ := lastBefore_ex (p := fun k => decide (lvlAt ls k < lv)) (j := ls.length)
    (m := t) (by omega) (by simp only [decide_eq_true_eq]; omega)
  obtain ⟨p1, p2, p3⟩ := lastBefore_some.1 hp
  have p2 : lvlAt ls p < lv := by simpa using p2
  have p3 : ∀ k, p < k → k < ls.length → lv ≤ lvlAt ls k := fun k a b => by
    have := p3 k a b
    simpa using this
  rw [levelOk_new] at hno
  have hgt : lv < lvlAt ls l := by
    rcases Nat.lt_trichotomy lv (lvlAt ls l) with e | e | e
    · exact e
    · exfalso
      apply hno
      refine .inr (.inr (.inr ⟨hlv.1, hlv.2, l, hl, hl49, .inr ⟨l, ?_, e.symm⟩⟩))
      refine lastBefore_some.2 ⟨l1, by simp [e], fun k a b => ?_⟩
      rw [l3 k a b]
      simp only [decide_eq_false_iff_not]
      omega
    · exfalso
      exact hno (.inr (.inr (.inr ⟨hlv.1, hlv.2, l, hl, hl49, .inl e⟩)))
  have hpl : p < l := by
    rcases Nat.lt_trichotomy p l with e | e | e
    · exact e
    · rw [e] at p2; omega
    · have := l3 p e p1; omega
  have hchain := chain_mem h.tree.par st.nodes.length l p (by omega) l1 hl49 hpl
    (level_pos (h.ok p p1)) (fun k a b => by have := p3 k a (by omega); omega)
  have habove := chain_above h.tree.par st.nodes.length l l1 hl49
  have hstop : upperLoop st.nodes true lv (parentsOf st.nodes st.nodes.length l) =
      (none, some p) := by
    refine upper_stop (by rw [h.tree.par.2.2]; exact p2)
      (chain_desc h.tree.par _ l l1 hl49) hchain (fun q hq hpq => ?_)
    rw [h.tree.par.2.2]
    obtain ⟨q1, q2⟩ := habove q hq
    have hge := p3 q hpq (by omega)
    rcases Nat.lt_or_ge lv (lvlAt ls q) with e | e
    · exact e
    · exfalso
      apply hno
      refine .inr (.inr (.inr ⟨hlv.1, hlv.2, l, hl, hl49, .inr ⟨q, ?_, by omega⟩⟩))
      refine lastBefore_some.2 ⟨by omega, by simp only [decide_eq_true_eq]; omega, fun k a b => ?_⟩
      simp only [decide_eq_false_iff_not]
      rcases Nat.lt_or_ge l k with e' | e'
      · rw [l3 k e' b]; omega
      · have := q2 k a e'; omega
  -- the entry
  obtain ⟨hg, hz⟩ := (C70_level d lv).2 hd
  obtain ⟨k, nm, hnm, e⟩ : ∃ k nm, (∀ x, name = some x → nm = x) ∧
      buildEntry true st (.item d name) = linkItem true { st with filler := k } lv nm := by
    cases name with
    | none =>
      exact ⟨st.filler + 1, fillerName st.filler, fun x hx => (by cases hx), by
        unfold buildEntry; dsimp only; rw [hg, if_neg hz, if_neg (by omega)]; rfl⟩
    | some nm =>
      exact ⟨st.filler, nm, fun x hx => Option.some.inj hx, by
        unfold buildEntry; dsimp only; rw [hg, if_neg hz, if_neg (by omega)]; rfl⟩
  have hk := stok_filler h k
  have hlink : linkItem true { st with filler := k } lv nm =
      .ok (linkFiller { st with filler := k } lv nm p) := by
    unfold linkItem
    dsimp only
    rw [show (if (st.last.map (nodeLevel st.nodes)).getD 0 = 88 then
        st.last.bind (nodeParent st.nodes) else st.last) = some l from (last_real h).trans hl]
    rw [if_neg, if_neg (by omega)]
    · dsimp only
      rw [h.n01, if_neg (by simp), if_neg (by omega), if_neg (by omega), h.tree.par.2.2,
        if_neg (by omega), if_neg (by omega), hstop]
      rfl
    · rintro ⟨_, g, _⟩
      rw [last_level h, if_neg (by omega)] at g
      rcases Nat.lt_or_ge l (ls.length - 1) with e' | e'
      · have := l3 (ls.length - 1) e' (by omega)
        omega
      · rw [show ls.length - 1 = l by omega] at g
        omega
  have happ : ∀ (es : List DEntry) (s : DSt), buildTree true s es = .ok st →
      buildTree true s (es ++ [.item d name]) =
        .ok (linkFiller { st with filler := k } lv nm p) := by
    intro es
    induction es with
    | nil =>
      intro s hs
      cases hs
      show buildTree true st [.item d name] = _
      rw [buildTree, e, hlink]
      rfl
    | cons x r ih =>
      intro s hs
      rw [List.cons_append, buildTree]
      rw [buildTree] at hs
      cases hx : buildEntry true s x with
      | ok s1 =>
        rw [hx] at hs
        exact ih s1 hs
      | error => rw [hx] at hs; cases hs
      | crash => rw [hx] at hs; cases hs
  refine ⟨_, p, happ es dstart (C70_relaxed_same he hb), hp, ?_⟩
  -- the nodes
  unfold linkFiller
  dsimp only
  rw [tree_walk h.tree]
  generalize hN1 : (contents ls p).foldl (fun ns k => setParent ns k st.nodes.length) st.nodes = N1
  have hlen1 : N1.length = st.nodes.length := by rw [← hN1]; exact setParents_len _ _ _
  have hg1 : ∀ {β : Type} (g : DNode → β),
      (∀ (d : DNode) (v : Option Nat), g { d with parent := v } = g d) →
      ∀ j : Nat, (N1[j]?).map g = (st.nodes[j]?).map g := fun g hg' j => by
    rw [← hN1]; exact setParents_get g hg' _ _ _ _
  have hpar1 : ∀ j, j < ls.length → nodeParent N1 j =
      if j ∈ contents ls p then some ls.length else ownerOf ls j := fun j hj => by
    rw [← hN1, setParents_parent _ _ _ _ (by omega), h.tree.par.2.1, if_pos hj, len]
  have hlen2 : (setChildren N1 p st.nodes.length).length = ls.length := by
    unfold setChildren
    simp [hlen1, len]
  generalize hF : DNode.mk lv (fillerName k) (some p) ((st.nodes[p]?).bind (·.children))
    (some (st.nodes.length + 1)) = F
  have hgetold : ∀ j : Nat, j < ls.length →
      (setChildren N1 p st.nodes.length ++ [F, newNode lv nm (some p)])[j]? =
        (setChildren N1 p st.nodes.length)[j]? := fun j hj =>
    List.getElem?_append_left (by omega)
  have hgetn : (setChildren N1 p st.nodes.length ++ [F, newNode lv nm (some p)])[ls.length]? =
      some F := by
    rw [List.getElem?_append_right (by omega), hlen2, Nat.sub_self]
    rfl
  have hgetn1 : (setChildren N1 p st.nodes.length ++ [F, newNode lv nm (some p)])[ls.length + 1]? =
      some (newNode lv nm (some p)) := by
    rw [List.getElem?_append_right (by omega), hlen2, Nat.add_sub_cancel_left]
    rfl
  generalize hN2 : setChildren N1 p st.nodes.length ++ [F, newNode lv nm (some p)] = N2 at *
  have hlenN2 : N2.length = ls.length + 2 := by rw [← hN2]; simp [hlen2]
  have hsis2 : ∀ j : Nat, j < ls.length →
      (N2[j]?).bind (·.sister) = (st.nodes[j]?).bind (·.sister) := fun j hj => by
    rw [hgetold j hj, bind_map, setChildren_map _ (fun _ _ => rfl), hg1 _ (fun _ _ => rfl), ← bind_map]
  have hkid2 : ∀ j : Nat, j < ls.length → j ≠ p →
      (N2[j]?).bind (·.children) = (contents ls j).head? := fun j hj hne => by
    rw [hgetold j hj]
    unfold setChildren
    rw [modify_get, if_neg (Ne.symm hne), bind_map, hg1 _ (fun _ _ => rfl), ← bind_map]
    exact h.tree.kid j
  have hwalk : ∀ i, Sisters N2 (contents ls i) := fun i =>
    sisters_congr (fun a ha => hsis2 a (contents_lt ha)) (h.tree.sis i)
  refine ⟨hlenN2, fun x hx => ?_, ?_, ?_, fun j hj => ?_, ?_, ?_, fun j hj => ?_, ?_, ?_, ?_,
    fun i hi hne => ?_, by rw [len]⟩
  · rw [hgetn1]
    exact congrArg some (hnm x hx)
  · unfold nodeLevel; rw [hgetn, ← hF]; rfl
  · unfold nodeLevel; rw [hgetn1]; rfl
  · unfold nodeLevel
    rw [hgetold j hj, setChildren_map _ (fun _ _ => rfl), hg1 _ (fun _ _ => rfl)]
    exact h.tree.par.2.2 j
  · unfold nodeParent; rw [hgetn, ← hF]; rfl
  · unfold nodeParent; rw [hgetn1]; rfl
  · rw [← hpar1 j hj]
    unfold nodeParent
    rw [hgetold j hj, bind_map, setChildren_map _ (fun _ _ => rfl), ← bind_map]
  · unfold kidsWalk
    have hc : (N2[p]?).bind (·.children) = some ls.length := by
      rw [hgetold p p1]
      unfold setChildren
      rw [modify_get, if_pos rfl, List.getElem?_eq_getElem (by omega)]
      exact congrArg some len
    rw [hc]
    have : Sisters N2 [ls.length, ls.length + 1] := by
      refine ⟨?_, ?_⟩
      · rw [hgetn, ← hF]
        exact congrArg (fun x => some (x + 1)) len
      · show (N2[ls.length + 1]?).bind (·.sister) = none
        rw [hgetn1]
        rfl
    exact sisters_walk (l := [ls.length, ls.length + 1]) (by rw [hlenN2]; simp) this
  · unfold kidsWalk
    have hc : (N2[ls.length]?).bind (·.children) = (contents ls p).head? := by
      rw [hgetn, ← hF]
      exact h.tree.kid p
    rw [hc]
    exact sisters_walk (by rw [hlenN2]; exact Nat.le_trans contents_len (by omega)) (hwalk p)
  · unfold kidsWalk
    rw [hgetn1]
    cases N2.length <;> rfl
  · unfold kidsWalk
    rw [hkid2 i hi hne]
    exact sisters_walk (by rw [hlenN2]; exact Nat.le_trans contents_len (by omega)) (hwalk i)

example : (match buildTree true dstart
    [.item [48, 49] (some [65]), .item [48, 53] (some [66]), .item [49, 48] (some [67]),
     .item [48, 51] (some [68])] with
    | .ok st => (st.nodes.map (·.level), st.nodes.map (·.parent), (List.range 5).map (kidsWalk st.nodes))
    | _ => ([], [], [])) =
    ([1, 5, 10, 3, 3], [none, some 3, some 1, some 0, some 0], [[3, 4], [2], [], [1], []]) := by
  decide +kernel

end Cob
