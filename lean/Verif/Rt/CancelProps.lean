import Verif.Rt.CallProps
import Mathlib.Tactic.Tauto
import Mathlib.Data.List.Nodup
/-
C42: CANCEL ALL cancels the programs called below the current one.
-/
namespace Cob

/-! ### Specification: programs by their path of calls -/

/-- The path of calls that is active and the paths that have been active, in order of first entry. -/
structure CallPaths where
  cur : List (List Nat)
  made : List (List (List Nat))

/-- Entering a program extends the path, leaving it shortens it. -/
def pathStep (s : CallPaths) : TreeEvent → CallPaths
  | .enter n =>
    ⟨s.cur ++ [n], if s.cur ++ [n] ∈ s.made then s.made else s.made ++ [s.cur ++ [n]]⟩
  | .leave => ⟨s.cur.dropLast, s.made⟩

/-- Nothing has been called. -/
def pathInit : CallPaths := ⟨[], []⟩

/-- The paths after a history. -/
def pathRun (es : List TreeEvent) : CallPaths := es.foldl pathStep pathInit

/-- Every return is the return of a program that was entered. -/
def Balanced : CallPaths → List TreeEvent → Prop
  | _, [] => True
  | s, e :: es => (e = .leave → s.cur ≠ []) ∧ Balanced (pathStep s e) es

/-- No program (at one place of the call tree) calls three different programs. -/
def TwoCallees (s : CallPaths) : Prop :=
  ∀ p a b c, p ++ [a] ∈ s.made → p ++ [b] ∈ s.made → p ++ [c] ∈ s.made → a = b ∨ a = c ∨ b = c

/-! ### The invariant -/

/-- The callees of node `i`, whose paths are `ps`, are the nodes of `l`, linked as the C code links
them. -/
structure Kids (t : CallTree) (ps : List (List (List Nat))) (i : Nat) (l : List Nat) : Prop where
  kid : t.kid i = l[0]?
  sis1 : ∀ j, l[0]? = some j → t.sis j = l[1]?
  sis2 : ∀ j, l[1]? = some j → t.sis j = none
  two : l.length ≤ 2
  nodup : l.Nodup
  mem : ∀ (m : Nat), m ∈ l ↔ ∃ p x, ps[i]? = some p ∧ ps[m]? = some (p ++ [x])
  up : ∀ m ∈ l, i < m

structure TreeInv (t : CallTree) (s : CallPaths) : Prop where
  len : t.nodes.length = s.made.length + 1
  nodup : ([] :: s.made).Nodup
  name : ∀ (i : Nat) p x, ([] :: s.made)[i]? = some (p ++ [x]) → t.nm i = x
  cur : ∃ c, t.current = some c ∧ ([] :: s.made)[c]? = some s.cur
  par : ∀ (i : Nat) p x, ([] :: s.made)[i]? = some (p ++ [x]) →
    ∃ k, (t.nodes[i]?).bind (·.parent) = some k ∧ ([] :: s.made)[k]? = some p
  kids : ∀ i, i < t.nodes.length → ∃ l, Kids t ([] :: s.made) i l

theorem getElem?_inj_nodup {α : Type} (l : List α) (h : l.Nodup) (i j : Nat) (x : α)
    (hi : l[i]? = some x) (hj : l[j]? = some x) : i = j := by
  obtain ⟨h1, h2⟩ := List.getElem?_eq_some_iff.1 hi
  obtain ⟨h3, h4⟩ := List.getElem?_eq_some_iff.1 hj
  exact (List.Nodup.getElem_inj_iff h).1 (h2.trans h4.symm)

theorem path_succ (s : CallPaths) (i : Nat) (p : List (List Nat))
    (h : ([] :: s.made)[i]? = some p) (hn : p ≠ []) : ∃ q x, p = q ++ [x] :=
  ⟨p.dropLast, p.getLast hn, (List.dropLast_concat_getLast hn).symm⟩

theorem treeInv_init : TreeInv callTreeInit pathInit := by
  refine ⟨rfl, by simp [pathInit], ?_, ⟨0, rfl, rfl⟩, ?_, ?_⟩
  · intro i p x h
    cases i with
    | zero => simp [pathInit] at h
    | succ i => simp [pathInit] at h
  · intro i p x h
    cases i with
    | zero => simp [pathInit] at h
    | succ i => simp [pathInit] at h
  · intro i hi
    have hi : i = 0 := by simpa [callTreeInit] using hi
    subst hi
    refine ⟨[], ⟨rfl, by simp, by simp, by simp, by simp, ?_, by simp⟩⟩
    intro m
    simp only [List.not_mem_nil, false_iff]
    rintro ⟨p, x, h1, h2⟩
    cases m <;> simp [pathInit] at h2

/-! Adding a node -/

theorem kid_lt (t : CallTree) (i k : Nat) (h : t.kid i = some k) : i < t.nodes.length := by
  unfold CallTree.kid at h
  by_contra hc
  rw [List.getElem?_eq_none (by omega)] at h
  simp at h

/-- What both ways of adding a node do. -/
structure Added (t t' : CallTree) (s : CallPaths) (name : List Nat) : Prop where
  nodes : t'.nodes.length = t.nodes.length + 1
  cur : t'.current = some t.nodes.length
  nm : ∀ i, i < t.nodes.length → t'.nm i = t.nm i
  nmNew : t'.nm t.nodes.length = name
  par : ∀ i, i < t.nodes.length →
    (t'.nodes[i]?).bind (·.parent) = (t.nodes[i]?).bind (·.parent)
  parNew : ∃ c, (t'.nodes[t.nodes.length]?).bind (·.parent) = some c ∧
    ([] :: s.made)[c]? = some s.cur

theorem treeInv_added (t t' : CallTree) (s : CallPaths) (name : List Nat)
    (h : TreeInv t s) (ha : Added t t' s name) (hnew : s.cur ++ [name] ∉ s.made)
    (hk : ∀ i, i < t'.nodes.length → ∃ l, Kids t' ([] :: (s.made ++ [s.cur ++ [name]])) i l) :
    TreeInv t' (pathStep s (.enter name)) := by
  have hs : pathStep s (.enter name) = ⟨s.cur ++ [name], s.made ++ [s.cur ++ [name]]⟩ := by
    simp [pathStep, hnew]
  rw [hs]
  have hlen := h.len
  have hold : ∀ (i : Nat) p, ([] :: (s.made ++ [s.cur ++ [name]]))[i]? = some p →
      (i < t.nodes.length ∧ ([] :: s.made)[i]? = some p) ∨
      (i = t.nodes.length ∧ p = s.cur ++ [name]) := by
    intro i p hi
    rw [← List.cons_append] at hi
    by_cases hlt : i < t.nodes.length
    · left
      rw [List.getElem?_append_left (by simp; omega)] at hi
      exact ⟨hlt, hi⟩
    · right
      rw [List.getElem?_append_right (by simp; omega)] at hi
      have : i - ([] :: s.made).length = 0 := by
        by_contra hc
        rw [List.getElem?_eq_none (by simp at hc ⊢; omega)] at hi
        simp at hi
      rw [this] at hi
      simp at hi this
      exact ⟨by omega, hi.symm⟩
  have hkeep : ∀ (i : Nat) p, ([] :: s.made)[i]? = some p →
      ([] :: (s.made ++ [s.cur ++ [name]]))[i]? = some p := by
    intro i p hi
    rw [← List.cons_append]
    rw [List.getElem?_append_left (List.getElem?_eq_some_iff.1 hi).1]
    exact hi
  refine ⟨by rw [ha.nodes, hlen]; simp, ?_, ?_, ?_, ?_, hk⟩
  · have := h.nodup
    rw [← List.cons_append, List.nodup_append]
    refine ⟨this, by simp, ?_⟩
    intro a ha b hb hab
    subst hab
    simp only [List.mem_singleton] at hb
    subst hb
    simp [hnew] at ha
  · intro i p x hi
    rcases hold i _ hi with ⟨h1, h2⟩ | ⟨h1, h2⟩
    · rw [ha.nm i h1]; exact h.name i p x h2
    · subst h1
      rw [ha.nmNew]
      have := (List.append_inj' h2 rfl).2
      simpa using this.symm
  · refine ⟨t.nodes.length, ha.cur, ?_⟩
    rw [← List.cons_append, List.getElem?_append_right (by simp; omega)]
    simp [hlen]
  · intro i p x hi
    rcases hold i _ hi with ⟨h1, h2⟩ | ⟨h1, h2⟩
    · rw [ha.par i h1]
      obtain ⟨k, h3, h4⟩ := h.par i p x h2
      exact ⟨k, h3, hkeep _ _ h4⟩
    · subst h1
      obtain ⟨c, h3, h4⟩ := ha.parNew
      refine ⟨c, h3, ?_⟩
      have := (List.append_inj' h2 rfl).1
      rw [this]
      exact hkeep _ _ h4

/-- The callees of the nodes after a node has been added below node `c`: only those of `c` change. -/
theorem kids_added (t t' : CallTree) (s : CallPaths) (name : List Nat) (c : Nat) (lc : List Nat)
    (h : TreeInv t s) (hc : ([] :: s.made)[c]? = some s.cur)
    (hnew : s.cur ++ [name] ∉ s.made)
    (hl : t'.nodes.length = t.nodes.length + 1)
    (hlc : Kids t ([] :: s.made) c lc) (h2 : lc.length ≤ 1)
    (hkid : ∀ i, i ≠ c → t'.kid i = t.kid i)
    (hkc : t'.kid c = (lc ++ [t.nodes.length])[0]?)
    (hsis : ∀ i, i ∉ lc → t'.sis i = t.sis i)
    (hsc : ∀ j, lc[0]? = some j → t'.sis j = some t.nodes.length) :
    ∀ i, i < t'.nodes.length → ∃ l, Kids t' ([] :: (s.made ++ [s.cur ++ [name]])) i l := by
  have hlen := h.len
  have hNkid : t.kid t.nodes.length = none := by simp [CallTree.kid]
  have hNsis : t.sis t.nodes.length = none := by simp [CallTree.sis]
  have hclt : c < t.nodes.length := by
    have := (List.getElem?_eq_some_iff.1 hc).1
    simp at this; omega
  have hnew' : s.cur ++ [name] ∉ ([] :: s.made) := by simp [hnew]
  -- membership in the new list of paths
  have hnewpath : ∀ (m : Nat) p, ([] :: (s.made ++ [s.cur ++ [name]]))[m]? = some p ↔
      ([] :: s.made)[m]? = some p ∨ (m = t.nodes.length ∧ p = s.cur ++ [name]) := by
    intro m p
    rw [← List.cons_append]
    rcases Nat.lt_trichotomy m t.nodes.length with hm | hm | hm
    · rw [List.getElem?_append_left (by simp; omega)]
      constructor
      · exact Or.inl
      · rintro (h | ⟨h, _⟩)
        · exact h
        · omega
    · subst hm
      rw [List.getElem?_append_right (by simp; omega),
        List.getElem?_eq_none (l := [] :: s.made) (by simp; omega)]
      simp [hlen, eq_comm]
    · rw [List.getElem?_eq_none (by simp; omega), List.getElem?_eq_none (by simp; omega)]
      simp; omega
  intro i hi
  by_cases hic : i = c
  · subst hic
    refine ⟨lc ++ [t.nodes.length], hkc, ?_, ?_, by simp; omega, ?_, ?_, ?_⟩
    · intro j hj
      cases lc with
      | nil =>
        simp at hj ⊢
        subst hj
        rw [hsis _ (by simp), hNsis]
      | cons a as =>
        have has : as = [] := by
          cases as with
          | nil => rfl
          | cons _ _ => simp at h2
        subst has
        simp at hj ⊢
        rw [hsc j (by simpa using hj)]
    · intro j hj
      cases lc with
      | nil => simp at hj
      | cons a as =>
        have has : as = [] := by
          cases as with
          | nil => rfl
          | cons _ _ => simp at h2
        subst has
        simp at hj
        subst hj
        rw [hsis _ ?_, hNsis]
        intro hm
        have := (hlc.mem t.nodes.length).1 hm
        obtain ⟨p, x, _, hh⟩ := this
        have := (List.getElem?_eq_some_iff.1 hh).1
        simp at this; omega
    · rw [List.nodup_append]
      refine ⟨hlc.nodup, by simp, ?_⟩
      intro a ha b hb hab
      simp at hb
      subst hab hb
      obtain ⟨p, x, _, hh⟩ := (hlc.mem _).1 ha
      have := (List.getElem?_eq_some_iff.1 hh).1
      simp at this; omega
    · intro m
      simp only [List.mem_append, List.mem_singleton]
      rw [hlc.mem m]
      constructor
      · rintro (⟨p, x, h1, h2⟩ | hm)
        · exact ⟨p, x, (hnewpath _ _).2 (Or.inl h1), (hnewpath _ _).2 (Or.inl h2)⟩
        · exact ⟨s.cur, name, (hnewpath _ _).2 (Or.inl hc), (hnewpath _ _).2 (Or.inr ⟨hm, rfl⟩)⟩
      · rintro ⟨p, x, h1, h2⟩
        rcases (hnewpath _ _).1 h1 with h1 | ⟨h1, _⟩
        · rcases (hnewpath _ _).1 h2 with h2 | ⟨h2, _⟩
          · exact Or.inl ⟨p, x, h1, h2⟩
          · exact Or.inr h2
        · omega
    · intro m hm
      rcases List.mem_append.1 hm with hm | hm
      · exact hlc.up m hm
      · simp at hm; omega
  · by_cases hiN : i = t.nodes.length
    · subst hiN
      refine ⟨[], by rw [hkid _ hic, hNkid]; rfl, by simp, by simp, by simp, by simp, ?_, by simp⟩
      intro m
      simp only [List.not_mem_nil, false_iff]
      rintro ⟨p, x, h1, h2⟩
      rcases (hnewpath _ _).1 h1 with h1 | ⟨_, h1⟩
      · have := (List.getElem?_eq_some_iff.1 h1).1
        simp at this; omega
      · subst h1
        rcases (hnewpath _ _).1 h2 with h2 | ⟨_, h2⟩
        · -- a child of the new path was there already: its parent too
          obtain ⟨k, _, hk⟩ := h.par m _ x h2
          exact hnew' (List.mem_of_getElem? hk)
        · have := congrArg List.length h2
          simp at this
    · have hilt : i < t.nodes.length := by omega
      obtain ⟨l, hL⟩ := h.kids i hilt
      -- the callees of i are not callees of c
      have hdisj : ∀ m ∈ l, m ∉ lc := by
        intro m hm hm'
        obtain ⟨p, x, h1, h2⟩ := (hL.mem m).1 hm
        obtain ⟨p', x', h3, h4⟩ := (hlc.mem m).1 hm'
        rw [h2] at h4
        have hpp : p = p' := (List.append_inj' (Option.some.inj h4) rfl).1
        subst hpp
        exact hic (getElem?_inj_nodup _ h.nodup i c p h1 h3)
      refine ⟨l, by rw [hkid i hic, hL.kid], ?_, ?_, hL.two, hL.nodup, ?_, hL.up⟩
      · intro j hj
        rw [hsis j (hdisj j (List.mem_of_getElem? hj))]
        exact hL.sis1 j hj
      · intro j hj
        rw [hsis j (hdisj j (List.mem_of_getElem? hj))]
        exact hL.sis2 j hj
      · intro m
        rw [hL.mem m]
        constructor
        · rintro ⟨p, x, h1, h2⟩
          exact ⟨p, x, (hnewpath _ _).2 (Or.inl h1), (hnewpath _ _).2 (Or.inl h2)⟩
        · rintro ⟨p, x, h1, h2⟩
          rcases (hnewpath _ _).1 h1 with h1 | ⟨h1, _⟩
          · rcases (hnewpath _ _).1 h2 with h2 | ⟨_, h2⟩
            · exact ⟨p, x, h1, h2⟩
            · exfalso
              have hpp : p = s.cur := (List.append_inj' h2 rfl).1
              subst hpp
              exact hic (getElem?_inj_nodup _ h.nodup i c _ h1 hc)
          · omega

/-- The nodes after creating one and linking it from node `x`. -/
theorem added_of (t : CallTree) (s : CallPaths) (name : List Nat) (c x : Nat) (hx : x < t.nodes.length)
    (hc : t.current = some c) (hcp : ([] :: s.made)[c]? = some s.cur) (f : CallNode → CallNode)
    (hfn : ∀ n, (f n).name = n.name) (hfp : ∀ n, (f n).parent = n.parent) :
    Added t ⟨((createNode t name).2.nodes).modify x f, (createNode t name).2.current⟩ s name := by
  have hN : ∀ (i : Nat), i < t.nodes.length →
      ((t.nodes ++ [(⟨name, t.current, none, none⟩ : CallNode)]).modify x f)[i]? =
        (t.nodes[i]?).map (if x = i then f else id) := by
    intro i hi
    rw [List.getElem?_modify, List.getElem?_append_left hi]
    by_cases h : x = i <;> simp [h]
  have hNew : ((t.nodes ++ [(⟨name, t.current, none, none⟩ : CallNode)]).modify x f)[t.nodes.length]? =
      some (⟨name, t.current, none, none⟩ : CallNode) := by
    rw [List.getElem?_modify]
    have : ¬ x = t.nodes.length := by omega
    simp [this]
  refine ⟨by simp [createNode], rfl, ?_, ?_, ?_, ?_⟩
  · intro i hi
    simp only [CallTree.nm, createNode]
    rw [hN i hi]
    by_cases h : x = i
    · simp [h, Function.comp_def, hfn]
    · simp [h]
  · simp only [CallTree.nm, createNode]
    rw [hNew]; rfl
  · intro i hi
    simp only [createNode]
    rw [hN i hi]
    by_cases h : x = i
    · simp [h, Option.bind_map, Function.comp_def, hfp]
    · simp [h]
  · refine ⟨c, ?_, hcp⟩
    simp only [createNode]
    rw [hNew]
    simp [hc]

theorem kid_of_modify (t : CallTree) (name : List Nat) (x i : Nat) (hx : x < t.nodes.length)
    (f : CallNode → CallNode) (hf : ∀ n, (f n).children = n.children ∨ x ≠ i)
    : CallTree.kid ⟨((createNode t name).2.nodes).modify x f, (createNode t name).2.current⟩ i =
      t.kid i := by
  unfold CallTree.kid createNode
  simp only
  rw [List.getElem?_modify]
  rcases Nat.lt_trichotomy i t.nodes.length with h | h | h
  · rw [List.getElem?_append_left h]
    by_cases hh : x = i
    · simp only [hh, if_true]
      have hf' : ∀ n, (f n).children = n.children := fun n => (hf n).resolve_right (by simp [hh])
      simp [Option.bind_map, Function.comp_def, hf']
    · simp [hh]
  · subst h
    have : ¬ x = t.nodes.length := by omega
    simp [this]
  · rw [List.getElem?_eq_none (by simp; omega), List.getElem?_eq_none (l := t.nodes) (by omega)]
    simp

theorem sis_of_modify (t : CallTree) (name : List Nat) (x i : Nat) (hx : x < t.nodes.length)
    (f : CallNode → CallNode) (hf : ∀ n, (f n).sister = n.sister ∨ x ≠ i)
    : CallTree.sis ⟨((createNode t name).2.nodes).modify x f, (createNode t name).2.current⟩ i =
      t.sis i := by
  unfold CallTree.sis createNode
  simp only
  rw [List.getElem?_modify]
  rcases Nat.lt_trichotomy i t.nodes.length with h | h | h
  · rw [List.getElem?_append_left h]
    by_cases hh : x = i
    · simp only [hh, if_true]
      have hf' : ∀ n, (f n).sister = n.sister := fun n => (hf n).resolve_right (by simp [hh])
      simp [Option.bind_map, Function.comp_def, hf']
    · simp [hh]
  · subst h
    have : ¬ x = t.nodes.length := by omega
    simp [this]
  · rw [List.getElem?_eq_none (by simp; omega), List.getElem?_eq_none (l := t.nodes) (by omega)]
    simp

theorem kid_set (t : CallTree) (name : List Nat) (x k : Nat) (hx : x < t.nodes.length) :
    CallTree.kid ⟨setKid (createNode t name).2.nodes x k, (createNode t name).2.current⟩ x =
      some k := by
  unfold CallTree.kid setKid createNode
  simp only
  rw [List.getElem?_modify, List.getElem?_append_left hx, List.getElem?_eq_getElem hx]
  simp

theorem sis_set (t : CallTree) (name : List Nat) (x k : Nat) (hx : x < t.nodes.length) :
    CallTree.sis ⟨setSis (createNode t name).2.nodes x k, (createNode t name).2.current⟩ x =
      some k := by
  unfold CallTree.sis setSis createNode
  simp only
  rw [List.getElem?_modify, List.getElem?_append_left hx, List.getElem?_eq_getElem hx]
  simp

/-- Going down to a node that is there already. -/
theorem treeInv_again (t : CallTree) (s : CallPaths) (name : List Nat) (j : Nat)
    (h : TreeInv t s) (hj : ([] :: s.made)[j]? = some (s.cur ++ [name])) :
    TreeInv { t with current := some j } (pathStep s (.enter name)) := by
  have hm : s.cur ++ [name] ∈ s.made := by
    have := List.mem_of_getElem? hj
    simpa using this
  have : pathStep s (.enter name) = ⟨s.cur ++ [name], s.made⟩ := by simp [pathStep, hm]
  rw [this]
  exact ⟨h.len, h.nodup, h.name, ⟨j, rfl, hj⟩, h.par, fun i hi => by
    obtain ⟨l, hl⟩ := h.kids i hi
    exact ⟨l, hl.kid, hl.sis1, hl.sis2, hl.two, hl.nodup, hl.mem, hl.up⟩⟩

theorem treeInv_push (t : CallTree) (s : CallPaths) (name : List Nat) (h : TreeInv t s)
    (h2 : TwoCallees (pathStep s (.enter name))) :
    TreeInv (pushCall t name) (pathStep s (.enter name)) := by
  obtain ⟨c, hc, hcp⟩ := h.cur
  have hlen := h.len
  have hclt : c < t.nodes.length := by
    have := (List.getElem?_eq_some_iff.1 hcp).1
    simp at this; omega
  obtain ⟨l, hl⟩ := h.kids c hclt
  -- is the callee one of the known ones?
  have hknown : s.cur ++ [name] ∈ s.made ↔ ∃ j ∈ l, t.nm j = name := by
    constructor
    · intro hm
      obtain ⟨j, hj⟩ := List.getElem?_of_mem hm
      have hj' : ([] :: s.made)[j + 1]? = some (s.cur ++ [name]) := by simpa using hj
      exact ⟨j + 1, (hl.mem _).2 ⟨s.cur, name, hcp, hj'⟩, h.name _ _ _ hj'⟩
    · rintro ⟨j, hj, hn⟩
      obtain ⟨p, x, h1, h3⟩ := (hl.mem j).1 hj
      rw [hcp] at h1
      obtain rfl := Option.some.inj h1
      have := h.name j _ _ h3
      rw [hn] at this
      subst this
      simpa using List.mem_of_getElem? h3
  have hpath : ∀ j ∈ l, ([] :: s.made)[j]? = some (s.cur ++ [t.nm j]) := by
    intro j hj
    obtain ⟨p, x, h1, h3⟩ := (hl.mem j).1 hj
    rw [hcp] at h1
    obtain rfl := Option.some.inj h1
    rw [h.name j _ _ h3]; exact h3
  have hlt : ∀ j ∈ l, j < t.nodes.length := by
    intro j hj
    have := (List.getElem?_eq_some_iff.1 (hpath j hj)).1
    simp at this; omega
  unfold pushCall
  rw [if_neg (by simp [hc])]
  simp only [hc]
  match l, hl, hknown, hpath, hlt with
  | [], hl, hknown, hpath, hlt =>
    have hk := hl.kid
    simp only [List.length_nil, List.getElem?_nil] at hk
    have hnew : s.cur ++ [name] ∉ s.made := by simp [hknown]
    rw [hk]
    simp only
    refine treeInv_added t _ s name h (added_of t s name c c hclt hc hcp _ (fun _ => rfl) (fun _ => rfl)) hnew ?_
    refine kids_added t _ s name c [] h hcp hnew (by simp [createNode, setKid]) hl (by simp) ?_ ?_ ?_ ?_
    · intro i hi
      exact kid_of_modify t name c i hclt _ (fun _ => Or.inr (Ne.symm hi))
    · exact kid_set t name c _ hclt
    · intro i _
      exact sis_of_modify t name c i hclt _ (fun _ => Or.inl rfl)
    · simp
  | [p], hl, hknown, hpath, hlt =>
    have hk : t.kid c = some p := by rw [hl.kid]; rfl
    have hsp : t.sis p = none := by rw [hl.sis1 p rfl]; rfl
    have hplt := hlt p (by simp)
    rw [hk]
    simp only
    by_cases hn : t.nm p = name
    · rw [if_pos hn]
      exact treeInv_again t s name p h (by rw [← hn]; exact hpath p (by simp))
    · rw [if_neg hn, hsp]
      simp only
      have hnew : s.cur ++ [name] ∉ s.made := by simp [hknown, hn]
      refine treeInv_added t _ s name h (added_of t s name c p hplt hc hcp _ (fun _ => rfl) (fun _ => rfl)) hnew ?_
      refine kids_added t _ s name c [p] h hcp hnew (by simp [createNode, setSis]) hl (by simp) ?_ ?_ ?_ ?_
      · intro i _
        exact kid_of_modify t name p i hplt _ (fun _ => Or.inl rfl)
      · have : CallTree.kid ⟨setSis (createNode t name).2.nodes p (createNode t name).1,
            (createNode t name).2.current⟩ c = t.kid c :=
          kid_of_modify t name p c hplt _ (fun _ => Or.inl rfl)
        rw [this, hk]; rfl
      · intro i hi
        exact sis_of_modify t name p i hplt _ (fun _ => Or.inr (by simpa using Ne.symm (by simpa using hi)))
      · intro j hj
        simp at hj
        subst hj
        exact sis_set t name p _ hplt
  | [p, q], hl, hknown, hpath, hlt =>
    have hk : t.kid c = some p := by rw [hl.kid]; rfl
    have hsp : t.sis p = some q := by rw [hl.sis1 p rfl]; rfl
    rw [hk]
    simp only
    by_cases hn : t.nm p = name
    · rw [if_pos hn]
      exact treeInv_again t s name p h (by rw [← hn]; exact hpath p (by simp))
    · rw [if_neg hn, hsp]
      simp only
      by_cases hq : t.nm q = name
      · have : findSister t name t.nodes.length q = some q := by
          obtain ⟨m, hm⟩ : ∃ m, t.nodes.length = m + 1 := ⟨t.nodes.length - 1, by omega⟩
          rw [hm, findSister, if_pos hq]
        rw [this]
        exact treeInv_again t s name q h (by rw [← hq]; exact hpath q (by simp))
      · exfalso
        have hnew : s.cur ++ [name] ∉ s.made := by simp [hknown, hn, hq]
        have hs : pathStep s (.enter name) = ⟨s.cur ++ [name], s.made ++ [s.cur ++ [name]]⟩ := by
          simp [pathStep, hnew]
        rw [hs] at h2
        have m1 : s.cur ++ [t.nm p] ∈ s.made := by
          simpa using List.mem_of_getElem? (hpath p (by simp))
        have m2 : s.cur ++ [t.nm q] ∈ s.made := by
          simpa using List.mem_of_getElem? (hpath q (by simp))
        have hpq : t.nm p ≠ t.nm q := by
          intro he
          have h3 := hpath p (by simp)
          rw [he] at h3
          have := getElem?_inj_nodup _ h.nodup p q _ h3 (hpath q (by simp))
          have hd := hl.nodup
          simp at hd
          exact hd this
        rcases h2 s.cur (t.nm p) (t.nm q) name (by simp [m1]) (by simp [m2]) (by simp) with h3 | h3 | h3
        · exact hpq h3
        · exact hn h3
        · exact hq h3
  | p :: q :: r :: rs, hl, hknown, hpath, hlt =>
    have := hl.two
    simp at this

theorem treeInv_pop (t : CallTree) (s : CallPaths) (h : TreeInv t s) (hne : s.cur ≠ []) :
    TreeInv (popCall t) (pathStep s .leave) := by
  obtain ⟨c, hc, hcp⟩ := h.cur
  obtain ⟨q, x, hq⟩ := path_succ s c s.cur hcp hne
  rw [hq] at hcp
  obtain ⟨k, hk, hkp⟩ := h.par c q x hcp
  unfold popCall
  rw [hc]
  simp only [pathStep]
  rw [hk, hq]
  exact ⟨h.len, h.nodup, h.name, ⟨k, rfl, by simpa using hkp⟩, h.par, fun i hi => by
    obtain ⟨l, hl⟩ := h.kids i hi
    exact ⟨l, hl.kid, hl.sis1, hl.sis2, hl.two, hl.nodup, hl.mem, hl.up⟩⟩

theorem twoCallees_mono (s : CallPaths) (e : TreeEvent) (h : TwoCallees (pathStep s e)) :
    TwoCallees s := by
  intro p a b c h1 h2 h3
  have hsub : ∀ x, x ∈ s.made → x ∈ (pathStep s e).made := by
    intro x hx
    cases e with
    | leave => exact hx
    | enter n =>
      simp only [pathStep]
      split
      · exact hx
      · simp [hx]
  exact h p a b c (hsub _ h1) (hsub _ h2) (hsub _ h3)

theorem treeInv_run (es : List TreeEvent) : ∀ (t : CallTree) (s : CallPaths), TreeInv t s →
    Balanced s es → TwoCallees (es.foldl pathStep s) →
    TreeInv (es.foldl treeStep t) (es.foldl pathStep s) := by
  induction es with
  | nil => intro t s h _ _; exact h
  | cons e es ih =>
    intro t s h hb h2
    have h2' : TwoCallees (pathStep s e) := by
      have : ∀ (es : List TreeEvent) s, TwoCallees (es.foldl pathStep s) → TwoCallees s := by
        intro es
        induction es with
        | nil => intro s h; exact h
        | cons e es ih => intro s h; exact twoCallees_mono s e (ih _ h)
      exact this es _ h2
    apply ih
    · cases e with
      | enter n => exact treeInv_push t s n h h2'
      | leave => exact treeInv_pop t s h (hb.1 rfl)
    · exact hb.2
    · exact h2

/-! ### The walk -/

/-- What is cancelled below a node. -/
def below (t : CallTree) (fuel i : Nat) : List Nat :=
  match t.kid i with
  | some c => cancelNodes t fuel c
  | none => []

theorem below_of_kids (t : CallTree) (ps : List (List (List Nat))) (i fuel : Nat) (l : List Nat)
    (hl : Kids t ps i l) :
    (l = [] → below t (fuel + 3) i = []) ∧
    (∀ p, l = [p] → below t (fuel + 3) i = p :: below t (fuel + 2) p) ∧
    (∀ p q, l = [p, q] →
      below t (fuel + 3) i = p :: below t (fuel + 2) p ++ (q :: below t fuel q)) := by
  refine ⟨?_, ?_, ?_⟩
  · rintro rfl
    have := hl.kid
    simp at this
    simp [below, this]
  · rintro p rfl
    have hk := hl.kid
    have hs := hl.sis1 p rfl
    simp at hk hs
    conv_lhs => unfold below
    rw [hk]
    simp only
    rw [cancelNodes, hs]
    simp [below, cancelNodes.sisters]
    cases t.kid p <;> rfl
  · rintro p q rfl
    have hk := hl.kid
    have hs := hl.sis1 p rfl
    have hs2 := hl.sis2 q rfl
    simp at hk hs
    conv_lhs => unfold below
    rw [hk]
    simp only
    rw [cancelNodes, hs, cancelNodes.sisters, cancelNodes, hs2]
    have e : ∀ f, cancelNodes.sisters t f none = [] := by intro f; cases f <;> rfl
    rw [e, e]
    simp [below]
    cases t.kid p <;> cases t.kid q <;> rfl

theorem prefix_closed (t : CallTree) (s : CallPaths) (h : TreeInv t s) (r : List (List Nat)) :
    ∀ p, p ++ r ∈ [] :: s.made → p ∈ [] :: s.made := by
  generalize hn : r.length = n
  induction n generalizing r with
  | zero =>
    intro p h
    obtain rfl := List.length_eq_zero_iff.1 hn
    simpa using h
  | succ n ih =>
    intro p hp
    have hne : r ≠ [] := by rintro rfl; simp at hn
    obtain ⟨r, x, rfl⟩ : ∃ q x, r = q ++ [x] :=
      ⟨r.dropLast, r.getLast hne, (List.dropLast_concat_getLast hne).symm⟩
    rw [← List.append_assoc] at hp
    obtain ⟨i, hi⟩ := List.getElem?_of_mem hp
    obtain ⟨k, _, hk⟩ := h.par i _ x hi
    exact ih r (by simpa using hn) p (List.mem_of_getElem? hk)

/-- The nodes below a node, each once. -/
theorem below_spec (t : CallTree) (s : CallPaths) (h : TreeInv t s) (n : Nat) :
    ∀ (i fuel : Nat) (p : List (List Nat)), t.nodes.length - i ≤ n → 3 * n ≤ fuel →
      ([] :: s.made)[i]? = some p →
      (below t fuel i).Nodup ∧
      ∀ (m : Nat), m ∈ below t fuel i ↔ ∃ x r, ([] :: s.made)[m]? = some (p ++ x :: r) := by
  have hlen := h.len
  induction n with
  | zero =>
    intro i fuel p hn _ hp
    have := (List.getElem?_eq_some_iff.1 hp).1
    simp at this; omega
  | succ n ih =>
    intro i fuel p hn hfuel hp
    have hi : i < t.nodes.length := by
      have := (List.getElem?_eq_some_iff.1 hp).1
      simp at this; omega
    obtain ⟨f, rfl⟩ : ∃ f, fuel = f + 3 := ⟨fuel - 3, by omega⟩
    obtain ⟨l, hl⟩ := h.kids i hi
    obtain ⟨hb0, hb1, hb2⟩ := below_of_kids t _ i f l hl
    -- the nodes strictly below i are at or below a callee
    have hsplit : ∀ (m : Nat), (∃ x r, ([] :: s.made)[m]? = some (p ++ x :: r)) ↔
        ∃ j ∈ l, ∃ y, ([] :: s.made)[j]? = some (p ++ [y]) ∧
          ∃ r, ([] :: s.made)[m]? = some (p ++ [y] ++ r) := by
      intro m
      constructor
      · rintro ⟨x, r, hm⟩
        have hmem : p ++ [x] ∈ [] :: s.made := by
          apply prefix_closed t s h r
          have := List.mem_of_getElem? hm
          simpa using this
        obtain ⟨j, hj⟩ := List.getElem?_of_mem hmem
        exact ⟨j, (hl.mem j).2 ⟨p, x, hp, hj⟩, x, hj, r, by simpa using hm⟩
      · rintro ⟨j, _, y, _, r, hm⟩
        exact ⟨y, r, by simpa using hm⟩
    have hkidpath : ∀ j ∈ l, ∃ y, ([] :: s.made)[j]? = some (p ++ [y]) := by
      intro j hj
      obtain ⟨p', y, h1, h2⟩ := (hl.mem j).1 hj
      rw [hp] at h1
      obtain rfl := Option.some.inj h1
      exact ⟨y, h2⟩
    -- at or below a callee
    have hsub : ∀ j ∈ l, ∀ g, 3 * n ≤ g → ∀ y, ([] :: s.made)[j]? = some (p ++ [y]) →
        (j :: below t g j).Nodup ∧
        ∀ (m : Nat), m ∈ j :: below t g j ↔ ∃ r, ([] :: s.made)[m]? = some (p ++ [y] ++ r) := by
      intro j hj g hg y hy
      have hup := hl.up j hj
      obtain ⟨h1, h2⟩ := ih j g (p ++ [y]) (by omega) hg hy
      refine ⟨?_, ?_⟩
      · rw [List.nodup_cons]
        refine ⟨?_, h1⟩
        intro hm
        obtain ⟨x, r, hx⟩ := (h2 j).1 hm
        rw [hy] at hx
        have := congrArg List.length (Option.some.inj hx)
        simp at this
      · intro m
        rw [List.mem_cons, h2 m]
        constructor
        · rintro (rfl | ⟨x, r, hm⟩)
          · exact ⟨[], by simpa using hy⟩
          · exact ⟨x :: r, hm⟩
        · rintro ⟨r, hm⟩
          cases r with
          | nil =>
            left
            exact getElem?_inj_nodup _ h.nodup m j _ (by simpa using hm) hy
          | cons x r => exact Or.inr ⟨x, r, hm⟩
    match l, hl, hb0, hb1, hb2, hsplit, hkidpath, hsub with
    | [], hl, hb0, hb1, hb2, hsplit, hkidpath, hsub =>
      rw [hb0 rfl]
      refine ⟨by simp, ?_⟩
      intro m
      rw [hsplit m]
      simp
    | [a], hl, hb0, hb1, hb2, hsplit, hkidpath, hsub =>
      rw [hb1 a rfl]
      obtain ⟨y, hy⟩ := hkidpath a (by simp)
      obtain ⟨h1, h2⟩ := hsub a (by simp) (f + 2) (by omega) y hy
      refine ⟨h1, ?_⟩
      intro m
      rw [hsplit m, h2 m]
      constructor
      · intro hr
        exact ⟨a, by simp, y, hy, hr⟩
      · rintro ⟨j, hj, y', hy', hr⟩
        simp at hj
        subst hj
        rw [hy] at hy'
        obtain rfl : y = y' := by simpa using (List.append_inj' (Option.some.inj hy') rfl).2
        exact hr
    | [a, b], hl, hb0, hb1, hb2, hsplit, hkidpath, hsub =>
      rw [hb2 a b rfl]
      obtain ⟨y, hy⟩ := hkidpath a (by simp)
      obtain ⟨z, hz⟩ := hkidpath b (by simp)
      obtain ⟨h1, h2⟩ := hsub a (by simp) (f + 2) (by omega) y hy
      obtain ⟨h3, h4⟩ := hsub b (by simp) f (by omega) z hz
      have hyz : y ≠ z := by
        intro he
        subst he
        have := getElem?_inj_nodup _ h.nodup a b _ hy hz
        have hd := hl.nodup
        simp at hd
        exact hd this
      refine ⟨?_, ?_⟩
      · rw [List.nodup_append]
        refine ⟨h1, h3, ?_⟩
        intro u hu v hv huv
        subst huv
        obtain ⟨r, hr⟩ := (h2 u).1 hu
        obtain ⟨r', hr'⟩ := (h4 u).1 hv
        rw [hr] at hr'
        have := Option.some.inj hr'
        simp at this
        exact hyz this.1
      · intro m
        rw [hsplit m, List.mem_append, h2 m, h4 m]
        constructor
        · rintro (hr | hr)
          · exact ⟨a, by simp, y, hy, hr⟩
          · exact ⟨b, by simp, z, hz, hr⟩
        · rintro ⟨j, hj, y', hy', hr⟩
          simp only [List.mem_cons, List.not_mem_nil, or_false] at hj
          rcases hj with rfl | rfl
          · rw [hy] at hy'
            obtain rfl : y = y' := by simpa using (List.append_inj' (Option.some.inj hy') rfl).2
            exact Or.inl hr
          · rw [hz] at hy'
            obtain rfl : z = y' := by simpa using (List.append_inj' (Option.some.inj hy') rfl).2
            exact Or.inr hr
    | p :: q :: r :: rs, hl, hb0, hb1, hb2, hsplit, hkidpath, hsub =>
      have := hl.two
      simp at this

/-! ### C42 -/

/-- The call tree after a history of calls and returns. -/
def treeState (es : List TreeEvent) : CallTree := es.foldl treeStep callTreeInit

/-- **C42.** After every history of calls and returns in which no program calls more than two
different programs, CANCEL ALL in the running program cancels exactly the programs that were called
below it - directly or indirectly, and still if they have returned - each once for every path by
which it was called. -/
theorem C42_cancel_all (es : List TreeEvent) (fuel : Nat)
    (hb : Balanced pathInit es) (h2 : TwoCallees (pathRun es))
    (hf : 3 * (treeState es).nodes.length ≤ fuel) :
    ∃ L : List (List (List Nat)), L.Nodup ∧
      (∀ p, p ∈ L ↔ p ∈ (pathRun es).made ∧ ∃ x r, p = (pathRun es).cur ++ x :: r) ∧
      cancelAll (treeState es) fuel = L.map (fun p => p.getLastD []) := by
  have h := treeInv_run es callTreeInit pathInit treeInv_init hb h2
  change TreeInv (treeState es) (pathRun es) at h
  generalize treeState es = t at h hf
  generalize pathRun es = s at h
  obtain ⟨c, hc, hcp⟩ := h.cur
  obtain ⟨hnd, hmem⟩ := below_spec t s h t.nodes.length c fuel s.cur (by omega) hf hcp
  have hca : cancelAll t fuel = (below t fuel c).map t.nm := by
    unfold cancelAll below
    rw [hc]
    simp only
    cases t.kid c <;> rfl
  have hget : ∀ m ∈ below t fuel c, ∃ p, ([] :: s.made)[m]? = some p ∧
      p ∈ s.made ∧ ∃ x r, p = s.cur ++ x :: r := by
    intro m hm
    obtain ⟨x, r, hx⟩ := (hmem m).1 hm
    refine ⟨_, hx, ?_, x, r, rfl⟩
    have := List.mem_of_getElem? hx
    simpa using this
  refine ⟨(below t fuel c).map (fun m => (([] :: s.made)[m]?).getD []), ?_, ?_, ?_⟩
  · rw [List.Nodup, List.pairwise_map]
    refine List.Pairwise.imp_of_mem ?_ hnd
    intro a b ha hb hab
    obtain ⟨p, hp, _⟩ := hget a ha
    obtain ⟨q, hq, _⟩ := hget b hb
    rw [hp, hq]
    simp only [Option.getD_some]
    intro hpq
    subst hpq
    exact hab (getElem?_inj_nodup _ h.nodup a b _ hp hq)
  · intro p
    rw [List.mem_map]
    constructor
    · rintro ⟨m, hm, rfl⟩
      obtain ⟨p, hp, hpm, hx⟩ := hget m hm
      rw [hp]
      exact ⟨hpm, hx⟩
    · rintro ⟨hpm, x, r, rfl⟩
      obtain ⟨m, hm⟩ := List.getElem?_of_mem (show _ ∈ [] :: s.made from List.mem_cons_of_mem _ hpm)
      exact ⟨m, (hmem m).2 ⟨x, r, hm⟩, by rw [hm]; rfl⟩
  · rw [hca, List.map_map]
    apply List.map_congr_left
    intro m hm
    obtain ⟨p, hp, hpm, x, r, hx⟩ := hget m hm
    simp only [Function.comp_apply, hp, Option.getD_some]
    have hne : p ≠ [] := by rw [hx]; simp
    obtain ⟨q, y, rfl⟩ := path_succ s m p hp hne
    rw [h.name m q y hp]
    simp [List.getLastD_eq_getLast?]

/-- **C42.** The effect: the cancel functions run are those the cancelled programs registered last,
when they registered under the name that is in the call tree. -/
theorem C42_cancel_effect (hist : List CallEvent) (es : List TreeEvent) (fuel : Nat)
    (hg : EntriesGiven hist)
    (hb : Balanced pathInit es) (h2 : TwoCallees (pathRun es))
    (hf : 3 * (treeState es).nodes.length ≤ fuel) :
    ∃ L : List (List (List Nat)), L.Nodup ∧
      (∀ p, p ∈ L ↔ p ∈ (pathRun es).made ∧ ∃ x r, p = (pathRun es).cur ++ x :: r) ∧
      cancelAllRun (callState hist) (treeState es) fuel =
        (L.map (fun p => lastCancel (p.getLastD []) hist)).filter (· ≠ 0) := by
  obtain ⟨L, h3, h4, h5⟩ := C42_cancel_all es fuel hb h2 hf
  refine ⟨L, h3, h4, ?_⟩
  unfold cancelAllRun
  rw [h5]
  have : cobcancel (callState hist) =
      fun name => if lastCancel name hist ≠ 0 then [lastCancel name hist] else [] := by
    funext name
    exact cobcancel_of _ hist hg (tableIs_state hist hg) name
  rw [this]
  clear h3 h4 h5
  induction L with
  | nil => rfl
  | cons p L ih =>
    simp only [List.map_cons, List.flatMap_cons, ih]
    by_cases h0 : lastCancel (p.getLastD []) hist = 0
    · rw [if_neg (by simpa using h0), List.filter_cons_of_neg (by simpa using h0)]; rfl
    · rw [if_pos h0, List.filter_cons_of_pos (by simpa using h0)]; rfl

/-- Non-vacuity: main calls A, A calls B and C, A returns, main calls B; CANCEL ALL in main. -/
example :
    let es : List TreeEvent := [.enter [77], .enter [65], .enter [66], .leave, .enter [67], .leave,
      .leave, .enter [66], .leave]
    Balanced pathInit es ∧ TwoCallees (pathRun es) ∧
    cancelAll (treeState es) 100 = [[65], [66], [67], [66]] := by
  refine ⟨by simp [Balanced, pathStep, pathInit], ?_, by decide⟩
  have hm : (pathRun [.enter [77], .enter [65], .enter [66], .leave, .enter [67], .leave,
      .leave, .enter [66], .leave]).made =
      [[[77]], [[77], [65]], [[77], [65], [66]], [[77], [65], [67]], [[77], [66]]] := by decide
  intro p a b c ha hb hc
  rw [hm] at ha hb hc
  have key : ∀ (q : List (List Nat)) (x : List Nat), q ++ [x] ∈ [[[77]], [[77], [65]],
      [[77], [65], [66]], [[77], [65], [67]], [[77], [66]]] →
      (q = [] ∧ x = [77]) ∨ (q = [[77]] ∧ (x = [65] ∨ x = [66])) ∨
      (q = [[77], [65]] ∧ (x = [66] ∨ x = [67])) := by
    intro q x hq
    match q with
    | [] => simpa using hq
    | [u] => simp at hq; simp; tauto
    | [u, v] => simp at hq; simp; tauto
    | u :: v :: w :: r => simp at hq
  rcases key p a ha with ⟨rfl, h1⟩ | ⟨rfl, h1⟩ | ⟨rfl, h1⟩
  all_goals
    have k2 := key _ b hb
    have k3 := key _ c hc
    simp at k2 k3
    grind

/-- Finding: the third program a program calls is not cancelled: main calls A, B and C. -/
theorem C42_finding_third_callee :
    cancelAll (treeState [.enter [77], .enter [65], .leave, .enter [66], .leave, .enter [67],
      .leave]) 100 = [[65], [66]] := by decide

/-- Finding: it is attached beside its caller instead; when the caller's caller cancels, it cancels
that program, but a sister that was there before is lost: main calls A and B, A calls X, Y, Z, and
CANCEL ALL in main no longer cancels B. -/
theorem C42_finding_sister_lost :
    cancelAll (treeState [.enter [77], .enter [65], .leave, .enter [66], .leave,
      .enter [65], .enter [88], .leave, .enter [89], .leave, .enter [90], .leave, .leave]) 100 =
      [[65], [88], [89], [90]] := by decide

/-- Finding: a program whose name has a hyphen is in the call tree under its symbol, but registers
its cancel function under its source name: CANCEL ALL does nothing for it. -/
theorem C42_finding_hyphen :
    cancelAllRun (callState [.call [65, 45, 66] (fun _ => 7), .start [65, 45, 66] 7 100])
      (treeState [.enter [77], .enter (encodeName [65, 45, 66]), .leave]) 100 = [] ∧
    cobcancel (callState [.call [65, 45, 66] (fun _ => 7), .start [65, 45, 66] 7 100])
      [65, 45, 66] = [100] := by decide

end Cob
