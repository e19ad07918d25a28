import Verif.Rt.Storage
import Verif.Intr.TextProps
import Mathlib.Tactic.SplitIfs
import Mathlib.Tactic.ByContra
/-
C31 (EXTERNAL items), C32 (ALLOCATE and FREE), C33 (exit and error procedures), C35 (bound checks).
-/
namespace Cob

/-! ### C31 -/

/-- The state `st` describes the history `h` of answered requests: name, length, area. -/
structure ExtInv (h : List (List Nat × Int × Nat)) (st : ExtState) : Prop where
  known : ∀ x, x ∈ h → ∃ e, extFind x.1 st.list = some e ∧ e.area = x.2.2 ∧ x.2.1 ≤ e.size
  first : ∀ n e, extFind n st.list = some e → ∃ i : Nat, h[i]? = some (n, e.size, e.area) ∧
    ∀ (j : Nat) x, j < i → h[j]? = some x → x.1 ≠ n
  below : ∀ n e, extFind n st.list = some e → e.area < st.areas
  inj : ∀ n n' e e', extFind n st.list = some e → extFind n' st.list = some e' →
    e.area = e'.area → n = n'

theorem extInv_hit {h : List (List Nat × Int × Nat)} {st : ExtState} (hi : ExtInv h st)
    {n : List Nat} {l : Int} {e : ExtRec} (hf : extFind n st.list = some e) (hl : l ≤ e.size) :
    ExtInv (h ++ [(n, l, e.area)]) st where
  known := by
    intro x hx
    rcases List.mem_append.1 hx with g | g
    · exact hi.known x g
    · rw [List.mem_singleton.1 g]
      exact ⟨e, hf, rfl, hl⟩
  first := by
    intro m e' he'
    obtain ⟨i, h1, h2⟩ := hi.first m e' he'
    have hil : i < h.length := (List.getElem?_eq_some_iff.1 h1).1
    refine ⟨i, by rw [List.getElem?_append_left hil]; exact h1, fun j x hj hx => ?_⟩
    rw [List.getElem?_append_left (by omega)] at hx
    exact h2 j x hj hx
  below := hi.below
  inj := hi.inj

theorem extInv_miss {h : List (List Nat × Int × Nat)} {st : ExtState} (hi : ExtInv h st)
    {n : List Nat} {l : Int} (hf : extFind n st.list = none) :
    ExtInv (h ++ [(n, l, st.areas)]) ⟨⟨n, l, st.areas⟩ :: st.list, st.areas + 1⟩ where
  known := by
    intro x hx
    rcases List.mem_append.1 hx with g | g
    · obtain ⟨e, h1, h2, h3⟩ := hi.known x g
      refine ⟨e, ?_, h2, h3⟩
      simp only [extFind]
      rw [if_neg (fun c => by rw [c, h1] at hf; cases hf)]
      exact h1
    · rw [List.mem_singleton.1 g]
      exact ⟨⟨n, l, st.areas⟩, by simp [extFind], rfl, Int.le_refl _⟩
  first := by
    intro m e he
    simp only [extFind] at he
    by_cases c : n = m
    · rw [if_pos c] at he
      cases he
      subst c
      refine ⟨h.length, by simp, fun j x hj hx => ?_⟩
      rw [List.getElem?_append_left hj] at hx
      intro hxn
      obtain ⟨e, h1, _⟩ := hi.known x (List.mem_of_getElem? hx)
      rw [hxn, hf] at h1
      cases h1
    · rw [if_neg c] at he
      obtain ⟨i, h1, h2⟩ := hi.first m e he
      have hil : i < h.length := (List.getElem?_eq_some_iff.1 h1).1
      refine ⟨i, by rw [List.getElem?_append_left hil]; exact h1, fun j x hj hx => ?_⟩
      rw [List.getElem?_append_left (by omega)] at hx
      exact h2 j x hj hx
  below := by
    intro m e he
    simp only [extFind] at he
    split_ifs at he
    · cases he; simp
    · have := hi.below m e he; simp only; omega
  inj := by
    intro m m' e e' he he' ha
    simp only [extFind] at he he'
    by_cases c : n = m <;> by_cases c' : n = m'
    · rw [← c, ← c']
    · rw [if_pos c] at he; rw [if_neg c'] at he'
      cases he
      have := hi.below _ _ he'; simp only at ha; omega
    · rw [if_neg c] at he; rw [if_pos c'] at he'
      cases he'
      have := hi.below _ _ he; simp only at ha; omega
    · rw [if_neg c] at he; rw [if_neg c'] at he'
      exact hi.inj m m' e e' he he' ha

/-- What the run of requests answers, in words of the requests only. -/
structure ExtAnswers (reqs : List (List Nat × Int)) (outs : List ExtOut) : Prop where
  /-- two requests get the same area exactly when they ask for the same name -/
  share : ∀ (i j : Nat) ni li nj lj a b ia ib, reqs[i]? = some (ni, li) → reqs[j]? = some (nj, lj) →
    outs[i]? = some (.area a ia) → outs[j]? = some (.area b ib) → (a = b ↔ ni = nj)
  /-- the area is fresh exactly at the first request of the name -/
  initial : ∀ (i : Nat) n l a ini, reqs[i]? = some (n, l) → outs[i]? = some (.area a ini) →
    (ini = true ↔ ∀ (j : Nat) x, j < i → reqs[j]? = some x → x.1 ≠ n)
  /-- an answered request is not longer than the first request of the name, which made the area -/
  fits : ∀ (i : Nat) n l a ini, reqs[i]? = some (n, l) → outs[i]? = some (.area a ini) →
    ∃ (k : Nat) (l0 : Int), k ≤ i ∧ reqs[k]? = some (n, l0) ∧ l ≤ l0 ∧
      ∀ (j : Nat) x, j < k → reqs[j]? = some x → x.1 ≠ n
  /-- a refused request is longer than the first request of the name -/
  refused : ∀ (i : Nat) n l, reqs[i]? = some (n, l) → outs[i]? = some .fatal →
    ∃ (k : Nat) (l0 : Int), k < i ∧ reqs[k]? = some (n, l0) ∧ l0 < l ∧
      ∀ (j : Nat) x, j < k → reqs[j]? = some x → x.1 ≠ n
  /-- every request is answered unless an earlier one was refused -/
  answered : ∀ i : Nat, i < reqs.length → outs[i]? = none →
    ∃ j : Nat, j < i ∧ outs[j]? = some .fatal

theorem extRun_spec : ∀ (rest : List (List Nat × Int)) (h : List (List Nat × Int × Nat))
    (inis : List Bool) (st : ExtState), ExtInv h st → inis.length = h.length →
    (∀ (i : Nat) n l a ini, h[i]? = some (n, l, a) → inis[i]? = some ini →
      (ini = true ↔ ∀ (j : Nat) x, j < i → h[j]? = some x → x.1 ≠ n)) →
    ExtAnswers (h.map (fun x => (x.1, x.2.1)) ++ rest)
      ((h.zip inis).map (fun x => ExtOut.area x.1.2.2 x.2) ++ extRun st rest) := by
  intro rest
  induction rest with
  | nil =>
    intro h inis st hi hlen hini
    have hz : ∀ (i : Nat) a ini, ((h.zip inis).map (fun x => ExtOut.area x.1.2.2 x.2))[i]? =
        some (.area a ini) → ∃ n l, h[i]? = some (n, l, a) ∧ inis[i]? = some ini := by
      intro i a ini hh
      simp only [List.getElem?_map, Option.map_eq_some_iff, List.getElem?_zip_eq_some] at hh
      obtain ⟨⟨⟨n, l, a'⟩, ini'⟩, ⟨h1, h2⟩, h3⟩ := hh
      simp only [ExtOut.area.injEq] at h3
      exact ⟨n, l, by rw [← h3.1]; exact h1, by rw [← h3.2]; exact h2⟩
    have hnf : ∀ i : Nat, ((h.zip inis).map (fun x => ExtOut.area x.1.2.2 x.2))[i]? ≠
        some .fatal := by
      intro i hh
      simp only [List.getElem?_map, Option.map_eq_some_iff] at hh
      obtain ⟨x, _, h3⟩ := hh
      cases h3
    have hr : ∀ (i : Nat) n l, (h.map (fun x => (x.1, x.2.1)))[i]? = some (n, l) →
        ∃ a, h[i]? = some (n, l, a) := by
      intro i n l hh
      simp only [List.getElem?_map, Option.map_eq_some_iff] at hh
      obtain ⟨⟨n', l', a⟩, h1, h3⟩ := hh
      cases h3
      exact ⟨a, h1⟩
    have hnames : ∀ (i : Nat) n, (∀ (j : Nat) (x : List Nat × Int × Nat), j < i → h[j]? = some x →
        x.1 ≠ n) ↔ ∀ (j : Nat) (x : List Nat × Int), j < i →
          (h.map (fun x => (x.1, x.2.1)))[j]? = some x → x.1 ≠ n := by
      intro i n
      constructor
      · intro hh j x hj hx
        obtain ⟨a, ha⟩ := hr j x.1 x.2 hx
        exact hh j _ hj ha
      · intro hh j x hj hx
        exact hh j (x.1, x.2.1) hj (by rw [List.getElem?_map, hx]; rfl)
    simp only [extRun, List.append_nil]
    constructor
    · intro i j ni li nj lj a b ia ib r1 r2 o1 o2
      obtain ⟨n1, l1, q1, _⟩ := hz i a ia o1
      obtain ⟨n2, l2, q2, _⟩ := hz j b ib o2
      obtain ⟨_, q1'⟩ := hr i ni li r1
      obtain ⟨_, q2'⟩ := hr j nj lj r2
      rw [q1] at q1'; rw [q2] at q2'
      cases q1'; cases q2'
      obtain ⟨e1, f1, g1, _⟩ := hi.known _ (List.mem_of_getElem? q1)
      obtain ⟨e2, f2, g2, _⟩ := hi.known _ (List.mem_of_getElem? q2)
      simp only at f1 g1 f2 g2
      constructor
      · intro hab
        exact hi.inj _ _ _ _ f1 f2 (by rw [g1, g2, hab])
      · intro hn
        rw [hn, f2] at f1
        cases f1
        rw [← g1, ← g2]
    · intro i n l a ini r1 o1
      obtain ⟨n1, l1, q1, p1⟩ := hz i a ini o1
      obtain ⟨_, q1'⟩ := hr i n l r1
      rw [q1] at q1'; cases q1'
      rw [← hnames]
      exact hini i n l a ini q1 p1
    · intro i n l a ini r1 o1
      obtain ⟨n1, l1, q1, _⟩ := hz i a ini o1
      obtain ⟨_, q1'⟩ := hr i n l r1
      rw [q1] at q1'; cases q1'
      obtain ⟨e1, f1, g1, s1⟩ := hi.known _ (List.mem_of_getElem? q1)
      obtain ⟨k, hk, hfirst⟩ := hi.first _ _ f1
      refine ⟨k, e1.size, ?_, by rw [List.getElem?_map, hk]; rfl, s1, (hnames k n).1 hfirst⟩
      rcases Nat.lt_or_ge i k with g | g
      · exact absurd rfl (hfirst i _ g q1)
      · exact g
    · intro i n l r1 o1
      exact absurd o1 (hnf i)
    · intro i hil ho
      rw [List.length_map] at hil
      rw [List.getElem?_eq_none_iff] at ho
      simp only [List.length_map, List.length_zip, hlen] at ho
      omega
  | cons r rest ih =>
    intro h inis st hi hlen hini
    obtain ⟨n, l⟩ := r
    have step : ∀ (a : Nat) (ini : Bool) (st' : ExtState), ExtInv (h ++ [(n, l, a)]) st' →
        (ini = true ↔ ∀ (j : Nat) x, j < h.length → h[j]? = some x → x.1 ≠ n) →
        ExtAnswers (h.map (fun x => (x.1, x.2.1)) ++ (n, l) :: rest)
          ((h.zip inis).map (fun x => ExtOut.area x.1.2.2 x.2) ++
            .area a ini :: extRun st' rest) := by
      intro a ini st' hi' hini'
      have := ih (h ++ [(n, l, a)]) (inis ++ [ini]) st' hi' (by simp [hlen]) ?_
      · rw [List.zip_append hlen.symm] at this
        simpa using this
      · intro i m l' a' ini' hm hii
        rcases Nat.lt_trichotomy i h.length with g | g | g
        · rw [List.getElem?_append_left g] at hm
          rw [List.getElem?_append_left (by omega)] at hii
          rw [hini i m l' a' ini' hm hii]
          constructor
          · intro hh j x hj hx
            rw [List.getElem?_append_left (by omega)] at hx
            exact hh j x hj hx
          · intro hh j x hj hx
            exact hh j x hj (by rw [List.getElem?_append_left (by omega)]; exact hx)
        · subst g
          simp only [List.getElem?_concat_length, Option.some.injEq, Prod.mk.injEq] at hm
          rw [← hlen] at hii
          simp only [List.getElem?_concat_length, Option.some.injEq] at hii
          rw [← hm.1, ← hii, hini']
          constructor
          · intro hh j x hj hx
            rw [List.getElem?_append_left hj] at hx
            exact hh j x hj hx
          · intro hh j x hj hx
            exact hh j x hj (by rw [List.getElem?_append_left hj]; exact hx)
        · rw [List.getElem?_eq_none (by simp; omega)] at hm
          cases hm
    cases hf : extFind n st.list with
    | none =>
      have e : extRun st ((n, l) :: rest) = .area st.areas true ::
          extRun ⟨⟨n, l, st.areas⟩ :: st.list, st.areas + 1⟩ rest := by
        simp only [extRun, externalAddr, hf]
      rw [e]
      refine step _ _ _ (extInv_miss hi hf) (iff_of_true rfl ?_)
      intro j x hj hx hxn
      obtain ⟨e, h1, _⟩ := hi.known x (List.mem_of_getElem? hx)
      rw [hxn, hf] at h1; cases h1
    | some e =>
      obtain ⟨k, hk, hfirst⟩ := hi.first _ _ hf
      have hkl : k < h.length := (List.getElem?_eq_some_iff.1 hk).1
      by_cases c : l > e.size
      · have er : extRun st ((n, l) :: rest) = [.fatal] := by
          simp only [extRun, externalAddr, hf]
          rw [if_pos c]
        rw [er]
        -- the answers so far are those of the history alone
        have base := ih h inis st hi hlen hini
        have hb : ∀ i : Nat, i < h.length →
            ((h.zip inis).map (fun x => ExtOut.area x.1.2.2 x.2) ++ [ExtOut.fatal])[i]? =
            ((h.zip inis).map (fun x => ExtOut.area x.1.2.2 x.2) ++ extRun st rest)[i]? := by
          intro i hil
          rw [List.getElem?_append_left (by simp; omega),
            List.getElem?_append_left (by simp; omega)]
        have hq : ∀ i : Nat, i < h.length →
            (h.map (fun x => (x.1, x.2.1)) ++ (n, l) :: rest)[i]? =
            (h.map (fun x => (x.1, x.2.1)) ++ rest)[i]? := by
          intro i hil
          rw [List.getElem?_append_left (by simp; omega),
            List.getElem?_append_left (by simp; omega)]
        have hbl : ∀ (i : Nat) o, ((h.zip inis).map (fun x => ExtOut.area x.1.2.2 x.2) ++
            [ExtOut.fatal])[i]? = some o → i < h.length ∨ (i = h.length ∧ o = .fatal) := by
          intro i o ho
          rcases Nat.lt_trichotomy i h.length with g | g | g
          · exact Or.inl g
          · refine Or.inr ⟨g, ?_⟩
            rw [List.getElem?_append_right (by simp; omega)] at ho
            simp [hlen, g] at ho
            exact ho.symm
          · rw [List.getElem?_eq_none (by simp; omega)] at ho
            cases ho
        have hpre : ∀ (i : Nat) (m : List Nat), i ≤ h.length →
            ((∀ (j : Nat) (x : List Nat × Int), j < i →
              (h.map (fun x => (x.1, x.2.1)) ++ (n, l) :: rest)[j]? = some x → x.1 ≠ m) ↔
            (∀ (j : Nat) (x : List Nat × Int), j < i →
              (h.map (fun x => (x.1, x.2.1)) ++ rest)[j]? = some x → x.1 ≠ m)) := by
          intro i m hi
          constructor
          · intro hh j x hj hx
            exact hh j x hj (by rw [hq j (by omega)]; exact hx)
          · intro hh j x hj hx
            rw [hq j (by omega)] at hx
            exact hh j x hj hx
        constructor
        · intro i j ni li nj lj a b ia ib r1 r2 o1 o2
          rcases hbl i _ o1 with g1 | ⟨_, g1⟩
          · rcases hbl j _ o2 with g2 | ⟨_, g2⟩
            · rw [hb i g1] at o1; rw [hb j g2] at o2
              rw [hq i g1] at r1; rw [hq j g2] at r2
              exact base.share i j ni li nj lj a b ia ib r1 r2 o1 o2
            · cases g2
          · cases g1
        · intro i m l' a ini r1 o1
          rcases hbl i _ o1 with g1 | ⟨_, g1⟩
          · rw [hb i g1] at o1; rw [hq i g1] at r1
            rw [hpre i m (by omega)]
            exact base.initial i m l' a ini r1 o1
          · cases g1
        · intro i m l' a ini r1 o1
          rcases hbl i _ o1 with g1 | ⟨_, g1⟩
          · rw [hb i g1] at o1; rw [hq i g1] at r1
            obtain ⟨k', l0, b1, b2, b3, b4⟩ := base.fits i m l' a ini r1 o1
            exact ⟨k', l0, b1, by rw [hq k' (by omega)]; exact b2, b3,
              (hpre k' m (by omega)).2 b4⟩
          · cases g1
        · intro i m l' r1 o1
          rcases hbl i _ o1 with g1 | ⟨g1, _⟩
          · rw [hb i g1] at o1; rw [hq i g1] at r1
            obtain ⟨k', l0, b1, b2, b3, b4⟩ := base.refused i m l' r1 o1
            exact ⟨k', l0, b1, by rw [hq k' (by omega)]; exact b2, b3,
              (hpre k' m (by omega)).2 b4⟩
          · subst g1
            rw [List.getElem?_append_right (by simp)] at r1
            simp only [List.length_map, Nat.sub_self, List.getElem?_cons_zero, Option.some.injEq,
              Prod.mk.injEq] at r1
            obtain ⟨r1, r2⟩ := r1
            subst r1; subst r2
            refine ⟨k, e.size, hkl, ?_, c, ?_⟩
            · rw [List.getElem?_append_left (by simpa using hkl), List.getElem?_map, hk]; rfl
            · intro j x hj hx
              rw [List.getElem?_append_left (by simp; omega), List.getElem?_map] at hx
              simp only [Option.map_eq_some_iff] at hx
              obtain ⟨y, hy, rfl⟩ := hx
              exact hfirst j y hj hy
        · intro i hil ho
          rw [List.getElem?_eq_none_iff] at ho
          simp only [List.length_append, List.length_map, List.length_zip, hlen, Nat.min_self,
            List.length_singleton] at ho
          refine ⟨h.length, by omega, ?_⟩
          rw [List.getElem?_append_right (by simp [hlen])]
          simp [hlen]
      · have er : extRun st ((n, l) :: rest) = .area e.area false :: extRun st rest := by
          simp only [extRun, externalAddr, hf]
          rw [if_neg c]
        rw [er]
        refine step _ _ _ (extInv_hit hi hf (by omega)) ⟨fun q => by simp at q, fun q => ?_⟩
        exact absurd rfl (q k _ hkl hk)

/-- For every history of requests of EXTERNAL items: same name, same area, and different names,
different areas; the area is fresh (and to be initialised) exactly at the first request; a request
ends the run exactly when it is longer than the first request of its name. -/
theorem C31_external (reqs : List (List Nat × Int)) :
    ExtAnswers reqs (extRun ⟨[], 0⟩ reqs) := by
  have := extRun_spec reqs [] [] ⟨[], 0⟩
    ⟨by simp, by simp [extFind], by simp [extFind], by simp [extFind]⟩ rfl (by simp)
  simpa using this

example : extRun ⟨[], 0⟩ [([65], 10), ([66], 4), ([65], 8), ([66], 5), ([65], 1)] =
    [.area 0 true, .area 1 true, .area 0 false, .fatal] := by decide

/-! ### C32 -/

/-- The pointer entries of the cache that are not NULL are exactly the areas in use, each once. -/
structure AllocInv (st : AllocState) : Prop where
  entries : (st.cache.filter (· ≠ 0)).Perm st.live
  nodup : st.live.Nodup
  nozero : 0 ∉ st.live
  good : st.bad = false

theorem clearEntry_some {p : Nat} (hp : p ≠ 0) : ∀ {c c' : List Nat}, clearEntry p c = some c' →
    (c.filter (· ≠ 0)).Perm (p :: c'.filter (· ≠ 0))
  | [], _, h => by cases h
  | a :: as, c', h => by
    rw [clearEntry] at h
    by_cases g : p = a
    · rw [if_pos g] at h
      cases h
      subst g
      simp [hp]
    · rw [if_neg g] at h
      simp only [Option.map_eq_some_iff] at h
      obtain ⟨d, h1, rfl⟩ := h
      have ih := clearEntry_some hp h1
      by_cases ga : a = 0
      · subst ga
        simpa using ih
      · simp only [List.filter_cons, ga, ne_eq, not_false_eq_true, decide_true, if_true] at ih ⊢
        exact ((List.Perm.cons a ih).trans (List.Perm.swap p a _))

theorem clearEntry_none {p : Nat} : ∀ {c : List Nat}, clearEntry p c = none ↔ p ∉ c
  | [] => by simp [clearEntry]
  | a :: as => by
    rw [clearEntry]
    by_cases g : p = a
    · simp [g]
    · rw [if_neg g]
      simp [g, clearEntry_none (c := as)]

/-- `malloc` behaves: what ALLOCATE gets is not an area in use. -/
def MallocOk (st : AllocState) : PtrStmt → Prop
  | .allocate _ _ mptr => mptr ∉ st.live
  | _ => True

/-- `malloc` behaves in every step of the run. -/
def RunOk : AllocState → List PtrStmt → Prop
  | _, [] => True
  | st, s :: ss => MallocOk st s ∧ RunOk (ptrStep st s) ss

theorem mem_live_iff {st : AllocState} (hi : AllocInv st) {p : Nat} (hp : p ≠ 0) :
    p ∈ st.live ↔ p ∈ st.cache := by
  rw [← hi.entries.mem_iff]
  simp [hp]

theorem ptrStep_inv {st : AllocState} (hi : AllocInv st) {s : PtrStmt} (hs : MallocOk st s) :
    AllocInv (ptrStep st s) := by
  cases s with
  | allocate v size mptr =>
    simp only [ptrStep, allocate]
    split_ifs with h1 h2
    · exact ⟨hi.entries, hi.nodup, hi.nozero, hi.good⟩
    · refine ⟨?_, List.nodup_cons.2 ⟨hs, hi.nodup⟩, ?_, hi.good⟩
      · simp only [List.filter_cons, h2, ne_eq, not_false_eq_true, decide_true, if_true]
        exact List.Perm.cons _ hi.entries
      · simp only [List.mem_cons, not_or]
        exact ⟨fun h => h2 h.symm, hi.nozero⟩
    · exact ⟨hi.entries, hi.nodup, hi.nozero, hi.good⟩
  | free v =>
    simp only [ptrStep, freeAlloc]
    by_cases hp : st.vars v = 0
    · rw [if_pos hp]
      exact ⟨hi.entries, hi.nodup, hi.nozero, hi.good⟩
    · rw [if_neg hp]
      cases hc : clearEntry (st.vars v) st.cache with
      | none => exact ⟨hi.entries, hi.nodup, hi.nozero, hi.good⟩
      | some c' =>
        have hperm := clearEntry_some hp hc
        have hmem : st.vars v ∈ st.live := by
          rw [mem_live_iff hi hp]
          by_contra hn
          rw [clearEntry_none.2 hn] at hc
          cases hc
        refine ⟨?_, hi.nodup.erase _, fun h => hi.nozero (List.mem_of_mem_erase h), ?_⟩
        · have h1 := hi.entries.symm.trans hperm
          have h2 := List.perm_cons_erase hmem
          exact ((h2.symm.trans h1).cons_inv).symm
        · simp [hi.good, hmem]
  | set v addr => exact ⟨hi.entries, hi.nodup, hi.nozero, hi.good⟩

theorem ptrRun_inv : ∀ (ss : List PtrStmt) (st : AllocState), AllocInv st → RunOk st ss →
    AllocInv (ptrRun st ss)
  | [], _, hi, _ => hi
  | s :: ss, st, hi, hr => ptrRun_inv ss (ptrStep st s) (ptrStep_inv hi hr.1) hr.2

/-- For every history of ALLOCATE, FREE and SET statements (SET to any address, even wild), `free`
is never called for an area that is not in use: nothing is freed twice, and nothing is freed that
ALLOCATE did not obtain. -/
theorem C32_no_double_free (ss : List PtrStmt) (hr : RunOk ptrInit ss) :
    (ptrRun ptrInit ss).bad = false ∧ (ptrRun ptrInit ss).live.Nodup := by
  have := ptrRun_inv ss ptrInit ⟨by simp [ptrInit], by simp [ptrInit], by simp [ptrInit], rfl⟩ hr
  exact ⟨this.good, this.nodup⟩

/-- FREE after any history: a pointer to an area in use releases exactly that area and becomes
NULL; a NULL pointer changes nothing; any other pointer sets the exception and nothing changes. -/
theorem C32_free (ss : List PtrStmt) (hr : RunOk ptrInit ss) (v : Nat) :
    let st := ptrRun ptrInit ss
    let st' := freeAlloc st v
    (st.vars v ∈ st.live →
      (∀ a, a ∈ st'.live ↔ a ∈ st.live ∧ a ≠ st.vars v) ∧ st'.vars v = 0 ∧ st'.exc = false ∧
      ∀ w, w ≠ v → st'.vars w = st.vars w) ∧
    (st.vars v = 0 → st'.live = st.live ∧ st'.vars = st.vars ∧ st'.exc = false) ∧
    (st.vars v ≠ 0 → st.vars v ∉ st.live →
      st'.live = st.live ∧ st'.vars = st.vars ∧ st'.exc = true) := by
  have hi := ptrRun_inv ss ptrInit ⟨by simp [ptrInit], by simp [ptrInit], by simp [ptrInit], rfl⟩ hr
  generalize ptrRun ptrInit ss = st at hi
  simp only
  refine ⟨fun hm => ?_, fun h0 => ?_, fun h0 hm => ?_⟩
  · have hp : st.vars v ≠ 0 := fun h => hi.nozero (h ▸ hm)
    obtain ⟨c', hc⟩ : ∃ c', clearEntry (st.vars v) st.cache = some c' := by
      cases hc : clearEntry (st.vars v) st.cache with
      | none => exact absurd ((mem_live_iff hi hp).1 hm) (clearEntry_none.1 hc)
      | some c' => exact ⟨c', rfl⟩
    unfold freeAlloc
    simp only
    rw [if_neg hp, hc]
    refine ⟨fun a => ?_, by simp, rfl, fun w hw => by simp [hw]⟩
    simp only
    rw [hi.nodup.mem_erase_iff]
    exact And.comm
  · unfold freeAlloc
    simp only
    rw [if_pos h0]
    exact ⟨rfl, rfl, rfl⟩
  · have hn : clearEntry (st.vars v) st.cache = none := by
      rw [clearEntry_none, ← mem_live_iff hi h0]; exact hm
    unfold freeAlloc
    simp only
    rw [if_neg h0, hn]
    exact ⟨rfl, rfl, rfl⟩

/-- ALLOCATE of a positive size delivers the area `malloc` gave, in use from then on together with
all the others; of a size of 0 or less, or without storage, NULL. -/
theorem C32_allocate (st : AllocState) (v : Nat) (size : Int) (mptr : Nat) :
    let st' := allocate st v size mptr
    (0 < size → mptr ≠ 0 → st'.vars v = mptr ∧ st'.exc = false ∧ st'.live = mptr :: st.live) ∧
    (0 < size → mptr = 0 → st'.vars v = 0 ∧ st'.exc = true ∧ st'.live = st.live) ∧
    (size ≤ 0 → st'.vars v = 0 ∧ st'.exc = false ∧ st'.live = st.live) ∧
    ∀ w, w ≠ v → st'.vars w = st.vars w := by
  simp only [allocate]
  refine ⟨fun h1 h2 => ?_, fun h1 h2 => ?_, fun h1 => ?_, fun w hw => ?_⟩
  · rw [if_pos h1, if_neg h2]; simp
  · rw [if_pos h1, if_pos h2]; simp
  · rw [if_neg (by omega)]; simp
  · split_ifs <;> simp [hw]

example : RunOk ptrInit [.allocate 1 8 100, .set 2 100, .free 1, .free 2, .allocate 3 8 100,
    .free 2, .free 3] := by
  simp [RunOk, MallocOk, ptrStep, allocate, freeAlloc, clearEntry, ptrInit]

/-- A second pointer to the area keeps the address after FREE, and FREE through it after the
storage was given out again releases the new area: the check is by address only. -/
theorem C32_finding_alias :
    let st := ptrRun ptrInit [.allocate 1 8 100, .set 2 100, .free 1, .allocate 3 8 100, .free 2]
    st.exc = false ∧ st.live = [] ∧ st.vars 3 = 100 := by decide

/-! ### C33 -/

/-- The procedures registered after the calls, most recent first: installing a procedure that is
registered moves it to the front. -/
def registered : List (Bool × Nat) → List Nat → List Nat
  | [], l => l
  | (install, p) :: cs, l =>
    registered cs (if install then p :: l.filter (· ≠ p) else l.filter (· ≠ p))

/-- Every call names a procedure that is not registered, or the most recent one. -/
def OnlyNewest : List (Bool × Nat) → List Nat → Prop
  | [], _ => True
  | (install, p) :: cs, l =>
    (p ∉ l ∨ l.head? = some p) ∧
      OnlyNewest cs (if install then p :: l.filter (· ≠ p) else l.filter (· ≠ p))

/-- The list of nodes, none of them freed, for the registered procedures. -/
def nodes (l : List Nat) : List HNode := l.map fun p => ⟨p, true⟩

theorem remove_absent {p : Nat} : ∀ {l : List Nat}, p ∉ l → removeHandler p (nodes l) = some (nodes l)
  | [], _ => rfl
  | [q], h => by
    have : q ≠ p := fun e => h (by simp [e])
    simp [nodes, removeHandler, this]
  | q :: r :: l, h => by
    have hq : q ≠ p := fun e => h (by simp [e])
    have hr : r ≠ p := fun e => h (by simp [e])
    have ih := remove_absent (p := p) (l := r :: l) (fun m => h (List.mem_cons_of_mem _ m))
    simp only [nodes, List.map_cons] at ih ⊢
    rw [removeHandler.eq_def]
    simp only
    rw [if_pos trivial, if_neg hq, if_pos trivial, if_neg hr, ih]
    rfl

theorem remove_head {p : Nat} {l : List Nat} :
    removeHandler p (nodes (p :: l)) = some (nodes l) := by
  simp only [nodes, List.map_cons]
  rw [removeHandler.eq_def]
  simp

/-- A list in which some node was freed. -/
def HasDead (l : List HNode) : Prop := ∃ h, h ∈ l ∧ h.alive = false

theorem remove_inner {p : Nat} : ∀ {l : List Nat}, p ∈ l → l.head? ≠ some p →
    ∃ l', removeHandler p (nodes l) = some l' ∧ HasDead l'
  | [], h, _ => by simp at h
  | [q], h, hh => by simp at h hh; exact absurd h.symm hh
  | q :: r :: l, h, hh => by
    have hq : q ≠ p := fun e => hh (by simp [e])
    have hm : p ∈ r :: l := by
      rcases List.mem_cons.1 h with g | g
      · exact absurd g.symm hq
      · exact g
    simp only [nodes, List.map_cons]
    rw [removeHandler.eq_def]
    simp only
    rw [if_pos trivial, if_neg hq, if_pos trivial]
    by_cases hr : r = p
    · rw [if_pos hr]
      exact ⟨_, rfl, _, List.mem_cons_self, rfl⟩
    · rw [if_neg hr]
      obtain ⟨l', h1, h, h2, h3⟩ := remove_inner (l := r :: l) hm (by simpa using hr)
      simp only [nodes, List.map_cons] at h1
      rw [h1]
      exact ⟨_, rfl, h, List.mem_cons_of_mem _ h2, h3⟩

theorem remove_dead {p : Nat} : ∀ {l l' : List HNode}, HasDead l → removeHandler p l = some l' →
    HasDead l'
  | [], _, ⟨h, hm, _⟩, _ => by simp at hm
  | [q], l', ⟨h, hm, hd⟩, hr => by
    have : h = q := by simpa using hm
    subst this
    rw [removeHandler.eq_def] at hr
    simp [hd] at hr
  | q :: r :: l, l', ⟨h, hm, hd⟩, hr => by
    rw [removeHandler.eq_def] at hr
    simp only at hr
    by_cases hq : q.alive = true
    · rw [if_pos hq] at hr
      have hm' : h ∈ r :: l := by
        rcases List.mem_cons.1 hm with g | g
        · subst g; rw [hd] at hq; cases hq
        · exact g
      by_cases hp : q.proc = p
      · rw [if_pos hp] at hr
        cases hr
        exact ⟨h, hm', hd⟩
      · rw [if_neg hp] at hr
        by_cases hra : r.alive = true
        · rw [if_pos hra] at hr
          by_cases hrp : r.proc = p
          · rw [if_pos hrp] at hr
            cases hr
            exact ⟨_, List.mem_cons_self, rfl⟩
          · rw [if_neg hrp] at hr
            simp only [Option.map_eq_some_iff] at hr
            obtain ⟨m, h1, rfl⟩ := hr
            obtain ⟨x, hx, hxd⟩ := remove_dead ⟨h, hm', hd⟩ h1
            exact ⟨x, List.mem_cons_of_mem _ hx, hxd⟩
        · rw [if_neg hra] at hr; cases hr
    · rw [if_neg hq] at hr; cases hr

theorem call_dead : ∀ {l : List HNode}, HasDead l → callHandlers l = none
  | [], ⟨h, hm, _⟩ => by simp at hm
  | q :: l, ⟨h, hm, hd⟩ => by
    rw [callHandlers]
    by_cases hq : q.alive = true
    · rw [if_pos hq]
      have hm' : h ∈ l := by
        rcases List.mem_cons.1 hm with g | g
        · subst g; rw [hd] at hq; cases hq
        · exact g
      rw [call_dead ⟨h, hm', hd⟩]; rfl
    · rw [if_neg hq]

theorem procRun_dead : ∀ (cs : List (Bool × Nat)) {l : List HNode}, HasDead l →
    (procRun cs l).bind callHandlers = none
  | [], l, h => by simp [procRun, call_dead h]
  | (i, p) :: cs, l, h => by
    rw [procRun, cblProc]
    cases hr : removeHandler p l with
    | none => rfl
    | some l' =>
      have hd := remove_dead h hr
      simp only [Option.map_some, Option.bind_some]
      refine procRun_dead cs ?_
      cases i with
      | false => exact hd
      | true =>
        obtain ⟨x, hx, hxd⟩ := hd
        exact ⟨x, List.mem_cons_of_mem _ hx, hxd⟩

theorem call_nodes : ∀ l : List Nat, callHandlers (nodes l) = some l
  | [] => rfl
  | p :: l => by
    have := call_nodes l
    simp only [nodes, List.map_cons] at this ⊢
    rw [callHandlers, if_pos rfl, this]; rfl

theorem filter_absent {p : Nat} {l : List Nat} (h : p ∉ l) : l.filter (· ≠ p) = l := by
  rw [List.filter_eq_self]
  intro a ha
  simp only [ne_eq, decide_eq_true_eq]
  exact fun e => h (e ▸ ha)

theorem procRun_good : ∀ (cs : List (Bool × Nat)) (l : List Nat), l.Nodup → OnlyNewest cs l →
    procRun cs (nodes l) = some (nodes (registered cs l))
  | [], _, _, _ => rfl
  | (i, p) :: cs, l, hn, ⟨h1, h2⟩ => by
    have hr : removeHandler p (nodes l) = some (nodes (l.filter (· ≠ p))) := by
      rcases h1 with g | g
      · rw [filter_absent g]; exact remove_absent g
      · cases l with
        | nil => simp at g
        | cons q l =>
          simp only [List.head?_cons, Option.some.injEq] at g
          subst g
          rw [remove_head]
          have := filter_absent (List.nodup_cons.1 hn).1
          simp only [ne_eq, decide_not] at this
          simp [this]
    have hn' : (l.filter (· ≠ p)).Nodup := hn.filter _
    rw [procRun, cblProc, hr]
    simp only [Option.map_some, Option.bind_some]
    cases i with
    | false =>
      exact procRun_good cs _ hn' h2
    | true =>
      have := procRun_good cs (p :: l.filter (· ≠ p)) (List.nodup_cons.2 ⟨by simp, hn'⟩) h2
      simpa [nodes, registered] using this

theorem procRun_bad : ∀ (cs : List (Bool × Nat)) (l : List Nat), l.Nodup → ¬ OnlyNewest cs l →
    (procRun cs (nodes l)).bind callHandlers = none
  | [], _, _, h => absurd trivial h
  | (i, p) :: cs, l, hn, h => by
    by_cases h1 : p ∉ l ∨ l.head? = some p
    · have h2 : ¬ OnlyNewest cs (if i then p :: l.filter (· ≠ p) else l.filter (· ≠ p)) :=
        fun q => h ⟨h1, q⟩
      have hr := procRun_good [(false, p)] l hn ⟨h1, trivial⟩
      simp only [procRun, cblProc, registered] at hr
      have hr' : removeHandler p (nodes l) = some (nodes (l.filter (· ≠ p))) := by
        cases hx : removeHandler p (nodes l) with
        | none => rw [hx] at hr; simp at hr
        | some y => rw [hx] at hr; simpa using hr
      have hn' : (l.filter (· ≠ p)).Nodup := hn.filter _
      rw [procRun, cblProc, hr']
      simp only [Option.map_some, Option.bind_some]
      cases i with
      | false => exact procRun_bad cs _ hn' h2
      | true =>
        have := procRun_bad cs (p :: l.filter (· ≠ p)) (List.nodup_cons.2 ⟨by simp, hn'⟩) h2
        simpa [nodes] using this
    · have hm : p ∈ l := by
        by_contra q; exact h1 (Or.inl q)
      obtain ⟨l', h3, h4⟩ := remove_inner hm (fun q => h1 (Or.inr q))
      rw [procRun, cblProc, h3]
      simp only [Option.map_some, Option.bind_some]
      refine procRun_dead cs ?_
      cases i with
      | false => exact h4
      | true =>
        obtain ⟨x, hx, hxd⟩ := h4
        exact ⟨x, List.mem_cons_of_mem _ hx, hxd⟩

/-- After any calls of CBL_EXIT_PROC (CBL_ERROR_PROC), each naming the most recent handler or one
that is not registered, exactly the registered procedures are called at the end, the most recent
first; in all other histories the runtime reads a node it has freed. -/
theorem C33_procedures (calls : List (Bool × Nat)) :
    (OnlyNewest calls [] →
      (procRun calls []).bind callHandlers = some (registered calls [])) ∧
    (¬ OnlyNewest calls [] → (procRun calls []).bind callHandlers = none) := by
  constructor
  · intro h
    have := procRun_good calls [] List.nodup_nil h
    simp only [nodes, List.map_nil] at this
    rw [this]
    exact call_nodes _
  · intro h
    exact procRun_bad calls [] List.nodup_nil h

/-- What `registered` means: the procedures whose last call was an installation, each once. -/
theorem C33_registered (calls : List (Bool × Nat)) (p : Nat) :
    (registered calls []).Nodup ∧
    (p ∈ registered calls [] ↔ ∃ before after, calls = before ++ (true, p) :: after ∧
      ∀ i, (i, p) ∉ after) := by
  have gen : ∀ (cs : List (Bool × Nat)) (l : List Nat), l.Nodup →
      (registered cs l).Nodup ∧ (p ∈ registered cs l ↔
        ((p ∈ l ∧ ∀ i, (i, p) ∉ cs) ∨ ∃ before after, cs = before ++ (true, p) :: after ∧
          ∀ i, (i, p) ∉ after)) := by
    intro cs
    induction cs with
    | nil => intro l hl; exact ⟨hl, by simp [registered]⟩
    | cons c cs ih =>
      intro l hl
      obtain ⟨i, q⟩ := c
      have hn : (if i then q :: l.filter (· ≠ q) else l.filter (· ≠ q)).Nodup := by
        cases i
        · exact hl.filter _
        · exact List.nodup_cons.2 ⟨by simp, hl.filter _⟩
      obtain ⟨h1, h2⟩ := ih _ hn
      refine ⟨h1, ?_⟩
      rw [registered, h2]
      constructor
      · rintro (⟨h3, h4⟩ | ⟨b, a, h5, h6⟩)
        · by_cases hq : p = q
          · subst hq
            cases i with
            | false => simp at h3
            | true => exact Or.inr ⟨[], cs, rfl, h4⟩
          · left
            have : p ∈ l := by
              cases i <;> simp [hq] at h3 <;> exact h3
            refine ⟨this, fun j hj => ?_⟩
            rcases List.mem_cons.1 hj with g | g
            · cases g; exact hq rfl
            · exact h4 j g
        · exact Or.inr ⟨(i, q) :: b, a, by simp [h5], h6⟩
      · rintro (⟨h3, h4⟩ | ⟨b, a, h5, h6⟩)
        · have hq : p ≠ q := fun e => h4 i (by simp [e])
          left
          refine ⟨?_, fun j hj => h4 j (List.mem_cons_of_mem _ hj)⟩
          cases i <;> simp [hq, h3]
        · cases b with
          | nil =>
            simp only [List.nil_append, List.cons.injEq, Prod.mk.injEq] at h5
            obtain ⟨⟨rfl, rfl⟩, rfl⟩ := h5
            exact Or.inl ⟨by simp, h6⟩
          | cons x b =>
            simp only [List.cons_append, List.cons.injEq] at h5
            exact Or.inr ⟨b, a, h5.2, h6⟩
  simpa using gen calls [] List.nodup_nil

/-- The codes of the first parameter: a procedure is registered with CBL_EXIT_PROC exactly when the
last call that names it has code 0, 2 or 3; with CBL_ERROR_PROC when it has code 0. -/
theorem C33_codes (calls : List (Nat × Nat)) (p : Nat) :
    (p ∈ registered (calls.map fun c => (exitInstalls c.1, c.2)) [] ↔
      ∃ before after x, calls = before ++ (x, p) :: after ∧ (x = 0 ∨ x = 2 ∨ x = 3) ∧
        ∀ c ∈ after, c.2 ≠ p) ∧
    (p ∈ registered (calls.map fun c => (errorInstalls c.1, c.2)) [] ↔
      ∃ before after, calls = before ++ (0, p) :: after ∧ ∀ c ∈ after, c.2 ≠ p) := by
  have gen : ∀ g : Nat → Bool,
      (p ∈ registered (calls.map fun c => (g c.1, c.2)) [] ↔
        ∃ before after x, calls = before ++ (x, p) :: after ∧ g x = true ∧ ∀ c ∈ after, c.2 ≠ p) := by
    intro g
    rw [(C33_registered _ p).2]
    constructor
    · rintro ⟨b, a, h1, h2⟩
      obtain ⟨b', r, rfl, hb, hr⟩ := List.map_eq_append_iff.1 h1
      obtain ⟨c, a', rfl, hc, ha⟩ := List.map_eq_cons_iff.1 hr
      obtain ⟨x, q⟩ := c
      simp only [Prod.mk.injEq] at hc
      obtain ⟨hx, rfl⟩ := hc
      refine ⟨b', a', x, rfl, hx, ?_⟩
      intro c hc he
      apply h2 (g c.1)
      rw [← ha, ← he]
      exact List.mem_map.2 ⟨c, hc, rfl⟩
    · rintro ⟨b, a, x, rfl, hx, h⟩
      refine ⟨b.map fun c => (g c.1, c.2), a.map fun c => (g c.1, c.2), ?_, ?_⟩
      · simp [hx]
      · intro i hi
        obtain ⟨c, hc, he⟩ := List.mem_map.1 hi
        exact h c hc (Prod.mk.inj he).2
  constructor
  · rw [gen]
    simp only [exitInstalls, Bool.or_eq_true, beq_iff_eq, or_assoc]
  · rw [gen]
    simp only [errorInstalls, beq_iff_eq]
    constructor
    · rintro ⟨b, a, x, h1, rfl, h2⟩; exact ⟨b, a, h1, h2⟩
    · rintro ⟨b, a, h1, h2⟩; exact ⟨b, a, 0, h1, rfl, h2⟩

example : OnlyNewest [(true, 1), (true, 2), (false, 2), (true, 3)] [] := by simp [OnlyNewest]
example : (procRun [(true, 1), (true, 2), (false, 2), (true, 3)] []).bind callHandlers =
    some [3, 1] := by decide

/-- Removing a handler that is not the most recent one frees the wrong node: after installing 1 and
2 and removing 1, the end of the run uses freed storage (handler 2 should be called). -/
theorem C33_finding_use_after_free :
    (procRun [(true, 1), (true, 2), (false, 1)] []).bind callHandlers = none ∧
    registered [(true, 1), (true, 2), (false, 1)] [] = [2] := by decide

/-! ### C35 -/

/-- The reference `(offset : length)` of an item of `size` characters stays inside the item. -/
def InsideItem (offset length size : Int) : Prop :=
  1 ≤ offset ∧ 1 ≤ length ∧ offset + length - 1 ≤ size

/-- Subscripts and ODO items are accepted exactly when they are in range. -/
theorem C35_range (i min max : Int) : checkRange i min max = true ↔ min ≤ i ∧ i ≤ max := by
  unfold checkRange
  simp

/-- The reference modification check accepts exactly the references inside the item, whenever
`offset + length` does not exceed 2^31. -/
theorem C35_ref_mod (offset length size : Int) (hs : size ≤ 2147483647)
    (ho : -2147483648 ≤ offset) (hl : length ≤ 2147483647) (h : offset + length ≤ 2147483648) :
    checkRefMod false offset length size = true ↔ InsideItem offset length size := by
  unfold checkRefMod InsideItem
  simp only [Bool.false_or, Bool.and_eq_true, Bool.not_eq_true', Bool.or_eq_false_iff,
    decide_eq_false_iff_not]
  unfold wrap32
  omega

/-- For all 32-bit arguments: a reference inside the item is accepted, and an accepted reference is
inside the item unless `offset + length` exceeds 2^31. -/
theorem C35_ref_mod_all (offset length size : Int) (hs : size ≤ 2147483647)
    (ho : -2147483648 ≤ offset ∧ offset ≤ 2147483647)
    (hl : -2147483648 ≤ length ∧ length ≤ 2147483647) :
    (InsideItem offset length size → checkRefMod false offset length size = true) ∧
    (checkRefMod false offset length size = true →
      InsideItem offset length size ∨
      (1 ≤ offset ∧ offset ≤ size ∧ 2147483648 < offset + length)) := by
  unfold checkRefMod InsideItem
  simp only [Bool.false_or, Bool.and_eq_true, Bool.not_eq_true', Bool.or_eq_false_iff,
    decide_eq_false_iff_not]
  unfold wrap32
  omega

example : checkRefMod false 3 4 6 = true ∧ checkRefMod false 3 5 6 = false ∧
    checkRefMod false 0 1 6 = false := by decide

/-- The sum `offset + length - 1` wraps around: the reference (2 : 2147483647) of an item of ten
characters is accepted. -/
theorem C35_finding_ref_mod : checkRefMod false 2 2147483647 10 = true ∧
    ¬ InsideItem 2 2147483647 10 := by
  refine ⟨by decide, ?_⟩
  unfold InsideItem; omega

/-- National items: the compiler passes `2 * position - 1` and `2 * length` bytes; the check
accepts exactly the references whose characters are inside the item. -/
theorem C35_ref_mod_national (position length size : Int)
    (hs : 0 ≤ size ∧ size ≤ 2147483647)
    (hp : -1000000000 ≤ position ∧ position ≤ 1000000000)
    (hl : -1000000000 ≤ length ∧ length ≤ 1000000000) :
    checkRefModNational false (2 * position - 1) (2 * length) (2 * size) = true ↔
      InsideItem position length size := by
  unfold checkRefModNational InsideItem
  have e1 : (wrap32 (2 * position - 1 + 1)).tdiv 2 = position := by
    rw [wrap32_id (by omega) (by omega),
      show 2 * position - 1 + 1 = 2 * position by omega]
    exact Int.mul_tdiv_cancel_left position (by omega)
  have e2 : (2 * length).tdiv 2 = length := Int.mul_tdiv_cancel_left length (by omega)
  have e3 : (2 * size).tdiv 2 = size := Int.mul_tdiv_cancel_left size (by omega)
  simp only [e1, e2, e3]
  simp only [Bool.false_or, Bool.and_eq_true, Bool.not_eq_true', Bool.or_eq_false_iff,
    decide_eq_false_iff_not]
  unfold wrap32
  omega

example : checkRefModNational false (2 * 2 - 1) (2 * 2) (2 * 3) = true := by decide

end Cob
