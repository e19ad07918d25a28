import Verif.Rt.LifeSpec
/-
C81: proofs (simulation).
-/
namespace Cob.Life

/-- `module.next` can be followed `n - 1` times. -/
def Walk (next : Nat → Option Nat) : Nat → Option Nat → Prop
  | 0, _ => True
  | _ + 1, none => False
  | n + 1, some x => Walk next n (next x)

theorem Walk.le {next : Nat → Option Nat} : ∀ {n k : Nat} {c : Option Nat}, k ≤ n → Walk next n c → Walk next k c
  | _, 0, _, _, _ => trivial
  | 0, _ + 1, _, h, _ => by omega
  | n + 1, k + 1, none, _, hw => hw
  | n + 1, k + 1, some x, h, hw => Walk.le (n := n) (k := k) (by omega) hw

theorem walk_set (next next' : Nat → Option Nat) (q : Nat) (c : Option Nat) (n : Nat) (hc : Walk next n c)
    (hq : next' q = c) (ho : ∀ x, x ≠ q → next' x = next x) :
    ∀ k, k ≤ n → ∀ x, Walk next k x → Walk next' k x
  | 0, _, _, _ => trivial
  | k + 1, hk, none, h => h
  | k + 1, hk, some x, h => by
    show Walk next' k (next' x)
    by_cases hx : x = q
    · rw [hx, hq]
      exact walk_set next next' q c n hc hq ho k (by omega) c (Walk.le (by omega) hc)
    · rw [ho x hx]
      exact walk_set next next' q c n hc hq ho k (by omega) _ h

theorem walk_same (next next' : Nat → Option Nat) (h : ∀ x, next' x = next x) (n : Nat) (c : Option Nat)
    (hw : Walk next n c) : Walk next' n c := by
  rwa [show next' = next from funext h]

/-- What ties the two runs together for one program. -/
structure Tie (P : Nat → Prog) (r : Rt) (s : Ideal) (m q : Nat) : Prop where
  idle : s.data q = none → (r.unit q).inited = false
  used : ∀ d, s.data q = some d → (r.unit q).inited = true ∧ (r.unit q).ws = d.ws ∧ (r.unit q).rc = d.rc ∧
    (r.unit q).opened = d.opened
  held : (P q).initial = false → ∀ i, (q, i) ∈ r.handles ↔ i ∈ (s.get P q).opened
  reg : q ≠ m → (r.unit q).inited = true → (r.unit q).registered = true ∧ (r.unit q).next ≠ none

/-- The relation between the run and the ideal run. -/
structure Sim (P : Nat → Prog) (m : Nat) (r : Rt) (s : Ideal) : Prop where
  frames : r.frames = s.stack
  tie : ∀ q, Tie P r s m q
  walk : Walk (fun x => (r.unit x).next) r.frames.length r.current
  first : (r.unit m).next = none
  bottom : r.frames = [] ∨ ∃ up l, r.frames = up ++ [(m, l)] ∧ ∀ x ∈ up, x.1 ≠ m
  live : ∀ x ∈ s.stack, s.data x.1 ≠ none

theorem set_same (r : Rt) (q : Nat) (u : Static) : (r.set q u).unit q = u := by simp [Rt.set]
theorem set_other (r : Rt) (q : Nat) (u : Static) (x : Nat) (h : x ≠ q) : (r.set q u).unit x = r.unit x := by simp [Rt.set, h]
theorem set_id (r : Rt) (q : Nat) : r.set q (r.unit q) = r := by
  have : (fun x => if x = q then r.unit q else r.unit x) = r.unit := by
    funext x
    by_cases hx : x = q
    · rw [if_pos hx, hx]
    · rw [if_neg hx]
  unfold Rt.set
  rw [this]
theorem put_same (s : Ideal) (q : Nat) (d : Option Data) : (s.put q d).data q = d := by simp [Ideal.put]
theorem put_other (s : Ideal) (q : Nat) (d : Option Data) (x : Nat) (h : x ≠ q) : (s.put q d).data x = s.data x := by
  simp [Ideal.put, h]

theorem get_some (P : Nat → Prog) (s : Ideal) (q : Nat) (d : Data) (h : s.data q = some d) : s.get P q = d := by
  simp [Ideal.get, h]

/-- A change of the storage of one program that leaves `module.next` and the flags alone. -/
theorem sim_change {P : Nat → Prog} {m : Nat} {r : Rt} {s : Ideal} (h : Sim P m r s) (p : Nat) (d : Data) (hd : s.data p = some d)
    (d' : Data) (u : Static) (hs : List (Nat × Nat))
    (hu : u = { r.unit p with ws := d'.ws, rc := d'.rc, opened := d'.opened })
    (h1 : (P p).initial = false → ∀ i, (p, i) ∈ hs ↔ i ∈ d'.opened)
    (h2 : ∀ q i, q ≠ p → ((q, i) ∈ hs ↔ (q, i) ∈ r.handles)) :
    Sim P m { r.set p u with handles := hs } (s.put p (some d')) := by
  have hn : ∀ x, ((r.set p u).unit x).next = (r.unit x).next := by
    intro x
    by_cases hx : x = p
    · rw [hx, set_same, hu]
    · rw [set_other _ _ _ _ hx]
  refine ⟨h.frames, ?_, ?_, ?_, h.bottom, ?_⟩
  · intro q
    by_cases hq : q = p
    · subst hq
      have t := h.tie q
      refine ⟨?_, ?_, ?_, ?_⟩
      · intro h'; simp [put_same] at h'
      · intro e he
        rw [put_same] at he
        cases he
        show ((r.set q u).unit q).inited = true ∧ _
        have := (t.used d hd).1
        simp only [set_same, hu, this, and_self]
      · intro hi i
        rw [get_some P _ q d' (put_same _ _ _)]
        exact h1 hi i
      · intro hm hi
        have hi' : ((r.set q u).unit q).inited = true := hi
        show ((r.set q u).unit q).registered = true ∧ ((r.set q u).unit q).next ≠ none
        rw [set_same, hu] at hi' ⊢
        exact t.reg hm hi'
    · have t := h.tie q
      have e1 : ({ r.set p u with handles := hs } : Rt).unit q = r.unit q := set_other _ _ _ _ hq
      have e2 : (s.put p (some d')).data q = s.data q := put_other _ _ _ _ hq
      refine ⟨?_, ?_, ?_, ?_⟩
      · rw [e1, e2]; exact t.idle
      · rw [e1, e2]; exact t.used
      · intro hi i
        have : (s.put p (some d')).get P q = s.get P q := by unfold Ideal.get; rw [e2]
        rw [this]
        exact (h2 q i hq).trans (t.held hi i)
      · rw [e1]; exact t.reg
  · exact walk_same _ _ hn _ _ h.walk
  · show ((r.set p u).unit m).next = none
    rw [hn]; exact h.first
  · intro x hx
    by_cases hq : x.1 = p
    · rw [hq, put_same]; simp
    · rw [put_other _ _ _ _ hq]; exact h.live x hx

theorem live_some {P : Nat → Prog} {m : Nat} {r : Rt} {s : Ideal} (h : Sim P m r s) {p : Nat} {l : List Nat}
    {rest : List (Nat × List Nat)} (hs : s.stack = (p, l) :: rest) : ∃ d, s.data p = some d := by
  have := h.live (p, l) (by rw [hs]; exact List.mem_cons_self)
  exact Option.ne_none_iff_exists'.1 this

/-- CALL. -/
theorem sim_enter {P : Nat → Prog} {m : Nat} (hm : ∀ q, q ≠ m → (P q).main = false) {r : Rt} {s : Ideal} (h : Sim P m r s)
    (q : Nat) (hq : q ≠ m) (hne : r.frames ≠ []) : Sim P m (enter P q r) (s.enter P q) := by
  have hcur : r.current ≠ none := by
    intro hc
    have hw := h.walk
    rw [hc] at hw
    cases hf : r.frames with
    | nil => exact hne hf
    | cons a b => rw [hf] at hw; exact hw
  obtain ⟨u, hu⟩ : ∃ u, (enter P q r).unit q = u := ⟨_, rfl⟩
  have hother : ∀ x, x ≠ q → (enter P q r).unit x = r.unit x := by
    intro x hx
    unfold enter
    exact set_other _ _ _ _ hx
  have t := h.tie q
  -- what the entry makes of the static storage
  have hval : u.inited = true ∧ u.registered = true ∧ u.next = r.current ∧
      (⟨u.ws, u.rc, u.opened⟩ : Data) = (if (P q).initial then .initial (P q) else s.get P q) := by
    rw [← hu]
    unfold enter
    have e : ∀ (a : Static) (c : Option Nat) (f : List (Nat × List Nat)),
        ({ r.set q a with current := c, frames := f } : Rt).unit q = a := by
      intro a c f; exact set_same _ _ _
    rw [e]
    cases hd : s.data q with
    | none =>
      have hi := t.idle hd
      have hg : s.get P q = .initial (P q) := by simp [Ideal.get, hd]
      rw [hg]
      cases hp : (P q).initial <;> simp [hi, hm q hq, hcur, fresh, Data.initial]
    | some d =>
      obtain ⟨hi, hw, hr, ho⟩ := t.used d hd
      obtain ⟨hreg, _⟩ := t.reg hq hi
      rw [get_some P s q d hd]
      cases hp : (P q).initial <;> simp [hi, fresh, Data.initial, hreg, hw, hr, ho]
  obtain ⟨v1, v2, v3, v4⟩ := hval
  have hput : ∀ x, x ≠ q → (s.enter P q).data x = s.data x := by
    intro x hx
    unfold Ideal.enter
    exact put_other _ _ _ _ hx
  have hputq : (s.enter P q).data q = some (if (P q).initial then .initial (P q) else s.get P q) := by
    unfold Ideal.enter
    exact put_same _ _ _
  have hfr : (enter P q r).frames = (q, (P q).ls0) :: r.frames := rfl
  have hha : (enter P q r).handles = r.handles := rfl
  refine ⟨?_, ?_, ?_, ?_, ?_, ?_⟩
  · rw [hfr, h.frames]; rfl
  · intro x
    by_cases hx : x = q
    · subst hx
      refine ⟨?_, ?_, ?_, ?_⟩
      · rw [hputq]; simp
      · intro d hd
        rw [hputq] at hd
        cases hd
        rw [hu]
        rw [← v4]
        exact ⟨v1, rfl, rfl, rfl⟩
      · intro hi i
        rw [hha, t.held hi i]
        have : (s.enter P x).get P x = s.get P x := by
          unfold Ideal.get
          rw [hputq, hi]
          rfl
        rw [this]
      · intro _ _
        rw [hu]
        exact ⟨v2, by rw [v3]; exact hcur⟩
    · have tx := h.tie x
      refine ⟨?_, ?_, ?_, ?_⟩
      · rw [hput x hx, hother x hx]; exact tx.idle
      · rw [hput x hx, hother x hx]; exact tx.used
      · intro hi i
        have : (s.enter P q).get P x = s.get P x := by unfold Ideal.get; rw [hput x hx]
        rw [this, hha]
        exact tx.held hi i
      · rw [hother x hx]; exact tx.reg
  · rw [hfr]
    show Walk _ _ ((enter P q r).unit q).next
    rw [hu, v3]
    refine walk_set (fun x => (r.unit x).next) _ q r.current r.frames.length h.walk ?_ ?_ r.frames.length (Nat.le_refl _) _ h.walk
    · show ((enter P q r).unit q).next = _
      rw [hu, v3]
    · intro x hx
      show ((enter P q r).unit x).next = _
      rw [hother x hx]
  · rw [hother m (fun e => hq e.symm)]; exact h.first
  · right
    rcases h.bottom with hb | ⟨up, l, hb, hup⟩
    · exact absurd hb hne
    · refine ⟨(q, (P q).ls0) :: up, l, by rw [hfr, hb]; rfl, ?_⟩
      intro x hx
      rcases List.mem_cons.1 hx with hx | hx
      · rw [hx]; exact hq
      · exact hup x hx
  · intro x hx
    have hx' : x ∈ (q, (P q).ls0) :: s.stack := hx
    by_cases hxq : x.1 = q
    · rw [hxq, hputq]; simp
    · rw [hput _ hxq]
      rcases List.mem_cons.1 hx' with h' | h'
      · rw [h'] at hxq; exact absurd rfl hxq
      · exact h.live x h'

/-- Return. -/
theorem sim_leave {P : Nat → Prog} {m : Nat} {r : Rt} {s : Ideal} (h : Sim P m r s) (hne : r.frames ≠ []) :
    Sim P m (leave r) (s.leave P) := by
  have hf := h.frames
  cases hs : s.stack with
  | nil => rw [hs] at hf; exact absurd hf hne
  | cons a rest =>
    obtain ⟨p, l⟩ := a
    rw [hs] at hf
    have hwalk : Walk (fun x => (r.unit x).next) rest.length (r.current.bind (fun m => (r.unit m).next)) := by
      have hw := h.walk
      rw [hf] at hw
      cases hc : r.current with
      | none => rw [hc] at hw; exact absurd hw (by intro h; exact h)
      | some c => rw [hc] at hw; exact hw
    have hbot : rest = [] ∨ ∃ up l, rest = up ++ [(m, l)] ∧ ∀ x ∈ up, x.1 ≠ m := by
      rcases h.bottom with hb | ⟨up, l', hb, hup⟩
      · exact absurd hb hne
      · rw [hf] at hb
        cases up with
        | nil => left; simpa using (List.cons.inj hb).2
        | cons y up =>
          right
          refine ⟨up, l', (List.cons.inj hb).2, fun x hx => hup x (List.mem_cons_of_mem _ hx)⟩
    have base : Sim P m { r with current := r.current.bind (fun m => (r.unit m).next), frames := rest } { s with stack := rest } := by
      refine ⟨rfl, ?_, hwalk, h.first, hbot, ?_⟩
      · intro q
        have t := h.tie q
        exact ⟨t.idle, t.used, t.held, t.reg⟩
      · intro x hx
        exact h.live x (by rw [hs]; exact List.mem_cons_of_mem _ hx)
    cases rest with
    | nil =>
      have e1 : leave r = { r with current := r.current.bind (fun m => (r.unit m).next), frames := [] } := by
        unfold leave; rw [hf]
      have e2 : s.leave P = { s with stack := [] } := by
        unfold Ideal.leave; rw [hs]
      rw [e1, e2]
      exact base
    | cons b rest =>
      obtain ⟨c, lc⟩ := b
      obtain ⟨dp, hdp⟩ := live_some h hs
      obtain ⟨dc, hdc⟩ : ∃ d, s.data c = some d := by
        have := h.live (c, lc) (by rw [hs]; simp)
        exact Option.ne_none_iff_exists'.1 this
      have up := (h.tie p).used dp hdp
      have uc := (h.tie c).used dc hdc
      have := sim_change base c dc hdc { dc with rc := dp.rc } { r.unit c with rc := (r.unit p).rc } r.handles
        (by rw [up.2.2.1, ← uc.2.1, ← uc.2.2.2])
        (by intro hi i
            have := (h.tie c).held hi i
            rw [get_some P s c dc hdc] at this
            exact this)
        (by intro q i _; exact Iff.rfl)
      have e1 : leave r = { ({ r with current := r.current.bind (fun m => (r.unit m).next), frames := (c, lc) :: rest } : Rt).set c
          { r.unit c with rc := (r.unit p).rc } with handles := r.handles } := by
        unfold leave; rw [hf]; rfl
      have e2 : s.leave P = ({ s with stack := (c, lc) :: rest } : Ideal).put c (some { dc with rc := dp.rc }) := by
        unfold Ideal.leave; rw [hs]; dsimp only
        rw [get_some P s c dc hdc, get_some P s p dp hdp]
        rfl
      rw [e1, e2]
      exact this

/-- CANCEL of a program that is not active. -/
theorem sim_cancel {P : Nat → Prog} {m : Nat} {r : Rt} {s : Ideal} (h : Sim P m r s) (q : Nat) (hact : ¬ s.Active q) (hqm : q ≠ m) :
    Sim P m (cancel q r) (s.put q none) := by
  have t := h.tie q
  have hlive : ∀ x ∈ s.stack, x.1 ≠ q := by
    intro x hx e
    exact hact ⟨x.2, by rw [← e]; exact hx⟩
  by_cases hi : (r.unit q).inited = true
  · obtain ⟨hreg, hnext⟩ := t.reg hqm hi
    have hd : ∃ d, s.data q = some d := by
      cases hd : s.data q with
      | none => rw [t.idle hd] at hi; cases hi
      | some d => exact ⟨d, rfl⟩
    obtain ⟨d, hd⟩ := hd
    have hop := (t.used d hd).2.2.2
    have e : cancel q r = { r.set q { r.unit q with inited := false, opened := [] } with
        handles := r.handles.filter (fun h => !(h.1 == q && (r.unit q).opened.contains h.2)) } := by
      unfold cancel
      dsimp only
      rw [if_neg (by rw [hreg, hi]; decide)]
    rw [e]
    have hn : ∀ x, ((r.set q { r.unit q with inited := false, opened := [] }).unit x).next = (r.unit x).next := by
      intro x
      by_cases hx : x = q
      · rw [hx, set_same]
      · rw [set_other _ _ _ _ hx]
    refine ⟨h.frames, ?_, ?_, ?_, h.bottom, ?_⟩
    · intro x
      by_cases hx : x = q
      · subst hx
        refine ⟨?_, ?_, ?_, ?_⟩
        · intro _
          show ((r.set x _).unit x).inited = false
          rw [set_same]
        · intro d' hd'
          rw [put_same] at hd'; cases hd'
        · intro hini i
          have hg : (s.put x none).get P x = .initial (P x) := by unfold Ideal.get; rw [put_same]; rfl
          rw [hg]
          simp only [Data.initial, List.not_mem_nil, iff_false]
          intro hmem
          have hmem := List.mem_filter.1 hmem
          have h2 := (t.held hini i).1 hmem.1
          rw [get_some P s x d hd] at h2
          have h3 := hmem.2
          rw [hop] at h3
          simp [h2] at h3
        · intro _ h'
          have h'' : ((r.set x { r.unit x with inited := false, opened := [] }).unit x).inited = true := h'
          rw [set_same] at h''
          cases h''
      · have tx := h.tie x
        have e1 : ({ r.set q { r.unit q with inited := false, opened := [] } with
            handles := r.handles.filter (fun h => !(h.1 == q && (r.unit q).opened.contains h.2)) } : Rt).unit x = r.unit x :=
          set_other _ _ _ _ hx
        have e2 : (s.put q none).data x = s.data x := put_other _ _ _ _ hx
        refine ⟨?_, ?_, ?_, ?_⟩
        · rw [e1, e2]; exact tx.idle
        · rw [e1, e2]; exact tx.used
        · intro hini i
          have : (s.put q none).get P x = s.get P x := by unfold Ideal.get; rw [e2]
          rw [this, ← tx.held hini i]
          show (x, i) ∈ List.filter _ _ ↔ _
          rw [List.mem_filter]
          simp [hx]
        · rw [e1]; exact tx.reg
    · exact walk_same _ _ hn _ _ h.walk
    · show ((r.set q _).unit m).next = none
      rw [hn]; exact h.first
    · intro x hx
      rw [put_other _ _ _ _ (hlive x hx)]
      exact h.live x hx
  · have hi' : (r.unit q).inited = false := by simpa using hi
    have e : cancel q r = r := by
      unfold cancel; dsimp only; rw [if_pos (.inr hi')]
    have hd : s.data q = none := by
      cases hd : s.data q with
      | none => rfl
      | some d => rw [(t.used d hd).1] at hi'; cases hi'
    have e2 : s.put q none = s := by
      unfold Ideal.put
      cases s with
      | mk data stack =>
        congr 1
        funext x
        by_cases hx : x = q
        · rw [if_pos hx, hx]; exact hd.symm
        · rw [if_neg hx]
    rw [e, e2]
    exact h

/-- One event. -/
theorem sim_step {P : Nat → Prog} {m : Nat} (hm : ∀ q, q ≠ m → (P q).main = false) {r : Rt} {s : Ideal} (h : Sim P m r s)
    (e : Ev) (hcall : e ≠ .call m) (hcan : CancelsIdle s e) : Sim P m (step P r e) (s.step P e) := by
  have hf := h.frames
  cases hs : s.stack with
  | nil =>
    rw [hs] at hf
    have e1 : step P r e = r := by unfold step; rw [hf]
    have e2 : s.step P e = s := by unfold Ideal.step; rw [hs]
    rw [e1, e2]; exact h
  | cons a rest =>
    obtain ⟨p, l⟩ := a
    rw [hs] at hf
    have hne : r.frames ≠ [] := by rw [hf]; simp
    obtain ⟨d, hd⟩ := live_some h hs
    have hg := get_some P s p d hd
    have hu := (h.tie p).used d hd
    have hheld : (P p).initial = false → ∀ i, (p, i) ∈ r.handles ↔ i ∈ d.opened := by
      intro hi i
      rw [(h.tie p).held hi i, hg]
    unfold step Ideal.step
    rw [hf, hs]
    dsimp only
    cases e with
    | setWs w =>
      dsimp only
      rw [hg]
      refine sim_change h p d hd { d with ws := w } _ r.handles ?_ hheld (fun _ _ _ => Iff.rfl)
      rw [← hu.2.2.1, ← hu.2.2.2]
    | setRc n =>
      dsimp only
      rw [hg]
      refine sim_change h p d hd { d with rc := n } _ r.handles ?_ hheld (fun _ _ _ => Iff.rfl)
      rw [← hu.2.1, ← hu.2.2.2]
    | setLs w =>
      dsimp only
      refine ⟨rfl, ?_, ?_, h.first, ?_, ?_⟩
      · intro q
        have t := h.tie q
        exact ⟨t.idle, t.used, t.held, t.reg⟩
      · have := h.walk
        rw [hf] at this
        exact this
      · right
        rcases h.bottom with hb | ⟨up, l', hb, hup⟩
        · exact absurd hb hne
        · rw [hf] at hb
          cases up with
          | nil =>
            have := List.cons.inj hb
            refine ⟨[], w, ?_, by simp⟩
            have h1 : p = m := congrArg Prod.fst this.1
            rw [h1, this.2]; rfl
          | cons y up =>
            have := List.cons.inj hb
            refine ⟨(p, w) :: up, l', by rw [this.2]; rfl, ?_⟩
            intro x hx
            rcases List.mem_cons.1 hx with hx | hx
            · rw [hx]
              have h1 := hup y List.mem_cons_self
              rw [← this.1] at h1
              exact h1
            · exact hup x (List.mem_cons_of_mem _ hx)
      · intro x hx
        rcases List.mem_cons.1 hx with hx | hx
        · rw [hx]; exact h.live (p, l) (by rw [hs]; simp)
        · exact h.live x (by rw [hs]; simp [hx])
    | openF i =>
      dsimp only
      rw [hg, hu.2.2.2]
      by_cases hi : i ∈ d.opened
      · rw [if_pos hi, if_pos hi]; exact h
      · rw [if_neg hi, if_neg hi]
        refine sim_change h p d hd { d with opened := i :: d.opened } _ _ ?_ ?_ ?_
        · rw [← hu.2.1, ← hu.2.2.1]
        · intro hini j
          have := hheld hini j
          simp only [List.mem_cons, Prod.mk.injEq, true_and]
          rw [this]
        · intro q j hq
          simp [hq]
    | closeF i =>
      dsimp only
      rw [hg, hu.2.2.2]
      by_cases hi : i ∈ d.opened
      · rw [if_pos hi]
        refine sim_change h p d hd { d with opened := d.opened.filter (· != i) } _ _ ?_ ?_ ?_
        · rw [← hu.2.1, ← hu.2.2.1]; rfl
        · intro hini j
          have := hheld hini j
          rw [List.mem_filter, List.mem_filter, this]
          simp
        · intro q j hq
          rw [List.mem_filter]
          simp [hq]
      · rw [if_neg hi]
        have e2 : d.opened.filter (· != i) = d.opened := by
          rw [List.filter_eq_self]
          intro a ha
          simp only [bne_iff_ne, ne_eq]
          intro hai
          exact hi (hai ▸ ha)
        rw [e2]
        have := sim_change h p d hd d { r.unit p with ws := d.ws, rc := d.rc, opened := d.opened } r.handles rfl hheld
          (fun _ _ _ => Iff.rfl)
        have e3 : ({ r.unit p with ws := d.ws, rc := d.rc, opened := d.opened } : Static) = r.unit p := by
          rw [← hu.2.1, ← hu.2.2.1, ← hu.2.2.2]
        rw [e3] at this
        have e4 : ({ r.set p (r.unit p) with handles := r.handles } : Rt) = r := by
          rw [set_id]
        rw [e4] at this
        exact this
    | call q =>
      dsimp only
      exact sim_enter hm h q (fun e => hcall (by rw [e])) hne
    | cancel q =>
      dsimp only
      refine sim_cancel h q (hcan q rfl) ?_
      intro hqm
      rcases h.bottom with hb | ⟨up, l', hb, _⟩
      · exact hne hb
      · apply hcan q rfl
        refine ⟨l', ?_⟩
        rw [← h.frames, hb, hqm]
        simp
    | goback =>
      dsimp only
      exact sim_leave h hne
    | exitProgram =>
      dsimp only
      have key : ((P p).implicit = true ∨ (r.unit p).next ≠ none) ↔ ((P p).implicit = true ∨ rest ≠ []) := by
        have : (r.unit p).next ≠ none ↔ rest ≠ [] := by
          rcases h.bottom with hb | ⟨up, l', hb, hup⟩
          · exact absurd hb hne
          · rw [hf] at hb
            cases up with
            | nil =>
              have := List.cons.inj hb
              have h1 : p = m := congrArg Prod.fst this.1
              rw [this.2, h1]
              constructor
              · intro hx; exact absurd h.first hx
              · intro hx; exact absurd rfl hx
            | cons y up =>
              have := List.cons.inj hb
              have hpm : p ≠ m := by
                have h1 := hup y List.mem_cons_self
                rw [← this.1] at h1
                exact h1
              constructor
              · intro _; rw [this.2]; simp
              · intro _
                exact ((h.tie p).reg hpm hu.1).2
        rw [this]
      by_cases hk : (P p).implicit = true ∨ rest ≠ []
      · rw [if_pos hk, if_pos (key.2 hk)]
        exact sim_leave h hne
      · rw [if_neg hk, if_neg (fun hx => hk (key.1 hx))]
        exact h

/-- The start. -/
theorem sim_start (P : Nat → Prog) (m : Nat) : Sim P m (enter P m blank) (Ideal.enter P ⟨fun _ => none, []⟩ m) := by
  have e1 : ∀ x, x ≠ m → (enter P m blank).unit x = {} := by
    intro x hx
    unfold enter
    exact set_other _ _ _ _ hx
  have e2 : ∀ x, x ≠ m → (Ideal.enter P ⟨fun _ => none, []⟩ m).data x = none := by
    intro x hx
    unfold Ideal.enter
    exact put_other _ _ _ _ hx
  have e3 : (Ideal.enter P ⟨fun _ => none, []⟩ m).data m = some (.initial (P m)) := by
    unfold Ideal.enter
    rw [put_same]
    simp [Ideal.get]
  have e4 : (enter P m blank).unit m = { inited := true, registered := !(P m).main && (P m).implicit, ws := (P m).ws0 } := by
    unfold enter
    refine (set_same _ _ _).trans ?_
    cases h1 : (P m).main <;> cases h2 : (P m).implicit <;> cases h3 : (P m).initial <;> simp [blank, fresh]
  refine ⟨rfl, ?_, ?_, ?_, ?_, ?_⟩
  · intro q
    by_cases hq : q = m
    · subst hq
      refine ⟨?_, ?_, ?_, ?_⟩
      · rw [e3]; simp
      · intro d hd
        rw [e3] at hd
        cases hd
        rw [e4]
        exact ⟨rfl, rfl, rfl, rfl⟩
      · intro _ i
        rw [get_some P _ _ _ e3]
        simp [Data.initial, enter, Rt.set, blank]
      · intro h; exact absurd rfl h
    · refine ⟨?_, ?_, ?_, ?_⟩
      · intro _; rw [e1 q hq]
      · intro d hd; rw [e2 q hq] at hd; cases hd
      · intro _ i
        have : (Ideal.enter P ⟨fun _ => none, []⟩ m).get P q = .initial (P q) := by unfold Ideal.get; rw [e2 q hq]; rfl
        rw [this]
        simp [Data.initial, enter, Rt.set, blank]
      · intro _ h; rw [e1 q hq] at h; cases h
  · show Walk _ 1 (some m)
    trivial
  · rw [e4]
  · right
    exact ⟨[], (P m).ls0, rfl, by simp⟩
  · intro x hx
    have hx' : x ∈ [(m, (P m).ls0)] := hx
    rw [List.mem_singleton.1 hx', e3]
    simp

theorem sim_run (P : Nat → Prog) (m : Nat) (hm : ∀ q, q ≠ m → (P q).main = false) :
    ∀ (es : List Ev) (r : Rt) (s : Ideal), Sim P m r s → Ev.call m ∉ es → Always P CancelsIdle s es →
      Sim P m (es.foldl (step P) r) (es.foldl (Ideal.step P) s)
  | [], _, _, h, _, _ => h
  | e :: es, r, s, h, hc, ha => by
    refine sim_run P m hm es _ _ (sim_step hm h e ?_ ha.1) (fun hx => hc (List.mem_cons_of_mem _ hx)) ha.2
    intro hx
    exact hc (by rw [hx]; exact List.mem_cons_self)

end Cob.Life
