import Verif.Rt.LifeProps
/-
C81: the theorems.
-/
namespace Cob.Life

/-- **C81.** In every history - recursive calls included, as long as the first program is not called and no active program is
cancelled - a program finds the storage of the ideal run: the same activations with the same LOCAL-STORAGE, each program in
its initial state at the first call, after CANCEL and, if INITIAL, at every call, else in its last-used state; RETURN-CODE
comes back to the caller; the files that the operating system holds open for a program (not INITIAL) are exactly those it has
open, so none after CANCEL. -/
theorem C81_storage (P : Nat → Prog) (m : Nat) (hm : ∀ q, q ≠ m → (P q).main = false) (es : List Ev)
    (hcall : Ev.call m ∉ es) (hcancel : Always P CancelsIdle (ideal P m []) es) :
    (run P m es).frames = (ideal P m es).stack ∧
    (∀ q d, (ideal P m es).data q = some d →
      ((run P m es).unit q).ws = d.ws ∧ ((run P m es).unit q).rc = d.rc ∧ ((run P m es).unit q).opened = d.opened) ∧
    (∀ q, (ideal P m es).Active q → (ideal P m es).data q ≠ none) ∧
    (∀ q, (P q).initial = false → ∀ i, (q, i) ∈ (run P m es).handles ↔ i ∈ ((ideal P m es).get P q).opened) := by
  have h := sim_run P m hm es _ _ (sim_start P m) hcall hcancel
  refine ⟨h.frames, ?_, ?_, ?_⟩
  · intro q d hd
    exact ((h.tie q).used d hd).2
  · rintro q ⟨l, hl⟩
    exact h.live _ hl
  · intro q hi i
    exact (h.tie q).held hi i

/-! ### The module stack -/

/-- `module.next` leads from each activation to the one below it. -/
def Linked (next : Nat → Option Nat) : Option Nat → List (Nat × List Nat) → Prop
  | c, [] => c = none
  | c, x :: rest => c = some x.1 ∧ Linked next (next x.1) rest

theorem linked_congr (next next' : Nat → Option Nat) : ∀ (fr : List (Nat × List Nat)) (c : Option Nat),
    (∀ x ∈ fr, next' x.1 = next x.1) → Linked next c fr → Linked next' c fr
  | [], _, _, h => h
  | x :: fr, c, hx, h => by
    refine ⟨h.1, ?_⟩
    rw [hx x List.mem_cons_self]
    exact linked_congr next next' fr _ (fun y hy => hx y (List.mem_cons_of_mem _ hy)) h.2

/-- The module stack is that of the activations, and no program is twice in it. -/
structure Mods (r : Rt) : Prop where
  link : Linked (fun x => (r.unit x).next) r.current r.frames
  nodup : (r.frames.map (·.1)).Nodup

theorem leave_next (r : Rt) (x : Nat) : ((leave r).unit x).next = (r.unit x).next := by
  unfold leave
  cases hf : r.frames with
  | nil => rfl
  | cons a rest =>
    obtain ⟨p, l⟩ := a
    cases rest with
    | nil => rfl
    | cons b rest =>
      obtain ⟨c, lc⟩ := b
      dsimp only
      by_cases hx : x = c
      · rw [hx, set_same]
      · rw [set_other _ _ _ _ hx]

theorem mods_leave {r : Rt} (h : Mods r) : Mods (leave r) := by
  cases hf : r.frames with
  | nil =>
    have : leave r = r := by unfold leave; rw [hf]
    rw [this]; exact h
  | cons a rest =>
    obtain ⟨p, l⟩ := a
    have hl := h.link
    have hn := h.nodup
    rw [hf] at hl hn
    have hfr : (leave r).frames = rest := by
      unfold leave; rw [hf]
      cases rest with
      | nil => rfl
      | cons b rest => obtain ⟨c, lc⟩ := b; rfl
    have hcu : (leave r).current = (r.unit p).next := by
      have : (leave r).current = r.current.bind (fun m => (r.unit m).next) := by
        unfold leave; rw [hf]
        cases rest with
        | nil => rfl
        | cons b rest => obtain ⟨c, lc⟩ := b; rfl
      rw [this, hl.1]
      rfl
    refine ⟨?_, ?_⟩
    · rw [hfr, hcu]
      exact linked_congr _ _ _ _ (fun x _ => leave_next r x.1) hl.2
    · rw [hfr]
      exact (List.nodup_cons.1 hn).2

theorem mods_change {r r' : Rt} (h : Mods r) (hn : ∀ x, (r'.unit x).next = (r.unit x).next) (hc : r'.current = r.current)
    (hf : r'.frames = r.frames) : Mods r' := by
  refine ⟨?_, ?_⟩
  · rw [hc, hf]
    exact linked_congr _ _ _ _ (fun x _ => hn x.1) h.link
  · rw [hf]; exact h.nodup

theorem set_next (r : Rt) (p : Nat) (u : Static) (hu : u.next = (r.unit p).next) (x : Nat) :
    ((r.set p u).unit x).next = (r.unit x).next := by
  by_cases hx : x = p
  · rw [hx, set_same, hu]
  · rw [set_other _ _ _ _ hx]

theorem mods_step {P : Nat → Prog} {r : Rt} (h : Mods r) (e : Ev)
    (hrec : ∀ q, e = .call q → ∀ l, (q, l) ∉ r.frames) : Mods (step P r e) := by
  unfold step
  cases hf : r.frames with
  | nil => exact h
  | cons a rest =>
    obtain ⟨p, l⟩ := a
    dsimp only
    cases e with
    | setWs d => exact mods_change h (set_next r p _ rfl) rfl rfl
    | setRc n => exact mods_change h (set_next r p _ rfl) rfl rfl
    | setLs d =>
      have hl := h.link
      have hn := h.nodup
      rw [hf] at hl hn
      exact ⟨⟨hl.1, hl.2⟩, hn⟩
    | openF i =>
      dsimp only
      split
      · exact h
      · exact mods_change h (set_next r p _ rfl) rfl rfl
    | closeF i =>
      dsimp only
      split
      · exact mods_change h (set_next r p _ rfl) rfl rfl
      · exact h
    | call q =>
      dsimp only
      have hnot := hrec q rfl
      have hother : ∀ x, x ≠ q → (enter P q r).unit x = r.unit x := by
        intro x hx
        unfold enter
        exact set_other _ _ _ _ hx
      have hq : ((enter P q r).unit q).next = r.current := by
        unfold enter
        have e : ∀ (a : Static) (c : Option Nat) (f : List (Nat × List Nat)),
            ({ r.set q a with current := c, frames := f } : Rt).unit q = a := by
          intro a c f; exact set_same _ _ _
        rw [e]
        cases (P q).initial <;> cases (P q).main <;> cases (P q).implicit <;> cases (r.unit q).inited <;>
          simp [fresh] <;> split <;> rfl
      have hne : ∀ x ∈ r.frames, x.1 ≠ q := by
        intro x hx hxq
        exact hnot x.2 (by rw [← hxq]; exact hx)
      refine ⟨⟨rfl, ?_⟩, ?_⟩
      · show Linked _ ((enter P q r).unit q).next _
        rw [hq]
        refine linked_congr _ _ _ _ (fun x hx => ?_) h.link
        show ((enter P q r).unit x.1).next = _
        rw [hother x.1 (hne x hx)]
      · show (q :: r.frames.map (·.1)).Nodup
        refine List.nodup_cons.2 ⟨?_, h.nodup⟩
        intro hmem
        obtain ⟨x, hx, hxq⟩ := List.mem_map.1 hmem
        exact hne x hx hxq
    | cancel q =>
      dsimp only
      unfold cancel
      dsimp only
      split
      · exact h
      · exact mods_change h (set_next r q _ rfl) rfl rfl
    | goback => exact mods_leave h
    | exitProgram =>
      dsimp only
      split
      · exact mods_leave h
      · exact h

theorem mods_run (P : Nat → Prog) (m : Nat) (hm : ∀ q, q ≠ m → (P q).main = false) :
    ∀ (es : List Ev) (r : Rt) (s : Ideal), Sim P m r s → Mods r → Ev.call m ∉ es → Always P CancelsIdle s es →
      Always P NotRecursive s es → Mods (es.foldl (step P) r)
  | [], _, _, _, h, _, _, _ => h
  | e :: es, r, s, hs, h, hc, ha, hn => by
    have hc1 : e ≠ .call m := by
      intro hx
      exact hc (by rw [hx]; exact List.mem_cons_self)
    refine mods_run P m hm es _ _ (sim_step hm hs e hc1 ha.1) (mods_step h e ?_)
      (fun hx => hc (List.mem_cons_of_mem _ hx)) ha.2 hn.2
    intro q hq l hl
    exact hn.1 q hq ⟨l, by rw [← hs.frames]; exact hl⟩

theorem linked_above (next : Nat → Option Nat) (p c : Nat) (l l' : List Nat) (b : List (Nat × List Nat)) :
    ∀ (a : List (Nat × List Nat)) (cur : Option Nat), Linked next cur (a ++ (p, l) :: (c, l') :: b) → next p = some c
  | [], _, h => h.2.1
  | _ :: a, _, h => linked_above next p c l l' b a _ h.2

/-- **C81.** In a history without recursion the runtime knows at all times which program runs (`cob_current_module`), and for each
active program which one called it. -/
theorem C81_module (P : Nat → Prog) (m : Nat) (hm : ∀ q, q ≠ m → (P q).main = false) (es : List Ev)
    (hcall : Ev.call m ∉ es) (hcancel : Always P CancelsIdle (ideal P m []) es)
    (hrec : Always P NotRecursive (ideal P m []) es) :
    (run P m es).current = (ideal P m es).stack.head?.map (·.1) ∧
    ∀ a p l c l' b, (ideal P m es).stack = a ++ (p, l) :: (c, l') :: b → ((run P m es).unit p).next = some c := by
  have hs := sim_run P m hm es _ _ (sim_start P m) hcall hcancel
  have h0 : Mods (enter P m blank) := by
    have hq : ((enter P m blank).unit m).next = none := (sim_start P m).first
    refine ⟨⟨rfl, ?_⟩, ?_⟩
    · exact hq
    · show [m].Nodup
      simp
  have h := mods_run P m hm es _ _ (sim_start P m) h0 hcall hcancel hrec
  have hl := h.link
  rw [show (es.foldl (step P) (enter P m blank)).frames = _ from hs.frames] at hl
  refine ⟨?_, ?_⟩
  · show (es.foldl (step P) (enter P m blank)).current = (es.foldl (Ideal.step P) _).stack.head?.map (·.1)
    cases hst : (es.foldl (Ideal.step P) (Ideal.enter P ⟨fun _ => none, []⟩ m)).stack with
    | nil => rw [hst] at hl; exact hl
    | cons x rest => rw [hst] at hl; exact hl.1
  · intro a p l c l' b hst
    rw [show (es.foldl (Ideal.step P) (Ideal.enter P ⟨fun _ => none, []⟩ m)).stack = _ from hst] at hl
    exact linked_above _ p c l l' b a _ hl

/-! ### One call -/

theorem always_append (P : Nat → Prog) (ok : Ideal → Ev → Prop) : ∀ (es es' : List Ev) (s : Ideal),
    Always P ok s (es ++ es') ↔ Always P ok s es ∧ Always P ok (es.foldl (Ideal.step P) s) es'
  | [], _, _ => by simp [Always]
  | e :: es, es', s => by
    simp only [List.cons_append, Always, List.foldl_cons, always_append P ok es es', and_assoc]

theorem put_stack (s : Ideal) (q : Nat) (d : Option Data) : (s.put q d).stack = s.stack := rfl

/-- One step above the activations `st`. -/
theorem within_step (P : Nat → Prog) (q : Nat) (st : List (Nat × List Nat)) (s : Ideal) (e : Ev) (up : List (Nat × List Nat))
    (l : List Nat) (hs : s.stack = up ++ (q, l) :: st) (hn : (s.stack.map (·.1)).Nodup) (hrec : NotRecursive s e)
    (hcan : CancelsIdle s e) (hlen : st.length < (s.step P e).stack.length) :
    (∃ up' l', (s.step P e).stack = up' ++ (q, l') :: st) ∧ ((s.step P e).stack.map (·.1)).Nodup ∧
    ∀ x ∈ st, (s.step P e).data x.1 = s.data x.1 := by
  have habove : ∀ y ∈ up ++ [(q, l)], ∀ x ∈ st, x.1 ≠ y.1 := by
    intro y hy x hx hxy
    have : s.stack = (up ++ [(q, l)]) ++ st := by rw [hs]; simp
    rw [this, List.map_append, List.nodup_append] at hn
    exact hn.2.2 y.1 (List.mem_map_of_mem hy) x.1 (List.mem_map_of_mem hx) hxy.symm
  -- the running program
  obtain ⟨p, lp, rest, htop, hpin⟩ : ∃ p lp rest, s.stack = (p, lp) :: rest ∧ (p, lp) ∈ up ++ [(q, l)] := by
    cases up with
    | nil => exact ⟨q, l, st, hs, by simp⟩
    | cons y up => exact ⟨y.1, y.2, _, hs, by simp⟩
  have hput : ∀ (d : Option Data) (s' : Ideal), s' = s.put p d → (∃ up' l', s'.stack = up' ++ (q, l') :: st) ∧
      (s'.stack.map (·.1)).Nodup ∧ ∀ x ∈ st, s'.data x.1 = s.data x.1 := by
    intro d s' e'
    subst e'
    refine ⟨⟨up, l, hs⟩, hn, ?_⟩
    intro x hx
    exact put_other _ _ _ _ (habove _ hpin x hx)
  have hself : ∀ s' : Ideal, s' = s → (∃ up' l', s'.stack = up' ++ (q, l') :: st) ∧
      (s'.stack.map (·.1)).Nodup ∧ ∀ x ∈ st, s'.data x.1 = s.data x.1 := by
    intro s' e'; subst e'; exact ⟨⟨up, l, hs⟩, hn, fun _ _ => rfl⟩
  have hleave : ∀ s' : Ideal, s' = s.leave P → st.length < s'.stack.length → (∃ up' l', s'.stack = up' ++ (q, l') :: st) ∧
      (s'.stack.map (·.1)).Nodup ∧ ∀ x ∈ st, s'.data x.1 = s.data x.1 := by
    intro s' e' hl
    subst e'
    cases up with
    | nil =>
      exfalso
      have hs' : s.stack = (q, l) :: st := hs
      unfold Ideal.leave at hl
      rw [hs'] at hl
      cases st with
      | nil => simp at hl
      | cons c st => obtain ⟨c, lc⟩ := c; simp at hl
    | cons y up =>
      have hs' : s.stack = y :: (up ++ (q, l) :: st) := hs
      obtain ⟨c, lc, rest', hrest, hcin⟩ : ∃ c lc rest', up ++ (q, l) :: st = (c, lc) :: rest' ∧ (c, lc) ∈ up ++ [(q, l)] := by
        cases up with
        | nil => exact ⟨q, l, st, rfl, by simp⟩
        | cons z up => exact ⟨z.1, z.2, _, rfl, by simp⟩
      have hst : (s.leave P).stack = (c, lc) :: rest' := by
        unfold Ideal.leave; rw [hs', hrest]
      refine ⟨⟨up, l, by rw [hst, hrest]⟩, ?_, ?_⟩
      · rw [hst, ← hrest]
        rw [hs'] at hn
        exact (List.nodup_cons.1 hn).2
      · intro x hx
        have : (s.leave P).data x.1 = s.data x.1 := by
          unfold Ideal.leave; rw [hs', hrest]
          exact put_other _ _ _ _ (habove _ (by
            rcases List.mem_append.1 hcin with h | h
            · exact List.mem_append.2 (.inl (List.mem_cons_of_mem _ h))
            · exact List.mem_append.2 (.inr h)) x hx)
        exact this
  have hst : ∀ e, s.step P e = (match e with
    | .setWs d => s.put p (some { s.get P p with ws := d })
    | .setLs d => { s with stack := (p, d) :: rest }
    | .setRc n => s.put p (some { s.get P p with rc := n })
    | .openF i =>
      if i ∈ (s.get P p).opened then s else s.put p (some { s.get P p with opened := i :: (s.get P p).opened })
    | .closeF i => s.put p (some { s.get P p with opened := (s.get P p).opened.filter (· != i) })
    | .call q => s.enter P q
    | .cancel q => s.put q none
    | .exitProgram => if (P p).implicit = true ∨ rest ≠ [] then s.leave P else s
    | .goback => s.leave P) := by
    intro e
    unfold Ideal.step; rw [htop]
    cases e <;> rfl
  rw [hst] at hlen ⊢
  cases e with
  | setWs d => exact hput _ _ rfl
  | setRc d => exact hput _ _ rfl
  | setLs d =>
    dsimp only
    refine ⟨?_, ?_, fun _ _ => rfl⟩
    · cases up with
      | nil =>
        have := htop.symm.trans hs
        have h2 := List.cons.inj this
        refine ⟨[], d, ?_⟩
        rw [h2.2, show p = q from congrArg Prod.fst h2.1]; rfl
      | cons y up =>
        have := htop.symm.trans hs
        have h2 := List.cons.inj this
        exact ⟨(p, d) :: up, l, by rw [h2.2]; rfl⟩
    · rw [htop] at hn
      exact hn
  | openF i =>
    dsimp only
    split
    · exact hself _ rfl
    · exact hput _ _ rfl
  | closeF i => exact hput _ _ rfl
  | call x =>
    dsimp only
    have hna := hrec x rfl
    refine ⟨⟨(x, (P x).ls0) :: up, l, ?_⟩, ?_, ?_⟩
    · show (x, (P x).ls0) :: s.stack = _
      rw [hs]; rfl
    · show (x :: s.stack.map (·.1)).Nodup
      refine List.nodup_cons.2 ⟨?_, hn⟩
      intro hmem
      obtain ⟨y, hy, hyx⟩ := List.mem_map.1 hmem
      exact hna ⟨y.2, by rw [← hyx]; exact hy⟩
    · intro y hy
      refine put_other _ _ _ _ ?_
      intro hyx
      refine hna ⟨y.2, ?_⟩
      rw [← hyx, hs]
      exact List.mem_append.2 (.inr (List.mem_cons_of_mem _ hy))
  | cancel x =>
    dsimp only
    have hna := hcan x rfl
    refine ⟨⟨up, l, hs⟩, hn, ?_⟩
    intro y hy
    refine put_other _ _ _ _ ?_
    intro hyx
    refine hna ⟨y.2, ?_⟩
    rw [← hyx, hs]
    exact List.mem_append.2 (.inr (List.mem_cons_of_mem _ hy))
  | goback => exact hleave _ rfl hlen
  | exitProgram =>
    dsimp only at hlen ⊢
    split
    · rename_i hk
      rw [if_pos hk] at hlen
      exact hleave _ rfl hlen
    · exact hself _ rfl

theorem within_run (P : Nat → Prog) (q : Nat) (st : List (Nat × List Nat)) : ∀ (es : List Ev) (s : Ideal),
    (∃ up l, s.stack = up ++ (q, l) :: st) → (s.stack.map (·.1)).Nodup → Always P NotRecursive s es → Always P CancelsIdle s es →
    (∀ k, k ≤ es.length → st.length < ((es.take k).foldl (Ideal.step P) s).stack.length) →
    (∃ up l, (es.foldl (Ideal.step P) s).stack = up ++ (q, l) :: st) ∧
    ∀ x ∈ st, (es.foldl (Ideal.step P) s).data x.1 = s.data x.1
  | [], _, h, _, _, _, _ => ⟨h, fun _ _ => rfl⟩
  | e :: es, s, ⟨up, l, h⟩, hn, hr, hc, hk => by
    have h1 := within_step P q st s e up l h hn hr.1 hc.1 (hk 1 (by simp))
    have h2 := within_run P q st es (s.step P e) h1.1 h1.2.1 hr.2 hc.2 (by
      intro k hk'
      have := hk (k + 1) (by simpa using hk')
      exact this)
    refine ⟨h2.1, fun x hx => ?_⟩
    rw [List.foldl_cons, h2.2 x hx, h1.2.2 x hx]

theorem nodup_run (P : Nat → Prog) : ∀ (es : List Ev) (s : Ideal), (s.stack.map (·.1)).Nodup → Always P NotRecursive s es →
    ((es.foldl (Ideal.step P) s).stack.map (·.1)).Nodup
  | [], _, h, _ => h
  | e :: es, s, h, hr => by
    refine nodup_run P es _ ?_ hr.2
    have hl : ∀ s : Ideal, (s.stack.map (·.1)).Nodup → ((s.leave P).stack.map (·.1)).Nodup := by
      intro s h
      unfold Ideal.leave
      cases hs : s.stack with
      | nil => simp [hs]
      | cons a rest =>
        rw [hs] at h
        cases rest with
        | nil => obtain ⟨a, b⟩ := a; simp
        | cons b rest =>
          obtain ⟨a, la⟩ := a; obtain ⟨b, lb⟩ := b
          exact (List.nodup_cons.1 h).2
    unfold Ideal.step
    cases hs : s.stack with
    | nil => exact h
    | cons a rest =>
      obtain ⟨p, l⟩ := a
      dsimp only
      cases e with
      | setWs d => exact h
      | setRc d => exact h
      | setLs d => rw [hs] at h; exact h
      | openF i => dsimp only; split <;> exact h
      | closeF i => exact h
      | call q =>
        show (q :: s.stack.map (·.1)).Nodup
        refine List.nodup_cons.2 ⟨?_, h⟩
        intro hmem
        obtain ⟨y, hy, hyx⟩ := List.mem_map.1 hmem
        exact hr.1 q rfl ⟨y.2, by rw [← hyx]; exact hy⟩
      | cancel q => exact h
      | goback => exact hl s h
      | exitProgram =>
        dsimp only
        split
        · exact hl s h
        · exact h

/-- **C81.** What a CALL does to the program that executes it.  Let program `p` run after the history `pre`, call `q`, and let
`body` be what happens until `q` executes GOBACK (programs called by `q` included; no recursion, no CANCEL of active programs).
Afterwards `p` runs again, is the current module, has its LOCAL-STORAGE, its WORKING-STORAGE and its open files as before, and
its RETURN-CODE is the one `q` had.  The same holds for all programs below `p`, whose RETURN-CODE is unchanged. -/
theorem C81_call_returns (P : Nat → Prog) (m : Nat) (hm : ∀ q, q ≠ m → (P q).main = false) (pre body : List Ev) (q : Nat)
    (hcall : Ev.call m ∉ pre ++ .call q :: (body ++ [.goback]))
    (hcancel : Always P CancelsIdle (ideal P m []) (pre ++ .call q :: (body ++ [.goback])))
    (hrec : Always P NotRecursive (ideal P m []) (pre ++ .call q :: (body ++ [.goback])))
    (p : Nat) (l : List Nat) (rest : List (Nat × List Nat)) (hp : (run P m pre).frames = (p, l) :: rest)
    (hin : ∀ k, k ≤ body.length → rest.length + 1 < (run P m (pre ++ .call q :: body.take k)).frames.length)
    (hend : (run P m (pre ++ .call q :: body)).frames.length = rest.length + 2) :
    let a := run P m pre
    let b := run P m (pre ++ .call q :: body)
    let z := run P m (pre ++ .call q :: (body ++ [.goback]))
    z.frames = a.frames ∧ z.current = some p ∧ (z.unit p).ws = (a.unit p).ws ∧ (z.unit p).opened = (a.unit p).opened ∧
    (z.unit p).rc = (b.unit q).rc ∧
    ∀ x ∈ rest, (z.unit x.1).ws = (a.unit x.1).ws ∧ (z.unit x.1).rc = (a.unit x.1).rc ∧
      (z.unit x.1).opened = (a.unit x.1).opened := by
  intro a b z
  -- the ideal runs
  have hsub : ∀ es es', pre ++ .call q :: (body ++ [.goback]) = es ++ es' →
      Ev.call m ∉ es ∧ Always P CancelsIdle (ideal P m []) es ∧ Always P NotRecursive (ideal P m []) es ∧
      Always P CancelsIdle (ideal P m es) es' ∧ Always P NotRecursive (ideal P m es) es' := by
    intro es es' e
    rw [e] at hcall hcancel hrec
    have h1 := (always_append P CancelsIdle es es' _).1 hcancel
    have h2 := (always_append P NotRecursive es es' _).1 hrec
    exact ⟨fun h => hcall (List.mem_append.2 (.inl h)), h1.1, h2.1, h1.2, h2.2⟩
  have hsim : ∀ es es', pre ++ .call q :: (body ++ [.goback]) = es ++ es' → Sim P m (run P m es) (ideal P m es) := by
    intro es es' e
    obtain ⟨h1, h2, _⟩ := hsub es es' e
    exact sim_run P m hm es _ _ (sim_start P m) h1 h2
  have sa := hsim pre _ rfl
  have sb := hsim (pre ++ .call q :: body) [.goback] (by simp)
  have sz := hsim (pre ++ .call q :: (body ++ [.goback])) [] (by simp)
  obtain ⟨_, _, hreca, hcanb, hrecb⟩ := hsub pre _ rfl
  have hst : (ideal P m pre).stack = (p, l) :: rest := by rw [← sa.frames]; exact hp
  have hnd : ((ideal P m pre).stack.map (·.1)).Nodup :=
    nodup_run P pre _ (by show [m].Nodup; simp) hreca
  -- the call
  have hstep : (ideal P m pre).step P (.call q) = (ideal P m pre).enter P q := by
    unfold Ideal.step; rw [hst]
  have hqa : ¬ (ideal P m pre).Active q := hrecb.1 q rfl
  have hb : ideal P m (pre ++ .call q :: body) = body.foldl (Ideal.step P) ((ideal P m pre).enter P q) := by
    unfold ideal
    rw [List.foldl_append, List.foldl_cons]
    congr 1
  have hcb := ((always_append P CancelsIdle body [.goback] _).1 hcanb.2).1
  have hrb := ((always_append P NotRecursive body [.goback] _).1 hrecb.2).1
  rw [hstep] at hcb hrb
  have hstk : ((ideal P m pre).enter P q).stack = (q, (P q).ls0) :: (p, l) :: rest := by
    show (q, (P q).ls0) :: (ideal P m pre).stack = _
    rw [hst]
  have hw := within_run P q ((p, l) :: rest) body ((ideal P m pre).enter P q) ⟨[], (P q).ls0, hstk⟩ (by
      show (q :: (ideal P m pre).stack.map (·.1)).Nodup
      refine List.nodup_cons.2 ⟨?_, hnd⟩
      intro hmem
      obtain ⟨y, hy, hyx⟩ := List.mem_map.1 hmem
      exact hqa ⟨y.2, by rw [← hyx]; exact hy⟩) hrb hcb (by
      intro k hk
      have hs := hsim (pre ++ .call q :: body.take k) (body.drop k ++ [.goback]) (by
        rw [List.append_assoc, List.cons_append, ← List.append_assoc (body.take k), List.take_append_drop])
      have h1 := hin k hk
      rw [hs.frames] at h1
      have : ideal P m (pre ++ .call q :: body.take k) = (body.take k).foldl (Ideal.step P) ((ideal P m pre).enter P q) := by
        unfold ideal
        rw [List.foldl_append, List.foldl_cons]
        congr 1
      rw [this] at h1
      simpa using h1)
  rw [← hb] at hw
  obtain ⟨⟨up, lq, hsb⟩, hdat⟩ := hw
  have hup : up = [] := by
    have h1 := hend
    rw [sb.frames, hsb] at h1
    rw [List.length_append, List.length_cons, List.length_cons] at h1
    exact List.length_eq_zero_iff.1 (by omega)
  rw [hup] at hsb
  have hsb' : (ideal P m (pre ++ .call q :: body)).stack = (q, lq) :: (p, l) :: rest := hsb
  have hpq : ∀ x ∈ (p, l) :: rest, x.1 ≠ q := by
    intro x hx hxq
    exact hqa ⟨x.2, by rw [hst, ← hxq]; exact hx⟩
  have hdat' : ∀ x ∈ (p, l) :: rest, (ideal P m (pre ++ .call q :: body)).data x.1 = (ideal P m pre).data x.1 := by
    intro x hx
    rw [hdat x hx]
    exact put_other _ _ _ _ (hpq x hx)
  -- the return
  have hz : ideal P m (pre ++ .call q :: (body ++ [.goback])) = (ideal P m (pre ++ .call q :: body)).leave P := by
    have : pre ++ Ev.call q :: (body ++ [.goback]) = (pre ++ .call q :: body) ++ [.goback] := by simp
    rw [this]
    show ideal P m ((pre ++ .call q :: body) ++ [.goback]) = _
    have e1 : ideal P m ((pre ++ .call q :: body) ++ [.goback]) = (ideal P m (pre ++ .call q :: body)).step P .goback := by
      unfold ideal; rw [List.foldl_append]; rfl
    rw [e1]
    unfold Ideal.step; rw [hsb']
  obtain ⟨dp, hdp⟩ := live_some sa hst
  obtain ⟨dq, hdq⟩ := live_some sb hsb'
  have hdpb : (ideal P m (pre ++ .call q :: body)).data p = some dp := by
    rw [hdat' (p, l) List.mem_cons_self]; exact hdp
  have hl : (ideal P m (pre ++ .call q :: body)).leave P =
      { (ideal P m (pre ++ .call q :: body)).put p (some { dp with rc := dq.rc }) with stack := (p, l) :: rest } := by
    unfold Ideal.leave; rw [hsb']; dsimp only
    rw [get_some P _ p dp hdpb, get_some P _ q dq hdq]
  rw [hl] at hz
  have hzst : (ideal P m (pre ++ .call q :: (body ++ [.goback]))).stack = (p, l) :: rest := by rw [hz]
  have hzd : (ideal P m (pre ++ .call q :: (body ++ [.goback]))).data p = some { dp with rc := dq.rc } := by
    rw [hz]; exact put_same _ _ _
  have ua := (sa.tie p).used dp hdp
  have uz := (sz.tie p).used _ hzd
  have ub := (sb.tie q).used _ hdq
  refine ⟨?_, ?_, ?_, ?_, ?_, ?_⟩
  · rw [sz.frames, hzst, hp]
  · have := (C81_module P m hm _ hcall hcancel hrec).1
    rw [hzst] at this
    exact this
  · rw [uz.2.1, ua.2.1]
  · rw [uz.2.2.2, ua.2.2.2]
  · rw [uz.2.2.1, ub.2.2.1]
  · intro x hx
    have hxp : x.1 ≠ p := by
      intro hxp
      have h1 := hnd
      rw [hst] at h1
      exact (List.nodup_cons.1 h1).1 (by
        show p ∈ rest.map (·.1)
        rw [← hxp]; exact List.mem_map_of_mem (f := (·.1)) hx)
    have hzx : (ideal P m (pre ++ .call q :: (body ++ [.goback]))).data x.1 = (ideal P m pre).data x.1 := by
      rw [hz]
      exact (put_other _ _ _ _ hxp).trans (hdat' x (List.mem_cons_of_mem _ hx))
    obtain ⟨dx, hdx⟩ : ∃ d, (ideal P m pre).data x.1 = some d :=
      Option.ne_none_iff_exists'.1 (sa.live x (by rw [hst]; exact List.mem_cons_of_mem _ hx))
    have u1 := (sa.tie x.1).used dx hdx
    have u2 := (sz.tie x.1).used dx (by rw [hzx]; exact hdx)
    exact ⟨by rw [u2.2.1, u1.2.1], by rw [u2.2.2.1, u1.2.2.1], by rw [u2.2.2.2, u1.2.2.2]⟩

/-! ### Examples and findings -/

/-- Program 0 is the main program, 1 an ordinary one, 2 an INITIAL one. -/
def sample : Nat → Prog
  | 0 => { main := true, ws0 := [1], ls0 := [2] }
  | 1 => { ws0 := [10], ls0 := [11] }
  | 2 => { initial := true, ws0 := [20] }
  | _ => {}

theorem sample_main : ∀ q, q ≠ 0 → (sample q).main = false := by
  intro q h
  match q with
  | 0 => exact absurd rfl h
  | 1 => rfl
  | 2 => rfl
  | _ + 3 => rfl

/-- Decision procedures for the conditions, for concrete histories. -/
instance (s : Ideal) (q : Nat) : Decidable (s.Active q) :=
  decidable_of_iff (q ∈ s.stack.map (·.1)) (by simp [Ideal.Active])
instance (s : Ideal) (e : Ev) : Decidable (CancelsIdle s e) :=
  match e with
  | .cancel q => decidable_of_iff (¬ s.Active q) ⟨fun h q' e => by cases e; exact h, fun h => h q rfl⟩
  | .setWs _ | .setLs _ | .setRc _ | .openF _ | .closeF _ | .call _ | .exitProgram | .goback => isTrue (by intro q e; cases e)
instance (s : Ideal) (e : Ev) : Decidable (NotRecursive s e) :=
  match e with
  | .call q => decidable_of_iff (¬ s.Active q) ⟨fun h q' e => by cases e; exact h, fun h => h q rfl⟩
  | .setWs _ | .setLs _ | .setRc _ | .openF _ | .closeF _ | .cancel _ | .exitProgram | .goback => isTrue (by intro q e; cases e)
instance decAlways (P : Nat → Prog) (ok : Ideal → Ev → Prop) [∀ s e, Decidable (ok s e)] : ∀ s es, Decidable (Always P ok s es)
  | _, [] => isTrue trivial
  | s, e :: es => @instDecidableAnd _ _ _ (decAlways P ok (s.step P e) es)

/-- A history that meets all conditions: the main program calls 1, which changes its storage, opens a file, calls 2 and returns
9; it is called again (last-used state), returns, is cancelled and called once more (initial state). -/
def sampleRun : List Ev :=
  [.setLs [3], .call 1, .setWs [12], .setLs [13], .openF 0, .call 2, .setWs [21], .goback, .setRc 9, .goback,
   .call 1, .exitProgram, .cancel 1, .call 1]

example : Ev.call 0 ∉ sampleRun ∧ Always sample CancelsIdle (ideal sample 0 []) sampleRun ∧
    Always sample NotRecursive (ideal sample 0 []) sampleRun ∧
    ((run sample 0 (sampleRun.take 11)).unit 1).ws = [12] ∧ (run sample 0 (sampleRun.take 11)).handles = [(1, 0)] ∧
    (run sample 0 (sampleRun.take 11)).frames = [(1, [11]), (0, [3])] ∧
    ((run sample 0 (sampleRun.take 12)).unit 0).rc = 9 ∧ (run sample 0 (sampleRun.take 13)).handles = [] ∧
    ((run sample 0 sampleRun).unit 1).ws = [10] ∧ ((run sample 0 sampleRun).unit 1).rc = 0 := by
  decide +kernel

/-- `C81_call_returns` for the first call of that history. -/
example : let z := run sample 0 ([.setLs [3]] ++ .call 1 :: ([.setWs [12], .openF 0, .call 2, .setWs [21], .goback, .setRc 9] ++ [.goback]))
    z.frames = [(0, [3])] ∧ z.current = some 0 ∧ (z.unit 0).rc = 9 := by
  have h := C81_call_returns sample 0 sample_main [.setLs [3]] [.setWs [12], .openF 0, .call 2, .setWs [21], .goback, .setRc 9] 1
    (by decide +kernel) (by decide +kernel) (by decide +kernel) 0 [3] [] (by decide +kernel) (by
      intro k hk
      have : k = 0 ∨ k = 1 ∨ k = 2 ∨ k = 3 ∨ k = 4 ∨ k = 5 ∨ k = 6 := by simp at hk; omega
      rcases this with h | h | h | h | h | h | h <;> subst h <;> decide +kernel) (by decide +kernel)
  obtain ⟨h1, h2, _, _, h5, _⟩ := h
  refine ⟨?_, h2, ?_⟩
  · exact h1
  · exact h5.trans (by decide +kernel)

/-- **C81, finding.** `module` is a static variable: after a recursive call of 1 has returned, and 1 has returned to the main
program, the runtime still takes 1 for the running program. -/
theorem C81_finding_recursion :
    let r := run sample 0 [.call 1, .call 1, .goback, .goback]
    r.frames = [(0, [2])] ∧ r.current = some 1 := by
  decide +kernel

/-- **C81, finding.** If a called program calls the main program back, EXIT PROGRAM in the main program afterwards is no longer
without effect: it ends the run. -/
theorem C81_finding_main :
    (run sample 0 [.exitProgram]).frames = [(0, [2])] ∧
    (run sample 0 [.call 1, .call 0, .goback, .goback]).frames = [(0, [2])] ∧
    (run sample 0 [.call 1, .call 0, .goback, .goback, .exitProgram]).frames = [] := by
  decide +kernel

/-- **C81, finding.** RETURN-CODE is in the last-used state too: a program that once returned 9 and does not touch RETURN-CODE in
the next call returns 9 again; an INITIAL program returns 0. -/
theorem C81_finding_return_code :
    ((run sample 0 [.call 1, .setRc 9, .goback, .setRc 0, .call 1, .goback]).unit 0).rc = 9 ∧
    ((run sample 0 [.call 2, .setRc 9, .goback, .setRc 0, .call 2, .goback]).unit 0).rc = 0 := by
  decide +kernel

/-- **C81, finding.** A file that an INITIAL program leaves open is not closed: at the next call the program takes it for closed
while the operating system still holds it open, and CANCEL does not close it either. -/
theorem C81_finding_initial_file :
    let r := run sample 0 [.call 2, .openF 0, .goback, .call 2]
    (r.unit 2).opened = [] ∧ r.handles = [(2, 0)] ∧
    (run sample 0 [.call 2, .openF 0, .goback, .call 2, .goback, .cancel 2]).handles = [(2, 0)] := by
  decide +kernel

/-- **C81, finding.** CANCEL of an active program is carried out: its files are closed while it runs, its storage stays as it is
until it is entered again, and a recursive call then starts it afresh. -/
theorem C81_finding_active :
    let r := run sample 0 [.call 1, .setWs [5], .openF 0, .call 2, .cancel 1, .goback]
    r.frames = [(1, [11]), (0, [2])] ∧ (r.unit 1).ws = [5] ∧ r.handles = [] ∧
    ((run sample 0 [.call 1, .setWs [5], .openF 0, .call 2, .cancel 1, .goback, .call 1, .goback]).unit 1).ws = [10] := by
  decide +kernel

end Cob.Life
