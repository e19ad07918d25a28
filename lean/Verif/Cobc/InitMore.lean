import Verif.Cobc.InitProps
import Verif.Cobc.MoveProps
import Verif.Move.SizeProps
import Verif.Cobc.Cond88Props
import Mathlib.Tactic.Positivity
/-
C62: INITIALIZE, the statement as a whole.
-/
namespace Cob

/-! ### Record descriptions -/

inductive RegLay : Lay → Prop
  | mk (o size occurs : Nat) (redef : Bool) (cs : List Lay)
      (hin : ∀ c ∈ cs, o ≤ c.offset ∧ c.offset + c.total ≤ o + size)
      (hord : cs.Pairwise (fun a b => b.redef = false → a.offset + a.total ≤ b.offset))
      (h : ∀ c ∈ cs, RegLay c) : RegLay (.mk o size occurs redef cs)

theorem reg_move {d : Dd} {off : Nat} (hp : Plain d) (h : RegLay (place id off d)) :
    RegLay ((place id off d).move (padOf off (alignOf d.sync (place id off d).size))) := by
  cases d with
  | elem size occurs sync redef =>
    simp only [place, Lay.move, Lay.children]
    exact .mk _ _ _ _ _ (by simp) (by simp) (by simp)
  | group occurs sync redef cs =>
    obtain ⟨rfl, _⟩ := hp.groupInv
    simp only [Dd.sync, alignOf]
    rw [padOf_one, Lay.move_zero]
    exact h

mutual
theorem place_reg : ∀ (d : Dd) (off : Nat), Plain d → RegLay (place id off d)
  | .elem size occurs sync redef, off, _ => by
    simp only [place]
    exact .mk _ _ _ _ _ (by simp) (by simp) (by simp)
  | .group occurs sync redef cs, off, hp => by
    obtain ⟨rfl, hf, hc⟩ := hp.groupInv
    have hn := place_nested _ off hp
    have hd := (C48_ordered_disjoint (C48_disjoint occurs redef cs off hp)).2
    have hl := placeList_reg cs off 0 0 0 hc
    simp only [place] at hn ⊢
    simp only [layout, place, Lay.children] at hd
    cases hn with
    | mk _ _ _ _ _ hin h =>
      refine .mk _ _ _ _ _ hin ?_ hl
      rw [List.pairwise_iff_getElem]
      intro i j hi hj hij hr
      exact hd i j _ _ hij (List.getElem?_eq_getElem hi) (List.getElem?_eq_getElem hj) hr

theorem placeList_reg : ∀ (cs : List Dd) (foff size poff ptotal : Nat), (∀ c, c ∈ cs → Plain c) →
    ∀ l ∈ (placeList id foff size poff ptotal cs).1, RegLay l
  | [], _, _, _, _, _ => by simp [placeList]
  | c :: cs, foff, size, poff, ptotal, hp => by
    have hc := place_reg c
    have hcs := fun size poff ptotal => placeList_reg cs foff size poff ptotal (fun x hx => hp x (by simp [hx]))
    rw [placeList]
    split
    · intro l hl
      rcases List.mem_cons.mp hl with rfl | hl
      · exact hc _ (hp c (by simp))
      · exact hcs _ _ _ l hl
    · intro l hl
      rcases List.mem_cons.mp hl with rfl | hl
      · exact reg_move (hp c (by simp)) (hc _ (hp c (by simp)))
      · exact hcs _ _ _ l hl
end

theorem lays_map (cs : List IFld) : IFld.lays cs = cs.map IFld.lay := by
  induction cs with
  | nil => simp [IFld.lays]
  | cons c cs ih => simp [IFld.lays, ih]

theorem lay_eq (f : IFld) : f.lay = .mk f.info.offset f.info.size f.info.occurs f.info.redef (f.children.map IFld.lay) := by
  cases f
  rw [IFld.lay, lays_map]
  rfl

mutual
theorem lay_regular : ∀ f : IFld, RegLay f.lay → Regular f
  | .mk i cs, h => by
    rw [lay_eq] at h
    cases h with
    | mk _ _ _ _ _ hin hord hsub =>
      refine .mk i cs ?_ ?_ (lays_regular cs (fun c hc => hsub _ (List.mem_map_of_mem hc)))
      · intro c hc
        have := hin c.lay (List.mem_map_of_mem hc)
        rw [lay_eq c] at this
        exact this
      · rw [children_mk, List.pairwise_map] at hord
        refine hord.imp ?_
        intro a b hab
        rw [lay_eq a, lay_eq b] at hab
        exact hab
theorem lays_regular : ∀ cs : List IFld, (∀ c ∈ cs, RegLay c.lay) → ∀ c ∈ cs, Regular c
  | [], _ => by simp
  | c :: cs, h => by
    have hc := lay_regular c (h c (by simp))
    intro x hx
    rcases List.mem_cons.mp hx with rfl | hx
    · exact hc
    · exact lays_regular cs (fun y hy => h y (by simp [hy])) x hx
end

/-! ### Properties -/

/-- C62: every record whose layout is the one of C48 is `Regular`, and so is every item of it. -/
theorem C62_layout (d : Dd) (hp : Plain d) (off : Nat) (f : IFld) (h : f.lay = layout off d) (g : IFld) (hg : Part f g) :
    Regular g := by
  have hf : Regular f := lay_regular f (by rw [h]; exact place_reg d off hp)
  clear h hp
  induction hg with
  | refl f => exact hf
  | sub f c g hc _ ih => exact ih (hf.inv.2.2 c hc)

/-- C62: after INITIALIZE every occurrence of every elementary item of the item named (and, with TO VALUE, of every group with a
VALUE clause) holds what the phrases say, or is unchanged if they do not concern it; outside the item nothing is
changed.  Items subordinate to a redefinition share their storage and do not count. -/
theorem C62_initialize {E : IEnv} (hE : E.Ok) (p : IOpt) (f : IFld) (sh : Nat) (m : Nat → Nat) (hreg : Regular f)
    (hlit : ∀ g, Part f g → g.LitOk) (hred : f.info.redef = true → p.statement = true) :
    (∀ a g, Named p f sh a g → ∃ r, Gets E p g r ∧ Bytes m (initStmt E p sh f m) a g.info.size r) ∧
    ∀ x, ¬ (f.info.offset + sh ≤ x ∧ x < f.info.offset + sh + f.info.size) → initStmt E p sh f m x = m x := by
  obtain ⟨hin, hord, hsub⟩ := hreg.inv
  have htype : initType E p true f = coreType E p f := by
    rw [initType_core]
    cases hr : f.info.redef
    · simp
    · simp [hred hr]
  have hlist := list_done hE p (f.info.offset + f.info.size) sh 0 f.children m
    (fun c hc => ⟨hsub c hc, Lits.child hlit hc, (hin c hc).2⟩) hord
  simp only [List.drop_zero] at hlist
  have hout : ∀ x, ¬ (f.info.offset + sh ≤ x ∧ x < f.info.offset + sh + f.info.size) →
      initList E p (f.info.offset + f.info.size) sh 0 f.children m x = m x := by
    intro x hx
    refine hlist.1 x ?_
    by_cases hle : f.info.offset + sh ≤ x
    · left; omega
    · right
      intro c hc _
      have := (hin c hc).1
      omega
  have hleaf : f.Unit p → coreType E p f = .compound → False := by
    intro hu ht
    rcases (unit_iff _ _).mp hu with hc | hv
    · by_cases hv : (p.val && f.info.value.isSome) = true
      · unfold coreType at ht; rw [if_pos hv] at ht; cases ht
      · rw [core_leaf hc (by simpa using hv)] at ht
        unfold leafType at ht
        split_ifs at ht
        revert ht
        cases f.info.cat with
        | numeric u at' => cases u <;> simp <;> split_ifs <;> simp
        | _ => simp
    · unfold coreType at ht; rw [if_pos hv] at ht; cases ht
  unfold initStmt
  rw [htype]
  simp only
  cases ht : coreType E p f with
  | none =>
    simp only
    refine ⟨?_, fun _ _ => trivial⟩
    intro a g hn
    refine ⟨none, ?_, fun _ _ => rfl⟩
    cases hn with
    | here hu => exact unit_none hu ht
    | sub c _ _ hu hc hr h => exact occ_none h hr ((core_group hu).1 ht c hc)
  | one =>
    obtain ⟨hu, bs, h1, h2, h3⟩ := unit_one hE (hlit f (.refl f)) ht
    simp only [h1]
    refine ⟨?_, fun x hx => putAt_out _ _ _ _ (by rw [h2]; exact hx)⟩
    intro a g hn
    cases hn with
    | here _ => exact ⟨_, h3, bytes_put _ _ _ _ h2⟩
    | sub c _ _ hu' _ _ _ => exact absurd hu hu'
  | dflt =>
    simp only
    cases hb : uniformChar f with
    | none =>
      simp only
      refine ⟨?_, hout⟩
      intro a g hn
      cases hn with
      | here hu =>
        obtain ⟨b, h1, _⟩ := unit_dflt hE hu ht
        rw [h1] at hb; cases hb
      | sub c _ _ hu hc hr h => exact hlist.2 c hc hr a g h
    | some b =>
      simp only
      refine ⟨?_, fun x hx => putAt_out _ _ _ _ (by simpa using hx)⟩
      intro a g hn
      cases hn with
      | here hu =>
        obtain ⟨b', h1, h2⟩ := unit_dflt hE hu ht
        rw [hb] at h1; cases h1
        exact ⟨_, h2, bytes_put _ _ _ _ (by simp)⟩
      | sub c _ _ hu hc hr h =>
        refine ⟨_, occ_dflt hE h hr ((core_group hu).2.1 ht c hc) (uniform_child hb hc hr), by simp, ?_⟩
        intro j hj
        have h1 := occ_in h (hsub c hc)
        have h2 := hin c hc
        rw [List.getElem?_replicate, if_pos hj]
        unfold putAt
        simp only [List.length_replicate]
        rw [if_pos ⟨by omega, by omega⟩, List.getD_eq_getElem?_getD, List.getElem?_replicate, if_pos (by omega)]
        rfl
  | compound =>
    simp only
    refine ⟨?_, hout⟩
    intro a g hn
    cases hn with
    | here hu => exact (hleaf hu ht).elim
    | sub c _ _ hu hc hr h => exact hlist.2 c hc hr a g h

/-- C62: what an item gets is determined by the phrases, its category, size and VALUE clause. -/
theorem C62_gets_unique {E : IEnv} {p : IOpt} {g : IFld} {r r' : Option (List Nat)} (h : Gets E p g r) (h' : Gets E p g r') :
    r = r' := by
  have hval : ∀ v bs bs', valueIs E v g.cat g.info.size bs → valueIs E v g.cat g.info.size bs' → bs = bs' := by
    intro v bs bs' h1 h2
    cases v with
    | fig b => simp only [valueIs] at h1 h2; rw [h1, h2]
    | zero => simp only [valueIs] at h1 h2; split_ifs at h1 h2 <;> rw [h1, h2]
    | null =>
      unfold valueIs at h1 h2
      generalize g.cat = c at h1 h2
      cases c with
      | numeric u a => cases u <;> exact h1.trans h2.symm
      | _ => exact h1.trans h2.symm
    | num k => simp only [valueIs] at h1 h2; rw [h1, h2]
    | text s =>
      apply List.ext_getElem?
      intro j
      by_cases hj : j < g.info.size
      · rw [h1.2 j hj, h2.2 j hj]
      · rw [List.getElem?_eq_none (by have := h1.1; omega), List.getElem?_eq_none (by have := h2.1; omega)]
    | all s =>
      apply List.ext_getElem?
      intro j
      by_cases hj : j < g.info.size
      · rw [h1.2 j hj, h2.2 j hj]
      · rw [List.getElem?_eq_none (by have := h1.1; omega), List.getElem?_eq_none (by have := h2.1; omega)]
  have hnov : ∀ v, p.val = true → g.info.value = some v → ¬ (p.val = false ∨ g.info.value = none) := by
    rintro v h1 h2 (h3 | h3)
    · rw [h1] at h3; cases h3
    · rw [h2] at h3; cases h3
  have hmem : ∀ k s, p.rep[k]? = some (g.cat.cls, s) → ¬ ∀ r ∈ p.rep, r.1 ≠ g.cat.cls :=
    fun k s hk hr => hr _ (List.mem_of_getElem? hk) rfl
  cases h with
  | value v bs hp hv h =>
    cases h' with
    | value v' bs' hp' hv' h' =>
      rw [hv] at hv'; cases hv'
      rw [hval v bs bs' h h']
    | filler hn | replacing _ _ hn | dflt hn | nothing hn => exact absurd hn (hnov v hp hv)
  | filler hn hf hs =>
    cases h' with
    | value v bs hp hv h => exact absurd hn (hnov v hp hv)
    | filler => rfl
    | replacing _ _ _ hf' | dflt _ hf' | nothing _ hf' => exact absurd ⟨hf, hs⟩ hf'
  | replacing k s hn hf hk hfirst =>
    cases h' with
    | value v bs hp hv h => exact absurd hn (hnov v hp hv)
    | filler _ hf' hs => exact absurd ⟨hf', hs⟩ hf
    | replacing k' s' _ _ hk' hfirst' =>
      have : k = k' := by
        rcases Nat.lt_trichotomy k k' with h | h | h
        · exact absurd rfl (hfirst' k h _ hk)
        · exact h
        · exact absurd rfl (hfirst k' h _ hk')
      subst this
      rw [hk] at hk'
      cases hk'
      rfl
    | dflt _ _ hr | nothing _ _ hr => exact absurd hr (hmem k s hk)
  | dflt hn hf hr hd =>
    cases h' with
    | value v bs hp hv h => exact absurd hn (hnov v hp hv)
    | filler _ hf' hs => exact absurd ⟨hf', hs⟩ hf
    | replacing k s _ _ hk => exact absurd hr (hmem k s hk)
    | dflt => rfl
    | nothing _ _ _ hd' => rw [hd] at hd'; cases hd'
  | nothing hn hf hr hd =>
    cases h' with
    | value v bs hp hv h => exact absurd hn (hnov v hp hv)
    | filler _ hf' hs => rfl
    | replacing k s _ _ hk => exact absurd hr (hmem k s hk)
    | dflt _ _ _ hd' => rw [hd] at hd'; cases hd'
    | nothing => rfl

/-- C62: the bytes of MOVE ZERO (DEFAULT, VALUE ZERO) are those of the number zero in a numeric item of any usage. -/
theorem C62_number_zero {E : IEnv} (hE : E.Ok) (u : Usage) (a : Attr) (n : Nat)
    (hw : WFItem ⟨u, ⟨a, List.replicate n 0⟩⟩) : HoldsUnits E.ebc ⟨u, ⟨a, E.mv .zero (.numeric u a) n⟩⟩ 0 := by
  by_cases hu : u = .binary
  · subst hu
    rw [mv_zero_binary hE]
    have h0 : ∀ sw, bytesVal sw (List.replicate n 0) = 0 := by
      intro sw
      have : ∀ k, bytesVal false (List.replicate k 0) = 0 := by
        intro k
        induction k with
        | zero => rfl
        | succ k ih => rw [← leVal_eq] at ih ⊢; simp [List.replicate_succ, leVal, ih]
      cases sw
      · exact this n
      · rw [← leVal_reverse, List.reverse_replicate, leVal_eq]; exact this n
    simp only [HoldsUnits, binaryHolds, h0]
    split
    · have : (0 : Int) < 2 ^ (8 * (List.replicate n 0).length) := by positivity
      simp [this]
    · rfl
  · set l : NumLit := ⟨List.replicate 18 48, 0, 0⟩ with hl
    have hp : l.Proper := ⟨by simp [hl], by
      intro b hb
      have := (List.mem_replicate.mp hb).2
      omega⟩
    obtain ⟨w1, w2, w3, w4⟩ := lit_holds E.ebc l hp
    have hval : l.value = 0 := by
      have : l.units = 0 := by decide
      unfold NumLit.value
      rw [this]; simp
    rw [hval] at w3
    have hi : l.item = ⟨.display, ⟨{ digits := 18 }, List.replicate 18 48⟩⟩ := by decide
    obtain ⟨it, v, h1, h2, h3, h4, h5, t, h6, h7⟩ := C13_move E.ebc E.cut l.item ⟨u, ⟨a, List.replicate n 0⟩⟩ w1 hw 0 w3
      (fun _ => w4) (fun h => absurd h hu)
    rw [hi] at h1
    have h8 : moveNumZero E.ebc E.cut ⟨u, ⟨a, List.replicate n 0⟩⟩ = .done it := by
      rw [C51_zero E.ebc E.cut _ hw (fun h => absurd h hu)]
      exact h1
    rw [hE.zero u a n it h8 (by have := (moveNumZero_same E.ebc E.cut _ it hw h8).2.2; simpa using this)]
    have ht : t = 0 := by
      rw [zero_mul] at h6
      have := isTrunc_unique _ _ _ h6 (isTrunc_int 0)
      exact this
    have hv : v = 0 := by rw [h7, ht]; split <;> simp
    rw [hv] at h5
    simp only at h2 h3
    have : (⟨u, ⟨a, it.field.data⟩⟩ : Item) = it := by
      obtain ⟨u', a', d'⟩ := it
      simp only at h2 h3
      rw [h2, h3]
    rw [this]
    exact h5

/-- C62 (the statement without phrases): INITIALIZE item sets the elementary items other than FILLER to zero or spaces by their
category, and leaves FILLER as it is. -/
theorem C62_plain {E : IEnv} (hE : E.Ok) (f : IFld) (sh : Nat) (m : Nat → Nat) (hreg : Regular f)
    (hlit : ∀ g, Part f g → g.LitOk) (a : Nat) (g : IFld) (hn : Named (emitInit false none [] false) f sh a g) :
    Bytes m (initStmt E (emitInit false none [] false) sh f m) a g.info.size
      (if g.info.filler = true then none else some (defaultIs E g.cat g.info.size)) := by
  obtain ⟨r, h1, h2⟩ := (C62_initialize hE (emitInit false none [] false) f sh m hreg hlit (fun _ => rfl)).1 a g hn
  have : r = if g.info.filler = true then none else some (defaultIs E g.cat g.info.size) := by
    split_ifs with hf
    · exact C62_gets_unique h1 (.filler (.inl rfl) hf rfl)
    · exact C62_gets_unique h1 (.dflt (.inl rfl) (fun h => hf h.1) (by simp [emitInit]) rfl)
  rw [← this]
  exact h2

theorem occ_val {p p' : IOpt} (h : p.val = p'.val) {f : IFld} {sh a : Nat} {g : IFld} (ho : Occ p f sh a g) : Occ p' f sh a g := by
  have hu : ∀ x : IFld, x.Unit p ↔ x.Unit p' := fun x => by unfold IFld.Unit; rw [h]
  induction ho with
  | here f sh k h1 h2 => exact .here f sh k ((hu f).1 h1) h2
  | sub f sh k c a g h1 h2 h3 h4 _ ih => exact .sub f sh k c a g (fun x => h1 ((hu f).2 x)) h2 h3 h4 ih

/-- C62 (the phrases of the statement): `value`: TO VALUE, `rep`: REPLACING, `dflt`: THEN TO DEFAULT, `filler`: WITH FILLER.  An
item with a VALUE clause gets it if TO VALUE is written; a FILLER is left as it is unless WITH FILLER is written; the first
REPLACING phrase for its category counts next; DEFAULT is done if it is written or if no phrase is. -/
theorem C62_phrases {E : IEnv} (hE : E.Ok) (filler : Bool) (value : Option (Option IClass)) (rep : List (IClass × ISrc))
    (dflt : Bool) (f : IFld) (sh : Nat) (m : Nat → Nat) (hreg : Regular f) (hlit : ∀ g, Part f g → g.LitOk)
    (hred : f.info.redef = true → filler = false) (a : Nat) (g : IFld) (hn : Named { val := value.isSome } f sh a g) :
    ∃ r, Bytes m (initStmt E (emitInit filler value rep dflt) sh f m) a g.info.size r ∧
      (∀ v, value ≠ none → g.info.value = some v → ∃ bs, r = some bs ∧ valueIs E v g.cat g.info.size bs) ∧
      (value = none ∨ g.info.value = none →
        if g.info.filler = true ∧ filler = false then r = none
        else if rep.any (fun x => decide (x.1 = g.cat.cls)) = true then
          ∃ (k : Nat) (s : ISrc), rep[k]? = some (g.cat.cls, s) ∧ (∀ i : Nat, i < k → ∀ x : IClass × ISrc, rep[i]? = some x → x.1 ≠ g.cat.cls) ∧
            r = some (E.mv s g.cat g.info.size)
        else if dflt = true ∨ (value = none ∧ rep = []) then r = some (defaultIs E g.cat g.info.size)
        else r = none) := by
  have hn' : Named (emitInit filler value rep dflt) f sh a g := by
    have hu : ∀ x : IFld, x.Unit { val := value.isSome } ↔ x.Unit (emitInit filler value rep dflt) := fun x => Iff.rfl
    cases hn with
    | here h => exact .here ((hu f).1 h)
    | sub c a g h1 h2 h3 h4 => exact .sub c a g (fun x => h1 ((hu f).2 x)) h2 h3 (occ_val (p := { val := value.isSome }) (p' := emitInit filler value rep dflt) rfl h4)
  obtain ⟨r, h1, h2⟩ := (C62_initialize hE (emitInit filler value rep dflt) f sh m hreg hlit
    (fun h => by simp [emitInit, hred h])).1 a g hn'
  refine ⟨r, h2, ?_, ?_⟩
  · intro v hv hg
    cases h1 with
    | value v' bs hp hv' h => rw [hg] at hv'; cases hv'; exact ⟨bs, rfl, h⟩
    | filler hx => simp [emitInit, hv, hg] at hx
    | replacing _ _ hx => simp [emitInit, hv, hg] at hx
    | dflt hx => simp [emitInit, hv, hg] at hx
    | nothing hx => simp [emitInit, hv, hg] at hx
  · intro hno
    have hany : ∀ x ∈ rep, x.1 = g.cat.cls → rep.any (fun x => decide (x.1 = g.cat.cls)) = true := by
      intro x hx he; rw [List.any_eq_true]; exact ⟨x, hx, by simp [he]⟩
    have hnone : (∀ x ∈ rep, x.1 ≠ g.cat.cls) → ¬ rep.any (fun x => decide (x.1 = g.cat.cls)) = true := by
      intro h hc
      rw [List.any_eq_true] at hc
      obtain ⟨x, hx, hy⟩ := hc
      exact h x hx (of_decide_eq_true hy)
    have hfl : (emitInit filler value rep dflt).statement = true ↔ filler = false := by cases filler <;> simp [emitInit]
    have hdf : (emitInit filler value rep dflt).dflt = true ↔ (dflt = true ∨ (value = none ∧ rep = [])) := by
      cases value <;> cases rep <;> cases dflt <;> simp [emitInit]
    cases h1 with
    | value v bs hp hv h =>
      exfalso
      rcases hno with h | h
      · simp [emitInit, h] at hp
      · rw [h] at hv; simp at hv
    | filler _ hf hs => rw [if_pos ⟨hf, hfl.1 hs⟩]
    | replacing k s _ hf hk hfirst =>
      rw [if_neg (fun h => hf ⟨h.1, hfl.2 h.2⟩), if_pos (hany _ (List.mem_of_getElem? hk) rfl)]
      exact ⟨k, s, hk, hfirst, rfl⟩
    | dflt _ hf hr hd =>
      rw [if_neg (fun h => hf ⟨h.1, hfl.2 h.2⟩), if_neg (hnone hr), if_pos (hdf.1 hd)]
    | nothing _ hf hr hd =>
      rw [if_neg (fun h => hf ⟨h.1, hfl.2 h.2⟩), if_neg (hnone hr), if_neg (fun h => by rw [hdf.2 h] at hd; simp at hd)]

/-- C62 (initial values of WORKING-STORAGE): every elementary item, FILLER too, holds its VALUE, or else zero or spaces by its
category. -/
theorem C62_initial_values {E : IEnv} (hE : E.Ok) (f : IFld) (sh : Nat) (m : Nat → Nat) (hreg : Regular f)
    (hlit : ∀ g, Part f g → g.LitOk) (hred : f.info.redef = false) (a : Nat) (g : IFld) (hn : Named (initialOpt true) f sh a g) :
    ∃ bs, Bytes m (initStmt E (initialOpt true) sh f m) a g.info.size (some bs) ∧
      (∀ v, g.info.value = some v → valueIs E v g.cat g.info.size bs) ∧
      (g.info.value = none → bs = defaultIs E g.cat g.info.size) := by
  obtain ⟨r, h1, h2⟩ := (C62_initialize hE (initialOpt true) f sh m hreg hlit (fun h => by rw [hred] at h; cases h)).1 a g hn
  cases h1 with
  | value v bs hp hv h =>
    refine ⟨bs, h2, ?_, ?_⟩
    · intro v' hv'; rw [hv] at hv'; cases hv'; exact h
    · intro hv'; rw [hv] at hv'; cases hv'
  | filler hn hf hs => cases hs
  | replacing k s hn hf hk hfirst => simp [initialOpt] at hk
  | dflt hn hf hr hd =>
    refine ⟨_, h2, ?_, fun _ => rfl⟩
    intro v hv
    rcases hn with hn | hn
    · cases hn
    · rw [hv] at hn; cases hn
  | nothing hn hf hr hd => cases hd

/-! ### A concrete case, and findings -/

/-- A MOVE statement for the examples. -/
def exInitEnv : IEnv where
  mv s c n :=
    match s, c with
    | .zero, .numeric u a =>
      match moveNumZero false true ⟨u, ⟨a, List.replicate n 0⟩⟩ with
      | .done it => it.field.data.take n ++ List.replicate (n - it.field.data.length) 0
      | _ => List.replicate n 0
    | .zero, _ => List.replicate n 48
    | .blank, _ => List.replicate n 32
    | .null, _ => List.replicate n 0
    | .src k, _ => List.replicate n (65 + k)

theorem exInitEnv_ok : exInitEnv.Ok where
  size s c n := by
    cases s <;> cases c <;> simp [exInitEnv]
    rename_i u a
    cases moveNumZero false true ⟨u, ⟨a, List.replicate n 0⟩⟩ <;> simp
    omega
  zero u a n it h hl := by
    have h' : moveNumZero false true ⟨u, ⟨a, List.replicate n 0⟩⟩ = .done it := h
    simp only [exInitEnv, h', hl, Nat.sub_self, List.replicate_zero, List.append_nil]
    rw [← hl, List.take_length]
  text n := ⟨rfl, rfl⟩

/-- 01 R. 02 A PIC X(3). 02 FILLER PIC X. 02 T OCCURS 2. 03 N PIC 9(2). 03 P PIC S9(3) COMP-3. 02 Q REDEFINES T PIC X(9).
02 Z PIC 9(2) VALUE 7. -/
def exInit : IFld :=
  .mk { offset := 0, size := 15 } [
    .mk { offset := 0, size := 3 } [],
    .mk { offset := 3, size := 1, filler := true } [],
    .mk { offset := 4, size := 4, occurs := 2 } [
      .mk { offset := 4, size := 2, cat := .numeric .display { digits := 2 } } [],
      .mk { offset := 6, size := 2, cat := .numeric .packed { digits := 3, haveSign := true } } []],
    .mk { offset := 4, size := 9, redef := true } [],
    .mk { offset := 13, size := 2, cat := .numeric .display { digits := 2 }, value := some (.num 0) } []]

def exInitDd : Dd :=
  .group 1 .none false [.elem 3 1 .none false, .elem 1 1 .none false,
    .group 2 .none false [.elem 2 1 .none false, .elem 2 1 .none false], .elem 9 1 .none true, .elem 2 1 .none false]

theorem exInit_regular : Regular exInit := by
  refine C62_layout exInitDd ?_ 0 exInit (by rfl) exInit (.refl _)
  refine .group _ _ _ (by decide) (by intro c hc; cases hc; rfl) ?_
  have he : ∀ a b r, 1 ≤ b → Plain (.elem a b .none r) := fun a b r h => .elem _ _ _ _ h
  have hg : Plain (.group 2 .none false [.elem 2 1 .none false, .elem 2 1 .none false]) := by
    refine .group _ _ _ (by decide) (by intro c hc; cases hc; rfl) ?_
    simp [he]
  simp [he, hg]

/-- The bytes of the record. -/
def memText (m : Nat → Nat) (n : Nat) : List Nat := (List.range n).map m

/-- C62_initialize is about the second occurrence of P, at address 10. -/
example : (∀ g, Part exInit g → g.LitOk) ∧ Named { dflt := true } exInit 0 10
    (.mk { offset := 6, size := 2, cat := .numeric .packed { digits := 3, haveSign := true } } []) := by
  refine ⟨?_, ?_⟩
  · have hno : ∀ g, Part exInit g → ∀ s, g.info.value ≠ some (.all s) := by
      intro g hg s hs
      have : ∀ f g, Part f g → (f = exInit ∨ f ∈ exInit.children ∨ ∃ c ∈ exInit.children, f ∈ c.children) →
          g.info.value ≠ some (.all s) := by
        intro f g h
        induction h with
        | refl f =>
          simp only [exInit, IFld.children, List.mem_cons, List.not_mem_nil, or_false]
          rintro (rfl | (rfl | rfl | rfl | rfl | rfl) | ⟨c, (rfl | rfl | rfl | rfl | rfl), hc⟩)
          all_goals first
            | simp [IFld.info]; done
            | (simp at hc; done)
            | (simp at hc; rcases hc with rfl | rfl <;> simp [IFld.info])
        | sub f c g hc _ ih =>
          intro hf
          apply ih
          rcases hf with rfl | hf | ⟨d, hd, hf⟩
          · exact .inr (.inl hc)
          · exact .inr (.inr ⟨f, hf, hc⟩)
          · exfalso
            simp only [exInit, IFld.children, List.mem_cons, List.not_mem_nil, or_false] at hd
            rcases hd with rfl | rfl | rfl | rfl | rfl
            all_goals first
              | (simp [IFld.children] at hf; done)
              | (simp [IFld.children] at hf; rcases hf with rfl | rfl <;> simp [IFld.children] at hc)
      exact this exInit g hg (.inl rfl) hs
    intro g hg s hs
    exact absurd hs (hno g hg s)
  · refine .sub (.mk { offset := 4, size := 4, occurs := 2 } [
      .mk { offset := 4, size := 2, cat := .numeric .display { digits := 2 } } [],
      .mk { offset := 6, size := 2, cat := .numeric .packed { digits := 3, haveSign := true } } []]) _ _
      (by simp [IFld.Unit, exInit, IFld.children]) (by simp [exInit, IFld.children]) rfl ?_
    refine .sub _ 0 1 (.mk { offset := 6, size := 2, cat := .numeric .packed { digits := 3, haveSign := true } } []) _ _
      (by simp [IFld.Unit, IFld.children]) (by decide) (by simp [IFld.children]) rfl ?_
    exact .here _ 4 0 (.inl rfl) (by decide)

/-- INITIALIZE R, on a record full of "?" (63): spaces, the FILLER kept, zeros in the table, the byte behind the table (of the
longer redefinition) kept, zeros. -/
example : memText (initStmt exInitEnv { dflt := true } 0 exInit (fun _ => 63)) 16 =
    [32, 32, 32, 63, 48, 48, 0, 12, 48, 48, 0, 12, 63, 48, 48, 63] := by decide +kernel

/-- INITIALIZE R ALL TO VALUE THEN TO DEFAULT. -/
example : memText (initStmt exInitEnv { dflt := true, val := true } 0 exInit (fun _ => 63)) 16 =
    [32, 32, 32, 63, 48, 48, 0, 12, 48, 48, 0, 12, 63, 65, 65, 63] := by decide +kernel

/-- INITIALIZE R REPLACING NUMERIC DATA BY .... -/
example : memText (initStmt exInitEnv { rep := [(.alphabetic, .src 5), (.numeric, .src 2)] } 0 exInit (fun _ => 63)) 16 =
    [63, 63, 63, 63, 67, 67, 67, 67, 67, 67, 67, 67, 63, 67, 67, 63] := by decide +kernel

/-- Finding: INITIALIZE ... WITH FILLER of an item with a REDEFINES clause does nothing; without WITH FILLER it works. -/
theorem C62_finding_filler_redefines :
    let f := IFld.mk { offset := 0, size := 3, redef := true } []
    memText (initStmt exInitEnv { dflt := true, statement := false } 0 f (fun _ => 63)) 3 = [63, 63, 63] ∧
    memText (initStmt exInitEnv { dflt := true } 0 f (fun _ => 63)) 3 = [32, 32, 32] := by decide +kernel

/-- Finding: `NUMERIC TO VALUE` is `ALL TO VALUE`: the category is not looked at, and text items get their values too. -/
theorem C62_finding_category_to_value (filler dflt : Bool) (rep : List (IClass × ISrc)) (c : IClass) :
    emitInit filler (some (some c)) rep dflt = emitInit filler (some none) rep dflt := rfl

/-- Finding: a FILLER with a VALUE clause is set by TO VALUE although WITH FILLER is not written. -/
theorem C62_finding_filler_value :
    let f := IFld.mk { offset := 0, size := 4 } [.mk { offset := 0, size := 2 } [],
      .mk { offset := 2, size := 2, filler := true, value := some (.text [45, 45]) } []]
    memText (initStmt exInitEnv { val := true } 0 f (fun _ => 63)) 4 = [63, 63, 45, 45] := by decide +kernel

/-- Finding: the bytes of a redefinition that extend behind the item it redefines are overwritten if the items around it are
filled by one memset (02 A PIC X. 02 B REDEFINES A PIC X(3). 02 C PIC X.), and kept if not (the second record: C is packed). -/
theorem C62_finding_longer_redefinition :
    memText (initStmt exInitEnv { dflt := true } 0 (.mk { offset := 0, size := 4 } [.mk { offset := 0, size := 1 } [],
      .mk { offset := 0, size := 3, redef := true } [], .mk { offset := 3, size := 1 } []]) (fun _ => 63)) 4 = [32, 32, 32, 32] ∧
    memText (initStmt exInitEnv { dflt := true } 0 (.mk { offset := 0, size := 4 } [
      .mk { offset := 0, size := 1, cat := .numeric .packed { digits := 1 } } [],
      .mk { offset := 0, size := 3, redef := true } [], .mk { offset := 3, size := 1 } []]) (fun _ => 63)) 4 = [15, 63, 63, 32] := by
  decide +kernel

/-- Finding: a numeric-edited item with VALUE ZERO is filled with zeros, whatever its picture; DEFAULT edits the zero
(`exInitEnv` has no editing; the two differ for PIC ZZ9, see C42). -/
theorem C62_finding_edited_zero (E : IEnv) (n : Nat) :
    initOne E { val := true } (.mk { offset := 0, size := n, cat := .numEdited, value := some .zero } []) =
      some (List.replicate n 48) := by
  simp [initOne, valueBytes, IFld.info, IFld.cat, ICat.isDisplay]

end Cob
