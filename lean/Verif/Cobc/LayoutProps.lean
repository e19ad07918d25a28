import Verif.Cobc.Layout
import Verif.Rt.StorageProps
import Mathlib.Tactic.Linarith
import Mathlib.Tactic.Ring
/-
C48: the storage layout of records, and references to table elements.
-/
namespace Cob

/-! ### Specification vocabulary -/

/-- A record description as the compiler accepts it: an item occurs at least once, a redefinition
the entry it redefines (so no group begins with one), and SYNCHRONIZED is written for
elementary items only. -/
inductive Plain : Dd → Prop
  | elem (size occurs : Nat) (sync : Sync) (redef : Bool) (ho : 1 ≤ occurs) :
      Plain (.elem size occurs sync redef)
  | group (occurs : Nat) (redef : Bool) (cs : List Dd) (ho : 1 ≤ occurs) (hfirst : ∀ c, cs.head? = some c →
      c.redef = false) (h : ∀ c, c ∈ cs → Plain c) : Plain (.group occurs .none redef cs)

/-- Every item lies, with all its occurrences, inside one occurrence of its group. -/
inductive Nested : Lay → Prop
  | mk (o size occurs : Nat) (redef : Bool) (cs : List Lay)
      (hin : ∀ c, c ∈ cs → o ≤ c.offset ∧ c.offset + c.total ≤ o + size)
      (h : ∀ c, c ∈ cs → Nested c) : Nested (.mk o size occurs redef cs)

/-- The items of one group: an item that is not a redefinition starts behind everything in front
of it, and a redefinition starts where the item it redefines starts. -/
inductive LaidOut : Nat → Nat → List Lay → Prop
  | nil (e poff : Nat) : LaidOut e poff []
  | next (e poff : Nat) (l : Lay) (ls : List Lay) (hr : l.redef = false) (hb : e ≤ l.offset)
      (h : LaidOut (l.offset + l.total) l.offset ls) : LaidOut e poff (l :: ls)
  | same (e poff : Nat) (l : Lay) (ls : List Lay) (hr : l.redef = true) (hb : l.offset = poff)
      (h : LaidOut (max e (l.offset + l.total)) poff ls) : LaidOut e poff (l :: ls)

/-! ### Lemmas -/

theorem padOf_one (off : Nat) : padOf off 1 = 0 := by
  unfold padOf; rw [if_neg (by omega)]

theorem Lay.move_zero (l : Lay) : l.move 0 = l := by cases l; rfl

theorem Plain.groupInv {occurs : Nat} {sync : Sync} {redef : Bool} {cs : List Dd}
    (h : Plain (.group occurs sync redef cs)) :
    sync = .none ∧ (∀ c, cs.head? = some c → c.redef = false) ∧ ∀ c, c ∈ cs → Plain c := by
  cases h with
  | group _ _ _ _ hf h => exact ⟨rfl, hf, h⟩

/-- The item as the loop leaves it. -/
theorem move_nested {d : Dd} {off : Nat} (hp : Plain d) (hn : Nested (place id off d)) :
    Nested ((place id off d).move (padOf off (alignOf d.sync (place id off d).size))) := by
  cases d with
  | elem size occurs sync redef =>
    simp only [place, Lay.move, Lay.children]
    exact .mk _ _ _ _ _ (by simp) (by simp)
  | group occurs sync redef cs =>
    obtain ⟨rfl, _⟩ := hp.groupInv
    simp only [Dd.sync, alignOf]
    rw [padOf_one, Lay.move_zero]
    exact hn

theorem place_offset (w : Nat → Nat) (off : Nat) (d : Dd) : (place w off d).offset = off := by
  cases d <;> simp [place, Lay.offset]

theorem place_redef (w : Nat → Nat) (off : Nat) (d : Dd) : (place w off d).redef = d.redef := by
  cases d <;> simp [place, Lay.redef, Dd.redef]

mutual
theorem place_nested : ∀ (d : Dd) (off : Nat), Plain d → Nested (place id off d)
  | .elem size occurs sync redef, off, _ => by
    simp only [place]
    exact .mk _ _ _ _ _ (by simp) (by simp)
  | .group occurs sync redef cs, off, hp => by
    obtain ⟨_, hf, hc⟩ := hp.groupInv
    have := placeList_nested cs off 0 0 0 hc (Or.inl hf)
    simp only [place]
    exact .mk _ _ _ _ _ this.2.1 this.2.2.1
theorem placeList_nested : ∀ (cs : List Dd) (foff size poff ptotal : Nat),
    (∀ c, c ∈ cs → Plain c) →
    ((∀ c, cs.head? = some c → c.redef = false) ∨ (foff ≤ poff ∧ poff + ptotal ≤ foff + size)) →
    size ≤ (placeList id foff size poff ptotal cs).2 ∧
    (∀ l, l ∈ (placeList id foff size poff ptotal cs).1 → foff ≤ l.offset ∧
      l.offset + l.total ≤ foff + (placeList id foff size poff ptotal cs).2) ∧
    (∀ l, l ∈ (placeList id foff size poff ptotal cs).1 → Nested l) ∧
    LaidOut (foff + size) poff (placeList id foff size poff ptotal cs).1
  | [], foff, size, poff, ptotal, _, _ => by
    simp only [placeList]
    exact ⟨Nat.le_refl _, by simp, by simp, .nil _ _⟩
  | c :: cs, foff, size, poff, ptotal, hp, hv => by
    have hpc := hp c List.mem_cons_self
    have hps : ∀ d, d ∈ cs → Plain d := fun d hd => hp d (List.mem_cons_of_mem _ hd)
    rw [placeList]
    by_cases hr : c.redef = true
    · rw [if_pos hr]
      simp only [id_eq]
      have hv' : foff ≤ poff ∧ poff + ptotal ≤ foff + size := by
        rcases hv with g | g
        · have := g c rfl
          rw [hr] at this; cases this
        · exact g
      have ho := place_offset id poff c
      have hn := place_nested c poff hpc
      generalize hl : place id poff c = l at ho hn ⊢
      have hrd : l.redef = true := by rw [← hl, place_redef, hr]
      generalize hs' : (if l.total > ptotal then size + (l.total - ptotal) else size) = size'
      have hsz : size ≤ size' ∧ poff + l.total ≤ foff + size' := by
        subst hs'; split <;> omega
      obtain ⟨i1, i2, i3, i4⟩ := placeList_nested cs foff size' poff ptotal hps
        (Or.inr ⟨hv'.1, by omega⟩)
      refine ⟨by omega, ?_, ?_, ?_⟩
      · intro x hx
        rcases List.mem_cons.1 hx with rfl | g
        · rw [ho]; exact ⟨hv'.1, by omega⟩
        · exact i2 x g
      · intro x hx
        rcases List.mem_cons.1 hx with rfl | g
        · exact hn
        · exact i3 x g
      · refine .same _ _ _ _ hrd ho ?_
        have he : max (foff + size) (l.offset + l.total) ≤ foff + size' := by
          rw [ho]; omega
        clear i1 i2 i3
        revert i4
        generalize (placeList id foff size' poff ptotal cs).1 = ls
        intro i4
        clear * - he i4
        generalize foff + size' = e' at *
        generalize max (foff + size) (l.offset + l.total) = e at *
        clear * - he i4
        induction i4 generalizing e with
        | nil => exact .nil _ _
        | next e' p l ls hr hb h ih => exact .next _ _ _ _ hr (by omega) h
        | same e' p l ls hr hb h ih => exact .same _ _ _ _ hr hb (ih _ (by omega))
    · rw [if_neg hr]
      simp only [id_eq]
      have hmv := move_nested hpc (place_nested c (foff + size) hpc)
      have ho := place_offset id (foff + size) c
      generalize hpad : padOf (foff + size) (alignOf c.sync (place id (foff + size) c).size) = pad
        at hmv ⊢
      have hrd : ((place id (foff + size) c).move pad).redef = false := by
        have := place_redef id (foff + size) c
        rw [Bool.not_eq_true] at hr
        rw [hr] at this
        exact this
      have hmo : ((place id (foff + size) c).move pad).offset = foff + size + pad := by
        show (place id (foff + size) c).offset + pad = _
        rw [ho]
      have hmt : ((place id (foff + size) c).move pad).total = (place id (foff + size) c).total := rfl
      generalize (place id (foff + size) c).move pad = m at hmv hrd hmo hmt ⊢
      generalize (place id (foff + size) c).total = t at hmt ⊢
      obtain ⟨i1, i2, i3, i4⟩ := placeList_nested cs foff (size + t + pad) (foff + size + pad) t hps
        (Or.inr ⟨by omega, by omega⟩)
      refine ⟨by omega, ?_, ?_, ?_⟩
      · intro x hx
        rcases List.mem_cons.1 hx with rfl | g
        · rw [hmo, hmt]; omega
        · exact i2 x g
      · intro x hx
        rcases List.mem_cons.1 hx with rfl | g
        · exact hmv
        · exact i3 x g
      · refine .next _ _ _ _ hrd (by omega) ?_
        rw [hmo, hmt]
        have e : foff + (size + t + pad) = foff + size + pad + t := by omega
        rw [e] at i4
        exact i4
end

/-! ### Properties -/

/-- In the layout of every record description: all occurrences of an item lie inside one
occurrence of its group, at every level. -/
theorem C48_nested (d : Dd) (off : Nat) (hp : Plain d) : Nested (layout off d) :=
  place_nested d off hp

/-- The items of a group follow each other without overlap, except that a redefinition starts where
the item it redefines starts; and what follows a redefinition starts behind it too. -/
theorem C48_disjoint (occurs : Nat) (redef : Bool) (cs : List Dd) (off : Nat)
    (hp : Plain (.group occurs .none redef cs)) :
    LaidOut off 0 (layout off (.group occurs .none redef cs)).children := by
  obtain ⟨_, hf, hc⟩ := hp.groupInv
  have := (placeList_nested cs off 0 0 0 hc (Or.inl hf)).2.2.2
  simpa [layout, place, Lay.children] using this

/-- `LaidOut` says that items which are not redefinitions do not overlap. -/
theorem C48_ordered_disjoint {e poff : Nat} {ls : List Lay} (h : LaidOut e poff ls) :
    (∀ l, l ∈ ls → l.redef = false → e ≤ l.offset) ∧
    (∀ (i j : Nat) a b, i < j → ls[i]? = some a → ls[j]? = some b → b.redef = false →
      a.offset + a.total ≤ b.offset) := by
  induction h with
  | nil => exact ⟨by simp, by simp⟩
  | next e poff l ls hr hb h ih =>
    refine ⟨fun x hx hxr => ?_, fun i j a b hij ha hb' hbr => ?_⟩
    · rcases List.mem_cons.1 hx with rfl | g
      · exact hb
      · have := ih.1 x g hxr; omega
    · cases j with
      | zero => omega
      | succ j =>
        rw [List.getElem?_cons_succ] at hb'
        cases i with
        | zero =>
          simp only [List.getElem?_cons_zero, Option.some.injEq] at ha
          subst ha
          exact ih.1 b (List.mem_of_getElem? hb') hbr
        | succ i =>
          rw [List.getElem?_cons_succ] at ha
          exact ih.2 i j a b (by omega) ha hb' hbr
  | same e poff l ls hr hb h ih =>
    refine ⟨fun x hx hxr => ?_, fun i j a b hij ha hb' hbr => ?_⟩
    · rcases List.mem_cons.1 hx with rfl | g
      · rw [hr] at hxr; cases hxr
      · have := ih.1 x g hxr; omega
    · cases j with
      | zero => omega
      | succ j =>
        rw [List.getElem?_cons_succ] at hb'
        cases i with
        | zero =>
          simp only [List.getElem?_cons_zero, Option.some.injEq] at ha
          subst ha
          have := ih.1 b (List.mem_of_getElem? hb') hbr; omega
        | succ i =>
          rw [List.getElem?_cons_succ] at ha
          exact ih.2 i j a b (by omega) ha hb' hbr

theorem mul_range {a n : Int} {s : Int} (ha : 0 ≤ a) (h1 : 1 ≤ s) (h2 : s ≤ n) :
    0 ≤ a * (s - 1) ∧ a * (s - 1) + a ≤ a * n := by
  constructor
  · exact Int.mul_nonneg ha (by omega)
  · have : a * s ≤ a * n := Int.mul_le_mul_of_nonneg_left h2 ha
    have e : a * (s - 1) + a = a * s := by ring
    omega

theorem refAddr_inside : ∀ (path : List Nat) (l : Lay) (subs : List Int) (sh : Int) (t : Lay)
    (a : Int), Nested l → subsAccepted l path subs = true → refAddr l path subs sh = some (t, a) →
    l.offset + sh ≤ a ∧ a + t.size ≤ l.offset + sh + l.total
  | [], l, subs, sh, t, a, hn, hs, hr => by
    match subs with
    | [] => simp [subsAccepted] at hs
    | [s] =>
      simp only [subsAccepted, C35_range] at hs
      simp only [refAddr, Option.some.injEq, Prod.mk.injEq] at hr
      obtain ⟨rfl, rfl⟩ := hr
      have := mul_range (Int.natCast_nonneg l.size) hs.1 hs.2
      simp only [Lay.total, Int.natCast_mul]
      omega
    | _ :: _ :: _ => simp [subsAccepted] at hs
  | k :: ks, l, subs, sh, t, a, hn, hs, hr => by
    match subs with
    | [] => simp [subsAccepted] at hs
    | s :: ss =>
      simp only [subsAccepted, Bool.and_eq_true, C35_range] at hs
      simp only [refAddr] at hr
      cases hc : l.children[k]? with
      | none => rw [hc] at hr; cases hr
      | some c =>
        rw [hc] at hr hs
        simp only at hr hs
        have hmem : c ∈ l.children := List.mem_of_getElem? hc
        obtain ⟨hin, hnc⟩ : (l.offset ≤ c.offset ∧ c.offset + c.total ≤ l.offset + l.size) ∧
            Nested c := by
          cases hn with
          | mk o size occurs redef cs hin h => exact ⟨hin c hmem, h c hmem⟩
        have ih := refAddr_inside ks c ss _ t a hnc hs.2 hr
        have := mul_range (Int.natCast_nonneg l.size) hs.1.1 hs.1.2
        simp only [Lay.total, Int.natCast_mul] at ih hin ⊢
        have h1 : (l.offset : Int) ≤ c.offset := by omega
        have h2 : (c.offset : Int) + c.size * c.occurs ≤ l.offset + l.size := by
          exact_mod_cast hin.2
        omega

/-- Every reference whose subscripts pass the run-time checks lies inside the record, for records
of any depth and any numbers of occurrences. -/
theorem C48_reference_inside (d : Dd) (off : Nat) (hp : Plain d) (path : List Nat)
    (subs : List Int) (t : Lay) (a : Int)
    (hs : subsAccepted (layout off d) path subs = true)
    (hr : refAddr (layout off d) path subs 0 = some (t, a)) :
    (off : Int) ≤ a ∧ a + t.size ≤ off + (layout off d).total := by
  have h := refAddr_inside path _ subs 0 t a (C48_nested d off hp) hs hr
  have : (layout off d).offset = off := place_offset id off d
  rw [this] at h
  omega

theorem refAddr_disjoint : ∀ (path : List Nat) (l : Lay) (ss ss' : List Int) (sh sh' : Int)
    (t t' : Lay) (a a' : Int), Nested l → subsAccepted l path ss = true →
    subsAccepted l path ss' = true → refAddr l path ss sh = some (t, a) →
    refAddr l path ss' sh' = some (t', a') → sh = sh' → ss ≠ ss' →
    a + t.size ≤ a' ∨ a' + t'.size ≤ a
  | [], l, ss, ss', sh, sh', t, t', a, a', hn, hs, hs', hr, hr', hsh, hne => by
    match ss, ss' with
    | [], _ => simp [subsAccepted] at hs
    | [s], [s'] =>
      simp only [refAddr, Option.some.injEq, Prod.mk.injEq] at hr hr'
      obtain ⟨rfl, rfl⟩ := hr
      obtain ⟨rfl, rfl⟩ := hr'
      subst hsh
      have hss : s ≠ s' := fun h => hne (by rw [h])
      rcases Int.lt_or_gt_of_ne hss with g | g
      · left
        have : (l.size : Int) * (s - 1) + l.size ≤ l.size * (s' - 1) := by nlinarith
        omega
      · right
        have : (l.size : Int) * (s' - 1) + l.size ≤ l.size * (s - 1) := by nlinarith
        omega
    | [s], [] => simp [subsAccepted] at hs'
    | [s], _ :: _ :: _ => simp [subsAccepted] at hs'
    | _ :: _ :: _, _ => simp [subsAccepted] at hs
  | k :: ks, l, ss, ss', sh, sh', t, t', a, a', hn, hs, hs', hr, hr', hsh, hne => by
    match ss, ss' with
    | [], _ => simp [subsAccepted] at hs
    | s :: ss, [] => simp [subsAccepted] at hs'
    | s :: ss, s' :: ss' =>
      simp only [subsAccepted, Bool.and_eq_true, C35_range] at hs hs'
      simp only [refAddr] at hr hr'
      cases hc : l.children[k]? with
      | none => rw [hc] at hr; cases hr
      | some c =>
        rw [hc] at hr hr' hs hs'
        simp only at hr hr' hs hs'
        have hmem : c ∈ l.children := List.mem_of_getElem? hc
        obtain ⟨hin, hnc⟩ : (l.offset ≤ c.offset ∧ c.offset + c.total ≤ l.offset + l.size) ∧
            Nested c := by
          cases hn with
          | mk o size occurs redef cs hin h => exact ⟨hin c hmem, h c hmem⟩
        subst hsh
        by_cases e : s = s'
        · subst e
          exact refAddr_disjoint ks c ss ss' _ _ t t' a a' hnc hs.2 hs'.2 hr hr' rfl
            (fun h => hne (by rw [h]))
        · have i1 := refAddr_inside ks c ss _ t a hnc hs.2 hr
          have i2 := refAddr_inside ks c ss' _ t' a' hnc hs'.2 hr'
          have h1 : (l.offset : Int) ≤ c.offset := by omega
          have h2 : (c.offset : Int) + c.total ≤ l.offset + l.size := by exact_mod_cast hin.2
          rcases Int.lt_or_gt_of_ne e with g | g
          · left
            have : (l.size : Int) * (s - 1) + l.size ≤ l.size * (s' - 1) := by nlinarith
            omega
          · right
            have : (l.size : Int) * (s' - 1) + l.size ≤ l.size * (s - 1) := by nlinarith
            omega

/-- Two references to the same item with different accepted subscripts never overlap. -/
theorem C48_elements_disjoint (d : Dd) (off : Nat) (hp : Plain d) (path : List Nat)
    (ss ss' : List Int) (t t' : Lay) (a a' : Int)
    (hs : subsAccepted (layout off d) path ss = true)
    (hs' : subsAccepted (layout off d) path ss' = true)
    (hr : refAddr (layout off d) path ss 0 = some (t, a))
    (hr' : refAddr (layout off d) path ss' 0 = some (t', a')) (hne : ss ≠ ss') :
    a + t.size ≤ a' ∨ a' + t'.size ≤ a :=
  refAddr_disjoint path _ ss ss' 0 0 t t' a a' (C48_nested d off hp) hs hs' hr hr' rfl hne

/-! ### 32-bit arithmetic -/

theorem size_le_total {d : Dd} {off : Nat} (hp : Plain d) :
    (place id off d).size ≤ (place id off d).total := by
  unfold Lay.total
  refine Nat.le_mul_of_pos_right _ ?_
  cases hp with
  | elem _ _ _ _ ho => simp only [place, Lay.occurs]; omega
  | group _ _ _ ho _ _ => simp only [place, Lay.occurs]; omega

mutual
theorem place_w : ∀ (d : Dd) (off : Nat), Plain d →
    off + (place id off d).size < 4294967296 → place (· % 4294967296) off d = place id off d
  | .elem size occurs sync redef, off, _, _ => by simp only [place]
  | .group occurs sync redef cs, off, hp, h => by
    obtain ⟨_, hf, hc⟩ := hp.groupInv
    simp only [place, Lay.size] at h ⊢
    rw [placeList_w cs off 0 0 0 hc (Or.inl hf) h]
theorem placeList_w : ∀ (cs : List Dd) (foff size poff ptotal : Nat), (∀ c, c ∈ cs → Plain c) →
    ((∀ c, cs.head? = some c → c.redef = false) ∨ (foff ≤ poff ∧ poff + ptotal ≤ foff + size)) →
    foff + (placeList id foff size poff ptotal cs).2 < 4294967296 →
    placeList (· % 4294967296) foff size poff ptotal cs = placeList id foff size poff ptotal cs
  | [], foff, size, poff, ptotal, _, _, _ => by simp only [placeList]
  | c :: cs, foff, size, poff, ptotal, hp, hv, h => by
    have hpc := hp c List.mem_cons_self
    have hps : ∀ d, d ∈ cs → Plain d := fun d hd => hp d (List.mem_cons_of_mem _ hd)
    rw [placeList] at h ⊢
    rw [placeList.eq_def id]
    simp only
    by_cases hr : c.redef = true
    · rw [if_pos hr] at h ⊢
      rw [if_pos hr]
      simp only [id_eq] at h ⊢
      have hv' : foff ≤ poff ∧ poff + ptotal ≤ foff + size := by
        rcases hv with g | g
        · have := g c rfl
          rw [hr] at this; cases this
        · exact g
      generalize hs' : (if (place id poff c).total > ptotal then
        size + ((place id poff c).total - ptotal) else size) = size' at h ⊢
      have hsz : size ≤ size' ∧ poff + (place id poff c).total ≤ foff + size' := by
        subst hs'; split <;> omega
      have hmono := (placeList_nested cs foff size' poff ptotal hps
        (Or.inr ⟨hv'.1, by omega⟩)).1
      have hone : poff + (place id poff c).total < 4294967296 := by omega
      have hle := size_le_total (off := poff) hpc
      rw [place_w c poff hpc (by omega), Nat.mod_eq_of_lt (by omega)]
      rw [show (if (place id poff c).total > ptotal then
        (size + ((place id poff c).total - ptotal)) % 4294967296 else size) = size' from by
          rw [← hs']
          split
          · rename_i g
            rw [if_pos g] at hs'
            exact Nat.mod_eq_of_lt (by omega)
          · rfl]
      rw [placeList_w cs foff size' poff ptotal hps (Or.inr ⟨hv'.1, by omega⟩) h]
    · rw [if_neg hr] at h ⊢
      rw [if_neg hr]
      simp only [id_eq] at h ⊢
      have hle := size_le_total (off := foff + size) hpc
      generalize hpad : padOf (foff + size) (alignOf c.sync (place id (foff + size) c).size) = pad
        at h ⊢
      have hmono := (placeList_nested cs foff (size + (place id (foff + size) c).total + pad)
        (foff + size + pad) (place id (foff + size) c).total hps (Or.inr ⟨by omega, by omega⟩)).1
      have e1 : (foff + size) % 4294967296 = foff + size := Nat.mod_eq_of_lt (by omega)
      rw [e1, place_w c (foff + size) hpc (by omega), hpad,
        Nat.mod_eq_of_lt (a := (place id (foff + size) c).total) (by omega),
        Nat.mod_eq_of_lt (a := size + (place id (foff + size) c).total) (by omega),
        Nat.mod_eq_of_lt (a := size + (place id (foff + size) c).total + pad) (by omega),
        placeList_w cs foff _ _ _ hps (Or.inr ⟨by omega, by omega⟩) h]
end

/-- The 32-bit arithmetic of the compiler gives the exact layout for every record below 4 GB. -/
theorem C48_arithmetic (d : Dd) (off : Nat) (hp : Plain d)
    (h : off + (layout off d).size < 4294967296) : layout32 off d = layout off d :=
  place_w d off hp h

/-! ### Where exactly an item goes -/

/-- What SYNCHRONIZED asks for: a binary or floating item of 2, 4 or 8 bytes stands at a multiple of
its size, an index or pointer at a multiple of 4 or 8; anything else may stand anywhere. -/
def Sync.Aligned (s : Sync) (size off : Nat) : Prop :=
  match s with
  | .none => True
  | .bySize => size = 2 ∨ size = 4 ∨ size = 8 → size ∣ off
  | .fixed n => n ∣ off

mutual
/-- The description and its layout: an elementary item occupies its size; the items of a group
follow each other from the start of the group, and the group ends where they end. -/
inductive Placed : Dd → Lay → Prop
  | elem (off size occurs : Nat) (sync : Sync) (redef : Bool) :
      Placed (.elem size occurs sync redef) (.mk off size occurs redef [])
  | group (off fin occurs : Nat) (redef : Bool) (cs : List Dd) (ls : List Lay) (hf : off ≤ fin)
      (h : PlacedAll off 0 0 cs ls fin) :
      Placed (.group occurs .none redef cs) (.mk off (fin - off) occurs redef ls)

/-- The items of a group from position `e` on, behind an item that stands at `poff` and occupies
`ptotal` bytes; they end at `fin`.  An item that is not a redefinition takes the first position from
`e` on where it is aligned.  A redefinition takes the position of the redefined item and adds the
bytes by which it is longer. -/
inductive PlacedAll : Nat → Nat → Nat → List Dd → List Lay → Nat → Prop
  | nil (e poff ptotal : Nat) : PlacedAll e poff ptotal [] [] e
  | next (e poff ptotal : Nat) (d : Dd) (ds : List Dd) (l : Lay) (ls : List Lay) (fin : Nat)
      (hr : d.redef = false) (hd : Placed d l) (hb : e ≤ l.offset)
      (ha : d.sync.Aligned l.size l.offset)
      (hmin : ∀ o, e ≤ o → d.sync.Aligned l.size o → l.offset ≤ o)
      (h : PlacedAll (l.offset + l.total) l.offset l.total ds ls fin) :
      PlacedAll e poff ptotal (d :: ds) (l :: ls) fin
  | same (e poff ptotal : Nat) (d : Dd) (ds : List Dd) (l : Lay) (ls : List Lay) (fin : Nat)
      (hr : d.redef = true) (hd : Placed d l) (ho : l.offset = poff)
      (h : PlacedAll (e + (l.total - ptotal)) poff ptotal ds ls fin) :
      PlacedAll e poff ptotal (d :: ds) (l :: ls) fin
end

/-- Alignments of an index or a pointer are not zero. -/
inductive GoodSync : Dd → Prop
  | elem (size occurs : Nat) (sync : Sync) (redef : Bool) (h : ∀ n, sync = .fixed n → 0 < n) :
      GoodSync (.elem size occurs sync redef)
  | group (occurs : Nat) (sync : Sync) (redef : Bool) (cs : List Dd) (hs : ∀ n, sync = .fixed n → 0 < n)
      (h : ∀ c, c ∈ cs → GoodSync c) : GoodSync (.group occurs sync redef cs)

theorem pad_least (e a : Nat) (ha : 0 < a) :
    a ∣ e + padOf e a ∧ ∀ o, e ≤ o → a ∣ o → e + padOf e a ≤ o := by
  have hm := Nat.mod_lt e ha
  have hd := Nat.div_add_mod e a
  unfold padOf
  by_cases h : e % a = 0
  · rw [if_neg (by omega)]
    exact ⟨Nat.dvd_of_mod_eq_zero (by simpa using h), fun o ho _ => by omega⟩
  · rw [if_pos h]
    have e1 : e + (a - e % a) = a * (e / a + 1) := by
      rw [Nat.mul_add, Nat.mul_one]; omega
    refine ⟨⟨_, e1⟩, ?_⟩
    rintro o ho ⟨k, rfl⟩
    rw [e1]
    apply Nat.mul_le_mul_left
    by_contra hk
    have : a * k ≤ a * (e / a) := Nat.mul_le_mul_left _ (by omega)
    omega

theorem aligned_iff (s : Sync) (size off : Nat) : s.Aligned size off ↔ alignOf s size ∣ off := by
  cases s with
  | none => simp [Sync.Aligned, alignOf]
  | bySize =>
    unfold Sync.Aligned alignOf
    by_cases h : size = 2 ∨ size = 4 ∨ size = 8
    · simp [h]
    · simp [h]
  | fixed n => simp [Sync.Aligned, alignOf]

theorem GoodSync.pos {d : Dd} (h : GoodSync d) (size : Nat) : 0 < alignOf d.sync size := by
  have key : ∀ s : Sync, (∀ n, s = .fixed n → 0 < n) → 0 < alignOf s size := by
    intro s hs
    cases s with
    | none => simp [alignOf]
    | bySize => simp only [alignOf]; split <;> omega
    | fixed n => exact hs n rfl
  cases h with
  | elem _ _ _ _ h => exact key _ h
  | group _ _ _ _ hs _ => exact key _ hs

theorem Placed.moved {d : Dd} {l : Lay} (hp : Plain d) (h : Placed d l) (pad : Nat)
    (hz : d.sync = .none → pad = 0) : Placed d (l.move pad) := by
  cases h with
  | elem off size occurs sync redef => exact .elem _ _ _ _ _
  | group off fin occurs redef cs ls hf h =>
    have : pad = 0 := hz rfl
    subst this
    exact .group _ _ _ _ _ _ hf h

mutual
theorem place_placed : ∀ (d : Dd) (off : Nat), Plain d → GoodSync d → Placed d (place id off d)
  | .elem size occurs sync redef, off, _, _ => by
    simp only [place]
    exact .elem _ _ _ _ _
  | .group occurs sync redef cs, off, hp, hg => by
    obtain ⟨hs, hf, hc⟩ := hp.groupInv
    have hgc : ∀ c, c ∈ cs → GoodSync c := by cases hg with | group _ _ _ _ _ h => exact h
    subst hs
    have := placeList_placed cs off 0 0 0 hc hgc
    have e : (place id off (.group occurs .none redef cs)) =
        .mk off ((off + (placeList id off 0 0 0 cs).2) - off) occurs redef (placeList id off 0 0 0 cs).1 := by
      rw [Nat.add_sub_cancel_left]; simp only [place]
    rw [e]
    exact .group _ _ _ _ _ _ (by omega) this
theorem placeList_placed : ∀ (cs : List Dd) (foff size poff ptotal : Nat),
    (∀ c, c ∈ cs → Plain c) → (∀ c, c ∈ cs → GoodSync c) →
    PlacedAll (foff + size) poff ptotal cs (placeList id foff size poff ptotal cs).1
      (foff + (placeList id foff size poff ptotal cs).2)
  | [], foff, size, poff, ptotal, _, _ => by
    simp only [placeList]
    exact .nil _ _ _
  | c :: cs, foff, size, poff, ptotal, hp, hg => by
    have hpc := hp c List.mem_cons_self
    have hgc := hg c List.mem_cons_self
    have hps : ∀ d, d ∈ cs → Plain d := fun d hd => hp d (List.mem_cons_of_mem _ hd)
    have hgs : ∀ d, d ∈ cs → GoodSync d := fun d hd => hg d (List.mem_cons_of_mem _ hd)
    rw [placeList]
    by_cases hr : c.redef = true
    · rw [if_pos hr]
      simp only [id_eq]
      refine .same _ _ _ _ _ _ _ _ hr (place_placed c poff hpc hgc) (place_offset id poff c) ?_
      have hs : (if (place id poff c).total > ptotal then size + ((place id poff c).total - ptotal) else size)
          = size + ((place id poff c).total - ptotal) := by split <;> omega
      rw [hs, Nat.add_assoc]
      exact placeList_placed cs foff _ poff ptotal hps hgs
    · rw [if_neg hr]
      simp only [id_eq]
      rw [Bool.not_eq_true] at hr
      have ho := place_offset id (foff + size) c
      have hpl := place_placed c (foff + size) hpc hgc
      obtain ⟨hd, hm⟩ := pad_least (foff + size) _ (hgc.pos (place id (foff + size) c).size)
      have hz : c.sync = .none →
          padOf (foff + size) (alignOf c.sync (place id (foff + size) c).size) = 0 := by
        intro h; rw [h]; exact padOf_one _
      have hmo : ∀ pad, ((place id (foff + size) c).move pad).offset = foff + size + pad := by
        intro pad
        show (place id (foff + size) c).offset + pad = _
        rw [ho]
      refine .next _ _ _ _ _ _ _ _ hr (hpl.moved hpc _ hz) ?_ ?_ ?_ ?_
      · rw [hmo]; omega
      · rw [hmo]; exact (aligned_iff _ _ _).2 hd
      · intro o h1 h2
        rw [hmo]
        exact hm o h1 ((aligned_iff _ _ _).1 h2)
      · rw [hmo]
        have := placeList_placed cs foff
          (size + (place id (foff + size) c).total + padOf (foff + size) (alignOf c.sync (place id (foff + size) c).size))
          (foff + size + padOf (foff + size) (alignOf c.sync (place id (foff + size) c).size))
          (place id (foff + size) c).total hps hgs
        rw [show foff + (size + (place id (foff + size) c).total +
            padOf (foff + size) (alignOf c.sync (place id (foff + size) c).size)) =
          foff + size + padOf (foff + size) (alignOf c.sync (place id (foff + size) c).size) +
            (place id (foff + size) c).total by omega] at this
        exact this
end

/-- Every item goes to the first position behind what is in front of it where it is aligned as its
SYNCHRONIZED clause asks (directly behind it when there is none), a redefinition goes where the item
it redefines is, and a group ends where its last item ends. -/
theorem C48_placed (d : Dd) (off : Nat) (hp : Plain d) (hg : GoodSync d) : Placed d (layout off d) :=
  place_placed d off hp hg

/-! ### Examples and findings -/

/-- 01 R. 05 A PIC X. 05 T OCCURS 3. 10 B PIC X(2). 10 C PIC 9(9) COMP SYNC OCCURS 2.
05 D PIC X(4). 05 E REDEFINES D PIC X(6). 05 F PIC X. -/
def sampleRecord : Dd :=
  .group 1 .none false [.elem 1 1 .none false,
    .group 3 .none false [.elem 2 1 .none false, .elem 4 2 .bySize false],
    .elem 4 1 .none false, .elem 6 1 .none true, .elem 1 1 .none false]

theorem sampleRecord_plain : Plain sampleRecord := by
  refine .group _ _ _ (by decide) (by simp [Dd.redef]) ?_
  intro c hc
  simp only [List.mem_cons, List.not_mem_nil, or_false] at hc
  rcases hc with rfl | rfl | rfl | rfl | rfl
  · exact .elem _ _ _ _ (by decide)
  · refine .group _ _ _ (by decide) (by simp [Dd.redef]) ?_
    intro c hc
    simp only [List.mem_cons, List.not_mem_nil, or_false] at hc
    rcases hc with rfl | rfl <;> exact .elem _ _ _ _ (by decide)
  · exact .elem _ _ _ _ (by decide)
  · exact .elem _ _ _ _ (by decide)
  · exact .elem _ _ _ _ (by decide)

example : subsAccepted (layout 0 sampleRecord) [1, 1] [1, 3, 2] = true ∧
    (refAddr (layout 0 sampleRecord) [1, 1] [1, 3, 2] 0).map (·.2) = some 30 ∧
    (layout 0 sampleRecord).size = 41 := by decide

/-- SYNCHRONIZED at a group of usage BINARY moves the group and not its items:
01 R. 05 A PIC X. 05 G USAGE BINARY SYNC. 10 B PIC 9(9). puts G at offset 4 and B at offset 1. -/
theorem C48_finding_sync_group :
    (layout 0 (.group 1 .none false [.elem 1 1 .none false,
      .group 1 .bySize false [.elem 4 1 .none false]])).children.map
      (fun g => (g.offset, g.children.map Lay.offset)) = [(0, []), (4, [1])] := by decide

theorem sampleRecord_good : GoodSync sampleRecord := by
  refine .group _ _ _ _ (by simp) ?_
  intro c hc
  simp only [List.mem_cons, List.not_mem_nil, or_false] at hc
  rcases hc with rfl | rfl | rfl | rfl | rfl
  · exact .elem _ _ _ _ (by simp)
  · refine .group _ _ _ _ (by simp) ?_
    intro c hc
    simp only [List.mem_cons, List.not_mem_nil, or_false] at hc
    rcases hc with rfl | rfl <;> exact .elem _ _ _ _ (by simp)
  · exact .elem _ _ _ _ (by simp)
  · exact .elem _ _ _ _ (by simp)
  · exact .elem _ _ _ _ (by simp)

/-- Two redefinitions that are both longer than the redefined item are both added up: 01 R. 05 A PIC X.
05 B REDEFINES A PIC X(3). 05 C REDEFINES A PIC X(3). 05 D PIC X. has 6 bytes and D stands at offset 5,
although offsets 3 and 4 belong to no item. -/
theorem C48_finding_two_redefinitions :
    (layout 0 (.group 1 .none false [.elem 1 1 .none false, .elem 3 1 .none true, .elem 3 1 .none true,
      .elem 1 1 .none false])).size = 6 ∧
    (layout 0 (.group 1 .none false [.elem 1 1 .none false, .elem 3 1 .none true, .elem 3 1 .none true,
      .elem 1 1 .none false])).children.map (fun g => (g.offset, g.size)) =
      [(0, 1), (0, 3), (0, 3), (5, 1)] := by decide

/-- A table of 65536 elements of 65536 bytes has size 0: the product wraps around, and the check
for an oversized record does not see it. -/
theorem C48_finding_wrap :
    (layout32 0 (.group 1 .none false [.elem 65536 65536 .none false])).size = 0 := by decide

end Cob
