import Verif.Cobc.Odo
import Verif.Cobc.RenamesProps
/-
C98: OCCURS DEPENDING ON.
-/
namespace Cob.Odo
open Cob.Renames

/-! ### Specification vocabulary -/

/-- `d` is a record that ends in a table of at most `max` occurrences, the entry at the path `p`; `d'` is the same record with `n` occurrences. -/
inductive Ends (max n : Nat) : Dd → Dd → List Nat → Prop
  | elem (size : Nat) (sync : Sync) : Ends max n (.elem size max sync false) (.elem size n sync false) []
  | table (cs : List Dd) : Ends max n (.group max .none false cs) (.group n .none false cs) []
  | down (cs : List Dd) (c c' : Dd) (p : List Nat) (h : Ends max n c c' p) :
      Ends max n (.group 1 .none false (cs ++ [c])) (.group 1 .none false (cs ++ [c'])) (cs.length :: p)

/-- There is no redefinition behind the entries on the path. -/
def NothingBehind : Dd → List Nat → Prop
  | _, [] => True
  | .elem _ _ _ _, _ :: _ => False
  | .group _ _ _ cs, k :: ks => (∀ c, c ∈ cs.drop (k + 1) → c.redef = false) ∧ ∀ c, cs[k]? = some c → NothingBehind c ks

/-! ### Lemmas -/

theorem ends_redef {max n : Nat} {d d' : Dd} {p : List Nat} (h : Ends max n d d' p) : d.redef = false ∧ d'.redef = false := by
  cases h <;> exact ⟨rfl, rfl⟩

theorem placeList_append (cs : List Dd) (c : Dd) (hc : c.redef = false) (foff size poff ptotal : Nat) :
    ∃ o pad, o = foff + (placeList id foff size poff ptotal cs).2 ∧ pad = padOf o (alignOf c.sync (place id o c).size) ∧
      placeList id foff size poff ptotal (cs ++ [c]) =
        ((placeList id foff size poff ptotal cs).1 ++ [(place id o c).move pad], (placeList id foff size poff ptotal cs).2 + (place id o c).total + pad) := by
  induction cs generalizing foff size poff ptotal with
  | nil =>
    refine ⟨_, _, rfl, rfl, ?_⟩
    simp only [List.nil_append, placeList]
    rw [if_neg (by rw [hc]; exact Bool.false_ne_true)]
    simp only [id_eq]
  | cons x xs ih =>
    rw [List.cons_append, placeList, placeList]
    by_cases hx : x.redef = true
    · rw [if_pos hx, if_pos hx]
      simp only
      obtain ⟨o, pad, ho, hp, h⟩ := ih foff (if id (place id poff x).total > ptotal then id (size + (id (place id poff x).total - ptotal)) else size) poff ptotal
      exact ⟨o, pad, ho, hp, by rw [h]; rfl⟩
    · rw [if_neg hx, if_neg hx]
      simp only
      obtain ⟨o, pad, ho, hp, h⟩ := ih foff _ _ _
      exact ⟨o, pad, ho, hp, by rw [h]; rfl⟩

/-- The table, and every item of `l` with its place in `l'`. -/
def Good (max n : Nat) (p : List Nat) (l l' : Lay) : Prop :=
  ∃ t, item l p = some t ∧ t.occurs = max ∧ l.offset ≤ t.offset ∧ l'.offset = l.offset ∧ l'.occurs = (if p = [] then n else 1) ∧
    (l'.size : Int) = (if p = [] then (t.size : Int) else sizeTo l t n) ∧
    ∀ q x, item l q = some x → ∃ x', item l' q = some x' ∧ x'.offset = x.offset ∧
      (¬ (∃ s, p = q ++ s) → x'.size = x.size ∧ x'.occurs = x.occurs) ∧
      (q = p → x'.size = x.size ∧ x'.occurs = n) ∧
      ((∃ s, s ≠ [] ∧ p = q ++ s) → x'.occurs = 1 ∧ (x'.size : Int) = sizeTo x t n)

theorem good_elem (max n size o : Nat) :
    Good max n [] (.mk o size max false []) (.mk o size n false []) := by
  refine ⟨_, rfl, rfl, Nat.le_refl _, rfl, rfl, rfl, fun q x h => ?_⟩
  cases q with
  | nil =>
    simp only [item, Option.some.injEq] at h
    subst h
    exact ⟨_, rfl, rfl, fun h => absurd ⟨[], rfl⟩ h, fun _ => ⟨rfl, rfl⟩, fun ⟨s, hs, h⟩ => absurd h.symm hs⟩
  | cons k ks => simp [item, Lay.children] at h

theorem ends_good {max n : Nat} {d d' : Dd} {p : List Nat} (h : Ends max n d d' p) (off : Nat) :
    Good max n p (place id off d) (place id off d') := by
  induction h generalizing off with
  | elem size sync => exact good_elem max n size off
  | table cs =>
    refine ⟨_, rfl, rfl, Nat.le_refl _, rfl, rfl, rfl, fun q x h => ?_⟩
    cases q with
    | nil =>
      simp only [item, Option.some.injEq] at h
      subst h
      exact ⟨_, rfl, rfl, fun h => absurd ⟨[], rfl⟩ h, fun _ => ⟨rfl, rfl⟩, fun ⟨s, hs, h⟩ => absurd h.symm hs⟩
    | cons k ks =>
      refine ⟨x, h, rfl, fun _ => ⟨rfl, rfl⟩, fun h => by simp at h, fun ⟨s, _, h⟩ => by simp at h⟩
  | down cs c c' p h ih =>
    obtain ⟨hr, hr'⟩ := ends_redef h
    obtain ⟨o, pad, ho, hpad, hl⟩ := placeList_append cs c hr off 0 0 0
    obtain ⟨o', pad', ho', hpad', hl'⟩ := placeList_append cs c' hr' off 0 0 0
    have hoo : o' = o := by rw [ho, ho']
    subst hoo
    clear ho'
    -- the last entry as the loop leaves it
    have hg : Good max n p ((place id o' c).move pad) ((place id o' c').move pad') ∧ pad' = pad := by
      cases h with
      | elem size sync =>
        have : pad' = pad := by rw [hpad, hpad']; rfl
        subst this
        exact ⟨good_elem max n size (o' + pad'), rfl⟩
      | table ds =>
        have e : pad = 0 := by rw [hpad]; exact padOf_one _
        have e' : pad' = 0 := by rw [hpad']; exact padOf_one _
        subst e e'
        rw [Lay.move_zero, Lay.move_zero]
        exact ⟨ih o', rfl⟩
      | down ds b b' q hb =>
        have e : pad = 0 := by rw [hpad]; exact padOf_one _
        have e' : pad' = 0 := by rw [hpad']; exact padOf_one _
        subst e e'
        rw [Lay.move_zero, Lay.move_zero]
        exact ⟨ih o', rfl⟩
    obtain ⟨⟨t, ht, hocc, hle, hoff, hoc', hsz, hall⟩, hpp⟩ := hg
    subst hpp
    have hmo : ((place id o' c).move pad').offset = o' + pad' := by
      show (place id o' c).offset + pad' = _
      rw [place_offset]
    have hmo' : ((place id o' c').move pad').offset = o' + pad' := by
      show (place id o' c').offset + pad' = _
      rw [place_offset]
    have hsz' : ((place id o' c').total : Int) = (t.offset : Int) - (o' + pad') + t.size * n := by
      have e1 : (place id o' c').size = ((place id o' c').move pad').size := rfl
      have e2 : (place id o' c').occurs = ((place id o' c').move pad').occurs := rfl
      have e3 : t.offset = o' + pad' ∨ p ≠ [] := by
        by_cases hp0 : p = []
        · left
          subst hp0
          simp only [item, Option.some.injEq] at ht
          rw [← ht, hmo]
        · exact Or.inr hp0
      unfold Lay.total
      rw [e1, e2, hoc', Int.natCast_mul, hsz]
      by_cases hp0 : p = []
      · rw [if_pos hp0, if_pos hp0]
        rcases e3 with e3 | e3
        · rw [e3]; push_cast; ring
        · exact absurd hp0 e3
      · rw [if_neg hp0, if_neg hp0]
        unfold sizeTo
        rw [hmo]
        push_cast; ring
    have hc1 : (place id off (.group 1 .none false (cs ++ [c]))).children = (placeList id off 0 0 0 cs).1 ++ [(place id o' c).move pad'] := by
      simp only [place, Lay.children, hl]
    have hc2 : (place id off (.group 1 .none false (cs ++ [c']))).children = (placeList id off 0 0 0 cs).1 ++ [(place id o' c').move pad'] := by
      simp only [place, Lay.children, hl']
    have hlen : (placeList id off 0 0 0 cs).1.length = cs.length := by
      have : ∀ (cs : List Dd) (a b c d : Nat), (placeList id a b c d cs).1.length = cs.length := by
        intro cs
        induction cs with
        | nil => intros; rfl
        | cons x xs ih =>
          intro a b c d
          rw [placeList]
          split <;> simp [ih]
      exact this cs _ _ _ _
    have hs2 : (place id off (.group 1 .none false (cs ++ [c']))).size = (placeList id off 0 0 0 cs).2 + (place id o' c').total + pad' := by
      simp only [place, Lay.size, hl']
    have hitem : item (place id off (.group 1 .none false (cs ++ [c]))) (cs.length :: p) = some t := by
      simp only [item, hc1]
      rw [← hlen, List.getElem?_concat_length]
      exact ht
    have hsum : ((place id off (.group 1 .none false (cs ++ [c']))).size : Int) = sizeTo (place id off (.group 1 .none false (cs ++ [c]))) t n := by
      rw [hs2]
      unfold sizeTo
      rw [place_offset]
      push_cast
      rw [hsz']
      have : (o' : Int) = off + (placeList id off 0 0 0 cs).2 := by exact_mod_cast ho
      rw [this]
      ring
    refine ⟨t, hitem, hocc, ?_, ?_, ?_, ?_, fun q x hx => ?_⟩
    · rw [place_offset]; omega
    · rw [place_offset, place_offset]
    · rw [if_neg (by simp)]; simp [place, Lay.occurs]
    · rw [if_neg (by simp)]; exact hsum
    · cases q with
      | nil =>
        simp only [item, Option.some.injEq] at hx
        subst hx
        refine ⟨_, rfl, by rw [place_offset, place_offset], fun h => absurd ⟨_, rfl⟩ h, fun h => by simp at h, fun _ => ⟨by simp [place, Lay.occurs], hsum⟩⟩
      | cons k ks =>
        simp only [item, hc1] at hx
        simp only [item, hc2]
        by_cases hk : k = cs.length
        · subst hk
          rw [← hlen, List.getElem?_concat_length] at hx
          simp only at hx
          rw [← hlen, List.getElem?_concat_length, hlen]
          obtain ⟨x', hx', a1, a2, a3, a4⟩ := hall ks x hx
          refine ⟨x', hx', a1, fun h => a2 fun ⟨s, hs⟩ => h ⟨s, by rw [hs]; rfl⟩, fun h => a3 (by simpa using h), fun ⟨s, hs, h⟩ => a4 ⟨s, hs, by simpa using h⟩⟩
        · have hne : ∀ s, cs.length :: p ≠ (k :: ks) ++ s := fun s h => hk (by simp at h; exact h.1.symm)
          by_cases hlt : k < cs.length
          · rw [List.getElem?_append_left (by rw [hlen]; exact hlt)] at hx ⊢
            exact ⟨x, hx, rfl, fun _ => ⟨rfl, rfl⟩, fun h => absurd (by simpa using h.symm) (hne []), fun ⟨s, _, h⟩ => absurd h (hne s)⟩
          · rw [List.getElem?_eq_none (by rw [List.length_append, hlen]; simp; omega)] at hx
            cases hx

/-! ### Properties -/

/-- C98: a record that ends in the table (an accepted record, see `C98_accepted`): with `n` in the counter the run-time size of every group that contains
the table is the size the group has when the table is declared with `n` occurrences, and there all items are at the same addresses and have the same
sizes; the addresses do not depend on `n`. -/
theorem C98_layout (max n : Nat) (d d' : Dd) (p : List Nat) (h : Ends max n d d' p) (off : Nat) :
    ∃ t, item (layout off d) p = some t ∧ t.occurs = max ∧
      ∀ q x, item (layout off d) q = some x → ∃ x', item (layout off d') q = some x' ∧ x'.offset = x.offset ∧
        (¬ (∃ s, p = q ++ s) → x'.size = x.size ∧ x'.occurs = x.occurs) ∧
        (q = p → x'.size = x.size ∧ x'.occurs = n) ∧
        ((∃ s, s ≠ [] ∧ p = q ++ s) → ∀ inside, groupSize true inside x t n = x'.size ∧ groupSize false false x t n = x'.size ∧
          groupSize false true x t n = x.size) := by
  obtain ⟨t, ht, hocc, _, _, _, _, hall⟩ := ends_good h off
  refine ⟨t, ht, hocc, fun q x hx => ?_⟩
  obtain ⟨x', hx', a1, a2, a3, a4⟩ := hall q x hx
  refine ⟨x', hx', a1, a2, a3, fun hs inside => ?_⟩
  have := (a4 hs).2
  refine ⟨?_, ?_, ?_⟩
  · simp only [groupSize, Bool.true_or, if_true]; exact this.symm
  · simp only [groupSize, Bool.not_false, Bool.or_true, if_true]; exact this.symm
  · simp [groupSize]

/-- C98: the records that are accepted are those, unless redefinitions stand behind the table: whenever the compiler accepts OCCURS DEPENDING for the
entry at `p` and nothing behind it is a redefinition, the record ends in the table; and it accepts all of those. -/
theorem C98_accepted (max : Nat) : ∀ (p : List Nat) (d : Dd) (_ : Plain d) (_ : d.redef = false) (n : Nat)
    (_ : ∀ t, item (layout 0 d) p = some t → t.occurs = max),
    ((odoOk d p = true ∧ NothingBehind d p) ↔ ∃ d', Ends max n d d' p)
  | [], d, hp, hr, n, ht => by
    constructor
    · intro _
      have hm := ht _ rfl
      cases d with
      | elem size occurs sync redef =>
        simp only [Dd.redef] at hr
        simp only [layout, place, Lay.occurs] at hm
        subst hr hm
        exact ⟨_, .elem size sync⟩
      | group occurs sync redef cs =>
        obtain ⟨rfl, _⟩ := hp.groupInv
        simp only [Dd.redef] at hr
        simp only [layout, place, Lay.occurs] at hm
        subst hr hm
        exact ⟨_, .table cs⟩
    · intro _
      exact ⟨by simp [odoOk], by simp [NothingBehind]⟩
  | k :: ks, .elem size occurs sync redef, hp, hr, n, ht => by
    simp only [odoOk, NothingBehind, Bool.false_eq_true, false_and, false_iff]
    rintro ⟨d', h⟩
    cases h
  | k :: ks, .group occurs sync redef cs, hp, hr, n, ht => by
    obtain ⟨rfl, hf, hc⟩ := hp.groupInv
    simp only [Dd.redef] at hr
    subst hr
    simp only [odoOk, NothingBehind, Bool.and_eq_true, decide_eq_true_eq, List.all_eq_true]
    -- the table below the child
    have hsub : ∀ (init : List Dd) (c : Dd), cs = init ++ [c] → init.length = k → c.redef = false →
        ∀ t, item (layout 0 c) ks = some t → t.occurs = max := by
      intro init c hcs hk hcr t hit
      obtain ⟨o, pad, _, _, hl⟩ := placeList_append init c hcr 0 0 0 0
      have hlen : (placeList id 0 0 0 0 init).1.length = k := by
        rw [← hk]
        have : ∀ (cs : List Dd) (a b c d : Nat), (placeList id a b c d cs).1.length = cs.length := by
          intro cs
          induction cs with
          | nil => intros; rfl
          | cons x xs ih =>
            intro a b c d
            rw [placeList]
            split <;> simp [ih]
        exact this init _ _ _ _
      have hch : (layout 0 (.group occurs .none false cs)).children[k]? = some ((place id o c).move pad) := by
        simp only [layout, place, Lay.children, hcs, hl]
        rw [← hlen, List.getElem?_concat_length]
      -- occurrences do not depend on the offset
      have hocc : ∀ (ks : List Nat) (e : Dd) (o1 o2 pad1 pad2 : Nat) (t : Lay), item ((place id o1 e).move pad1) ks = some t →
          ∃ t', item ((place id o2 e).move pad2) ks = some t' ∧ t'.occurs = t.occurs := by
        intro ks
        induction ks with
        | nil =>
          intro e o1 o2 pad1 pad2 t h
          simp only [item, Option.some.injEq] at h
          subst h
          refine ⟨_, rfl, ?_⟩
          cases e <;> rfl
        | cons j js ih =>
          intro e o1 o2 pad1 pad2 t h
          rw [item_move] at h ⊢
          cases e with
          | elem => simp [item, place, Lay.children] at h
          | group oc sy rd es =>
            simp only [item, place, Lay.children] at h ⊢
            have hpl : ∀ (es : List Dd) (j a b c d a' b' c' d' : Nat) (y : Lay), (placeList id a b c d es).1[j]? = some y →
                ∃ e o1 p1 o2 p2, y = (place id o1 e).move p1 ∧ (placeList id a' b' c' d' es).1[j]? = some ((place id o2 e).move p2) := by
              intro es
              induction es with
              | nil => intro j a b c d a' b' c' d' y h; simp [placeList] at h
              | cons x xs ihx =>
                intro j a b c d a' b' c' d' y h
                rw [placeList] at h ⊢
                by_cases hx : x.redef = true
                · rw [if_pos hx] at h ⊢
                  simp only at h ⊢
                  cases j with
                  | zero =>
                    simp only [List.getElem?_cons_zero, Option.some.injEq] at h ⊢
                    exact ⟨x, c, 0, c', 0, by rw [Lay.move_zero]; exact h.symm, (Lay.move_zero _).symm⟩
                  | succ j =>
                    rw [List.getElem?_cons_succ] at h ⊢
                    exact ihx j _ _ _ _ _ _ _ _ y h
                · rw [if_neg hx] at h ⊢
                  simp only at h ⊢
                  cases j with
                  | zero =>
                    simp only [List.getElem?_cons_zero, Option.some.injEq] at h ⊢
                    exact ⟨x, _, _, _, _, h.symm, rfl⟩
                  | succ j =>
                    rw [List.getElem?_cons_succ] at h ⊢
                    exact ihx j _ _ _ _ _ _ _ _ y h
            cases hj : (placeList id o1 0 0 0 es).1[j]? with
            | none => rw [hj] at h; cases h
            | some y =>
              rw [hj] at h
              obtain ⟨e', p1, q1, p2, q2, hy, h2⟩ := hpl es j o1 0 0 0 o2 0 0 0 y hj
              rw [h2]
              simp only at h ⊢
              subst hy
              exact ih e' p1 p2 q1 q2 t h
      obtain ⟨t', ht', he⟩ := hocc ks c 0 o 0 pad t (by rw [Lay.move_zero]; exact hit)
      rw [← he]
      exact ht t' (by simp only [item, hch]; exact ht')
    constructor
    · rintro ⟨⟨⟨h1, h2⟩, h3⟩, h4, h5⟩
      cases hk : cs[k]? with
      | none => rw [hk] at h3; cases h3
      | some c =>
        rw [hk] at h3
        simp only [Bool.and_eq_true, Bool.not_eq_true'] at h3
        have hnil : cs.drop (k + 1) = [] := by
          cases hd : cs.drop (k + 1) with
          | nil => rfl
          | cons y ys =>
            have a := h2 y (by rw [hd]; exact List.mem_cons_self)
            have b := h4 y (by rw [hd]; exact List.mem_cons_self)
            rw [a] at b; cases b
        have hlt : k < cs.length := (List.getElem?_eq_some_iff.1 hk).1
        have hcs : cs = cs.take k ++ [c] := by
          have := List.take_append_drop k cs
          rw [List.drop_eq_getElem_cons hlt, hnil, (List.getElem?_eq_some_iff.1 hk).2] at this
          exact this.symm
        have htl : (cs.take k).length = k := by rw [List.length_take]; omega
        obtain ⟨d', hd'⟩ := (C98_accepted max ks c (hc c (List.mem_of_getElem? hk)) h3.1 n (hsub _ c hcs htl h3.1)).1 ⟨h3.2, h5 c hk⟩
        subst h1
        have := Ends.down (cs.take k) c d' ks hd'
        rw [htl, ← hcs] at this
        exact ⟨_, this⟩
    · rintro ⟨d', h⟩
      cases h with
      | down ds c c' p hh =>
        obtain ⟨hcr, _⟩ := ends_redef hh
        have ih := (C98_accepted max ks c (hc c (by simp)) hcr n (hsub ds c rfl rfl hcr)).2 ⟨_, hh⟩
        have hd : (ds ++ [c]).drop (ds.length + 1) = [] := by
          rw [List.drop_eq_nil_iff]; simp
        rw [hd, List.getElem?_concat_length]
        refine ⟨⟨⟨rfl, by simp⟩, by simp [hcr, ih.1]⟩, by simp, fun x hx => ?_⟩
        simp only [Option.some.injEq] at hx
        subst hx
        exact ih.2

/-- C98: in any record, with a redefinition behind the table or not: the run-time size of a group with the table contains all that stands in front of the
table in the group and the first `n` elements, nothing of the others, and does not go beyond the group as long as the counter is not above the largest
number. -/
theorem C98_cover (d : Dd) (off : Nat) (hp : Plain d) (q s : List Nat) (hs : s ≠ []) (f t : Lay) (hf : item (layout off d) q = some f)
    (ht : item (layout off d) (q ++ s) = some t) (n : Nat) :
    (∀ px x, item (layout off d) px = some x → Under q px → Before (layout off d) px (q ++ s) →
      f.offset ≤ x.offset ∧ (x.offset + x.total : Int) ≤ f.offset + sizeTo f t n) ∧
    (∀ i, i < n → (f.offset : Int) ≤ t.offset + t.size * i ∧ (t.offset + t.size * i + t.size : Int) ≤ f.offset + sizeTo f t n) ∧
    (∀ i, n ≤ i → (f.offset + sizeTo f t n : Int) ≤ t.offset + t.size * i) ∧
    (n ≤ t.occurs → sizeTo f t n ≤ f.size) := by
  have hu := under_in d off hp q (q ++ s) f t hf ht ⟨s, rfl⟩
  have hin := hu.2.2 (by intro h; exact hs (by simpa using h.symm))
  unfold sizeTo
  refine ⟨fun px x hx h1 h2 => ?_, fun i hi => ?_, fun i hi => ?_, fun hn => ?_⟩
  · have a := before_apart d off hp px (q ++ s) x t hx ht h2
    have b := under_in d off hp q px f x hf hx h1
    have : (0 : Int) ≤ t.size * n := Int.mul_nonneg (Int.natCast_nonneg _) (Int.natCast_nonneg _)
    exact ⟨b.1, by omega⟩
  · have e : t.size * i + t.size ≤ t.size * n := by
      have := Nat.mul_le_mul_left t.size (show i + 1 ≤ n from hi)
      rwa [Nat.mul_add, Nat.mul_one] at this
    have e' : (t.size : Int) * i + t.size ≤ t.size * n := by exact_mod_cast e
    have : (0 : Int) ≤ t.size * i := Int.mul_nonneg (Int.natCast_nonneg _) (Int.natCast_nonneg _)
    omega
  · have e : t.size * n ≤ t.size * i := Nat.mul_le_mul_left _ hi
    have e' : (t.size : Int) * n ≤ t.size * i := by exact_mod_cast e
    omega
  · have e : t.size * n ≤ t.total := Nat.mul_le_mul_left _ hn
    have e' : (t.size : Int) * n ≤ t.total := by exact_mod_cast e
    omega

/-- The bytes an elementary item has with the values the counters have. -/
def now (q : Col) : Nat := q.size * q.odo.getD q.occurs

/-- C98 (complex-odo: yes): the run-time size of a group of elementary items is the sum of what they have now, if there are no redefinitions and what
stands behind the first variable table is a variable table too or occurs once (for others see the findings). -/
theorem C98_complex_size (off : Nat) (pre post : List Col) (hpre : ∀ q, q ∈ pre → q.odo = none)
    (hpost : ∀ q, q ∈ post → q.redef = false ∧ (q.odo = none → q.occurs = 1)) (hf : ∀ q, post.head? = some q → q.odo ≠ none) :
    flatSize off (pre ++ post) = off + ((pre ++ post).map now).sum := by
  induction pre generalizing off with
  | nil =>
    simp only [List.nil_append]
    have hs : ∀ l : List Col, (∀ q, q ∈ l → q.redef = false ∧ (q.odo = none → q.occurs = 1)) → sumFrom l = (l.map now).sum := by
      intro l
      induction l with
      | nil => intro _; rfl
      | cons q rest ih =>
        intro h
        rw [sumFrom.eq_def]
        simp only [List.map_cons, List.sum_cons]
        refine congr (congrArg HAdd.hAdd ?_) ?_
        · unfold now
          cases hq : q.odo with
          | some n => rfl
          | none => simp [(h q List.mem_cons_self).2 hq]
        · cases rest with
          | nil => rfl
          | cons r rs =>
            simp only [(h r (List.mem_cons_of_mem _ List.mem_cons_self)).1, Bool.false_eq_true, if_false]
            exact ih fun x hx => h x (List.mem_cons_of_mem _ hx)
    cases post with
    | nil => rfl
    | cons q rest =>
      rw [flatSize]
      cases hq : q.odo with
      | none => exact absurd hq (hf q rfl)
      | some n => simp only; rw [hs _ hpost]
  | cons q rest ih =>
    rw [List.cons_append, flatSize, hpre q List.mem_cons_self]
    simp only [List.map_cons, List.sum_cons]
    rw [ih _ fun x hx => hpre x (List.mem_cons_of_mem _ hx)]
    have : now q = q.size * q.occurs := by unfold now; rw [hpre q List.mem_cons_self]; rfl
    omega

example : flatSize 3 [{ size := 2, occurs := 4 }, { size := 1, occurs := 5, odo := some 2 }, { size := 7 }] = 3 + (8 + (2 + 7)) := by decide +kernel

/-! ### Findings and cases that meet the hypotheses -/

/-- `01 G. 05 N PIC 9(2). 05 H. 10 A PIC X(3). 10 T PIC X(4) OCCURS 1 TO 5 DEPENDING ON N.` -/
def sample (n : Nat) : Dd := .group 1 .none false
  [.elem 2 1 .none false, .group 1 .none false [.elem 3 1 .none false, .elem 4 n .none false]]

theorem sample_ends (n : Nat) : Ends 5 n (sample 5) (sample n) [1, 1] :=
  .down [.elem 2 1 .none false] _ _ _ (.down [.elem 3 1 .none false] _ _ _ (.elem 4 .none))

example : odoOk (sample 5) [1, 1] = true := by decide +kernel

example : ∃ f t, item (layout 0 (sample 5)) [] = some f ∧ item (layout 0 (sample 5)) [1, 1] = some t ∧ groupSize true true f t 2 = 13 ∧
    groupSize false true f t 2 = 25 ∧ (layout 0 (sample 2)).size = 13 := ⟨_, _, rfl, rfl, by decide +kernel, by decide +kernel, by decide +kernel⟩

/-- A table with something behind it is refused. -/
example : odoOk (.group 1 .none false [.elem 1 5 .none false, .elem 2 1 .none false]) [0] = false := by decide +kernel

/-- C98, finding: the counter is not looked at where a group is used (without -debug).  With 9 in N, `MOVE G TO X` reads 41 bytes of the record of 25. -/
theorem C98_finding_counter : ∃ f t, item (layout 0 (sample 5)) [] = some f ∧ item (layout 0 (sample 5)) [1, 1] = some t ∧ f.total = 25 ∧
    groupSize true true f t 9 = 41 := ⟨_, _, rfl, rfl, by decide +kernel, by decide +kernel⟩

/-- C98, finding (complex-odo: yes, so -std=ibm, mvs, mf, bs2000): `05 T PIC X OCCURS 1 TO 5 DEPENDING ON N. 05 Z PIC X(2).` with 2 in N: as a sending
item the group has 4 bytes, but Z is the bytes 5 and 6, so it is not in it. -/
theorem C98_finding_complex_address :
    let cs : List Col := [{ size := 1, occurs := 5, odo := some 2 }, { size := 2 }]
    flatSize 0 cs = 4 ∧ flatAddr cs 1 = 5 := by decide +kernel

/-- C98, finding (complex-odo: yes): a table with a fixed number of occurrences behind the variable one counts with one occurrence: with
`05 Z PIC X(5) OCCURS 3` the group has 7 bytes, not 17. -/
theorem C98_finding_complex_table :
    flatSize 0 [{ size := 1, occurs := 5, odo := some 2 }, { size := 5, occurs := 3 }] = 7 ∧ 2 + 5 * 3 = 17 := by decide +kernel

/-- C98, finding (complex-odo: yes): what follows a redefinition of the variable table is left out. -/
theorem C98_finding_complex_redefines :
    flatSize 0 [{ size := 1, occurs := 5, odo := some 2 }, { size := 1, redef := true }, { size := 8 }] = 2 := by decide +kernel

end Cob.Odo
