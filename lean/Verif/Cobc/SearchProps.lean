import Verif.Cobc.Search
import Mathlib.Order.Basic
import Mathlib.Data.Int.Order.Basic
import Mathlib.Tactic.ByContra
/-
C57: SEARCH and SEARCH ALL.
-/
namespace Cob

/-! ### Specification -/

/-- A three-way comparison for an order: negative, zero or positive. -/
def LawfulCmp {α : Type} [LinearOrder α] (cmp : α → α → Int) : Prop :=
  ∀ a b, (cmp a b < 0 ↔ a < b) ∧ (cmp a b = 0 ↔ a = b)

/-- The condition is true while the index is `i`. -/
def SCond.Holds {α : Type} [LinearOrder α] : SCond α → Int → Prop
  | .eq x y, i => x.read i = y.read i
  | .and a b, i => a.Holds i ∧ b.Holds i
  | .name88 p vs, i => ∃ v ∈ vs, match v with
    | (v, none) => p.read i = v.read i
    | (lo, some hi) => lo.read i ≤ p.read i ∧ p.read i ≤ hi.read i
  | .other, _ => False

/-- `x` is the key item `f` of the element the index points at: `col f i` is its value in
element `i`. -/
def IsKey {α : Type} (col : Nat → Int → α) (f : Nat) (x : SOp α) : Prop :=
  x.fld = some f ∧ x.read = col f ∧ x.raw = false

/-- `x` is no key and its value does not depend on the index. -/
def IsConst {α : Type} (ks : List KeyDecl) (x : SOp α) : Prop :=
  (∀ k ∈ ks, x.fld ≠ some k.fld) ∧ (∃ v, ∀ i, x.read i = v) ∧ x.raw = false

/-- A condition as the manual wants it: `key = value` joined by AND, or a condition-name of a key
with one value. `fs` are the keys mentioned. With `rhs` also `value = key`. -/
inductive KeyCond {α : Type} (rhs : Bool) (ks : List KeyDecl) (col : Nat → Int → α) :
    SCond α → List Nat → Prop
  | eq {f x y} : f ∈ ks.map KeyDecl.fld → IsKey col f x → IsConst ks y →
      KeyCond rhs ks col (.eq x y) [f]
  | flipped {f x y} : rhs = true → f ∈ ks.map KeyDecl.fld → IsConst ks x → IsKey col f y →
      KeyCond rhs ks col (.eq x y) [f]
  | name88 {f p v} : f ∈ ks.map KeyDecl.fld → IsKey col f p → IsConst ks v →
      KeyCond rhs ks col (.name88 p [(v, none)]) [f]
  | and {a b fa fb} : KeyCond rhs ks col a fa → KeyCond rhs ks col b fb →
      KeyCond rhs ks col (.and a b) (fa ++ fb)

/-- Element `a` may stand before element `b`: the keys compare in their declared order, each in
its direction. -/
def LexLe {α : Type} [LinearOrder α] : List KeyDecl → (Nat → α) → (Nat → α) → Prop
  | [], _, _ => True
  | k :: ks, a, b => (if k.desc then b k.fld < a k.fld else a k.fld < b k.fld) ∨
      (a k.fld = b k.fld ∧ LexLe ks a b)

/-- Elements 1 to `n` of the table are in key order. -/
def InOrder {α : Type} [LinearOrder α] (ks : List KeyDecl) (col : Nat → Int → α) (n : Int) : Prop :=
  ∀ i j, 1 ≤ i → i < j → j ≤ n → LexLe ks (fun f => col f i) (fun f => col f j)

/-! ### The conditions -/

section
variable {α : Type} [LinearOrder α]

/-- Strictly before. -/
def LexLt : List KeyDecl → (Nat → α) → (Nat → α) → Prop
  | [], _, _ => False
  | k :: ks, a, b => (if k.desc then b k.fld < a k.fld else a k.fld < b k.fld) ∨
      (a k.fld = b k.fld ∧ LexLt ks a b)

theorem LexLe.take {ks : List KeyDecl} {a b : Nat → α} (h : LexLe ks a b) (m : Nat) :
    LexLe (ks.take m) a b := by
  induction ks generalizing m with
  | nil => simpa using h
  | cons k ks ih =>
    cases m with
    | zero => trivial
    | succ m =>
      simp only [List.take_succ_cons, LexLe] at h ⊢
      exact h.imp_right fun h => ⟨h.1, ih h.2 m⟩

theorem LexLe.trans_lt {ks : List KeyDecl} {a b c : Nat → α} (h : LexLe ks a b)
    (h' : LexLt ks b c) : LexLt ks a c := by
  induction ks with
  | nil => exact h'
  | cons k ks ih =>
    simp only [LexLe, LexLt] at h h' ⊢
    rcases h with h | ⟨h, hr⟩ <;> rcases h' with h' | ⟨h', hr'⟩
    · left; cases hd : k.desc <;> simp [hd] at h h' ⊢
      · exact lt_trans h h'
      · exact lt_trans h' h
    · left; rw [← h']; exact h
    · left; rw [h]; exact h'
    · exact Or.inr ⟨h.trans h', ih hr hr'⟩

theorem LexLt.trans_le {ks : List KeyDecl} {a b c : Nat → α} (h : LexLt ks a b)
    (h' : LexLe ks b c) : LexLt ks a c := by
  induction ks with
  | nil => exact h
  | cons k ks ih =>
    simp only [LexLe, LexLt] at h h' ⊢
    rcases h with h | ⟨h, hr⟩ <;> rcases h' with h' | ⟨h', hr'⟩
    · left; cases hd : k.desc <;> simp [hd] at h h' ⊢
      · exact lt_trans h h'
      · exact lt_trans h' h
    · left; rw [← h']; exact h
    · left; rw [h]; exact h'
    · exact Or.inr ⟨h.trans h', ih hr hr'⟩

theorem LexLt.ne {ks : List KeyDecl} {a b : Nat → α} (h : LexLt ks a b) :
    ∃ k ∈ ks, a k.fld ≠ b k.fld := by
  induction ks with
  | nil => exact h.elim
  | cons k ks ih =>
    rcases h with h | ⟨_, hr⟩
    · refine ⟨k, by simp, ?_⟩
      cases hd : k.desc <;> simp [hd] at h
      · exact ne_of_lt h
      · exact ne_of_gt h
    · obtain ⟨k', hk', hne⟩ := ih hr
      exact ⟨k', by simp [hk'], hne⟩

/-! ### Which keys are recorded -/

/-- Change one entry. -/
def updSlot {β : Type} (σ : Nat → Option β) (f : Nat) (v : Option β) : Nat → Option β :=
  fun g => if g = f then v else σ g

omit [LinearOrder α] in
theorem findKey_mem {ks : List KeyDecl} (hnd : (ks.map KeyDecl.fld).Nodup) {f : Nat}
    (hf : f ∈ ks.map KeyDecl.fld) : ∃ i, findKey ks (some f) = some i ∧
      ∀ {β : Type} (σ : Nat → Option β) (v : Option β),
        (ks.map fun k => σ k.fld).set i v = ks.map fun k => updSlot σ f v k.fld := by
  induction ks with
  | nil => simp at hf
  | cons k ks ih =>
    simp only [List.map_cons, List.nodup_cons] at hnd
    by_cases h : f = k.fld
    · subst h
      refine ⟨0, by simp [findKey], fun σ v => ?_⟩
      simp only [List.map_cons, List.set_cons_zero, updSlot, if_true]
      congr 1
      refine List.map_congr_left fun k' hk' => ?_
      rw [if_neg]
      intro he
      exact hnd.1 (he ▸ List.mem_map_of_mem hk')
    · have hf' : f ∈ ks.map KeyDecl.fld := by
        simp only [List.map_cons, List.mem_cons] at hf
        exact hf.resolve_left h
      obtain ⟨i, hi, hset⟩ := ih hnd.2 hf'
      refine ⟨i + 1, by simp [findKey, h, hi], fun σ v => ?_⟩
      simp only [List.map_cons, List.set_cons_succ, hset]
      congr 1
      simp [updSlot, Ne.symm h]

omit [LinearOrder α] in
theorem findKey_const {ks : List KeyDecl} {x : SOp α} (h : IsConst ks x) :
    findKey ks x.fld = none := by
  replace h := h.1
  revert h
  induction ks with
  | nil => exact fun _ => rfl
  | cons k ks ih =>
    intro h
    simp only [findKey, if_neg (h k (by simp)), ih fun k hk => h k (by simp [hk]), Option.map_none]

/-- The entry recorded for key `f`: compare its column with the value `tv f`. -/
def SlotFor (col : Nat → Int → α) (tv : Nat → α) (f : Nat) (s : Option (SOp α × SOp α)) : Prop :=
  ∃ x y, s = some (x, y) ∧ IsKey col f x ∧ (∀ i, y.read i = tv f) ∧ y.raw = false

theorem setKeys_spec {rhs : Bool} {ks : List KeyDecl} {col : Nat → Int → α} {c : SCond α}
    {fs : List Nat} (hc : KeyCond rhs ks col c fs) (hnd : (ks.map KeyDecl.fld).Nodup)
    (hfs : fs.Nodup) : ∃ tv : Nat → α, (∀ i, c.Holds i ↔ ∀ f ∈ fs, col f i = tv f) ∧
      ∀ σ : Nat → Option (SOp α × SOp α), ∃ σ' : Nat → Option (SOp α × SOp α),
        setKeys rhs ks c (ks.map fun k => σ k.fld) = some (ks.map fun k => σ' k.fld) ∧
        (∀ f ∈ fs, SlotFor col tv f (σ' f)) ∧ ∀ f, f ∉ fs → σ' f = σ f := by
  induction hc with
  | @eq f x y hf hx hy =>
    obtain ⟨v, hv⟩ := hy.2.1
    refine ⟨fun _ => v, fun i => by simp [SCond.Holds, hx.2.1, hv], fun σ => ?_⟩
    obtain ⟨i, hi, hset⟩ := findKey_mem hnd hf
    refine ⟨updSlot σ f (some (x, y)), ?_, ?_, ?_⟩
    · simp only [setKeys, setKey, hx.1, hi, hset]
    · intro g hg
      rw [List.mem_singleton] at hg
      subst hg
      exact ⟨x, y, by simp [updSlot], hx, hv, hy.2.2⟩
    · intro g hg
      simp only [List.mem_singleton] at hg
      simp [updSlot, hg]
  | @flipped f x y hr hf hx hy =>
    obtain ⟨v, hv⟩ := hx.2.1
    refine ⟨fun _ => v, fun i => by simp [SCond.Holds, hy.2.1, hv, eq_comm], fun σ => ?_⟩
    obtain ⟨i, hi, hset⟩ := findKey_mem hnd hf
    refine ⟨updSlot σ f (some (y, x)), ?_, ?_, ?_⟩
    · simp only [setKeys, setKey, findKey_const hx, hr, if_true, hy.1, hi, hset]
    · intro g hg
      rw [List.mem_singleton] at hg
      subst hg
      exact ⟨y, x, by simp [updSlot], hy, hv, hx.2.2⟩
    · intro g hg
      simp only [List.mem_singleton] at hg
      simp [updSlot, hg]
  | @name88 f x y hf hx hy =>
    obtain ⟨v, hv⟩ := hy.2.1
    refine ⟨fun _ => v, fun i => by simp [SCond.Holds, hx.2.1, hv], fun σ => ?_⟩
    obtain ⟨i, hi, hset⟩ := findKey_mem hnd hf
    refine ⟨updSlot σ f (some (x, y)), ?_, ?_, ?_⟩
    · simp only [setKeys, setKey, hx.1, hi, hset]
    · intro g hg
      rw [List.mem_singleton] at hg
      subst hg
      exact ⟨x, y, by simp [updSlot], hx, hv, hy.2.2⟩
    · intro g hg
      simp only [List.mem_singleton] at hg
      simp [updSlot, hg]
  | @and a b fa fb _ _ iha ihb =>
    rw [List.nodup_append] at hfs
    obtain ⟨hna, hnb, hdis⟩ := hfs
    obtain ⟨ta, hta, hsa⟩ := iha hna
    obtain ⟨tb, htb, hsb⟩ := ihb hnb
    have hnot : ∀ f ∈ fa, f ∉ fb := fun f hf hb => hdis f hf f hb rfl
    refine ⟨fun f => if f ∈ fb then tb f else ta f, fun i => ?_, fun σ => ?_⟩
    · simp only [SCond.Holds, hta, htb, List.mem_append]
      constructor
      · rintro ⟨ha, hb⟩ f (hf | hf)
        · simp only [if_neg (hnot f hf), ha f hf]
        · simp only [if_pos hf, hb f hf]
      · intro h
        refine ⟨fun f hf => ?_, fun f hf => ?_⟩
        · simpa only [if_neg (hnot f hf)] using h f (Or.inl hf)
        · simpa only [if_pos hf] using h f (Or.inr hf)
    · obtain ⟨σ1, h1, h1s, h1n⟩ := hsa σ
      obtain ⟨σ2, h2, h2s, h2n⟩ := hsb σ1
      refine ⟨σ2, by simp only [setKeys, h1, Option.bind_some, h2], ?_, ?_⟩
      · intro f hf
        rw [List.mem_append] at hf
        by_cases hb : f ∈ fb
        · obtain ⟨x, y, he, hx, hy⟩ := h2s f hb
          exact ⟨x, y, he, hx, by simpa only [if_pos hb] using hy⟩
        · obtain ⟨x, y, he, hx, hy⟩ := h1s f (hf.resolve_right hb)
          exact ⟨x, y, (h2n f hb).trans he, hx, by simpa only [if_neg hb] using hy⟩
      · intro f hf
        simp only [List.mem_append, not_or] at hf
        rw [h2n f hf.2, h1n f hf.1]

/-! ### What the test tells -/

theorem evalConj_none {cmp : α → α → Int} {ks : List KeyDecl} {σ : Nat → Option (SOp α × SOp α)}
    (h : ∀ k ∈ ks, σ k.fld = none) : buildCmps cmp ks (ks.map fun k => σ k.fld) = [] := by
  induction ks with
  | nil => rfl
  | cons k ks ih =>
    simp only [List.map_cons, h k (by simp), buildCmps]
    exact ih fun k hk => h k (by simp [hk])

theorem evalConj_spec {cmp : α → α → Int} (hl : LawfulCmp cmp) {col : Nat → Int → α}
    {tv : Nat → α} {σ : Nat → Option (SOp α × SOp α)} (ks : List KeyDecl) (m : Nat)
    (h1 : ∀ k ∈ ks.take m, SlotFor col tv k.fld (σ k.fld))
    (h2 : ∀ k ∈ ks.drop m, σ k.fld = none) (i r : Int) :
    let e := evalConj (buildCmps cmp ks (ks.map fun k => σ k.fld)) i r
    (e.1 = true ∧ ∀ k ∈ ks.take m, col k.fld i = tv k.fld) ∨
    (e.1 = false ∧ e.2 < 0 ∧ LexLt (ks.take m) (fun f => col f i) tv) ∨
    (e.1 = false ∧ 0 < e.2 ∧ LexLt (ks.take m) tv (fun f => col f i)) := by
  induction ks generalizing m r with
  | nil => left; simp [buildCmps, evalConj]
  | cons k ks ih =>
    cases m with
    | zero =>
      rw [List.drop_zero] at h2
      rw [evalConj_none h2]
      left; simp [evalConj]
    | succ m =>
      simp only [List.take_succ_cons, List.mem_cons, forall_eq_or_imp, List.drop_succ_cons] at h1 h2
      obtain ⟨⟨x, y, hs, ⟨hxf, hxr, hxw⟩, hy, hyw⟩, h1⟩ := h1
      simp only [List.map_cons, hs, buildCmps, hxw, hyw, Bool.or_self, Bool.not_false, evalConj,
        if_true, List.take_succ_cons, List.mem_cons, forall_eq_or_imp, LexLt, hxr, hy]
      have hx := hl (col k.fld i) (tv k.fld)
      have hx' := hl (tv k.fld) (col k.fld i)
      rcases lt_trichotomy (col k.fld i) (tv k.fld) with hlt | heq | hgt
      · have ha : cmp (col k.fld i) (tv k.fld) < 0 := hx.1.2 hlt
        have hb : ¬ cmp (tv k.fld) (col k.fld i) < 0 := fun h => lt_asymm hlt (hx'.1.1 h)
        have hc : ¬ cmp (tv k.fld) (col k.fld i) = 0 := fun h => ne_of_gt hlt (hx'.2.1 h)
        right
        cases hd : k.desc
        · left
          simp only [Bool.false_eq_true, if_false]
          rw [if_neg (by omega)]
          exact ⟨rfl, ha, Or.inl hlt⟩
        · right
          simp only [if_true]
          rw [if_neg hc]
          exact ⟨rfl, by show 0 < cmp _ _; omega, Or.inl hlt⟩
      · have ha : cmp (col k.fld i) (tv k.fld) = 0 := hx.2.2 heq
        have hb : cmp (tv k.fld) (col k.fld i) = 0 := hx'.2.2 heq.symm
        have key : ∀ v : Int, v = 0 →
            (if v = 0 then evalConj (buildCmps cmp ks (ks.map fun k => σ k.fld)) i v else (false, v))
              = evalConj (buildCmps cmp ks (ks.map fun k => σ k.fld)) i 0 := by
          rintro _ rfl; rfl
        have := ih m h1 h2 0
        cases hd : k.desc
        · simp only [Bool.false_eq_true, if_false, key _ ha]
          rcases this with h | h | h
          · exact Or.inl ⟨h.1, heq, h.2⟩
          · exact Or.inr (Or.inl ⟨h.1, h.2.1, Or.inr ⟨heq, h.2.2⟩⟩)
          · exact Or.inr (Or.inr ⟨h.1, h.2.1, Or.inr ⟨heq.symm, h.2.2⟩⟩)
        · simp only [if_true, key _ hb]
          rcases this with h | h | h
          · exact Or.inl ⟨h.1, heq, h.2⟩
          · exact Or.inr (Or.inl ⟨h.1, h.2.1, Or.inr ⟨heq, h.2.2⟩⟩)
          · exact Or.inr (Or.inr ⟨h.1, h.2.1, Or.inr ⟨heq.symm, h.2.2⟩⟩)
      · have ha : cmp (tv k.fld) (col k.fld i) < 0 := hx'.1.2 hgt
        have hb : ¬ cmp (col k.fld i) (tv k.fld) < 0 := fun h => lt_asymm hgt (hx.1.1 h)
        have hc : ¬ cmp (col k.fld i) (tv k.fld) = 0 := fun h => ne_of_gt hgt (hx.2.1 h)
        right
        cases hd : k.desc
        · right
          simp only [Bool.false_eq_true, if_false]
          rw [if_neg hc]
          exact ⟨rfl, by show 0 < cmp _ _; omega, Or.inl hgt⟩
        · left
          simp only [if_true]
          rw [if_neg (by omega)]
          exact ⟨rfl, ha, Or.inl hgt⟩

theorem evalConj_true {cmp : α → α → Int} (hl : LawfulCmp cmp) {col : Nat → Int → α}
    {tv : Nat → α} {fs : List Nat} {σ : Nat → Option (SOp α × SOp α)}
    (h1 : ∀ f ∈ fs, SlotFor col tv f (σ f)) (h2 : ∀ f, f ∉ fs → σ f = none) (i : Int)
    (ks : List KeyDecl) (r : Int)
    (h : (evalConj (buildCmps cmp ks (ks.map fun k => σ k.fld)) i r).1 = true) :
    ∀ k ∈ ks, k.fld ∈ fs → col k.fld i = tv k.fld := by
  induction ks generalizing r with
  | nil => simp
  | cons k ks ih =>
    simp only [List.mem_cons, forall_eq_or_imp]
    by_cases hk : k.fld ∈ fs
    · obtain ⟨x, y, hs, ⟨hxf, hxr, hxw⟩, hy, hyw⟩ := h1 _ hk
      simp only [List.map_cons, hs, buildCmps, hxw, hyw, Bool.or_self, Bool.not_false, evalConj,
        if_true, hxr, hy] at h
      have hx := (hl (col k.fld i) (tv k.fld)).2
      have hx' := (hl (tv k.fld) (col k.fld i)).2
      cases hd : k.desc
      · simp only [hd, Bool.false_eq_true, if_false] at h
        by_cases h0 : cmp (col k.fld i) (tv k.fld) = 0
        · rw [if_pos h0] at h
          exact ⟨fun _ => hx.1 h0, ih _ h⟩
        · rw [if_neg h0] at h; cases h
      · simp only [hd, if_true] at h
        by_cases h0 : cmp (tv k.fld) (col k.fld i) = 0
        · rw [if_pos h0] at h
          exact ⟨fun _ => (hx'.1 h0).symm, ih _ h⟩
        · rw [if_neg h0] at h; cases h
    · simp only [List.map_cons, h2 _ hk, buildCmps] at h
      exact ⟨fun h => absurd h hk, ih _ h⟩

theorem KeyCond.declared {rhs : Bool} {ks : List KeyDecl} {col : Nat → Int → α} {c : SCond α}
    {fs : List Nat} (hc : KeyCond rhs ks col c fs) : ∀ f ∈ fs, f ∈ ks.map KeyDecl.fld := by
  induction hc with
  | eq h | flipped _ h | name88 h => intro f hf; rw [List.mem_singleton] at hf; exact hf ▸ h
  | and _ _ iha ihb => exact fun f hf => (List.mem_append.1 hf).elim (iha f) (ihb f)

end

/-! ### The loop -/

theorem mid_bounds {h t : Int} (hh : -1 ≤ h) (hlt : ¬ h ≥ t - 1) :
    h < (h + t).tdiv 2 ∧ (h + t).tdiv 2 < t ∧ (h + t).tdiv 2 = (h + t) / 2 := by
  have : (h + t).tdiv 2 = (h + t) / 2 := Int.tdiv_eq_ediv_of_nonneg (by omega)
  rw [this]
  refine ⟨by omega, by omega, rfl⟩

/-- Whatever the comparisons say: the loop ends, looks only between `head` and `tail`, and
takes WHEN only where the test is true. -/
theorem allLoop_total (cs : List SCmp) : ∀ (n : Nat) (h t idx ret : Int) (ps : List Int),
    -1 ≤ h → t - h ≤ n → 0 < n → ∃ r qs, allLoop cs n h t idx ret ps = some r ∧
      r.probes = qs ++ ps ∧ (∀ q ∈ qs, h < q ∧ q < t) ∧
      (r.found = true → h < r.idx ∧ r.idx < t ∧ ∃ ret', (evalConj cs r.idx ret').1 = true) ∧
      ∀ k : Nat, t - h ≤ 2 ^ k → qs.length ≤ k
  | 0, _, _, _, _, _, _, _, h0 => absurd h0 (by omega)
  | n + 1, h, t, idx, ret, ps, hh, hn, _ => by
    simp only [allLoop]
    by_cases hend : h ≥ t - 1
    · rw [if_pos hend]
      exact ⟨_, [], rfl, rfl, by simp, by simp, by simp⟩
    · rw [if_neg hend]
      obtain ⟨m1, m2, m3⟩ := mid_bounds hh hend
      have hk : ∀ k : Nat, t - h ≤ 2 ^ k → ∃ k', k = k' + 1 ∧ t - h ≤ 2 * 2 ^ k' := by
        intro k hk
        cases k with
        | zero => simp at hk; omega
        | succ k => exact ⟨k, rfl, by rw [Int.pow_succ] at hk; omega⟩
      generalize hi : (h + t).tdiv 2 = i at *
      by_cases he : (evalConj cs i ret).1 = true
      · rw [if_pos he]
        refine ⟨_, [i], rfl, rfl, by simp [m1, m2], fun _ => ⟨m1, m2, ret, he⟩, ?_⟩
        intro k hk'
        obtain ⟨k', rfl, _⟩ := hk k hk'
        simp
      · rw [if_neg he]
        by_cases hr : (evalConj cs i ret).2 < 0
        · rw [if_pos hr]
          obtain ⟨r, qs, e1, e2, e3, e4, e5⟩ := allLoop_total cs n i t i (evalConj cs i ret).2
            (i :: ps) (by omega) (by omega) (by omega)
          refine ⟨r, qs ++ [i], e1, by simp [e2], ?_, ?_, ?_⟩
          · intro q hq
            simp only [List.mem_append, List.mem_singleton] at hq
            rcases hq with hq | rfl
            · have := e3 q hq; omega
            · omega
          · intro hf
            obtain ⟨a, b, c⟩ := e4 hf
            exact ⟨by omega, b, c⟩
          · intro k hk'
            obtain ⟨k', rfl, hk''⟩ := hk k hk'
            have := e5 k' (by omega)
            simp; omega
        · rw [if_neg hr]
          obtain ⟨r, qs, e1, e2, e3, e4, e5⟩ := allLoop_total cs n h i i (evalConj cs i ret).2
            (i :: ps) hh (by omega) (by omega)
          refine ⟨r, qs ++ [i], e1, by simp [e2], ?_, ?_, ?_⟩
          · intro q hq
            simp only [List.mem_append, List.mem_singleton] at hq
            rcases hq with hq | rfl
            · have := e3 q hq; omega
            · omega
          · intro hf
            obtain ⟨a, b, c⟩ := e4 hf
            exact ⟨a, by omega, c⟩
          · intro k hk'
            obtain ⟨k', rfl, hk''⟩ := hk k hk'
            have := e5 k' (by omega)
            simp; omega

/-- With a test that orders the elements, nothing is missed. -/
theorem allLoop_complete {cs : List SCmp} {N : Int} {pre post hit : Int → Prop}
    (ht : ∀ i r, ((evalConj cs i r).1 = true ∧ hit i) ∨
      ((evalConj cs i r).1 = false ∧ (evalConj cs i r).2 < 0 ∧ pre i) ∨
      ((evalConj cs i r).1 = false ∧ 0 < (evalConj cs i r).2 ∧ post i))
    (hpre : ∀ i j, 1 ≤ i → i < j → j ≤ N → pre j → pre i)
    (hpost : ∀ i j, 1 ≤ i → i < j → j ≤ N → post i → post j)
    (hph : ∀ i, pre i → ¬ hit i) (hqh : ∀ i, post i → ¬ hit i) :
    ∀ (n : Nat) (h t idx ret : Int) (ps : List Int), 0 ≤ h → t ≤ N + 1 →
      (∀ i, 1 ≤ i → i ≤ h → i ≤ N → ¬ hit i) → (∀ i, t ≤ i → 1 ≤ i → i ≤ N → ¬ hit i) →
      ∀ r, allLoop cs n h t idx ret ps = some r →
      r.found = false → ∀ i, 1 ≤ i → i ≤ N → ¬ hit i
  | 0, _, _, _, _, _, _, _, _, _, r, hr => by simp [allLoop] at hr
  | n + 1, h, t, idx, ret, ps, hh, htN, hlo, hhi, r, hr => by
    simp only [allLoop] at hr
    by_cases hend : h ≥ t - 1
    · intro _ i h1 h2
      by_cases hi : i ≤ h
      · exact hlo i h1 hi h2
      · exact hhi i (by omega) h1 h2
    · rw [if_neg hend] at hr
      obtain ⟨m1, m2, m3⟩ := mid_bounds (by omega) hend
      generalize hi : (h + t).tdiv 2 = i at *
      rcases ht i ret with ⟨e, hh'⟩ | ⟨e, hs, hp⟩ | ⟨e, hs, hp⟩
      · rw [if_pos e] at hr
        injection hr with hr
        intro hf; subst hr; simp at hf
      · simp only [e, Bool.false_eq_true, if_false, if_pos hs] at hr
        refine allLoop_complete ht hpre hpost hph hqh n i t _ _ _ (by omega) htN ?_ hhi r hr
        intro j h1 h2 h3
        by_cases hj : j = i
        · subst hj; exact hph _ hp
        · exact hph _ (hpre j i h1 (by omega) (by omega) hp)
      · simp only [e, Bool.false_eq_true, if_false,
          if_neg (show ¬ (evalConj cs i ret).2 < 0 by omega)] at hr
        refine allLoop_complete ht hpre hpost hph hqh n h i _ _ _ hh (by omega) hlo ?_ r hr
        intro j h1 h2 h3
        by_cases hj : j = i
        · subst hj; exact hqh _ hp
        · exact hqh _ (hpost i j (by omega) (by omega) h3 hp)

/-! ### SEARCH ALL -/

section
variable {α : Type} [LinearOrder α]

/-- **SEARCH ALL finds the element.** A table with `OCCURS` minimum 1 whose elements 1 to
`occurs` are in key order; a condition `key = value AND …` about the first `m` declared keys, each
once, in any order: the search ends; when it takes WHEN, the index points at an element in use
that satisfies the condition; when it takes AT END, no element in use satisfies it. -/
theorem C57_search_all {cmp : α → α → Int} (hl : LawfulCmp cmp) {rhs : Bool} {t : STable}
    {col : Nat → Int → α} {c : SCond α} {fs : List Nat} {m : Nat}
    (hc : KeyCond rhs t.keys col c fs) (hnd : (t.keys.map KeyDecl.fld).Nodup) (hfs : fs.Nodup)
    (hm : ∀ f, f ∈ fs ↔ f ∈ (t.keys.take m).map KeyDecl.fld)
    (hsorted : InOrder t.keys col t.occurs) (hmin : t.min = 1) (h0 : 0 ≤ t.occurs)
    (turns : Nat) (hturns : t.occurs + 1 ≤ turns) (idx ret : Int) :
    ∃ r, searchAll cmp rhs t c turns idx ret = some r ∧
      (r.found = true → 1 ≤ r.idx ∧ r.idx ≤ t.occurs ∧ c.Holds r.idx) ∧
      (r.found = false → ∀ i, 1 ≤ i → i ≤ t.occurs → ¬ c.Holds i) := by
  obtain ⟨tv, htv, hset⟩ := setKeys_spec hc hnd hfs
  obtain ⟨σ, hσ, h1, h2⟩ := hset fun _ => none
  have hs1 : ∀ k ∈ t.keys.take m, SlotFor col tv k.fld (σ k.fld) := fun k hk =>
    h1 _ ((hm _).2 (List.mem_map_of_mem hk))
  have hs2 : ∀ k ∈ t.keys.drop m, σ k.fld = none := by
    intro k hk
    refine h2 _ fun hf => ?_
    have hmem := (hm _).1 hf
    rw [← List.take_append_drop m t.keys, List.map_append, List.nodup_append] at hnd
    exact hnd.2.2 _ hmem _ (List.mem_map_of_mem hk) rfl
  have hspec := evalConj_spec (cmp := cmp) hl t.keys m hs1 hs2
  have hhit : ∀ i, c.Holds i ↔ ∀ k ∈ t.keys.take m, col k.fld i = tv k.fld := by
    intro i
    rw [htv]
    constructor
    · exact fun h k hk => h _ ((hm _).2 (List.mem_map_of_mem hk))
    · intro h f hf
      obtain ⟨k, hk, rfl⟩ := List.mem_map.1 ((hm f).1 hf)
      exact h k hk
  obtain ⟨r, qs, e1, -, -, e4, -⟩ := allLoop_total
    (buildCmps cmp t.keys (t.keys.map fun k => σ k.fld)) turns (t.min - 1) (t.occurs + 1) idx ret []
    (by omega) (by omega) (by omega)
  refine ⟨r, ?_, ?_, ?_⟩
  · simp only [searchAll, hσ, Option.bind_some, e1]
  · intro hf
    obtain ⟨a, b, ret', ht⟩ := e4 hf
    refine ⟨by omega, by omega, (hhit _).2 ?_⟩
    rcases hspec r.idx ret' with h | h | h
    · exact h.2
    · rw [h.1] at ht; cases ht
    · rw [h.1] at ht; cases ht
  · intro hf i hi1 hi2
    rw [hhit]
    refine allLoop_complete (N := t.occurs)
      (pre := fun i => LexLt (t.keys.take m) (fun f => col f i) tv)
      (post := fun i => LexLt (t.keys.take m) tv (fun f => col f i)) hspec ?_ ?_ ?_ ?_
      turns (t.min - 1) (t.occurs + 1) idx ret [] (by omega) (by omega) ?_ ?_ r e1 hf i hi1 hi2
    · exact fun i j a b d hj => ((hsorted i j a b d).take m).trans_lt hj
    · exact fun i j a b d hj => hj.trans_le ((hsorted i j a b d).take m)
    · intro i hp hh
      obtain ⟨k, hk, hne⟩ := hp.ne
      exact hne (hh k hk)
    · intro i hp hh
      obtain ⟨k, hk, hne⟩ := hp.ne
      exact hne (hh k hk).symm
    · intro j a b; omega
    · intro j a b; omega

/-- **SEARCH ALL never takes WHEN wrongly**, in order or not and whatever keys are mentioned (each
once), as long as the minimum of OCCURS is at least 1. -/
theorem C57_search_all_sound {cmp : α → α → Int} (hl : LawfulCmp cmp) {rhs : Bool} {t : STable}
    {col : Nat → Int → α} {c : SCond α} {fs : List Nat}
    (hc : KeyCond rhs t.keys col c fs) (hnd : (t.keys.map KeyDecl.fld).Nodup) (hfs : fs.Nodup)
    (hmin : 1 ≤ t.min) (turns : Nat) (idx ret : Int) (r : SRes)
    (hr : searchAll cmp rhs t c turns idx ret = some r) (hf : r.found = true) :
    1 ≤ r.idx ∧ r.idx ≤ t.occurs ∧ c.Holds r.idx := by
  obtain ⟨tv, htv, hset⟩ := setKeys_spec hc hnd hfs
  obtain ⟨σ, hσ, h1, h2⟩ := hset fun _ => none
  simp only [searchAll, hσ, Option.bind_some] at hr
  have hmono : ∀ (cs : List SCmp) (n : Nat) (h t idx ret : Int) (ps : List Int) (r : SRes),
      0 ≤ h → allLoop cs n h t idx ret ps = some r → r.found = true →
      h < r.idx ∧ r.idx < t ∧ ∃ ret', (evalConj cs r.idx ret').1 = true := by
    intro cs n
    induction n with
    | zero => intro h t idx ret ps r _ hr; simp [allLoop] at hr
    | succ n ih =>
      intro h t idx ret ps r hh hr hf
      simp only [allLoop] at hr
      by_cases hend : h ≥ t - 1
      · rw [if_pos hend] at hr
        injection hr with hr
        subst hr; cases hf
      · rw [if_neg hend] at hr
        obtain ⟨m1, m2, m3⟩ := mid_bounds (by omega) hend
        generalize hi : (h + t).tdiv 2 = i at *
        by_cases he : (evalConj cs i ret).1 = true
        · rw [if_pos he] at hr
          injection hr with hr
          subst hr
          exact ⟨m1, m2, ret, he⟩
        · rw [if_neg he] at hr
          by_cases hs : (evalConj cs i ret).2 < 0
          · rw [if_pos hs] at hr
            obtain ⟨a, b, d⟩ := ih _ _ _ _ _ _ (by omega) hr hf
            exact ⟨by omega, b, d⟩
          · rw [if_neg hs] at hr
            obtain ⟨a, b, d⟩ := ih _ _ _ _ _ _ hh hr hf
            exact ⟨a, by omega, d⟩
  obtain ⟨a, b, ret', ht⟩ := hmono _ _ _ _ _ _ _ r (by omega) hr hf
  refine ⟨by omega, by omega, (htv _).2 fun f hff => ?_⟩
  obtain ⟨k, hk, rfl⟩ := List.mem_map.1 (hc.declared f hff)
  exact evalConj_true hl h1 h2 r.idx t.keys ret' ht k hk hff

/-- **SEARCH ALL ends, stays inside the table and is quick**: for every accepted condition, every
content of the table and every minimum of OCCURS from 1 up, the elements looked at are elements in
use, and if there are fewer than `2 ^ k` of them at most `k` are looked at. -/
theorem C57_search_all_bounds (cmp : α → α → Int) (rhs : Bool) (t : STable) (c : SCond α)
    (hacc : (setKeys rhs t.keys c (t.keys.map fun _ => none)).isSome = true)
    (hmin : 1 ≤ t.min) (turns : Nat) (hturns : t.occurs + 1 ≤ turns) (h0 : 0 ≤ t.occurs)
    (idx ret : Int) :
    ∃ r, searchAll cmp rhs t c turns idx ret = some r ∧
      (∀ p ∈ r.probes, 1 ≤ p ∧ p ≤ t.occurs) ∧
      ∀ k : Nat, t.occurs < 2 ^ k → r.probes.length ≤ k := by
  obtain ⟨s, hs⟩ := Option.isSome_iff_exists.1 hacc
  obtain ⟨r, qs, e1, e2, e3, -, e5⟩ := allLoop_total (buildCmps cmp t.keys s) turns (t.min - 1)
    (t.occurs + 1) idx ret [] (by omega) (by omega) (by omega)
  refine ⟨r, by simp only [searchAll, hs, Option.bind_some, e1], ?_, ?_⟩
  · intro p hp
    rw [e2, List.append_nil] at hp
    have := e3 p hp
    omega
  · intro k hk
    rw [e2, List.append_nil]
    exact e5 k (by omega)

end

/-! ### Serial SEARCH -/

/-- The variables when the index `i` has reached `j`: the other VARYING operand holds the index's
value as soon as the index has moved. -/
def reached (store : Int → Int) (i : Nat) (var : Option Nat) (e : SEnv) (j : Int) : SEnv :=
  fun w => if w = i then j
    else if some w = var ∧ j ≠ e i then store j
    else e w

theorem serialStep_reached (store : Int → Int) (i : Nat) (var : Option Nat) (e : SEnv) (j : Int)
    (hj : e i ≤ j) :
    serialStep store i var (reached store i var e j) = reached store i var e (j + 1) := by
  have hne : j + 1 ≠ e i := by omega
  funext w
  cases var with
  | none => by_cases hw : w = i <;> simp [serialStep, reached, SEnv.set, hw]
  | some v =>
    by_cases hv : v = i
    · subst hv
      by_cases hw : w = v <;> simp [serialStep, reached, SEnv.set, hw]
    · by_cases hw : w = v
      · subst hw
        simp [serialStep, reached, SEnv.set, hv, hne]
      · by_cases hwi : w = i
        · subst hwi; simp [serialStep, reached, SEnv.set, hv, hw]
        · simp [serialStep, reached, SEnv.set, hv, hw, hwi]

theorem firstWhen_some {ws : List (SEnv → Bool)} {e : SEnv} {k : Nat}
    (h : firstWhen ws e = some k) :
    (∃ w, ws[k]? = some w ∧ w e = true) ∧ ∀ l, l < k → ∀ w, ws[l]? = some w → w e = false := by
  induction ws generalizing k with
  | nil => simp [firstWhen] at h
  | cons w ws ih =>
    simp only [firstWhen] at h
    by_cases hw : w e = true
    · rw [if_pos hw] at h
      injection h with h
      subst h
      exact ⟨⟨w, rfl, hw⟩, fun l hl => absurd hl (by omega)⟩
    · rw [if_neg hw] at h
      obtain ⟨k', hk', rfl⟩ := Option.map_eq_some_iff.1 h
      obtain ⟨h1, h2⟩ := ih hk'
      refine ⟨by simpa using h1, fun l hl w' hw' => ?_⟩
      cases l with
      | zero => simp at hw'; subst hw'; simpa using hw
      | succ l => exact h2 l (by omega) w' (by simpa using hw')

theorem firstWhen_none {ws : List (SEnv → Bool)} {e : SEnv} :
    firstWhen ws e = none ↔ ∀ w ∈ ws, w e = false := by
  induction ws with
  | nil => simp [firstWhen]
  | cons w ws ih =>
    simp only [firstWhen]
    by_cases hw : w e = true
    · simp [hw]
    · simp only [if_neg hw, Option.map_eq_none_iff, ih, List.mem_cons, forall_eq_or_imp]
      simp [hw]

theorem serialLoop_spec (occurs : Int) (store : Int → Int) (i : Nat) (var : Option Nat)
    (ws : List (SEnv → Bool)) (e : SEnv) : ∀ (n : Nat) (j : Int), e i ≤ j → occurs + 1 - j < n → 0 < n →
      (∀ l, e i ≤ l → l < j → l ≤ occurs ∧ ∀ w ∈ ws, w (reached store i var e l) = false) →
      ∃ o j', serialLoop occurs store i var ws n (reached store i var e j) =
          some (o, reached store i var e j') ∧ e i ≤ j' ∧
        (∀ l, e i ≤ l → l < j' → l ≤ occurs ∧ ∀ w ∈ ws, w (reached store i var e l) = false) ∧
        match o with
        | none => occurs < j'
        | some k => j' ≤ occurs ∧ firstWhen ws (reached store i var e j') = some k
  | 0, _, _, _, h0, _ => absurd h0 (by omega)
  | n + 1, j, h1, h2, _, h3 => by
    have hi : reached store i var e j i = j := by simp [reached]
    simp only [serialLoop, hi]
    by_cases hend : j > occurs
    · rw [if_pos hend]
      exact ⟨none, j, rfl, h1, h3, hend⟩
    · rw [if_neg hend]
      cases hw : firstWhen ws (reached store i var e j) with
      | some k => exact ⟨some k, j, rfl, h1, h3, by omega, hw⟩
      | none =>
        simp only [serialStep_reached store i var e j h1]
        refine serialLoop_spec occurs store i var ws e n (j + 1) (by omega) (by omega)
          (by omega) ?_
        intro l hl1 hl2
        by_cases hlj : l = j
        · subst hlj
          exact ⟨by omega, firstWhen_none.1 hw⟩
        · exact h3 l hl1 (by omega)

/-- **Serial SEARCH takes the first match.** From the value the index has (it is not reset), the
search ends; if a WHEN is taken, no WHEN was true at an earlier occurrence, the index is within
the table and this WHEN is the first true one there; if AT END is taken, no WHEN was true at any
occurrence from the start on, and the index is one past the table (or where it was, if it started
beyond). The VARYING index is the one used if it belongs to the table, otherwise the table's
first; an operand that does not belong to the table holds the index's value as soon as the index
has moved; nothing else changes. -/
theorem C57_serial (t : STable) (indexes : List Nat) (store : Int → Int) (var : Option Nat)
    (ws : List (SEnv → Bool)) (e : SEnv) (i : Nat)
    (hi : (∃ v, var = some v ∧ v ∈ indexes ∧ i = v) ∨
      ((∀ v, var = some v → v ∉ indexes) ∧ indexes.head? = some i))
    (turns : Nat) (h1 : t.occurs + 1 - e i < turns) (h2 : 0 < turns) :
    ∃ o j, searchSerial t indexes store var ws turns e = some (o, reached store i var e j) ∧
      e i ≤ j ∧ (∀ l, e i ≤ l → l < j → ∀ w ∈ ws, w (reached store i var e l) = false) ∧
      match o with
      | none => j = max (e i) (t.occurs + 1)
      | some k => j ≤ t.occurs ∧
        (∃ w, ws[k]? = some w ∧ w (reached store i var e j) = true) ∧
        ∀ l, l < k → ∀ w, ws[l]? = some w → w (reached store i var e j) = false := by
  have hp : pickIndex indexes var = some i := by
    rcases hi with ⟨v, rfl, hv, rfl⟩ | ⟨hv, hh⟩
    · simp [pickIndex, hv]
    · cases var with
      | none => simpa [pickIndex] using hh
      | some v => simp [pickIndex, hv v rfl, hh]
  have he : reached store i var e (e i) = e := by
    funext w
    by_cases hw : w = i
    · subst hw; simp [reached]
    · simp [reached, hw]
  obtain ⟨o, j, hs, hj, hall, hlast⟩ := serialLoop_spec t.occurs store i var ws e turns (e i)
    (by omega) h1 h2 (fun l a b => by omega)
  rw [he] at hs
  refine ⟨o, j, by simp only [searchSerial, hp, Option.bind_some, hs], hj,
    fun l a b => (hall l a b).2, ?_⟩
  cases o with
  | none =>
    by_cases hst : e i = j
    · simp only at hlast ⊢; omega
    · have := (hall (j - 1) (by omega) (by omega)).1
      simp only at hlast ⊢; omega
  | some k => exact ⟨hlast.1, firstWhen_some hlast.2⟩

/-! ### Examples and findings -/

/-- Comparing two integers. -/
def cmpI (a b : Int) : Int := a - b

theorem cmpI_lawful : LawfulCmp cmpI := fun a b => by simp only [cmpI]; omega

/-- A column of a table: element `i` holds `l[i - 1]`, and 0 where there is no element. -/
def colOf (l : List Int) (i : Int) : Int := if 1 ≤ i then l.getD (i - 1).toNat 0 else 0

/-- The item of key `f`. -/
def keyOp (cols : Nat → List Int) (f : Nat) : SOp Int := { fld := some f, read := colOf (cols f) }

/-- A literal. -/
def litOp (v : Int) : SOp Int := { read := fun _ => v }

/-- Two columns: 1 2 2 3 3 and, descending within, 9 8 7 6 5. -/
def exCols : Nat → List Int
  | 0 => [1, 2, 2, 3, 3]
  | _ => [9, 8, 7, 6, 5]

/-- `OCCURS 5 ASCENDING KEY 0 DESCENDING KEY 1`. -/
def exTable : STable := { max := 5, keys := [⟨false, 0⟩, ⟨true, 1⟩] }

/-- The hypotheses of the theorem can be met: the condition names both keys, in reverse. -/
def exCond : SCond Int :=
  .and (.eq (keyOp exCols 1) (litOp 7)) (.eq (keyOp exCols 0) (litOp 2))

example : ∃ r, searchAll cmpI false exTable exCond 6 77 0 = some r ∧
      (r.found = true → 1 ≤ r.idx ∧ r.idx ≤ exTable.occurs ∧ exCond.Holds r.idx) ∧
      (r.found = false → ∀ i, 1 ≤ i → i ≤ exTable.occurs → ¬ exCond.Holds i) :=
  C57_search_all (col := fun f => colOf (exCols f)) (m := 2) (fs := [1] ++ [0]) cmpI_lawful
    (.and (.eq (by decide) ⟨rfl, rfl, rfl⟩ ⟨by decide, ⟨7, fun _ => rfl⟩, rfl⟩)
      (.eq (by decide) ⟨rfl, rfl, rfl⟩ ⟨by decide, ⟨2, fun _ => rfl⟩, rfl⟩))
    (by decide) (by decide) (by intro f; simp [exTable]; omega)
    (by
      intro i j h1 h2 h3
      have h3 : j ≤ 5 := h3
      have hi : i = 1 ∨ i = 2 ∨ i = 3 ∨ i = 4 := by omega
      have hj : j = 2 ∨ j = 3 ∨ j = 4 ∨ j = 5 := by omega
      rcases hi with rfl | rfl | rfl | rfl <;> rcases hj with rfl | rfl | rfl | rfl <;>
        simp [LexLe, exTable, colOf, exCols] at *)
    rfl (by decide) 6 (by decide) 77 0

example : searchAll cmpI false exTable exCond 6 77 0 = some ⟨true, 3, [3]⟩ := by decide +kernel

/-- A single column 10 20 30 40. -/
def tens : Nat → List Int := fun _ => [10, 20, 30, 40]

/-- **Finding**: with `OCCURS 3 TO 9 DEPENDING ON`, elements 1 and 2 are never looked at: `head`
starts at the minimum of the clause less one, so 10 and 20 are not found although the table
10 20 30 40 is in order and holds them, while 30 is. -/
theorem C57_finding_occurs_minimum :
    let t : STable := { min := 3, max := 9, odo := some 4, keys := [⟨false, 0⟩] }
    (searchAll cmpI false t (.eq (keyOp tens 0) (litOp 10)) 9 1 0).map SRes.found = some false ∧
    (searchAll cmpI false t (.eq (keyOp tens 0) (litOp 20)) 9 1 0).map SRes.found = some false ∧
    (searchAll cmpI false t (.eq (keyOp tens 0) (litOp 30)) 9 1 0).map SRes.found = some true ∧
    (keyOp tens 0).read 1 = 10 := by decide +kernel

/-- **Finding**: with `OCCURS 0 TO 9 DEPENDING ON` the search looks at "element 0", before the
table: an empty table is probed there, and when the storage before the table compares equal, WHEN
is taken with the index 0. When it compares greater, element 1 is missed. -/
theorem C57_finding_element_zero :
    let t (n : Int) : STable := { min := 0, max := 9, odo := some n, keys := [⟨false, 0⟩] }
    let x (before : Int) : SOp Int :=
      { fld := some 0, read := fun i => if i = 0 then before else colOf [10, 20] i }
    searchAll cmpI false (t 0) (.eq (x 10) (litOp 10)) 9 1 0 = some ⟨true, 0, [0]⟩ ∧
    searchAll cmpI false (t 1) (.eq (x 99) (litOp 10)) 9 1 0 = some ⟨false, 0, [0]⟩ := by
  decide +kernel

/-- **Finding**: a condition that leaves out the first key is accepted and the search misses the
element: in the order of two keys, the second column alone is not in order. -/
theorem C57_finding_key_gap :
    let cols : Nat → List Int := fun f => if f = 0 then [1, 2, 3] else [30, 20, 10]
    let t : STable := { max := 3, keys := [⟨false, 0⟩, ⟨false, 1⟩] }
    searchAll cmpI false t (.eq (keyOp cols 1) (litOp 30)) 9 0 0 = some ⟨false, 3, [3, 2]⟩ ∧
    (keyOp cols 1).read 1 = 30 := by decide +kernel

/-- **Finding**: of two equalities about the same key only the later counts: WHEN is taken for
`K = 10 AND K = 20`, which no element satisfies. -/
theorem C57_finding_repeated_key :
    let t : STable := { max := 4, keys := [⟨false, 0⟩] }
    let c : SCond Int := .and (.eq (keyOp tens 0) (litOp 10)) (.eq (keyOp tens 0) (litOp 20))
    searchAll cmpI false t c 9 0 0 = some ⟨true, 2, [2]⟩ ∧ ¬ c.Holds 2 := by
  refine ⟨by decide +kernel, ?_⟩
  show ¬ (colOf (tens 0) 2 = 10 ∧ colOf (tens 0) 2 = 20)
  decide +kernel

/-- **Finding**: for a key of USAGE INDEX or POINTER the comparison is a difference that is not
kept, so the direction is taken from an uninitialised variable: whether 40 is found depends on what
was in it. -/
theorem C57_finding_index_key :
    let t : STable := { max := 4, keys := [⟨false, 0⟩] }
    let c : SCond Int := .eq { keyOp tens 0 with raw := true } (litOp 40)
    (searchAll cmpI false t c 9 0 0).map SRes.found = some false ∧
    (searchAll cmpI false t c 9 0 (-1)).map SRes.found = some true := by decide +kernel

/-- A table of four elements with the indexes 7 and 8. -/
def exWhens : List (SEnv → Bool) := [fun e => colOf (tens 0) (e 8) == 30, fun e => e 8 == 3]

example := C57_serial { max := 4, keys := [] } [7, 8] id (some 8) exWhens (fun _ => 1) 8
  (Or.inl ⟨8, rfl, by decide, rfl⟩) 9 (by decide) (by decide)

example : (searchSerial { max := 4, keys := [] } [7, 8] id (some 8)
      exWhens 9 (fun _ => 1)).map
      (fun p => (p.1, p.2 7, p.2 8)) = some (some 0, 1, 3) := by decide +kernel

/-- **Finding**: the VARYING item is not counted up along with the index but overwritten with it:
starting with the index at 3 and the item at 0, it ends as 4, not as 1. -/
theorem C57_finding_varying :
    (searchSerial { max := 4, keys := [] } [7] id (some 9)
      [fun e => colOf (tens 0) (e 7) == 40] 9 (fun v => if v = 7 then 3 else 0)).map
      (fun p => (p.1, p.2 7, p.2 9)) = some (some 0, 4, 4) := by decide +kernel

end Cob
