import Verif.Cobc.InitSpec
import Mathlib.Tactic.Linarith
import Mathlib.Tactic.Ring
import Mathlib.Tactic.SplitIfs
import Mathlib.Tactic.Set
/-
C62: INITIALIZE.
-/
namespace Cob

/-! ### Bytes of VALUE clauses -/

theorem allBytes_length (s : List Nat) (n : Nat) : s ≠ [] → (allBytes s n).length = n := by
  intro hs
  have hpos : 0 < s.length := List.length_pos_iff.mpr hs
  unfold allBytes
  split_ifs with h1 h2
  · simp
  · simp; omega
  · have := Nat.mod_lt n hpos
    have h3 := Nat.div_add_mod n s.length
    simp only [List.length_append, List.length_flatten, List.map_replicate, List.sum_replicate_nat, List.length_take]
    rw [Nat.min_eq_left (by omega), Nat.mul_comm]; exact h3

theorem flatten_rep_get (s : List Nat) (k j : Nat) (h : j < k * s.length) :
    (List.replicate k s).flatten[j]? = s[j % s.length]? := by
  induction k generalizing j with
  | zero => simp at h
  | succ k ih =>
    rw [List.replicate_succ, List.flatten_cons]
    by_cases hj : j < s.length
    · rw [List.getElem?_append_left hj, Nat.mod_eq_of_lt hj]
    · rw [List.getElem?_append_right (by omega), ih _ (by rw [Nat.succ_mul] at h; omega)]
      rw [← Nat.mod_eq_sub_mod (by omega)]

theorem allBytes_get (s : List Nat) (n : Nat) (hs : s ≠ []) (j : Nat) (hj : j < n) :
    (allBytes s n)[j]? = s[j % s.length]? := by
  have hpos : 0 < s.length := List.length_pos_iff.mpr hs
  unfold allBytes
  split_ifs with h1 h2
  · rw [h1, Nat.mod_one, List.getElem?_replicate, if_pos hj]
    match s, h1 with
    | [x], _ => rfl
  · rw [Nat.mod_eq_of_lt (by omega), List.getElem?_take_of_lt hj]
  · have hd := Nat.div_add_mod n s.length
    have hl : (List.replicate (n / s.length) s).flatten.length = n / s.length * s.length := by simp
    by_cases hj2 : j < n / s.length * s.length
    · rw [List.getElem?_append_left (by omega), flatten_rep_get s _ _ hj2]
    · rw [List.getElem?_append_right (by omega), hl]
      have hjm : j - n / s.length * s.length < n % s.length := by rw [Nat.mul_comm] at hd; omega
      have hm := Nat.mod_lt n hpos
      have : j % s.length = j - n / s.length * s.length := by
        have e : j = (j - n / s.length * s.length) + s.length * (n / s.length) := by
          rw [Nat.mul_comm s.length]; omega
        conv_lhs => rw [e]
        rw [Nat.add_mul_mod_self_left, Nat.mod_eq_of_lt (by omega)]
      rw [this, List.getElem?_take_of_lt hjm]

theorem takeWhile_front (r : List Nat) (c : Nat) :
    r = List.replicate (r.takeWhile (fun b => b = c)).length c ++ r.drop (r.takeWhile (fun b => b = c)).length := by
  induction r with
  | nil => rfl
  | cons x r ih =>
    by_cases h : x = c
    · rw [List.takeWhile_cons_of_pos (by simpa using h), List.length_cons, List.replicate_succ, List.cons_append,
        List.drop_succ_cons, ← ih, h]
    · rw [List.takeWhile_cons_of_neg (by simpa using h)]
      rfl

theorem takeWhile_end (l : List Nat) (c : Nat) :
    l = l.take (l.length - (l.reverse.takeWhile (fun b => b = c)).length) ++
      List.replicate (l.reverse.takeWhile (fun b => b = c)).length c := by
  have h := congrArg List.reverse (takeWhile_front l.reverse c)
  rw [List.reverse_reverse, List.reverse_append, List.reverse_replicate, List.drop_reverse, List.reverse_reverse] at h
  exact h

/-- The three ways of writing a text literal are the same. -/
theorem textBytes_eq (s : List Nat) (n : Nat) :
    textBytes s n = if n ≤ s.length then s.take n else s ++ List.replicate (n - s.length) 32 := by
  unfold textBytes
  simp only
  generalize hb : (if n ≤ s.length then s.take n else s ++ List.replicate (n - s.length) 32) = buff
  have hl : buff.length = n := by rw [← hb]; split_ifs <;> simp <;> omega
  split_ifs with h1 h2 h3
  · match buff, hl with
    | [x], _ => rfl
    | [], h => simp at h; omega
    | _ :: _ :: _, h => simp at h; omega
  · symm
    apply List.eq_replicate_iff.mpr
    refine ⟨hl, fun b hbm => ?_⟩
    have := (List.all_eq_true.mp h2) b hbm
    simpa using this
  · have := takeWhile_end buff (buff.getD (n - 1) 0)
    rw [hl] at this
    exact this.symm
  · rfl

theorem textBytes_get (s : List Nat) (n j : Nat) (hj : j < n) :
    (textBytes s n)[j]? = if j < s.length then s[j]? else some 32 := by
  rw [textBytes_eq]
  split_ifs with h1 h2 h2
  · rw [List.getElem?_take_of_lt hj]
  · omega
  · rw [List.getElem?_append_left h2]
  · rw [List.getElem?_append_right (by omega), List.getElem?_replicate, if_pos (by omega)]

theorem textBytes_length (s : List Nat) (n : Nat) : (textBytes s n).length = n := by
  rw [textBytes_eq]; split_ifs <;> simp <;> omega

/-! ### MOVE ZERO -/

theorem mv_zero_display {E : IEnv} (hE : E.Ok) (a : Attr) (n : Nat) (h1 : a.separate = false)
    (h2 : (E.ebc && a.haveSign) = false) : E.mv .zero (.numeric .display a) n = List.replicate n 48 := by
  refine hE.zero .display a n ⟨.display, ⟨a, List.replicate n 48⟩⟩ ?_ (by simp)
  simp only [moveNumZero, h1, Bool.false_eq_true, if_false, List.length_replicate]
  rw [if_neg]
  simpa using h2

theorem mv_zero_binary {E : IEnv} (hE : E.Ok) (a : Attr) (n : Nat) :
    E.mv .zero (.numeric .binary a) n = List.replicate n 0 := by
  refine hE.zero .binary a n ⟨.binary, ⟨a, List.replicate n 0⟩⟩ ?_ (by simp)
  simp [moveNumZero]

theorem value_is {E : IEnv} (hE : E.Ok) (v : IVal) (c : ICat) (n : Nat) (hl : ∀ s, v = .all s → s ≠ []) :
    valueIs E v c n (valueBytes E v c n) ∧ (valueBytes E v c n).length = n := by
  cases v with
  | fig b => simp [valueIs, valueBytes]
  | zero =>
    cases c with
    | numeric u a =>
      cases u with
      | display =>
        by_cases h1 : a.separate = true
        · simp [valueIs, valueBytes, ICat.cls, h1, hE.size]
        · by_cases h2 : (E.ebc && a.haveSign) = true
          · simp [valueIs, valueBytes, ICat.cls, h1, h2, hE.size]
          · have h1' : a.separate = false := by simpa using h1
            have h2' : (E.ebc && a.haveSign) = false := by simpa using h2
            simp [valueIs, valueBytes, ICat.cls, h1', h2', mv_zero_display hE a n h1' h2']
      | packed => simp [valueIs, valueBytes, ICat.cls, ICat.isDisplay, hE.size]
      | binary => simp [valueIs, valueBytes, ICat.cls, ICat.isDisplay, hE.size]
    | _ => simp [valueIs, valueBytes, ICat.cls, ICat.isDisplay, hE.size, (hE.text n).1, (hE.text n).2]
  | null =>
    cases c with
    | numeric u a => cases u <;> simp [valueIs, valueBytes, ICat.isDisplay, hE.size]
    | _ => simp [valueIs, valueBytes, ICat.isDisplay, hE.size]
  | all s =>
    exact ⟨⟨allBytes_length s n (hl s rfl), allBytes_get s n (hl s rfl)⟩, allBytes_length s n (hl s rfl)⟩
  | num k => simp [valueIs, valueBytes, hE.size]
  | text s => exact ⟨⟨textBytes_length s n, textBytes_get s n⟩, textBytes_length s n⟩

/-! ### Types -/

/-- `initType` for an item that is not left out as a redefinition. -/
def coreType (E : IEnv) (p : IOpt) (f : IFld) : IType :=
  if p.val && f.info.value.isSome then .one
  else if p.statement && f.children.isEmpty && f.info.filler then .none
  else
    match f.children.map (initType E p false) with
    | [] => leafType E p f.info.cat
    | t :: ts => if t = .one then .compound else if ts.all (fun u => u = t) then t else .compound

theorem initTypes_map (E : IEnv) (p : IOpt) (cs : List IFld) : initTypes E p cs = cs.map (initType E p false) := by
  induction cs with
  | nil => simp [initTypes]
  | cons c cs ih => simp [initTypes, ih]

theorem initType_core (E : IEnv) (p : IOpt) (b : Bool) (f : IFld) :
    initType E p b f = if f.info.redef && (!b || !p.statement) then .none else coreType E p f := by
  cases f with
  | mk i cs =>
    rw [initType.eq_def]
    simp only [initTypes_map, coreType, IFld.info, IFld.children]
    cases List.map (initType E p false) cs <;> rfl

theorem uniformChars_map (cs : List IFld) : uniformChars cs = cs.map (fun c => (c.info.redef, uniformChar c)) := by
  induction cs with
  | nil => simp [uniformChars]
  | cons c cs ih => simp [uniformChars, ih]

theorem IFld.eta (f : IFld) : f = .mk f.info f.children := by cases f; rfl

theorem unit_or {p : IOpt} {f : IFld} (h : ¬ f.Unit p) : f.children ≠ [] ∧ (p.val && f.info.value.isSome) = false := by
  unfold IFld.Unit at h
  push Not at h
  refine ⟨h.1, ?_⟩
  cases hv : p.val
  · rfl
  · rw [h.2 hv]; rfl

theorem unit_iff (p : IOpt) (f : IFld) : f.Unit p ↔ f.children = [] ∨ (p.val && f.info.value.isSome) = true := by
  unfold IFld.Unit
  simp [Option.isSome_iff_ne_none]

/-- What a group's type says about its items. -/
theorem core_group {E : IEnv} {p : IOpt} {f : IFld} (hu : ¬ f.Unit p) :
    (coreType E p f = .none → ∀ c ∈ f.children, initType E p false c = .none) ∧
    (coreType E p f = .dflt → ∀ c ∈ f.children, initType E p false c = .dflt) ∧ coreType E p f ≠ .one := by
  obtain ⟨h1, h2⟩ := unit_or hu
  have h3 : f.children.isEmpty = false := by simpa using h1
  unfold coreType
  rw [h2, h3]
  simp only [Bool.and_false, Bool.false_and, Bool.false_eq_true, if_false]
  cases hc : f.children with
  | nil => exact absurd hc h1
  | cons c cs =>
    simp only [List.map_cons]
    split_ifs with g1 g2
    · simp
    · have hall : ∀ x ∈ cs, initType E p false x = initType E p false c := by
        intro x hx
        have := (List.all_eq_true.mp g2) _ (List.mem_map_of_mem hx)
        simpa using this
      refine ⟨?_, ?_, g1⟩
      · intro h x hx
        rcases List.mem_cons.mp hx with rfl | hx
        · exact h
        · rw [hall x hx, h]
      · intro h x hx
        rcases List.mem_cons.mp hx with rfl | hx
        · exact h
        · rw [hall x hx, h]
    · simp

/-- An elementary item that is filled by a memset gets the byte. -/
theorem leaf_char {E : IEnv} (hE : E.Ok) {p : IOpt} {c : ICat} (h : leafType E p c = .dflt) :
    p.dflt = true ∧ (∀ r ∈ p.rep, r.1 ≠ c.cls) ∧ ∃ b, leafChar c = some b ∧ ∀ n, defaultIs E c n = List.replicate n b := by
  unfold leafType at h
  split_ifs at h with h1 h2
  refine ⟨h2, ?_, ?_⟩
  · intro r hr hcl
    exact h1 (List.any_eq_true.mpr ⟨r, hr, by simpa using hcl⟩)
  · cases c with
    | numeric u a =>
      cases u with
      | display =>
        simp only at h
        split_ifs at h with g1 g2
        exact ⟨48, rfl, fun n => mv_zero_display hE a n (by simpa using g1) (by simpa using g2)⟩
      | packed => simp at h
      | binary => exact ⟨0, rfl, fun n => mv_zero_binary hE a n⟩
    | float => simp at h
    | numEdited => simp at h
    | alnumEdited => simp at h
    | alphabetic => exact ⟨32, rfl, fun n => rfl⟩
    | alnum => exact ⟨32, rfl, fun n => rfl⟩
    | pointer => exact ⟨0, rfl, fun n => rfl⟩

theorem cat_leaf {f : IFld} (h : f.children = []) : f.cat = f.info.cat := by
  cases f with
  | mk i cs => cases cs with
    | nil => rfl
    | cons c cs => simp [IFld.children] at h

theorem core_leaf {E : IEnv} {p : IOpt} {f : IFld} (h : f.children = []) (hv : (p.val && f.info.value.isSome) = false) :
    coreType E p f = if p.statement && f.info.filler then .none else leafType E p f.info.cat := by
  unfold coreType
  rw [hv, h]
  simp

theorem no_value {p : IOpt} {f : IFld} (hv : (p.val && f.info.value.isSome) = false) :
    p.val = false ∨ f.info.value = none := by
  cases h : p.val
  · exact .inl rfl
  · right
    rw [h] at hv
    simpa using hv

theorem filler_not {p : IOpt} {f : IFld} (h : (p.statement && f.info.filler) = false) :
    ¬ (f.info.filler = true ∧ p.statement = true) := by
  rintro ⟨h1, h2⟩
  simp [h1, h2] at h

/-- A unit with type none keeps its bytes. -/
theorem unit_none {E : IEnv} {p : IOpt} {f : IFld} (hu : f.Unit p) (h : coreType E p f = .none) : Gets E p f none := by
  by_cases hv : (p.val && f.info.value.isSome) = true
  · unfold coreType at h
    simp [hv] at h
  · have hv' : (p.val && f.info.value.isSome) = false := by simpa using hv
    have hc : f.children = [] := ((unit_iff p f).mp hu).resolve_right hv
    rw [core_leaf hc hv'] at h
    split_ifs at h with hf
    · simp only [Bool.and_eq_true] at hf
      exact .filler (no_value hv') hf.2 hf.1
    · have hf' := filler_not (f := f) (p := p) (by simpa using hf)
      unfold leafType at h
      split_ifs at h with h1 h2
      · have : ∀ c : ICat, (match c with
          | .float => IType.one | .numEdited => .one | .alnumEdited => .one | .numeric .packed _ => .one
          | .numeric .display a => if a.separate then .one else if E.ebc && a.haveSign then .one else .dflt
          | _ => .dflt) ≠ .none := by
          intro c
          cases c with
          | numeric u a => cases u <;> simp <;> split_ifs <;> simp
          | _ => simp
        exact absurd h (this _)
      · refine .nothing (no_value hv') hf' ?_ (by simpa using h2)
        rw [cat_leaf hc]
        intro r hr hcl
        exact h1 (List.any_eq_true.mpr ⟨r, hr, by simpa using hcl⟩)

/-- A unit with type default gets one byte everywhere. -/
theorem unit_dflt {E : IEnv} (hE : E.Ok) {p : IOpt} {f : IFld} (hu : f.Unit p) (h : coreType E p f = .dflt) :
    ∃ b, uniformChar f = some b ∧ Gets E p f (some (List.replicate f.info.size b)) := by
  by_cases hv : (p.val && f.info.value.isSome) = true
  · unfold coreType at h
    simp [hv] at h
  · have hv' : (p.val && f.info.value.isSome) = false := by simpa using hv
    have hc : f.children = [] := ((unit_iff p f).mp hu).resolve_right hv
    rw [core_leaf hc hv'] at h
    split_ifs at h with hf
    have hf' := filler_not (f := f) (p := p) (by simpa using hf)
    obtain ⟨h1, h2, b, h3, h4⟩ := leaf_char hE h
    refine ⟨b, ?_, ?_⟩
    · rw [IFld.eta f, hc, uniformChar.eq_def]
      simpa [uniformChars] using h3
    · rw [← h4, ← cat_leaf hc]
      exact .dflt (no_value hv') hf' (by rw [cat_leaf hc]; exact h2) h1

/-- A unit with type one gets what `initOne` writes. -/
theorem unit_one {E : IEnv} (hE : E.Ok) {p : IOpt} {f : IFld} (hl : f.LitOk) (h : coreType E p f = .one) :
    f.Unit p ∧ ∃ bs, initOne E p f = some bs ∧ bs.length = f.info.size ∧ Gets E p f (some bs) := by
  have hu : f.Unit p := by
    by_contra hu
    exact (core_group (E := E) hu).2.2 h
  refine ⟨hu, ?_⟩
  by_cases hv : (p.val && f.info.value.isSome) = true
  · simp only [Bool.and_eq_true, Option.isSome_iff_exists] at hv
    obtain ⟨h1, v, h2⟩ := hv
    obtain ⟨h3, h4⟩ := value_is hE v f.cat f.info.size (fun s hs => hl s (by rw [h2, hs]))
    refine ⟨valueBytes E v f.cat f.info.size, ?_, h4, .value v _ h1 h2 h3⟩
    unfold initOne
    rw [h1, h2]
  · have hv' : (p.val && f.info.value.isSome) = false := by simpa using hv
    have hc : f.children = [] := ((unit_iff p f).mp hu).resolve_right hv
    rw [core_leaf hc hv'] at h
    split_ifs at h with hf
    have hf' := filler_not (f := f) (p := p) (by simpa using hf)
    have hone : initOne E p f = match p.rep.find? (fun r => r.1 = f.cat.cls) with
        | some r => some (E.mv r.2 f.cat f.info.size)
        | none =>
          if p.dflt then
            match f.cat with
            | .float => some (List.replicate f.info.size 0)
            | .numeric _ _ => some (E.mv .zero f.cat f.info.size)
            | .numEdited => some (E.mv .zero f.cat f.info.size)
            | .alnumEdited => some (E.mv .blank f.cat f.info.size)
            | _ => none
          else none := by
      unfold initOne
      rw [hc]
      rcases no_value hv' with h | h
      · simp only [h, List.isEmpty_nil, if_true]; rfl
      · cases hp : p.val <;> simp only [h, List.isEmpty_nil, if_true] <;> rfl
    rw [hone, cat_leaf hc]
    cases hfind : p.rep.find? (fun r => r.1 = f.info.cat.cls) with
    | some r =>
      simp only
      refine ⟨_, rfl, hE.size _ _ _, ?_⟩
      obtain ⟨h1, k, h2, h3, h4⟩ := List.find?_eq_some_iff_getElem.mp hfind
      have h1' : r.1 = f.info.cat.cls := by simpa using h1
      rw [← cat_leaf hc]
      refine .replacing k r.2 (no_value hv') hf' ?_ ?_
      · rw [List.getElem?_eq_getElem h2, h3, cat_leaf hc, ← h1']
      · intro i hi r' hr' hcl
        have := h4 i hi
        rw [List.getElem?_eq_getElem (by omega)] at hr'
        simp only [Option.some.injEq] at hr'
        rw [hr'] at this
        rw [cat_leaf hc] at hcl
        simp [hcl] at this
    | none =>
      simp only
      have hr : ∀ r ∈ p.rep, r.1 ≠ f.info.cat.cls := by
        intro r hr hcl
        have := List.find?_eq_none.mp hfind r hr
        simp [hcl] at this
      have hany : ¬ (p.rep.any (fun r => r.1 = f.info.cat.cls)) = true := by
        intro ha
        obtain ⟨r, h1, h2⟩ := List.any_eq_true.mp ha
        exact hr r h1 (by simpa using h2)
      unfold leafType at h
      rw [if_neg hany] at h
      split_ifs at h with hd
      rw [if_pos hd]
      have hg : Gets E p f (some (defaultIs E f.info.cat f.info.size)) := by
        rw [← cat_leaf hc]
        exact .dflt (no_value hv') hf' (by rw [cat_leaf hc]; exact hr) hd
      cases hcat : f.info.cat with
      | numeric u a => rw [hcat] at hg; exact ⟨_, rfl, hE.size _ _ _, hg⟩
      | numEdited => rw [hcat] at hg; exact ⟨_, rfl, hE.size _ _ _, hg⟩
      | alnumEdited => rw [hcat] at hg; exact ⟨_, rfl, hE.size _ _ _, hg⟩
      | float => rw [hcat] at hg; exact ⟨_, rfl, List.length_replicate, hg⟩
      | alphabetic => rw [hcat] at h; simp at h
      | alnum => rw [hcat] at h; simp at h
      | pointer => rw [hcat] at h; simp at h

theorem initType_false {E : IEnv} {p : IOpt} {c : IFld} (hr : c.info.redef = false) :
    initType E p false c = coreType E p c := by
  rw [initType_core, hr]; rfl

theorem not_redef {E : IEnv} {p : IOpt} {c : IFld} (h : initType E p false c ≠ .none) : c.info.redef = false := by
  rw [initType_core] at h
  cases hr : c.info.redef
  · rfl
  · rw [hr] at h; simp at h

/-! ### The occurrences of units -/

theorem Regular.inv {f : IFld} (h : Regular f) :
    (∀ c ∈ f.children, f.info.offset ≤ c.info.offset ∧ c.info.offset + c.total ≤ f.info.offset + f.info.size) ∧
    f.children.Pairwise (fun a b => b.info.redef = false → a.info.offset + a.total ≤ b.info.offset) ∧
    ∀ c ∈ f.children, Regular c := by
  cases h with
  | mk i cs h1 h2 h3 => exact ⟨h1, h2, h3⟩

theorem block_in (s k n : Nat) (h : k < n) : s * k + s ≤ s * n := by
  calc s * k + s = s * (k + 1) := by ring
    _ ≤ s * n := Nat.mul_le_mul_left _ h

theorem occ_in {p : IOpt} {f : IFld} {sh a : Nat} {g : IFld} (h : Occ p f sh a g) (hr : Regular f) :
    f.info.offset + sh ≤ a ∧ a + g.info.size ≤ f.info.offset + sh + f.total := by
  induction h with
  | here f sh k hu hk =>
    have := block_in f.info.size k f.info.occurs hk
    unfold IFld.total
    omega
  | sub f sh k c a g hu hk hc hr' h ih =>
    obtain ⟨h1, h2, h3⟩ := hr.inv
    have := block_in f.info.size k f.info.occurs hk
    have h4 := h1 c hc
    have h5 := ih (h3 c hc)
    unfold IFld.total at *
    omega

theorem occ_none {E : IEnv} {p : IOpt} {f : IFld} {sh a : Nat} {g : IFld} (h : Occ p f sh a g) (hr : f.info.redef = false)
    (ht : initType E p false f = .none) : Gets E p g none := by
  induction h with
  | here f sh k hu hk =>
    rw [initType_false hr] at ht
    exact unit_none hu ht
  | sub f sh k c a g hu hk hc hr' h ih =>
    rw [initType_false hr] at ht
    exact ih hr' ((core_group hu).1 ht c hc)

theorem uniform_child {f c : IFld} {b : Nat} (h : uniformChar f = some b) (hc : c ∈ f.children)
    (hr : c.info.redef = false) : uniformChar c = some b := by
  rw [IFld.eta f, uniformChar.eq_def] at h
  simp only [uniformChars_map] at h
  cases hcs : f.children with
  | nil => rw [hcs] at hc; simp at hc
  | cons d ds =>
    rw [hcs] at h hc
    simp only [List.map_cons] at h
    split_ifs at h with hall
    rcases List.mem_cons.mp hc with rfl | hc
    · exact h
    · have := (List.all_eq_true.mp hall) _ (List.mem_map_of_mem hc)
      simp only [hr, Bool.false_or, decide_eq_true_eq] at this
      rw [this, h]

theorem occ_dflt {E : IEnv} (hE : E.Ok) {p : IOpt} {f : IFld} {sh a : Nat} {g : IFld} {b : Nat} (h : Occ p f sh a g)
    (hr : f.info.redef = false) (ht : initType E p false f = .dflt) (hb : uniformChar f = some b) :
    Gets E p g (some (List.replicate g.info.size b)) := by
  induction h with
  | here f sh k hu hk =>
    rw [initType_false hr] at ht
    obtain ⟨b', h1, h2⟩ := unit_dflt hE hu ht
    rw [hb] at h1
    cases h1
    exact h2
  | sub f sh k c a g hu hk hc hr' h ih =>
    rw [initType_false hr] at ht
    exact ih hr' ((core_group hu).2.1 ht c hc) (uniform_child hb hc hr')

/-! ### Memory -/

theorem putAt_out (m : Nat → Nat) (a : Nat) (bs : List Nat) (x : Nat) (h : ¬ (a ≤ x ∧ x < a + bs.length)) :
    putAt m a bs x = m x := by
  unfold putAt; rw [if_neg h]

theorem putAt_in (m : Nat → Nat) (a : Nat) (bs : List Nat) (j : Nat) (h : j < bs.length) :
    putAt m a bs (a + j) = bs.getD j 0 := by
  unfold putAt
  rw [if_pos ⟨by omega, by omega⟩, Nat.add_sub_cancel_left]

/-- Work on the blocks of `size` bytes from `base` on, one after the other. -/
theorem blocks (B : (Nat → Nat) → Nat → (Nat → Nat)) (base size : Nat)
    (hB : ∀ m k x, ¬ (base + size * k ≤ x ∧ x < base + size * k + size) → B m k x = m x) (n : Nat) (m : Nat → Nat) :
    (∀ x, ¬ (base ≤ x ∧ x < base + size * n) → (List.range n).foldl B m x = m x) ∧
    ∀ k, k < n → ∃ m0, (∀ x, base + size * k ≤ x → x < base + size * k + size → m0 x = m x) ∧
      ∀ x, base + size * k ≤ x → x < base + size * k + size → (List.range n).foldl B m x = B m0 k x := by
  induction n with
  | zero => exact ⟨fun x _ => rfl, fun k hk => by omega⟩
  | succ n ih =>
    obtain ⟨h1, h2⟩ := ih
    rw [List.range_succ, List.foldl_append]
    simp only [List.foldl_cons, List.foldl_nil]
    have hs : size * (n + 1) = size * n + size := by ring
    refine ⟨?_, ?_⟩
    · intro x hx
      rw [hB _ _ _ (by omega), h1 _ (by omega)]
    · intro k hk
      by_cases hkn : k < n
      · have hb := block_in size k n hkn
        obtain ⟨m0, h3, h4⟩ := h2 k hkn
        refine ⟨m0, h3, fun x hx1 hx2 => ?_⟩
        rw [hB _ _ _ (by omega), h4 x hx1 hx2]
      · have : k = n := by omega
        subst this
        refine ⟨(List.range k).foldl B m, fun x hx1 hx2 => h1 _ (by omega), fun x _ _ => rfl⟩

/-! ### The generated code -/

theorem bytes_put (m : Nat → Nat) (a n : Nat) (bs : List Nat) (h : bs.length = n) : Bytes m (putAt m a bs) a n (some bs) := by
  refine ⟨h, fun j hj => ?_⟩
  rw [putAt_in _ _ _ _ (by omega), List.getD_eq_getElem?_getD, List.getElem?_eq_getElem (by omega)]
  rfl

/-- Only the bytes themselves matter. -/
theorem Bytes.congr {m m' m1 m2 : Nat → Nat} {a n : Nat} {r : Option (List Nat)} (h : Bytes m1 m2 a n r)
    (h1 : ∀ x, a ≤ x → x < a + n → m1 x = m x) (h2 : ∀ x, a ≤ x → x < a + n → m2 x = m' x) : Bytes m m' a n r := by
  cases r with
  | some bs => exact ⟨h.1, fun j hj => by rw [h.2 j hj, h2 _ (by omega) (by omega)]⟩
  | none => intro j hj; rw [← h2 _ (by omega) (by omega), h j hj, h1 _ (by omega) (by omega)]

def Lits (f : IFld) : Prop := ∀ g, Part f g → g.LitOk

theorem Lits.child {f c : IFld} (h : Lits f) (hc : c ∈ f.children) : Lits c := fun g hg => h g (.sub f c g hc hg)

def Done (E : IEnv) (p : IOpt) (m m' : Nat → Nat) (a : Nat) (g : IFld) : Prop :=
  ∃ r, Gets E p g r ∧ Bytes m m' a g.info.size r

theorem Done.congr {E : IEnv} {p : IOpt} {m m' m1 m2 : Nat → Nat} {a : Nat} {g : IFld} (h : Done E p m1 m2 a g)
    (h1 : ∀ x, a ≤ x → x < a + g.info.size → m1 x = m x) (h2 : ∀ x, a ≤ x → x < a + g.info.size → m2 x = m' x) :
    Done E p m m' a g := by
  obtain ⟨r, h3, h4⟩ := h
  exact ⟨r, h3, h4.congr h1 h2⟩

/-- What is merged into one memset, and where it ends. -/
theorem absorb_spec (E : IEnv) (p : IOpt) (b : Nat) (k : IClass) (fs : List IFld) :
    (∀ c ∈ fs.take (absorb E p b k fs), c.info.redef = false → initType E p false c = .dflt ∧ uniformChar c = some b) ∧
    ∀ s ss, fs.drop (absorb E p b k fs) = s :: ss → s.info.redef = false := by
  induction fs with
  | nil => simp [absorb]
  | cons s fs ih =>
    rw [absorb]
    split_ifs with h
    · simp only [List.take_zero, List.drop_zero]
      refine ⟨by simp, ?_⟩
      intro s' ss he
      cases he
      simp only [Bool.and_eq_true, Bool.not_eq_true'] at h
      exact h.1
    · simp only [List.take_succ_cons, List.drop_succ_cons]
      refine ⟨?_, ih.2⟩
      intro c hc hr
      rcases List.mem_cons.mp hc with rfl | hc
      · rw [hr] at h
        simp at h
        exact h.1
      · exact ih.1 c hc hr

/-- A merged memset: what it covers, and where it ends. -/
theorem merge_spec {E : IEnv} {p : IOpt} {f : IFld} {fs : List IFld} {stop b : Nat} {k : IClass}
    (hord : (f :: fs).Pairwise (fun a b => b.info.redef = false → a.info.offset + a.total ≤ b.info.offset))
    (hin : ∀ c ∈ f :: fs, c.info.offset + c.total ≤ stop) :
    ∃ e, fillEnd stop (fs.drop (absorb E p b k fs)) = e ∧ e ≤ stop ∧
      f.info.offset + f.total ≤ e ∧ (∀ c ∈ fs.take (absorb E p b k fs), c.info.offset + c.total ≤ e) ∧
      (∀ c ∈ fs.drop (absorb E p b k fs), c.info.redef = false → e ≤ c.info.offset) := by
  obtain ⟨_, hs⟩ := absorb_spec E p b k fs
  generalize absorb E p b k fs = n at hs ⊢
  refine ⟨_, rfl, ?_⟩
  obtain ⟨h1, h2⟩ := List.pairwise_cons.mp hord
  rw [← List.take_append_drop n fs] at h2
  obtain ⟨h3, h4, h5⟩ := List.pairwise_append.mp h2
  cases hd : fs.drop n with
  | nil =>
    simp only [fillEnd]
    refine ⟨Nat.le_refl _, hin f (by simp), fun c hc => hin c (by simp [List.mem_of_mem_take hc]), by simp⟩
  | cons s ss =>
    simp only [fillEnd]
    have hr := hs s ss hd
    have hsm : s ∈ fs := List.mem_of_mem_drop (by rw [hd]; simp)
    rw [hd] at h4 h5
    obtain ⟨h6, h7⟩ := List.pairwise_cons.mp h4
    have hst := hin s (by simp [hsm])
    refine ⟨by omega, h1 s hsm hr, fun c hc => h5 c hc s (by simp) hr, ?_⟩
    intro c hc hcr
    rcases List.mem_cons.mp hc with rfl | hc
    · exact Nat.le_refl _
    · have := h6 c hc hcr; omega

theorem info_mk (i : IInfo) (cs : List IFld) : (IFld.mk i cs).info = i := rfl
theorem children_mk (i : IInfo) (cs : List IFld) : (IFld.mk i cs).children = cs := rfl

mutual
theorem fld_done {E : IEnv} (hE : E.Ok) (p : IOpt) : ∀ (f : IFld) (sh : Nat) (m : Nat → Nat), Regular f → Lits f →
    f.info.redef = false → coreType E p f ≠ .none → ¬ (coreType E p f = .dflt ∧ ∃ b, uniformChar f = some b) →
    (∀ x, ¬ (f.info.offset + sh ≤ x ∧ x < f.info.offset + sh + f.total) → initFld E p sh (coreType E p f) f m x = m x) ∧
    ∀ a g, Occ p f sh a g → Done E p m (initFld E p sh (coreType E p f) f m) a g
  | .mk i cs, sh, m, hreg, hlit, hr, hnn, hnd => by
    obtain ⟨hin, hord, hsub⟩ := hreg.inv
    simp only [children_mk, info_mk] at hin hord hsub
    generalize ht : coreType E p (.mk i cs) = t at *
    rw [initFld.eq_def]
    simp only [info_mk]
    set B : (Nat → Nat) → Nat → (Nat → Nat) := fun m k =>
      if t = .one then
        match initOne E p (.mk i cs) with
        | some bs => putAt m (i.offset + (sh + i.size * k)) bs
        | none => m
      else initList E p (i.offset + i.size) (sh + i.size * k) 0 cs m with hBdef
    have hlist := fun k m => list_done hE p (i.offset + i.size) (sh + i.size * k) 0 cs m
      (fun c hc => ⟨hsub c hc, hlit.child hc, (hin c hc).2⟩) hord
    have hB : ∀ m k x, ¬ (i.offset + sh + i.size * k ≤ x ∧ x < i.offset + sh + i.size * k + i.size) → B m k x = m x := by
      intro m k x hx
      simp only [hBdef]
      split_ifs with h1
      · rw [h1] at ht
        obtain ⟨hu, bs, h2, h3, h4⟩ := unit_one hE (hlit _ (.refl _)) ht
        rw [h2]
        simp only [info_mk] at h3
        exact putAt_out _ _ _ _ (by rw [h3]; omega)
      · refine (hlist k m).1 x ?_
        by_cases hle : i.offset + sh + i.size * k ≤ x
        · left; omega
        · right
          intro c hc _
          have := (hin c (List.mem_of_mem_drop hc)).1
          omega
    obtain ⟨h1, h2⟩ := blocks B (i.offset + sh) i.size hB i.occurs m
    refine ⟨fun x hx => h1 x hx, ?_⟩
    intro a g ho
    cases ho with
    | here _ _ k hu hk =>
      have hone : t = .one := by
        cases t with
        | none => exact absurd rfl hnn
        | one => rfl
        | dflt =>
          obtain ⟨b, h3, _⟩ := unit_dflt hE hu ht
          exact absurd ⟨rfl, b, h3⟩ hnd
        | compound =>
          exfalso
          rcases (unit_iff _ _).mp hu with hc | hv
          · by_cases hv : (p.val && (IFld.mk i cs).info.value.isSome) = true
            · unfold coreType at ht; rw [if_pos hv] at ht; cases ht
            · rw [core_leaf hc (by simpa using hv)] at ht
              unfold leafType at ht
              split_ifs at ht
              revert ht
              cases (IFld.mk i cs).info.cat with
              | numeric u at' => cases u <;> simp <;> split_ifs <;> simp
              | _ => simp
          · unfold coreType at ht; rw [if_pos hv] at ht; cases ht
      obtain ⟨hu', bs, h3, h4, h5⟩ := unit_one hE (hlit _ (.refl _)) (ht.trans hone)
      simp only [info_mk] at hk h4
      obtain ⟨m0, h6, h7⟩ := h2 k hk
      refine ⟨some bs, h5, ?_⟩
      simp only [info_mk]
      have hput := bytes_put m0 (i.offset + (sh + i.size * k)) i.size bs h4
      refine hput.congr (fun x hx1 hx2 => h6 x (by omega) (by omega)) (fun x hx1 hx2 => ?_)
      refine Eq.trans ?_ (h7 x (by omega) (by omega)).symm
      simp only [hBdef, hone, if_true, h3]
    | sub _ _ k c _ _ hu hk hc hr' h =>
      have hone : t ≠ .one := by
        intro h1
        exact (core_group (E := E) hu).2.2 (ht.trans h1)
      simp only [children_mk, info_mk] at hk hc h
      obtain ⟨m0, h6, h7⟩ := h2 k hk
      have hd := (hlist k m0).2 c (by simpa using hc) hr' a g h
      have hrange := occ_in h (hsub c hc)
      have hcin := hin c hc
      refine hd.congr (fun x hx1 hx2 => h6 x (by omega) (by omega)) (fun x hx1 hx2 => ?_)
      refine Eq.trans ?_ (h7 x (by omega) (by omega)).symm
      simp only [hBdef, if_neg hone]

theorem list_done {E : IEnv} (hE : E.Ok) (p : IOpt) (stop sh : Nat) : ∀ (n : Nat) (cs : List IFld) (m : Nat → Nat),
    (∀ c ∈ cs, Regular c ∧ Lits c ∧ c.info.offset + c.total ≤ stop) →
    cs.Pairwise (fun a b => b.info.redef = false → a.info.offset + a.total ≤ b.info.offset) →
    (∀ x, (stop + sh ≤ x ∨ ∀ c ∈ cs.drop n, c.info.redef = false → x < c.info.offset + sh) →
      initList E p stop sh n cs m x = m x) ∧
    ∀ c ∈ cs.drop n, c.info.redef = false → ∀ a g, Occ p c sh a g → Done E p m (initList E p stop sh n cs m) a g
  | n, [], m, _, _ => by
    rw [initList.eq_def]
    cases n <;> simp
  | n + 1, f :: fs, m, h, hord => by
    have ih := list_done hE p stop sh n fs m (fun c hc => h c (by simp [hc])) (List.pairwise_cons.mp hord).2
    rw [initList.eq_def]
    simpa only [List.drop_succ_cons] using ih
  | 0, f :: fs, m, h, hord => by
    obtain ⟨ho1, ho2⟩ := List.pairwise_cons.mp hord
    have hrec := fun n m => list_done hE p stop sh n fs m (fun c hc => h c (by simp [hc])) ho2
    have hf := h f (by simp)
    rw [initList.eq_def]
    simp only [List.drop_zero]
    by_cases hn : initType E p false f = .none
    · rw [if_pos hn]
      obtain ⟨i1, i2⟩ := hrec 0 m
      simp only [List.drop_zero] at i1 i2
      refine ⟨?_, ?_⟩
      · intro x hx
        refine i1 x (hx.imp id fun hx c hc => hx c (by simp [hc]))
      · intro c hc hr a g ho
        rcases List.mem_cons.mp hc with rfl | hc
        · refine ⟨none, occ_none ho hr hn, fun j hj => i1 _ (.inr fun d hd hdr => ?_)⟩
          have := occ_in ho hf.1
          have := ho1 d hd hdr
          omega
        · exact i2 c hc hr a g ho
    · rw [if_neg hn]
      have hr := not_redef hn
      by_cases hd : initType E p false f = .dflt ∧ ∃ b, uniformChar f = some b
      · obtain ⟨hdt, b, hub⟩ := hd
        simp only [hdt, if_true, hub]
        obtain ⟨e, he, h1, h2, h3, h4⟩ := merge_spec (E := E) (p := p) (b := b) (k := f.cat.cls) hord (fun c hc => (h c hc).2.2)
        obtain ⟨hab, _⟩ := absorb_spec E p b f.cat.cls fs
        generalize absorb E p b f.cat.cls fs = n at he h3 h4 hab ⊢
        rw [he]
        set m1 := putAt m (f.info.offset + sh) (List.replicate (e - f.info.offset) b) with hm1
        obtain ⟨i1, i2⟩ := hrec n m1
        have hlow : ∀ x, x < f.info.offset + sh → m1 x = m x := fun x hx => putAt_out _ _ _ _ (by simp; omega)
        have hhigh : ∀ x, e + sh ≤ x → m1 x = m x := fun x hx => putAt_out _ _ _ _ (by simp; omega)
        have hmid : ∀ x, f.info.offset + sh ≤ x → x < e + sh → m1 x = b := by
          intro x hx1 hx2
          rw [hm1]
          unfold putAt
          simp only [List.length_replicate]
          rw [if_pos ⟨hx1, by omega⟩, List.getD_eq_getElem?_getD, List.getElem?_replicate, if_pos (by omega)]
          rfl
        have hfill : ∀ c, c.info.redef = false → Regular c → initType E p false c = .dflt → uniformChar c = some b →
            f.info.offset ≤ c.info.offset → c.info.offset + c.total ≤ e → ∀ a g, Occ p c sh a g →
            Done E p m (initList E p stop sh n fs m1) a g := by
          intro c hcr hcreg hct hcu hc1 hc2 a g ho
          have hrange := occ_in ho hcreg
          refine ⟨_, occ_dflt hE ho hcr hct hcu, ?_⟩
          refine ⟨by simp, fun j hj => ?_⟩
          rw [List.getElem?_replicate, if_pos hj]
          rw [i1 _ (.inr fun d hd hdr => ?_), hmid _ (by omega) (by omega)]
          have := h4 d hd hdr
          omega
        refine ⟨?_, ?_⟩
        · intro x hx
          rw [i1 x]
          · rcases hx with hx | hx
            · exact hhigh x (by omega)
            · exact hlow x (hx f (by simp) hr)
          · exact hx.imp id fun hx c hc => hx c (by simp [List.mem_of_mem_drop hc])
        · intro c hc hcr a g ho
          rcases List.mem_cons.mp hc with rfl | hc
          · exact hfill c hcr hf.1 hdt hub (Nat.le_refl _) h2 a g ho
          · have hcreg := (h c (by simp [hc])).1
            rw [← List.take_append_drop n fs] at hc
            rcases List.mem_append.mp hc with hc | hc
            · obtain ⟨q1, q2⟩ := hab c hc hcr
              have := ho1 c (List.mem_of_mem_take hc) hcr
              exact hfill c hcr hcreg q1 q2 (by omega) (h3 c hc) a g ho
            · have hrange := occ_in ho hcreg
              have := h4 c hc hcr
              exact (i2 c hc hcr a g ho).congr (fun x hx1 hx2 => hhigh x (by omega)) (fun x _ _ => rfl)
      · have hmatch : (if initType E p false f = .dflt then uniformChar f else none) = none := by
          split_ifs with hdt
          · cases hu : uniformChar f with
            | none => rfl
            | some b => exact absurd ⟨hdt, b, hu⟩ hd
          · rfl
        rw [hmatch]
        simp only
        rw [initType_false hr] at hn hd ⊢
        obtain ⟨f1, f2⟩ := fld_done hE p f sh m hf.1 hf.2.1 hr hn hd
        set m1 := initFld E p sh (coreType E p f) f m with hm1
        obtain ⟨i1, i2⟩ := hrec 0 m1
        simp only [List.drop_zero] at i1 i2
        refine ⟨?_, ?_⟩
        · intro x hx
          rw [i1 x (hx.imp id fun hx c hc => hx c (by simp [hc]))]
          apply f1
          have := hf.2.2
          rcases hx with hx | hx
          · omega
          · have := hx f (by simp) hr; omega
        · intro c hc hcr a g ho
          rcases List.mem_cons.mp hc with rfl | hc
          · have hrange := occ_in ho hf.1
            refine (f2 a g ho).congr (fun x _ _ => rfl) (fun x hx1 hx2 => (i1 x (.inr fun d hd hdr => ?_)).symm)
            have := ho1 d hd hdr
            omega
          · have hrange := occ_in ho (h c (by simp [hc])).1
            have := ho1 c hc hcr
            exact (i2 c hc hcr a g ho).congr (fun x hx1 hx2 => f1 x (by omega)) (fun x _ _ => rfl)
end

end Cob
