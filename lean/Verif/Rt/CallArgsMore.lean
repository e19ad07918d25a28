import Verif.Rt.CallArgsProps
/-
C79: literals and numbers as arguments, several entries, saved addresses, ANY LENGTH.
-/
namespace Cob.Args

/-! ### helper lemmas -/

theorem intBytes_length (w : Nat) (v : Int) : (intBytes w v).length = w := by
  simp [intBytes, leBytes_length]

theorem intBytes_val (w : Nat) (v : Int) : ((leVal (intBytes w v) : Nat) : Int) = v % 2 ^ (8 * w) := by
  unfold intBytes
  rw [leVal_leBytes, pow256]
  have h0 : (0 : Int) < 2 ^ (8 * w) := by positivity
  have h1 := Int.emod_nonneg v (Int.ne_of_gt h0)
  have h2 := Int.emod_lt_of_pos v h0
  push_cast
  rw [Int.toNat_of_nonneg h1, Int.emod_eq_of_lt h1 h2]

/-- The low bytes of a wide integer are those of the narrow one. -/
theorem intBytes_mod (w : Nat) (v v' : Int) (h : v % 2 ^ (8 * w) = v' % 2 ^ (8 * w)) :
    intBytes w v = intBytes w v' := by
  unfold intBytes; rw [h]

theorem castInt_mod (u : Bool) (w : Nat) (hw : 1 ≤ w) (v : Int) :
    castInt u w v % 2 ^ (8 * w) = v % 2 ^ (8 * w) := by
  unfold castInt
  split
  · exact Int.emod_emod_of_dvd _ (dvd_refl _)
  · rw [Int.sub_emod, Int.emod_emod_of_dvd _ (dvd_refl _), ← Int.sub_emod]
    congr 1; omega

theorem native_holds (signed : Bool) (w : Nat) (hw : 1 ≤ w) (v : Int) (hr : NativeRange signed w v) :
    NativeHolds signed (intBytes w v) v := by
  unfold NativeHolds
  refine holds_of_mod ⟨{ haveSign := signed }, intBytes w v⟩ ?_ v ?_ ?_
  · simp [intBytes_length]; exact hw
  · simp only [intBytes_length]
    unfold InRange; unfold NativeRange at hr
    exact hr
  · simp only [intBytes_length]
    rw [← leVal_eq, intBytes_val]

/-! ### literals -/

/-- C79: a numeric literal of fewer than ten digits, passed BY REFERENCE or BY CONTENT, reaches the
called program as a native binary number of four bytes. -/
theorem C79_small_literal (ebc : Bool) (junk : Nat → Nat → Nat) (m : Mem) (args : List Arg)
    (ps : List PDecl) (i : Nat) (mode : Mode) (hmode : mode ≠ .value) (s : SizeSpec) (v : Int)
    (len : Nat) (p : PDecl) (ha : args[i]? = some ⟨mode, s, .numLit v len⟩) (hp : ps[i]? = some p)
    (hb : p.byAddress) (hsz : p.size = 4) (hv : v.natAbs < 10 ^ 9) :
    ∃ bs, Sees (enter ebc junk m args ps).1 ps (enter ebc junk m args ps).2 i bs ∧
      NativeHolds true bs v := by
  refine ⟨intBytes 4 v, ⟨.at ⟨.content (i + 1), 0⟩, p, ?_, hp, ?_⟩, ?_⟩
  · rw [enter_slot ebc junk m args ps i _ p ha hp]
    unfold PDecl.byAddress at hb
    cases mode <;> simp [receive, hb, passArg] at hmode ⊢
  · unfold view Mem.read
    dsimp only
    rw [enter_content ebc junk m args ps i _ (litBytes (junk (i + 1)) v) ha
      (by cases mode <;> simp [contentOf] at hmode ⊢)]
    have hf : fitsInt (.lit v) = true := by simp [fitsInt]; exact hv
    unfold litBytes
    rw [if_pos hf, List.drop_zero, take_padTo _ _ _ _ (by rw [intBytes_length]; omega), hsz]
    rw [List.take_of_length_le (by rw [intBytes_length])]
  · apply native_holds _ _ (by omega)
    unfold NativeRange
    have : (10 : Nat) ^ 9 = 1000000000 := by norm_num
    simp only [if_true]
    norm_num
    omega

/-- C79: a numeric literal of ten to eighteen digits reaches it as a native binary number of eight
bytes. -/
theorem C79_large_literal (ebc : Bool) (junk : Nat → Nat → Nat) (m : Mem) (args : List Arg)
    (ps : List PDecl) (i : Nat) (mode : Mode) (hmode : mode ≠ .value) (s : SizeSpec) (v : Int)
    (len : Nat) (p : PDecl) (ha : args[i]? = some ⟨mode, s, .numLit v len⟩) (hp : ps[i]? = some p)
    (hb : p.byAddress) (hsz : p.size = 8) (hv : 10 ^ 9 ≤ v.natAbs) (hv' : v.natAbs < 10 ^ 18) :
    ∃ bs, Sees (enter ebc junk m args ps).1 ps (enter ebc junk m args ps).2 i bs ∧
      NativeHolds true bs v := by
  refine ⟨intBytes 8 v, ⟨.at ⟨.content (i + 1), 0⟩, p, ?_, hp, ?_⟩, ?_⟩
  · rw [enter_slot ebc junk m args ps i _ p ha hp]
    unfold PDecl.byAddress at hb
    cases mode <;> simp [receive, hb, passArg] at hmode ⊢
  · unfold view Mem.read
    dsimp only
    rw [enter_content ebc junk m args ps i _ (litBytes (junk (i + 1)) v) ha
      (by cases mode <;> simp [contentOf] at hmode ⊢)]
    have hf : ¬ fitsInt (.lit v) = true := by simp [fitsInt]; exact hv
    unfold litBytes
    rw [if_neg hf, List.drop_zero, hsz]
    rw [List.take_of_length_le (by rw [intBytes_length])]
  · apply native_holds _ _ (by omega)
    unfold NativeRange
    have : (10 : Nat) ^ 18 = 1000000000000000000 := by norm_num
    simp only [if_true]
    norm_num
    omega

/-- C79: an alphanumeric literal, passed BY CONTENT, reaches the called program character for
character. -/
theorem C79_text_literal (ebc : Bool) (junk : Nat → Nat → Nat) (m : Mem) (args : List Arg)
    (ps : List PDecl) (i : Nat) (s : SizeSpec) (t : List Nat) (p : PDecl)
    (ha : args[i]? = some ⟨.content, s, .alnumLit t⟩) (hp : ps[i]? = some p)
    (hb : p.byAddress) (hsz : p.size ≤ t.length) :
    Sees (enter ebc junk m args ps).1 ps (enter ebc junk m args ps).2 i (t.take p.size) := by
  refine ⟨.at ⟨.content (i + 1), 0⟩, p, ?_, hp, ?_⟩
  · rw [enter_slot ebc junk m args ps i _ p ha hp]
    unfold PDecl.byAddress at hb
    simp [receive, hb, passArg]
  · unfold view Mem.read
    dsimp only
    rw [enter_content ebc junk m args ps i _ (padTo (junk (i + 1)) (max t.length 8) t) ha
      (by simp [contentOf])]
    rw [List.drop_zero, take_padTo _ _ _ _ hsz]

/-! ### numbers BY VALUE -/

/-- The C integer of a readable item is its number. -/
theorem readable_value (ebc : Bool) (u : Usage) (a : Attr) (data : List Nat) (z : Int)
    (hw : WFItem ⟨u, ⟨a, data⟩⟩) (hr : Readable u a data.length) (hz : HoldsUnits ebc ⟨u, ⟨a, data⟩⟩ z) :
    outputInteger ebc ⟨u, ⟨a, data⟩⟩ = z := by
  obtain ⟨hs, hr⟩ := hr
  by_cases hf : fitsInt (.item ⟨u, ⟨a, data⟩⟩) = true
  · have h := (operandInt_value ebc (.item ⟨u, ⟨a, data⟩⟩) (z : ℚ) hf ⟨hw, z, hz, by simp [hs]⟩
      (Or.inl hs)).1
    exact_mod_cast h
  · cases u with
    | display => simp only at hr; exact absurd (by simp [fitsInt, hs, hr]) hf
    | packed => simp only at hr; exact absurd (by simp [fitsInt, hs, hr]) hf
    | binary =>
      simp only at hr
      unfold outputInteger
      simp only
      rw [if_pos hr]
      exact binaryHolds_unique ⟨a, data⟩ _ _ (cmpLoad_holds ⟨a, data⟩ hw) hz

/-- The parameter variable of a number BY VALUE holds the number. -/
theorem sees_value (ebc : Bool) (junk : Nat → Nat → Nat) (m : Mem) (args : List Arg) (ps : List PDecl)
    (i : Nat) (a : Arg) (p : PDecl) (w : Nat) (v z : Int) (ha : args[i]? = some a) (hp : ps[i]? = some p)
    (hpv : p.byValue = true) (hpn : p.numeric = true)
    (hpass : passArg ebc m (i + 1) a = .int w v) (hw : 1 ≤ p.sizes.width) (hww : p.sizes.width ≤ w)
    (hsz : p.size = p.sizes.width) (signed : Bool) (hr : NativeRange signed p.sizes.width z)
    (hm : v % 2 ^ (8 * p.sizes.width) = z % 2 ^ (8 * p.sizes.width)) :
    ∃ bs, Sees (enter ebc junk m args ps).1 ps (enter ebc junk m args ps).2 i bs ∧
      NativeHolds signed bs z := by
  refine ⟨intBytes p.sizes.width z, ⟨.at ⟨.value (i + 1), 0⟩, p, ?_, hp, ?_⟩, native_holds _ _ hw _ hr⟩
  · rw [enter_slot ebc junk m args ps i a p ha hp, hpass]
    unfold receive
    rw [hpv, hpn]
    simp only [Bool.and_self, if_true]
    rw [if_pos ⟨by omega, hww⟩]
  · unfold view Mem.read
    dsimp only
    rw [enter_value ebc junk m args ps i a p (intBytes p.sizes.width v) ha hp (by
      rw [hpass]; unfold receive; rw [hpv, hpn]; simp only [Bool.and_self, if_true]
      rw [if_pos ⟨by omega, hww⟩])]
    rw [List.drop_zero, hsz, List.take_of_length_le (by rw [intBytes_length])]
    exact intBytes_mod _ _ _ hm

/-- C79: a whole number passed BY VALUE with a given SIZE reaches a parameter described BY VALUE with
the same SIZE: if the number is in the range of that size, signed or unsigned as the parameter is, a
native binary item of that size holds it. -/
theorem C79_value (ebc : Bool) (junk : Nat → Nat → Nat) (m : Mem) (args : List Arg) (ps : List PDecl)
    (i : Nat) (s : SizeSpec) (off size decl : Nat) (u : Usage) (a : Attr) (p : PDecl) (z : Int)
    (signed : Bool)
    (ha : args[i]? = some ⟨.value, s, .item off size decl (.num u a)⟩) (hp : ps[i]? = some p)
    (hpv : p.byValue = true) (hpn : p.numeric = true) (hs : 1 ≤ s.width)
    (hwd : p.sizes.width = s.width) (hsz : p.size = s.width)
    (hlen : off + decl ≤ (m .store).length)
    (hw : WFItem ⟨u, ⟨a, ((m .store).drop off).take decl⟩⟩) (hr : Readable u a decl)
    (hz : HoldsUnits ebc ⟨u, ⟨a, ((m .store).drop off).take decl⟩⟩ z)
    (hrange : NativeRange signed s.width z) :
    ∃ bs, Sees (enter ebc junk m args ps).1 ps (enter ebc junk m args ps).2 i bs ∧
      NativeHolds signed bs z := by
  have hdl : (((m .store).drop off).take decl).length = decl := by simp; omega
  have hv := readable_value ebc u a (((m .store).drop off).take decl) z hw (by rw [hdl]; exact hr) hz
  refine sees_value ebc junk m args ps i _ p (max s.width 4) (castInt s.unsigned s.width z) z ha hp hpv hpn
    ?_ (by omega) (by omega) (by omega) signed (by rw [hwd]; exact hrange)
    (by rw [hwd]; exact castInt_mod _ _ hs _)
  unfold passArg
  simp only
  unfold valueOf
  simp only
  rw [if_neg (by omega)]
  unfold Mem.read
  rw [hv]

/-- C79: a numeric literal passed BY VALUE reaches a parameter of SIZE 4 (the default). -/
theorem C79_value_literal (ebc : Bool) (junk : Nat → Nat → Nat) (m : Mem) (args : List Arg)
    (ps : List PDecl) (i : Nat) (s : SizeSpec) (v : Int) (len : Nat) (p : PDecl)
    (ha : args[i]? = some ⟨.value, s, .numLit v len⟩) (hp : ps[i]? = some p)
    (hpv : p.byValue = true) (hpn : p.numeric = true)
    (hwd : p.sizes.width = 4) (hsz : p.size = 4) (hrange : NativeRange true 4 v) :
    ∃ bs, Sees (enter ebc junk m args ps).1 ps (enter ebc junk m args ps).2 i bs ∧
      NativeHolds true bs v := by
  refine sees_value ebc junk m args ps i _ p 4 (toCInt v) v ha hp hpv hpn rfl (by omega) (by omega)
    (by omega) true (by rw [hwd]; exact hrange) ?_
  rw [hwd, toCInt_id]
  · unfold NativeRange at hrange
    norm_num at hrange
    omega
  · unfold NativeRange at hrange
    norm_num at hrange
    omega

/-! ### several entries -/

theorem paramList_mem (l : List Nat) : ∀ (acc : List Nat) (x : Nat),
    x ∈ l.foldl (fun l x => if x ∈ l then l else l ++ [x]) acc ↔ x ∈ acc ∨ x ∈ l := by
  induction l with
  | nil => simp
  | cons y l ih =>
    intro acc x
    rw [List.foldl_cons, ih]
    split
    · rename_i h
      constructor
      · rintro (h' | h') <;> simp [h']
      · rintro (h' | h')
        · exact Or.inl h'
        · rcases List.mem_cons.mp h' with rfl | h''
          · exact Or.inl h
          · exact Or.inr h''
    · simp only [List.mem_append, List.mem_singleton, List.mem_cons, or_assoc]
      simp

theorem paramList_nodup (l : List Nat) : ∀ (acc : List Nat), acc.Nodup →
    (l.foldl (fun l x => if x ∈ l then l else l ++ [x]) acc).Nodup := by
  induction l with
  | nil => intro acc h; exact h
  | cons y l ih =>
    intro acc h
    rw [List.foldl_cons]
    apply ih
    split
    · exact h
    · rename_i hy
      rw [List.nodup_append]
      refine ⟨h, by simp, ?_⟩
      intro a ha b hb
      simp only [List.mem_singleton] at hb
      subst hb
      rintro rfl
      exact hy ha

/-- C79: the parameters of a program are those of all its entries, each once. -/
theorem C79_parameters (entries : List (List Nat)) :
    (paramList entries).Nodup ∧ ∀ x, x ∈ paramList entries ↔ ∃ e ∈ entries, x ∈ e := by
  unfold paramList
  refine ⟨paramList_nodup _ _ (by simp), fun x => ?_⟩
  rw [paramList_mem]
  simp

theorem find_zip {α : Type} (l : List Nat) (vals : List α) (hn : l.Nodup) :
    ∀ (i : Nat) (p : Nat) (v : α), l[i]? = some p → vals[i]? = some v →
      (l.zip vals).find? (fun x => x.1 == p) = some (p, v) := by
  induction l generalizing vals with
  | nil => intro i p v h; simp at h
  | cons y l ih =>
    intro i p v h hv
    cases vals with
    | nil => simp at hv
    | cons w vals =>
      cases i with
      | zero =>
        simp only [List.getElem?_cons_zero, Option.some.injEq] at h hv
        subst h; subst hv
        simp
      | succ i =>
        simp only [List.getElem?_cons_succ] at h hv
        have hne : y ≠ p := by
          rintro rfl
          exact (List.nodup_cons.mp hn).1 (List.mem_of_getElem? h)
        rw [List.zip_cons_cons, List.find?_cons_of_neg (by simpa using hne)]
        exact ih vals (List.nodup_cons.mp hn).2 i p v h hv

/-- C79: in a program with several entries, a call of one of them gives each linkage item named in
that entry's USING the argument at its place there, and every other linkage item no address. -/
theorem C79_entries {α : Type} (entries : List (List Nat)) (e : List Nat) (he : e ∈ entries)
    (hn : e.Nodup) (vals : List α) (hl : vals.length = e.length) (k x : Nat)
    (hx : (paramList entries)[k]? = some x) :
    (∀ (i : Nat), e[i]? = some x → (passOn (paramList entries) e vals)[k]? = some vals[i]?) ∧
    (x ∉ e → (passOn (paramList entries) e vals)[k]? = some none) := by
  unfold passOn
  rw [List.getElem?_map, hx]
  simp only [Option.map_some]
  refine ⟨fun i hi => ?_, fun hne => ?_⟩
  · have hlt : i < vals.length := by
      rw [hl]; exact (List.getElem?_eq_some_iff.mp hi).1
    rw [List.getElem?_eq_getElem hlt]
    rw [find_zip e vals hn i x vals[i] hi (List.getElem?_eq_getElem hlt)]
    rfl
  · rw [List.find?_eq_none.mpr]
    · rfl
    · intro y hy
      have := (List.of_mem_zip (show (y.1, y.2) ∈ e.zip vals from hy)).1
      simp only [beq_iff_eq]
      rintro rfl
      exact hne this

/-! ### sticky linkage -/

theorem sticky_base {α : Type} (n : Nat) (saved base : List (Option α)) (hb : base.length = n)
    (hs : saved.length = n) (nargs i : Nat) (hi : i < n) (b s : Option α) (hbi : base[i]? = some b)
    (hsi : saved[i]? = some s) :
    (stickyStep nargs saved base).1[i]? = some (if nargs ≤ i ∧ s.isSome then s else b) ∧
    (stickyStep nargs saved base).2[i]? =
      some (if (if nargs ≤ i ∧ s.isSome then s else b).isSome then
        (if nargs ≤ i ∧ s.isSome then s else b) else s) ∧
    (stickyStep nargs saved base).2.length = n := by
  unfold stickyStep
  dsimp only
  have h1 : ((base.zip saved).zipIdx.map fun x =>
      if nargs < base.length ∧ nargs ≤ x.2 ∧ x.1.2.isSome then x.1.2 else x.1.1)[i]? =
      some (if nargs ≤ i ∧ s.isSome then s else b) := by
    rw [List.getElem?_map, List.getElem?_zipIdx, (List.getElem?_zip_eq_some (z := (b, s))).mpr ⟨hbi, hsi⟩]
    simp only [Option.map_some, Nat.zero_add]
    congr 1
    by_cases h : nargs ≤ i
    · simp only [h, true_and, show nargs < base.length by omega]
    · simp [h]
  refine ⟨h1, ?_, by simp; omega⟩
  rw [List.getElem?_map, (List.getElem?_zip_eq_some (z := (_, s))).mpr ⟨h1, hsi⟩]
  rfl

/-- C79: under `sticky-linkage`, in successive calls of a program with at most four arguments left
out, a parameter whose argument is given has that argument (no address if it is OMITTED), and one
left out has the argument most recently given for it in an earlier call. -/
theorem C79_sticky {α : Type} (n : Nat) (calls : List (List (Option α)))
    (hargs : ∀ l ∈ calls, l.length ≤ n ∧ n ≤ l.length + 4) (t : Nat) (l : List (Option α))
    (ht : calls[t]? = some l) (i : Nat) (hi : i < n) :
    ∃ r, (stickyRun n (List.replicate n none) calls)[t]? = some r ∧
      r[i]? = some (match l[i]? with
        | some a => a
        | none => lastGiven i (calls.take t).reverse) := by
  suffices H : ∀ (calls : List (List (Option α))) (hist : List (List (Option α))) (saved : List (Option α)),
      (∀ l ∈ calls, l.length ≤ n ∧ n ≤ l.length + 4) → saved.length = n →
      (∀ j, j < n → saved[j]? = some (lastGiven j hist)) →
      ∀ (t : Nat) (l : List (Option α)), calls[t]? = some l →
      ∃ r, (stickyRun n saved calls)[t]? = some r ∧
      r[i]? = some (match l[i]? with
        | some a => a
        | none => lastGiven i ((calls.take t).reverse ++ hist)) by
    have := H calls [] (List.replicate n none) hargs (by simp) (by
      intro j hj; simp [lastGiven, hj]) t l ht
    simpa using this
  clear ht hargs l t calls
  intro calls
  induction calls with
  | nil => intro hist saved _ _ _ t l h; simp at h
  | cons c calls ih =>
    intro hist saved hargs hlen hsv t l ht
    have hc := hargs c (by simp)
    have hbl : ((stickyArgs c).take n).length = n := by simp [stickyArgs]; omega
    have hb : ∀ j, j < n → ((stickyArgs c).take n)[j]? = some (match c[j]? with | some a => a | none => none) := by
      intro j hj
      rw [List.getElem?_take_of_lt hj, stickyArgs]
      by_cases hjc : j < c.length
      · rw [List.getElem?_append_left hjc, List.getElem?_eq_getElem hjc]
      · rw [List.getElem?_append_right (by omega), List.getElem?_replicate, if_pos (by omega)]
        simp [List.getElem?_eq_none (show c.length ≤ j by omega)]
    have hst := fun j (hj : j < n) => sticky_base n saved ((stickyArgs c).take n) hbl hlen c.length j hj _ _
      (hb j hj) (hsv j hj)
    rw [stickyRun]
    cases t with
    | zero =>
      simp only [List.getElem?_cons_zero, Option.some.injEq] at ht
      subst ht
      refine ⟨_, List.getElem?_cons_zero, ?_⟩
      rw [(hst i hi).1]
      by_cases hic : i < c.length
      · rw [if_neg (by omega), List.getElem?_eq_getElem hic]
      · rw [List.getElem?_eq_none (by omega)]
        simp only [List.take_zero, List.reverse_nil, List.nil_append, show c.length ≤ i by omega, true_and]
        cases lastGiven i hist <;> simp
    | succ t =>
      simp only [List.getElem?_cons_succ] at ht
      have hlen' : (stickyStep c.length saved ((stickyArgs c).take n)).2.length = n := (hst i hi).2.2
      have hsv' : ∀ j, j < n → (stickyStep c.length saved ((stickyArgs c).take n)).2[j]? =
          some (lastGiven j (c :: hist)) := by
        intro j hj
        rw [(hst j hj).2.1, lastGiven]
        by_cases hjc : j < c.length
        · have hn' : ¬ (c.length ≤ j ∧ (lastGiven j hist).isSome = true) := by omega
          simp only [if_neg hn', List.getElem?_eq_getElem hjc]
          cases c[j] <;> simp
        · rw [List.getElem?_eq_none (by omega)]
          simp only [show c.length ≤ j by omega, true_and]
          cases lastGiven j hist <;> simp
      obtain ⟨r, hr, hri⟩ := ih (c :: hist) _ (fun l hl => hargs l (by simp [hl])) hlen' hsv' t l ht
      refine ⟨r, ?_, ?_⟩
      · rw [List.getElem?_cons_succ]; exact hr
      · rw [hri]
        simp [List.append_assoc]

/-! ### ANY LENGTH -/

theorem any_run (sizes : List Nat) (calls : List (List (Option Nat))) (i d : Nat)
    (hd : sizes[i]? = some d) :
    (calls.foldl (fun s c => anyStep c s) sizes)[i]? = some (lastSize i d calls.reverse) := by
  suffices H : ∀ (calls : List (List (Option Nat))) (hist : List (List (Option Nat))) (s : List Nat),
      s[i]? = some (lastSize i d hist) →
      (calls.foldl (fun s c => anyStep c s) s)[i]? = some (lastSize i d (calls.reverse ++ hist)) by
    simpa using H calls [] sizes (by simpa [lastSize, lastGiven] using hd)
  clear hd sizes calls
  intro calls
  induction calls with
  | nil => intro hist s h; simpa using h
  | cons c calls ih =>
    intro hist s h
    rw [List.foldl_cons]
    have := ih (c :: hist) (anyStep c s) ?_
    · rw [this]; simp [List.append_assoc]
    · unfold anyStep
      rw [List.getElem?_map, List.getElem?_zipIdx, h]
      simp only [Option.map_some, Nat.zero_add]
      unfold lastSize
      rw [lastGiven]
      cases c[i]? with
      | none => rfl
      | some o => cases o <;> rfl

/-- C79: after any calls, an ANY LENGTH parameter has the length of the argument it was last given. -/
theorem C79_any_length (sizes : List Nat) (calls : List (List Arg)) (i d : Nat)
    (hd : sizes[i]? = some d) :
    (calls.foldl (fun s c => anyStep (c.map fieldSize) s) sizes)[i]? =
      some (lastSize i d (calls.map fun c => c.map fun a => argLength a.x).reverse) := by
  have h := any_run sizes (calls.map fun c => c.map fieldSize) i d hd
  rw [List.foldl_map] at h
  rw [h]
  have : fieldSize = fun a : Arg => argLength a.x := by
    funext a
    obtain ⟨m, s, x⟩ := a
    cases x <;> rfl
  rw [this]

/-! ### findings and examples -/

/-- C79, finding: with SIZE AUTO the cast is to `unsigned` exactly for signed items
(cobc/codegen.c:2615): -1 in a PIC S9(4) COMP-5 item reaches a parameter of the default SIZE as
65535; with SIZE 2 written out it is -1. -/
theorem C79_finding_auto_sign :
    let it : Arg := ⟨.value, ⟨0, false⟩, .item 0 2 2 (.num .binary { digits := 4, haveSign := true })⟩
    let m : Mem := fun o => if o = .store then [255, 255] else []
    passArg false m 1 it = .int 4 65535 ∧
    passArg false m 1 { it with sizes := ⟨2, false⟩ } = .int 4 (-1) := by
  decide +kernel

/-- C79, finding: a binary item with decimals is passed BY VALUE as its digits (12.3 as 123), a zoned
one as its whole part (12). -/
theorem C79_finding_scaled :
    let m : Mem := fun o => if o = .store then [123, 0, 49, 50, 51] else []
    passArg false m 1 ⟨.value, ⟨4, false⟩, .item 0 2 2 (.num .binary { digits := 3, scale := 1 })⟩ =
      .int 4 123 ∧
    passArg false m 1 ⟨.value, ⟨4, false⟩, .item 2 3 3 (.num .display { digits := 3, scale := 1 })⟩ =
      .int 4 12 := by
  decide +kernel

/-- C79, finding: a literal of fewer than ten digits fills only four of the eight bytes passed: a
called program that describes the parameter with eight bytes sees whatever was in the other four
(`junk`). -/
theorem C79_finding_wide_literal :
    let args : List Arg := [⟨.content, ⟨4, false⟩, .numLit 5 1⟩]
    let ps : List PDecl := [⟨1, false, true, ⟨4, false⟩, 8⟩]
    let e := enter false (fun _ _ => 7) (fun _ => []) args ps
    (e.1.zip ps).map (fun x => view e.2 x.1 x.2.size) = [[5, 0, 0, 0, 7, 7, 7, 7]] := by
  decide +kernel

/-- C79, finding: under `sticky-linkage`, the saved addresses are numbered by the parameters of the
whole program but chosen by the number of arguments of the call: in a program with USING A B and
ENTRY "E" USING B, a CALL "E" USING x after a CALL with a and b runs with B = b, not x. -/
theorem C79_finding_sticky_entry :
    let ps := paramList [[1, 2], [2]]
    let first := stickyStep 2 [none, none] (passOn ps [1, 2] ["a", "b"])
    let second := stickyStep 1 first.2 (passOn ps [2] ["x"])
    passOn ps [2] ["x"] = [none, some "x"] ∧ second.1 = [none, some "b"] := by
  decide +kernel

/-- Beside `C79_untouched`, `C79_reference`, `C79_content`: one item passed both ways to a program that
keeps copying the second parameter, plus one, into the first. -/
example :
    let args : List Arg := [⟨.reference, ⟨4, false⟩, .item 1 2 2 .alnum⟩, ⟨.content, ⟨4, false⟩, .item 1 2 2 .alnum⟩]
    let ps : List PDecl := [⟨1, false, false, ⟨4, false⟩, 2⟩, ⟨2, false, false, ⟨4, false⟩, 2⟩]
    let b : Body Nat := ⟨0, fun s vs => if s < 2 then some (s + 1, 0, s, (vs.getD 1 []).getD s 0 + 1) else none⟩
    let m : Mem := fun o => if o = .store then [10, 20, 30, 40] else []
    callRun false (fun _ _ => 0) b m args ps 5 .store = [10, 21, 31, 40] ∧
    callRun false (fun _ _ => 0) b m args ps 5 (.content 2) = [20, 30, 0, 0, 0, 0, 0, 0] := by
  decide +kernel

/-- Beside `C79_untouched`: the sizes fit and byte 0 is not lent. -/
example :
    let args : List Arg := [⟨.reference, ⟨4, false⟩, .item 1 2 2 .alnum⟩]
    let ps : List PDecl := [⟨1, false, false, ⟨4, false⟩, 2⟩]
    SizesFit args ps ∧ ¬ Lent args 0 ∧ Lent args 2 := by
  refine ⟨?_, ?_, ?_⟩
  · intro i a p ha hp off size decl k hx
    cases i with
    | zero => simp at ha hp; subst ha; subst hp; simp at hx; simp only; omega
    | succ i => simp at ha
  · rintro ⟨a, ha, _, off, size, decl, k, hx, h1, h2⟩
    simp at ha; subst ha; simp at hx; omega
  · exact ⟨_, List.mem_cons_self, rfl, 1, 2, 2, .alnum, rfl, by omega, by omega⟩

/-- Beside `C79_value`: -5 in PIC S9(3), SIZE 2 on both sides. -/
example :
    let args : List Arg := [⟨.value, ⟨2, false⟩, .item 0 3 3 (.num .display { digits := 3, haveSign := true })⟩]
    let ps : List PDecl := [⟨1, true, true, ⟨2, false⟩, 2⟩]
    let m : Mem := fun o => if o = .store then [48, 48, 117] else []
    let e := enter false (fun _ _ => 0) m args ps
    Readable .display { digits := 3, haveSign := true } 3 ∧
    (e.1.zip ps).map (fun x => view e.2 x.1 x.2.size) = [[251, 255]] := by
  decide +kernel

/-- Beside the theorems on literals: 1234567890 needs eight bytes; "AB". -/
example :
    let args : List Arg := [⟨.reference, ⟨4, false⟩, .numLit 1234567890 10⟩, ⟨.content, ⟨4, false⟩, .alnumLit [65, 66]⟩,
      ⟨.value, ⟨4, false⟩, .numLit (-2) 2⟩]
    let ps : List PDecl := [⟨1, false, true, ⟨4, false⟩, 8⟩, ⟨2, false, false, ⟨4, false⟩, 2⟩, ⟨3, true, true, ⟨4, false⟩, 4⟩]
    let e := enter false (fun _ _ => 9) (fun _ => []) args ps
    (e.1.zip ps).map (fun x => view e.2 x.1 x.2.size) =
      [[210, 2, 150, 73, 0, 0, 0, 0], [65, 66], [254, 255, 255, 255]] := by
  decide +kernel

/-- Beside `C79_sticky`: three parameters, calls with three, one and two arguments (one OMITTED). -/
example :
    stickyRun 3 [none, none, none] [[some "a", some "b", none], [some "c"], [none, some "d"]] =
      [[some "a", some "b", none], [some "c", some "b", none], [none, some "d", none]] := by
  decide +kernel

/-- Beside `C79_entries`, `C79_any_length`. -/
example : paramList [[1, 2], [3, 2]] = [1, 2, 3] ∧ passOn [1, 2, 3] [3, 2] ["x", "y"] = [none, some "y", some "x"] ∧
    anyStep [some 7, none] [1, 1] = [7, 1] := by
  decide +kernel

end Cob.Args
