import Verif.Cobc.AlphabetProps
/-
C93: the table of an alphabet, LOW-VALUE and HIGH-VALUE, and the CLASS condition.
-/
namespace Cob.Alpha

/-! ### The table -/

/-- Positions are put into the table. -/
def putGroup (t : Tab) (g : List Int) : Tab := (g.foldl (fun t v => t.put v.toNat) t).next

theorem putSingles (l : List Nat) (t : Tab) (f : Nat → Int) :
    (l.map fun i => [f i]).foldl putGroup t = (l.map fun i => (f i).toNat).foldl (fun t i => (t.put i).next) t := by
  induction l generalizing t with
  | nil => rfl
  | cons a l ih => exact ih _

theorem tab_entry (t : Tab) (e : Entry) (hup : ∀ x y, e = .thru x y → code x ≤ code y)
    (hv : ∀ v ∈ codes e, 0 ≤ v ∧ v ≤ 255) : tabEntry t e = (positions e).foldl putGroup t := by
  cases e with
  | one x =>
    cases x with
    | text c m =>
      simp only [tabEntry, positions]
      rw [putSingles (c :: m) t fun d => (d : Int)]
      congr 1
      conv_lhs => rw [← List.map_id (c :: m)]
      apply List.map_congr_left
      intro d _
      simp
    | _ => rfl
  | thru x y =>
    have hle := hup x y rfl
    have h1 := hv _ (thru_ends x y).1
    have h2 := hv _ (thru_ends x y).2
    simp only [tabEntry, value_code]
    rw [if_pos hle, span_codes _ _ h1 h2, if_pos hle]
    simp only [positions]
    rw [if_pos hle, putSingles _ t fun i : Nat => code x + i]
  | also x more =>
    simp only [tabEntry, value_code, positions]
    rfl

theorem tab_entries (es : List Entry) (t : Tab) (hup : Upward es) (hv : ∀ v ∈ allCodes es, 0 ≤ v ∧ v ≤ 255) :
    es.foldl tabEntry t = (listed es).foldl putGroup t := by
  induction es generalizing t with
  | nil => rfl
  | cons e es ih =>
    have hcons : allCodes (e :: es) = codes e ++ allCodes es := rfl
    rw [hcons] at hv
    rw [List.foldl_cons, ih _ (fun x y h => hup x y (by simp [h])) (fun v h => hv v (by simp [h])),
      tab_entry t e (fun x y h => hup x y (by rw [h]; simp)) (fun v h => hv v (by simp [h]))]
    unfold listed
    rw [List.flatMap_cons, List.foldl_append]

theorem puts_at (g : List Int) (t : Tab) (k : Nat) (hg : ∀ v ∈ g, 0 ≤ v) :
    (g.foldl (fun t v => t.put v.toNat) t).n = t.n ∧
    (g.foldl (fun t v => t.put v.toNat) t).at_ k = if (k : Int) ∈ g then some t.n else t.at_ k := by
  induction g generalizing t with
  | nil => exact ⟨rfl, by simp⟩
  | cons v g ih =>
    obtain ⟨h1, h2⟩ := ih (t.put v.toNat) (fun w hw => hg w (by simp [hw]))
    rw [List.foldl_cons]
    refine ⟨h1, ?_⟩
    rw [h2]
    have hv := hg v (by simp)
    have hk : k = v.toNat ↔ (k : Int) = v := by omega
    simp only [Tab.put, List.mem_cons]
    by_cases h3 : (k : Int) ∈ g
    · simp [h3]
    · simp only [h3, or_false, if_false, hk]

theorem groups_at (gs : List (List Int)) (t : Tab) (hg : ∀ v ∈ gs.flatten, 0 ≤ v) (hd : gs.flatten.Nodup) :
    (gs.foldl putGroup t).n = t.n + gs.length ∧
    (∀ i g, gs[i]? = some g → ∀ k : Nat, (k : Int) ∈ g → (gs.foldl putGroup t).at_ k = some (t.n + i)) ∧
    (∀ k : Nat, (k : Int) ∉ gs.flatten → (gs.foldl putGroup t).at_ k = t.at_ k) := by
  induction gs generalizing t with
  | nil => exact ⟨rfl, by simp, fun _ _ => rfl⟩
  | cons g gs ih =>
    rw [List.flatten_cons] at hg hd
    have hp := fun k => puts_at g t k (fun v hv => hg v (by simp [hv]))
    have hn : (putGroup t g).n = t.n + 1 := by unfold putGroup Tab.next; rw [(hp 0).1]
    have hat : ∀ k : Nat, (putGroup t g).at_ k = if (k : Int) ∈ g then some t.n else t.at_ k := fun k => (hp k).2
    obtain ⟨h1, h2, h3⟩ := ih (putGroup t g) (fun v hv => hg v (by simp [hv])) (List.nodup_append.1 hd).2.1
    rw [List.foldl_cons]
    refine ⟨by rw [h1, hn, List.length_cons]; omega, ?_, ?_⟩
    · intro i g' hi k hk
      cases i with
      | zero =>
        simp only [List.getElem?_cons_zero, Option.some.injEq] at hi
        subst hi
        rw [h3 k (fun hm => (List.nodup_append.1 hd).2.2 _ hk _ hm rfl), hat, if_pos hk, Nat.add_zero]
      | succ i =>
        rw [List.getElem?_cons_succ] at hi
        rw [h2 i g' hi k hk, hn]
        congr 1; omega
    · intro k hk
      rw [List.flatten_cons, List.mem_append, not_or] at hk
      rw [h3 k hk.2, hat, if_neg hk.1]

/-- The free places below `c`. -/
def freeBelow (t : Tab) (c : Nat) : Nat := ((List.range c).filter fun d => (t.at_ d).isNone).length

theorem freeBelow_succ (t : Tab) (k : Nat) : freeBelow t (k + 1) = freeBelow t k + if (t.at_ k).isNone then 1 else 0 := by
  unfold freeBelow
  rw [List.range_succ, List.filter_append]
  cases h : (t.at_ k).isNone <;> simp [h]

theorem fill_at (t : Tab) (k : Nat) :
    ((List.range k).foldl fillOne t).n = t.n + freeBelow t k ∧
    (∀ c, ((List.range k).foldl fillOne t).at_ c = if c < k ∧ (t.at_ c).isNone then some (t.n + freeBelow t c) else t.at_ c) := by
  induction k with
  | zero => simp [freeBelow]
  | succ k ih =>
    obtain ⟨h1, h2⟩ := ih
    rw [List.range_succ, List.foldl_append, List.foldl_cons, List.foldl_nil, freeBelow_succ]
    generalize (List.range k).foldl fillOne t = u at h1 h2
    have hk : u.at_ k = t.at_ k := by rw [h2 k, if_neg (by omega)]
    unfold fillOne
    rw [hk]
    by_cases hf : (t.at_ k).isNone
    · simp only [hf, if_true]
      refine ⟨by simp only [Tab.next, Tab.put, h1]; omega, ?_⟩
      intro c
      simp only [Tab.next, Tab.put]
      by_cases hc : c = k
      · subst hc
        rw [if_pos rfl, if_pos ⟨by omega, hf⟩, h1]
      · rw [if_neg hc, h2 c]
        by_cases hlt : c < k
        · simp only [hlt, true_and, show c < k + 1 by omega]
        · rw [if_neg (by omega), if_neg (by omega)]
    · simp only [hf, Bool.false_eq_true, if_false]
      refine ⟨by rw [h1]; rfl, ?_⟩
      intro c
      rw [h2 c]
      by_cases hc : c = k
      · subst hc
        rw [if_neg (by omega), if_neg (by intro h; exact hf h.2)]
      · by_cases hlt : c < k
        · simp only [hlt, true_and, show c < k + 1 by omega]
        · rw [if_neg (by omega), if_neg (by omega)]

theorem listed_split (es : List Entry) (hv : Valid es) :
    (listed es).flatten.length + unlistedBelow es 256 = 256 := by
  have h1 : ((List.range 256).filter fun d : Nat => (d : Int) ∈ (listed es).flatten).length = (listed es).flatten.length := by
    have hp : ((List.range 256).filter fun d : Nat => (d : Int) ∈ (listed es).flatten).Perm ((listed es).flatten.map Int.toNat) := by
      rw [List.perm_ext_iff_of_nodup (List.nodup_range.filter _) ((map_toNat_nodup _ hv.1).2 hv.2)]
      intro d
      simp only [List.mem_filter, List.mem_range, decide_eq_true_eq, List.mem_map]
      constructor
      · rintro ⟨_, h⟩; exact ⟨d, h, by simp⟩
      · rintro ⟨v, h, rfl⟩
        have := hv.1 v h
        exact ⟨by omega, by rw [show ((v.toNat : Nat) : Int) = v by omega]; exact h⟩
    rw [hp.length_eq, List.length_map]
  unfold unlistedBelow
  rw [← h1]
  have := List.length_eq_countP_add_countP (l := List.range 256) fun d : Nat => decide ((d : Int) ∈ (listed es).flatten)
  rw [List.length_range, List.countP_eq_length_filter, List.countP_eq_length_filter] at this
  simp only [decide_not] at this ⊢
  simpa [decide_not] using this.symm

theorem positions_ne (e : Entry) : ∀ g ∈ positions e, g ≠ [] := by
  intro g hg
  cases e with
  | one x =>
    cases x with
    | text c m => simp only [positions, List.mem_map] at hg; obtain ⟨d, _, rfl⟩ := hg; simp
    | _ => simp only [positions, List.mem_singleton] at hg; subst hg; simp
  | thru x y =>
    simp only [positions] at hg
    split at hg <;> (simp only [List.mem_map] at hg; obtain ⟨d, _, rfl⟩ := hg; simp)
  | also x more => simp only [positions, List.mem_singleton] at hg; subst hg; simp

theorem listed_ne (es : List Entry) : ∀ g ∈ listed es, g ≠ [] := by
  intro g hg
  unfold listed at hg
  rw [List.mem_flatMap] at hg
  obtain ⟨e, _, he⟩ := hg
  exact positions_ne e g he

theorem length_le_flatten (gs : List (List Int)) (h : ∀ g ∈ gs, g ≠ []) : gs.length ≤ gs.flatten.length := by
  induction gs with
  | nil => simp
  | cons g gs ih =>
    have := ih fun g hg => h g (by simp [hg])
    have := List.length_pos_iff.2 (h g (by simp))
    simp only [List.length_cons, List.flatten_cons, List.length_append]
    omega

theorem unlisted_mono (es : List Entry) (c d : Nat) (h : c ≤ d) : unlistedBelow es c ≤ unlistedBelow es d := by
  unfold unlistedBelow
  exact ((List.range_sublist.2 h).filter _).length_le

theorem unlisted_lt (es : List Entry) (c d : Nat) (h : c < d) (hu : (c : Int) ∉ (listed es).flatten) : unlistedBelow es c < unlistedBelow es d := by
  have h1 : unlistedBelow es (c + 1) = unlistedBelow es c + 1 := by
    unfold unlistedBelow
    rw [List.range_succ, List.filter_append, List.length_append, List.filter_cons_of_pos (by exact decide_eq_true hu)]
    rfl
  have := unlisted_mono es (c + 1) d h
  omega

/-- **C93, the table**: the place of every character in the table of an accepted alphabet without downward ranges is the place that COBOL gives it. -/
theorem C93_sequence (es : List Entry) (hv : Valid es) (hup : Upward es) (c p : Nat) (hc : c < 256) (hp : Place es c p) : table es c = p := by
  have hall : ∀ v ∈ allCodes es, 0 ≤ v ∧ v ≤ 255 := by rw [allCodes_listed]; exact hv.1
  have ht := tab_entries es {} hup hall
  obtain ⟨h1, h2, h3⟩ := groups_at (listed es) {} (fun v h => (hv.1 v h).1) hv.2
  obtain ⟨_, h4⟩ := fill_at (es.foldl tabEntry {}) 256
  have hn : (es.foldl tabEntry {}).n = (listed es).length := by rw [ht, h1]; simp
  have hlen : (listed es).length + unlistedBelow es 256 ≤ 256 := by
    have := listed_split es hv
    have := length_le_flatten (listed es) (listed_ne es)
    omega
  have hnone : ∀ d : Nat, ((es.foldl tabEntry {}).at_ d).isNone = true ↔ (d : Int) ∉ (listed es).flatten := by
    intro d
    rw [ht]
    constructor
    · intro hd hm
      rw [List.mem_flatten] at hm
      obtain ⟨g, hg, hm⟩ := hm
      obtain ⟨i, hi⟩ := List.getElem?_of_mem hg
      rw [h2 i g hi d hm] at hd
      cases hd
    · intro hd
      rw [h3 d hd]; rfl
  have hfree : ∀ d, freeBelow (es.foldl tabEntry {}) d = unlistedBelow es d := by
    intro d
    unfold freeBelow unlistedBelow
    refine congrArg List.length (List.filter_congr ?_)
    intro a _
    rw [Bool.eq_iff_iff, hnone a, decide_eq_true_eq]
  unfold table
  rw [h4 c]
  rcases hp with ⟨g, hg, hm⟩ | ⟨hm, rfl⟩
  · have hin : (c : Int) ∈ (listed es).flatten := List.mem_flatten.2 ⟨g, List.mem_of_getElem? hg, hm⟩
    rw [if_neg (fun h => ((hnone c).1 h.2) hin), ht, h2 p g hg c hm]
    have : p < (listed es).length := (List.getElem?_eq_some_iff.1 hg).1
    simp only [Option.getD_some, Nat.zero_add]
    rw [Nat.mod_eq_of_lt (by omega)]
  · rw [if_pos ⟨hc, (hnone c).2 hm⟩, hfree, hn]
    simp only [Option.getD_some]
    have := unlisted_lt es c 256 hc hm
    rw [Nat.mod_eq_of_lt (by omega)]

/-- Every character has exactly one place. -/
theorem place_exists (es : List Entry) (c : Nat) : ∃ p, Place es c p := by
  by_cases h : (c : Int) ∈ (listed es).flatten
  · rw [List.mem_flatten] at h
    obtain ⟨g, hg, hm⟩ := h
    obtain ⟨i, hi⟩ := List.getElem?_of_mem hg
    exact ⟨i, Or.inl ⟨g, hi, hm⟩⟩
  · exact ⟨_, Or.inr ⟨h, rfl⟩⟩

/-! ### LOW-VALUE and HIGH-VALUE -/

theorem entry_low_last (s : St) (e : Entry) :
    (checkEntry s e).low = (if s.count = 0 then (codes e).head (codes_ne e) else s.low) ∧
    (checkEntry s e).lastval = (codes e).getLast (codes_ne e) := by
  cases e with
  | one x =>
    cases x with
    | text c m =>
      simp only [checkEntry]
      obtain ⟨_, h2, h3⟩ := marks_mono (c :: m) { s with lastval := (((c :: m).getLast (by simp) : Nat) : Int), low := if s.count = 0 then (c : Int) else s.low }
      rw [h2, h3]
      have hc := codes_text c m
      refine ⟨?_, ?_⟩
      · simp only [hc, List.map_cons, List.head_cons]
      · simp only [hc]
        rw [List.getLast_map]
    | _ =>
      simp only [checkEntry]
      unfold markValue
      split <;> exact ⟨rfl, rfl⟩
  | thru x y =>
    have hh : (codes (.thru x y)).head (codes_ne _) = code x := by
      simp only [codes_thru]
      split
      · rw [List.head_map, List.head_range]; simp
      · rw [List.head_map, List.head_range]; simp
    have hl : (codes (.thru x y)).getLast (codes_ne _) = code y := by
      simp only [codes_thru]
      split
      · rw [List.getLast_map, List.getLast_range]; omega
      · rw [List.getLast_map, List.getLast_range]; omega
    rw [hh, hl]
    simp only [checkEntry, value_code]
    split
    · exact ⟨rfl, rfl⟩
    split
    · exact ⟨rfl, rfl⟩
    · exact ⟨(marks_mono _ _).2.1, (marks_mono _ _).2.2⟩
  | also x more =>
    simp only [checkEntry, value_code]
    rw [markValues_low]
    have hc := codes_also x more
    refine ⟨?_, ?_⟩
    · simp only [hc, List.map_cons, List.head_cons]
    · simp only [hc]

theorem entry_count (l : List Nat) (s : St) (h : Good l s) (e : Entry) (hb : Bytes [e]) (hk : Ok (checkEntry s e)) : (checkEntry s e).count ≠ 0 := by
  have := ((entry_good l s h e hb).2 hk).count
  have h2 := List.length_pos_iff.2 (codes_ne e)
  rw [this]
  simp only [List.length_append, List.length_map]
  omega

theorem allCodes_ne (e : Entry) (es : List Entry) : allCodes (e :: es) ≠ [] := by
  have : allCodes (e :: es) = codes e ++ allCodes es := rfl
  rw [this]
  simp [codes_ne e]

theorem all_low_last (es : List Entry) (l : List Nat) (s : St) (h : Good l s) (hb : Bytes es) (hk : Ok (checkAll s es)) :
    (checkAll s es).low = (if s.count = 0 then (allCodes es).head?.getD s.low else s.low) ∧
    (checkAll s es).lastval = (allCodes es).getLast?.getD s.lastval := by
  induction es generalizing l s with
  | nil => simp [checkAll, allCodes]
  | cons e es ih =>
    have hb1 : Bytes [e] := fun c m hm => hb c m (by rw [List.mem_singleton] at hm; simp [hm])
    have hb2 : Bytes es := fun c m hm => hb c m (by simp [hm])
    unfold checkAll at hk ⊢
    split at hk
    · cases hk.2
    rename_i hc
    rw [if_neg hc]
    have hk1 := all_mono es _ hk
    obtain ⟨h1, h2⟩ := ih _ _ ((entry_good l s h e hb1).2 hk1) hb2 hk
    obtain ⟨h3, h4⟩ := entry_low_last s e
    have hcount := entry_count l s h e hb1 hk1
    rw [h1, h2, if_neg hcount, h3, h4]
    have hcons : allCodes (e :: es) = codes e ++ allCodes es := rfl
    rw [hcons]
    constructor
    · split
      · rw [List.head?_append_of_ne_nil _ (codes_ne e), List.head?_eq_some_head (codes_ne e)]; rfl
      · rfl
    · rw [List.getLast?_append]
      cases hl : (allCodes es).getLast? with
      | some v => simp
      | none => simp [List.getLast?_eq_some_getLast (codes_ne e)]

theorem group_zero (gs : List (List Int)) (h : ∀ g ∈ gs, g ≠ []) (v : Int) (hv : gs.flatten.head? = some v) : ∃ g, gs[0]? = some g ∧ v ∈ g := by
  cases gs with
  | nil => simp at hv
  | cons g gs =>
    refine ⟨g, rfl, ?_⟩
    rw [List.flatten_cons, List.head?_append_of_ne_nil _ (h g (by simp))] at hv
    exact List.mem_of_head? hv

theorem group_last (gs : List (List Int)) (h : ∀ g ∈ gs, g ≠ []) (v : Int) (hv : gs.flatten.getLast? = some v) :
    ∃ g, gs[gs.length - 1]? = some g ∧ v ∈ g ∧ 0 < gs.length := by
  induction gs with
  | nil => simp at hv
  | cons g gs ih =>
    rw [List.flatten_cons, List.getLast?_append] at hv
    cases gs with
    | nil =>
      simp only [List.flatten_nil, List.getLast?_nil, Option.none_or] at hv
      exact ⟨g, rfl, List.mem_of_getLast? hv, by simp⟩
    | cons g' gs =>
      have hne : (g' :: gs).flatten ≠ [] := by
        rw [List.flatten_cons]
        simp [h g' (by simp)]
      rw [List.getLast?_eq_some_getLast hne, Option.some_or] at hv
      obtain ⟨x, hx, hm, _⟩ := ih (fun y hy => h y (by simp [hy])) (by rw [List.getLast?_eq_some_getLast hne]; exact hv)
      refine ⟨x, ?_, hm, by simp⟩
      simpa using hx

theorem place_bound (es : List Entry) (_hv : Valid es) (c p : Nat) (hc : c < 256) (hp : Place es c p) :
    p < (listed es).length + unlistedBelow es 256 ∧ ((c : Int) ∈ (listed es).flatten → p < (listed es).length) := by
  rcases hp with ⟨g, hg, hm⟩ | ⟨hm, rfl⟩
  · have := (List.getElem?_eq_some_iff.1 hg).1
    exact ⟨by omega, fun _ => this⟩
  · have := unlisted_lt es c 256 hc hm
    exact ⟨by omega, fun h => absurd h hm⟩

/-- **C93, LOW-VALUE**: the character of LOW-VALUE is one of the lowest. -/
theorem C93_low (es : List Entry) (hne : es ≠ []) (hb : Bytes es) (hv : Valid es) (hup : Upward es) (c : Nat) (_hc : c < 256) :
    0 ≤ (check es).low ∧ (check es).low ≤ 255 ∧ table es (check es).low.toNat ≤ table es c := by
  have hk : Ok (checkAll {} es) := (ok_iff es hb).2 hv
  have hlow : (check es).low = (checkAll {} es).low := by
    unfold check; dsimp only; rw [hk.1, hk.2]; rfl
  obtain ⟨h1, _⟩ := all_low_last es [] {} good_init hb hk
  obtain ⟨e, es', rfl⟩ := List.exists_cons_of_ne_nil hne
  have hne' := allCodes_ne e es'
  rw [if_pos rfl, List.head?_eq_some_head hne', Option.getD_some] at h1
  have hmem : (checkAll {} (e :: es')).low ∈ (listed (e :: es')).flatten := by
    rw [h1, ← allCodes_listed]; exact List.head_mem hne'
  have hr := hv.1 _ hmem
  rw [hlow]
  refine ⟨hr.1, hr.2, ?_⟩
  obtain ⟨g, hg, hm⟩ := group_zero (listed (e :: es')) (listed_ne _) _ (by
    rw [← allCodes_listed, List.head?_eq_some_head hne'])
  rw [← h1] at hm
  rw [C93_sequence (e :: es') hv hup _ 0 (by omega) (Or.inl ⟨g, hg, by
    rw [show (((checkAll {} (e :: es')).low.toNat : Nat) : Int) = (checkAll {} (e :: es')).low by omega]; exact hm⟩)]
  exact Nat.zero_le _

theorem find_reverse_range (k : Nat) (p : Nat → Bool) :
    (∀ n, (List.range k).reverse.find? p = some n → n < k ∧ p n = true ∧ ∀ m, n < m → m < k → p m = false) ∧
    ((List.range k).reverse.find? p = none → ∀ m, m < k → p m = false) := by
  induction k with
  | zero => simp
  | succ k ih =>
    rw [List.range_succ, List.reverse_append, List.reverse_singleton, List.singleton_append, List.find?_cons]
    cases hp : p k with
    | true =>
      simp only [Option.some.injEq, reduceCtorEq, false_implies, and_true]
      rintro n rfl
      exact ⟨by omega, hp, fun m h1 h2 => by omega⟩
    | false =>
      simp only
      refine ⟨?_, ?_⟩
      · intro n hn
        obtain ⟨h1, h2, h3⟩ := ih.1 n hn
        refine ⟨by omega, h2, fun m hm hmk => ?_⟩
        by_cases e : m = k
        · subst e; exact hp
        · exact h3 m hm (by omega)
      · intro hn m hm
        by_cases e : m = k
        · subst e; exact hp
        · exact ih.2 hn m (by omega)

/-- **C93, HIGH-VALUE**: the character of HIGH-VALUE is one of the highest. -/
theorem C93_high (es : List Entry) (hb : Bytes es) (hv : Valid es) (hup : Upward es) (c : Nat) (hc : c < 256) :
    0 ≤ (check es).high ∧ (check es).high ≤ 255 ∧ table es c ≤ table es (check es).high.toNat := by
  have hk : Ok (checkAll {} es) := (ok_iff es hb).2 hv
  have hhigh : (check es).high = highChar (checkAll {} es) := by
    unfold check; dsimp only; rw [hk.1, hk.2]; rfl
  have hg := (all_good es [] {} good_init hb).2 hk
  obtain ⟨_, hlast⟩ := all_low_last es [] {} good_init hb hk
  rw [List.nil_append] at hg
  have hcount : (checkAll {} es).count = (listed es).flatten.length := by
    rw [hg.count, List.length_map, allCodes_listed]
  have hused : ∀ n : Nat, (checkAll {} es).used n = true ↔ (n : Int) ∈ (listed es).flatten := by
    intro n
    rw [hg.used, allCodes_listed, List.mem_map]
    constructor
    · rintro ⟨v, h, rfl⟩
      rw [show ((v.toNat : Nat) : Int) = v by have := hv.1 v h; omega]; exact h
    · intro h; exact ⟨n, h, by simp⟩
  obtain ⟨p, hp⟩ := place_exists es c
  rw [C93_sequence es hv hup c p hc hp]
  have hsplit := listed_split es hv
  have hpb := place_bound es hv c p hc hp
  -- the highest character that is not listed
  have top : ∀ n : Nat, n < 256 → (n : Int) ∉ (listed es).flatten → (∀ m : Nat, n < m → m < 256 → (m : Int) ∈ (listed es).flatten) →
      p ≤ table es n := by
    intro n hn hnot habove
    rw [C93_sequence es hv hup n _ hn (Or.inr ⟨hnot, rfl⟩)]
    rcases hp with ⟨g, hg', hm⟩ | ⟨hm, rfl⟩
    · have := (List.getElem?_eq_some_iff.1 hg').1
      omega
    · have : c ≤ n := by
        by_cases h : n < c
        · exact absurd (habove c h hc) hm
        · omega
      have := unlisted_mono es c n this
      omega
  rw [hhigh]
  unfold highChar
  by_cases hall : (checkAll {} es).count = 256
  · rw [if_pos hall]
    have hne : (listed es).flatten ≠ [] := by
      intro h; rw [hcount, h] at hall; cases hall
    have hl : (checkAll {} es).lastval = (listed es).flatten.getLast hne := by
      rw [hlast, allCodes_listed, List.getLast?_eq_some_getLast hne]; rfl
    have hmem : (checkAll {} es).lastval ∈ (listed es).flatten := by rw [hl]; exact List.getLast_mem hne
    have hr := hv.1 _ hmem
    refine ⟨hr.1, hr.2, ?_⟩
    obtain ⟨g, hg', hm, hpos⟩ := group_last (listed es) (listed_ne es) _ (List.getLast?_eq_some_getLast hne)
    rw [← hl] at hm
    rw [C93_sequence es hv hup _ ((listed es).length - 1) (by omega) (Or.inl ⟨g, hg', by
      rw [show (((checkAll {} es).lastval.toNat : Nat) : Int) = (checkAll {} es).lastval by omega]; exact hm⟩)]
    have : unlistedBelow es 256 = 0 := by omega
    omega
  · rw [if_neg hall]
    by_cases h255 : (checkAll {} es).used 255 = true
    · rw [if_pos h255]
      cases hf : (List.range 255).reverse.find? (fun n => !(checkAll {} es).used n) with
      | some n =>
        obtain ⟨h1, h2, h3⟩ := (find_reverse_range 255 _).1 n hf
        dsimp only
        refine ⟨by omega, by omega, ?_⟩
        rw [Int.toNat_natCast]
        refine top n (by omega) ?_ ?_
        · rw [← hused]; simpa using h2
        · intro m hm hm'
          rw [← hused]
          by_cases e : m = 255
          · subst e; exact h255
          · simpa using h3 m hm (by omega)
      | none =>
        exfalso
        have hn := (find_reverse_range 255 _).2 hf
        have : unlistedBelow es 256 = 0 := by
          unfold unlistedBelow
          rw [List.length_eq_zero_iff, List.filter_eq_nil_iff]
          intro d hd
          simp only [decide_eq_true_eq, Decidable.not_not]
          rw [← hused]
          rw [List.mem_range] at hd
          by_cases e : d = 255
          · subst e; exact h255
          · simpa using hn d (by omega)
        rw [hcount] at hall
        omega
    · rw [if_neg h255]
      refine ⟨by omega, by omega, ?_⟩
      exact top 255 (by omega) (fun h => h255 ((hused 255).2 h)) (fun m h1 h2 => by omega)

/-! ### CLASS -/

/-- **C93, CLASS**: the class condition is true exactly if every character of the item belongs to one of the items of the clause. -/
theorem C93_class (items : List ClassItem) (hd : ∀ i ∈ items, Definite i) (data : List Nat) :
    classTest items data = true ↔ ∀ b ∈ data, ∃ i ∈ items, Belongs b i := by
  unfold classTest
  simp only [List.all_eq_true, List.any_eq_true]
  have key : ∀ b, ∀ i, Definite i → (itemTest b i = true ↔ Belongs b i) := by
    intro b i hi
    cases i with
    | one x =>
      cases x with
      | text c m =>
        simp only [itemTest, Belongs, List.any_eq_true, decide_eq_true_eq]
        exact ⟨fun ⟨d, h, e⟩ => e ▸ h, fun h => ⟨b, h, rfl⟩⟩
      | _ => simp [itemTest, Belongs, value_code]
    | thru x y =>
      simp only [itemTest, Belongs]
      unfold thruTest
      rw [value_code]
      dsimp only
      have hb : (0 : Int) ≤ b := by omega
      have hcase : (parserValue x < parserValue y → code x ≤ code y) ∧ (¬ parserValue x < parserValue y → code y ≤ code x) := by
        obtain ⟨_, _, h3⟩ := hi
        by_cases hx : ∃ n, x = .num n
        · obtain ⟨n, rfl⟩ := hx
          by_cases hy : ∃ k, y = .num k
          · obtain ⟨k, rfl⟩ := hy
            simp only [parserValue, code]
            omega
          · have h4 := h3 n rfl (fun k hk => hy ⟨k, hk⟩)
            have h5 : parserValue y = code y := by
              cases y with
              | num k => exact absurd ⟨k, rfl⟩ hy
              | _ => rfl
            rw [h5]
            simp only [parserValue, show code (.num n) = n - 1 from rfl]
            omega
        · have h5 : parserValue x = code x := by
            cases x with
            | num k => exact absurd ⟨k, rfl⟩ hx
            | _ => rfl
          rw [h5]
          have h6 : parserValue y = code y ∨ parserValue y = code y + 1 := by
            cases y with
            | num k => right; simp only [parserValue, code]; omega
            | _ => exact Or.inl rfl
          omega
      by_cases hlt : parserValue x < parserValue y
      · rw [if_pos hlt]
        have := hcase.1 hlt
        dsimp only
        split
        · simp only [decide_eq_true_eq]; omega
        · simp only [Bool.and_eq_true, decide_eq_true_eq]; omega
      · rw [if_neg hlt]
        have := hcase.2 hlt
        dsimp only
        split
        · simp only [decide_eq_true_eq]; omega
        · simp only [Bool.and_eq_true, decide_eq_true_eq]; omega
  constructor
  · intro h b hb
    obtain ⟨i, hi, ht⟩ := h b hb
    exact ⟨i, hi, (key b i (hd i hi)).1 ht⟩
  · intro h b hb
    obtain ⟨i, hi, ht⟩ := h b hb
    exact ⟨i, hi, (key b i (hd i hi)).2 ht⟩

/-! ### Cases and findings -/

/-- ALPHABET A IS "BA" 48 ALSO "5", "c" THRU "e". -/
def exAlpha : List Entry := [.one (.text 66 [65]), .also (.num 48) [.text 53 []], .thru (.text 99 []) (.text 101 [])]

example : Valid exAlpha ∧ exAlpha ≠ [] := by unfold Valid; decide +kernel
example : Bytes exAlpha := by
  intro c m h
  simp only [exAlpha, List.mem_cons, Entry.one.injEq, Lit.text.injEq, reduceCtorEq, List.not_mem_nil, or_false] at h
  obtain ⟨rfl, rfl⟩ := h
  decide
example : Upward exAlpha := by
  intro x y h
  simp only [exAlpha, List.mem_cons, reduceCtorEq, Entry.thru.injEq, List.not_mem_nil, or_false, false_or] at h
  obtain ⟨rfl, rfl⟩ := h
  decide
example : [66, 65, 47, 53, 99, 101, 0, 255].map (table exAlpha) = [0, 1, 2, 2, 3, 5, 6, 254] ∧ (check exAlpha) = ⟨true, 66, 255⟩ := by decide +kernel
example : (check [.one (.text 65 [66]), .thru (.text 66 []) (.text 67 [])]).ok = false ∧ (check [.one (.num 257)]).ok = false := by decide +kernel
example : Definite (.thru (.text 65 []) (.text 90 [])) ∧ classTest [.thru (.text 90 []) (.text 65 []), .one .space] [65, 32, 90] = true ∧
    classTest [.thru (.text 90 []) (.text 65 []), .one .space] [65, 97] = false := by
  refine ⟨⟨by decide, by decide, fun n h => by cases h⟩, by decide +kernel, by decide +kernel⟩

/-- Finding: a range that goes down, "Z" THRU "A", is accepted and has no effect on the order; LOW-VALUE becomes "Z", which is not the lowest character. -/
theorem C93_finding_downward :
    (check [.thru (.text 90 []) (.text 65 [])]) = ⟨true, 90, 255⟩ ∧
    (List.range 256).map (table [.thru (.text 90 []) (.text 65 [])]) = List.range 256 := by decide +kernel

/-- Finding: with such a range the places of characters that are listed behind it are wrong too: "Z" THRU "A" "9" puts "9" in front of "Z". -/
theorem C93_finding_downward_rest :
    table [.thru (.text 90 []) (.text 65 []), .one (.text 57 [])] 57 = 0 := by decide +kernel

/-- Finding: CLASS C IS 65 THRU "A" has the characters 65 (the one in front of "A") and "A"; the condition is false for both. -/
theorem C93_finding_class_range :
    classTest [.thru (.num 65) (.text 65 [])] [64] = false ∧ classTest [.thru (.num 65) (.text 65 [])] [65] = false ∧
    Belongs 64 (.thru (.num 65) (.text 65 [])) ∧ Belongs 65 (.thru (.num 65) (.text 65 [])) := by
  refine ⟨by decide +kernel, by decide +kernel, Or.inl (by decide), Or.inl (by decide)⟩

end Cob.Alpha
