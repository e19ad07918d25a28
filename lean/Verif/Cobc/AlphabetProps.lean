import Verif.Cobc.Alphabet
import Mathlib.Data.List.Perm.Subperm
/-
C93: ALPHABET and CLASS.
-/
namespace Cob.Alpha

/-! ### Specification -/

/-- The character a literal of an ALPHABET or CLASS clause stands for, by its number from 0: the first one of a text; a number counts from 1. -/
def code : Lit → Int
  | .text c _ => c
  | .num n => n - 1
  | .space => 32
  | .zero => 48
  | .quote => 34
  | .low => 0
  | .high => 255
  | .null => 0

/-- The positions an entry adds to the sequence, in order, each with the characters that have it. -/
def positions : Entry → List (List Int)
  | .one (.text c more) => (c :: more).map fun d : Nat => [(d : Int)]
  | .one x => [[code x]]
  | .thru x y =>
    if code x ≤ code y then (List.range ((code y - code x).toNat + 1)).map fun i : Nat => [code x + i]
    else (List.range ((code x - code y).toNat + 1)).map fun i : Nat => [code x - i]
  | .also x more => [(x :: more).map code]

/-- The positions that a clause lists. -/
def listed (es : List Entry) : List (List Int) := es.flatMap positions

/-- A clause as it should be: all values are characters, and no character is listed twice. -/
def Valid (es : List Entry) : Prop := (∀ v ∈ (listed es).flatten, 0 ≤ v ∧ v ≤ 255) ∧ (listed es).flatten.Nodup

/-- No range goes down. -/
def Upward (es : List Entry) : Prop := ∀ x y, .thru x y ∈ es → code x ≤ code y

/-- The characters of the texts are bytes. -/
def Bytes (es : List Entry) : Prop := ∀ c more, .one (.text c more) ∈ es → ∀ d ∈ c :: more, d < 256

/-- How many characters below `c` are not listed. -/
def unlistedBelow (es : List Entry) (c : Nat) : Nat := ((List.range c).filter fun d : Nat => (d : Int) ∉ (listed es).flatten).length

/-- The place of a character, as COBOL has it: the position where it is listed; the others come behind all listed ones, in their own order. -/
def Place (es : List Entry) (c p : Nat) : Prop :=
  (∃ g, (listed es)[p]? = some g ∧ (c : Int) ∈ g) ∨ ((c : Int) ∉ (listed es).flatten ∧ p = (listed es).length + unlistedBelow es c)

/-- A byte belongs to an item of a CLASS clause: it is one of the characters of the literal, or between the two. -/
def Belongs (b : Nat) : ClassItem → Prop
  | .one (.text c more) => b ∈ c :: more
  | .one x => (b : Int) = code x
  | .thru x y => (code x ≤ b ∧ b ≤ code y) ∨ (code y ≤ b ∧ b ≤ code x)

/-- An item for which the compiler does something definite: no LOW-VALUE and HIGH-VALUE; and a range that begins with a number must not end with the
text of the very next character (see the finding). -/
def Definite : ClassItem → Prop
  | .one x => x ≠ .low ∧ x ≠ .high
  | .thru x y => (x ≠ .low ∧ x ≠ .high) ∧ (y ≠ .low ∧ y ≠ .high) ∧ ∀ n, x = .num n → (∀ k, y ≠ .num k) → code y ≠ n

/-! ### The check -/

theorem value_code : value = code := by funext x; cases x <;> rfl

/-- The characters of an entry. -/
def codes (e : Entry) : List Int := (positions e).flatten

def Ok (s : St) : Prop := s.dupls = false ∧ s.unvals = false

/-- The state after the characters `l`. -/
structure Good (l : List Nat) (s : St) : Prop where
  ok : Ok s
  used : ∀ n, s.used n = true ↔ n ∈ l
  count : s.count = l.length
  nodup : l.Nodup
  small : ∀ n ∈ l, n < 256

theorem good_congr (l : List Nat) (s s' : St) (h : Good l s) (h1 : s'.used = s.used) (h2 : s'.count = s.count) (h3 : s'.dupls = s.dupls)
    (h4 : s'.unvals = s.unvals) : Good l s' :=
  ⟨⟨h3.trans h.ok.1, h4.trans h.ok.2⟩, by rw [h1]; exact h.used, by rw [h2]; exact h.count, h.nodup, h.small⟩

theorem marks_mono (ns : List Nat) (s : St) : (Ok (ns.foldl mark s) → Ok s) ∧ (ns.foldl mark s).low = s.low ∧ (ns.foldl mark s).lastval = s.lastval := by
  induction ns generalizing s with
  | nil => exact ⟨id, rfl, rfl⟩
  | cons n ns ih =>
    obtain ⟨h1, h2, h3⟩ := ih (mark s n)
    refine ⟨?_, h2, h3⟩
    intro h
    have := h1 h
    exact ⟨by have := this.1; simp only [mark, Bool.or_eq_false_iff] at this; exact this.1, this.2⟩

theorem marks_good (ns l : List Nat) (s : St) (h : Good l s) (hb : ∀ n ∈ ns, n < 256) :
    (Ok (ns.foldl mark s) ↔ (l ++ ns).Nodup) ∧ (Ok (ns.foldl mark s) → Good (l ++ ns) (ns.foldl mark s)) := by
  induction ns generalizing l s with
  | nil =>
    simp only [List.append_nil, List.foldl_nil]
    exact ⟨⟨fun _ => h.nodup, fun _ => h.ok⟩, fun _ => h⟩
  | cons n ns ih =>
    by_cases hn : n ∈ l
    · have hbad : ¬ Ok ((n :: ns).foldl mark s) := by
        intro hk
        have := ((marks_mono ns (mark s n)).1 hk).1
        simp only [mark, (h.used n).2 hn, Bool.or_true] at this
        cases this
      refine ⟨⟨fun hk => absurd hk hbad, ?_⟩, fun hk => absurd hk hbad⟩
      intro hd
      exact absurd hn (fun hm => (List.nodup_append.1 hd).2.2 n hm n (by simp) rfl)
    · have hu : s.used n = false := by
        cases hx : s.used n with
        | false => rfl
        | true => exact absurd ((h.used n).1 hx) hn
      have hg : Good (l ++ [n]) (mark s n) := by
        refine ⟨⟨by simp [mark, h.ok.1, hu], h.ok.2⟩, ?_, by simp [mark, h.count], ?_, ?_⟩
        · intro k
          simp only [mark, Bool.or_eq_true, decide_eq_true_eq, h.used, List.mem_append, List.mem_singleton]
          exact Or.comm
        · rw [List.nodup_append]
          refine ⟨h.nodup, by simp, ?_⟩
          intro a ha b hb e
          simp only [List.mem_singleton] at hb
          subst hb; subst e
          exact hn ha
        · intro k hk
          rw [List.mem_append, List.mem_singleton] at hk
          rcases hk with hk | rfl
          · exact h.small k hk
          · exact hb _ (by simp)
      have := ih (l ++ [n]) (mark s n) hg (fun k hk => hb k (by simp [hk]))
      simpa only [List.append_assoc, List.singleton_append, List.foldl_cons] using this

theorem markValues_unvals (vs : List Int) (s : St) (h : s.unvals = true) : (vs.foldl markValue s).unvals = true := by
  induction vs generalizing s with
  | nil => exact h
  | cons v vs ih =>
    refine ih _ ?_
    unfold markValue
    split
    · rfl
    · exact h

theorem markValues_valid (vs : List Int) (s : St) (h : ∀ v ∈ vs, 0 ≤ v ∧ v ≤ 255) : vs.foldl markValue s = (vs.map Int.toNat).foldl mark s := by
  induction vs generalizing s with
  | nil => rfl
  | cons v vs ih =>
    have hv := h v (by simp)
    simp only [List.foldl_cons, List.map_cons]
    rw [show markValue s v = mark s v.toNat from by unfold markValue; rw [if_neg (by omega)]]
    exact ih _ fun v hv => h v (by simp [hv])

theorem markValues_invalid (vs : List Int) (s : St) (h : ¬ ∀ v ∈ vs, 0 ≤ v ∧ v ≤ 255) : (vs.foldl markValue s).unvals = true := by
  induction vs generalizing s with
  | nil => exact absurd (by simp) h
  | cons v vs ih =>
    by_cases hv : 0 ≤ v ∧ v ≤ 255
    · refine ih _ ?_
      intro hall
      apply h
      intro w hw
      rw [List.mem_cons] at hw
      rcases hw with rfl | hw
      · exact hv
      · exact hall w hw
    · refine markValues_unvals vs _ ?_
      unfold markValue
      rw [if_pos (by omega)]

theorem markValues_low (vs : List Int) (s : St) : (vs.foldl markValue s).low = s.low := by
  induction vs generalizing s with
  | nil => rfl
  | cons v vs ih =>
    rw [List.foldl_cons, ih]
    unfold markValue mark
    split <;> rfl

theorem span_codes (lo up : Int) (h1 : 0 ≤ lo ∧ lo ≤ 255) (h2 : 0 ≤ up ∧ up ≤ 255) :
    span lo.toNat up.toNat = (if lo ≤ up then (List.range ((up - lo).toNat + 1)).map fun i : Nat => (lo + i).toNat
      else (List.range ((lo - up).toNat + 1)).map fun i : Nat => (lo - i).toNat) := by
  unfold span
  by_cases h : lo ≤ up
  · rw [if_pos h, if_pos (by omega)]
    rw [show up.toNat - lo.toNat + 1 = (up - lo).toNat + 1 by omega]
    apply List.map_congr_left
    intro i _
    omega
  · rw [if_neg h, if_neg (by omega)]
    rw [show lo.toNat - up.toNat + 1 = (lo - up).toNat + 1 by omega]
    apply List.map_congr_left
    intro i _
    omega

theorem flatten_singles {α β : Type} (l : List α) (f : α → β) : (l.map fun x => [f x]).flatten = l.map f := by
  induction l with
  | nil => rfl
  | cons a l ih => simp [ih]

theorem codes_text (c : Nat) (more : List Nat) : codes (.one (.text c more)) = (c :: more).map fun d : Nat => (d : Int) := by
  simp only [codes, positions]
  exact flatten_singles _ _

theorem codes_thru (x y : Lit) : codes (.thru x y) =
    if code x ≤ code y then (List.range ((code y - code x).toNat + 1)).map fun i : Nat => code x + i
    else (List.range ((code x - code y).toNat + 1)).map fun i : Nat => code x - i := by
  simp only [codes, positions]
  split <;> exact flatten_singles _ _

theorem codes_also (x : Lit) (more : List Lit) : codes (.also x more) = (x :: more).map code := by
  unfold codes positions
  simp

theorem codes_one (x : Lit) (h : ∀ c m, x ≠ .text c m) : codes (.one x) = [code x] := by
  cases x with
  | text c m => exact absurd rfl (h c m)
  | _ => rfl

theorem thru_ends (x y : Lit) : code x ∈ codes (.thru x y) ∧ code y ∈ codes (.thru x y) := by
  rw [codes_thru]
  split
  · simp only [List.mem_map, List.mem_range]
    exact ⟨⟨0, by omega, by omega⟩, ⟨(code y - code x).toNat, by omega, by omega⟩⟩
  · simp only [List.mem_map, List.mem_range]
    exact ⟨⟨0, by omega, by omega⟩, ⟨(code x - code y).toNat, by omega, by omega⟩⟩

theorem thru_between (x y : Lit) (h1 : 0 ≤ code x ∧ code x ≤ 255) (h2 : 0 ≤ code y ∧ code y ≤ 255) :
    ∀ v ∈ codes (.thru x y), 0 ≤ v ∧ v ≤ 255 := by
  intro v hv
  rw [codes_thru] at hv
  split at hv
  · simp only [List.mem_map, List.mem_range] at hv
    obtain ⟨i, h3, rfl⟩ := hv
    omega
  · simp only [List.mem_map, List.mem_range] at hv
    obtain ⟨i, h3, rfl⟩ := hv
    omega

theorem span_thru (x y : Lit) (h1 : 0 ≤ code x ∧ code x ≤ 255) (h2 : 0 ≤ code y ∧ code y ≤ 255) :
    span (code x).toNat (code y).toNat = (codes (.thru x y)).map Int.toNat := by
  rw [span_codes _ _ h1 h2, codes_thru]
  split <;> simp [List.map_map, Function.comp_def]

theorem codes_ne (e : Entry) : codes e ≠ [] := by
  cases e with
  | one x =>
    cases x with
    | text c m => rw [codes_text]; simp
    | _ => simp [codes, positions]
  | thru x y => intro h; have := (thru_ends x y).1; rw [h] at this; cases this
  | also x more => rw [codes_also]; simp

/-- What the check of an entry does. -/
theorem entry_good (l : List Nat) (s : St) (h : Good l s) (e : Entry) (hb : Bytes [e]) :
    (Ok (checkEntry s e) ↔ (∀ v ∈ codes e, 0 ≤ v ∧ v ≤ 255) ∧ (l ++ (codes e).map Int.toNat).Nodup) ∧
    (Ok (checkEntry s e) → Good (l ++ (codes e).map Int.toNat) (checkEntry s e)) := by
  have main : ∀ (s' : St), Good l s' → (∀ v ∈ codes e, 0 ≤ v ∧ v ≤ 255) →
      (Ok (((codes e).map Int.toNat).foldl mark s') ↔ (∀ v ∈ codes e, 0 ≤ v ∧ v ≤ 255) ∧ (l ++ (codes e).map Int.toNat).Nodup) ∧
      (Ok (((codes e).map Int.toNat).foldl mark s') → Good (l ++ (codes e).map Int.toNat) (((codes e).map Int.toNat).foldl mark s')) := by
    intro s' hg hv
    obtain ⟨h1, h2⟩ := marks_good ((codes e).map Int.toNat) l s' hg (by
      intro n hn
      rw [List.mem_map] at hn
      obtain ⟨v, hv', rfl⟩ := hn
      have := hv v hv'
      omega)
    exact ⟨⟨fun hk => ⟨hv, h1.1 hk⟩, fun hk => h1.2 hk.2⟩, h2⟩
  cases e with
  | one x =>
    by_cases hx : ∀ c m, x ≠ .text c m
    · have hs : checkEntry s (.one x) = markValue { s with lastval := value x, low := if s.count = 0 then value x else s.low } (value x) := by
        cases x with
        | text c m => exact absurd rfl (hx c m)
        | _ => rfl
      rw [hs, value_code]
      by_cases hv : 0 ≤ code x ∧ code x ≤ 255
      · have hv' : ∀ v ∈ codes (.one x), 0 ≤ v ∧ v ≤ 255 := by rw [codes_one x hx]; simpa using hv
        have := main { s with lastval := code x, low := if s.count = 0 then code x else s.low } (good_congr l s _ h rfl rfl rfl rfl) hv'
        rw [codes_one x hx] at this ⊢
        simp only [List.map_cons, List.map_nil, List.foldl_cons, List.foldl_nil] at this
        unfold markValue
        rw [if_neg (by omega)]
        exact this
      · have hbad : ∀ t : St, ¬ Ok (markValue t (code x)) := by
          intro t hk
          have := hk.2
          unfold markValue at this
          rw [if_pos (by omega)] at this
          cases this
        refine ⟨⟨fun hk => absurd hk (hbad _), fun hk => ?_⟩, fun hk => absurd hk (hbad _)⟩
        rw [codes_one x hx] at hk
        exact absurd (hk.1 (code x) (by simp)) hv
    · have : ∃ c m, x = .text c m := by
        cases x with
        | text c m => exact ⟨c, m, rfl⟩
        | _ => exact absurd (by intro c m hh; cases hh) hx
      obtain ⟨c, m, rfl⟩ := this
      have hbytes := hb c m (by simp)
      have hv' : ∀ v ∈ codes (.one (.text c m)), 0 ≤ v ∧ v ≤ 255 := by
        intro v hv
        rw [codes_text, List.mem_map] at hv
        obtain ⟨d, hd, rfl⟩ := hv
        have := hbytes d hd
        omega
      have hmap : (codes (.one (.text c m))).map Int.toNat = c :: m := by
        rw [codes_text, List.map_map]
        conv_rhs => rw [← List.map_id (c :: m)]
        apply List.map_congr_left
        intro d _
        simp
      have := main { s with lastval := (((c :: m).getLast (by simp) : Nat) : Int), low := if s.count = 0 then (c : Int) else s.low }
        (good_congr l s _ h rfl rfl rfl rfl) hv'
      rw [hmap] at this ⊢
      exact this
  | thru x y =>
    simp only [checkEntry, value_code]
    have hbad : ∀ t : St, ¬ Ok { t with unvals := true } := fun t hk => by cases hk.2
    split
    · rename_i hx
      refine ⟨⟨fun hk => absurd hk (hbad _), fun hk => ?_⟩, fun hk => absurd hk (hbad _)⟩
      have := hk.1 _ (thru_ends x y).1
      omega
    rename_i hx
    split
    · rename_i hy
      refine ⟨⟨fun hk => absurd hk (hbad _), fun hk => ?_⟩, fun hk => absurd hk (hbad _)⟩
      have := hk.1 _ (thru_ends x y).2
      omega
    rename_i hy
    rw [span_thru x y (by omega) (by omega)]
    exact main _ (good_congr l s _ h rfl rfl rfl rfl) (thru_between x y (by omega) (by omega))
  | also x more =>
    simp only [checkEntry, value_code]
    have hcodes := codes_also x more
    rw [hcodes] at main ⊢
    by_cases hv : ∀ v ∈ (x :: more).map code, 0 ≤ v ∧ v ≤ 255
    · obtain ⟨h1, h2⟩ := main { s with low := if s.count = 0 then code x else s.low } (good_congr l s _ h rfl rfl rfl rfl) hv
      rw [← markValues_valid _ _ hv] at h1 h2
      exact ⟨h1, fun hk => good_congr _ _ _ (h2 hk) rfl rfl rfl rfl⟩
    · have hu := markValues_invalid ((x :: more).map code) { s with low := if s.count = 0 then code x else s.low } hv
      have hbad : ∀ w : Int, ¬ Ok { ((x :: more).map code).foldl markValue { s with low := if s.count = 0 then code x else s.low } with lastval := w } := by
        intro w hk
        have h2 : (((x :: more).map code).foldl markValue { s with low := if s.count = 0 then code x else s.low }).unvals = false := hk.2
        rw [hu] at h2
        cases h2
      exact ⟨⟨fun hk => absurd hk (hbad _), fun hk => absurd hk.1 hv⟩, fun hk => absurd hk (hbad _)⟩

theorem entry_mono (s : St) (e : Entry) (h : Ok (checkEntry s e)) : Ok s := by
  have mv : ∀ (vs : List Int) (t : St), Ok (vs.foldl markValue t) → Ok t := by
    intro vs
    induction vs with
    | nil => intro t h; exact h
    | cons v vs ih =>
      intro t h
      have := ih _ h
      unfold markValue at this
      split at this
      · cases this.2
      · exact (marks_mono [v.toNat] t).1 this
  have mv1 : ∀ (v : Int) (t : St), Ok (markValue t v) → Ok t := fun v t h => mv [v] t h
  cases e with
  | one x =>
    cases x with
    | text c m =>
      simp only [checkEntry] at h
      have := (marks_mono _ _).1 h
      exact ⟨this.1, this.2⟩
    | _ =>
      simp only [checkEntry] at h
      have := mv1 _ _ h
      exact ⟨this.1, this.2⟩
  | thru x y =>
    simp only [checkEntry] at h
    split at h
    · cases h.2
    split at h
    · cases h.2
    have := (marks_mono _ _).1 h
    exact ⟨this.1, this.2⟩
  | also x more =>
    simp only [checkEntry] at h
    have h' : Ok (((x :: more).map value).foldl markValue { s with low := if s.count = 0 then value x else s.low }) := h
    have := mv _ _ h'
    exact ⟨this.1, this.2⟩

theorem all_mono (es : List Entry) (s : St) (h : Ok (checkAll s es)) : Ok s := by
  induction es generalizing s with
  | nil => exact h
  | cons e es ih =>
    unfold checkAll at h
    split at h
    · cases h.2
    · exact entry_mono s e (ih _ h)

theorem nodup_small (l : List Nat) (h : l.Nodup) (hb : ∀ n ∈ l, n < 256) : l.length ≤ 256 := by
  have := (h.subperm (l₂ := List.range 256) (fun n hn => List.mem_range.2 (hb n hn))).length_le
  simpa using this

/-- The characters of a clause. -/
def allCodes (es : List Entry) : List Int := es.flatMap codes

theorem allCodes_listed (es : List Entry) : allCodes es = (listed es).flatten := by
  induction es with
  | nil => rfl
  | cons e es ih =>
    unfold allCodes listed at *
    simp only [List.flatMap_cons, List.flatten_append, ih]
    rfl

theorem all_good (es : List Entry) (l : List Nat) (s : St) (h : Good l s) (hb : Bytes es) :
    (Ok (checkAll s es) ↔ (∀ v ∈ allCodes es, 0 ≤ v ∧ v ≤ 255) ∧ (l ++ (allCodes es).map Int.toNat).Nodup) ∧
    (Ok (checkAll s es) → Good (l ++ (allCodes es).map Int.toNat) (checkAll s es)) := by
  induction es generalizing l s with
  | nil =>
    simp only [checkAll, allCodes, List.flatMap_nil, List.map_nil, List.append_nil]
    exact ⟨⟨fun _ => ⟨by simp, h.nodup⟩, fun _ => h.ok⟩, fun _ => h⟩
  | cons e es ih =>
    have hb1 : Bytes [e] := fun c m hm => hb c m (by rw [List.mem_singleton] at hm; simp [hm])
    have hb2 : Bytes es := fun c m hm => hb c m (by simp [hm])
    have hcons : allCodes (e :: es) = codes e ++ allCodes es := rfl
    rw [hcons]
    unfold checkAll
    split
    · rename_i hc
      have hbad : ¬ Ok { s with unvals := true } := fun hk => by cases hk.2
      refine ⟨⟨fun hk => absurd hk hbad, fun hk => ?_⟩, fun hk => absurd hk hbad⟩
      exfalso
      rw [h.count] at hc
      have hlen := nodup_small _ hk.2 (by
        intro n hn
        rw [List.mem_append] at hn
        rcases hn with hn | hn
        · exact h.small n hn
        · rw [List.mem_map] at hn
          obtain ⟨v, hv, rfl⟩ := hn
          have := hk.1 v hv
          omega)
      have hne := List.length_pos_iff.2 (codes_ne e)
      simp only [List.length_append, List.length_map] at hlen
      omega
    · obtain ⟨h1, h2⟩ := entry_good l s h e hb1
      constructor
      · constructor
        · intro hk
          have hk1 := all_mono es _ hk
          have hg := h2 hk1
          obtain ⟨h3, _⟩ := ih _ _ hg hb2
          obtain ⟨a, b⟩ := h3.1 hk
          obtain ⟨c, _⟩ := h1.1 hk1
          refine ⟨?_, by rw [List.map_append, ← List.append_assoc]; exact b⟩
          intro v hv
          rw [List.mem_append] at hv
          exact hv.elim (c v) (a v)
        · rintro ⟨a, b⟩
          rw [List.map_append, ← List.append_assoc] at b
          have hk1 := h1.2 ⟨fun v hv => a v (by simp [hv]), (List.nodup_append.1 b).1⟩
          exact (ih _ _ (h2 hk1) hb2).1.2 ⟨fun v hv => a v (by simp [hv]), b⟩
      · intro hk
        have hg := h2 (all_mono es _ hk)
        have := (ih _ _ hg hb2).2 hk
        rw [List.map_append, ← List.append_assoc]
        exact this

theorem good_init : Good [] {} := ⟨⟨rfl, rfl⟩, by simp, rfl, List.nodup_nil, by simp⟩

theorem map_toNat_nodup (l : List Int) (h : ∀ v ∈ l, 0 ≤ v ∧ v ≤ 255) : (l.map Int.toNat).Nodup ↔ l.Nodup := by
  induction l with
  | nil => simp
  | cons a l ih =>
    rw [List.map_cons, List.nodup_cons, List.nodup_cons, ih fun v hv => h v (by simp [hv])]
    have : a.toNat ∈ l.map Int.toNat ↔ a ∈ l := by
      rw [List.mem_map]
      constructor
      · rintro ⟨b, hb, e⟩
        have h1 := h a (by simp)
        have h2 := h b (by simp [hb])
        rwa [show a = b by omega]
      · intro ha; exact ⟨a, ha, rfl⟩
    rw [this]

theorem ok_iff (es : List Entry) (hb : Bytes es) : Ok (checkAll {} es) ↔ Valid es := by
  rw [(all_good es [] {} good_init hb).1, Valid, ← allCodes_listed, List.nil_append]
  constructor
  · rintro ⟨a, b⟩; exact ⟨a, (map_toNat_nodup _ a).1 b⟩
  · rintro ⟨a, b⟩; exact ⟨a, (map_toNat_nodup _ a).2 b⟩

/-- **C93, which alphabets are accepted**: exactly those in which every value is a character and none is listed twice. -/
theorem C93_accepted (es : List Entry) (hb : Bytes es) : (check es).ok = true ↔ Valid es := by
  rw [← ok_iff es hb]
  unfold check Ok
  dsimp only
  cases (checkAll {} es).dupls <;> cases (checkAll {} es).unvals <;> simp

end Cob.Alpha
