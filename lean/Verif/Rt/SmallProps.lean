import Verif.Rt.Small
/-
C88: C$JUSTIFY, CBL_TOUPPER, CBL_TOLOWER, C$NARG, C$PARAMSIZE, C$CALLEDBY.
-/
namespace Cob.Small

/-! ### Specification -/

def spaces (n : Nat) : List Nat := List.replicate n 32

/-- `t` is the text of the item without the spaces at its ends. -/
def Between (data t : List Nat) (a b : Nat) : Prop := data = spaces a ++ t ++ spaces b ∧ t.head? ≠ some 32 ∧ t.getLast? ≠ some 32

/-- Where the text goes: to the left (L), the middle (C), or to the right. -/
def Justified (t : List Nat) (room : Nat) (dir : Direction) (out : List Nat) : Prop :=
  if dir = some 76 then out = t ++ spaces room
  else if dir = some 67 then ∃ l r, out = spaces l ++ t ++ spaces r ∧ l + r = room ∧ l ≤ r ∧ r ≤ l + 1
  else out = spaces room ++ t

/-! ### Justification -/

theorem takeWhile_spaces (a : Nat) (t : List Nat) (h : t.head? ≠ some 32) : (spaces a ++ t).takeWhile (fun x => decide (x = 32)) = spaces a := by
  induction a with
  | zero =>
    cases t with
    | nil => rfl
    | cons c t =>
      simp only [List.head?_cons, ne_eq, Option.some.injEq] at h
      simp [spaces, h]
  | succ a ih =>
    simp only [spaces, List.replicate_succ, List.cons_append, List.takeWhile_cons, decide_true, if_true, List.cons.injEq, true_and]
    exact ih

theorem length_spaces (n : Nat) : (spaces n).length = n := List.length_replicate

theorem spaces_add (a b : Nat) : spaces a ++ spaces b = spaces (a + b) := by simp [spaces, List.replicate_append_replicate]

theorem put_eq (d : List Nat) (off : Nat) (bs : List Nat) : put d off bs = d.take off ++ (bs ++ d.drop (off + bs.length)) := by
  simp [put]

/-- Every item is a text between spaces. -/
theorem C88_text (data : List Nat) : ∃ t a b, Between data t a b := by
  have h1 : ∀ l : List Nat, ∃ a r, l = spaces a ++ r ∧ r.head? ≠ some 32 := by
    intro l
    induction l with
    | nil => exact ⟨0, [], rfl, by simp⟩
    | cons c l ih =>
      by_cases hc : c = 32
      · obtain ⟨a, r, h1, h2⟩ := ih
        exact ⟨a + 1, r, by simp [spaces, List.replicate_succ, hc, h1], h2⟩
      · exact ⟨0, c :: l, rfl, by simp [hc]⟩
  obtain ⟨a, r, h2, h3⟩ := h1 data
  obtain ⟨b, u, h4, h5⟩ := h1 r.reverse
  have h6 : r = u.reverse ++ spaces b := by
    have := congrArg List.reverse h4
    simpa [spaces] using this
  refine ⟨u.reverse, a, b, ?_, ?_, by simpa using h5⟩
  · rw [h2, List.append_assoc, ← h6]
  · intro h
    rw [h6, List.head?_append, h] at h3
    exact h3 rfl

/-- **C88, C$JUSTIFY**: the text of the item without the spaces at its ends is moved to the left, the middle or the right, unchanged, and the rest of the
item is spaces - for every item and every second argument. -/
theorem C88_justify (data t : List Nat) (a b : Nat) (dir : Direction) (h : Between data t a b) : Justified t (a + b) dir (justify data dir) := by
  obtain ⟨hd, h1, h2⟩ := h
  have hlen : data.length = a + t.length + b := by rw [hd]; simp [spaces]; omega
  cases t with
  | nil =>
    have hd' : data = spaces (a + b) := by rw [hd, List.append_nil, spaces_add]
    have hj : justify data dir = data := by
      unfold justify
      dsimp only
      split
      · rfl
      · rename_i hl
        split
        · rfl
        · rw [if_pos]
          have := takeWhile_spaces (a + b) [] (by simp)
          rw [List.append_nil] at this
          rw [hd', this]
    rw [hj, hd']
    unfold Justified
    split
    · rfl
    · split
      · exact ⟨(a + b) / 2, a + b - (a + b) / 2, by rw [List.append_nil, spaces_add]; congr 1; omega, by omega, by omega, by omega⟩
      · simp
  | cons c u =>
    have hleft : (data.takeWhile (fun x => decide (x = 32))).length = a := by
      rw [hd, List.append_assoc, takeWhile_spaces, length_spaces]
      rw [List.head?_append]
      simpa using h1
    have hright : (data.reverse.takeWhile (fun x => decide (x = 32))).length = b := by
      rw [hd, List.append_assoc, List.reverse_append, List.reverse_append]
      rw [show (spaces b).reverse = spaces b by simp [spaces], List.append_assoc, takeWhile_spaces, length_spaces]
      rw [List.head?_append, List.head?_reverse]
      intro hh
      apply h2
      cases hg : (c :: u).getLast? with
      | none => simp at hg
      | some x => rw [hg] at hh; simpa using hh
    have htext : (data.drop a).take (c :: u).length = c :: u := by
      rw [hd, List.append_assoc]
      have := List.drop_left (l₁ := spaces a) (l₂ := c :: u ++ spaces b)
      rw [length_spaces] at this
      rw [this, List.take_left]
    unfold justify
    dsimp only
    rw [hleft, hright, hlen, show a + (c :: u).length + b - a - b = (c :: u).length by omega, htext]
    have htake : ∀ n, (c :: u).length = n → True := fun _ _ => trivial
    generalize hT : c :: u = T at *
    have hpos : 0 < T.length := by rw [← hT]; simp
    by_cases hshort : a + T.length + b < 2
    · rw [if_pos hshort]
      have ha : a = 0 := by omega
      have hb : b = 0 := by omega
      subst ha; subst hb
      have hdt : data = T := by rw [hd]; simp [spaces]
      unfold Justified
      rw [hdt]
      split
      · simp [spaces]
      · split
        · exact ⟨0, 0, by simp [spaces], rfl, by omega, by omega⟩
        · simp [spaces]
    · rw [if_neg hshort]
      by_cases hends : data.head? ≠ some 32 ∧ data.getLast? ≠ some 32
      · rw [if_pos hends]
        have ha : a = 0 := by
          cases a with
          | zero => rfl
          | succ a => exact absurd (by rw [hd]; simp [spaces, List.replicate_succ]) hends.1
        have hb : b = 0 := by
          cases b with
          | zero => rfl
          | succ b => exact absurd (by rw [hd]; simp [spaces, List.replicate_succ', ← List.append_assoc]) hends.2
        subst ha; subst hb
        have hdt : data = T := by rw [hd]; simp [spaces]
        unfold Justified
        rw [hdt]
        split
        · simp [spaces]
        · split
          · exact ⟨0, 0, by simp [spaces], rfl, by omega, by omega⟩
          · simp [spaces]
      · rw [if_neg hends, if_neg (by omega)]
        unfold Justified
        by_cases hL : dir = some 76
        · rw [if_pos hL, if_pos hL]
          unfold blank
          rw [put_eq, put_eq]
          simp only [List.take_zero, List.nil_append, Nat.zero_add, List.length_replicate]
          rw [List.take_left, List.drop_eq_nil_of_le, List.append_nil]
          · rw [show a + T.length + b - T.length = a + b by omega]; rfl
          · simp; omega
        · rw [if_neg hL, if_neg hL]
          by_cases hC : dir = some 67
          · rw [if_pos hC, if_pos hC]
            have hblank : blank (put data ((a + b) / 2) T) 0 ((a + b) / 2) =
                spaces ((a + b) / 2) ++ T ++ data.drop ((a + b) / 2 + T.length) := by
              unfold blank
              rw [put_eq, put_eq]
              simp only [List.take_zero, List.nil_append, Nat.zero_add, List.length_replicate]
              have hl : (data.take ((a + b) / 2)).length = (a + b) / 2 := by simp; omega
              have := List.drop_left (l₁ := data.take ((a + b) / 2)) (l₂ := T ++ data.drop ((a + b) / 2 + T.length))
              rw [hl] at this
              rw [this, List.append_assoc]
              rfl
            rw [hblank]
            have hfin : ∀ k, (a + b) / 2 + T.length + k = data.length →
                blank (spaces ((a + b) / 2) ++ T ++ data.drop ((a + b) / 2 + T.length)) ((a + b) / 2 + T.length) k =
                  spaces ((a + b) / 2) ++ T ++ spaces k := by
              intro k hk
              unfold blank
              rw [put_eq]
              have h3 : (spaces ((a + b) / 2) ++ T).length = (a + b) / 2 + T.length := by simp [spaces]
              have := List.take_left (l₁ := spaces ((a + b) / 2) ++ T) (l₂ := data.drop ((a + b) / 2 + T.length))
              rw [h3] at this
              rw [this, List.drop_eq_nil_of_le, List.append_nil]
              · rfl
              · simp [spaces]; omega
            split
            · refine ⟨(a + b) / 2, (a + b) / 2 + 1, hfin _ (by omega), by omega, by omega, by omega⟩
            · refine ⟨(a + b) / 2, (a + b) / 2, hfin _ (by omega), by omega, by omega, by omega⟩
          · rw [if_neg hC, if_neg hC]
            unfold blank
            rw [put_eq, put_eq]
            simp only [List.take_zero, List.nil_append, Nat.zero_add, List.length_replicate]
            have hl : (data.take (a + b)).length = a + b := by simp; omega
            have := List.drop_left (l₁ := data.take (a + b)) (l₂ := T ++ data.drop (a + b + T.length))
            rw [hl] at this
            rw [show a + T.length + b - T.length = a + b by omega, this, List.drop_eq_nil_of_le (by omega), List.append_nil]
            rfl

/-! ### Letters -/

/-- **C88, CBL_TOUPPER**: exactly the small letters among the first `length` bytes become capitals, nothing else changes. -/
theorem C88_toupper (mem : List Nat) (length : Int) (i : Nat) (hi : i < mem.length) :
    (toUpper mem length)[i]? = some (if (i : Int) < length ∧ 97 ≤ mem[i] ∧ mem[i] ≤ 122 then mem[i] - 32 else mem[i]) ∧
    (toUpper mem length).length = mem.length := by
  unfold toUpper
  by_cases hl : length > 0
  · rw [if_pos hl]
    constructor
    · by_cases hi' : (i : Int) < length
      · rw [List.getElem?_append_left (by simp; omega), List.getElem?_map, List.getElem?_take_of_lt (by omega), List.getElem?_eq_getElem hi]
        simp [hi']
      · rw [List.getElem?_append_right (by simp; omega), if_neg (by omega), List.getElem?_drop]
        rw [← List.getElem?_eq_getElem hi]
        congr 1
        simp
        omega
    · simp; omega
  · rw [if_neg hl, if_neg (by omega), List.getElem?_eq_getElem hi]
    exact ⟨rfl, rfl⟩

/-- **C88, CBL_TOLOWER**: exactly the capitals among the first `length` bytes become small letters, nothing else changes. -/
theorem C88_tolower (mem : List Nat) (length : Int) (i : Nat) (hi : i < mem.length) :
    (toLower mem length)[i]? = some (if (i : Int) < length ∧ 65 ≤ mem[i] ∧ mem[i] ≤ 90 then mem[i] + 32 else mem[i]) ∧
    (toLower mem length).length = mem.length := by
  unfold toLower
  by_cases hl : length > 0
  · rw [if_pos hl]
    constructor
    · by_cases hi' : (i : Int) < length
      · rw [List.getElem?_append_left (by simp; omega), List.getElem?_map, List.getElem?_take_of_lt (by omega), List.getElem?_eq_getElem hi]
        simp [hi']
      · rw [List.getElem?_append_right (by simp; omega), if_neg (by omega), List.getElem?_drop]
        rw [← List.getElem?_eq_getElem hi]
        congr 1
        simp
        omega
    · simp; omega
  · rw [if_neg hl, if_neg (by omega), List.getElem?_eq_getElem hi]
    exact ⟨rfl, rfl⟩

/-! ### Calls -/

/-- An active program and the sizes of the arguments it was called with. -/
abbrev Act := List Nat × List (Option Nat)

/-- The active programs before and after what happens; no program is called while it is active, and the main program does not return. -/
inductive Runs : List Act → List Ev → List Act → Prop
  | nil (st : List Act) : Runs st [] st
  | call (st st' : List Act) (p : List Nat) (args : List (Option Nat)) (es : List Ev) :
      p ∉ st.map (·.1) → Runs ((p, args) :: st) es st' → Runs st (.call p args :: es) st'
  | lib (st st' : List Act) (args : List (Option Nat)) (es : List Ev) : Runs st es st' → Runs st (.lib args :: es) st'
  | ret (a b : Act) (st st' : List Act) (es : List Ev) : Runs (b :: st) es st' → Runs (a :: b :: st) (.ret :: es) st'

/-- Every caller holds the arguments of the program it called. -/
def Linked (params : List Nat → List (Option Nat)) : List Act → Prop
  | (_, args) :: (q, as) :: r => (args ++ List.replicate 4 none) <+: params q ∧ Linked params ((q, as) :: r)
  | _ => True

theorem linked_congr (f g : List Nat → List (Option Nat)) (p : List Nat) (hfg : ∀ q, q ≠ p → f q = g q) :
    ∀ st : List Act, p ∉ (st.drop 1).map (·.1) → Linked f st → Linked g st := by
  intro st
  induction st with
  | nil => intro _ _; trivial
  | cons x r ih =>
    intro hp h
    cases r with
    | nil => trivial
    | cons y r =>
      obtain ⟨x1, x2⟩ := x
      obtain ⟨y1, y2⟩ := y
      simp only [List.drop_succ_cons, List.drop_zero, List.map_cons, List.mem_cons, not_or] at hp
      refine ⟨?_, ih (by simpa using hp.2) h.2⟩
      rw [← hfg y1 (fun he => hp.1 he.symm)]
      exact h.1

structure Inv (m : M) (st : List Act) : Prop where
  active : m.active = st.map (·.1)
  nodup : (st.map (·.1)).Nodup
  linked : Linked m.params st

theorem inv_passes (m : M) (a : Act) (st : List Act) (h : Inv m (a :: st)) (args : List (Option Nat)) :
    Inv (m.passes args) (a :: st) ∧ (args ++ List.replicate 4 none) <+: (m.passes args).params a.1 ∧ (m.passes args).callParams = args.length ∧
    (m.passes args).saved = m.saved := by
  have ha : m.active = a.1 :: st.map (·.1) := h.active
  have hn : a.1 ∉ st.map (·.1) := (List.nodup_cons.mp h.nodup).1
  unfold M.passes
  rw [ha]
  dsimp only
  refine ⟨⟨rfl, h.nodup, ?_⟩, ?_, rfl, rfl⟩
  · refine linked_congr m.params _ a.1 ?_ (a :: st) (by simpa using hn) h.linked
    intro q hq
    simp [hq]
  · rw [if_pos rfl]
    exact ⟨_, rfl⟩

theorem inv_run (st st' : List Act) (es : List Ev) (h : Runs st es st') : ∀ m, st ≠ [] → Inv m st → Inv (es.foldl step m) st' := by
  induction h with
  | nil st => intro m _ hi; exact hi
  | call st st' p args es hp _ ih =>
    intro m hne hi
    cases st with
    | nil => exact absurd rfl hne
    | cons a st =>
      obtain ⟨h1, h2, _, _⟩ := inv_passes m a st hi args
      apply ih _ (by simp)
      refine ⟨?_, ?_, ?_⟩
      · simp only [step, List.map_cons]
        rw [h1.active]
        rfl
      · exact List.nodup_cons.mpr ⟨hp, hi.nodup⟩
      · exact ⟨h2, h1.linked⟩
  | lib st st' args es _ ih =>
    intro m hne hi
    cases st with
    | nil => exact absurd rfl hne
    | cons a st => exact ih _ (by simp) (inv_passes m a st hi args).1
  | ret a b st st' es _ ih =>
    intro m _ hi
    apply ih _ (by simp)
    refine ⟨?_, (List.nodup_cons.mp hi.nodup).2, ?_⟩
    · simp only [step]
      rw [hi.active]
      rfl
    · obtain ⟨a1, a2⟩ := a
      obtain ⟨b1, b2⟩ := b
      exact hi.linked.2

/-- The number of arguments of the program that was entered last. -/
def lastCount (n : Nat) : List Ev → Nat
  | [] => n
  | .call _ args :: es => lastCount args.length es
  | _ :: es => lastCount n es

theorem passes_saved (m : M) (args : List (Option Nat)) : (m.passes args).saved = m.saved := by
  unfold M.passes
  split <;> rfl

theorem saved_run (st st' : List Act) (es : List Ev) (h : Runs st es st') : ∀ m, st ≠ [] → Inv m st →
    (es.foldl step m).saved = lastCount m.saved es := by
  induction h with
  | nil st => intro m _ _; rfl
  | call st st' p args es hp hr ih =>
    intro m hne hi
    cases st with
    | nil => exact absurd rfl hne
    | cons a st =>
      have h1 := inv_run _ _ _ (.call (a :: st) _ p args [] hp (.nil _)) m hne hi
      rw [List.foldl_cons, ih (step m (.call p args)) (by simp) h1]
      have := (inv_passes m a st hi args).2.2.1
      simp only [step, this]
      rfl
  | lib st st' args es _ ih =>
    intro m hne hi
    cases st with
    | nil => exact absurd rfl hne
    | cons a st =>
      rw [List.foldl_cons, ih (step m (.lib args)) (by simp) (inv_passes m a st hi args).1]
      simp only [step, passes_saved]
      rfl
  | ret a b st st' es hr ih =>
    intro m hne hi
    have h1 := inv_run _ _ _ (.ret a b st _ [] (.nil _)) m hne hi
    rw [List.foldl_cons, ih (step m .ret) (by simp) h1]
    rfl

theorem inv_start (main : List Nat) (n : Nat) : Inv (start main n) [(main, [])] := ⟨rfl, by simp, trivial⟩

/-- **C88, C$NARG**: it gives the number of arguments of the program that was *entered* last. -/
theorem C88_narg (main : List Nat) (n : Nat) (es : List Ev) (st : List Act) (h : Runs [(main, [])] es st) :
    narg (run main n es) = lastCount n es := saved_run _ _ _ h _ (by simp) (inv_start main n)

/-- **C88, C$PARAMSIZE**: whatever happened, for every argument of the current program within that number it gives the size of the argument as it was
passed (0 for one that is no data item). -/
theorem C88_paramsize (main : List Nat) (n : Nat) (es : List Ev) (p q : List Nat) (args as : List (Option Nat)) (st : List Act)
    (h : Runs [(main, [])] es ((p, args) :: (q, as) :: st)) (k : Nat) (hk : 1 ≤ k) (hc : k ≤ lastCount n es) (ha : k ≤ args.length) :
    paramSize (run main n es) k = (args[k - 1]'(by omega)).getD 0 := by
  have hi := inv_run _ _ _ h (start main n) (by simp) (inv_start main n)
  have hs : (run main n es).saved = lastCount n es := C88_narg main n es _ h
  unfold paramSize
  rw [if_pos (by rw [hs]; omega)]
  have hact : (run main n es).active = p :: q :: st.map (·.1) := hi.active
  rw [hact]
  dsimp only
  obtain ⟨t, ht⟩ := hi.linked.1
  have ht' : (run main n es).params q = args ++ List.replicate 4 none ++ t := ht.symm
  rw [ht', List.getD_eq_getElem?_getD, List.append_assoc, List.getElem?_append_left (by omega),
    List.getElem?_eq_getElem (by omega)]
  simp

theorem lastCount_append (n : Nat) (a b : List Ev) : lastCount n (a ++ b) = lastCount (lastCount n a) b := by
  induction a generalizing n with
  | nil => rfl
  | cons e a ih => cases e <;> exact ih _

theorem lastCount_libs (n : Nat) (b : List Ev) (h : ∀ e ∈ b, ∃ as, e = .lib as) : lastCount n b = n := by
  induction b with
  | nil => rfl
  | cons e b ih =>
    obtain ⟨as, rfl⟩ := h e (by simp)
    exact ih fun e he => h e (by simp [he])

/-- **C88, a program that has called no other yet**: C$NARG gives the number of arguments it was called with, C$PARAMSIZE their sizes, and 0 for all other
numbers. -/
theorem C88_fresh (main : List Nat) (n : Nat) (es libs : List Ev) (p q : List Nat) (args as : List (Option Nat)) (st : List Act)
    (h : Runs [(main, [])] (es ++ .call p args :: libs) ((p, args) :: (q, as) :: st)) (hl : ∀ e ∈ libs, ∃ xs, e = .lib xs) :
    narg (run main n (es ++ .call p args :: libs)) = args.length ∧
    ∀ k : Int, paramSize (run main n (es ++ .call p args :: libs)) k =
      if 1 ≤ k ∧ k ≤ args.length then ((args[k.toNat - 1]?).getD none).getD 0 else 0 := by
  have hc : lastCount n (es ++ .call p args :: libs) = args.length := by
    rw [lastCount_append]
    exact lastCount_libs _ _ hl
  have hn := C88_narg main n _ _ h
  rw [hc] at hn
  refine ⟨hn, ?_⟩
  intro k
  split
  · rename_i hk
    obtain ⟨j, rfl⟩ : ∃ j : Nat, k = j := ⟨k.toNat, by omega⟩
    rw [C88_paramsize main n _ p q args as st h j (by omega) (by rw [hc]; omega) (by omega)]
    rw [Int.toNat_natCast, List.getElem?_eq_getElem (show j - 1 < args.length by omega)]
    rfl
  · rename_i hk
    unfold paramSize
    rw [if_neg]
    have : (run main n (es ++ .call p args :: libs)).saved = args.length := hn
    omega

/-- **C88, C$PARAMSIZE in the main program**: 0, whatever the number. -/
theorem C88_paramsize_main (main : List Nat) (n : Nat) (es : List Ev) (p : Act) (h : Runs [(main, [])] es [p]) (k : Int) :
    paramSize (run main n es) k = 0 := by
  have hi := inv_run _ _ _ h (start main n) (by simp) (inv_start main n)
  have hact : (run main n es).active = [p.1] := hi.active
  unfold paramSize
  rw [hact]
  simp

/-- **C88, C$CALLEDBY**: in a called program the item begins with the name of the program that called it, as much as has room, and the routine returns 1;
in the main program the item is spaces and the routine returns 0. -/
theorem C88_calledby (main : List Nat) (n : Nat) (es : List Ev) (data : List Nat) :
    (∀ p q args as st, Runs [(main, [])] es ((p, args) :: (q, as) :: st) →
      (calledBy (run main n es) data).2 = 1 ∧ (calledBy (run main n es) data).1 = q.take data.length ++ data.drop q.length) ∧
    (∀ p, Runs [(main, [])] es [p] → calledBy (run main n es) data = (spaces data.length, 0)) := by
  constructor
  · intro p q args as st h
    have hi := inv_run _ _ _ h (start main n) (by simp) (inv_start main n)
    have hact : (run main n es).active = p :: q :: st.map (·.1) := hi.active
    unfold calledBy
    rw [hact]
    dsimp only
    refine ⟨rfl, ?_⟩
    unfold put
    split
    · rename_i hlt
      simp only [List.take_zero, List.nil_append, Nat.zero_add, List.take_length]
      rw [List.take_of_length_le (by omega)]
    · rename_i hlt
      simp only [List.take_zero, List.nil_append, Nat.zero_add, List.length_take]
      rw [List.drop_eq_nil_of_le (by omega), List.drop_eq_nil_of_le (by omega)]
  · intro p h
    have hi := inv_run _ _ _ h (start main n) (by simp) (inv_start main n)
    have hact : (run main n es).active = [p.1] := hi.active
    unfold calledBy
    rw [hact]
    rfl

/-! ### Examples -/

/-- The characters of a text. -/
def str (s : String) : List Nat := s.toList.map Char.toNat

example : justify (str "  AB   ") (some 67) = str "  AB   " ∧ justify (str "AB     ") (some 67) = str "  AB   " ∧ justify (str " AB    ") none = str "     AB" ∧
    justify (str "   AB  ") (some 76) = str "AB     " := by decide +kernel

example : Between (str " A B  ") (str "A B") 1 2 := by unfold Between; decide +kernel

example : toUpper (str "abc-Xyz") 3 = str "ABC-Xyz" ∧ toLower (str "ABC-Xyz") 100 = str "abc-xyz" := by decide +kernel

/-- A calls B with two items, B asks. -/
example : Runs [(str "A", [])] [.call (str "B") [some 5, some 80], .lib [some 4]] [(str "B", [some 5, some 80]), (str "A", [])] :=
  .call _ _ _ _ _ (by decide +kernel) (.lib _ _ _ _ (.nil _))

example : narg (run (str "A") 0 [.call (str "B") [some 5, some 80], .lib [some 4]]) = 2 ∧
    paramSize (run (str "A") 0 [.call (str "B") [some 5, some 80], .lib [some 4]]) 2 = 80 := by decide +kernel

/-! ### Findings -/

/-- Finding: the number of arguments is not restored when a called program returns: B was called with two arguments and calls C with none; then C$NARG says
0 and C$PARAMSIZE knows neither argument. -/
theorem C88_finding_narg_stale :
    narg (run (str "A") 0 [.call (str "B") [some 5, some 80], .call (str "C") [], .ret, .lib [some 4]]) = 0 ∧
    paramSize (run (str "A") 0 [.call (str "B") [some 5, some 80], .call (str "C") [], .ret, .lib [some 4]]) 1 = 0 := by decide +kernel

/-- Finding: the other way round C$PARAMSIZE gives sizes of arguments of an earlier call: A called C with six items, then B with one; after B has called a
program with six, the sixth argument of B seems to have 80 bytes. -/
theorem C88_finding_paramsize_stale :
    paramSize (run (str "A") 0 [.call (str "C") (List.replicate 6 (some 80)), .ret, .call (str "B") [some 5],
      .call (str "C") (List.replicate 6 (some 1)), .ret, .lib [some 4]]) 6 = 80 := by decide +kernel

/-- Finding: C$CALLEDBY leaves what was in the item behind the name. -/
theorem C88_finding_calledby_rest : (calledBy (run (str "A") 0 [.call (str "B") []]) (str "XXXX")).1 = str "AXXX" := by decide +kernel

/-- Finding: the name it gives is the one of the C function: MY-PROG is MY__PROG. -/
theorem C88_finding_calledby_name :
    (calledBy (run (encodeName (str "MY-PROG")) 0 [.call (str "B") []]) (str "          ")).1 = str "MY__PROG  " := by decide +kernel

/-- Finding: CBL_TOUPPER changes Japanese characters: the second byte of the Shift-JIS character 83 61 is taken for a letter. -/
theorem C88_finding_sjis : toUpper [0x83, 0x61] 2 = [0x83, 0x41] := by decide +kernel

/-- Finding: the direction of C$JUSTIFY must be a capital letter; with anything else the text goes to the right. -/
theorem C88_finding_small_letter : justify (str "AB  ") (some 108) = str "  AB" ∧ justify (str "AB  ") (some 99) = str "  AB" := by decide +kernel

end Cob.Small
