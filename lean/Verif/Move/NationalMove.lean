import Verif.Move.NationalProps
import Verif.Move.TextProps
/-
C73: text in NATIONAL items.  MOVE, sizes, and the findings.
-/
namespace Cob

theorem natCode_length (t : List (Nat × Nat)) : (natCode t).length = 2 * t.length := by
  induction t with
  | nil => rfl
  | cons p t ih =>
    have : (sjisBytes p).length = 2 := rfl
    unfold natCode at ih ⊢
    simp only [List.map_cons, List.flatten_cons, List.length_append, List.length_cons, this, ih]
    omega

theorem natCode_append (s t : List (Nat × Nat)) : natCode (s ++ t) = natCode s ++ natCode t := by
  simp [natCode]

theorem natCode_take (n : Nat) (t : List (Nat × Nat)) : (natCode t).take (2 * n) = natCode (t.take n) := by
  have h : natCode t = natCode (t.take n) ++ natCode (t.drop n) := by
    rw [← natCode_append, List.take_append_drop]
  by_cases hn : n ≤ t.length
  · rw [h, List.take_append_of_le_length (by rw [natCode_length, List.length_take]; omega),
      List.take_of_length_le (by rw [natCode_length, List.length_take]; omega)]
  · rw [List.take_of_length_le (by rw [natCode_length]; omega), List.take_of_length_le (by omega)]

theorem natCode_drop (n : Nat) (t : List (Nat × Nat)) : (natCode t).drop (2 * n) = natCode (t.drop n) := by
  have h : natCode t = natCode (t.take n) ++ natCode (t.drop n) := by
    rw [← natCode_append, List.take_append_drop]
  by_cases hn : n ≤ t.length
  · rw [h, List.drop_left' (by rw [natCode_length, List.length_take]; omega)]
  · rw [List.drop_of_length_le (by rw [natCode_length]; omega), List.drop_of_length_le (by omega)]
    rfl

theorem natPad_even (k : Nat) : natPad (2 * k) = natCode (List.replicate k (jisCell '　')) := by
  unfold natPad natCode
  rw [show 2 * k / 2 = k by omega, show 2 * k % 2 = 0 by omega, List.map_replicate, space_cell]
  simp

theorem moveNational_cells (just : Bool) (n : Nat) (w : List (Nat × Nat)) :
    moveNational just (natCode w) (2 * n) = natCode (natFitted just n w) := by
  unfold moveNational natFitted
  rw [natCode_length]
  by_cases h : n ≤ w.length
  · rw [if_pos (by omega), show n - w.length = 0 by omega]
    cases just with
    | true =>
      rw [if_pos rfl, if_pos rfl, show 2 * w.length - 2 * n = 2 * (w.length - n) by omega, natCode_drop]
      simp
    | false => simp [natCode_take]
  · rw [if_neg (by omega), show 2 * n - 2 * w.length = 2 * (n - w.length) by omega, natPad_even,
      ← natCode_append, ← natCode_append]
    cases just with
    | true => simp [show w.length - n = 0 by omega]
    | false => simp [List.take_of_length_le (show w.length ≤ n by omega)]

theorem natSource_text (after : Nat) (t : List HChar) (hok : ∀ h ∈ t, h.Ok) (ht : t ≠ []) :
    natSource after (textCode t) = natCode (widened t) := by
  have hne := textCode_head t hok
  have h0 : textCode t ≠ [] := by
    intro h
    cases t with
    | nil => exact ht rfl
    | cons x r => cases x <;> simp [textCode, HChar.code, sjisBytes] at h
  unfold natSource
  split
  · rename_i h; exact absurd h h0
  · rename_i r hr; exact absurd hr (hne _)
  · exact han2zen_text after t hok

/-- **C73.** A text moved to a NATIONAL item is stored in full-width characters, cut or filled with
full-width spaces on the right, or on the left for a JUSTIFIED item; no character is split. -/
theorem C73_move (after : Nat) (t : List HChar) (hok : ∀ h ∈ t, h.Ok) (ht : t ≠ []) (just : Bool) (n : Nat) :
    moveToNational after (textCode t) (.plain just (2 * n)) = natCode (natFitted just n (widened t)) := by
  unfold moveToNational storeNational
  rw [natSource_text after t hok ht]
  exact moveNational_cells just n (widened t)

example : moveToNational 0 (textCode [.half 0x41, .half 0xB6, .half 0xDE]) (.plain false 6) =
    natCode [jisCell 'Ａ', jisCell 'ガ', jisCell '　'] ∧
    moveToNational 0 (textCode [.half 0x41, .half 0xB6, .half 0xDE]) (.plain true 2) =
    natCode [jisCell 'ガ'] := by decide +kernel

/-- The characters of an edited item, one picture symbol at a time. -/
def natEdChars : List Nat → List (Nat × Nat) → List (Nat × Nat)
  | [], _ => []
  | c :: cs, t =>
    if c = 78 then
      match t with
      | [] => jisCell '　' :: natEdChars cs []
      | p :: t' => p :: natEdChars cs t'
    else (if c = 47 then jisCell '／' else if c = 66 then jisCell '　' else jisCell '０') :: natEdChars cs t

theorem ins_cells : sjisBytes (jisCell '／') = [0x81, 0x5E] ∧ sjisBytes (jisCell '０') = [0x82, 0x4F] := by
  decide +kernel

theorem natEditRun_cells (after c : Nat) (hc : c ∈ [78, 47, 66, 48]) : ∀ (n : Nat) (t : List (Nat × Nat)) (cs : List Nat),
    ∃ t', (natEditRun after c n (natCode t)).2 = natCode t' ∧
      natCode (natEdChars (List.replicate n c ++ cs) t) =
        (natEditRun after c n (natCode t)).1 ++ natCode (natEdChars cs t') := by
  intro n
  induction n with
  | zero => intro t cs; exact ⟨t, rfl, by simp [natEditRun]⟩
  | succ n ih =>
    intro t cs
    rw [natEditRun.eq_def]
    dsimp only
    by_cases h : c = 78
    · subst h
      rw [if_pos rfl]
      cases t with
      | nil =>
        obtain ⟨t', h1, h2⟩ := ih [] cs
        refine ⟨t', h1, ?_⟩
        show natCode (jisCell '　' :: natEdChars (List.replicate n 78 ++ cs) []) = _
        change _ = ([0x81, 0x40] ++ (natEditRun after 78 n (natCode [])).1) ++ _
        rw [List.append_assoc, ← h2]
        simp only [natCode, List.map_cons, List.flatten_cons, space_cell]
      | cons p t0 =>
        obtain ⟨a, b, hab⟩ : ∃ a b, sjisBytes p = [a, b] := ⟨_, _, rfl⟩
        have e : natCode (p :: t0) = a :: b :: natCode t0 := by
          simp [natCode, hab]
        obtain ⟨t', h1, h2⟩ := ih t0 cs
        rw [e]
        refine ⟨t', h1, ?_⟩
        show natCode (p :: natEdChars (List.replicate n 78 ++ cs) t0) = _
        change _ = ([a, b] ++ (natEditRun after 78 n (natCode t0)).1) ++ _
        rw [List.append_assoc, ← h2]
        simp only [natCode, List.map_cons, List.flatten_cons, hab]
    · rw [if_neg h]
      obtain ⟨t', h1, h2⟩ := ih t cs
      refine ⟨t', h1, ?_⟩
      dsimp only
      rw [List.append_assoc, ← h2, List.replicate_succ, List.cons_append, natEdChars.eq_def]
      dsimp only
      rw [if_neg h]
      simp only [List.mem_cons, List.not_mem_nil, or_false] at hc
      rcases hc with e | e | e | e
      · exact absurd e h
      all_goals subst e; simp [natCode, ins_cells, space_cell]

theorem natEdited_cells (after : Nat) : ∀ (pic : List (Nat × Nat)) (t : List (Nat × Nat)),
    (∀ c ∈ expandPic pic, c ∈ [78, 47, 66, 48]) →
    moveNationalEdited after pic (natCode t) = natCode (natEdChars (expandPic pic) t) := by
  intro pic
  induction pic with
  | nil => intro t _; simp [moveNationalEdited, expandPic, natEdChars, natCode]
  | cons p pic ih =>
    intro t hp
    obtain ⟨c, n⟩ := p
    have e : expandPic ((c, n) :: pic) = List.replicate n c ++ expandPic pic := by simp [expandPic]
    rw [e] at hp ⊢
    have hrest : ∀ x ∈ expandPic pic, x ∈ [78, 47, 66, 48] := fun x hx => hp x (List.mem_append_right _ hx)
    rw [moveNationalEdited]
    cases n with
    | zero =>
      show [] ++ moveNationalEdited after pic (natCode t) = _
      rw [List.nil_append, ih t hrest]
      simp
    | succ n =>
      have hc : c ∈ [78, 47, 66, 48] := hp c (List.mem_append_left _ (by simp))
      obtain ⟨t', h1, h2⟩ := natEditRun_cells after c hc (n + 1) t (expandPic pic)
      rw [h1, ih t' hrest, h2]

theorem natEdChars_spec : ∀ (cs : List Nat) (t : List (Nat × Nat)), (∀ c ∈ cs, c ∈ [78, 47, 66, 48]) →
    NatEditedBy cs t (natEdChars cs t) := by
  intro cs
  induction cs with
  | nil => intro t _; exact ⟨rfl, fun i c h => by simp at h⟩
  | cons x cs ih =>
    intro t hcs
    have hrest : ∀ c ∈ cs, c ∈ [78, 47, 66, 48] := fun c h => hcs c (List.mem_cons_of_mem _ h)
    have hx := hcs x List.mem_cons_self
    rw [natEdChars.eq_def]
    dsimp only
    by_cases h78 : x = 78
    · rw [if_pos h78]
      cases t with
      | nil =>
        obtain ⟨h1, h2⟩ := ih [] hrest
        refine ⟨by simp [h1], ?_⟩
        intro i c hi
        cases i with
        | zero =>
          simp only [List.getElem?_cons_zero, Option.some.injEq] at hi
          subst hi
          refine ⟨fun _ => by simp, fun e => by omega, fun e => by omega, fun e => by omega⟩
        | succ i =>
          simp only [List.getElem?_cons_succ] at hi ⊢
          have := h2 i c hi
          simpa using this
      | cons p t' =>
        obtain ⟨h1, h2⟩ := ih t' hrest
        refine ⟨by simp [h1], ?_⟩
        intro i c hi
        cases i with
        | zero =>
          simp only [List.getElem?_cons_zero, Option.some.injEq] at hi
          subst hi
          refine ⟨fun _ => by simp, fun e => by omega, fun e => by omega, fun e => by omega⟩
        | succ i =>
          simp only [List.getElem?_cons_succ] at hi ⊢
          have := h2 i c hi
          rw [List.take_succ_cons, h78, List.count_cons_self]
          simpa using this
    · rw [if_neg h78]
      obtain ⟨h1, h2⟩ := ih t hrest
      refine ⟨by simp [h1], ?_⟩
      intro i c hi
      cases i with
      | zero =>
        simp only [List.getElem?_cons_zero, Option.some.injEq] at hi
        subst hi
        refine ⟨fun e => absurd e h78, fun e => by simp [e], fun e => by simp [e], fun e => by simp [e]⟩
      | succ i =>
        simp only [List.getElem?_cons_succ] at hi ⊢
        rw [List.take_succ_cons, List.count_cons_of_ne h78]
        exact h2 i c hi

/-- **C73.** A text moved to a NATIONAL-EDITED item is edited in full-width characters: its
characters go to the `N` positions in turn, the insertion symbols insert full-width characters. -/
theorem C73_edited (after : Nat) (t : List HChar) (hok : ∀ h ∈ t, h.Ok) (ht : t ≠ []) (pic : List (Nat × Nat))
    (hp : ∀ c ∈ expandPic pic, c ∈ [78, 47, 66, 48]) :
    ∃ out, moveToNational after (textCode t) (.edited pic) = natCode out ∧
      NatEditedBy (expandPic pic) (widened t) out := by
  refine ⟨natEdChars (expandPic pic) (widened t), ?_, natEdChars_spec _ _ hp⟩
  unfold moveToNational storeNational
  rw [natSource_text after t hok ht]
  exact natEdited_cells after pic (widened t) hp

example : moveToNational 0 (textCode [.half 0x31, .half 0xB6, .half 0xDE, .half 0x32])
      (.edited [(78, 2), (47, 1), (78, 2), (48, 1)]) =
    natCode [jisCell '１', jisCell 'ガ', jisCell '／', jisCell '２', jisCell '　', jisCell '０'] := by decide +kernel

theorem natCode_getD (w : List (Nat × Nat)) : ∀ (q r : Nat), r < 2 → q < w.length →
    (natCode w).getD (2 * q + r) 0 = (sjisBytes (w.getD q (0, 0))).getD r 0 := by
  induction w with
  | nil => intro q r _ h; simp at h
  | cons p w ih =>
    intro q r hr hq
    obtain ⟨a, b, hab⟩ : ∃ a b, sjisBytes p = [a, b] := ⟨_, _, rfl⟩
    have e : natCode (p :: w) = a :: b :: natCode w := by simp [natCode, hab]
    rw [e]
    cases q with
    | zero =>
      rw [Nat.mul_zero, Nat.zero_add, List.getD_cons_zero, hab]
      rcases (show r = 0 ∨ r = 1 by omega) with h | h <;> subst h <;> rfl
    | succ q =>
      rw [show 2 * (q + 1) + r = 2 * q + r + 1 + 1 by omega, List.getD_cons_succ, List.getD_cons_succ,
        List.getD_cons_succ]
      exact ih q r hr (by simpa using hq)

theorem widened_ne (t : List HChar) (ht : t ≠ []) : 0 < (widened t).length := by
  cases t with
  | nil => exact absurd rfl ht
  | cons h r =>
    rw [widened.eq_def]
    split
    · rename_i e; cases e
    · simp
    · simp
    · simp
    · split <;> simp
    · simp

/-- **C73.** `MOVE ALL literal` to a NATIONAL item fills it with the full-width text of the literal
repeated. -/
theorem C73_all (after : Nat) (t : List HChar) (hok : ∀ h ∈ t, h.Ok) (ht : t ≠ []) (just : Bool) (n : Nat) :
    moveAllNational after (textCode t) just (2 * n) =
      natCode ((List.range n).map fun i => (widened t).getD (i % (widened t).length) (0, 0)) := by
  have hne := textCode_head t hok
  have hw := widened_ne t ht
  unfold moveAllNational
  have hz : natAllText after (textCode t) = natCode (widened t) := by
    unfold natAllText
    split
    · rename_i r hr; exact absurd hr (hne _)
    · exact han2zen_text after t hok
  dsimp only
  rw [hz, if_pos (by rw [natCode_length]; omega)]
  have hlen : (natCode ((List.range n).map fun i => (widened t).getD (i % (widened t).length) (0, 0))).length = 2 * n := by
    rw [natCode_length]; simp
  have key : ((List.range (2 * n)).map fun i => (natCode (widened t)).getD (i % (natCode (widened t)).length) 0) =
      natCode ((List.range n).map fun i => (widened t).getD (i % (widened t).length) (0, 0)) := by
    apply List.ext_getElem?
    intro i
    by_cases hi : i < 2 * n
    · have hL := natCode_length (widened t)
      have hq : i / 2 < n := by omega
      have h1 := natCode_getD ((List.range n).map fun i => (widened t).getD (i % (widened t).length) (0, 0))
        (i / 2) (i % 2) (by omega) (by simpa using hq)
      rw [show 2 * (i / 2) + i % 2 = i by omega] at h1
      have h2 := natCode_getD (widened t) (i / 2 % (widened t).length) (i % 2) (by omega) (Nat.mod_lt _ hw)
      have h3 : 2 * (i / 2 % (widened t).length) + i % 2 = i % (natCode (widened t)).length := by
        rw [hL, Nat.mod_mul]
        omega
      rw [h3] at h2
      rw [List.getD_eq_getElem?_getD, List.getElem?_eq_getElem (by rw [hlen]; exact hi)] at h1
      rw [List.getElem?_map, List.getElem?_range hi, List.getElem?_eq_getElem (by rw [hlen]; exact hi)]
      simp only [Option.map_some, Option.some.injEq]
      simp only [Option.getD_some] at h1
      rw [h1, h2]
      simp [hq]
    · rw [List.getElem?_eq_none (by simpa using hi), List.getElem?_eq_none (by rw [hlen]; omega)]
  rw [key, moveNational_cells]
  unfold natFitted
  cases just <;> simp [List.take_of_length_le]

example : moveAllNational 0 (textCode [.half 0x41, .half 0xB6, .half 0xDE]) false 6 =
    natCode [jisCell 'Ａ', jisCell 'ガ', jisCell 'Ａ'] := by decide +kernel

theorem zenLoop_size (after d : Nat) (out bs : List Nat) :
    out.length % 2 = 0 → (Neutral d ∨ out ≠ []) →
    (zenLoop after d out bs).length % 2 = 0 ∧ (zenLoop after d out bs).length ≤ out.length + 2 * bs.length := by
  fun_induction zenLoop after d out bs <;> intro h hd
  case case1 => exact ⟨h, by simp⟩
  all_goals try
    (rename_i ih
     have := ih (by simp; omega) (Or.inr (by simp))
     simp only [List.length_append, List.length_cons, List.length_nil] at this ⊢
     omega)
  all_goals try
    (simp only [List.length_append, List.length_cons, List.length_nil]
     omega)
  all_goals
    (rename_i ih
     have ho := List.length_pos_of_ne_nil (show _ ≠ [] by
       rcases hd with hd | hd
       · unfold Neutral at hd; omega
       · exact hd)
     have := ih (by simp; omega) (Or.inr (by simp))
     simp only [List.length_append, List.length_cons, List.length_nil, List.length_dropLast] at this ⊢
     omega)

/-- **C73.** Whatever bytes the argument of `FUNCTION NATIONAL` holds, the result is a whole number
of two-byte characters, and no more of them than the argument has bytes. -/
theorem C73_size (after : Nat) (src : List Nat) :
    (intrNational after src).length % 2 = 0 ∧ (intrNational after src).length ≤ 2 * src.length := by
  have hn : Neutral 0 := by unfold Neutral; omega
  unfold intrNational han2zen
  split
  · rename_i tl
    have := zenLoop_size (List.getLastD (0 :: tl) 0) 0 [] (List.dropLast (0 :: tl)) rfl (Or.inl hn)
    simp only [List.length_dropLast, List.length_cons, List.length_nil] at this ⊢
    omega
  · have := zenLoop_size after 0 [] src rfl (Or.inl hn)
    simp only [List.length_nil] at this
    omega

example : (intrNational 0 [0x41, 0xFF, 0xFF, 0x81]).length = 6 := by decide +kernel

/-- The half-width characters a full-width one stands for (used to show that none is lost). -/
def unzen (p : List Nat) : List Nat :=
  match p with
  | [a, b] =>
    if (a, b) ∈ zenAscii then [0x20 + zenAscii.idxOf (a, b)]
    else if (a, b) ∈ zenKana then [0xA1 + zenKana.idxOf (a, b)]
    else if a = 0x81 ∧ b = 0x4A then [0xDE]
    else if a = 0x81 ∧ b = 0x4B then [0xDF]
    else if a = 0x83 ∧ b = 0x94 then [0xB3, 0xDE]
    else if (a, b - 1) ∈ zenKana then [0xA1 + zenKana.idxOf (a, b - 1), 0xDE]
    else [0xA1 + zenKana.idxOf (a, b - 2), 0xDF]
  | _ => []

theorem unzen_ascii : ∀ c < 256, (0x20 ≤ c ∧ c ≤ 0x7E) →
    unzen [(zenAscii.getD (c - 0x20) (0, 0)).1, (zenAscii.getD (c - 0x20) (0, 0)).2] = [c] := by decide +kernel

theorem unzen_kana : ∀ c < 256, (0xA1 ≤ c ∧ c ≤ 0xDD) →
    unzen [(zenKana.getD (c - 0xA1) (0, 0)).1, (zenKana.getD (c - 0xA1) (0, 0)).2] = [c] := by decide +kernel

theorem unzen_voiced : ∀ c < 256, (0xB6 ≤ c ∧ c ≤ 0xC4) ∨ (0xCA ≤ c ∧ c ≤ 0xCE) →
    unzen ([(zenKana.getD (c - 0xA1) (0, 0)).1] ++ [((zenKana.getD (c - 0xA1) (0, 0)).2 + 1) % 256]) = [c, 0xDE] := by
  decide +kernel

theorem unzen_semi : ∀ c < 256, (0xCA ≤ c ∧ c ≤ 0xCE) →
    unzen ([(zenKana.getD (c - 0xA1) (0, 0)).1] ++ [((zenKana.getD (c - 0xA1) (0, 0)).2 + 2) % 256]) = [c, 0xDF] := by
  decide +kernel

theorem unzen_full (c : Nat) (hc : HalfOk c) : unzen (fullBytes c) = [c] := by
  have hlt := hc.lt
  by_cases h1 : 0x20 ≤ c ∧ c ≤ 0x7E
  · rw [full_ascii c hlt h1, unzen_ascii c hlt h1]
  · by_cases h2 : 0xA1 ≤ c ∧ c ≤ 0xDD
    · rw [full_kana c hlt h2, unzen_kana c hlt h2]
    · have h3 : c = 0xDE ∨ c = 0xDF := by unfold HalfOk at hc; omega
      rcases h3 with h | h <;> subst h
      · rw [full_marks.1]; decide +kernel
      · rw [full_marks.2]; decide +kernel

theorem unzen_mark (c m : Nat) (v : Char) (hc : HalfOk c) (hm : HalfOk m)
    (hv : soundMark (halfChar c) (halfChar m) = some v) : unzen (sjisBytes (jisCell v)) = [c, m] := by
  have hlt := hc.lt
  have hm3 : m = 0xDE ∨ m = 0xDF := by
    by_contra hh
    have : m ≠ 0xDE ∧ m ≠ 0xDF := by omega
    rw [other_none c m hm this.1 this.2] at hv
    cases hv
  rcases hm3 with e | e <;> subst e
  · by_cases h1 : (0xB6 ≤ c ∧ c ≤ 0xC4) ∨ (0xCA ≤ c ∧ c ≤ 0xCE)
    · have h := voiced_plain c hlt hc h1
      rw [hv] at h
      simp only [Option.map_some, Option.some.injEq] at h
      rw [h, full_kana c hlt (by omega)]
      exact unzen_voiced c hlt h1
    · by_cases h2 : c = 0xB3
      · subst h2
        have h := voiced_u
        rw [hv] at h
        simp only [Option.map_some, Option.some.injEq] at h
        rw [h]
        decide +kernel
      · rw [voiced_none c hlt hc h1 h2] at hv
        cases hv
  · by_cases h1 : (0xCA ≤ c ∧ c ≤ 0xCE)
    · have h := semi_some c hlt hc h1
      rw [hv] at h
      simp only [Option.map_some, Option.some.injEq] at h
      rw [h, full_kana c hlt (by omega)]
      exact unzen_semi c hlt h1
    · rw [semi_none c hlt hc h1] at hv
      cases hv

theorem unzen_text : ∀ (n : Nat) (cs : List Nat), cs.length = n → (∀ c ∈ cs, HalfOk c) →
    ((widened (cs.map HChar.half)).map fun p => unzen (sjisBytes p)).flatten = cs := by
  intro n
  induction n using Nat.strong_induction_on with
  | _ n ih =>
    intro cs hn hok
    match cs, hn, hok with
    | [], _, _ => rfl
    | [c], _, hok =>
      have := unzen_full c (hok c (by simp))
      unfold fullBytes at this
      simp [widened, this]
    | c :: m :: r, hn, hok =>
      have hc := hok c (by simp)
      have hm := hok m (by simp)
      simp only [List.length_cons] at hn
      simp only [List.map_cons, widened]
      cases hv : soundMark (halfChar c) (halfChar m) with
      | some v =>
        have h := ih r.length (by omega) r rfl (fun x hx => hok x (by simp [hx]))
        simp only [List.map_cons, List.flatten_cons]
        rw [h, unzen_mark c m v hc hm hv]
        rfl
      | none =>
        have h := ih (r.length + 1) (by omega) (m :: r) rfl (fun x hx => hok x (by
          rcases List.mem_cons.mp hx with e | e
          · simp [e]
          · simp [e]))
        have h2 := unzen_full c hc
        unfold fullBytes at h2
        simp only [List.map_cons] at h
        simp only [List.map_cons, List.flatten_cons]
        rw [h, h2]
        rfl

theorem natCode_inj : ∀ (s t : List (Nat × Nat)), natCode s = natCode t → s.map sjisBytes = t.map sjisBytes := by
  intro s
  induction s with
  | nil =>
    intro t h
    have := congrArg List.length h
    rw [natCode_length, natCode_length] at this
    cases t with
    | nil => rfl
    | cons _ _ => simp at this
  | cons p s ih =>
    intro t h
    cases t with
    | nil =>
      have := congrArg List.length h
      rw [natCode_length, natCode_length] at this
      simp at this
    | cons q t =>
      have e : ∀ (p : Nat × Nat) (s : List (Nat × Nat)), natCode (p :: s) = sjisBytes p ++ natCode s := fun p s => by
        simp [natCode]
      rw [e, e] at h
      have h2 := List.append_inj h rfl
      simp only [List.map_cons]
      rw [h2.1, ih t h2.2]

/-- **C73.** No two texts of half-width characters have the same full-width text: the conversion
loses nothing. -/
theorem C73_faithful (after1 after2 : Nat) (cs1 cs2 : List Nat) (h1 : ∀ c ∈ cs1, HalfOk c)
    (h2 : ∀ c ∈ cs2, HalfOk c) (h : intrNational after1 cs1 = intrNational after2 cs2) : cs1 = cs2 := by
  have e : ∀ cs : List Nat, textCode (cs.map HChar.half) = cs := by
    intro cs
    induction cs with
    | nil => rfl
    | cons c cs ih =>
      unfold textCode at ih ⊢
      simp only [List.map_cons, List.flatten_cons, HChar.code]
      rw [ih]; rfl
  have ok : ∀ cs : List Nat, (∀ c ∈ cs, HalfOk c) → ∀ x ∈ cs.map HChar.half, x.Ok := by
    intro cs hcs x hx
    obtain ⟨c, hc, rfl⟩ := List.mem_map.mp hx
    exact hcs c hc
  have f1 := C73_function after1 _ (ok cs1 h1)
  have f2 := C73_function after2 _ (ok cs2 h2)
  rw [e] at f1 f2
  rw [f1, f2] at h
  have h3 := natCode_inj _ _ h
  have g1 := unzen_text _ cs1 rfl h1
  have g2 := unzen_text _ cs2 rfl h2
  rw [← g1, ← g2]
  have h4 := congrArg (fun l => (l.map unzen).flatten) h3
  simpa [List.map_map, Function.comp_def] using h4

example : (∀ c ∈ [0xB6, 0xDE, 0x41], HalfOk c) ∧ intrNational 0 [0xB6, 0xDE, 0x41] ≠ intrNational 0 [0xB7, 0xDE, 0x41] := by
  decide +kernel

/-- **C73, finding.** A COMP-3 item is converted byte by byte before it is unpacked: `MOVE` of
123 `PIC S9(3) COMP-3` to a `PIC N(3)` item stores "８１４". -/
theorem C73_finding_packed :
    movePackedNational false 0 ⟨{ digits := 3, haveSign := true }, [0x12, 0x3C]⟩ (.plain false 6) =
      natCode [jisCell '８', jisCell '１', jisCell '４'] := by decide +kernel

/-- **C73, finding.** The sign of a zoned item is moved with the last digit: `MOVE` of -5 `PIC S9`
to a `PIC N` item stores the letter "ｕ". -/
theorem C73_finding_sign :
    moveToNational 0 ((⟨{ digits := 1, haveSign := true }, [0x35]⟩ : Field).putSign false (-1)).data (.plain false 2) =
      natCode [jisCell 'ｕ'] := by decide +kernel

/-- **C73, finding.** An item beginning with LOW-VALUE is not converted by `MOVE`: the two letters
behind it arrive as one full-width character's bytes; and `FUNCTION NATIONAL` of such an item loses
its last character. -/
theorem C73_finding_low :
    moveToNational 0 [0, 0x41, 0x42, 0x43] (.plain false 8) = [0, 0x41, 0x42, 0x43, 0x81, 0x40, 0x81, 0x40] ∧
    intrNational 0 [0, 0x41, 0x42] = intrNational 0 [0, 0x41, 0x43] := by decide +kernel

theorem zenLoop_high (after : Nat) : ∀ (k d : Nat) (out : List Nat),
    zenLoop after d out (List.replicate k 255) = out ++ List.replicate (2 * ((k + 1) / 2)) 255
  | 0, d, out => by simp [zenLoop]
  | 1, d, out => by simp [zenLoop]
  | k + 2, d, out => by
    have e : List.replicate (k + 2) 255 = 255 :: 255 :: List.replicate k 255 := rfl
    rw [e, zenLoop]
    simp only [show ¬ (0x20 ≤ 255 ∧ 255 ≤ 0x7E) by omega, show ¬ (0xA1 ≤ 255 ∧ 255 ≤ 0xDD) by omega,
      show ¬ ((255 : Nat) = 0xDE) by omega, show ¬ ((255 : Nat) = 0xDF) by omega, if_false, or_true, if_true]
    rw [zenLoop_high after k 255 (out ++ [255, 255]), show (k + 2 + 1) / 2 = (k + 1) / 2 + 1 by omega,
      show 2 * ((k + 1) / 2 + 1) = 2 * ((k + 1) / 2) + 1 + 1 by omega]
    simp [List.replicate_succ]

/-- **C73.** HIGH-VALUES in a sending item of `k` bytes arrive as HIGH-VALUES, two bytes for two (one for a last single one), cut or
filled with full-width spaces. -/
theorem C73_high_values (after k n : Nat) (hk : 0 < k) :
    moveToNational after (List.replicate k 255) (.plain false (2 * n)) =
      List.replicate (2 * min n ((k + 1) / 2)) 255 ++ natCode (List.replicate (n - (k + 1) / 2) (jisCell '　')) := by
  have hz : natSource after (List.replicate k 255) = List.replicate (2 * ((k + 1) / 2)) 255 := by
    obtain ⟨j, rfl⟩ : ∃ j, k = j + 1 := ⟨k - 1, by omega⟩
    have := zenLoop_high after (j + 1) 0 []
    rw [List.nil_append] at this
    rw [← this]
    simp [natSource, han2zen, List.replicate_succ]
  unfold moveToNational storeNational
  rw [hz]
  dsimp only [moveNational]
  rw [List.length_replicate]
  have hj : sjisBytes (jisCell '　') = [0x81, 0x40] := by decide +kernel
  have hnat : ∀ m, natCode (List.replicate m (jisCell '　')) = (List.replicate m [0x81, 0x40]).flatten := by
    intro m; unfold natCode; rw [List.map_replicate, hj]
  by_cases h : 2 * n ≤ 2 * ((k + 1) / 2)
  · rw [if_pos h, if_neg (by simp), List.take_replicate, show n - (k + 1) / 2 = 0 by omega]
    simp only [List.replicate_zero, natCode, List.map_nil, List.flatten_nil, List.append_nil]
    congr 1; omega
  · rw [if_neg h, if_neg (by simp), hnat, natPad, show (2 * n - 2 * ((k + 1) / 2)) / 2 = n - (k + 1) / 2 by omega,
      show (2 * n - 2 * ((k + 1) / 2)) % 2 = 0 by omega, List.replicate_zero, List.append_nil,
      show min n ((k + 1) / 2) = (k + 1) / 2 by omega]

/-- **C73.** MOVE HIGH-VALUES and MOVE LOW-VALUES fill a NATIONAL item with these bytes. -/
theorem C73_fill (after : Nat) (just : Bool) (size : Nat) :
    moveAllNational after [255] just size = List.replicate size 255 ∧
    moveAllNational after [0] just size = List.replicate size 0 := by
  have hz : natAllText after [255] = [255, 255] := by
    have := zenLoop_high after 1 0 []
    simp only [List.nil_append] at this
    exact this
  have fill : ∀ (b : Nat), moveNational just (List.replicate size b) size = List.replicate size b := by
    intro b
    unfold moveNational
    rw [List.length_replicate, if_pos (Nat.le_refl _)]
    cases just <;> simp
  constructor
  · unfold moveAllNational
    dsimp only
    rw [hz, if_pos (by decide)]
    have : (List.range size).map (fun i => [255, 255].getD (i % [255, 255].length) 0) = List.replicate size 255 := by
      rw [List.eq_replicate_iff]
      refine ⟨by simp, ?_⟩
      intro b hb
      obtain ⟨i, _, rfl⟩ := List.mem_map.1 hb
      have : i % [255, 255].length < 2 := Nat.mod_lt _ (by decide)
      generalize i % [255, 255].length = r at this
      rcases r with _ | _ | r
      · rfl
      · rfl
      · omega
    rw [this, fill]
  · unfold moveAllNational
    have e : natAllText after [0] = [] := rfl
    dsimp only
    rw [e, if_neg (by decide), if_pos (show [0].length = 1 from rfl)]
    exact fill 0

/-- **C73.** An item that begins with LOW-VALUE is moved as it stands, filled with full-width spaces and, in an item that is filled by
an odd number of bytes, one space. -/
theorem C73_low_first (after : Nat) (rest : List Nat) (size : Nat) :
    moveToNational after (0 :: rest) (.plain false size) =
      ((0 :: rest) ++ natCode (List.replicate ((size - (rest.length + 1)) / 2) (jisCell '　')) ++
        (if (size - (rest.length + 1)) % 2 = 1 then [32] else [])).take size := by
  have hj : sjisBytes (jisCell '　') = [0x81, 0x40] := by decide +kernel
  have hnat : ∀ m, natCode (List.replicate m (jisCell '　')) = (List.replicate m [0x81, 0x40]).flatten := by
    intro m; unfold natCode; rw [List.map_replicate, hj]
  have hs : natSource after (0 :: rest) = 0 :: rest := rfl
  unfold moveToNational storeNational
  rw [hs]
  dsimp only [moveNational]
  rw [List.length_cons, hnat]
  by_cases h : size ≤ rest.length + 1
  · rw [if_pos h, if_neg (by simp), show size - (rest.length + 1) = 0 by omega]
    simp
  · rw [if_neg h, if_neg (by simp), natPad]
    have hl : ∀ m, ((List.replicate m [0x81, 0x40]).flatten : List Nat).length = 2 * m := by
      intro m; simp [List.length_flatten]; omega
    have e : List.replicate ((size - (rest.length + 1)) % 2) 32 =
        (if (size - (rest.length + 1)) % 2 = 1 then [32] else [] : List Nat) := by
      rcases Nat.mod_two_eq_zero_or_one (size - (rest.length + 1)) with h | h <;> rw [h] <;> rfl
    rw [e, List.take_of_length_le]
    · simp [List.append_assoc]
    · simp only [List.length_append, List.length_cons, hl]
      rcases Nat.mod_two_eq_zero_or_one (size - (rest.length + 1)) with h | h <;> simp [h] <;> omega

/-- **C73.** `ALL` literal that begins with a zero byte: repeated byte by byte; if the item would end in the first half of a two-byte
character, that byte is a space. -/
theorem C73_all_low (after : Nat) (rest : List Nat) (hr : rest ≠ []) (size : Nat) (i : Nat) (hi : i < size) :
    (moveAllNational after (0 :: rest) false size)[i]? =
      some (let b := (0 :: rest).getD (i % (rest.length + 1)) 0
            if i + 1 = size ∧ ((0x81 ≤ b ∧ b ≤ 0x9F) ∨ (0xE0 ≤ b ∧ b ≤ 0xFC)) then 32 else b) := by
  unfold moveAllNational
  have e : natAllText after (0 :: rest) = [] := rfl
  have hl : ¬ (0 :: rest).length = 1 := by
    cases rest with
    | nil => exact absurd rfl hr
    | cons a r => simp
  dsimp only
  rw [e, if_neg (by decide), if_neg hl]
  have hne : ∀ l : List Nat, l.length = size → moveNational false l size = l := by
    intro l h
    unfold moveNational
    rw [if_pos (by omega), if_neg (by simp), List.take_of_length_le (by omega)]
  generalize hL : (List.range size).map (fun i => (0 :: rest).getD (i % (0 :: rest).length) 0) = l
  have hll : l.length = size := by rw [← hL]; simp
  have hget : ∀ j, j < size → l[j]? = some ((0 :: rest).getD (j % (rest.length + 1)) 0) := by
    intro j hj
    rw [← hL]
    simp [hj]
  have hg : l.getD (size - 1) 0 = (0 :: rest).getD ((size - 1) % (rest.length + 1)) 0 := by
    rw [List.getD_eq_getElem?_getD, hget (size - 1) (by omega)]; rfl
  rw [hg]
  by_cases hlast : i + 1 = size
  · have : size - 1 = i := by omega
    rw [this]
    have hgi := hget i hi
    clear hget hg hL
    generalize (0 :: rest).getD (i % (rest.length + 1)) 0 = b at *
    split
    · rename_i hb
      rw [hne _ (by simp [hll]), if_pos ⟨hlast, hb⟩]
      simp [hll, hi]
    · rename_i hb
      rw [hne _ hll, if_neg (fun h => hb h.2), hgi]
  · simp only [hlast, false_and, if_false]
    split
    · rw [hne _ (by simp [hll]), List.getElem?_set_ne (by omega), hget i hi]
    · rw [hne _ hll, hget i hi]

example : moveAllNational 0 [0, 0x82, 0x41] false 8 = [0, 0x82, 0x41, 0, 0x82, 0x41, 0, 32] := by decide +kernel

end Cob
