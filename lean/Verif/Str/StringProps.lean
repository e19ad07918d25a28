import Verif.Str.StringStmt
import Verif.Str.InspectLemmas
import Mathlib.Tactic.Linarith
/-
Properties C21 (STRING) and C22 (UNSTRING).
-/
namespace Cob

/-! ### Specification -/

/-- What a sending item contributes: DELIMITED BY SIZE all of it, otherwise the part before the
first occurrence of the delimiter. -/
def contribution : Option (List Nat) × List Nat → List Nat
  | (none, src) => src
  | (some d, src) => beforeFirst d src

/-- The first delimiter of the list that begins the text. -/
def delimHead (ds : List (List Nat × Bool)) (t : List Nat) : Option (List Nat × Bool) :=
  ds.find? (fun d => decide (d.1 <+: t))

/-- The text up to the first delimiter, and the delimiter. -/
def cutAt (ds : List (List Nat × Bool)) : List Nat → List Nat × Option (List Nat × Bool)
  | [] => ([], none)
  | c :: cs =>
    match delimHead ds (c :: cs) with
    | some d => ([], some d)
    | none => let r := cutAt ds cs; (c :: r.1, r.2)

/-- UNSTRING into `n` receivers: the pieces and the rest of the text. -/
def splitText (ds : List (List Nat × Bool)) : (n : Nat) → List Nat → List Piece × List Nat
  | 0, t => ([], t)
  | _ + 1, [] => ([], [])
  | n + 1, t =>
    match cutAt ds t with
    | (w, none) => ([⟨w, none⟩], [])
    | (w, some (d, all)) =>
      let rest := t.drop (w.length + d.length)
      let rest := if all then rest.drop (countLeading d 0 rest * d.length) else rest
      let r := splitText ds n rest
      (⟨w, some d⟩ :: r.1, r.2)

/-- UNSTRING without delimiters: each receiver takes as much as it holds. -/
def chopText : List Nat → List Nat → List Piece × List Nat
  | [], t => ([], t)
  | _ :: _, [] => ([], [])
  | n :: ns, t => let r := chopText ns (t.drop n); (⟨t.take n, none⟩ :: r.1, r.2)

/-- The POINTER value is usable for an item of `n` bytes. -/
def PointerOk (ptr : Option Int) (n : Nat) : Prop := ∀ p, ptr = some p → 1 ≤ p ∧ p ≤ n

instance (ptr : Option Int) (n : Nat) : Decidable (PointerOk ptr n) := by
  unfold PointerOk
  cases ptr with
  | none => exact isTrue (by simp)
  | some p => exact decidable_of_iff (1 ≤ p ∧ p ≤ n) ⟨fun h q hq => by cases hq; exact h, fun h => h p rfl⟩

/-- The position (from 0) at which the statement starts. -/
def startPos (ptr : Option Int) : Nat := (ptr.getD 1 - 1).toNat

/-! ### STRING -/

theorem sent_spec (dlm : Option (List Nat)) (src : List Nat) :
    src.take (sentSize dlm src) = contribution (dlm, src) ∧ sentSize dlm src = (contribution (dlm, src)).length := by
  cases dlm with
  | none => simp [sentSize, contribution]
  | some d =>
    have h := find_spec d (src.length + 1) [] src [] (by omega)
    simp only [List.nil_append, List.append_nil, List.length_nil, Nat.zero_add] at h
    unfold sentSize contribution
    simp only
    split at h
    · rename_i he
      rw [he, h.1]
      simp
    · rename_i q he
      rw [he]
      obtain ⟨h1, h2, _, _⟩ := h
      simp only
      rw [h1]
      exact ⟨(prefix_take.mp h2), rfl⟩

theorem string_exc (srcs : List (Option (List Nat) × List Nat)) (s : StrSt) (h : s.exc = true) :
    srcs.foldl (fun s x => stringAppend s x.1 x.2) s = s := by
  induction srcs with
  | nil => rfl
  | cons x xs ih =>
    rw [List.foldl_cons, show stringAppend s x.1 x.2 = s by unfold stringAppend; rw [if_pos h], ih]

theorem string_fold (srcs : List (Option (List Nat) × List Nat)) : ∀ (dst : List Nat) (o : Nat), o ≤ dst.length →
    srcs.foldl (fun s x => stringAppend s x.1 x.2) ⟨dst, o, false⟩ =
      let text := (srcs.map contribution).flatten
      let k := min text.length (dst.length - o)
      ⟨dst.take o ++ text.take k ++ dst.drop (o + k), ((o + k : Nat) : Int), decide (dst.length - o < text.length)⟩ := by
  induction srcs with
  | nil => intro dst o _; simp
  | cons x xs ih =>
    intro dst o ho
    obtain ⟨e1, e2⟩ := sent_spec x.1 x.2
    rw [List.foldl_cons]
    simp only [List.map_cons, List.flatten_cons]
    set c := contribution (x.1, x.2) with hc
    set rest := (xs.map contribution).flatten with hrest
    have hstep : stringAppend ⟨dst, o, false⟩ x.1 x.2 =
        if c.length ≤ dst.length - o then ⟨dst.take o ++ c ++ dst.drop (o + c.length), ((o + c.length : Nat) : Int), false⟩
        else ⟨dst.take o ++ c.take (dst.length - o) ++ [], (dst.length : Int), true⟩ := by
      unfold stringAppend
      simp only [Bool.false_eq_true, if_false, Int.toNat_natCast]
      by_cases hle : c.length ≤ dst.length - o
      · rw [if_pos (by rw [e2]; omega), if_pos hle, e1, e2]
        simp
      · rw [if_neg (by rw [e2]; omega), if_neg hle]
        have hk : ((dst.length : Int) - (o : Int)).toNat = dst.length - o := by omega
        rw [hk]
        have ht : x.2.take (dst.length - o) = c.take (dst.length - o) := by
          rw [← e1, List.take_take, Nat.min_eq_left (by rw [e2]; omega)]
        rw [ht, List.drop_of_length_le (by omega)]
        congr 1
        omega
    rw [hstep]
    by_cases hle : c.length ≤ dst.length - o
    · rw [if_pos hle, ih _ _ (by simp; omega)]
      have hlen : (dst.take o ++ c ++ dst.drop (o + c.length)).length = dst.length := by simp; omega
      simp only [hlen]
      have hk : min (c ++ rest).length (dst.length - o) = c.length + min rest.length (dst.length - (o + c.length)) := by
        simp only [List.length_append]; omega
      rw [hk]
      have et : (dst.take o ++ c ++ dst.drop (o + c.length)).take (o + c.length) = dst.take o ++ c := by
        rw [List.take_append_of_le_length (by simp; omega), List.take_of_length_le (by simp)]
      have ed : ∀ j, (dst.take o ++ c ++ dst.drop (o + c.length)).drop (o + c.length + j) = dst.drop (o + c.length + j) := by
        intro j
        rw [List.drop_append, List.drop_of_length_le (by simp; omega)]
        simp only [List.length_append, List.length_take, List.nil_append, List.drop_drop]
        congr 1
        omega
      rw [et, ed, List.take_length_add_append]
      simp only [StrSt.mk.injEq]
      refine ⟨by simp [Nat.add_assoc], by push_cast; omega, ?_⟩
      rw [decide_eq_decide]
      simp only [List.length_append]
      omega
    · rw [if_neg hle, string_exc _ _ rfl]
      have hk : min (c ++ rest).length (dst.length - o) = dst.length - o := by
        simp only [List.length_append]; omega
      rw [hk, List.take_append_of_le_length (by omega), List.drop_of_length_le (by omega)]
      simp only [StrSt.mk.injEq]
      refine ⟨trivial, by push_cast; omega, ?_⟩
      simp only [List.length_append]
      simp
      omega

/-- C21: STRING with a valid (or no) POINTER: the longest prefix of the concatenated
contributions that fits is written at the pointer; all other bytes keep their value; the pointer
ends just after the last byte written; overflow exactly when not everything fitted. -/
theorem C21_string (dst : List Nat) (ptr : Option Int) (srcs : List (Option (List Nat) × List Nat))
    (hp : PointerOk ptr dst.length) :
    let o := startPos ptr
    let text := (srcs.map contribution).flatten
    let k := min text.length (dst.length - o)
    stringStmt dst ptr srcs =
      (dst.take o ++ text.take k ++ dst.drop (o + k), ptr.map (fun _ => ((o + k : Nat) : Int) + 1),
        decide (dst.length - o < text.length)) := by
  have hinit : stringInit dst ptr = ⟨dst, (startPos ptr : Nat), false⟩ ∧ startPos ptr ≤ dst.length := by
    unfold stringInit startPos
    cases ptr with
    | none => simp
    | some p =>
      obtain ⟨h1, h2⟩ := hp p rfl
      have hd : decide (p - 1 < 0 ∨ (dst.length : Int) ≤ p - 1) = false := by
        rw [decide_eq_false_iff_not]
        omega
      simp only [hd, Option.getD_some, StrSt.mk.injEq, true_and, and_true]
      omega
  unfold stringStmt
  rw [hinit.1, string_fold srcs dst _ hinit.2]

/-- C21: with a POINTER outside the receiver nothing is transferred, the pointer keeps its value
and overflow is raised. -/
theorem C21_bad_pointer (dst : List Nat) (p : Int) (srcs : List (Option (List Nat) × List Nat))
    (hp : ¬ PointerOk (some p) dst.length) : stringStmt dst (some p) srcs = (dst, some p, true) := by
  have hd : decide (p - 1 < 0 ∨ (dst.length : Int) ≤ p - 1) = true := by
    rw [decide_eq_true_eq]
    by_contra h
    apply hp
    intro q hq
    cases hq
    omega
  unfold stringStmt
  rw [string_exc _ _ (by simp only [stringInit]; exact hd)]
  simp only [stringInit, hd, Option.map_some, Int.sub_add_cancel]

/-- "AB CD" DELIMITED BY SPACE, "XYZ" by size, into 6 bytes from position 3. -/
example : stringStmt [46, 46, 46, 46, 46, 46] (some 3) [(some [32], [65, 66, 32, 67, 68]), (none, [88, 89, 90])] =
    ([46, 46, 65, 66, 88, 89], some 7, true) := by decide

/-! ### UNSTRING -/

theorem delimAt_spec (A T : List Nat) (ds : List (List Nat × Bool)) :
    delimAt (A ++ T) A.length ds = delimHead ds T := by
  induction ds with
  | nil => rfl
  | cons d ds ih =>
    unfold delimAt delimHead
    rw [List.find?_cons]
    by_cases hroom : d.1.length ≤ T.length
    · rw [if_pos (by simp; omega)]
      have hs := slice_mid A T [] d.1.length hroom
      rw [List.append_nil] at hs
      rw [hs]
      by_cases hp : T.take d.1.length = d.1
      · rw [if_pos hp, decide_eq_true (prefix_take.mpr hp)]
      · rw [if_neg hp, decide_eq_false (fun h => hp (prefix_take.mp h))]
        exact ih
    · rw [if_neg (by simp; omega), decide_eq_false (fun h => hroom h.length_le)]
      exact ih

theorem scan_spec (ds : List (List Nat × Bool)) (fuel : Nat) : ∀ (A T : List Nat), T.length < fuel →
    scanDelim (A ++ T) ds fuel A.length =
      (cutAt ds T).2.map (fun d => (A.length + (cutAt ds T).1.length, d)) := by
  induction fuel with
  | zero => intro A T h; omega
  | succ fuel ih =>
    intro A T hf
    unfold scanDelim
    cases T with
    | nil => simp [cutAt]
    | cons c T =>
      rw [if_pos (by simp), delimAt_spec]
      cases hd : delimHead ds (c :: T) with
      | some d => simp [cutAt, hd]
      | none =>
        have := ih (A ++ [c]) T (by simp at hf; omega)
        rw [List.length_append, List.length_singleton] at this
        rw [show A ++ c :: T = (A ++ [c]) ++ T by simp]
        simp only
        rw [this]
        simp only [cutAt, hd, List.length_cons]
        congr 1
        funext d
        congr 1
        omega

theorem cutAt_none (ds : List (List Nat × Bool)) (T : List Nat) (h : (cutAt ds T).2 = none) : (cutAt ds T).1 = T := by
  induction T with
  | nil => rfl
  | cons c T ih =>
    unfold cutAt at h ⊢
    cases hd : delimHead ds (c :: T) with
    | some d => rw [hd] at h; simp at h
    | none =>
      rw [hd] at h
      simp only at h ⊢
      rw [ih h]

theorem delimHead_some {ds : List (List Nat × Bool)} {T : List Nat} {d : List Nat × Bool} (h : delimHead ds T = some d) :
    d ∈ ds ∧ d.1 <+: T := by
  unfold delimHead at h
  have h1 := List.mem_of_find?_eq_some h
  have h2 := List.find?_some h
  exact ⟨h1, by simpa using h2⟩

theorem cutAt_some (ds : List (List Nat × Bool)) (T : List Nat) (d : List Nat × Bool) (h : (cutAt ds T).2 = some d) :
    d ∈ ds ∧ ∃ post, T = (cutAt ds T).1 ++ d.1 ++ post := by
  induction T with
  | nil => simp [cutAt] at h
  | cons c T ih =>
    unfold cutAt at h ⊢
    cases hd : delimHead ds (c :: T) with
    | some d' =>
      rw [hd] at h
      simp only [Option.some.injEq] at h
      subst h
      obtain ⟨h1, x, hx⟩ := delimHead_some hd
      exact ⟨h1, x, by simpa using hx.symm⟩
    | none =>
      rw [hd] at h
      simp only at h ⊢
      obtain ⟨h1, post, hpost⟩ := ih h
      refine ⟨h1, post, ?_⟩
      conv_lhs => rw [hpost]
      simp

theorem countLeading_skip (d : List Nat) (k : Nat) (T : List Nat) (h : k ≤ T.length) :
    countLeading d k T = countLeading d 0 (T.drop k) := by
  induction k generalizing T with
  | zero => rfl
  | succ k ih =>
    cases T with
    | nil => simp at h
    | cons c T =>
      rw [countLeading.eq_def]
      simp only [List.drop_succ_cons]
      exact ih T (by simpa using h)

theorem countLeading_step (d T : List Nat) (hd : d ≠ []) :
    countLeading d 0 T = if d <+: T then 1 + countLeading d 0 (T.drop d.length) else 0 := by
  have hpos := List.length_pos_iff.mpr hd
  cases T with
  | nil =>
    rw [if_neg]
    · simp [countLeading]
    · intro h; have := h.length_le; simp only [List.length_nil] at this; omega
  | cons c T =>
    rw [countLeading.eq_def]
    simp only
    by_cases hp : d <+: c :: T
    · have := hp.length_le
      simp only [List.length_cons] at this
      rw [if_pos hp, if_pos hp, countLeading_skip _ _ _ (by omega)]
      congr 2
      obtain ⟨e, he⟩ : ∃ e, d.length = e + 1 := ⟨d.length - 1, by omega⟩
      rw [he]
      simp
    · rw [if_neg hp, if_neg hp]

theorem skipAll_spec (d : List Nat) (hd : d ≠ []) (fuel : Nat) : ∀ (A T : List Nat), T.length < fuel →
    skipAllDelim (A ++ T) d fuel A.length = countLeading d 0 T * d.length := by
  have hpos := List.length_pos_iff.mpr hd
  induction fuel with
  | zero => intro A T h; omega
  | succ fuel ih =>
    intro A T hf
    unfold skipAllDelim
    rw [countLeading_step d T hd]
    by_cases hroom : d.length ≤ T.length
    · rw [if_pos (by simp; omega), if_pos (by simp; omega)]
      have hs := slice_mid A T [] d.length hroom
      rw [List.append_nil] at hs
      rw [hs]
      by_cases hp : T.take d.length = d
      · rw [if_pos hp, if_pos (prefix_take.mpr hp)]
        have := ih (A ++ T.take d.length) (T.drop d.length) (by simp; omega)
        rw [List.append_assoc, List.take_append_drop, List.length_append, List.length_take, Nat.min_eq_left hroom] at this
        rw [this, Nat.add_mul]
        omega
      · rw [if_neg hp, if_neg (fun h => hp (prefix_take.mp h))]
        simp
    · rw [if_neg (fun h : d <+: T => hroom h.length_le)]
      have hn : ¬ (A.length + d.length ≤ (A ++ T).length) := by simp; omega
      rw [if_neg hn]
      simp

theorem countLeading_le (d : List Nat) (hd : d ≠ []) (fuel : Nat) : ∀ T : List Nat, T.length < fuel →
    countLeading d 0 T * d.length ≤ T.length := by
  have hpos := List.length_pos_iff.mpr hd
  induction fuel with
  | zero => intro T h; omega
  | succ fuel ih =>
    intro T hf
    rw [countLeading_step d T hd]
    split
    · rename_i hp
      have h1 := hp.length_le
      have := ih (T.drop d.length) (by simp; omega)
      rw [List.length_drop] at this
      rw [Nat.add_mul]
      omega
    · simp

theorem into_end (ds : List (List Nat × Bool)) (sizes : List Nat) (s : UnSt) (h : s.exc = true ∨ (s.src.length : Int) ≤ s.off) :
    unstringGo ds s sizes = (s, List.replicate sizes.length none) := by
  induction sizes with
  | nil => rfl
  | cons n ns ih =>
    have : unstringInto ds s n = (s, none) := by
      unfold unstringInto
      rcases h with h | h
      · rw [if_pos h]
      · by_cases he : s.exc = true
        · rw [if_pos he]
        · rw [if_neg he, if_pos h]
    simp only [unstringGo, this, ih]
    simp [List.replicate_succ]

theorem unstring_go (ds : List (List Nat × Bool)) (hne : ds ≠ []) (hds : ∀ d ∈ ds, d.1 ≠ []) (sizes : List Nat) :
    ∀ (A T : List Nat) (cnt : Nat),
    unstringGo ds ⟨A ++ T, A.length, cnt, false⟩ sizes =
      (⟨A ++ T, ((A.length + T.length - (splitText ds sizes.length T).2.length : Nat) : Int),
          cnt + (splitText ds sizes.length T).1.length, false⟩,
        (splitText ds sizes.length T).1.map some ++
          List.replicate (sizes.length - (splitText ds sizes.length T).1.length) none) ∧
    (splitText ds sizes.length T).2.length ≤ T.length ∧ (splitText ds sizes.length T).1.length ≤ sizes.length := by
  induction sizes with
  | nil =>
    intro A T cnt
    refine ⟨?_, by simp [splitText], by simp [splitText]⟩
    simp [unstringGo, splitText]
  | cons n ns ih =>
    intro A T cnt
    cases T with
    | nil =>
      refine ⟨?_, by simp [splitText], by simp [splitText]⟩
      rw [into_end _ _ _ (Or.inr (by simp))]
      simp [splitText]
    | cons c T =>
      have hemp : ds.isEmpty = false := by
        cases ds with
        | nil => exact absurd rfl hne
        | cons => rfl
      have hscan := scan_spec ds ((A ++ c :: T).length + 1) A (c :: T) (by simp; omega)
      cases hcut : (cutAt ds (c :: T)).2 with
      | none =>
        have hw := cutAt_none ds (c :: T) hcut
        rw [hcut] at hscan
        have hinto : unstringInto ds ⟨A ++ c :: T, A.length, cnt, false⟩ n =
            (⟨A ++ c :: T, ((A ++ c :: T).length : Int), cnt + 1, false⟩, some ⟨c :: T, none⟩) := by
          unfold unstringInto
          simp only [Bool.false_eq_true, if_false, hemp, Int.toNat_natCast]
          rw [if_neg (by simp), hscan]
          simp only [Option.map_none]
          have hs := slice_mid A (c :: T) [] ((A ++ c :: T).length - A.length) (by simp)
          rw [List.append_nil] at hs
          rw [hs, List.take_of_length_le (by simp)]
        have hsplit : splitText ds (n :: ns).length (c :: T) = ([⟨c :: T, none⟩], []) := by
          simp only [List.length_cons, splitText]
          have : cutAt ds (c :: T) = (c :: T, none) := Prod.ext hw hcut
          rw [this]
        rw [hsplit]
        refine ⟨?_, by simp, by simp⟩
        simp only [unstringGo, hinto]
        rw [into_end _ _ _ (Or.inr (le_refl _))]
        simp
      | some d =>
        obtain ⟨dl, all⟩ := d
        obtain ⟨hmem, post, hpost⟩ := cutAt_some ds (c :: T) (dl, all) hcut
        have hdl : dl ≠ [] := hds _ hmem
        simp only at hpost
        generalize hw : (cutAt ds (c :: T)).1 = w at hpost hscan
        rw [hcut] at hscan
        have hcut2 : cutAt ds (c :: T) = (w, some (dl, all)) := Prod.ext hw hcut
        -- the rest after the delimiter(s)
        have hdrop : (c :: T).drop (w.length + dl.length) = post := by
          rw [hpost, List.drop_append, List.drop_of_length_le (by simp)]
          simp
        set ex := if all then countLeading dl 0 post * dl.length else 0 with hex
        have hexle : ex ≤ post.length := by
          rw [hex]
          split
          · exact countLeading_le dl hdl (post.length + 1) post (by omega)
          · omega
        have hskip : (if all then skipAllDelim (A ++ c :: T) dl ((A ++ c :: T).length + 1) (A.length + w.length + dl.length) else 0) = ex := by
          rw [hex]
          split
          · have := skipAll_spec dl hdl ((A ++ c :: T).length + 1) (A ++ w ++ dl) post (by
              have := congrArg List.length hpost
              simp only [List.length_append, List.length_cons] at this ⊢
              omega)
            rw [show A ++ w ++ dl ++ post = A ++ c :: T by rw [hpost]; simp] at this
            rw [show (A ++ w ++ dl).length = A.length + w.length + dl.length by simp [Nat.add_assoc]] at this
            exact this
          · rfl
        have hlenT := congrArg List.length hpost
        simp only [List.length_append, List.length_cons] at hlenT
        have hinto : unstringInto ds ⟨A ++ c :: T, A.length, cnt, false⟩ n =
            (⟨A ++ c :: T, ((A ++ w ++ dl ++ post.take ex).length : Int), cnt + 1, false⟩, some ⟨w, some dl⟩) := by
          unfold unstringInto
          simp only [Bool.false_eq_true, if_false, hemp, Int.toNat_natCast]
          rw [if_neg (by simp), hscan]
          simp only [Option.map_some]
          rw [hskip]
          have hs := slice_mid A (c :: T) [] (A.length + w.length - A.length) (by simp only [List.length_cons]; omega)
          rw [List.append_nil] at hs
          rw [hs]
          have htake : (c :: T).take (A.length + w.length - A.length) = w := by
            rw [hpost, Nat.add_sub_cancel_left, List.append_assoc, List.take_left]
          rw [htake]
          simp only [Prod.mk.injEq, UnSt.mk.injEq, and_true, true_and]
          simp only [List.length_append, List.length_take, Nat.min_eq_left hexle]
          push_cast
          omega
        have hrest : (if all then post.drop (countLeading dl 0 post * dl.length) else post) = post.drop ex := by
          rw [hex]; split <;> simp
        have hsplit : splitText ds (n :: ns).length (c :: T) =
            (⟨w, some dl⟩ :: (splitText ds ns.length (post.drop ex)).1, (splitText ds ns.length (post.drop ex)).2) := by
          simp only [List.length_cons, splitText]
          rw [hcut2]
          simp only [hdrop]
          rw [hrest]
        have hsplitT : A ++ c :: T = (A ++ w ++ dl ++ post.take ex) ++ post.drop ex := by
          rw [List.append_assoc (A ++ w ++ dl), List.take_append_drop, hpost]
          simp
        obtain ⟨g1, g2, g3⟩ := ih (A ++ w ++ dl ++ post.take ex) (post.drop ex) (cnt + 1)
        rw [hsplit]
        refine ⟨?_, ?_, ?_⟩
        · simp only [unstringGo, hinto]
          rw [← hsplitT] at g1
          rw [g1]
          simp only [List.length_cons]
          refine Prod.ext ?_ ?_
          · simp only [UnSt.mk.injEq, true_and, and_true]
            refine ⟨?_, by omega⟩
            simp only [List.length_append, List.length_take, Nat.min_eq_left hexle, List.length_drop] at g2 ⊢
            congr 1
            omega
          · simp
        · simp only
          rw [List.length_drop] at g2
          simp only [List.length_cons]
          omega
        · simp only [List.length_cons]
          omega

theorem un_init (src : List Nat) (ptr : Option Int) (hp : PointerOk ptr src.length) :
    unstringInit src ptr = ⟨src.take (startPos ptr) ++ src.drop (startPos ptr), (src.take (startPos ptr)).length, 0, false⟩ ∧
    startPos ptr ≤ src.length := by
  unfold unstringInit startPos
  rw [List.take_append_drop]
  cases ptr with
  | none => simp
  | some p =>
    obtain ⟨h1, h2⟩ := hp p rfl
    have hd : decide (p - 1 < 0 ∨ (src.length : Int) ≤ p - 1) = false := by
      rw [decide_eq_false_iff_not]
      omega
    simp only [hd, Option.getD_some, UnSt.mk.injEq, true_and, and_true, List.length_take]
    omega

/-- C22: UNSTRING DELIMITED BY (one or more non-empty delimiters, each with or without ALL): the text from the
pointer is split as specified by `splitText`, the i-th receiver getting the i-th piece; receivers
beyond the pieces are not touched; the pointer ends at the first character not consumed; the tally
is the number of pieces; overflow is raised exactly when text is left over. -/
theorem C22_unstring (src : List Nat) (ptr : Option Int) (hp : PointerOk ptr src.length)
    (ds : List (List Nat × Bool)) (hne : ds ≠ []) (hds : ∀ d ∈ ds, d.1 ≠ []) (sizes : List Nat) :
    let r := splitText ds sizes.length (src.drop (startPos ptr))
    unstringStmt src ptr ds sizes =
      ⟨r.1.map some ++ List.replicate (sizes.length - r.1.length) none,
        ptr.map (fun _ => ((src.length - r.2.length : Nat) : Int) + 1), r.1.length, decide (r.2 ≠ [])⟩ := by
  intro r
  obtain ⟨h1, h2⟩ := un_init src ptr hp
  unfold unstringStmt
  obtain ⟨g1, g2, g3⟩ := unstring_go ds hne hds sizes (src.take (startPos ptr)) (src.drop (startPos ptr)) 0
  rw [h1, g1]
  have hl : (src.take (startPos ptr)).length + (src.drop (startPos ptr)).length = src.length := by simp; omega
  simp only [List.take_append_drop, hl, Bool.false_or, Nat.zero_add]
  simp only [List.length_drop] at g2
  have hr2 : ((((src.length - r.2.length : Nat) : Int) < src.length)) ↔ r.2 ≠ [] := by
    have g2' : r.2.length ≤ src.length - startPos ptr := g2
    constructor
    · intro h hnil
      rw [hnil] at h
      simp at h
    · intro h
      have := List.length_pos_iff.mpr h
      omega
  change UnRes.mk (r.1.map some ++ List.replicate (sizes.length - r.1.length) none) _ r.1.length
    (decide ((((src.length - r.2.length : Nat) : Int) < src.length))) = _
  rw [decide_eq_decide.mpr hr2]

/-- C22: without DELIMITED BY, each receiver gets as many characters as it holds. -/
theorem C22_by_size (src : List Nat) (ptr : Option Int) (hp : PointerOk ptr src.length) (sizes : List Nat)
    (hs : ∀ n ∈ sizes, 0 < n) :
    let r := chopText sizes (src.drop (startPos ptr))
    unstringStmt src ptr [] sizes =
      ⟨r.1.map some ++ List.replicate (sizes.length - r.1.length) none,
        ptr.map (fun _ => ((src.length - r.2.length : Nat) : Int) + 1), r.1.length, decide (r.2 ≠ [])⟩ := by
  have key : ∀ (sizes : List Nat) (A T : List Nat) (cnt : Nat), (∀ n ∈ sizes, 0 < n) →
      unstringGo [] ⟨A ++ T, A.length, cnt, false⟩ sizes =
      (⟨A ++ T, ((A.length + T.length - (chopText sizes T).2.length : Nat) : Int), cnt + (chopText sizes T).1.length, false⟩,
        (chopText sizes T).1.map some ++ List.replicate (sizes.length - (chopText sizes T).1.length) none) ∧
      (chopText sizes T).2.length ≤ T.length := by
    intro sizes
    induction sizes with
    | nil => intro A T cnt _; simp [unstringGo, chopText]
    | cons n ns ih =>
      intro A T cnt hpos
      cases T with
      | nil =>
        rw [into_end _ _ _ (Or.inr (by simp))]
        simp [chopText]
      | cons c T =>
        obtain ⟨g1, g2⟩ := ih (A ++ (c :: T).take n) ((c :: T).drop n) (cnt + 1) (fun m hm => hpos m (by simp [hm]))
        have hmin : min n (A ++ c :: T).length = min n (A ++ c :: T).length := rfl
        have hlen : (A ++ c :: T).length - A.length = (c :: T).length := by simp
        have hinto : unstringInto [] ⟨A ++ c :: T, A.length, cnt, false⟩ n =
            (⟨A ++ c :: T, ((A ++ (c :: T).take n).length : Int), cnt + 1, false⟩, some ⟨(c :: T).take n, none⟩) := by
          unfold unstringInto
          simp only [Bool.false_eq_true, if_false, Int.toNat_natCast, List.isEmpty_nil, if_true]
          rw [if_neg (by simp), hlen]
          have hs := slice_mid A (c :: T) [] (min n (c :: T).length) (by omega)
          rw [List.append_nil] at hs
          rw [hs]
          have ht : (c :: T).take (min n (c :: T).length) = (c :: T).take n := by
            rcases Nat.le_total n (c :: T).length with h | h
            · rw [Nat.min_eq_left h]
            · rw [Nat.min_eq_right h, List.take_of_length_le (le_refl _), List.take_of_length_le h]
          rw [ht]
          simp
        simp only [unstringGo, hinto, chopText]
        rw [List.append_assoc, List.take_append_drop] at g1
        rw [g1]
        refine ⟨?_, ?_⟩
        · refine Prod.ext ?_ ?_
          · simp only [UnSt.mk.injEq, true_and, and_true, List.length_cons]
            refine ⟨?_, by omega⟩
            simp only [List.length_append, List.length_take, List.length_drop, List.length_cons] at g2 ⊢
            congr 1
            omega
          · simp
        · simp only [List.length_drop] at g2
          omega
  intro r
  obtain ⟨h1, h2⟩ := un_init src ptr hp
  unfold unstringStmt
  obtain ⟨g1, g2⟩ := key sizes (src.take (startPos ptr)) (src.drop (startPos ptr)) 0 hs
  rw [h1, g1]
  have hl : (src.take (startPos ptr)).length + (src.drop (startPos ptr)).length = src.length := by simp; omega
  simp only [List.take_append_drop, hl, Bool.false_or, Nat.zero_add]
  simp only [List.length_drop] at g2
  have hr2 : ((((src.length - r.2.length : Nat) : Int) < src.length)) ↔ r.2 ≠ [] := by
    have g2' : r.2.length ≤ src.length - startPos ptr := g2
    constructor
    · intro h hnil
      rw [hnil] at h
      simp at h
    · intro h
      have := List.length_pos_iff.mpr h
      omega
  change UnRes.mk (r.1.map some ++ List.replicate (sizes.length - r.1.length) none) _ r.1.length
    (decide ((((src.length - r.2.length : Nat) : Int) < src.length))) = _
  rw [decide_eq_decide.mpr hr2]

/-- C22: a POINTER outside the source: no receiver is touched, the pointer and tally keep their
value, overflow is raised. -/
theorem C22_bad_pointer (src : List Nat) (p : Int) (ds : List (List Nat × Bool)) (sizes : List Nat)
    (hp : ¬ PointerOk (some p) src.length) :
    unstringStmt src (some p) ds sizes = ⟨List.replicate sizes.length none, some p, 0, true⟩ := by
  have hd : decide (p - 1 < 0 ∨ (src.length : Int) ≤ p - 1) = true := by
    rw [decide_eq_true_eq]
    by_contra h
    apply hp
    intro q hq
    cases hq
    omega
  unfold unstringStmt
  rw [into_end _ _ _ (Or.inl (by simp only [unstringInit]; exact hd))]
  simp only [unstringInit, hd, Option.map_some, Int.sub_add_cancel, Bool.true_or]

/-- C22: no delimiter begins inside a piece, and the pieces with the delimiters found (repeated if
ALL) and the rest make up the text again. -/
theorem C22_pieces (ds : List (List Nat × Bool)) (n : Nat) : ∀ T : List Nat,
    (∃ reps : List Nat, reps.length = (splitText ds n T).1.length ∧
      T = ((List.zipWith (fun (p : Piece) k => p.text ++ (List.replicate k (p.delim.getD [])).flatten) (splitText ds n T).1 reps).flatten)
        ++ (splitText ds n T).2 ∧
      ((∀ d ∈ ds, d.2 = false) → ∀ k ∈ reps, k = 1)) ∧
    (∀ p ∈ (splitText ds n T).1, ∀ d ∈ ds, ∀ i < p.text.length, d.1 ≠ [] → ¬ (d.1 <+: p.text.drop i)) := by
  have nodelim : ∀ T : List Nat, ∀ d ∈ ds, ∀ i < (cutAt ds T).1.length, ¬ (d.1 <+: T.drop i) := by
    intro T
    induction T with
    | nil => intro d _ i hi; simp [cutAt] at hi
    | cons c T ih =>
      intro d hd i hi
      unfold cutAt at hi
      cases hh : delimHead ds (c :: T) with
      | some e => rw [hh] at hi; simp at hi
      | none =>
        rw [hh] at hi
        simp only [List.length_cons] at hi
        cases i with
        | zero =>
          unfold delimHead at hh
          rw [List.find?_eq_none] at hh
          have := hh d hd
          simpa using this
        | succ i => exact ih d hd i (by omega)
  have cutpre : ∀ T : List Nat, (cutAt ds T).1 <+: T := by
    intro T
    induction T with
    | nil => simp [cutAt]
    | cons c T ih =>
      unfold cutAt
      cases delimHead ds (c :: T) with
      | some e => simp
      | none => exact List.cons_prefix_cons.mpr ⟨rfl, ih⟩
  induction n with
  | zero => intro T; exact ⟨⟨[], by simp [splitText], by simp [splitText], by simp⟩, by simp [splitText]⟩
  | succ n ih =>
    intro T
    cases T with
    | nil => exact ⟨⟨[], by simp [splitText], by simp [splitText], by simp⟩, by simp [splitText]⟩
    | cons c T =>
      have hinside : ∀ d ∈ ds, ∀ i < (cutAt ds (c :: T)).1.length, ¬ (d.1 <+: (cutAt ds (c :: T)).1.drop i) := by
        intro d hd i hi hpre
        apply nodelim (c :: T) d hd i hi
        obtain ⟨x, hx⟩ := cutpre (c :: T)
        rw [← hx, List.drop_append_of_le_length (by omega)]
        exact hpre.trans (List.prefix_append _ _)
      cases hcut : (cutAt ds (c :: T)).2 with
      | none =>
        have hw := cutAt_none ds (c :: T) hcut
        have hsplit : splitText ds (n + 1) (c :: T) = ([⟨c :: T, none⟩], []) := by
          simp only [splitText]
          rw [show cutAt ds (c :: T) = (c :: T, none) from Prod.ext hw hcut]
        rw [hsplit]
        refine ⟨⟨[1], by simp, by simp, by simp⟩, ?_⟩
        intro p hpm d hd i hi _
        rw [List.mem_singleton] at hpm
        subst hpm
        rw [hw] at hinside
        exact hinside d hd i hi
      | some d =>
        obtain ⟨dl, all⟩ := d
        obtain ⟨hmem, post, hpost⟩ := cutAt_some ds (c :: T) (dl, all) hcut
        simp only at hpost
        generalize hw : (cutAt ds (c :: T)).1 = w at hpost hinside
        have hdrop : (c :: T).drop (w.length + dl.length) = post := by
          rw [hpost, List.drop_append, List.drop_of_length_le (by simp)]
          simp
        have hlead : ∀ (fuel : Nat) (X : List Nat), X.length < fuel → dl ≠ [] →
            X = (List.replicate (countLeading dl 0 X) dl).flatten ++ X.drop (countLeading dl 0 X * dl.length) := by
          intro fuel
          induction fuel with
          | zero => intro X h _; omega
          | succ fuel ih2 =>
            intro X hX hdl
            rw [countLeading_step dl X hdl]
            split
            · rename_i hpre
              obtain ⟨y, hy⟩ := hpre
              have hpos := List.length_pos_iff.mpr hdl
              have hXl := congrArg List.length hy
              simp only [List.length_append] at hXl
              have hyd : X.drop dl.length = y := by rw [← hy, List.drop_left]
              rw [hyd]
              have := ih2 y (by omega) hdl
              rw [Nat.add_comm 1, List.replicate_succ, List.flatten_cons, Nat.add_mul, Nat.one_mul, Nat.add_comm _ dl.length,
                ← List.drop_drop, hyd, List.append_assoc, ← this, hy]
            · simp
        obtain ⟨k, hk1, hk2⟩ : ∃ k, post = (List.replicate k dl).flatten ++
            (if all then post.drop (countLeading dl 0 post * dl.length) else post) ∧ (all = false → k = 0) := by
          cases all with
          | false => exact ⟨0, by simp, fun _ => rfl⟩
          | true =>
            by_cases hdl : dl = []
            · subst hdl; exact ⟨0, by simp, by simp⟩
            · exact ⟨countLeading dl 0 post, by simpa using hlead (post.length + 1) post (by omega) hdl, by simp⟩
        generalize hpost' : (if all then post.drop (countLeading dl 0 post * dl.length) else post) = post' at hk1
        have hsplit : splitText ds (n + 1) (c :: T) = (⟨w, some dl⟩ :: (splitText ds n post').1, (splitText ds n post').2) := by
          simp only [splitText]
          rw [show cutAt ds (c :: T) = (w, some (dl, all)) from Prod.ext hw hcut]
          simp only [hdrop]
          rw [hpost']
        obtain ⟨⟨reps, r1, r2, r3⟩, r4⟩ := ih post'
        rw [hsplit]
        refine ⟨⟨(k + 1) :: reps, by simp [r1], ?_, ?_⟩, ?_⟩
        · simp only [List.zipWith_cons_cons, List.flatten_cons, Option.getD_some]
          rw [List.append_assoc, ← r2, List.replicate_succ, List.flatten_cons, List.append_assoc, List.append_assoc, ← hk1, hpost,
            List.append_assoc]
        · intro hall j hj
          rcases List.mem_cons.mp hj with h | h
          · rw [h, hk2 (hall _ hmem)]
          · exact r3 hall j h
        · intro p hpm d hd i hi hne
          rcases List.mem_cons.mp hpm with h | h
          · subst h; exact hinside d hd i hi
          · exact r4 p h d hd i hi hne

/-- "A,,B;C" DELIMITED BY ALL "," OR ";" into three receivers, with a pointer. -/
example : unstringStmt [65, 44, 44, 66, 59, 67] (some 1) [([44], true), ([59], false)] [3, 3, 3, 3] =
    ⟨[some ⟨[65], some [44]⟩, some ⟨[66], some [59]⟩, some ⟨[67], none⟩, none], some 7, 3, false⟩ := by decide

/-- C22: what the receivers contain: the piece (or delimiter) left justified with space fill. -/
theorem C22_receiver (p : Piece) (n i : Nat) (hi : i < n) :
    (pieceInto p n)[i]? = some (if h : i < p.text.length then p.text[i] else 32) ∧
    (delimInto p n)[i]? = some (if h : i < (p.delim.getD []).length then (p.delim.getD [])[i] else 32) := by
  have key : ∀ src : List Nat, (moveAlnum false src n)[i]? = some (if h : i < src.length then src[i] else 32) := by
    intro src
    unfold moveAlnum
    simp only [Bool.false_eq_true, if_false]
    split
    · rw [List.getElem?_take, if_pos hi, dif_pos (by omega), List.getElem?_eq_getElem]
    · by_cases hlt : i < src.length
      · rw [List.getElem?_append_left hlt, dif_pos hlt, List.getElem?_eq_getElem]
      · rw [List.getElem?_append_right (by omega), dif_neg hlt, List.getElem?_replicate, if_pos (by omega)]
  exact ⟨key _, key _⟩

end Cob
