import Verif.Cobc.Conf
/-
C87: configuration files - specification and lemmas.
-/
namespace Cob.Conf

/-! ### Specification -/

/-- What stands between a tag and its value: blanks, tabs, colons, equal signs. -/
def Sep (c : Nat) : Prop := c = 32 ∨ c = 9 ∨ c = 58 ∨ c = 61
/-- White space at the end of a line. -/
def White (c : Nat) : Prop := c = 32 ∨ c = 9 ∨ c = 13 ∨ c = 10

/-- A comment line, or one without a visible character. -/
def Skipped (l : List Nat) : Prop := l.head? = some 35 ∨ ∀ c ∈ l, ¬ (33 ≤ c ∧ c ≤ 126)

/-- The line is the tag, separators, the value and white space. -/
def Splits (l tag value : List Nat) : Prop :=
  ∃ sep white, l = tag ++ sep ++ value ++ white ∧ (∀ c ∈ tag, ¬ Sep c) ∧ sep ≠ [] ∧ (∀ c ∈ sep, Sep c) ∧ (∀ c ∈ white, White c) ∧
    (∀ c, value.head? = some c → ¬ Sep c) ∧ ∀ c, value.getLast? = some c → ¬ White c

/-- The text in a value that may stand in quotation marks. -/
def Quoted (t s : List Nat) : Prop :=
  34 ∉ s ∧ ∃ q r, t = q ++ s ++ r ∧ (q = [34] ∨ (q = [] ∧ t.head? ≠ some 34)) ∧ (r = [] ∨ r.head? = some 34)

/-- The values with names: tag, name, meaning. -/
def named : List (String × String × String) := [
  ("assign-clause", "mf", "CB_ASSIGN_MF"), ("assign-clause", "ibm", "CB_ASSIGN_IBM"), ("assign-clause", "jph1", "CB_ASSIGN_JPH1"),
  ("binary-size", "2-4-8", "CB_BINARY_SIZE_2_4_8"), ("binary-size", "1-2-4-8", "CB_BINARY_SIZE_1_2_4_8"), ("binary-size", "1--8", "CB_BINARY_SIZE_1__8"),
  ("binary-byteorder", "native", "CB_BYTEORDER_NATIVE"), ("binary-byteorder", "big-endian", "CB_BYTEORDER_BIG_ENDIAN"),
  ("abort-on-io-exception", "any", "CB_ABORT_ON_IO_ANY"), ("abort-on-io-exception", "fatal", "CB_ABORT_ON_IO_FATAL"),
  ("abort-on-io-exception", "never", "CB_ABORT_ON_IO_NEVER"),
  ("default-organization", "record-sequential", "CB_ORG_RECORD_SEQUENTIAL"), ("default-organization", "line-sequential", "CB_ORG_LINE_SEQUENTIAL")]

/-- The values of a setting for which the standard or a dialect differs: name, meaning. -/
def supports : List (String × String) := [
  ("ok", "CB_OK"), ("warning", "CB_WARNING"), ("archaic", "CB_ARCHAIC"), ("obsolete", "CB_OBSOLETE"), ("skip", "CB_SKIP"), ("ignore", "CB_IGNORE"),
  ("error", "CB_ERROR"), ("unconformable", "CB_UNCONFORMABLE")]

/-- The number that digits say, as far as 32 bits with sign hold it. -/
def number (ds : List Nat) : Int := int32 (min (decimal ds : Int) (2 ^ 63 - 1))

/-- `t` is a value of the setting `e`, with the meaning `v`. -/
inductive Means (e : Entry) (t : List Nat) : Val → Prop
  | any (a b c : String) : e.ty = .any → (a, b, c) ∈ named → e.name = str a → t = str b → Means e t (.choice c)
  | int : e.ty = .int → (∀ c ∈ t, 48 ≤ c ∧ c ≤ 57) → Means e t (.int (number t))
  | text (s : List Nat) : e.ty = .str → Quoted t s → Means e t (.text s)
  | char (c : Nat) : e.ty = .chr → t = [c] → Means e t (.char c)
  | yes : e.ty = .bool → t = str "yes" → Means e t (.int 1)
  | no : e.ty = .bool → t = str "no" → Means e t (.int 0)
  | support (a b : String) : e.ty = .support → (a, b) ∈ supports → t = str a → Means e t (.choice b)

/-- What a line says. -/
inductive Item where
  | set (tag : List Nat) (v : Val)
  | word (w : List Nat)
deriving DecidableEq

/-- A file of these lines, each with its newline (the last may be without), none too long or with a NUL. -/
inductive IsText : List Nat → List (List Nat) → Prop
  | nil : IsText [] []
  | last (l : List Nat) : l ≠ [] → 10 ∉ l → 0 ∉ l → l.length ≤ 1023 → IsText l [l]
  | line (l b : List Nat) (ls : List (List Nat)) : 10 ∉ l → 0 ∉ l → l.length ≤ 1022 → IsText b ls → IsText (l ++ [10] ++ b) ((l ++ [10]) :: ls)

/-- The lines say this, with the lines of the included files in the places of the includes, nested at most `d` deep. -/
inductive Reads (w : Files) : Nat → List (List Nat) → List Item → Prop
  | nil (d : Nat) : Reads w d [] []
  | skip (d : Nat) (l : List Nat) (r : List (List Nat)) (is : List Item) : Skipped l → Reads w d r is → Reads w d (l :: r) is
  | set (d : Nat) (l t : List Nat) (e : Entry) (v : Val) (r : List (List Nat)) (is : List Item) :
      e ∈ settings → Splits l e.name t → Means e t v → Reads w d r is → Reads w d (l :: r) (.set e.name v :: is)
  | word (d : Nat) (l t s : List Nat) (r : List (List Nat)) (is : List Item) :
      Splits l sNotReserved t → Quoted t s → Reads w d r is → Reads w d (l :: r) (.word s :: is)
  | incl (d : Nat) (l t f b : List Nat) (ls r : List (List Nat)) (is is' : List Item) :
      Splits l sInclude t → Quoted t f → w.read ((w.dir ++ [47] ++ f).take 1022) = some b → IsText b ls → Reads w d ls is →
      Reads w (d + 1) r is' → Reads w (d + 1) (l :: r) (is ++ is')

/-- The last value that was said for a tag. -/
def lastSet (is : List Item) (tag : List Nat) : Option Val :=
  is.reverse.findSome? fun
    | .set t v => if t = tag then some v else none
    | .word _ => none

/-- The words that were taken out, in order. -/
def words (is : List Item) : List (List Nat) := is.filterMap fun
  | .word w => some w
  | .set _ _ => none

/-! ### Values -/

theorem str_ne : str "assign-clause" ≠ str "binary-size" ∧ str "assign-clause" ≠ str "binary-byteorder" ∧
    str "assign-clause" ≠ str "abort-on-io-exception" ∧ str "assign-clause" ≠ str "default-organization" ∧
    str "binary-size" ≠ str "binary-byteorder" ∧ str "binary-size" ≠ str "abort-on-io-exception" ∧
    str "binary-size" ≠ str "default-organization" ∧ str "binary-byteorder" ≠ str "abort-on-io-exception" ∧
    str "binary-byteorder" ≠ str "default-organization" ∧ str "abort-on-io-exception" ≠ str "default-organization" := by decide +kernel

theorem named_right : ∀ p ∈ named, anyValue (str p.1) (str p.2.1) = good (.choice p.2.2) := by decide +kernel

theorem anyValue_only (name val : List Nat) (v : Val) (h : (anyValue name val).1 = some v) :
    ∃ a b c, (a, b, c) ∈ named ∧ name = str a ∧ val = str b ∧ v = .choice c := by
  unfold anyValue good bad at h
  repeat' split at h
  all_goals first
    | (exfalso; simp at h; done)
    | (rename_i h1 h2
       simp only [Option.some.injEq] at h
       subst h
       refine ⟨_, _, _, ?_, by assumption, by assumption, rfl⟩
       simp [named])

theorem anyValue_none (name val : List Nat) (hn : name = str "assign-clause" ∨ name = str "binary-size" ∨ name = str "binary-byteorder" ∨
    name = str "abort-on-io-exception" ∨ name = str "default-organization") (h : (anyValue name val).2 = none) :
    ∃ v, anyValue name val = (some v, none) := by
  unfold anyValue good bad at h ⊢
  repeat' split at h
  all_goals first
    | (exfalso; simp at h; done)
    | (simp_all; done)
    | (exfalso; rcases hn with hn | hn | hn | hn | hn <;> contradiction)

theorem readString_quoted (t s : List Nat) (h : Quoted t s) : readString t = s := by
  obtain ⟨hs, q, r, rfl, hq, hr⟩ := h
  unfold readString
  have hstep : ∀ s : List Nat, 34 ∉ s → (s ++ r).takeWhile (fun c => decide (c ≠ 34)) = s := by
    intro s
    induction s with
    | nil =>
      intro _
      rcases hr with rfl | hr
      · rfl
      · cases r with
        | nil => rfl
        | cons c r => simp only [List.head?_cons, Option.some.injEq] at hr; subst hr; simp
    | cons c s ih =>
      intro hn
      simp only [List.mem_cons, not_or] at hn
      simp only [List.cons_append, List.takeWhile_cons]
      rw [if_pos (by simp; omega), ih hn.2]
  rcases hq with rfl | ⟨rfl, hq⟩
  · rw [if_pos (by simp)]
    simpa using hstep s hs
  · rw [if_neg hq]
    simpa using hstep s hs

theorem quoted_readString (t : List Nat) : Quoted t (readString t) := by
  unfold Quoted readString
  have hmem : ∀ u : List Nat, 34 ∉ u.takeWhile (fun c => decide (c ≠ 34)) := by
    intro u
    induction u with
    | nil => simp
    | cons c u ih =>
      simp only [List.takeWhile_cons]
      split
      · rename_i hc
        simp only [List.mem_cons, not_or]
        exact ⟨fun h => by simp [← h] at hc, ih⟩
      · simp
  have hrest : ∀ u : List Nat, u.dropWhile (fun c => decide (c ≠ 34)) = [] ∨ (u.dropWhile (fun c => decide (c ≠ 34))).head? = some 34 := by
    intro u
    induction u with
    | nil => left; rfl
    | cons c u ih =>
      simp only [List.dropWhile_cons]
      split
      · exact ih
      · rename_i hc
        right
        simp only [List.head?_cons, Option.some.injEq]
        simpa using hc
  by_cases hq : t.head? = some 34
  · rw [if_pos hq]
    refine ⟨hmem _, [34], (t.drop 1).dropWhile (fun c => decide (c ≠ 34)), ?_, Or.inl rfl, hrest _⟩
    cases t with
    | nil => simp at hq
    | cons c t =>
      simp only [List.head?_cons, Option.some.injEq] at hq
      subst hq
      rw [List.append_assoc, List.takeWhile_append_dropWhile]
      rfl
  · rw [if_neg hq]
    refine ⟨hmem _, [], t.dropWhile (fun c => decide (c ≠ 34)), ?_, Or.inr ⟨rfl, hq⟩, hrest _⟩
    simp only [List.nil_append, List.takeWhile_append_dropWhile]

theorem quoted_unique (t s s' : List Nat) (h : Quoted t s) (h' : Quoted t s') : s = s' :=
  (readString_quoted t s h).symm.trans (readString_quoted t s' h')

theorem readString_twice (t : List Nat) : readString (readString t) = readString t := by
  apply readString_quoted
  have h := (quoted_readString t).1
  refine ⟨h, [], [], by simp, Or.inr ⟨rfl, ?_⟩, Or.inl rfl⟩
  intro hh
  cases hr : readString t with
  | nil => rw [hr] at hh; cases hh
  | cons c u => rw [hr] at hh h; simp only [List.head?_cons, Option.some.injEq] at hh; subst hh; simp at h

theorem atoi_digits (t : List Nat) (h : ∀ c ∈ t, 48 ≤ c ∧ c ≤ 57) : atoi t = number t := by
  unfold atoi number
  have h1 : t.dropWhile isSpace = t := by
    cases t with
    | nil => rfl
    | cons c t =>
      have := h c (by simp)
      rw [List.dropWhile_cons, if_neg]
      simp [isSpace]
      omega
  have h2 : ∀ u : List Nat, (∀ c ∈ u, 48 ≤ c ∧ c ≤ 57) → u.takeWhile isDigit = u := by
    intro u
    induction u with
    | nil => intro _; rfl
    | cons c u ih =>
      intro hu
      have := hu c (by simp)
      rw [List.takeWhile_cons, if_pos (by simp [isDigit]; omega), ih (fun c hc => hu c (by simp [hc]))]
  have h3 : t.head? ≠ some 45 ∧ t.head? ≠ some 43 := by
    cases t with
    | nil => simp
    | cons c t =>
      have := h c (by simp)
      simp only [List.head?_cons, ne_eq, Option.some.injEq]
      omega
  dsimp only
  rw [h1]
  simp only [h3.1, h3.2, or_self, if_false, h2 t h, decide_false, Bool.false_eq_true]

theorem supports_right : ∀ p ∈ supports, ∀ e : Entry, e.ty = .support → parse e (str p.1) = good (.choice p.2) := by
  intro p hp e he
  unfold parse
  rw [he]
  dsimp only
  revert p
  decide +kernel

theorem any_names : ∀ e ∈ settings, e.ty = .any → e.name = str "assign-clause" ∨ e.name = str "binary-size" ∨ e.name = str "binary-byteorder" ∨
    e.name = str "abort-on-io-exception" ∨ e.name = str "default-organization" := by decide +kernel

theorem parse_means (e : Entry) (t : List Nat) (v : Val) (h : Means e t v) : parse e t = (some v, none) := by
  cases h with
  | any a b c he hm hn ht =>
    unfold parse
    rw [he]
    dsimp only
    rw [hn, ht]
    exact named_right _ hm
  | int he hd =>
    unfold parse
    rw [he]
    dsimp only
    rw [atoi_digits t hd, if_pos]
    rw [List.all_eq_true]
    intro c hc
    have := hd c hc
    simp [isDigit]; omega
  | text s he hq =>
    unfold parse
    rw [he]
    dsimp only
    rw [readString_quoted t s hq]
    rfl
  | char c he ht =>
    unfold parse
    rw [he, ht]
    rfl
  | yes he ht =>
    unfold parse
    rw [he, ht]
    rfl
  | no he ht =>
    unfold parse
    rw [he, ht]
    dsimp only
    rw [if_neg (by decide +kernel), if_pos rfl]
    rfl
  | support a b he hm ht =>
    rw [ht]
    exact supports_right _ hm e he

theorem means_parse (e : Entry) (he : e ∈ settings) (t : List Nat) (h : (parse e t).2 = none) : ∃ v, Means e t v := by
  unfold parse at h
  cases hty : e.ty with
  | any =>
    rw [hty] at h
    dsimp only at h
    obtain ⟨v, hv⟩ := anyValue_none e.name t (any_names e he hty) h
    obtain ⟨a, b, c, h1, h2, h3, rfl⟩ := anyValue_only e.name t v (by rw [hv])
    exact ⟨_, .any a b c hty h1 h2 h3⟩
  | int =>
    rw [hty] at h
    dsimp only at h
    split at h
    · rename_i hd
      refine ⟨_, .int hty ?_⟩
      intro c hc
      have := (List.all_eq_true.mp hd) c hc
      simp [isDigit] at this
      omega
    · cases h
  | str => exact ⟨_, .text _ hty (quoted_readString t)⟩
  | chr =>
    rw [hty] at h
    dsimp only at h
    split at h
    · exact ⟨_, .char _ hty rfl⟩
    · cases h
  | bool =>
    rw [hty] at h
    dsimp only at h
    split at h
    · exact ⟨_, .yes hty (by assumption)⟩
    · split at h
      · exact ⟨_, .no hty (by assumption)⟩
      · cases h
  | support =>
    rw [hty] at h
    dsimp only at h
    have : ∃ a, t = str a ∧ ∃ b, (a, b) ∈ supports := by
      repeat' split at h
      all_goals first
        | (cases h; done)
        | (refine ⟨_, by assumption, ?_⟩; simp [supports])
    obtain ⟨a, h2, b, h1⟩ := this
    exact ⟨_, .support a b hty h1 h2⟩

end Cob.Conf
