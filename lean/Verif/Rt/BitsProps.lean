import Verif.Rt.Bits
import Mathlib.Tactic.SplitIfs
/-
C34: the bit routines.
-/
namespace Cob

/-- Every bit `j` of byte `i` of the target area is `f` of the bits of the two operands as they were
before the call, for the first `length` bytes, and all other storage is unchanged. -/
def BitwiseTo (f : Bool → Bool → Bool) (p1 p2 : Nat) (length : Int) (m m' : Mem) : Prop :=
  (∀ i j : Nat, (i : Int) < length → j < 8 →
    (m' (p2 + i)).getLsbD j = f ((m (p1 + i)).getLsbD j) ((m (p2 + i)).getLsbD j)) ∧
  (∀ a, (¬ ∃ i : Nat, (i : Int) < length ∧ a = p2 + i) → m' a = m a)

/-- The first operand does not begin in front of the second and reach into it. -/
def NoForwardOverlap (p1 p2 : Nat) (length : Int) : Prop :=
  p2 ≤ p1 ∨ (p1 : Int) + length ≤ p2

theorem bitLoop_spec (op : Byte → Byte → Byte) (p1 p2 len : Nat) (m0 : Mem)
    (hov : p2 ≤ p1 ∨ p1 + len ≤ p2) : ∀ k n m, n + k = len →
    (∀ i, i < n → m (p2 + i) = op (m0 (p1 + i)) (m0 (p2 + i))) →
    (∀ a, (a < p2 ∨ p2 + n ≤ a) → m a = m0 a) →
    (∀ i, i < len → bitLoop op p1 p2 k n m (p2 + i) = op (m0 (p1 + i)) (m0 (p2 + i))) ∧
    (∀ a, (a < p2 ∨ p2 + len ≤ a) → bitLoop op p1 p2 k n m a = m0 a)
  | 0, n, m, hk, h1, h2 => by
    have : n = len := by omega
    subst this
    exact ⟨h1, h2⟩
  | k + 1, n, m, hk, h1, h2 => by
    rw [bitLoop]
    refine bitLoop_spec op p1 p2 len m0 hov k (n + 1) _ (by omega) ?_ ?_
    · intro i hi
      unfold Mem.set
      rcases Nat.lt_or_ge i n with g | g
      · rw [if_neg (by omega)]
        exact h1 i g
      · have : i = n := by omega
        subst this
        rw [if_pos rfl, h2 (p1 + i) (by omega), h2 (p2 + i) (by omega)]
    · intro a ha
      unfold Mem.set
      rw [if_neg (by omega)]
      exact h2 a (by omega)

theorem cblBitOp_bitwise (op : Byte → Byte → Byte) (f : Bool → Bool → Bool)
    (hop : ∀ (a b : Byte) (j : Nat), j < 8 → (op a b).getLsbD j = f (a.getLsbD j) (b.getLsbD j))
    (p1 p2 : Nat) (length : Int) (m : Mem) (hov : NoForwardOverlap p1 p2 length) :
    BitwiseTo f p1 p2 length m (cblBitOp op p1 p2 length m) := by
  unfold cblBitOp
  split_ifs with h
  · exact ⟨fun i j hi => by omega, fun a _ => rfl⟩
  · have hov' : p2 ≤ p1 ∨ p1 + length.toNat ≤ p2 := by
      rcases hov with g | g
      · exact Or.inl g
      · exact Or.inr (by omega)
    obtain ⟨h1, h2⟩ := bitLoop_spec op p1 p2 length.toNat m hov' length.toNat 0 m (by omega)
      (fun i hi => by omega) (fun a _ => rfl)
    refine ⟨fun i j hi hj => ?_, fun a ha => ?_⟩
    · rw [h1 i (by omega)]
      exact hop _ _ j hj
    · refine h2 a ?_
      rcases Nat.lt_or_ge a p2 with g | g
      · exact Or.inl g
      · refine Or.inr (Nat.le_of_not_lt fun g2 => ha ⟨a - p2, by omega, by omega⟩)

/-- CBL_AND, CBL_OR, CBL_XOR, CBL_NOR, CBL_EQ, CBL_IMP and CBL_NIMP work bit by bit on the first
`length` bytes, for every length (none for a length of 0 or less) and all operands of which the
first does not begin in front of the second and overlap it. -/
theorem C34_binary (p1 p2 : Nat) (length : Int) (m : Mem) (hov : NoForwardOverlap p1 p2 length) :
    BitwiseTo (fun a b => a && b) p1 p2 length m (cblAnd p1 p2 length m) ∧
    BitwiseTo (fun a b => a || b) p1 p2 length m (cblOr p1 p2 length m) ∧
    BitwiseTo (fun a b => a != b) p1 p2 length m (cblXor p1 p2 length m) ∧
    BitwiseTo (fun a b => !(a || b)) p1 p2 length m (cblNor p1 p2 length m) ∧
    BitwiseTo (fun a b => a == b) p1 p2 length m (cblEq p1 p2 length m) ∧
    BitwiseTo (fun a b => !a || b) p1 p2 length m (cblImp p1 p2 length m) ∧
    BitwiseTo (fun a b => a && !b) p1 p2 length m (cblNimp p1 p2 length m) := by
  refine ⟨?_, ?_, ?_, ?_, ?_, ?_, ?_⟩ <;>
    refine cblBitOp_bitwise _ _ (fun a b j hj => ?_) p1 p2 length m hov <;>
    simp only [BitVec.getLsbD_and, BitVec.getLsbD_or, BitVec.getLsbD_xor, BitVec.getLsbD_not, hj,
      decide_true, Bool.true_and] <;>
    cases a.getLsbD j <;> cases b.getLsbD j <;> rfl

/-- CBL_NOT inverts every bit of the first `length` bytes and nothing else. -/
theorem C34_not (p : Nat) (length : Int) (m : Mem) :
    BitwiseTo (fun a _ => !a) p p length m (cblNot p length m) :=
  cblBitOp_bitwise _ _ (fun a b j hj => by simp [hj]) p p length m (Or.inl (Nat.le_refl _))

example : NoForwardOverlap 0 16 4 := Or.inr (by decide)
example : cblXor 0 2 2 (fun a => if a = 0 then 0x0F#8 else 0x35#8) 2 = 0x3A#8 := by decide

/-- When the first operand begins in front of the second and reaches into it, bytes already changed
are used again: CBL_XOR of three bytes X"010101" at 0 with the area at 1 leaves X"000100", not
X"000000". -/
theorem C34_finding_overlap :
    let m : Mem := fun _ => 1#8
    (cblXor 0 1 3 m) 1 = 0#8 ∧ (cblXor 0 1 3 m) 2 = 1#8 := by decide

/-! ### CBL_XF4 and CBL_XF5 -/

theorem xf5_get (p1 p2 : Nat) (m0 : Mem) (hd : p1 < p2 ∨ p2 + 8 ≤ p1) : ∀ k n m, n + k = 8 →
    (∀ i, i < n → m (p2 + i) = if (m0 p1).getLsbD (7 - i) then 1#8 else 0#8) →
    (∀ a, (a < p2 ∨ p2 + n ≤ a) → m a = m0 a) →
    (∀ i, i < 8 → xf5Loop p1 p2 k n m (p2 + i) = if (m0 p1).getLsbD (7 - i) then 1#8 else 0#8) ∧
    (∀ a, (a < p2 ∨ p2 + 8 ≤ a) → xf5Loop p1 p2 k n m a = m0 a)
  | 0, n, m, hk, h1, h2 => by
    have : n = 8 := by omega
    subst this
    exact ⟨h1, h2⟩
  | k + 1, n, m, hk, h1, h2 => by
    rw [xf5Loop]
    refine xf5_get p1 p2 m0 hd k (n + 1) _ (by omega) ?_ ?_
    · intro i hi
      unfold Mem.set
      rcases Nat.lt_or_ge i n with g | g
      · rw [if_neg (by omega)]
        exact h1 i g
      · have : i = n := by omega
        subst this
        rw [if_pos rfl, h2 p1 (by omega)]
        have key : ∀ (b : Byte) (i : Fin 8),
            (b &&& (1#8 <<< (7 - i.val)) ≠ 0#8) ↔ b.getLsbD (7 - i.val) = true := by decide
        have := key (m0 p1) ⟨i, by omega⟩
        simp only at this
        by_cases c : (m0 p1).getLsbD (7 - i) = true
        · rw [if_pos (this.2 c), if_pos c]
        · rw [if_neg (fun q => c (this.1 q)), if_neg c]
    · intro a ha
      unfold Mem.set
      rw [if_neg (by omega)]
      exact h2 a (by omega)

theorem xf4_get (p1 p2 : Nat) (m0 : Mem) (hd : p1 < p2 ∨ p2 + 8 ≤ p1) : ∀ k n m, n + k = 8 →
    (∀ j, j < 8 → (m p1).getLsbD j = if 8 - n ≤ j then (m0 (p2 + (7 - j))).getLsbD 0 else false) →
    (∀ a, a ≠ p1 → m a = m0 a) →
    (∀ j, j < 8 → (xf4Loop p1 p2 k n m p1).getLsbD j = (m0 (p2 + (7 - j))).getLsbD 0) ∧
    (∀ a, a ≠ p1 → xf4Loop p1 p2 k n m a = m0 a)
  | 0, n, m, hk, h1, h2 => by
    have : n = 8 := by omega
    subst this
    refine ⟨fun j hj => ?_, h2⟩
    rw [xf4Loop, h1 j hj, if_pos (by omega)]
  | k + 1, n, m, hk, h1, h2 => by
    rw [xf4Loop]
    refine xf4_get p1 p2 m0 hd k (n + 1) _ (by omega) ?_ ?_
    · intro j hj
      unfold Mem.set
      rw [if_pos rfl, h2 (p2 + n) (by omega), BitVec.getLsbD_or, h1 j hj]
      have key : ∀ (b : Byte) (i j : Fin 8), ((b &&& 1#8) <<< (7 - i.val)).getLsbD j.val =
          (decide (j.val = 7 - i.val) && b.getLsbD 0) := by decide
      have := key (m0 (p2 + n)) ⟨n, by omega⟩ ⟨j, hj⟩
      simp only at this
      rw [this]
      by_cases c : j = 7 - n
      · subst c
        rw [if_neg (by omega), if_pos (by omega)]
        have : 7 - (7 - n) = n := by omega
        simp [this]
      · by_cases c2 : 8 - n ≤ j
        · rw [if_pos c2, if_pos (by omega)]; simp [c]
        · rw [if_neg c2, if_neg (by omega)]; simp [c]
    · intro a ha
      unfold Mem.set
      rw [if_neg ha]
      exact h2 a ha

/-- CBL_XF5 spreads the bits of a byte, highest first, over eight bytes 0 or 1; CBL_XF4 collects
the lowest bits of eight bytes; nothing else changes (the byte outside the eight). -/
theorem C34_xf (p1 p2 : Nat) (m : Mem) (hd : p1 < p2 ∨ p2 + 8 ≤ p1) :
    ((∀ i, i < 8 → cblXf5 p1 p2 m (p2 + i) = if (m p1).getLsbD (7 - i) then 1#8 else 0#8) ∧
      ∀ a, (a < p2 ∨ p2 + 8 ≤ a) → cblXf5 p1 p2 m a = m a) ∧
    ((∀ j, j < 8 → (cblXf4 p1 p2 m p1).getLsbD j = (m (p2 + (7 - j))).getLsbD 0) ∧
      ∀ a, a ≠ p1 → cblXf4 p1 p2 m a = m a) := by
  constructor
  · exact xf5_get p1 p2 m hd 8 0 m (by omega) (fun i hi => by omega) (fun a _ => rfl)
  · refine xf4_get p1 p2 m hd 8 0 _ (by omega) (fun j hj => ?_) (fun a ha => ?_)
    · unfold Mem.set
      rw [if_pos rfl, if_neg (by omega)]; simp
    · unfold Mem.set
      rw [if_neg ha]

/-- CBL_XF5 followed by CBL_XF4 restores the byte, whatever was done to it in between. -/
theorem C34_xf_roundtrip (p1 p2 : Nat) (m : Mem) (hd : p1 < p2 ∨ p2 + 8 ≤ p1) (b : Byte) :
    cblXf4 p1 p2 ((cblXf5 p1 p2 m).set p1 b) p1 = m p1 := by
  have h5 := (C34_xf p1 p2 m hd).1.1
  have h4 := (C34_xf p1 p2 ((cblXf5 p1 p2 m).set p1 b) hd).2.1
  apply BitVec.eq_of_getLsbD_eq
  intro j hj
  rw [h4 j hj]
  unfold Mem.set
  rw [if_neg (by omega), h5 _ (by omega)]
  have : 7 - (7 - j) = j := by omega
  rw [this]
  cases (m p1).getLsbD j <;> rfl

/-- CBL_XF4 followed by CBL_XF5 restores eight bytes that are 0 or 1. -/
theorem C34_xf_roundtrip' (p1 p2 : Nat) (m : Mem) (hd : p1 < p2 ∨ p2 + 8 ≤ p1)
    (h01 : ∀ i, i < 8 → m (p2 + i) = 0#8 ∨ m (p2 + i) = 1#8) (i : Nat) (hi : i < 8) :
    cblXf5 p1 p2 (cblXf4 p1 p2 m) (p2 + i) = m (p2 + i) := by
  rw [(C34_xf p1 p2 (cblXf4 p1 p2 m) hd).1.1 i hi, (C34_xf p1 p2 m hd).2.1 _ (by omega)]
  have : 7 - (7 - i) = i := by omega
  rw [this]
  rcases h01 i hi with h | h <;> rw [h] <;> rfl

example : cblXf5 0 1 (fun _ => 0xA0#8) 1 = 1#8 ∧ cblXf5 0 1 (fun _ => 0xA0#8) 2 = 0#8 := by decide

/-! ### CBL_X91: the program switches -/

/-- Setting the eight switches (function 11) from bytes 0 and 1 and reading them back
(function 12) gives the same bytes; a byte that is neither leaves its switch alone. -/
theorem C34_switches (sw : List Byte) (parm old : List Nat) (params : Nat)
    (h8 : sw.length = 8) (hp : parm.length = 8) (ho : old.length = 8) :
    ∀ i, i < 8 →
      ((cblX91 12 (cblX91 11 sw parm params).1 old params).2.1)[i]? =
        if parm[i]? = some 0 ∨ parm[i]? = some 1 then parm[i]? else sw[i]?.map (·.toNat) := by
  have gen : ∀ (s : List Byte) (p : List Nat), s.length = p.length → ∀ i : Nat,
      ((setSwitches s p).map (·.toNat))[i]? =
        if p[i]? = some 0 ∨ p[i]? = some 1 then p[i]? else s[i]?.map (·.toNat) := by
    intro s
    induction s with
    | nil => intro p h i; have : p = [] := List.length_eq_zero_iff.1 (by simpa using h.symm)
             subst this; simp [setSwitches]
    | cons b bs ih =>
      intro p h i
      cases p with
      | nil => simp at h
      | cons q qs =>
        cases i with
        | zero =>
          simp only [setSwitches, List.map_cons, List.getElem?_cons_zero, Option.some.injEq]
          by_cases c0 : q = 0
          · subst c0; simp
          · by_cases c1 : q = 1
            · subst c1; simp
            · simp [c0, c1]
        | succ i =>
          simp only [setSwitches, List.map_cons, List.getElem?_cons_succ]
          exact ih qs (by simpa using h) i
  intro i hi
  have e : (cblX91 12 (cblX91 11 sw parm params).1 old params).2.1 =
      (setSwitches sw parm).map (·.toNat) := by
    simp [cblX91, ho]
  rw [e, gen sw parm (by omega) i]

end Cob
