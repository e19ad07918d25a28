import Verif.Rt.CblFileProps
import Mathlib.Tactic.ByContra
/-
Property theorems about the routines for byte-stream files (C82).
-/
namespace Cob.Cbl
open Spec

/-- The state of the operating system is what the program knows. -/
structure Rel (s : Sys) (v : View) : Prop where
  dir : ∀ p, s.dir p = v.names p
  data : ∀ i, Same (s.data i) (v.hist i)
  fds : ∀ h, Bytes 4 h → (lookup s h).map (fun f => (f.ino, f.rd, f.wr)) = v.handles h
  next : s.next = v.count
  old : ∀ p i, s.dir p = some i → i < s.next

theorem rel_setData {s : Sys} {v : View} (r : Rel s v) (i : Nat) (d : List Nat) (h : Hist) (e : Same d h) :
    Rel (s.setData i d) (v.setHist i h) := by
  refine ⟨r.dir, ?_, r.fds, r.next, r.old⟩
  intro j
  simp only [Sys.setData, View.setHist]
  by_cases hj : j = i
  · rw [if_pos hj, if_pos hj]; exact e
  · rw [if_neg hj, if_neg hj]; exact r.data j

theorem rel_setDir {s : Sys} {v : View} (r : Rel s v) (p : List Nat) (i : Option Nat) (hi : ∀ k, i = some k → k < s.next) :
    Rel (s.setDir p i) (v.setName p i) := by
  refine ⟨?_, r.data, r.fds, r.next, ?_⟩
  · intro q
    simp only [Sys.setDir, View.setName, r.dir]
  · intro q k h
    simp only [Sys.setDir] at h ⊢
    by_cases hq : q = p
    · rw [if_pos hq] at h; exact hi k h
    · rw [if_neg hq] at h; exact r.old q k h

theorem rel_setFd {s : Sys} {v : View} (r : Rel s v) (h : List Nat) (hb : Bytes 4 h) (hl : leVal h < 2 ^ 31) (f : Option Fd) :
    Rel (s.setFd (leVal h) f) (v.setHandle h (f.map (fun f => (f.ino, f.rd, f.wr)))) := by
  refine ⟨r.dir, r.data, ?_, r.next, r.old⟩
  intro g hg
  have := r.fds g hg
  simp only [lookup, Sys.setFd, View.setHandle] at this ⊢
  by_cases e : g = h
  · subst e; rw [if_pos hl]; simp
  · have ne : leVal g ≠ leVal h := fun x => e (by rw [← leBytes_leVal 4 g hg, ← leBytes_leVal 4 h hb, x])
    rw [if_neg ne, if_neg e]; exact this

theorem rel_new {s : Sys} {v : View} (r : Rel s v) (p : List Nat) :
    Rel { (s.setDir p (some s.next)).setData s.next [] with next := s.next + 1 }
      { (v.setName p (some v.count)).setHist v.count [] with count := v.count + 1 } := by
  refine ⟨?_, ?_, r.fds, by simp [r.next], ?_⟩
  · intro q
    simp only [Sys.setDir, Sys.setData, View.setName, View.setHist, r.dir, r.next]
  · intro j
    simp only [Sys.setDir, Sys.setData, View.setName, View.setHist, r.next]
    by_cases hj : j = v.count
    · rw [if_pos hj, if_pos hj]; exact same_nil
    · rw [if_neg hj, if_neg hj]; exact r.data j
  · intro q k h
    simp only [Sys.setDir, Sys.setData] at h ⊢
    by_cases hq : q = p
    · rw [if_pos hq] at h; injection h with h; omega
    · rw [if_neg hq] at h; have := r.old q k h; omega

/-- Opening a file that is created and emptied. -/
theorem rel_emptied {s : Sys} {v : View} (r : Rel s v) (p : List Nat) :
    (openIno s p true true = none ∧ emptied v p = none) ∨
    ∃ s' v' i, openIno s p true true = some (s', i) ∧ emptied v p = some (v', i) ∧ Rel s' v' ∧ s'.data i = [] ∧
      ((s.dir p = some i ∧ (∀ j, j ≠ i → s'.data j = s.data j)) ∨ (i = s.next ∧ ∀ j, j ≠ i → s'.data j = s.data j)) := by
  unfold openIno emptied
  rw [r.dir]
  cases h : v.names p with
  | some i =>
    right
    refine ⟨_, _, i, rfl, rfl, ?_, ?_, Or.inl ⟨rfl, ?_⟩⟩
    · exact rel_setData r i [] [] same_nil
    · simp [Sys.setData]
    · intro j hj; simp [Sys.setData, hj]
  | none =>
    by_cases hp : p = []
    · left; simp [hp]
    · right
      rw [if_pos (show true = true ∧ p ≠ [] from ⟨rfl, hp⟩), if_neg hp]
      refine ⟨_, _, v.count, by rw [r.next], rfl, ?_, ?_, Or.inr ⟨r.next.symm, ?_⟩⟩
      · have := rel_new r p; rw [r.next] at this; exact this
      · simp [Sys.setData]
      · intro j hj; simp [Sys.setData, Sys.setDir, hj]

theorem sim_open {s : Sys} {v : View} (r : Rel s v) (nm : List Nat) (access : Nat) (extra : Bool) (ans : Option Nat)
    (hg : ∀ n, ans = some n → n < 2 ^ 31 ∧ v.handles (handleOf n) = none) :
    (openCbl s nm access extra ans).2 = (openFile v (Spec.name nm) access extra ans).2 ∧
    Rel (openCbl s nm access extra ans).1 (openFile v (Spec.name nm) access extra ans).1 := by
  -- the common part
  have key : ∀ (rd wr : Bool) (fo : Option (Sys × Nat)) (fv : Option (View × Nat)),
      ((fo = none ∧ fv = none) ∨ ∃ s' v' i, fo = some (s', i) ∧ fv = some (v', i) ∧ Rel s' v') →
      (openEnd s ans fo rd wr).2 = (openDone v ans fv rd wr).2 ∧ Rel (openEnd s ans fo rd wr).1 (openDone v ans fv rd wr).1 := by
    intro rd wr fo fv h
    unfold openEnd openDone
    cases ans with
    | none => exact ⟨rfl, r⟩
    | some n =>
      rcases h with ⟨h1, h2⟩ | ⟨s', v', i, h1, h2, r'⟩
      · subst h1 h2; exact ⟨rfl, r⟩
      · subst h1 h2
        refine ⟨by simp [leBytes_handle], ?_⟩
        have hn := (hg n rfl).1
        have := rel_setFd r' (handleOf n) (handle_bytes n) (by rw [leVal_handle n hn]; exact hn) (some ⟨i, rd, wr⟩)
        rw [leVal_handle n hn] at this
        exact this
  have plain : (openIno s (Spec.name nm) false false = none ∧ (v.names (Spec.name nm)).map (fun i => (v, i)) = none) ∨
      ∃ s' v' i, openIno s (Spec.name nm) false false = some (s', i) ∧ (v.names (Spec.name nm)).map (fun i => (v, i)) = some (v', i) ∧
        Rel s' v' := by
    unfold openIno
    rw [r.dir]
    cases h : v.names (Spec.name nm) with
    | none => left; simp
    | some i => right; exact ⟨s, v, i, by simp, by simp, r⟩
  have empt : (openIno s (Spec.name nm) true true = none ∧ emptied v (Spec.name nm) = none) ∨
      ∃ s' v' i, openIno s (Spec.name nm) true true = some (s', i) ∧ emptied v (Spec.name nm) = some (v', i) ∧ Rel s' v' := by
    rcases rel_emptied r (Spec.name nm) with h | ⟨s', v', i, h1, h2, h3, _⟩
    · exact Or.inl h
    · exact Or.inr ⟨s', v', i, h1, h2, h3⟩
  unfold openCbl openFile
  rw [nameOf_eq]
  have hm : access % 64 = 1 ∨ access % 64 = 2 ∨ access % 64 = 3 ∨ access % 64 = 0 ∨ 3 < access % 64 := by omega
  rcases hm with h | h | h | h | h
  · rw [h]
    cases extra with
    | false => simpa using key true false _ _ plain
    | true => simpa using key true false _ _ empt
  · rw [h]
    cases extra with
    | false => simpa using key false true _ _ empt
    | true => simpa using key false true _ _ empt
  · rw [h]
    cases extra with
    | false => simpa using key true true _ _ plain
    | true => simpa using key true true _ _ empt
  · rw [h]; exact ⟨rfl, r⟩
  · generalize access % 64 = a at h
    rw [if_pos (Or.inr h)]
    match a, h with
    | a + 4, _ => exact ⟨rfl, r⟩

theorem lookup_cases {s : Sys} {v : View} (r : Rel s v) (h : List Nat) (hb : Bytes 4 h) :
    (lookup s h = none ∧ v.handles h = none) ∨
    ∃ f, lookup s h = some f ∧ v.handles h = some (f.ino, f.rd, f.wr) := by
  have := r.fds h hb
  cases e : lookup s h with
  | none => left; rw [e] at this; exact ⟨rfl, this.symm⟩
  | some f => right; rw [e] at this; exact ⟨f, rfl, this.symm⟩

theorem read_bytes {d : List Nat} {h : Hist} (e : Same d h) (o l : Nat) (buf : List Nat) (hl : l ≤ buf.length) :
    pread d o l ++ buf.drop (pread d o l).length = (List.range buf.length).map (fun k =>
      if k < l ∧ o + k < size h then byteAt h (o + k) else buf.getD k 0) := by
  have len : (pread d o l).length = min l (d.length - o) := by simp [pread]
  apply List.ext_getElem
  · simp only [List.length_append, List.length_drop, List.length_map, List.length_range]; omega
  · intro k h1 h2
    simp only [List.length_map, List.length_range] at h2
    rw [List.getElem_map, List.getElem_range]
    by_cases hk : k < l ∧ o + k < size h
    · rw [if_pos hk, List.getElem_append_left (by rw [len, e.1]; omega), ← e.2 (o + k)]
      have : o + k < d.length := by rw [e.1]; exact hk.2
      simp only [pread, List.getElem_take, List.getElem_drop]
      rw [List.getD_eq_getElem?_getD, List.getElem?_eq_getElem this]; rfl
    · rw [if_neg hk]
      have hk' : (pread d o l).length ≤ k := by rw [len, e.1]; omega
      rw [List.getElem_append_right hk', List.getElem_drop, List.getD_eq_getElem?_getD, List.getElem?_eq_getElem h2]
      simp only [Option.getD_some]
      congr 1; omega

theorem sim_read {s : Sys} {v : View} (r : Rel s v) (h o l : List Nat) (flags : Nat) (buf : List Nat) (ok : Bool)
    (hg : Good v (.read h o l flags buf ok)) : readCbl s h o l flags buf ok = Spec.read v h o l flags buf ok := by
  obtain ⟨hh, ho, hl, hbuf⟩ := hg
  unfold readCbl Spec.read
  rcases lookup_cases r h hh with ⟨e1, e2⟩ | ⟨f, e1, e2⟩
  · rw [e1, e2]
  · rw [e1, e2]
    dsimp only
    rw [offsetOf_eq o ho, lengthOf_eq l hl]
    by_cases hneg : signed o < 0
    · rw [if_pos hneg, if_pos hneg]
    · rw [if_neg hneg, if_neg hneg]
      have e := r.data f.ino
      unfold readAt
      have hfl : flags.testBit 7 = decide (flags / 128 % 2 = 1) := by
        rw [Nat.testBit_eq_decide_div_mod_eq]
      rw [e.1, leBytes_rev, hfl]
      simp only [decide_eq_true_eq]
      by_cases hz : (signed l).toNat = 0
      · rw [if_pos hz, if_neg (by omega)]
      · rw [if_neg hz, if_pos (show signed l > 0 by omega)]
        by_cases hr : f.rd = false ∨ ok = false
        · rw [if_pos hr, if_pos hr]
        · rw [if_neg hr, if_neg hr, ← read_bytes e _ _ _ (show (signed l).toNat ≤ buf.length by omega)]
          have : pread (s.data f.ino) (signed o).toNat (signed l).toNat = [] ↔ ¬ (signed o).toNat < size (v.hist f.ino) := by
            rw [← List.length_eq_zero_iff]
            simp only [pread, List.length_take, List.length_drop, e.1]
            omega
          by_cases hc : (signed o).toNat < size (v.hist f.ino)
          · rw [if_pos hc, if_neg (fun x => this.mp x hc)]
          · rw [if_neg hc, if_pos (this.mpr hc)]

theorem sim_write {s : Sys} {v : View} (r : Rel s v) (h o l : List Nat) (buf : List Nat) (ans : Option Nat)
    (hg : Good v (.write h o l buf ans)) : (writeCbl s h o l buf ans).2 = (Spec.write v h o l buf ans).2 ∧
    Rel (writeCbl s h o l buf ans).1 (Spec.write v h o l buf ans).1 := by
  obtain ⟨hh, ho, hl, hbuf, hans⟩ := hg
  unfold writeCbl Spec.write
  rcases lookup_cases r h hh with ⟨e1, e2⟩ | ⟨f, e1, e2⟩
  · rw [e1, e2]; exact ⟨rfl, r⟩
  · rw [e1, e2]
    dsimp only
    rw [offsetOf_eq o ho, lengthOf_eq l hl]
    by_cases hneg : signed o < 0
    · rw [if_pos hneg, if_pos hneg]; exact ⟨rfl, r⟩
    · rw [if_neg hneg, if_neg hneg]
      by_cases hw : f.wr = false ∨ signed l < 0
      · rw [if_pos hw, if_neg (by rintro ⟨a, b, _⟩; rcases hw with x | x <;> (simp_all; try omega))]
        exact ⟨rfl, r⟩
      · rw [if_neg hw]
        rw [not_or] at hw
        cases ans with
        | none => rw [if_neg (by simp)]; exact ⟨rfl, r⟩
        | some k =>
          rw [if_pos ⟨by simpa using hw.1, by omega, by simp⟩]
          refine ⟨rfl, ?_⟩
          have hk := hans k rfl
          have : (buf.take (signed l).toNat).take k = buf.take (signed l).toNat :=
            List.take_of_length_le (by simp only [List.length_take]; omega)
          dsimp only
          rw [this]
          exact rel_setData r _ _ _ (same_write (r.data _) _ _)

theorem copyLoop_full (i1 i2 : Nat) (hne : i1 ≠ i2) (ans : Nat → Option Nat) (ha : ∀ j, ∃ k, ans j = some k ∧ 1024 ≤ k)
    (src : List Nat) : ∀ (fuel j p : Nat) (s : Sys), s.data i1 = src → s.data i2 = src.take p → p ≤ src.length →
    src.length - p < fuel →
    ∃ s', copyLoop i1 i2 ans fuel j p p s = some (s', 0) ∧ s' = s.setData i2 src := by
  intro fuel
  induction fuel with
  | zero => intro j p s _ _ _ h; omega
  | succ fuel ih =>
    intro j p s h1 h2 hp hf
    unfold copyLoop
    by_cases hc : pread (s.data i1) p 1024 = []
    · refine ⟨s, by simp [hc], ?_⟩
      rw [h1, pread, ← List.length_eq_zero_iff] at hc
      simp only [List.length_take, List.length_drop] at hc
      have : src.take p = src := List.take_of_length_le (by omega)
      rw [this] at h2
      cases s with
      | mk a b c d =>
        simp only [Sys.setData, Sys.mk.injEq, true_and, and_true] at h2 ⊢
        funext x
        by_cases hx : x = i2
        · rw [if_pos hx, hx, h2]
        · rw [if_neg hx]
    · obtain ⟨k, hk, hk2⟩ := ha j
      have hcl : (pread (s.data i1) p 1024).length ≤ 1024 := by simp [pread]
      have hct : (pread (s.data i1) p 1024).take k = pread (s.data i1) p 1024 := List.take_of_length_le (by omega)
      simp only [if_neg hc, hk, hct]
      rw [h1] at hc ⊢
      generalize hcc : pread src p 1024 = c at hc ⊢
      have hpos : 0 < c.length := List.length_pos_iff.mpr hc
      have hcd : c = (src.drop p).take c.length := by
        rw [← hcc, pread]; simp only [List.length_take]
        rw [List.take_eq_take_iff]; simp
      have hle : p + c.length ≤ src.length := by
        rw [← hcc, pread]; simp only [List.length_take, List.length_drop]; omega
      have hw : pwrite (s.data i2) p c = src.take (p + c.length) := by
        unfold pwrite
        rw [if_neg hc, h2]
        have l1 : (src.take p).length = p := by simp; omega
        rw [List.take_take, Nat.min_self, l1, Nat.sub_self, List.drop_of_length_le (by omega : (src.take p).length ≤ p + c.length),
          List.take_add]
        simp only [List.replicate_zero, List.append_nil]
        rw [← hcd]
      obtain ⟨s', e1, e2⟩ := ih (j + 1) (p + c.length) (s.setData i2 (pwrite (s.data i2) p c))
        (by simp only [Sys.setData, if_neg hne]; exact h1) (by simp only [Sys.setData, if_pos]; exact hw) hle (by omega)
      refine ⟨s', e1, ?_⟩
      rw [e2]
      simp only [Sys.setData, Sys.mk.injEq, true_and, and_true]
      funext x
      by_cases hx : x = i2 <;> simp [hx]

theorem sim_copy {s : Sys} {v : View} (r : Rel s v) (n1 n2 : List Nat) (ok1 ok2 : Bool) (ans : Nat → Option Nat)
    (hg : Good v (.copy n1 n2 ok1 ok2 ans)) :
    (copyCbl s n1 n2 ok1 ok2 ans).2 = (Spec.copy v (Spec.name n1) (Spec.name n2) ok1 ok2).2 ∧
    Rel (copyCbl s n1 n2 ok1 ok2 ans).1 (Spec.copy v (Spec.name n1) (Spec.name n2) ok1 ok2).1 := by
  obtain ⟨ha, hne⟩ := hg
  unfold copyCbl Spec.copy
  rw [nameOf_eq, nameOf_eq, r.dir]
  cases e1 : v.names (Spec.name n1) with
  | none => exact ⟨rfl, r⟩
  | some i1 =>
    dsimp only
    rcases rel_emptied r (Spec.name n2) with ⟨e2, e3⟩ | ⟨s', v', i2, e2, e3, r', h0, hother⟩
    · rw [e2, e3]; by_cases hk : ok1 = false ∨ ok2 = false
      · rw [if_pos hk]; exact ⟨rfl, r⟩
      · rw [if_neg hk]; exact ⟨rfl, r⟩
    · rw [e2, e3]
      dsimp only
      by_cases hk : ok1 = false ∨ ok2 = false
      · rw [if_pos hk, if_neg (by rintro ⟨a, b⟩; rcases hk with x | x <;> simp_all)]; exact ⟨rfl, r⟩
      · rw [if_neg hk, if_pos (by cases ok1 <;> cases ok2 <;> simp_all)]
        have hd1 : s.dir (Spec.name n1) = some i1 := by rw [r.dir]; exact e1
        have hii : i1 ≠ i2 := by
          rcases hother with ⟨h, _⟩ | ⟨h, _⟩
          · intro e
            rcases hne with x | x
            · rw [e1] at x; cases x
            · apply x; rw [e1, ← r.dir (Spec.name n2), h, e]
          · have := r.old _ _ hd1; omega
        have hsame : s'.data i1 = s.data i1 := by
          rcases hother with ⟨_, h⟩ | ⟨_, h⟩ <;> exact h i1 hii
        obtain ⟨s2, c1, c2⟩ := copyLoop_full i1 i2 hii ans ha (s'.data i1) ((s'.data i1).length + 1) 0 0 s' rfl
          (by rw [h0]; simp) (by omega) (by omega)
        rw [c1]
        refine ⟨rfl, ?_⟩
        dsimp only
        rw [c2, hsame]
        apply rel_setData r'
        rw [← same_contents (r.data i1)]
        exact same_one _

theorem sim_step {s : Sys} {v : View} (r : Rel s v) (o : Op) (hg : Good v o) :
    (step s o).2 = (Spec.step v o).2 ∧ Rel (step s o).1 (Spec.step v o).1 := by
  cases o with
  | openFile n a ans => exact sim_open r n a false ans hg
  | createFile n a ans => exact sim_open r n a true ans hg
  | read h o l f b ok => exact ⟨sim_read r h o l f b ok hg, r⟩
  | write h o l b ans => exact sim_write r h o l b ans hg
  | close h =>
    simp only [step, Spec.step, closeCbl, Spec.close]
    rcases lookup_cases r h hg with ⟨e1, e2⟩ | ⟨f, e1, e2⟩
    · rw [e1, e2]; exact ⟨rfl, r⟩
    · rw [e1, e2, if_neg (by simp)]
      refine ⟨rfl, ?_⟩
      have hl : leVal h < 2 ^ 31 := by
        unfold lookup at e1; by_contra hh; rw [if_neg hh] at e1; cases e1
      exact rel_setFd r h hg hl none
  | delete n ok =>
    simp only [step, Spec.step, deleteCbl, Spec.delete, nameOf_eq, r.dir]
    by_cases h : ok = true ∧ v.names (Spec.name n) ≠ none
    · rw [if_pos h, if_pos ⟨h.1, Option.isSome_iff_ne_none.mpr h.2⟩]
      exact ⟨rfl, rel_setDir r _ none (by simp)⟩
    · rw [if_neg h, if_neg (fun x => h ⟨x.1, Option.isSome_iff_ne_none.mp x.2⟩)]
      exact ⟨rfl, r⟩
  | rename n1 n2 ok =>
    simp only [step, Spec.step, renameCbl, Spec.rename, nameOf_eq, r.dir]
    cases e1 : v.names (Spec.name n1) with
    | none => exact ⟨rfl, r⟩
    | some i =>
      dsimp only
      by_cases h : ok = false ∨ Spec.name n2 = []
      · rw [if_pos h, if_pos (Or.inr h)]; exact ⟨rfl, r⟩
      · rw [if_neg h, if_neg (show ¬ (some i = none ∨ ok = false ∨ Spec.name n2 = []) from fun x => h (x.resolve_left (by simp)))]
        by_cases h2 : v.names (Spec.name n2) = some i
        · rw [if_pos h2, if_pos h2.symm]; exact ⟨rfl, r⟩
        · rw [if_neg h2, if_neg (fun x => h2 x.symm)]
          refine ⟨rfl, rel_setDir (rel_setDir r _ (some i) ?_) _ none (by simp)⟩
          intro k hk; injection hk with hk; subst hk
          exact r.old (Spec.name n1) _ (by rw [r.dir]; exact e1)
  | copy n1 n2 ok1 ok2 ans => exact sim_copy r n1 n2 ok1 ok2 ans hg
  | exist n i tm =>
    refine ⟨?_, r⟩
    simp only [step, Spec.step, existCbl, Spec.exist, nameOf_eq, r.dir]
    cases e1 : v.names (Spec.name n) with
    | none => rfl
    | some j => simp only [(r.data j).1, leBytes_rev]

theorem sim_run (ops : List Op) : ∀ (s : Sys) (v : View), Rel s v → GoodAll v ops → (run s ops).2 = (Spec.run v ops).2 := by
  induction ops with
  | nil => intro s v _ _; rfl
  | cons o r ih =>
    intro s v h g
    obtain ⟨h1, h2⟩ := sim_step h o g.1
    simp only [run, Spec.run, h1, ih _ _ h2 g.2]

/-! ### The property -/

/-- C82: for every file system to begin with and every history of calls of the routines for byte-stream files, whatever the
operating system answers, each call gives back - RETURN-CODE, handle, buffer, offset, file information - what the history of
the writes to the file behind the name or handle says.  Opening to write (access 2) and CREATE empty the file. -/
theorem C82_history (dir : List Nat → Option Nat) (data : Nat → List Nat) (next : Nat) (hn : ∀ p i, dir p = some i → i < next)
    (ops : List Op) (hg : GoodAll ⟨dir, fun i => [(0, data i)], fun _ => none, next⟩ ops) :
    (run ⟨dir, data, fun _ => none, next⟩ ops).2 = (Spec.run ⟨dir, fun i => [(0, data i)], fun _ => none, next⟩ ops).2 := by
  apply sim_run ops _ _ _ hg
  refine ⟨fun _ => rfl, fun i => same_one _, ?_, rfl, hn⟩
  intro h _
  simp [lookup]

/-- C82: what CBL_WRITE_FILE wrote CBL_READ_FILE reads back, through every handle of the file. -/
theorem C82_read_back (s : Sys) (h1 h2 o l buf buf2 : List Nat) (k : Nat) (f1 f2 : Fd) (e1 : lookup s h1 = some f1)
    (e2 : lookup s h2 = some f2) (same : f1.ino = f2.ino) (hw : f1.wr = true) (hr : f2.rd = true)
    (ho : Bytes 8 o) (hl : Bytes 4 l) (ho0 : 0 ≤ signed o) (hl0 : 0 < signed l) (hb : signed l ≤ buf.length)
    (hb2 : signed l ≤ buf2.length) (hk : signed l ≤ k) :
    (writeCbl s h1 o l buf (some k)).2.rc = 0 ∧
    readCbl (writeCbl s h1 o l buf (some k)).1 h2 o l 0 buf2 true =
      ⟨0, [o, buf.take (signed l).toNat ++ buf2.drop (signed l).toNat]⟩ := by
  have hbl : (buf.take (signed l).toNat).length = (signed l).toNat := by simp; omega
  have ht : (buf.take (signed l).toNat).take k = buf.take (signed l).toNat := List.take_of_length_le (by omega)
  have hne : buf.take (signed l).toNat ≠ [] := fun x => by rw [x] at hbl; simp at hbl; omega
  have w : writeCbl s h1 o l buf (some k) =
      (s.setData f1.ino (pwrite (s.data f1.ino) (signed o).toNat (buf.take (signed l).toNat)), ⟨0, []⟩) := by
    unfold writeCbl
    rw [e1]
    dsimp only
    rw [offsetOf_eq o ho, lengthOf_eq l hl, if_neg (by omega), if_neg (by simp [hw]; omega), ht]
  rw [w]
  refine ⟨rfl, ?_⟩
  unfold readCbl
  have e2' : lookup (s.setData f1.ino (pwrite (s.data f1.ino) (signed o).toNat (buf.take (signed l).toNat))) h2 = some f2 := e2
  rw [e2']
  dsimp only
  rw [offsetOf_eq o ho, lengthOf_eq l hl, if_neg (by omega)]
  unfold readAt
  rw [if_pos hl0, hr, if_neg (by simp)]
  have hp : pread (pwrite (s.data f1.ino) (signed o).toNat (buf.take (signed l).toNat)) (signed o).toNat (signed l).toNat =
      buf.take (signed l).toNat := by
    unfold pread pwrite
    rw [if_neg hne]
    generalize buf.take (signed l).toNat = b at hbl
    have l1 : ((s.data f1.ino).take (signed o).toNat ++
        List.replicate ((signed o).toNat - (s.data f1.ino).length) 0).length = (signed o).toNat := by
      simp only [List.length_append, List.length_take, List.length_replicate]; omega
    rw [List.append_assoc, List.drop_left' l1, ← hbl, List.take_left]
  simp only [Sys.setData, same, if_true]
  rw [same] at hp
  rw [hp, if_neg hne, hbl]
  rfl

/-- C82: a WRITE changes nothing in other files, and in the file itself only the bytes it covers. -/
theorem C82_write_only (s : Sys) (h o l buf : List Nat) (ans : Option Nat) (ho : Bytes 8 o) (hl : Bytes 4 l) (i p : Nat)
    (hp : ∀ f, lookup s h = some f → f.ino = i → (p : Int) < signed o ∨ signed o + signed l ≤ p) :
    ((writeCbl s h o l buf ans).1.data i).getD p 0 = (s.data i).getD p 0 ∧ (writeCbl s h o l buf ans).1.dir = s.dir ∧
    (writeCbl s h o l buf ans).1.fds = s.fds := by
  unfold writeCbl
  cases e : lookup s h with
  | none => exact ⟨rfl, rfl, rfl⟩
  | some f =>
    dsimp only
    rw [offsetOf_eq o ho, lengthOf_eq l hl]
    split
    · exact ⟨rfl, rfl, rfl⟩
    · split
      · exact ⟨rfl, rfl, rfl⟩
      · cases ans with
        | none => exact ⟨rfl, rfl, rfl⟩
        | some k =>
          refine ⟨?_, rfl, rfl⟩
          simp only [Sys.setData]
          by_cases hi : i = f.ino
          · rw [if_pos hi, pwrite_getD, if_neg ?_, hi]
            have := hp f e hi.symm
            simp only [List.length_take]
            omega
          · rw [if_neg hi]

/-- C82: the name of a file is what the parameter holds before the first space, NUL or quotation mark; so trailing spaces do
not matter and a name of other characters is taken as it is. -/
theorem C82_name (d : List Nat) : nameOf d = d.takeWhile (fun c => c != 32 && c != 0 && c != 34) := nameOf_eq d

/-! ### A concrete case -/

/-- A file system with the file `F`, which holds ABC. -/
def sysF : Sys := ⟨fun p => if p = [70] then some 0 else none, fun i => if i = 0 then [65, 66, 67] else [], fun _ => none, 1⟩

/-- The same as a program knows it. -/
def viewF : View := ⟨sysF.dir, fun i => [(0, sysF.data i)], fun _ => none, 1⟩

/-- Opens `F` to read and write, writes XY at 5, reads six bytes at 1, asks for the size, copies `F` to `G`, closes. -/
def opsF : List Op :=
  [.openFile [70, 32, 32] 3 (some 3),
   .write [3, 0, 0, 0] [0, 0, 0, 0, 0, 0, 0, 5] [0, 0, 0, 2] [88, 89] (some 2),
   .read [3, 0, 0, 0] [0, 0, 0, 0, 0, 0, 0, 1] [0, 0, 0, 6] 0 [1, 1, 1, 1, 1, 1, 1] true,
   .read [3, 0, 0, 0] [0, 0, 0, 0, 0, 0, 0, 0] [0, 0, 0, 0] 128 [] true,
   .copy [70] [71] true true (fun _ => some 1024),
   .read [3, 0, 0, 0] [0, 0, 0, 0, 0, 0, 0, 7] [0, 0, 0, 1] 0 [9] true,
   .exist [71] (List.replicate 16 7) ⟨2026, 11, 18, 16, 30, 5⟩,
   .close [3, 0, 0, 0]]

example : GoodAll viewF opsF := by
  refine ⟨?_, ?_, ?_, ?_, ?_, ?_, ?_, ?_, trivial⟩
  · intro n h; injection h with h; subst h; decide
  · refine ⟨⟨rfl, by decide⟩, ⟨rfl, by decide⟩, ⟨rfl, by decide⟩, by decide, ?_⟩
    intro k h; injection h with h; subst h; decide
  · exact ⟨⟨rfl, by decide⟩, ⟨rfl, by decide⟩, ⟨rfl, by decide⟩, by decide⟩
  · exact ⟨⟨rfl, by decide⟩, ⟨rfl, by decide⟩, ⟨rfl, by decide⟩, by decide⟩
  · refine ⟨fun j => ⟨1024, rfl, by omega⟩, Or.inr (by decide)⟩
  · exact ⟨⟨rfl, by decide⟩, ⟨rfl, by decide⟩, ⟨rfl, by decide⟩, by decide⟩
  · trivial
  · exact ⟨rfl, by decide⟩

example : (run sysF opsF).2 = [⟨0, [[3, 0, 0, 0]]⟩, ⟨0, []⟩, ⟨0, [[0, 0, 0, 0, 0, 0, 0, 1], [66, 67, 0, 0, 88, 89, 1]]⟩,
    ⟨0, [[0, 0, 0, 0, 0, 0, 0, 7], []]⟩, ⟨0, []⟩, ⟨10, [[0, 0, 0, 0, 0, 0, 0, 7], [9]]⟩,
    ⟨0, [[0, 0, 0, 0, 0, 0, 0, 7, 18, 11, 7, 234, 16, 30, 5, 0]]⟩, ⟨0, []⟩] := by decide +kernel

/-! ### Findings -/

/-- Finding: a name in quotation marks, for which the code has a loop, is never found: `"A B"` becomes the empty name. -/
theorem C82_finding_quoted : nameOf [34, 65, 32, 66, 34] = [] ∧ nameOf [68, 47, 34, 65, 34] = [68, 47] := by decide

/-- Finding: when the operating system takes only part of the bytes (a full disk), CBL_WRITE_FILE still returns 0. -/
theorem C82_finding_short_write :
    let s := (step sysF (.openFile [70] 3 (some 3))).1
    let r := step s (.write [3, 0, 0, 0] [0, 0, 0, 0, 0, 0, 0, 0] [0, 0, 0, 3] [88, 89, 90] (some 1))
    r.2.rc = 0 ∧ r.1.data 0 = [88, 66, 67] := by decide +kernel

/-- Finding: and so does CBL_COPY_FILE, with an incomplete copy. -/
theorem C82_finding_short_copy :
    let r := step sysF (.copy [70] [71] true true (fun _ => some 1))
    r.2.rc = 0 ∧ r.1.data 1 = [65] := by decide +kernel

/-- Finding: when only one of the writes of CBL_COPY_FILE is cut short, the bytes that follow move up: a file of 1024 letters A and a B is copied to AB. -/
theorem C82_finding_short_copy_long :
    let t : Sys := { sysF with data := fun i => if i = 0 then List.replicate 1024 65 ++ [66] else [] }
    let r := step t (.copy [70] [71] true true (fun j => if j = 0 then some 1 else some 1024))
    r.2.rc = 0 ∧ r.1.data 1 = [65, 66] := by decide +kernel

/-- Finding: CBL_COPY_FILE of a file to itself returns 0 and leaves the file empty. -/
theorem C82_finding_copy_self :
    let r := step sysF (.copy [70] [70] true true (fun _ => some 1024))
    r.2.rc = 0 ∧ r.1.data 0 = [] := by decide +kernel

/-- Finding: CBL_OPEN_FILE with access 2, without CBL_CREATE_FILE, empties the file. -/
theorem C82_finding_open_empties : (step sysF (.openFile [70] 2 (some 3))).1.data 0 = [] := by decide +kernel

/-- Finding: near the end of a file CBL_READ_FILE returns 0 although it read less than asked for, and does not say how much: the
program cannot tell the file ABC from the file ABCD when the buffer held a D before. -/
theorem C82_finding_short_read :
    let t : Sys := { sysF with data := fun i => if i = 0 then [65, 66, 67, 68] else [] }
    let ops := [Op.openFile [70] 1 (some 3), .read [3, 0, 0, 0] [0, 0, 0, 0, 0, 0, 0, 0] [0, 0, 0, 4] 0 [32, 32, 32, 68] true]
    (run sysF ops).2 = (run t ops).2 := by decide +kernel

end Cob.Cbl
