import Verif.Rt.CallArgsSpec
import Verif.Num.CondProps
/-
C79: the arguments of a CALL.
-/
namespace Cob.Args

/-! ### helper lemmas -/

theorem fill_ne (m : Mem) (o p : Obj) (bs : List Nat) (h : p ≠ o) : m.fill o bs p = m p := by
  simp [Mem.fill, h]

theorem fill_eq (m : Mem) (o : Obj) (bs : List Nat) : m.fill o bs o = bs := by
  simp [Mem.fill]

theorem put_ne (m : Mem) (a : Addr) (b : Nat) (p : Obj) (h : p ≠ a.obj) : m.put a b p = m p := by
  simp [Mem.put, h]

theorem setup_content_past (junk : Nat → Nat → Nat) (m0 : Mem) (args : List Arg) :
    ∀ (n : Nat) (m : Mem) (j : Nat), j < n → setupFrom junk m0 n args m (.content j) = m (.content j) := by
  induction args with
  | nil => intro n m j _; rfl
  | cons a l ih =>
    intro n m j hj
    rw [setupFrom]
    try dsimp only
    rw [ih _ _ _ (by omega)]
    have hne : Obj.content j ≠ Obj.content n := by simp; omega
    cases a.x <;> cases contentOf (junk n) m0 a <;> simp [Mem.fill] <;> omega

theorem setup_content (junk : Nat → Nat → Nat) (m0 : Mem) (args : List Arg) :
    ∀ (n : Nat) (m : Mem) (i : Nat) (a : Arg) (bs : List Nat), args[i]? = some a →
      contentOf (junk (n + i)) m0 a = some bs →
      setupFrom junk m0 n args m (.content (n + i)) = bs := by
  induction args with
  | nil => intro n m i a bs h; simp at h
  | cons a0 l ih =>
    intro n m i a bs h hc
    cases i with
    | zero =>
      simp only [List.getElem?_cons_zero, Option.some.injEq] at h
      subst h
      rw [setupFrom]
      try dsimp only
      rw [setup_content_past _ _ _ _ _ _ (by omega)]
      simp only [Nat.add_zero] at hc ⊢
      rw [hc]
      cases a0.x <;> simp [Mem.fill]
    | succ i =>
      simp only [List.getElem?_cons_succ] at h
      rw [setupFrom]
      try dsimp only
      rw [show n + (i + 1) = n + 1 + i by omega] at hc ⊢
      exact ih _ _ _ _ _ h hc

theorem setup_store (junk : Nat → Nat → Nat) (m0 : Mem) (args : List Arg) :
    ∀ (n : Nat) (m : Mem), setupFrom junk m0 n args m .store = m .store := by
  induction args with
  | nil => intro n m; rfl
  | cons a l ih =>
    intro n m
    rw [setupFrom]
    try dsimp only
    rw [ih]
    cases a.x <;> cases contentOf (junk n) m0 a <;> simp [Mem.fill]

theorem receiveAll_mem (ps : List PDecl) :
    ∀ (n : Nat) (l : List Passed) (m : Mem) (o : Obj), (∀ k, n ≤ k → o ≠ .value k) →
      (receiveAll n ps l m).2 o = m o := by
  induction ps with
  | nil => intro n l m o _; rfl
  | cons p ps ih =>
    intro n l m o ho
    rw [receiveAll.eq_def]
    dsimp only
    rw [ih _ _ _ _ (fun k hk => ho k (by omega))]
    have hn : Obj.value n ≠ o := Ne.symm (ho n (by omega))
    have : ∀ (r : Option (List Nat)), (match r with | some bs => m.fill (.value n) bs | none => m) o = m o := by
      intro r
      cases r with
      | none => rfl
      | some bs => exact fill_ne _ _ _ _ (Ne.symm hn)
    exact this _

theorem receiveAll_slot (ps : List PDecl) :
    ∀ (n : Nat) (l : List Passed) (m : Mem) (i : Nat) (p : PDecl) (a : Passed), ps[i]? = some p →
      l[i]? = some a →
      (receiveAll n ps l m).1[i]? = some (receive p (n + i) a).1 := by
  induction ps with
  | nil => intro n l m i p a h; simp at h
  | cons p0 ps ih =>
    intro n l m i p a h ha
    rw [receiveAll.eq_def]
    dsimp only
    cases i with
    | zero =>
      cases l with
      | nil => simp at ha
      | cons b l =>
        simp only [List.getElem?_cons_zero, Option.some.injEq] at h ha
        subst h; subst ha
        simp
    | succ i =>
      cases l with
      | nil => simp at ha
      | cons b l =>
        simp only [List.getElem?_cons_succ] at h ha
        simp only [List.getElem?_cons_succ, List.tail_cons]
        rw [ih _ _ _ _ _ _ h ha, show n + 1 + i = n + (i + 1) by omega]

theorem receiveAll_none (ps : List PDecl) :
    ∀ (n : Nat) (l : List Passed) (m : Mem) (i : Nat), l[i]? = none →
      ∀ s, (receiveAll n ps l m).1[i]? = some s → s = .bad := by
  induction ps with
  | nil => intro n l m i _ s h; simp [receiveAll] at h
  | cons p0 ps ih =>
    intro n l m i hl s h
    rw [receiveAll.eq_def] at h
    dsimp only at h
    cases i with
    | zero =>
      cases l with
      | nil => simp at h; exact h.symm
      | cons b l => simp at hl
    | succ i =>
      simp only [List.getElem?_cons_succ] at h
      refine ih _ _ _ i ?_ s h
      cases l with
      | nil => simp
      | cons b l => simpa using hl

theorem receiveAll_length (ps : List PDecl) :
    ∀ (n : Nat) (l : List Passed) (m : Mem), (receiveAll n ps l m).1.length = ps.length := by
  induction ps with
  | nil => intro n l m; rfl
  | cons p ps ih => intro n l m; rw [receiveAll.eq_def]; simp [ih]

theorem receiveAll_value (ps : List PDecl) :
    ∀ (n : Nat) (l : List Passed) (m : Mem) (i : Nat) (p : PDecl) (a : Passed) (bs : List Nat),
      ps[i]? = some p → l[i]? = some a → (receive p (n + i) a).2 = some bs →
      (receiveAll n ps l m).2 (.value (n + i)) = bs := by
  induction ps with
  | nil => intro n l m i p a bs h; simp at h
  | cons p0 ps ih =>
    intro n l m i p a bs h ha hb
    rw [receiveAll.eq_def]
    dsimp only
    cases i with
    | zero =>
      cases l with
      | nil => simp at ha
      | cons b l =>
        simp only [List.getElem?_cons_zero, Option.some.injEq] at h ha
        subst h; subst ha
        simp only [Nat.add_zero] at hb ⊢
        have : ∀ (m' : Mem), (receiveAll (n + 1) ps l m').2 (.value n) = m' (.value n) :=
          fun m' => receiveAll_mem _ _ _ _ _ (by intro k hk; simp; omega)
        rw [List.tail_cons, this, hb]
        simp [Mem.fill]
    | succ i =>
      cases l with
      | nil => simp at ha
      | cons b l =>
        simp only [List.getElem?_cons_succ] at h ha
        rw [show n + (i + 1) = n + 1 + i by omega] at hb ⊢
        exact ih _ _ _ _ _ _ _ h ha hb

/-- Argument `i` of the C call. -/
theorem passed_at (ebc : Bool) (m : Mem) (args : List Arg) (i : Nat) (a : Arg) (h : args[i]? = some a) :
    (args.zipIdx.map fun x => passArg ebc m (x.2 + 1) x.1)[i]? = some (passArg ebc m (i + 1) a) := by
  simp [List.getElem?_map, List.getElem?_zipIdx, h]

theorem enter_slot (ebc : Bool) (junk : Nat → Nat → Nat) (m : Mem) (args : List Arg) (ps : List PDecl)
    (i : Nat) (a : Arg) (p : PDecl) (ha : args[i]? = some a) (hp : ps[i]? = some p) :
    (enter ebc junk m args ps).1[i]? = some (receive p (i + 1) (passArg ebc m (i + 1) a)).1 := by
  unfold enter
  rw [receiveAll_slot ps 1 _ _ i p _ hp (passed_at ebc m args i a ha), Nat.add_comm 1 i]

theorem enter_store (ebc : Bool) (junk : Nat → Nat → Nat) (m : Mem) (args : List Arg) (ps : List PDecl) :
    (enter ebc junk m args ps).2 .store = m .store := by
  unfold enter
  rw [receiveAll_mem _ _ _ _ _ (by intros; simp), setup_store]

theorem enter_content (ebc : Bool) (junk : Nat → Nat → Nat) (m : Mem) (args : List Arg)
    (ps : List PDecl) (i : Nat) (a : Arg) (bs : List Nat) (ha : args[i]? = some a)
    (hc : contentOf (junk (i + 1)) m a = some bs) :
    (enter ebc junk m args ps).2 (.content (i + 1)) = bs := by
  unfold enter
  rw [receiveAll_mem _ _ _ _ _ (by intros; simp), Nat.add_comm i 1]
  exact setup_content _ _ _ _ _ _ _ _ ha (by rw [Nat.add_comm 1 i]; exact hc)

theorem enter_value (ebc : Bool) (junk : Nat → Nat → Nat) (m : Mem) (args : List Arg)
    (ps : List PDecl) (i : Nat) (a : Arg) (p : PDecl) (bs : List Nat) (ha : args[i]? = some a)
    (hp : ps[i]? = some p) (hb : (receive p (i + 1) (passArg ebc m (i + 1) a)).2 = some bs) :
    (enter ebc junk m args ps).2 (.value (i + 1)) = bs := by
  unfold enter
  rw [Nat.add_comm i 1] at hb ⊢
  exact receiveAll_value ps 1 _ _ i p _ bs hp (by rw [Nat.add_comm 1 i]; exact passed_at ebc m args i a ha) hb

/-- A parameter in the caller's storage is an item passed BY REFERENCE. -/
theorem slot_store (ebc : Bool) (junk : Nat → Nat → Nat) (m : Mem) (args : List Arg) (ps : List PDecl)
    (i : Nat) (q : Addr) (h : (enter ebc junk m args ps).1[i]? = some (.at q)) (hq : q.obj = .store) :
    ∃ a p, args[i]? = some a ∧ ps[i]? = some p ∧ a.mode = .reference ∧
      ∃ off size decl k, a.x = .item off size decl k ∧ q.off = off := by
  have hlen : i < ps.length := by
    have := (List.getElem?_eq_some_iff.mp h).1
    unfold enter at this
    rwa [receiveAll_length] at this
  obtain ⟨p, hp⟩ : ∃ p, ps[i]? = some p := ⟨_, List.getElem?_eq_getElem hlen⟩
  cases ha : args[i]? with
  | none =>
    unfold enter at h
    have := receiveAll_none ps 1 _ _ i (by simp [List.getElem?_map, List.getElem?_zipIdx, ha]) _ h
    exact absurd this (by simp)
  | some a =>
    rw [enter_slot ebc junk m args ps i a p ha hp] at h
    simp only [Option.some.injEq] at h
    refine ⟨a, p, rfl, hp, ?_⟩
    obtain ⟨mode, sz, x⟩ := a
    unfold receive at h
    split at h
    · split at h
      · split at h
        · simp only [Slot.at.injEq] at h; subst h; simp at hq
        · simp at h
      · simp at h
    · split at h
      · rename_i q' he
        simp only [Slot.at.injEq] at h
        subst h
        unfold passArg at he
        cases mode <;> cases x <;> simp only at he <;>
          first
          | (simp only [Passed.ptr.injEq] at he; subst he; first | (simp at hq; done) | exact ⟨rfl, _, _, _, _, rfl, rfl⟩)
          | (simp at he; done)
          | (rename_i k; cases k <;> simp only [valueOf] at he <;> first | (simp at he; done) | (split at he <;> simp at he))
      · simp at h
      · simp at h

/-- What a step does to the memory. -/
theorem bodyStep_mem {σ : Type} (b : Body σ) (ps : List PDecl) (slots : List Slot) (st : σ × Mem) :
    (bodyStep b ps slots st).2 = st.2 ∨
    ∃ i q p off v s', slots[i]? = some (.at q) ∧ ps[i]? = some p ∧ off < p.size ∧
      b.next st.1 ((slots.zip ps).map fun x => view st.2 x.1 x.2.size) = some (s', i, off, v) ∧
      (bodyStep b ps slots st).2 = st.2.put ⟨q.obj, q.off + off⟩ v := by
  unfold bodyStep
  split
  · exact Or.inl rfl
  · rename_i s' i off v hn
    split
    · rename_i q p hq hp
      split
      · rename_i hlt
        exact Or.inr ⟨i, q, p, off, v, s', hq, hp, hlt, hn, rfl⟩
      · exact Or.inl rfl
    · exact Or.inl rfl

theorem bodyRun_succ {σ : Type} (b : Body σ) (ps : List PDecl) (slots : List Slot) :
    ∀ (k : Nat) (st : σ × Mem), bodyRun b ps slots (k + 1) st = bodyStep b ps slots (bodyRun b ps slots k st) := by
  intro k
  induction k with
  | zero => intro st; rfl
  | succ k ih => intro st; rw [bodyRun, ih (bodyStep b ps slots st)]; rfl

/-! ### C79: what is lent and what is not -/

/-- C79: whatever the called program does with its parameters, and for however long, the only bytes
of the caller that can change are those of items passed BY REFERENCE: arguments BY CONTENT and BY
VALUE, literals and everything not in the USING list are safe. -/
theorem C79_untouched {σ : Type} (ebc : Bool) (junk : Nat → Nat → Nat) (b : Body σ) (m : Mem)
    (args : List Arg) (ps : List PDecl) (hfit : SizesFit args ps) (j : Nat) (hj : ¬ Lent args j)
    (k : Nat) : (callRun ebc junk b m args ps k .store)[j]? = (m .store)[j]? := by
  unfold callRun
  try dsimp only
  induction k with
  | zero => rw [bodyRun]; dsimp only; rw [enter_store]
  | succ k ih =>
    rw [bodyRun_succ]
    rcases bodyStep_mem b ps (enter ebc junk m args ps).1
      (bodyRun b ps (enter ebc junk m args ps).1 k (b.start, (enter ebc junk m args ps).2)) with h | h
    · rw [h]; exact ih
    · obtain ⟨i, q, p, off, v, s', hq, hp, hoff, _, hm⟩ := h
      rw [hm]
      by_cases ho : q.obj = .store
      · obtain ⟨a, p', ha, hp', hmode, o, size, decl, kd, hx, hqo⟩ := slot_store _ _ _ _ _ _ _ hq ho
        rw [hp] at hp'
        simp only [Option.some.injEq] at hp'
        subst hp'
        have hsz := hfit i a p ha hp o size decl kd hx
        have hne : j ≠ q.off + off := by
          rintro rfl
          exact hj ⟨a, List.mem_of_getElem? ha, hmode, o, size, decl, kd, hx, by omega, by omega⟩
        simp only [Mem.put, ho, if_true]
        rw [List.getElem?_set_ne (by omega)]
        exact ih
      · rw [put_ne _ _ _ _ (by simpa using Ne.symm ho)]
        exact ih

/-- The slot of an item passed BY REFERENCE. -/
theorem slot_ref (ebc : Bool) (junk : Nat → Nat → Nat) (m : Mem) (args : List Arg) (ps : List PDecl)
    (i : Nat) (s : SizeSpec) (off size decl : Nat) (kd : IKind) (p : PDecl)
    (ha : args[i]? = some ⟨.reference, s, .item off size decl kd⟩) (hp : ps[i]? = some p)
    (hb : p.byAddress) : (enter ebc junk m args ps).1[i]? = some (.at ⟨.store, off⟩) := by
  rw [enter_slot ebc junk m args ps i _ p ha hp]
  unfold PDecl.byAddress at hb
  simp [receive, hb, passArg]

/-- C79: an item passed BY REFERENCE is the called program's parameter: at every moment the called
program sees in it exactly the bytes that are then in the caller's item, so that what one of them
stores the other one finds, even when the same item is passed several times or items overlap. -/
theorem C79_reference {σ : Type} (ebc : Bool) (junk : Nat → Nat → Nat) (b : Body σ) (m : Mem)
    (args : List Arg) (ps : List PDecl) (i : Nat) (s : SizeSpec) (off size decl : Nat) (kd : IKind)
    (p : PDecl) (ha : args[i]? = some ⟨.reference, s, .item off size decl kd⟩) (hp : ps[i]? = some p)
    (hb : p.byAddress) (k : Nat) :
    Sees (enter ebc junk m args ps).1 ps (callRun ebc junk b m args ps k) i
      (((callRun ebc junk b m args ps k .store).drop off).take p.size) :=
  ⟨_, p, slot_ref ebc junk m args ps i s off size decl kd p ha hp hb, hp, rfl⟩

/-- C79: a byte the called program stores in a parameter passed BY REFERENCE is then in the caller's
item, at the same place. -/
theorem C79_stores {σ : Type} (ebc : Bool) (junk : Nat → Nat → Nat) (b : Body σ) (m : Mem)
    (args : List Arg) (ps : List PDecl) (i : Nat) (s : SizeSpec) (off size decl : Nat) (kd : IKind)
    (p : PDecl) (ha : args[i]? = some ⟨.reference, s, .item off size decl kd⟩) (hp : ps[i]? = some p)
    (hb : p.byAddress) (st : σ × Mem) (s' : σ) (o v : Nat) (ho : o < p.size)
    (hn : b.next st.1 (((enter ebc junk m args ps).1.zip ps).map fun x => view st.2 x.1 x.2.size) =
      some (s', i, o, v)) :
    ((bodyStep b ps (enter ebc junk m args ps).1 st).2 .store) = (st.2 .store).set (off + o) v := by
  unfold bodyStep
  rw [hn]
  dsimp only
  rw [slot_ref ebc junk m args ps i s off size decl kd p ha hp hb, hp]
  dsimp only
  rw [if_pos ho]
  simp [Mem.put]

/-- The slot of an item passed BY CONTENT. -/
theorem slot_content (ebc : Bool) (junk : Nat → Nat → Nat) (m : Mem) (args : List Arg) (ps : List PDecl)
    (i : Nat) (s : SizeSpec) (off size decl : Nat) (kd : IKind) (p : PDecl)
    (ha : args[i]? = some ⟨.content, s, .item off size decl kd⟩) (hp : ps[i]? = some p)
    (hb : p.byAddress) : (enter ebc junk m args ps).1[i]? = some (.at ⟨.content (i + 1), 0⟩) := by
  rw [enter_slot ebc junk m args ps i _ p ha hp]
  unfold PDecl.byAddress at hb
  simp [receive, hb, passArg]

theorem take_padTo (junk : Nat → Nat) (n k : Nat) (bs : List Nat) (h : k ≤ bs.length) :
    (padTo junk n bs).take k = bs.take k := by
  unfold padTo
  rw [List.take_append_of_le_length h]

/-- C79: the called program finds in a parameter passed BY CONTENT the bytes the caller's item had
when the CALL was made. -/
theorem C79_content (ebc : Bool) (junk : Nat → Nat → Nat) (m : Mem) (args : List Arg)
    (ps : List PDecl) (i : Nat) (s : SizeSpec) (off size decl : Nat) (kd : IKind) (p : PDecl)
    (ha : args[i]? = some ⟨.content, s, .item off size decl kd⟩) (hp : ps[i]? = some p)
    (hb : p.byAddress) (hsz : p.size ≤ size) (hlen : off + size ≤ (m .store).length) :
    Sees (enter ebc junk m args ps).1 ps (enter ebc junk m args ps).2 i
      (((m .store).drop off).take p.size) := by
  refine ⟨_, p, slot_content ebc junk m args ps i s off size decl kd p ha hp hb, hp, ?_⟩
  unfold view Mem.read
  dsimp only
  rw [enter_content ebc junk m args ps i _ (padTo (junk (i + 1)) (max decl 8) (m.read ⟨.store, off⟩ size)) ha
    (by simp [contentOf])]
  rw [List.drop_zero, take_padTo _ _ _ _ (by simp [Mem.read]; omega)]
  unfold Mem.read
  rw [List.take_take, min_eq_left hsz]

/-- The object of another parameter is not the union of parameter `i`. -/
theorem slot_not_content (ebc : Bool) (junk : Nat → Nat → Nat) (m : Mem) (args : List Arg)
    (ps : List PDecl) (i j : Nat) (q : Addr) (h : (enter ebc junk m args ps).1[j]? = some (.at q))
    (hij : j ≠ i) : q.obj ≠ .content (i + 1) ∧ q.obj ≠ .value (i + 1) := by
  have hlen : j < ps.length := by
    have := (List.getElem?_eq_some_iff.mp h).1
    unfold enter at this
    rwa [receiveAll_length] at this
  obtain ⟨p, hp⟩ : ∃ p, ps[j]? = some p := ⟨_, List.getElem?_eq_getElem hlen⟩
  cases ha : args[j]? with
  | none =>
    unfold enter at h
    have := receiveAll_none ps 1 _ _ j (by simp [List.getElem?_map, List.getElem?_zipIdx, ha]) _ h
    exact absurd this (by simp)
  | some a =>
    rw [enter_slot ebc junk m args ps j a p ha hp] at h
    simp only [Option.some.injEq] at h
    obtain ⟨mode, sz, x⟩ := a
    unfold receive at h
    split at h
    · split at h
      · split at h
        · simp only [Slot.at.injEq] at h; subst h
          exact ⟨by simp, by simp; omega⟩
        · simp at h
      · simp at h
    · split at h
      · rename_i q' he
        simp only [Slot.at.injEq] at h
        subst h
        unfold passArg at he
        cases mode <;> cases x <;> simp only at he <;>
          first
          | (simp only [Passed.ptr.injEq] at he; subst he; refine ⟨?_, ?_⟩ <;> simp <;> omega)
          | (simp at he; done)
          | (rename_i k; cases k <;> simp only [valueOf] at he <;> first | (simp at he; done) | (split at he <;> simp at he))
      · simp at h
      · simp at h

/-- C79: a copy passed BY CONTENT is the called program's own: nothing it stores in another
parameter, not even in one that is the same item BY REFERENCE, changes it. -/
theorem C79_content_private {σ : Type} (ebc : Bool) (junk : Nat → Nat → Nat) (b : Body σ) (m : Mem)
    (args : List Arg) (ps : List PDecl) (i : Nat) (s : SizeSpec) (off size decl : Nat) (kd : IKind)
    (p : PDecl) (ha : args[i]? = some ⟨.content, s, .item off size decl kd⟩) (hp : ps[i]? = some p)
    (hb : p.byAddress) (st : σ × Mem) (s' : σ) (j o v : Nat) (hj : j ≠ i)
    (hn : b.next st.1 (((enter ebc junk m args ps).1.zip ps).map fun x => view st.2 x.1 x.2.size) =
      some (s', j, o, v)) (bs : List Nat) (hs : Sees (enter ebc junk m args ps).1 ps st.2 i bs) :
    Sees (enter ebc junk m args ps).1 ps (bodyStep b ps (enter ebc junk m args ps).1 st).2 i bs := by
  obtain ⟨sl, p', hsl, hp', hv⟩ := hs
  rw [slot_content ebc junk m args ps i s off size decl kd p ha hp hb] at hsl
  simp only [Option.some.injEq] at hsl
  rw [hp] at hp'
  simp only [Option.some.injEq] at hp'
  subst hsl; subst hp'
  refine ⟨_, p, slot_content ebc junk m args ps i s off size decl kd p ha hp hb, hp, ?_⟩
  rcases bodyStep_mem b ps (enter ebc junk m args ps).1 st with h | h
  · rw [h]; exact hv
  · obtain ⟨j', q, p', off', v', s'', hq, _, _, hn', hm⟩ := h
    rw [hn] at hn'
    simp only [Option.some.injEq, Prod.mk.injEq] at hn'
    obtain ⟨_, rfl, _, _⟩ := hn'
    rw [hm]
    unfold view Mem.read at hv ⊢
    dsimp only at hv ⊢
    rw [put_ne st.2 ⟨q.obj, q.off + off'⟩ v' _ (Ne.symm (slot_not_content ebc junk m args ps i j q hq hj).1)]
    exact hv

end Cob.Args
