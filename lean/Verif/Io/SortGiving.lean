import Verif.Io.SortStmtProps
/-
C76: GIVING, and the statement as a whole.
-/
namespace Cob

/-- A history that begins with accepted releases: the sorter has them. -/
theorem sortRun_releases (lt : SItem → SItem → Bool) (fs : Nat) (rs : List (Nat × List Nat)) (ops : List SortOp) :
    ∀ (h : Sorter) (obs : List SortObs),
    sortRun lt fs h (rs.map (fun r => SortOp.release r.1 r.2) ++ ops) = some (rs.map (fun _ => ⟨0, none, none⟩) ++ obs) →
    ∃ h', submitAll lt fs rs h = some h' ∧ sortRun lt fs h' ops = some obs := by
  induction rs with
  | nil => intro h obs hh; exact ⟨h, rfl, hh⟩
  | cons r rs ih =>
    intro h obs hh
    simp only [List.map_cons, List.cons_append, sortRun] at hh
    cases hq : sortSubmit lt fs h r.1 r.2 with
    | none => rw [hq] at hh; cases hh
    | some p =>
      obtain ⟨c, h2⟩ := p
      rw [hq] at hh
      dsimp only at hh
      cases hr : sortRun lt fs h2 (rs.map (fun r => SortOp.release r.1 r.2) ++ ops) with
      | none => rw [hr] at hh; cases hh
      | some ob =>
        rw [hr] at hh
        simp only [Option.map_some, Option.some.injEq, List.cons.injEq, SortObs.mk.injEq, and_true] at hh
        have hc : c = 0 := by
          by_contra hc
          rw [if_neg hc] at hh
          exact absurd hh.1 (by decide)
        rw [hh.2] at hr
        obtain ⟨h', m1, m2⟩ := ih h2 obs hr
        refine ⟨h', ?_, m2⟩
        simp only [submitAll, hq, hc, ne_eq, not_true_eq_false, if_false]
        exact m1

theorem sortRetrieve_size (lt : SItem → SItem → Bool) (fs : Nat) (h : Sorter) (c : Nat) (r : Option (List Nat × Option Nat))
    (h' : Sorter) (hh : sortRetrieve lt fs h = some (c, r, h')) : h'.size = h.size := by
  have hp : ∀ h2, sortProcess lt fs h = some h2 → h2.size = h.size := by
    intro h2 he
    unfold sortProcess at he
    dsimp only at he
    split at he
    · cases he
    · split at he
      · cases he; rfl
      · split at he
        · cases he
        · split at he
          · cases he
          · split at he
            · cases he
              dsimp only [Sorter.writeQueue]
              split <;> rfl
            · cases he
  unfold sortRetrieve at hh
  have hx : ∀ h2, (if h.retrieving then some h else sortProcess lt fs h) = some h2 → h2.size = h.size := by
    intro h2 he
    split at he
    · cases he; rfl
    · exact hp h2 he
  cases hq : (if h.retrieving then some h else sortProcess lt fs h) with
  | none => rw [hq] at hh; cases hh
  | some h2 =>
    have e := hx h2 hq
    rw [hq] at hh
    dsimp only at hh
    split at hh
    · split at hh
      · cases hh; exact e
      · split at hh
        · cases hh
        · cases hh; exact e
      · split at hh
        · cases hh
        · cases hh; exact e
    · split at hh
      · cases hh; exact e
      · cases hh; exact e

/-- The writing loop writes the records that RETURN would give, in that order. -/
theorem givingLoop_writes (lt : SItem → SItem → Bool) (fs : Nat) (out : List (List Nat × Option Nat)) :
    ∀ (n : Nat) (os : List OConn) (area : List Nat) (h : Sorter), out.length < n → (∀ r ∈ out, r.1.length = h.size) →
    sortRun lt fs h (List.replicate (out.length + 1) .ret) = some (out.map (fun r => ⟨0, some r.1, r.2⟩) ++ [⟨10, none, none⟩]) →
    ∃ areas : List (List Nat), areas.map (List.take h.size) = out.map Prod.fst ∧ (∀ a ∈ areas, h.size ≤ a.length) ∧
      givingLoop lt fs n os area h = some (0, os.map fun o => areas.foldl (fun o a => o.give h.size a) o) := by
  induction out with
  | nil =>
    intro n os area h hn _ hh
    obtain ⟨n, rfl⟩ : ∃ k, n = k + 1 := ⟨n - 1, by simp at hn; omega⟩
    simp only [List.length_nil, Nat.zero_add, List.replicate_one, sortRun, List.map_nil, List.nil_append] at hh
    refine ⟨[], rfl, by simp, ?_⟩
    unfold givingLoop
    cases hq : sortRetrieve lt fs h with
    | none => rw [hq] at hh; cases hh
    | some p =>
      obtain ⟨c, r, h2⟩ := p
      rw [hq] at hh
      simp only [Option.map_some, Option.some.injEq, List.cons.injEq, SortObs.mk.injEq, and_true] at hh
      have hc : c = 1 := by
        rcases c with _ | _ | c
        · exact absurd hh.1 (by decide)
        · rfl
        · exact absurd hh.1 (by simp [sortStatus])
      subst hc
      simp
  | cons r out ih =>
    intro n os area h hn hlen hh
    obtain ⟨n, rfl⟩ : ∃ k, n = k + 1 := ⟨n - 1, by simp at hn; omega⟩
    rw [List.length_cons, List.replicate_succ] at hh
    simp only [sortRun, List.map_cons, List.cons_append] at hh
    unfold givingLoop
    cases hq : sortRetrieve lt fs h with
    | none => rw [hq] at hh; cases hh
    | some p =>
      obtain ⟨c, q, h2⟩ := p
      rw [hq] at hh
      dsimp only at hh ⊢
      cases hr : sortRun lt fs h2 (List.replicate (out.length + 1) .ret) with
      | none => rw [hr] at hh; cases hh
      | some ob =>
        rw [hr] at hh
        simp only [Option.map_some, Option.some.injEq, List.cons.injEq, SortObs.mk.injEq] at hh
        obtain ⟨⟨g1, g2, g3⟩, g4⟩ := hh
        have hc : c = 0 := by
          rcases c with _ | _ | c
          · rfl
          · exact absurd g1 (by decide)
          · exact absurd g1 (by simp [sortStatus])
        have e := sortRetrieve_size lt fs h c q h2 hq
        rw [if_neg (by omega), g2, Option.getD_some, e]
        rw [g4] at hr
        obtain ⟨areas, m1, m2, m3⟩ := ih n (os.map (OConn.give h.size (overlay r.1 area))) (overlay r.1 area) h2
          (by simp only [List.length_cons] at hn; omega) (fun x hx => by rw [e]; exact hlen x (by simp [hx])) hr
        rw [e] at m1 m2 m3
        have hl := hlen r (by simp)
        refine ⟨overlay r.1 area :: areas, ?_, ?_, ?_⟩
        · rw [List.map_cons, List.map_cons, m1]
          congr 1
          rw [← hl]
          exact overlay_take r.1 area
        · intro a ha
          rcases List.mem_cons.1 ha with rfl | ha
          · unfold overlay
            rw [List.length_append]
            omega
          · exact m2 a ha
        · rw [m3, List.map_map]
          rfl

/-! ### The files written -/

theorem give_seq (size : Nat) (areas : List (List Nat)) : ∀ (f : SeqFile), f.depending = none → f.recMin ≤ f.size →
    f.size ≤ f.recMax → (∀ a ∈ areas, size ≤ a.length) →
    areas.foldl (fun o a => o.give size a) (OConn.seq f) =
      .seq (seqWrites f false (areas.map fun a => fitTo f.size (a.take size))).2 ∧
    (seqWrites f false (areas.map fun a => fitTo f.size (a.take size))).2.size = f.size := by
  induction areas with
  | nil => intro f _ _ _ _; exact ⟨rfl, rfl⟩
  | cons a as ih =>
    intro f hd h1 h2 hl
    rw [List.foldl_cons, List.map_cons]
    have e : OConn.give size a (.seq f) = .seq (seqWrite f false (fitTo f.size (a.take size))).2 := by
      unfold OConn.give seqWrite
      dsimp only
      rw [copyCheck_fit _ _ _ _ (hl a (by simp)), fitTo_length, hd]
      rw [show ({ f with depending := Option.map (fun _ => f.size) none } : SeqFile) = f by rw [Option.map_none, ← hd]]
    have hk : (seqWrite f false (fitTo f.size (a.take size))).2.size = f.size ∧
        (seqWrite f false (fitTo f.size (a.take size))).2.depending = none ∧
        (seqWrite f false (fitTo f.size (a.take size))).2.recMin = f.recMin ∧
        (seqWrite f false (fitTo f.size (a.take size))).2.recMax = f.recMax := by
      unfold seqWrite seqExWrite
      simp only [hd, Option.map_none, Option.getD_none, fitTo_length]
      rw [if_neg (by omega)]
      unfold sequentialWrite
      by_cases hv : f.recMin = f.recMax <;> by_cases hz : f.size = 0 <;> simp [hv, hz]
    have := ih _ hk.2.1 (by omega) (by omega) (fun x hx => hl x (by simp [hx]))
    rw [hk.1] at this
    exact ⟨by rw [e, this.1]; rfl, this.2⟩

theorem give_ls (size : Nat) (areas : List (List Nat)) : ∀ (f : LsFile), f.depending = none → f.linage = none →
    f.needsNl = false → f.recMin ≤ f.size → f.size ≤ f.recMax → (∀ a ∈ areas, size ≤ a.length) →
    (∀ a ∈ areas, f.nulls = false → ∀ b ∈ fitTo f.size (a.take size), b ≠ 10 ∧ b ≠ 13) →
    areas.foldl (fun o a => o.give size a) (OConn.ls f) =
      .ls (lsWrites f (areas.map fun a => (fitTo f.size (a.take size), plainWrite))).2 ∧
    (lsWrites f (areas.map fun a => (fitTo f.size (a.take size), plainWrite))).2.size = f.size := by
  induction areas with
  | nil => intro f _ _ _ _ _ _ _; exact ⟨rfl, rfl⟩
  | cons a as ih =>
    intro f hd hlin hnl h1 h2 hl hb
    rw [List.foldl_cons, List.map_cons]
    have e0 : lsExWrite false f (copyCheck f.size f.area size a) f.size plainWrite =
        lsExWrite false { f with depending := f.depending.map fun _ => (fitTo f.size (a.take size)).length }
          (overlay (fitTo f.size (a.take size)) f.area) (fitTo f.size (a.take size)).length plainWrite := by
      rw [copyCheck_fit _ _ _ _ (hl a (by simp)), fitTo_length, hd]
      rw [show ({ f with depending := Option.map (fun _ => f.size) none } : LsFile) = f by rw [Option.map_none, ← hd]]
    obtain ⟨ts, f', q1, q2, q3, q4, q5, q6, q7, q8, q9⟩ := lsWrite_bytes f (fitTo f.size (a.take size), plainWrite) hlin hnl
      ⟨by rw [fitTo_length]; exact h1, by rw [fitTo_length]; exact h2, hb a (by simp), 1, rfl, fun _ => Nat.le_refl 1⟩
    dsimp only at q1
    have hk : f'.size = f.size ∧ f'.depending = none := by
      have := congrArg (fun x => (x.2.2.size, x.2.2.depending)) q1
      simp only [Prod.mk.injEq] at this
      rw [← this.1, ← this.2]
      unfold lsExWrite
      dsimp only
      rw [hd, Option.map_none, Option.getD_none, fitTo_length, if_neg (by omega)]
      refine ⟨rfl, ?_⟩
      unfold lineseqWrite fileWriteOpt
      simp [hlin, plainWrite, hnl]
    have e : OConn.give size a (.ls f) = .ls f' := by
      unfold OConn.give
      dsimp only
      rw [e0, q1]
    have := ih f' hk.2 q2 q3 (by omega) (by omega) (fun x hx => hl x (by simp [hx])) (by
      intro x hx hn
      rw [hk.1]
      exact hb x (by simp [hx]) (by rw [← q4]; exact hn))
    rw [hk.1] at this
    rw [e]
    simp only [lsWrites, q1]
    exact this

theorem readAll_seq (n : Nat) : ∀ f : SeqFile, readAll (.seq f) n = (seqRun f (List.replicate n .read)).1 := by
  induction n with
  | zero => intro f; rfl
  | succ n ih =>
    intro f
    rw [List.replicate_succ]
    simp only [readAll, seqRun, seqStep, OConn.read, OConn.size, OConn.area, ih]
    rfl

theorem readAll_ls (n : Nat) : ∀ f : LsFile, readAll (.ls f) n = lsReads f n := by
  induction n with
  | zero => intro f; rfl
  | succ n ih =>
    intro f
    simp only [readAll, lsReads, OConn.read, OConn.size, OConn.area, ih]
    rfl

/-- A program that reads the file after GIVING. -/
theorem given_has (c : SConn) (hok : GivingOk c) (size : Nat) (areas : List (List Nat)) (hl : ∀ a ∈ areas, size ≤ a.length)
    (hb : ∀ a ∈ areas, HoldsBytes c (fitTo c.recMax (a.take size))) :
    FileHas (c.closed (areas.foldl (fun o a => o.give size a) (c.opened []))) (areas.map fun a => fitTo c.recMax (a.take size)) := by
  obtain ⟨k1, k2, k3, k4, k5⟩ := hok
  unfold FileHas
  dsimp only [SConn.closed]
  unfold SConn.opened
  unfold HoldsBytes at hb
  by_cases hline : c.line = true
  · simp only [hline, if_true] at hb ⊢
    obtain ⟨g1, g2⟩ := give_ls size areas ⟨c.nulls, c.fixedLen, c.recMin, c.recMax, ⟨[], 0⟩, c.size, c.area, c.depending, false,
      false, none⟩ k1 rfl rfl (by dsimp only; omega) (by dsimp only; omega) hl (by
        intro a ha hn b hb'
        rw [k2] at hb'
        exact hb a ha hn b hb')
    rw [g1]
    dsimp only [OConn.size, OConn.area, OConn.depending, OConn.data]
    rw [readAll_ls, g2]
    dsimp only
    have hrt := (C38_round_trip c.nulls c.fixedLen c.recMin c.recMax
      (areas.map fun a => (fitTo c.recMax (a.take size), plainWrite)) c.area
      (lsWrites ⟨c.nulls, c.fixedLen, c.recMin, c.recMax, ⟨[], 0⟩, c.size, c.area, c.depending, false, false, none⟩
        (areas.map fun a => (fitTo c.size (a.take size), plainWrite))).2.area c.depending
      (lsWrites ⟨c.nulls, c.fixedLen, c.recMin, c.recMax, ⟨[], 0⟩, c.size, c.area, c.depending, false, false, none⟩
        (areas.map fun a => (fitTo c.size (a.take size), plainWrite))).2.depending (by
        intro w hw
        obtain ⟨a, ha, rfl⟩ := List.mem_map.1 hw
        exact ⟨by rw [fitTo_length]; exact k4, by rw [fitTo_length], hb a ha, 1, rfl, fun _ => Nat.le_refl 1⟩)).2
    have hw : ((areas.map fun a => (fitTo c.recMax (a.take size), plainWrite)).flatMap written) =
        areas.map fun a => fitTo c.recMax (a.take size) := by
      clear g1 g2 hrt hb hl
      induction areas with
      | nil => rfl
      | cons a as ih =>
        rw [List.map_cons, List.flatMap_cons, ih]
        rfl
    rw [hw] at hrt
    dsimp only [lsOpen] at hrt
    rw [k2] at hrt ⊢
    rw [hrt]
    rw [List.map_map, List.map_map]
    congr 1
    apply List.map_congr_left
    intro a _
    simp [fitTo_length]
  · simp only [hline, Bool.false_eq_true, if_false] at hb ⊢
    obtain ⟨g1, g2⟩ := give_seq size areas ⟨c.recMin, c.recMax, ⟨[], 0⟩, c.size, c.area, c.depending, false, false⟩ k1
      (by dsimp only; omega) (by dsimp only; omega) hl
    rw [g1]
    dsimp only [OConn.size, OConn.area, OConn.depending, OConn.data]
    rw [readAll_seq, g2]
    dsimp only
    rw [k2]
    have hrt := C37_read_back c.recMin c.recMax (areas.map fun a => fitTo c.recMax (a.take size)) c.area
      (seqWrites ⟨c.recMin, c.recMax, ⟨[], 0⟩, c.recMax, c.area, c.depending, false, false⟩ false
        (areas.map fun a => fitTo c.recMax (a.take size))).2.area c.depending
      (seqWrites ⟨c.recMin, c.recMax, ⟨[], 0⟩, c.recMax, c.area, c.depending, false, false⟩ false
        (areas.map fun a => fitTo c.recMax (a.take size))).2.depending k3 (by
      intro r hr
      obtain ⟨a, ha, rfl⟩ := List.mem_map.1 hr
      refine ⟨?_, ?_, ?_, ?_, hb a ha⟩ <;> rw [fitTo_length]
      · exact k3
      · exact k4
      · exact k5 (by simpa using hline))
    unfold seqOpen at hrt
    exact hrt

theorem closeAll_not (ks : List Nat) : ∀ (os : List OConn) (f : SFiles) (k : Nat), k ∉ ks → closeAll ks os f k = f k := by
  induction ks with
  | nil => intro os f k _; cases os <;> rfl
  | cons j ks ih =>
    intro os f k hk
    rw [List.mem_cons, not_or] at hk
    cases os with
    | nil => rfl
    | cons o os =>
      simp only [closeAll]
      rw [ih os _ k hk.2]
      simp only [SFiles.set, if_neg hk.1]

theorem closeAll_mem (ks : List Nat) (F : Nat → OConn) : ∀ (f : SFiles) (k : Nat), ks.Nodup → k ∈ ks →
    closeAll ks (ks.map F) f k = (f k).closed (F k) := by
  induction ks with
  | nil => intro f k _ hk; cases hk
  | cons j ks ih =>
    intro f k hnd hk
    have hnd' := List.nodup_cons.1 hnd
    simp only [List.map_cons, closeAll]
    by_cases hkj : k = j
    · subst hkj
      rw [closeAll_not ks _ _ k hnd'.1]
      simp only [SFiles.set, if_true]
    · rw [ih _ k hnd'.2 ((List.mem_cons.1 hk).resolve_left hkj)]
      simp only [SFiles.set, if_neg hkj]

theorem sortSpec_all (rs : List (Nat × List Nat)) (out : List (List Nat × Option Nat)) :
    sortSpec out false (rs.map (fun r => SortOp.release r.1 r.2) ++ List.replicate (out.length + 1) .ret) =
      rs.map (fun _ => ⟨0, none, none⟩) ++ (out.map (fun r => ⟨0, some r.1, r.2⟩) ++ [⟨10, none, none⟩]) := by
  have key : ∀ (out : List (List Nat × Option Nat)) (b : Bool), sortSpec out b (List.replicate (out.length + 1) .ret) =
      out.map (fun r => ⟨0, some r.1, r.2⟩) ++ [⟨10, none, none⟩] := by
    intro out
    induction out with
    | nil => intro b; cases b <;> rfl
    | cons r out ih =>
      intro b
      rw [List.length_cons, List.replicate_succ]
      simp only [sortSpec, ih, List.map_cons, List.cons_append]
  induction rs with
  | nil => exact key out false
  | cons r rs ih => simp only [List.map_cons, List.cons_append, sortSpec, ih]

theorem released_all (rs : List (Nat × List Nat)) (n : Nat) :
    released (rs.map (fun r => SortOp.release r.1 r.2) ++ List.replicate n .ret) = rs := by
  induction rs with
  | nil => cases n <;> rfl
  | cons r rs ih => simp only [List.map_cons, List.cons_append, released, ih]

/-- The sorter with the records `rs`, and what RETURN gives. -/
theorem sorted_all (ebc : Bool) (col : Option (Nat → Nat)) (ks : List SortKey) (size memory fs : Nat) (rs : List (Nat × List Nat))
    (hv : ∀ x ∈ rs, x.2.length = size ∧ RecValid ebc ks x.2) (hn : rs.length < 2 ^ 64) (hm : 4 ≤ memory ∨ rs.length ≤ memory)
    (hf : 2 * rs.length + 3 ≤ fs) :
    ∃ o h, SortedReleases ebc col ks rs o ∧ submitAll (sortLt ebc col ks) fs rs (.init size memory) = some h ∧ h.size = size ∧
      ∃ out : List (List Nat × Option Nat), out.map Prod.fst = o.map (fun a => a.1.2) ∧
        sortRun (sortLt ebc col ks) fs h (List.replicate (out.length + 1) .ret) =
          some (out.map (fun r => ⟨0, some r.1, r.2⟩) ++ [⟨10, none, none⟩]) := by
  obtain ⟨o, h1, h2⟩ := C40_sort ebc col ks size memory fs
    (rs.map (fun r => SortOp.release r.1 r.2) ++ List.replicate (rs.length + 1) .ret)
    (by rw [released_all]; exact hv) (by rw [released_all]; exact hn) (by rw [released_all]; exact hm)
    (by rw [released_all]; exact hf)
  rw [released_all] at h1 h2
  have hl : o.length = rs.length := by rw [h1.1.length_eq, List.length_zipIdx]
  generalize hout : (o.map fun a => (a.1.2, if rs.length ≤ memory then some a.1.1 else none)) = out at h2
  have hol : out.length = rs.length := by rw [← hout, List.length_map, hl]
  rw [← hol, sortSpec_all] at h2
  obtain ⟨h, m1, m2⟩ := sortRun_releases _ fs rs _ _ _ h2
  refine ⟨o, h, h1, m1, submitAll_size _ fs rs _ _ m1, out, ?_, m2⟩
  rw [← hout, List.map_map]
  rfl

/-- GIVING after the records have been given to the sorter. -/
theorem sortGiving_all (ebc : Bool) (col : Option (Nat → Nat)) (ks : List SortKey) (size fs fuel : Nat)
    (h : Sorter) (hsz : h.size = size) (out : List (List Nat × Option Nat)) (hlen : ∀ r ∈ out, r.1.length = size)
    (hrun : sortRun (sortLt ebc col ks) fs h (List.replicate (out.length + 1) .ret) =
      some (out.map (fun r => ⟨0, some r.1, r.2⟩) ++ [⟨10, none, none⟩]))
    (gs : List Nat) (hnd : gs.Nodup) (f : SFiles) (area : List Nat) (hf : out.length < fuel)
    (hg : ∀ g ∈ gs, GivingOk (f g)) (hb : ∀ g ∈ gs, ∀ r ∈ out, HoldsBytes (f g) (fitTo (f g).recMax r.1)) :
    ∃ f', sortGiving (sortLt ebc col ks) fs fuel gs f area h = some (0, f') ∧
      (∀ g ∈ gs, FileHas (f' g) (out.map fun r => fitTo (f g).recMax r.1)) ∧ (∀ k, k ∉ gs → f' k = f k) := by
  obtain ⟨areas, m1, m2, m3⟩ := givingLoop_writes (sortLt ebc col ks) fs out fuel (gs.map fun g => (f g).opened []) area h hf
    (by rw [hsz]; exact hlen) hrun
  rw [hsz] at m1 m2 m3
  unfold sortGiving
  rw [m3]
  refine ⟨_, rfl, ?_, ?_⟩
  · intro g hgm
    rw [List.map_map, closeAll_mem gs _ f g hnd hgm]
    have hmap : ∀ F : List Nat → List Nat, areas.map (fun a => F (a.take size)) = out.map fun r => F r.1 := by
      intro F
      have := congrArg (List.map F) m1
      rw [List.map_map, List.map_map] at this
      exact this
    have := given_has (f g) (hg g hgm) size areas m2 (by
      intro a ha
      have : a.take size ∈ out.map Prod.fst := by rw [← m1]; exact List.mem_map.2 ⟨a, ha, rfl⟩
      obtain ⟨r, hr, e⟩ := List.mem_map.1 this
      rw [← e]
      exact hb g hgm r hr)
    rw [hmap (fitTo (f g).recMax)] at this
    exact this
  · intro k hk
    exact closeAll_not gs _ f k hk

/-! ### C76 -/

/-- **C76.** SORT (or MERGE) USING `us` GIVING `gs`.  The records of the USING files, read one file after the other and made as
long as the sort record, are sorted by the keys, records with equal keys in the order of the files and within a file in the
order of reading; every GIVING file then holds exactly these records, made as long as its own record.  SORT-RETURN is 0, all
other files are as they were.  A file may be both read and written. -/
theorem C76_using_giving (ebc : Bool) (col : Option (Nat → Nat)) (ks : List SortKey) (size memory fs fuel : Nat) (dep : Option Nat)
    (us gs : List Nat) (f : SFiles) (area : List Nat) (rss : List (List (List Nat))) (hu : us.Nodup) (hgn : gs.Nodup)
    (hr : List.Forall₂ (fun u rs => FileHas (f u) rs) us rss)
    (hv : ∀ r ∈ rss.flatten, RecValid ebc ks (fitTo size r))
    (hn : rss.flatten.length < 2 ^ 64) (hm : 4 ≤ memory ∨ rss.flatten.length ≤ memory)
    (hfs : 2 * rss.flatten.length + 3 ≤ fs) (hfuel : rss.flatten.length < fuel)
    (hg : ∀ g ∈ gs, GivingOk (f g) ∧ ((f g).line = true ∨ (f g).recMin = (f g).recMax ∨ g ∉ us))
    (hb : ∀ g ∈ gs, ∀ r ∈ rss.flatten, HoldsBytes (f g) (fitTo (f g).recMax (fitTo size r))) :
    ∃ o f', SortedReleases ebc col ks (rss.flatten.map fun r => (dep.getD size, fitTo size r)) o ∧
      sortStmt (sortLt ebc col ks) fs fuel size memory dep us gs f area = some (0, f') ∧
      (∀ g ∈ gs, FileHas (f' g) (o.map fun a => fitTo (f g).recMax a.1.2)) ∧
      (∀ k, k ∉ gs → (f' k).disk = (f k).disk) := by
  have hl : (rss.flatten.map fun r => (dep.getD size, fitTo size r)).length = rss.flatten.length := List.length_map _
  obtain ⟨o, h, h1, h2, h3, out, h4, h5⟩ := sorted_all ebc col ks size memory fs
    (rss.flatten.map fun r => (dep.getD size, fitTo size r)) (by
      intro x hx
      obtain ⟨r, hr, rfl⟩ := List.mem_map.1 hx
      exact ⟨fitTo_length _ _, hv r hr⟩) (by rw [hl]; exact hn) (by rw [hl]; exact hm) (by rw [hl]; exact hfs)
  have hlen : ∀ rs ∈ rss, rs.length < fuel := by
    intro rs hrs
    have : rs.length ≤ rss.flatten.length := (List.sublist_flatten_of_mem hrs).length_le
    omega
  have hr' : List.Forall₂ (fun u rs => FileHas (f u) rs ∧ rs.length < fuel) us rss := by
    clear hv hn hm hfs hfuel hb h1 h2 hl
    induction hr with
    | nil => exact .nil
    | cons a _ ih =>
      exact .cons ⟨a, hlen _ (by simp)⟩ (ih (List.nodup_cons.1 hu).2 (fun g hg' => ⟨(hg g hg').1, by
        rcases (hg g hg').2 with h | h | h
        · exact .inl h
        · exact .inr (.inl h)
        · exact .inr (.inr fun hh => h (by simp [hh]))⟩) fun rs hrs => hlen rs (by simp [hrs]))
  obtain ⟨f1, area1, g1, g2, g3⟩ := sortUsings_reads (sortLt ebc col ks) fs fuel dep us f rss area (.init size memory) h hu hr' h2
  have hoe : ∀ r ∈ out, ∃ q ∈ rss.flatten, r.1 = fitTo size q := by
    intro r hr
    have : r.1 ∈ o.map fun a => a.1.2 := by rw [← h4]; exact List.mem_map.2 ⟨r, hr, rfl⟩
    obtain ⟨a, ha, e⟩ := List.mem_map.1 this
    have := List.fst_mem_of_mem_zipIdx (h1.1.mem_iff.1 ha)
    obtain ⟨q, hq, e2⟩ := List.mem_map.1 this
    exact ⟨q, hq, by rw [← e, ← e2]⟩
  have hol : out.length = rss.flatten.length := by
    have := congrArg List.length h4
    rw [List.length_map, List.length_map] at this
    rw [this, h1.1.length_eq, List.length_zipIdx, hl]
  obtain ⟨f2, k1, k2, k3⟩ := sortGiving_all ebc col ks size fs fuel h h3 out (by
      intro r hr
      obtain ⟨q, _, e⟩ := hoe r hr
      rw [e, fitTo_length]) h5 gs hgn f1 area1 (by omega) (by
      intro g hgm
      obtain ⟨⟨a1, a2, a3, a4, a5⟩, hx⟩ := hg g hgm
      have hs := g2 g
      refine ⟨hs.dep a1, ?_, by rw [hs.recMax]; exact a3, by rw [hs.recMin, hs.recMax]; exact a4, by
        rw [hs.line, hs.recMin, hs.recMax]; exact a5⟩
      rw [hs.recMax]
      rcases hx with h | h | h
      · rw [hs.size (.inl h), a2]
      · rw [hs.size (.inr h), a2]
      · rw [g3 g h, a2]) (by
      intro g hgm r hr
      obtain ⟨q, hq, e⟩ := hoe r hr
      have := hb g hgm q hq
      unfold HoldsBytes at this ⊢
      rw [(g2 g).line, (g2 g).nulls, (g2 g).recMax, e]
      exact this)
  refine ⟨o, f2, h1, ?_, ?_, ?_⟩
  · unfold sortStmt
    rw [g1]
    exact k1
  · intro g hgm
    have := k2 g hgm
    rw [(g2 g).recMax] at this
    have e : (out.map fun r => fitTo (f g).recMax r.1) = o.map fun a => fitTo (f g).recMax a.1.2 := by
      have := congrArg (List.map (fitTo (f g).recMax)) h4
      rw [List.map_map, List.map_map] at this
      exact this
    rw [e] at this
    exact this
  · intro k hk
    rw [k3 k hk, (g2 k).disk]

end Cob
