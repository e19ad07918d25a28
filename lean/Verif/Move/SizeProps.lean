import Verif.Rt.Termio
import Verif.Move.NumericLemmas
import Verif.Num.FastPathProps
import Verif.Num.AddPackedProps
import Verif.Cobc.Move
/-
C54: numeric statements keep the description and the size of their receiver, whatever its contents and whatever
the value stored.
-/
namespace Cob

/-- Same USAGE, same attributes, same number of bytes. -/
def SameShape (a b : Item) : Prop :=
  b.usage = a.usage ∧ b.field.attr = a.field.attr ∧ b.field.data.length = a.field.data.length

/-- The same for fields. -/
def SameField (a b : Field) : Prop := b.attr = a.attr ∧ b.data.length = a.data.length

theorem SameField.refl (f : Field) : SameField f f := ⟨rfl, rfl⟩

theorem SameField.trans {f g h : Field} (h1 : SameField f g) (h2 : SameField g h) : SameField f h :=
  ⟨h2.1.trans h1.1, h2.2.trans h1.2⟩

theorem SameShape.of (us : Usage) (f g : Field) (h : SameField f g) : SameShape ⟨us, f⟩ ⟨us, g⟩ := ⟨rfl, h.1, h.2⟩

theorem putSign_same (ebc : Bool) (f : Field) (s : Int) : SameField f (f.putSign ebc s) := by
  unfold Field.putSign
  split
  · exact .refl f
  · exact ⟨rfl, by simp⟩

theorem getSign_same (ebc : Bool) (f : Field) : SameField f (f.getSign ebc).2 := by
  unfold Field.getSign
  split
  · exact .refl f
  · simp only
    split
    · exact .refl f
    · exact ⟨rfl, by simp⟩

theorem wfDisplay_same (f g : Field) (h : SameField f g) (hw : WFDisplay f) : WFDisplay g := by
  unfold WFDisplay at *
  rw [h.1, h.2]; exact hw

theorem dsize_same (f g : Field) (h : SameField f g) : g.dsize = f.dsize := by
  unfold Field.dsize; rw [h.1, h.2]

theorem storeDigits_same (f : Field) (hw : WFDisplay f) (bs : List Nat) (hb : bs.length = f.dsize) : SameField f (f.storeDigits bs) := by
  refine ⟨rfl, ?_⟩
  obtain ⟨_, h2⟩ := hw
  unfold Field.dsize at hb
  simp only [Field.storeDigits, List.length_append, List.length_take, List.length_drop, hb]
  unfold Field.dataOff
  cases hs : f.attr.separate <;> cases hl : f.attr.leading <;> simp [hs] at h2 ⊢ <;> omega

theorem digitBytes_length (f : Field) (hw : WFDisplay f) : f.digitBytes.length = f.dsize := by
  obtain ⟨_, h2⟩ := hw
  unfold Field.digitBytes Field.dsize Field.dataOff
  cases hs : f.attr.separate <;> cases hl : f.attr.leading <;> simp [hs] at h2 ⊢

theorem binSet_same (f : Field) (h : f.data.length ≤ 8) (n : Int) : SameField f (binSet f n) := by
  unfold binSet
  simp only
  split
  · exact ⟨rfl, by simp [bswapBytes, leBytes_length]; omega⟩
  · exact ⟨rfl, by simp [leBytes_length]; omega⟩

theorem setSignNibble_length (data : List Nat) (n : Nat) : (setSignNibble data n).length = data.length := by
  simp [setSignNibble]

theorem packLoop_length (q : List Nat) (i p : Nat) (data : List Nat) : (packLoop q i p data).length = data.length := by
  induction q generalizing i p data with
  | nil => rfl
  | cons x q ih => unfold packLoop; split <;> rw [ih] <;> simp

theorem storeRegion_same (f : Field) (hw : WFDisplay f) (bs : List Nat) (s : Int) : SameField f (storeCommonRegion f bs s) :=
  storeDigits_same f hw _ (commonRegion_length _ _ _ _)

theorem moveFromDisp_same (ebc cut : Bool) (f1 : Field) (dst : Item) (hw : WFItem dst) (it : Item)
    (h : moveFromDisp ebc cut f1 dst = .done it) : SameShape dst it := by
  obtain ⟨us, f⟩ := dst
  unfold moveFromDisp at h
  cases us with
  | display =>
    simp only [MoveRes.done.injEq] at h
    subst h
    exact .of _ _ _ ((storeRegion_same f hw _ _).trans (putSign_same _ _ _))
  | packed =>
    simp only at h
    unfold moveDispPacked at h
    simp only at h
    split at h
    · rename_i r hr
      simp only [MoveRes.done.injEq] at h
      subst h
      split at hr
      · simp only [Option.some.injEq] at hr
        subst hr
        exact .of _ _ _ ⟨rfl, by simp⟩
      · rw [Option.map_eq_some_iff] at hr
        obtain ⟨ns, _, rfl⟩ := hr
        exact .of _ _ _ ⟨rfl, by simp [setSignNibble_length, packNibLoop_length]⟩
    · cases h
  | binary =>
    simp only at h
    split at h <;> (try cases h)
    rename_i r hr
    unfold moveDispBin at hr
    simp only at hr
    split at hr
    · simp only [MoveOut.done.injEq] at hr
      subst hr
      exact .of _ _ _ ⟨rfl, by simp⟩
    · split at hr
      · cases hr
      · split at hr
        · cases hr
        · simp only [MoveOut.done.injEq] at hr
          subst hr
          exact .of _ _ _ (binSet_same f hw.2.1 _)

/-- C54: MOVE between numeric items. -/
theorem C54_move (ebc cut : Bool) (src dst it : Item) (hw : WFItem dst) (h : cobMoveNum ebc cut src dst = .done it) :
    SameShape dst it := by
  obtain ⟨us, f⟩ := dst
  unfold cobMoveNum at h
  cases hs : src.usage with
  | display => simp only [hs] at h; exact moveFromDisp_same _ _ _ _ hw _ h
  | packed =>
    simp only [hs] at h
    cases us with
    | display =>
      simp only [MoveRes.done.injEq] at h
      subst h
      exact .of _ _ _ ((storeRegion_same f hw _ _).trans (putSign_same _ _ _))
    | packed => exact moveFromDisp_same _ _ _ _ hw _ h
    | binary => exact moveFromDisp_same _ _ _ _ hw _ h
  | binary =>
    simp only [hs] at h
    cases us with
    | display =>
      simp only [MoveRes.done.injEq] at h
      subst h
      exact .of _ _ _ ((storeRegion_same f hw _ _).trans (putSign_same _ _ _))
    | packed => exact moveFromDisp_same _ _ _ _ hw _ h
    | binary => exact moveFromDisp_same _ _ _ _ hw _ h

theorem copyDigits_length (dp sep : Nat) (s : List Nat) (room pt : Nat) (w : List Nat) (h : copyDigits dp sep s room pt = some w) :
    w.length ≤ room := by
  induction s generalizing room pt w with
  | nil => simp [copyDigits] at h; subst h; simp
  | cons c s ih =>
    cases room with
    | zero => simp [copyDigits] at h; subst h; simp
    | succ room =>
      unfold copyDigits at h
      split at h
      · rw [Option.map_eq_some_iff] at h
        obtain ⟨w', hw', rfl⟩ := h
        have := ih room pt w' hw'
        simpa using this
      · split at h
        · split at h
          · cases h
          · exact ih _ _ _ h
        · split at h
          · exact ih _ _ _ h
          · cases h

theorem moveAlnumDisp_same (ebc : Bool) (dp sep : Nat) (src : List Nat) (f r : Field) (hw : WFDisplay f)
    (h : moveAlnumDisp ebc dp sep src f = .done r) : SameField f r := by
  unfold moveAlnumDisp at h
  simp only at h
  have hz : SameField f { f with data := List.replicate f.data.length 48 } := ⟨rfl, by simp⟩
  split at h
  · cases h
  · rename_i off s hst
    split at h
    · simp only [TextMove.done.injEq] at h
      subst h
      exact hz.trans (putSign_same _ _ _)
    · rename_i w hc
      simp only [TextMove.done.injEq] at h
      subst h
      refine hz.trans ((storeDigits_same _ (wfDisplay_same _ _ hz hw) _ ?_).trans (putSign_same _ _ _))
      rw [dsize_same _ _ hz]
      have := copyDigits_length _ _ _ _ _ _ hc
      simp only [List.length_append, List.length_replicate]
      split
      · simp; omega
      · omega

/-- C54: MOVE or ACCEPT of text into a number, whether the text is a number or not. -/
theorem C54_text (ebc cut : Bool) (dp sep : Nat) (src : List Nat) (dst it : Item) (hw : WFItem dst)
    (h : textToItem ebc cut dp sep src dst = .done it) : SameShape dst it := by
  obtain ⟨us, f⟩ := dst
  unfold textToItem at h
  cases us with
  | display =>
    simp only at h
    split at h
    · rename_i r hr
      simp only [MoveRes.done.injEq] at h
      subst h
      exact .of _ _ _ (moveAlnumDisp_same _ _ _ _ _ _ hw hr)
    · cases h
  | packed =>
    simp only at h
    split at h
    · exact moveFromDisp_same _ _ _ _ hw _ h
    · cases h
  | binary =>
    simp only at h
    split at h
    · exact moveFromDisp_same _ _ _ _ hw _ h
    · cases h

/-- C54: storing the result of an arithmetic statement, whatever the result and the options. -/
theorem C54_store (ebc : Bool) (d : Dec) (it : Item) (hw : WFItem it) (opt : StoreOpt) : SameShape it (storeItem ebc d it opt).item := by
  unfold storeItem
  split
  · exact ⟨rfl, rfl, rfl⟩
  · obtain ⟨us, f⟩ := it
    simp only
    generalize (d.toFieldScale f.attr.scale opt.round).value = v
    cases us with
    | display =>
      refine .of _ _ _ ?_
      unfold decGetDisplay
      simp only
      split
      · split
        · exact .refl _
        · exact (storeDigits_same f hw _ (by simp; omega)).trans (putSign_same _ _ _)
      · exact (storeDigits_same f hw _ (by simp; omega)).trans (putSign_same _ _ _)
    | packed =>
      refine .of _ _ _ ?_
      unfold decGetPacked
      simp only
      split
      · exact .refl _
      · exact ⟨rfl, by simp [setSignNibble_length, packLoop_length]⟩
    | binary =>
      refine .of _ _ _ ?_
      have h8 := hw.2.1
      simp only at h8 ⊢
      unfold decGetBinary
      simp only
      split_ifs <;> first | exact .refl _ | exact ⟨rfl, by simp⟩ | exact binSet_same _ h8 _

theorem decSetDisplay_same (ebc : Bool) (f : Field) : SameField f (decSetDisplay ebc f).2 := by
  unfold decSetDisplay
  simp only
  split
  · exact .refl _
  · split
    · exact .refl _
    · exact (getSign_same ebc f).trans (putSign_same _ _ _)

theorem readItem_same (ebc : Bool) (it : Item) : SameShape it (readItem ebc it).2 := by
  obtain ⟨us, f⟩ := it
  cases us with
  | display => exact .of _ _ _ (decSetDisplay_same ebc f)
  | packed => exact ⟨rfl, rfl, rfl⟩
  | binary => exact ⟨rfl, rfl, rfl⟩

theorem wfItem_length (a b : Item) (h : SameShape a b) (hw : WFItem a) (hu : a.usage ≠ .binary) : WFItem b := by
  obtain ⟨ua, fa⟩ := a
  obtain ⟨ub, fb⟩ := b
  obtain ⟨h1, h2, h3⟩ := h
  simp only at h1 h2 h3 hu
  subst h1
  cases ub with
  | display => exact wfDisplay_same _ _ ⟨h2, h3⟩ hw
  | packed =>
    obtain ⟨w1, w2⟩ := hw
    simp only at w1 w2
    exact ⟨by simp only; rw [h2]; exact w1, by simp only; rw [h2, h3]; exact w2⟩
  | binary => exact absurd rfl hu

theorem readItem_wf (ebc : Bool) (it : Item) (hw : WFItem it) : WFItem (readItem ebc it).2 := by
  by_cases hu : it.usage = .binary
  · unfold readItem
    simp only [hu]
    exact hw
  · exact wfItem_length _ _ (readItem_same ebc it) hw hu

/-- C54: ADD and SUBTRACT, whatever the operands contain. -/
theorem C54_add_sub (ebc : Bool) (f1 f2 : Item) (opt : StoreOpt) (hw : WFItem f1) (r : ItemRes)
    (h : cobAdd ebc f1 f2 opt = some r ∨ cobSub ebc f1 f2 opt = some r) : SameShape f1 r.item := by
  have h1 := readItem_same ebc f1
  have hw1 := readItem_wf ebc f1 hw
  have key : ∀ d, SameShape f1 (storeItem ebc d (readItem ebc f1).2 opt).item := fun d => by
    have h2 := C54_store ebc d (readItem ebc f1).2 hw1 opt
    exact ⟨h2.1.trans h1.1, h2.2.1.trans h1.2.1, h2.2.2.trans h1.2.2⟩
  rcases h with h | h
  · unfold cobAdd at h
    split at h
    · rename_i d1 i1 d2 i2 e1 e2
      simp only [Option.some.injEq] at h
      subst h
      have := key (d1.add d2)
      rwa [e1] at this
    · cases h
  · unfold cobSub at h
    split at h
    · rename_i d1 i1 d2 i2 e1 e2
      simp only [Option.some.injEq] at h
      subst h
      have := key (d1.sub d2)
      rwa [e1] at this
    · cases h

theorem carryUp_length (l : List Nat) : (carryUp l).1.length = l.length := by
  induction l with
  | nil => rfl
  | cons b t ih => unfold carryUp; split <;> simp [ih]

theorem borrowUp_length (l : List Nat) : (borrowUp l).1.length = l.length := by
  induction l with
  | nil => rfl
  | cons b t ih => unfold borrowUp; split <;> simp [ih]

theorem addLoop_length (l : List Nat) (n c : Nat) : (addLoop l n c).1.length = l.length := by
  induction l generalizing n c with
  | nil => unfold addLoop; split <;> (try split) <;> simp [carryUp]
  | cons b t ih =>
    unfold addLoop
    split
    · split
      · rfl
      · exact carryUp_length _
    · simp [ih]

theorem subLoop_length (l : List Nat) (n c : Nat) : (subLoop l n c).1.length = l.length := by
  induction l generalizing n c with
  | nil => unfold subLoop; split <;> (try split) <;> simp [borrowUp]
  | cons b t ih =>
    unfold subLoop
    split
    · split
      · rfl
      · exact borrowUp_length _
    · simp [ih]

theorem displayAddInt_length (bt : Bool) (l : List Nat) (n : Nat) : (displayAddInt bt l n).1.length = l.length := by
  simp [displayAddInt, addLoop_length]

theorem displaySubInt_length (l : List Nat) (n : Nat) : (displaySubInt l n).1.length = l.length := by
  simp [displaySubInt, subLoop_length]

theorem cobDisplayAddInt_same (ebc bt : Bool) (f : Field) (hw : WFDisplay f) (n : Int) : SameField f (cobDisplayAddInt ebc bt f n).1 := by
  have hg := getSign_same ebc f
  have hwg := wfDisplay_same _ _ hg hw
  have hd := digitBytes_length _ hwg
  unfold cobDisplayAddInt
  simp only
  generalize scaledInt f.attr.scale (if (f.getSign ebc).1 < 0 then -n else n) = m
  split_ifs
  · exact hg.trans (putSign_same _ _ _)
  · exact hg.trans ((storeDigits_same _ hwg _ (by rw [displayAddInt_length, hd])).trans (putSign_same _ _ _))
  · exact hg.trans ((storeDigits_same _ hwg _ (by rw [displayAddInt_length, List.length_map, displaySubInt_length, hd])).trans (putSign_same _ _ _))
  · exact hg.trans ((storeDigits_same _ hwg _ (by rw [displaySubInt_length, hd])).trans (putSign_same _ _ _))
  · exact hg.trans (putSign_same _ _ _)

theorem packedAddLoop_length (subtr : Bool) (k : Nat) (data : List Nat) (p : Nat) (msn : Bool) (v c z : Nat) :
    (packedAddLoop subtr k data p msn v c z).1.length = data.length := by
  induction k generalizing data p msn v c z with
  | zero => rfl
  | succ k ih => unfold packedAddLoop; simp only; rw [ih]; simp [setNib]

theorem packedComplLoop_length (k : Nat) (data : List Nat) (p : Nat) (msn : Bool) (c : Nat) :
    (packedComplLoop k data p msn c).length = data.length := by
  induction k generalizing data p msn c with
  | zero => rfl
  | succ k ih => unfold packedComplLoop; simp only; rw [ih]; simp [setNib]

theorem cobAddPacked_same (f : Field) (n : Int) : SameField f (cobAddPacked f n) := by
  unfold cobAddPacked
  simp only
  split_ifs <;> first
    | exact .refl _
    | exact ⟨rfl, by simp [setSignNibble_length, packedAddLoop_length, packedComplLoop_length]⟩

theorem addPackedLoop_length (bs : List Nat) (n c : Nat) : (addPackedLoop bs n c).length = bs.length := by
  induction bs generalizing n c with
  | nil => rfl
  | cons b t ih => unfold addPackedLoop; split <;> simp [ih]

theorem regStore_length (swap : Bool) (size : Nat) (h : size ≤ 8) (x : Int) : (regStore swap size x).length = size := by
  have hw : size ≤ regWidth size := by
    interval_cases size <;> decide
  unfold regStore
  simp only
  split <;> simp [leBytes_length] <;> omega

theorem addIntItem_same (ebc bt : Bool) (v r : Item) (hw : WFItem v) (n : Int) (h : addIntItem ebc bt v n = some r) : SameShape v r := by
  obtain ⟨us, f⟩ := v
  unfold addIntItem at h
  split at h
  · simp only [Option.some.injEq] at h; subst h; exact ⟨rfl, rfl, rfl⟩
  · cases us with
    | display =>
      simp only [Option.some.injEq] at h; subst h
      exact .of _ _ _ (cobDisplayAddInt_same ebc bt f hw n)
    | packed =>
      simp only [Option.some.injEq] at h; subst h
      exact .of _ _ _ (cobAddPacked_same f n)
    | binary => cases h

/-- C54: ADD and SUBTRACT of an integer compiled to the specialised routines. -/
theorem C54_fast (ebc bt : Bool) (v r : Item) (hw : WFItem v) (n : Int)
    (h : optimAdd ebc bt v n = some r ∨ optimSub ebc bt v n = some r) : SameShape v r := by
  have hbin : ∀ (g : Bool → Bool → List Nat → Int → List Nat) (m : Int), v.usage = .binary →
      (∀ s sw d x, d.length ≤ 8 → (g s sw d x).length = d.length) →
      SameShape v { v with field := { v.field with data := g v.field.attr.haveSign v.field.attr.swap v.field.data m } } := by
    intro g m hu hg
    obtain ⟨us, f⟩ := v
    simp only at hu
    subst hu
    exact ⟨rfl, rfl, hg _ _ _ _ hw.2.1⟩
  rcases h with h | h
  · unfold optimAdd at h
    simp only at h
    split at h
    · rename_i hc
      simp only [Option.some.injEq] at h; subst h
      exact hbin addBinary _ hc.1 (fun _ _ d _ hd => regStore_length _ _ hd _)
    · split at h
      · rename_i hc
        simp only [Option.some.injEq] at h; subst h
        obtain ⟨us, f⟩ := v
        simp only at hc
        have hus := hc.1
        subst hus
        refine .of _ _ _ ?_
        unfold addPackedInt
        simp only
        split
        · exact .refl _
        · split
          · exact cobAddPacked_same _ _
          · have := hw.2
            simp only at this
            exact ⟨rfl, by simp [addPackedLoop_length]; omega⟩
      · exact addIntItem_same _ _ _ _ hw _ h
  · unfold optimSub at h
    simp only at h
    split at h
    · rename_i hc
      simp only [Option.some.injEq] at h; subst h
      exact hbin subBinary _ hc.1 (fun _ _ d _ hd => regStore_length _ _ hd _)
    · exact addIntItem_same _ _ _ _ hw _ h

theorem setPackedLoop_length (k n : Nat) : (setPackedLoop k n).length = k := by
  induction k generalizing n with
  | zero => rfl
  | succ k ih => unfold setPackedLoop; split <;> simp [ih]

theorem moveNumZero_same (ebc cut : Bool) (dst it : Item) (hw : WFItem dst) (h : moveNumZero ebc cut dst = .done it) : SameShape dst it := by
  have hcall : moveZeroCall ebc cut dst = .done it → SameShape dst it := fun h => C54_move _ _ _ _ _ hw h
  obtain ⟨us, f⟩ := dst
  unfold moveNumZero at h
  simp only at h
  cases us with
  | display =>
    simp only at h
    split at h
    · exact hcall h
    · split at h
      · exact hcall h
      · simp only [MoveRes.done.injEq] at h; subst h
        exact .of _ _ _ ⟨rfl, by simp⟩
  | packed =>
    simp only [MoveRes.done.injEq] at h; subst h
    exact .of _ _ _ ⟨rfl, by simp [setPackedZero]⟩
  | binary =>
    simp only [MoveRes.done.injEq] at h; subst h
    exact .of _ _ _ ⟨rfl, by simp⟩

/-- C54: MOVE of a literal or of an item of the same description, compiled in line. -/
theorem C54_inline (ebc cut same : Bool) (l : NumLit) (src dst it : Item) (hw : WFItem dst)
    (h : moveLit ebc cut l dst = .done it ∨ moveNumField ebc cut same src dst = .done it) : SameShape dst it := by
  rcases h with h | h
  · unfold moveLit at h
    simp only at h
    have hcall : l.call ebc cut dst = .done it → SameShape dst it := fun h => C54_move _ _ _ _ _ hw h
    have hzero := moveNumZero_same ebc cut dst it hw
    split at h
    · rename_i hc
      simp only [MoveRes.done.injEq] at h; subst h
      refine ⟨rfl, rfl, ?_⟩
      simp only [litZoned]
      split_ifs <;> simp <;> omega
    · split at h
      · rename_i hc
        have h8 := hc.2.1
        split_ifs at h
        · exact hcall h
        · exact hzero h
        · rename_i h1
          simp only [MoveRes.done.injEq] at h; subst h
          exact ⟨rfl, rfl, by simp only; rw [regStore_length _ _ (by omega), h1]⟩
        · simp only [MoveRes.done.injEq] at h; subst h
          exact ⟨rfl, rfl, by simp only [setSwpBinary]; exact regStore_length _ _ h8 _⟩
        · simp only [MoveRes.done.injEq] at h; subst h
          exact ⟨rfl, rfl, by simp only [setSwpBinary]; exact regStore_length _ _ h8 _⟩
        · exact hcall h
      · split at h
        · rename_i hc
          split_ifs at h
          · exact hcall h
          · exact hcall h
          · exact hzero h
          · simp only [MoveRes.done.injEq] at h; subst h
            obtain ⟨us, f⟩ := dst
            have hus := hc.2
            simp only at hus
            subst hus
            have := hw.2
            simp only at this
            refine ⟨rfl, rfl, ?_⟩
            simp only [setPackedInt]
            split <;> simp [setPackedLoop_length] <;> omega
        · exact hcall h
  · unfold moveNumField at h
    split at h
    · rename_i hc
      simp only [MoveRes.done.injEq] at h; subst h
      exact ⟨rfl, rfl, by simp [hc.2.2.1]⟩
    · exact C54_move _ _ _ _ _ hw h

/-- A receiver with contents that are not a number keeps its three bytes. -/
example : cobAdd false ⟨.display, ⟨{ digits := 3 }, [65, 32, 255]⟩⟩ ⟨.display, ⟨{ digits := 1 }, [49]⟩⟩ {} ≠ none ∧
    WFItem ⟨.display, ⟨{ digits := 3 }, [65, 32, 255]⟩⟩ :=
  ⟨by decide +kernel, by simp [WFItem, WFDisplay]⟩

end Cob
