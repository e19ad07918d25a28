import Verif.Cobc.Init
import Verif.Cobc.LayoutProps
/-
Specification vocabulary for C62 (INITIALIZE).  Nothing here uses the functions of the compiler; `E.mv` stands for the
MOVE statement (C41, C42, C51).
-/
namespace Cob

/-! ### The storage of the items -/

mutual
/-- The storage layout of an item (C48), without what concerns INITIALIZE. -/
def IFld.lay : IFld → Lay
  | .mk i cs => .mk i.offset i.size i.occurs i.redef (IFld.lays cs)
def IFld.lays : List IFld → List Lay
  | [] => []
  | c :: cs => c.lay :: IFld.lays cs
end

/-- The bytes of all occurrences. -/
def IFld.total (f : IFld) : Nat := f.info.size * f.info.occurs

/-- In every group the items lie inside the group, and one that is not a redefinition starts behind those in front of it. -/
inductive Regular : IFld → Prop
  | mk (i : IInfo) (cs : List IFld)
      (hin : ∀ c ∈ cs, i.offset ≤ c.info.offset ∧ c.info.offset + c.total ≤ i.offset + i.size)
      (hord : cs.Pairwise (fun a b => b.info.redef = false → a.info.offset + a.total ≤ b.info.offset))
      (h : ∀ c ∈ cs, Regular c) : Regular (.mk i cs)

/-! ### What INITIALIZE is to do -/

/-- An item that gets a value as a whole: an elementary item, or with TO VALUE a group with a VALUE clause. -/
def IFld.Unit (p : IOpt) (f : IFld) : Prop := f.children = [] ∨ (p.val = true ∧ f.info.value ≠ none)

/-- The occurrences of the units in an item: `Occ p f sh a g`: the unit `g` has an occurrence at address `a`; `sh` is the
displacement of the occurrence of the groups around `f`.  What is subordinate to a redefinition does not count. -/
inductive Occ (p : IOpt) : IFld → Nat → Nat → IFld → Prop
  | here (f : IFld) (sh k : Nat) (hu : f.Unit p) (hk : k < f.info.occurs) :
      Occ p f sh (f.info.offset + (sh + f.info.size * k)) f
  | sub (f : IFld) (sh k : Nat) (c : IFld) (a : Nat) (g : IFld) (hu : ¬ f.Unit p) (hk : k < f.info.occurs)
      (hc : c ∈ f.children) (hr : c.info.redef = false) (h : Occ p c (sh + f.info.size * k) a g) : Occ p f sh a g

/-- The same for the item the statement names, of which one occurrence is initialized. -/
inductive Named (p : IOpt) (f : IFld) (sh : Nat) : Nat → IFld → Prop
  | here (hu : f.Unit p) : Named p f sh (f.info.offset + sh) f
  | sub (c : IFld) (a : Nat) (g : IFld) (hu : ¬ f.Unit p)
      (hc : c ∈ f.children) (hr : c.info.redef = false) (h : Occ p c sh a g) : Named p f sh a g

/-- The bytes of a VALUE clause: a figurative constant fills the item; ZERO is moved, or is all zeros in an edited item; a text
literal stands at the left, followed by spaces, or is cut; ALL literal is repeated. -/
def valueIs (E : IEnv) (v : IVal) (c : ICat) (n : Nat) (bs : List Nat) : Prop :=
  match v with
  | .fig b => bs = List.replicate n b
  | .zero => if c.cls = .numEdited ∨ c.cls = .alnumEdited then bs = List.replicate n 48 else bs = E.mv .zero c n
  | .null =>
    match c with
    | .pointer => bs = E.mv .null c n
    | .float => bs = E.mv .null c n
    | .numeric .packed _ => bs = E.mv .null c n
    | .numeric .binary _ => bs = E.mv .null c n
    | _ => bs = List.replicate n 0
  | .num k => bs = E.mv (.src k) c n
  | .text s => bs.length = n ∧ ∀ j, j < n → bs[j]? = if j < s.length then s[j]? else some 32
  | .all s => bs.length = n ∧ ∀ j, j < n → bs[j]? = s[j % s.length]?

/-- The bytes of DEFAULT. -/
def defaultIs (E : IEnv) (c : ICat) (n : Nat) : List Nat :=
  match c with
  | .numeric u a => E.mv .zero (.numeric u a) n
  | .numEdited => E.mv .zero .numEdited n
  | .alnumEdited => E.mv .blank .alnumEdited n
  | .alphabetic => List.replicate n 32
  | .alnum => List.replicate n 32
  | .float => List.replicate n 0
  | .pointer => List.replicate n 0

/-- `Gets E p g r`: an occurrence of the unit `g` gets the bytes `r`, or (`none`) keeps what it has. -/
inductive Gets (E : IEnv) (p : IOpt) (g : IFld) : Option (List Nat) → Prop
  /-- TO VALUE, and it has a VALUE clause -/
  | value (v : IVal) (bs : List Nat) (hp : p.val = true) (hv : g.info.value = some v)
      (h : valueIs E v g.cat g.info.size bs) : Gets E p g (some bs)
  /-- FILLER, without WITH FILLER -/
  | filler (hn : p.val = false ∨ g.info.value = none) (hf : g.info.filler = true) (hs : p.statement = true) :
      Gets E p g none
  /-- REPLACING its category: the first such phrase -/
  | replacing (k : Nat) (s : ISrc) (hn : p.val = false ∨ g.info.value = none)
      (hf : ¬ (g.info.filler = true ∧ p.statement = true))
      (hk : p.rep[k]? = some (g.cat.cls, s)) (hfirst : ∀ i < k, ∀ r, p.rep[i]? = some r → r.1 ≠ g.cat.cls) :
      Gets E p g (some (E.mv s g.cat g.info.size))
  /-- DEFAULT -/
  | dflt (hn : p.val = false ∨ g.info.value = none) (hf : ¬ (g.info.filler = true ∧ p.statement = true))
      (hr : ∀ r ∈ p.rep, r.1 ≠ g.cat.cls) (hd : p.dflt = true) :
      Gets E p g (some (defaultIs E g.cat g.info.size))
  /-- no phrase is for it -/
  | nothing (hn : p.val = false ∨ g.info.value = none) (hf : ¬ (g.info.filler = true ∧ p.statement = true))
      (hr : ∀ r ∈ p.rep, r.1 ≠ g.cat.cls) (hd : p.dflt = false) : Gets E p g none

/-- The literals of the VALUE clauses are not empty (a literal has at least one character). -/
def IFld.LitOk (g : IFld) : Prop := ∀ s, g.info.value = some (.all s) → s ≠ []

/-- `g` is `f` or subordinate to it. -/
inductive Part : IFld → IFld → Prop
  | refl (f : IFld) : Part f f
  | sub (f c g : IFld) (hc : c ∈ f.children) (h : Part c g) : Part f g

/-- The `size` bytes from `a` on are `r` afterwards; `none`: they are as they were. -/
def Bytes (m m' : Nat → Nat) (a size : Nat) : Option (List Nat) → Prop
  | some bs => bs.length = size ∧ ∀ j, j < size → bs[j]? = some (m' (a + j))
  | none => ∀ j, j < size → m' (a + j) = m (a + j)

/-- What the MOVE statement does, as far as it is needed here: it fills the item; MOVE ZERO to a numeric item is the statement
of C51, to a text item it fills the item with "0". -/
structure IEnv.Ok (E : IEnv) : Prop where
  size : ∀ s c n, (E.mv s c n).length = n
  zero : ∀ u a n it, moveNumZero E.ebc E.cut ⟨u, ⟨a, List.replicate n 0⟩⟩ = .done it →
    it.field.data.length = n → E.mv .zero (.numeric u a) n = it.field.data
  text : ∀ n, E.mv .zero .alnum n = List.replicate n 48 ∧ E.mv .zero .alphabetic n = List.replicate n 48

end Cob
