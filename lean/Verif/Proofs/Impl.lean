import Verif.Spec.Supported
import Verif.Proofs.Identifier
import Verif.Proofs.Cpp
/-!
# C++ types that implement ASN.1 types

`Ty.Is H lib tree T mod t`: the C++ type `T` has the structure and the tags of the ASN.1 type `t` of module `mod`.
-/
namespace FastBer.Ast
open Spec

/-! ## Cores and tags are unique -/

theorem _root_.FastBer.Ast.Spec.Core.isCore {tree : Tree} {mod wm : Module} {t u : AType} (h : Core tree mod t wm u) : isCore u = true := by
  induction h with
  | here h => exact h
  | prefixed _ ih => exact ih
  | reference _ _ ih => exact ih

theorem _root_.FastBer.Ast.Spec.Core.unique {tree : Tree} {mod wm wm' : Module} {t u u' : AType} (h : Core tree mod t wm u)
    (h' : Core tree mod t wm' u') : wm = wm' ∧ u = u' := by
  induction h with
  | here h =>
    cases h' with
    | here _ => exact ⟨rfl, rfl⟩
    | prefixed _ => cases h
    | reference _ _ => cases h
  | prefixed _ ih =>
    cases h' with
    | here h => cases h
    | prefixed h' => exact ih h'
  | reference ht _ ih =>
    cases h' with
    | here h => cases h
    | reference ht' h' => rw [ht] at ht'; cases ht'; exact ih h'

theorem ownTags_nil {tree : Tree} {mod : Module} {t : AType} (h : OwnTags tree mod t []) : Untagged tree mod t := by
  generalize hl : ([] : List Spec.Tag) = l at h
  induction h with
  | leaf | sequence | seqOf | set | setOf | explicit_ | implicit => cases hl
  | choice => exact .choice ..
  | reference ht _ ih => exact .reference ht (ih hl)

theorem ownTags_untagged {tree : Tree} {mod : Module} {t : AType} {ts : List Spec.Tag} (h : OwnTags tree mod t ts)
    (hu : Untagged tree mod t) : ts = [] := by
  induction h with
  | leaf h => cases hu; cases h
  | sequence | seqOf | set | setOf | explicit_ | implicit => cases hu
  | choice => rfl
  | reference ht _ ih =>
    cases hu with
    | reference ht' hu => rw [ht] at ht'; cases ht'; exact ih hu

theorem _root_.FastBer.Ast.Spec.OwnTags.unique {tree : Tree} {mod : Module} {t : AType} {ts ts' : List Spec.Tag} (h : OwnTags tree mod t ts)
    (h' : OwnTags tree mod t ts') : ts = ts' := by
  induction h generalizing ts' with
  | leaf h => cases h' with | leaf h' => rw [h] at h'; cases h'; rfl
  | sequence => cases h'; rfl
  | seqOf => cases h'; rfl
  | set => cases h'; rfl
  | setOf => cases h'; rfl
  | choice => cases h'; rfl
  | explicit_ hx _ ih =>
    cases h' with
    | explicit_ _ h' => rw [ih h']
    | implicit hx' _ => exact absurd hx hx'
  | implicit hx _ ih =>
    cases h' with
    | explicit_ hx' _ => exact absurd hx' hx
    | implicit _ h' => have := ih h'; cases this; rfl
  | reference ht _ ih =>
    cases h' with
    | reference ht' h' => rw [ht] at ht'; cases ht'; exact ih h'

theorem ownTags_nil_core {tree : Tree} {mod : Module} {t : AType} (h : OwnTags tree mod t []) :
    ∃ wm as s, Core tree mod t wm (.choice as s) := by
  generalize hl : ([] : List Spec.Tag) = l at h
  induction h with
  | leaf | sequence | seqOf | set | setOf | explicit_ | implicit => cases hl
  | choice => exact ⟨_, _, _, .here rfl⟩
  | reference ht _ ih =>
    obtain ⟨wm, as, s, h⟩ := ih hl
    exact ⟨wm, as, s, .reference ht h⟩

/-- The tags of a type other than CHOICE are its own tags. -/
theorem _root_.FastBer.Ast.Spec.OwnTags.tags {tree : Tree} {mod : Module} {t : AType} {tag : Spec.Tag} {ts : List Spec.Tag}
    (hc : ∀ wm as s, ¬ Core tree mod t wm (.choice as s)) (h : OwnTags tree mod t (tag :: ts)) : Tags tree mod t (tag :: ts) := by
  generalize hl : tag :: ts = l at h
  induction h generalizing tag ts with
  | leaf h => exact .leaf h
  | sequence => exact .sequence ..
  | seqOf => exact .seqOf ..
  | set => exact .set ..
  | setOf => exact .setOf ..
  | choice => cases hl
  | @explicit_ mod c n k t ts' hx ho ih =>
    refine .explicit_ hx ?_
    cases ts' with
    | nil =>
      obtain ⟨wm, as, s, hcore⟩ := ownTags_nil_core ho
      exact absurd (.prefixed hcore) (hc wm as s)
    | cons a b => exact ih (fun wm as s hcore => hc wm as s (.prefixed hcore)) rfl
  | implicit hx ho ih =>
    exact .implicit hx (fun hu => by cases ownTags_untagged ho hu) (ih (fun wm as s hcore => hc wm as s (.prefixed hcore)) rfl)
  | reference ht _ ih => exact .reference ht (ih (fun wm as s hcore => hc wm as s (.reference ht hcore)) hl)

/-! ## Implementation -/

/-- A tag of X.680 as an identifier of the library. -/
def idOf (tag : Spec.Tag) : Id := ⟨classOf tag.1, tag.2⟩

theorem toClass_eq (c : Cls) : c.toClass = classOf c := by cases c <;> rfl

theorem TagId.id_eq (i : TagId) : i.id = idOf i.tag := by simp [TagId.id, idOf, TagId.tag, toClass_eq]

end FastBer.Ast

namespace FastBer
open FastBer.Ast FastBer.Ast.Spec

/-- The tags of an identifier, outermost first. -/
def Ident.list : Ident → List Id
  | .single i => [i]
  | .double o i => [o, i]

/-- The tags a C++ type writes itself. -/
def Ty.own : Ty → List Id
  | .leaf _ id => id.list
  | .seqOf id _ => id.list
  | .seq id _ => id.list
  | .set id _ _ => id.list
  | .choice (.tagged id) _ => id.list
  | .choice (.untagged _) _ => []

/-- The C++ type has the tags of the ASN.1 type. -/
def Ty.Head (tree : Tree) (T : Ty) (mod : Module) (t : AType) : Prop := ∃ ts, OwnTags tree mod t ts ∧ T.own = ts.map idOf

/-- The template for a simple type. -/
def LeafFor (lib : Lib) (k : Builtin) (l : Leaf) : Prop := lib.leaf k = some l ∨ (k = .enumerated ∧ l = .enum)

/-- Kind of a component of type `T`; the object for a DEFAULT is one the library makes from a value. -/
def kindFor (lib : Lib) (T : Ty) (s : Slot) : Kind → Prop
  | .mandatory => s.mayBeAbsent = false
  | .optional => s.mayBeAbsent = true
  | .default d => s.mayBeAbsent = true ∧ ∃ v, lib.default T v = some d

/-- Types that stand for others inside a type; see Proofs/ForwardClose.  `noHoles`: there are none. -/
def Holes := Ty → Module → AType → Prop

/-- Every part of a type has been generated. -/
def noHoles : Holes := fun _ _ _ => False

mutual
/-- The C++ type has the structure of the ASN.1 type, its own tags aside. -/
def Ty.Body (H : Holes) (lib : Lib) (tree : Tree) : Ty → Module → AType → Prop
  | .leaf l _ => fun mod t => ∃ wm k, Core tree mod t wm (.leaf k) ∧ LeafFor lib k l
  | .seqOf _ T => fun mod t => ∃ wm n u s, (Core tree mod t wm (.seqOf n u s) ∨ Core tree mod t wm (.setOf n u s)) ∧ ((T.Body H lib tree wm u ∧ T.Head tree wm u) ∨ H T wm u)
  | .seq _ fs => fun mod t => ∃ wm cs e, Core tree mod t wm (.sequence cs e) ∧ fs.Body H lib tree false wm (slots wm cs)
  | .set _ ext fs => fun mod t => ∃ wm cs, Core tree mod t wm (.set cs ext) ∧ fs.Body H lib tree true wm (slots wm cs)
  | .choice cid as => fun mod t => ∃ wm as' s, Core tree mod t wm (.choice as' s) ∧ as.Body H lib tree wm (choices wm as') ∧
      match cid with
      | .untagged ids => ids = as.outer
      | .tagged _ => True
/-- Components: type, and identifiers in the decoder (`all`: of every component, else of OPTIONAL and DEFAULT ones). -/
def Fields.Body (H : Holes) (lib : Lib) (tree : Tree) (all : Bool) : Fields → Module → List Slot → Prop
  | .nil => fun _ ss => ss = []
  | .cons k ls T rest => fun mod ss => ∃ s ss', ss = s :: ss' ∧ kindFor lib T s k ∧ (all = true ∨ s.mayBeAbsent = true → ls = T.outer) ∧
      ((T.Body H lib tree mod s.type ∧ T.Head tree mod s.type) ∨ H T mod s.type) ∧ rest.Body H lib tree all mod ss'
/-- Alternatives. -/
def Alts.Body (H : Holes) (lib : Lib) (tree : Tree) : Alts → Module → List AType → Prop
  | .nil => fun _ ts => ts = []
  | .cons ls T rest => fun mod ts => ∃ t ts', ts = t :: ts' ∧ ls = T.outer ∧ ((T.Body H lib tree mod t ∧ T.Head tree mod t) ∨ H T mod t) ∧ rest.Body H lib tree mod ts'
end

/-- The C++ type implements the ASN.1 type. -/
def Ty.Is (H : Holes) (lib : Lib) (tree : Tree) (T : Ty) (mod : Module) (t : AType) : Prop := T.Body H lib tree mod t ∧ T.Head tree mod t

/-- The structure depends on the core only. -/
theorem Ty.Body.of_core {H : Holes} {lib : Lib} {tree : Tree} {T : Ty} {mod mod' : Module} {t t' : AType} (h : T.Body H lib tree mod t)
    (hc : ∀ wm u, Core tree mod t wm u → Core tree mod' t' wm u) : T.Body H lib tree mod' t' := by
  cases T with
  | leaf l id =>
    obtain ⟨wm, k, h1, h2⟩ := h
    exact ⟨wm, k, hc _ _ h1, h2⟩
  | seqOf id T =>
    obtain ⟨wm, n, u, s, h1, h2⟩ := h
    exact ⟨wm, n, u, s, h1.imp (hc _ _) (hc _ _), h2⟩
  | seq id fs =>
    obtain ⟨wm, cs, e, h1, h2⟩ := h
    exact ⟨wm, cs, e, hc _ _ h1, h2⟩
  | set id ext fs =>
    obtain ⟨wm, cs, h1, h2⟩ := h
    exact ⟨wm, cs, hc _ _ h1, h2⟩
  | choice cid as =>
    obtain ⟨wm, as', s, h1, h2, h3⟩ := h
    exact ⟨wm, as', s, hc _ _ h1, h2, h3⟩

/-- Every implementation has a core. -/
theorem Ty.Body.core {H : Holes} {lib : Lib} {tree : Tree} {T : Ty} {mod : Module} {t : AType} (h : T.Body H lib tree mod t) : ∃ wm u, Core tree mod t wm u := by
  cases T with
  | leaf l id => obtain ⟨wm, k, h1, h2⟩ := h; exact ⟨_, _, h1⟩
  | seqOf id T =>
    obtain ⟨wm, n, u, s, h1, h2⟩ := h
    rcases h1 with h1 | h1 <;> exact ⟨_, _, h1⟩
  | seq id fs => obtain ⟨wm, cs, e, h1, h2⟩ := h; exact ⟨_, _, h1⟩
  | set id ext fs => obtain ⟨wm, cs, h1, h2⟩ := h; exact ⟨_, _, h1⟩
  | choice cid as => obtain ⟨wm, as', s, h1, h2, h3⟩ := h; exact ⟨_, _, h1⟩

theorem Ident.outer_list (id : Ident) : id.list.head? = some id.outer := by cases id <;> rfl

/-- A type that writes tags begins with the first of them. -/
theorem Ty.outer_own {T : Ty} {i : Id} {l : List Id} (h : T.own = i :: l) : T.outer = [i] := by
  have key : ∀ id : Ident, id.list = i :: l → [id.outer] = [i] := by
    intro id h
    have := id.outer_list
    rw [h] at this
    simpa using this.symm
  cases T with
  | leaf k id => exact key id h
  | seqOf id _ => exact key id h
  | seq id _ => exact key id h
  | set id _ _ => exact key id h
  | choice cid as =>
    cases cid with
    | untagged ids => cases h
    | tagged id => exact key id h

end FastBer
