import Verif.Spec.Supported
/-!
# Types with a value to begin with

The default constructor of a C++ type constructs its mandatory components, and the first alternative of a CHOICE.
-/
namespace FastBer.Ast.Spec
open FastBer.Ast

/-- A value of the type is found by leaving out what may be absent, and taking empty lists and first alternatives. -/
inductive Startable (tree : Tree) : Module → AType → Prop where
  | leaf (mod : Module) (k : Builtin) : Startable tree mod (.leaf k)
  | seqOf (mod : Module) (n : Option Name) (t : AType) (s : Storage) : Startable tree mod (.seqOf n t s)
  | setOf (mod : Module) (n : Option Name) (t : AType) (s : Storage) : Startable tree mod (.setOf n t s)
  | sequence {mod : Module} {cs : List Comp} (e : Bool) : (∀ c, c ∈ cs → c.optional = false → c.default = none → Startable tree mod c.type) →
      Startable tree mod (.sequence cs e)
  | set {mod : Module} {cs : List Comp} (e : Bool) : (∀ c, c ∈ cs → c.optional = false → c.default = none → Startable tree mod c.type) →
      Startable tree mod (.set cs e)
  | choice {mod : Module} {a : Named} (as : List Named) (s : Storage) : Startable tree mod a.type → Startable tree mod (.choice (a :: as) s)
  | prefixed {mod : Module} (c : Cls) (n : Nat) (k : TagMode) {t : AType} : Startable tree mod t → Startable tree mod (.prefixed c n k t)
  | reference {mod : Module} {m : Option Name} {ref : Name} (ps : List AType) {wm : Module} {t : AType} :
      target tree mod m ref = some (wm, t) → Startable tree wm t → Startable tree mod (.defined m ref ps)

/-- All assigned types. -/
def AllStartable (tree : Tree) : Prop := ∀ mod ∈ tree.modules, ∀ a ∈ mod.assignments, ∀ t, a.body = .type t → Startable tree mod t

end FastBer.Ast.Spec

namespace FastBer.Ast.Check
open Spec

/-- `Startable`. -/
def startable (tree : Tree) : Nat → Module → AType → Bool
  | 0, _, _ => false
  | f + 1, mod, t => match t with
    | .leaf _ => true
    | .seqOf _ _ _ => true
    | .setOf _ _ _ => true
    | .sequence cs _ => cs.all fun c => c.optional || c.default.isSome || startable tree f mod c.type
    | .set cs _ => cs.all fun c => c.optional || c.default.isSome || startable tree f mod c.type
    | .choice (a :: _) _ => startable tree f mod a.type
    | .choice [] _ => false
    | .prefixed _ _ _ t => startable tree f mod t
    | .defined m ref _ => match target tree mod m ref with
      | some (wm, u) => startable tree f wm u
      | none => false
    | .objField _ _ _ => false

/-- `AllStartable`. -/
def allStartable (fuel : Nat) (tree : Tree) : Bool := tree.modules.all fun m => m.assignments.all fun a => match a.body with
  | .type t => startable tree fuel m t
  | _ => true

theorem startable_sound {tree : Tree} : ∀ (f : Nat) (mod : Module) (t : AType), startable tree f mod t = true → Startable tree mod t
  | 0, _, _, h => by cases h
  | f + 1, mod, t, h => by
    have comps : ∀ cs : List Comp, (cs.all fun c => c.optional || c.default.isSome || startable tree f mod c.type) = true →
        ∀ c, c ∈ cs → c.optional = false → c.default = none → Startable tree mod c.type := by
      intro cs h c hc h1 h2
      have := List.all_eq_true.1 h c hc
      rw [h1, h2] at this
      exact startable_sound f mod c.type (by simpa using this)
    cases t with
    | leaf k => exact .leaf _ _
    | seqOf n t s => exact .seqOf _ _ _ _
    | setOf n t s => exact .setOf _ _ _ _
    | sequence cs e => exact .sequence e (comps cs h)
    | set cs e => exact .set e (comps cs h)
    | choice as s =>
      cases as with
      | nil => cases h
      | cons a as => exact .choice as s (startable_sound f mod a.type h)
    | prefixed c n k t => exact .prefixed c n k (startable_sound f mod t h)
    | defined m ref ps =>
      simp only [startable] at h
      split at h
      · rename_i wm u ht
        exact .reference ps ht (startable_sound f wm u h)
      · cases h
    | objField m c fs => cases h

theorem allStartable_sound {fuel : Nat} {tree : Tree} (h : allStartable fuel tree = true) : AllStartable tree := by
  intro mod hm a ha t ht
  have := List.all_eq_true.1 (List.all_eq_true.1 h mod hm) a ha
  rw [ht] at this
  exact startable_sound _ _ _ this

end FastBer.Ast.Check
