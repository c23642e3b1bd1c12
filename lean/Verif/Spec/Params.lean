import Verif.Spec.Resolve
import Verif.Spec.Depend
/-!
# What a reference to a parameterized type means

`T {A, B} ::= body`: the reference `T {x, y}` means `body` with every `A` replaced by `x` and every `B` by `y`, and nothing else
changed.
-/
namespace FastBer.Ast.Spec
open FastBer.Ast

mutual
/-- The type with every name `σ` gives a type for replaced by it. -/
def substitute (σ : Name → Option AType) : AType → AType
  | .leaf k => .leaf k
  | .objField m c fs => .objField m c fs
  | .choice alts s => .choice (substituteAlts σ alts) s
  | .sequence cs e => .sequence (substituteComps σ cs) e
  | .set cs e => .set (substituteComps σ cs) e
  | .seqOf n t s => .seqOf n (substitute σ t) s
  | .setOf n t s => .setOf n (substitute σ t) s
  | .prefixed c n m t => .prefixed c n m (substitute σ t)
  | .defined (some m) ref args => .defined (some m) ref (substituteArgs σ args)
  | .defined none ref args =>
    match args, σ ref with
    | [], some a => a
    | _, _ => .defined none ref (substituteArgs σ args)
def substituteArgs (σ : Name → Option AType) : List AType → List AType
  | [] => []
  | a :: as => substitute σ a :: substituteArgs σ as
def substituteAlts (σ : Name → Option AType) : List Named → List Named
  | [] => []
  | .mk n t :: as => .mk n (substitute σ t) :: substituteAlts σ as
def substituteOpt (σ : Name → Option AType) : Option AType → Option AType
  | none => none
  | some t => some (substitute σ t)
def substituteComps (σ : Name → Option AType) : List Comp → List Comp
  | [] => []
  | .mk n t o d co s :: cs => .mk n (substitute σ t) o d (substituteOpt σ co) s :: substituteComps σ cs
end

/-- The parameters `ps` stand for the arguments `args`, first for first. -/
def argument : List Param → List AType → Name → Option AType
  | p :: ps, a :: as, n => if n = p.reference then some a else argument ps as n
  | _, _, _ => none

/-- The type, or a type inside it, satisfies `P`. -/
def Somewhere (P : AType → Prop) (t : AType) : Prop := P t ∨ ∃ u, Inside t u ∧ P u

/-- A reference with arguments. -/
def Parameterized (t : AType) : Prop := ∃ m ref args, t = .defined m ref args ∧ args ≠ []

/-- A SEQUENCE or SET with a COMPONENTS OF. -/
def HasComponentsOf (t : AType) : Prop :=
  ∃ cs e, (t = .sequence cs e ∨ t = .set cs e) ∧ ∃ c ∈ cs, c.componentsOf ≠ none

/-- The template `ref` leads to from module `mod`: its parameters and its body. -/
def template (tree : Tree) (mod ref : Name) : Option (List Param × AType) :=
  (tree.modules.find? (·.name == mod)).bind fun m => (m.assignments.find? (·.name == ref)).bind fun a =>
    match a.body with
    | .type t => some (a.params, t)
    | _ => none

end FastBer.Ast.Spec

namespace FastBer.Ast.Spec
open FastBer.Ast

mutual
/-- `t'` is the type `t`, written in module `mod`, with the references to parameterized types replaced by what they mean. -/
inductive Expanded (tree : Tree) (mod : Name) : AType → AType → Prop where
  | leaf (k : Builtin) : Expanded tree mod (.leaf k) (.leaf k)
  | objField (m : Option Name) (c : Name) (fs : List Name) : Expanded tree mod (.objField m c fs) (.objField m c fs)
  | plain (m : Option Name) (ref : Name) : Expanded tree mod (.defined m ref []) (.defined m ref [])
  | instance {m : Option Name} {ref : Name} {args : List AType} {ps : List Param} {body : AType} :
      args ≠ [] → template tree (m.getD mod) ref = some (ps, body) → ps.length = args.length →
      Expanded tree mod (.defined m ref args) (substitute (argument ps args) body)
  | choice {as as' : List Named} (s : Storage) : ExpandedAlts tree mod as as' → Expanded tree mod (.choice as s) (.choice as' s)
  | sequence {cs cs' : List Comp} (e : Bool) : ExpandedComps tree mod cs cs' → Expanded tree mod (.sequence cs e) (.sequence cs' e)
  | set {cs cs' : List Comp} (e : Bool) : ExpandedComps tree mod cs cs' → Expanded tree mod (.set cs e) (.set cs' e)
  | seqOf {t t' : AType} (n : Option Name) (s : Storage) : Expanded tree mod t t' → Expanded tree mod (.seqOf n t s) (.seqOf n t' s)
  | setOf {t t' : AType} (n : Option Name) (s : Storage) : Expanded tree mod t t' → Expanded tree mod (.setOf n t s) (.setOf n t' s)
  | prefixed {t t' : AType} (c : Cls) (k : Nat) (m : TagMode) : Expanded tree mod t t' →
      Expanded tree mod (.prefixed c k m t) (.prefixed c k m t')
inductive ExpandedAlts (tree : Tree) (mod : Name) : List Named → List Named → Prop where
  | nil : ExpandedAlts tree mod [] []
  | cons {n : Name} {t t' : AType} {as as' : List Named} : Expanded tree mod t t' → ExpandedAlts tree mod as as' →
      ExpandedAlts tree mod (.mk n t :: as) (.mk n t' :: as')
inductive ExpandedComps (tree : Tree) (mod : Name) : List Comp → List Comp → Prop where
  | nil : ExpandedComps tree mod [] []
  | cons {n : Name} {t t' : AType} {o : Bool} {d : Option Value} {s : Storage} {cs cs' : List Comp} :
      Expanded tree mod t t' → ExpandedComps tree mod cs cs' →
      ExpandedComps tree mod (.mk n t o d none s :: cs) (.mk n t' o d none s :: cs')
end

end FastBer.Ast.Spec

namespace FastBer.Ast.Spec
open FastBer.Ast

/-- Templates the pass can deal with: different parameters, no COMPONENTS OF. -/
def GoodTemplates (tree : Tree) : Prop := ∀ mod ref ps body, template tree mod ref = some (ps, body) → ps ≠ [] →
  (ps.map (·.reference)).Nodup ∧ ¬ Somewhere HasComponentsOf body

/-- The two lists have the same length and corresponding elements are related. -/
inductive Pointwise {α β : Type} (r : α → β → Prop) : List α → List β → Prop where
  | nil : Pointwise r [] []
  | cons {a : α} {b : β} {as : List α} {bs : List β} : r a b → Pointwise r as bs → Pointwise r (a :: as) (b :: bs)

/-- `a'` is the assignment `a` with the references in its type expanded. -/
inductive ExpandedAssignment (tree : Tree) (mod : Name) : Assignment → Assignment → Prop where
  | type {n : Name} {t t' : AType} : Expanded tree mod t t' → ExpandedAssignment tree mod ⟨n, .type t, []⟩ ⟨n, .type t', []⟩
  | other {a : Assignment} : (∀ t, a.body ≠ .type t) → a.params = [] → ExpandedAssignment tree mod a a

/-- `m'` is the module `m` without its templates and with its references expanded. -/
def ExpandedModule (tree : Tree) (m m' : Module) : Prop :=
  m'.name = m.name ∧ m'.tagging = m.tagging ∧ m'.imports = m.imports ∧
  Pointwise (ExpandedAssignment tree m.name) (m.assignments.filter fun a => a.params.isEmpty) m'.assignments

end FastBer.Ast.Spec
