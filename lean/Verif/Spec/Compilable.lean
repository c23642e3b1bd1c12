import Verif.Spec.Legal
import Verif.Spec.Depend
import Verif.Spec.Supported
import Verif.Model.Cpp
/-!
# Schemas whose generated code is valid C++

The compiler puts every type assignment of a module into one namespace and every component or alternative into the struct
of its SEQUENCE, SET or CHOICE, under names it makes up from the names in the schema.  `Compilable tree` says, in terms of these
names, that no scope gets a name twice and that what is referred to is there.
-/
namespace FastBer.Ast.Spec
open FastBer.Ast

/-- The name of the C++ type of component `n` of a SEQUENCE or SET whose C++ name is `parent`. -/
def memberName (n parent : Name) : Name := if typeName n = parent then typeName n ++ "_" else typeName n

/-- The names the C++ code of a type called `n` adds to the scope it is in: an enumeration for an ENUMERATED, a type for the elements of a
SEQUENCE OF, and another name for the enumeration of an ENUMERATED of another module. -/
def declares (tree : Tree) (mod : Module) : AType → Name → List Name
  | .leaf .enumerated, n => [n ++ "Values", n]
  | .seqOf _ t _, n => declares tree mod t (n ++ "Contained") ++ [n]
  | .setOf _ t _, n => declares tree mod t (n ++ "Contained") ++ [n]
  | .prefixed _ _ _ t, n => declares tree mod t n
  | .defined m ref _, n =>
    match target tree mod m ref with
    | some (wm, .leaf .enumerated) => if wm.name = mod.name then [n] else [ref ++ "Values", n]
    | _ => [n]
  | _, n => [n]

/-- `Placed tree mod n t`: there is C++ code for a type called `n`, for the type `t` written in module `mod`. -/
inductive Placed (tree : Tree) : Module → Name → AType → Prop where
  | assigned {mod : Module} {a : Assignment} {t : AType} :
      mod ∈ tree.modules → a ∈ mod.assignments → a.body = .type t → Placed tree mod a.name t
  | sequence {mod : Module} {n : Name} {cs : List Comp} {e : Bool} {c : Comp} :
      Placed tree mod n (.sequence cs e) → c ∈ cs → Placed tree mod (memberName c.name n) c.type
  | set {mod : Module} {n : Name} {cs : List Comp} {e : Bool} {c : Comp} :
      Placed tree mod n (.set cs e) → c ∈ cs → Placed tree mod (memberName c.name n) c.type
  | choice {mod : Module} {n : Name} {as : List Named} {s : Storage} {a : Named} :
      Placed tree mod n (.choice as s) → a ∈ as → Placed tree mod (typeName a.name) a.type
  | seqOf {mod : Module} {n : Name} {m : Option Name} {t : AType} {s : Storage} :
      Placed tree mod n (.seqOf m t s) → Placed tree mod (n ++ "Contained") t
  | setOf {mod : Module} {n : Name} {m : Option Name} {t : AType} {s : Storage} :
      Placed tree mod n (.setOf m t s) → Placed tree mod (n ++ "Contained") t
  | prefixed {mod : Module} {n : Name} {c : Cls} {i : Nat} {k : TagMode} {t : AType} :
      Placed tree mod n (.prefixed c i k t) → Placed tree mod n t

/-- The reference is, or is written inside, the type. -/
def Mentioned (t : AType) (m : Option Name) (ref : Name) : Prop :=
  ∃ ps, t = .defined m ref ps ∨ Inside t (.defined m ref ps)

/-- The names the code of an assignment adds to the namespace of its module. -/
def declaresA (tree : Tree) (mod : Module) (a : Assignment) : List Name :=
  match a.body with
  | .type t => declares tree mod t a.name
  | _ => []

/-- Conditions for the output to be valid C++, apart from the order of declarations. -/
structure CompilableNames (tree : Tree) : Prop where
  /-- Classes have been replaced by types. -/
  classes : ∀ mod ∈ tree.modules, ∀ a ∈ mod.assignments, ∀ d, a.body ≠ .objectClass d
  /-- X.680 31.2.4: no tags of class UNIVERSAL. -/
  universal : ∀ mod c n k t, Occurs tree mod (.prefixed c n k t) → c ≠ .universal
  /-- A SEQUENCE OF, SET OF or ENUMERATED is referred to directly and without a tag of its own, -/
  direct : ∀ mod m ref ps wm u, Occurs tree mod (.defined m ref ps) → Core tree mod (.defined m ref ps) wm u →
    isList u = true ∨ u = .leaf .enumerated → target tree mod m ref = some (wm, u)
  /-- the elements of a SEQUENCE OF or SET OF are not written as SEQUENCE, SET or CHOICE, -/
  elements : ∀ mod n t s, Occurs tree mod (.seqOf n t s) ∨ Occurs tree mod (.setOf n t s) → isStruct (untag t) = false
  /-- no name of a type or component ends in `Values`. -/
  typeValues : ∀ mod ∈ tree.modules, ∀ a ∈ mod.assignments, ∀ p, a.name ≠ p ++ "Values"
  fieldValues : ∀ mod n t, Field tree mod n t → ∀ p, typeName n ≠ p ++ "Values"
  /-- The names declared in a namespace are distinct, -/
  namespaces : ∀ mod ∈ tree.modules, (mod.assignments.flatMap (declaresA tree mod)).Nodup
  /-- so are those declared in a struct, and none is the struct's, -/
  sequences : ∀ mod n cs e, Placed tree mod n (.sequence cs e) →
    (n :: cs.flatMap fun c => declares tree mod c.type (memberName c.name n)).Nodup
  sets : ∀ mod n cs e, Placed tree mod n (.set cs e) →
    (n :: cs.flatMap fun c => declares tree mod c.type (memberName c.name n)).Nodup
  choices : ∀ mod n as s, Placed tree mod n (.choice as s) →
    (n :: as.flatMap fun a => declares tree mod a.type (typeName a.name)).Nodup
  /-- and a component written as SEQUENCE, SET or CHOICE does not have the name of the type around it. -/
  sequenceNames : ∀ mod n cs e c, Placed tree mod n (.sequence cs e) → c ∈ cs → isStruct (untag c.type) = true → typeName c.name ≠ n
  setNames : ∀ mod n cs e c, Placed tree mod n (.set cs e) → c ∈ cs → isStruct (untag c.type) = true → typeName c.name ≠ n

/-- Conditions for the output to be valid C++. -/
structure Compilable (tree : Tree) : Prop extends CompilableNames tree where
  /-- What is referred to is written before, in the same module or in one written before. -/
  order : ∀ before mod after, tree.modules = before ++ mod :: after → ∀ as a bs, mod.assignments = as ++ a :: bs → ∀ t, a.body = .type t →
    ∀ m ref, Mentioned t m ref → if m.getD mod.name = mod.name then ∃ b ∈ as, b.name = ref else ∃ w ∈ before, w.name = m.getD mod.name

/-- Conditions for the output to be valid C++ if there are forward declarations: what is referred to need not be written before, unless it is a SEQUENCE OF, a SET OF or an ENUMERATED, which are
referred to by their `…Contained` and `…Values`, for which there are no forward declarations, or the reference, with or without tags, is all that is assigned, which makes it the base of a class. -/
structure RCompilable (tree : Tree) : Prop extends CompilableNames tree where
  order : ∀ before mod after, tree.modules = before ++ mod :: after → ∀ as a bs, mod.assignments = as ++ a :: bs → ∀ t, a.body = .type t →
    ∀ m ref, Mentioned t m ref →
      (∃ wm u, target tree mod m ref = some (wm, u) ∧ (isList u = true ∨ u = .leaf .enumerated)) ∨ (∃ ps, untag t = .defined m ref ps) →
      if m.getD mod.name = mod.name then ∃ b ∈ as, b.name = ref else ∃ w ∈ before, w.name = m.getD mod.name

theorem Compilable.forward {tree : Tree} (h : Compilable tree) : RCompilable tree where
  toCompilableNames := h.toCompilableNames
  order := fun b m a hm as x bs hx t ht q ref hr _ => h.order b m a hm as x bs hx t ht q ref hr

/-- DEFAULT is used for simple types, and C++ takes the values written after DEFAULT as values of the library's templates for them. -/
def DefaultsTaken (lib : Lib) (tree : Tree) : Prop :=
  ∀ mod cs e c v, Occurs tree mod (.sequence cs e) ∨ Occurs tree mod (.set cs e) → c ∈ cs → c.optional = false → c.default = some v →
    ∃ wm k, Core tree mod c.type wm (.leaf k) ∧
      ∀ l i, lib.leaf k = some l ∨ (k = .enumerated ∧ l = .enum) → (lib.default (.leaf l i) v).isSome

end FastBer.Ast.Spec
