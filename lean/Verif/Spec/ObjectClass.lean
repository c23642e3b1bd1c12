import Verif.Spec.Encoding
/-!
# Information object classes (X.681) as far as the compiler supports them

`C.&f` in a type stands for the type of the field `&f` of the class `C` (X.681 14.2).
-/
namespace FastBer.Ast.Spec
open FastBer.Ast

/-- Module `mod` defines the class `cls` with the fields `fs`. -/
def IsClass (tree : Tree) (mod cls : Name) (fs : List ClassField) : Prop :=
  ∃ m ∈ tree.modules, m.name = mod ∧ ∃ a ∈ m.assignments, a.name = cls ∧ a.body = .objectClass fs

/-- There is a field `f` of type `t`. -/
def HasField (fs : List ClassField) (f : Name) (t : AType) : Prop := ∃ c ∈ fs, c.name = f ∧ c.type = some t

mutual
/-- `Concrete tree mod t t'`: `t'` is the type `t`, written in module `mod`, with the type of the field in place of every `C.&f`. -/
inductive Concrete (tree : Tree) (mod : Name) : AType → AType → Prop where
  | leaf (k : Builtin) : Concrete tree mod (.leaf k) (.leaf k)
  | defined (m : Option Name) (ref : Name) (ps : List AType) : Concrete tree mod (.defined m ref ps) (.defined m ref ps)
  | field {m : Option Name} {c f : Name} {fs : List ClassField} {t : AType} :
      IsClass tree (m.getD mod) c fs → HasField fs f t → Concrete tree mod (.objField m c [f]) t
  | choice {as as' : List Named} (s : Storage) : ConcreteAlts tree mod as as' → Concrete tree mod (.choice as s) (.choice as' s)
  | sequence {cs cs' : List Comp} (e : Bool) : ConcreteComps tree mod cs cs' → Concrete tree mod (.sequence cs e) (.sequence cs' e)
  | set {cs cs' : List Comp} (e : Bool) : ConcreteComps tree mod cs cs' → Concrete tree mod (.set cs e) (.set cs' e)
  | seqOf (n : Option Name) {t t' : AType} (s : Storage) : Concrete tree mod t t' → Concrete tree mod (.seqOf n t s) (.seqOf n t' s)
  | setOf (n : Option Name) {t t' : AType} (s : Storage) : Concrete tree mod t t' → Concrete tree mod (.setOf n t s) (.setOf n t' s)
  | prefixed (c : Cls) (n : Nat) (k : TagMode) {t t' : AType} : Concrete tree mod t t' → Concrete tree mod (.prefixed c n k t) (.prefixed c n k t')
inductive ConcreteAlts (tree : Tree) (mod : Name) : List Named → List Named → Prop where
  | nil : ConcreteAlts tree mod [] []
  | cons {n : Name} {t t' : AType} {as as' : List Named} :
      Concrete tree mod t t' → ConcreteAlts tree mod as as' → ConcreteAlts tree mod (.mk n t :: as) (.mk n t' :: as')
inductive ConcreteComps (tree : Tree) (mod : Name) : List Comp → List Comp → Prop where
  | nil : ConcreteComps tree mod [] []
  | cons {n : Name} {t t' : AType} {o : Bool} {d : Option Ast.Value} {co : Option AType} {s : Storage} {cs cs' : List Comp} :
      Concrete tree mod t t' → ConcreteComps tree mod cs cs' → ConcreteComps tree mod (.mk n t o d co s :: cs) (.mk n t' o d co s :: cs')
end

/-- The assignment is `N ::= m.ref` or `n m.ref ::= …`, where `ref` is not one of its parameters. -/
def Refers (a : Assignment) (m : Option Name) (ref : Name) : Prop :=
  (∃ ps, a.body = .type (.defined m ref ps) ∨ ∃ v, a.body = .value (.defined m ref ps) v) ∧ ∀ p ∈ a.params, p.reference ≠ ref

/-- `NamesClass tree mod n`: the name `n` of module `mod` is that of a class or of an object: it is defined as a class, as another name for one,
as an object of one, or it is imported and is such a name where it comes from. -/
inductive NamesClass (tree : Tree) : Name → Name → Prop where
  | class_ {m : Module} {a : Assignment} {fs : List ClassField} : m ∈ tree.modules → a ∈ m.assignments → a.body = .objectClass fs → NamesClass tree m.name a.name
  | reference {m : Module} {a : Assignment} {q : Option Name} {ref : Name} :
      m ∈ tree.modules → a ∈ m.assignments → Refers a q ref → NamesClass tree (q.getD m.name) ref → NamesClass tree m.name a.name
  | imported {m : Module} {i : Import} {n : Name} : m ∈ tree.modules → i ∈ m.imports → n ∈ i.types → NamesClass tree i.module n → NamesClass tree m.name n

/-- The assignment is a class, another name for a class, or an object. -/
def AboutClass (tree : Tree) (mod : Name) (a : Assignment) : Prop :=
  (∃ fs, a.body = .objectClass fs) ∨ ∃ m ref, Refers a m ref ∧ NamesClass tree (m.getD mod) ref

/-- There are no parameterized assignments (they have been dealt with), and a name of another module is given another name, or used as the type of a value, by an import only. -/
structure ImportsOnly (tree : Tree) : Prop where
  params : ∀ m ∈ tree.modules, ∀ a ∈ m.assignments, a.params = []
  references : ∀ m ∈ tree.modules, ∀ a ∈ m.assignments, ∀ q ref, Refers a (some q) ref → q ≠ m.name → a.name = ref ∧ ∃ i ∈ m.imports, i.module = q ∧ ref ∈ i.types

/-- What the pass needs: every reference that is assigned to a name, or is the type of a value, is defined, -/
structure ClassesResolve (tree : Tree) : Prop where
  references : ∀ m ∈ tree.modules, ∀ a ∈ m.assignments, ∀ q ref, Refers a q ref → ∃ m' ∈ tree.modules, m'.name = q.getD m.name ∧ ∃ b ∈ m'.assignments, b.name = ref
  /-- and every `C.&f` is about a class of that module that has a field `&f` with a type. -/
  fields : ∀ m q c fs, Occurs tree m (.objField q c fs) → ∃ f cfs t, fs = [f] ∧ IsClass tree (q.getD m.name) c cfs ∧ HasField cfs f t

/-- Names of modules, of assignments of a module, and of fields of a class are distinct. -/
structure DistinctNames (tree : Tree) : Prop where
  modules : tree.modules.Pairwise fun a b => a.name ≠ b.name
  assignments : ∀ m ∈ tree.modules, m.assignments.Pairwise fun a b => a.name ≠ b.name
  fields : ∀ mod cls fs, IsClass tree mod cls fs → fs.Pairwise fun a b => a.name ≠ b.name

end FastBer.Ast.Spec
