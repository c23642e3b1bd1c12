import Verif.Spec.Accepted
import Verif.Spec.Compilable
/-!
# The source files whose generated code is valid C++

Conditions on the source, beside those of `PlainSource`, `SupportedSource` and `Accepted`, under which a C++ compiler takes the code the compiler writes.
-/
namespace FastBer.Ast.Spec
open FastBer.Ast

/-- The type is assigned the name, or is written as the type of a component or alternative of that name. -/
inductive Called (src : Tree) (m : Module) : Name → AType → Prop where
  | assigned {a : Assignment} {t : AType} : m ∈ src.modules → a ∈ m.assignments → a.body = .type t → Called src m a.name t
  | field {n : Name} {t : AType} : Field src m n t → Called src m (typeName n) t

/-- How the parts of a type are stored. -/
def storages : AType → List Storage
  | .choice _ s => [s]
  | .seqOf _ _ s => [s]
  | .setOf _ _ s => [s]
  | .sequence cs _ => cs.map (·.storage)
  | .set cs _ => cs.map (·.storage)
  | _ => []

/-- `Hidden t u`: `u` is written inside `t`, in an alternative of a CHOICE, in the elements of a SEQUENCE OF or SET OF, or in a component that is OPTIONAL. -/
inductive Hidden : AType → AType → Prop where
  | choice {as : List Named} {s : Storage} {a : Named} {u : AType} : a ∈ as → a.type = u ∨ Inside a.type u → Hidden (.choice as s) u
  | seqOf {n : Option Name} {t : AType} {s : Storage} {u : AType} : t = u ∨ Inside t u → Hidden (.seqOf n t s) u
  | setOf {n : Option Name} {t : AType} {s : Storage} {u : AType} : t = u ∨ Inside t u → Hidden (.setOf n t s) u
  | sequenceOptional {cs : List Comp} {e : Bool} {c : Comp} {u : AType} : c ∈ cs → c.optional = true → c.type = u ∨ Inside c.type u → Hidden (.sequence cs e) u
  | setOptional {cs : List Comp} {e : Bool} {c : Comp} {u : AType} : c ∈ cs → c.optional = true → c.type = u ∨ Inside c.type u → Hidden (.set cs e) u
  | sequence {cs : List Comp} {e : Bool} {c : Comp} {u : AType} : c ∈ cs → Hidden c.type u → Hidden (.sequence cs e) u
  | set {cs : List Comp} {e : Bool} {c : Comp} {u : AType} : c ∈ cs → Hidden c.type u → Hidden (.set cs e) u
  | prefixed {c : Cls} {n : Nat} {k : TagMode} {t u : AType} : Hidden t u → Hidden (.prefixed c n k t) u

/-- The definition of `n` mentions, directly or indirectly, a recursive one. -/
def LeadsToCycle (m : Module) (n : Name) : Prop :=
  ∃ c, (n = c ∨ Relation.TransGen (MentionedBy m.name m.assignments) n c) ∧ Relation.TransGen (MentionedBy m.name m.assignments) c c

/-- Sources that are compiled, but for the order of what is written. -/
structure CompilableSourceNames (src : Tree) : Prop where
  /-- No tags of class UNIVERSAL. -/
  universal : ∀ m c n k t, Occurs src m (.prefixed c n k t) → c ≠ .universal
  /-- No storage is dynamic yet: so it is after parsing. -/
  storage : ∀ m t, Occurs src m t → ∀ s ∈ storages t, s ≠ .dynamic
  /-- The type of a value is not, and does not contain, a SET that has a component with a name after DEFAULT. -/
  valueSets : ∀ m ∈ src.modules, ∀ a ∈ m.assignments, ∀ t v, a.body = .value t v → ∀ u, u = t ∨ Inside t u → ¬ SetWithDefaultName u
  /-- `Module.Type` is used for modules only from which something is imported. -/
  external : ∀ m q ref ps, Occurs src m (.defined (some q) ref ps) → q = m.name ∨ ∃ i ∈ m.imports, i.module = q
  /-- A name that stands for a SEQUENCE OF, SET OF or ENUMERATED is assigned it in the module itself and without a tag, -/
  direct : ∀ m q ref ps wm u, Occurs src m (.defined q ref ps) → Core (qualify src) m (qualifyType src m.name (.defined q ref ps)) wm u →
    isList u = true ∨ u = .leaf .enumerated →
    q.getD m.name = m.name ∧ ∃ a ∈ m.assignments, a.name = ref ∧ ∃ t, a.body = .type t ∧ (isList t = true ∨ t = .leaf .enumerated)
  /-- and ENUMERATED types are not imported. -/
  importedEnums : ∀ m ∈ src.modules, ∀ i ∈ m.imports, ∀ n ∈ i.types, ∀ wm u,
    Core (qualify src) m (qualifyType src m.name (.defined (some i.module) n [])) wm u → u ≠ .leaf .enumerated
  /-- No name of a type, component or alternative ends in `Values`; -/
  assignedNames : ∀ m ∈ src.modules, ∀ a ∈ m.assignments, ∀ p, a.name ≠ p ++ "Values"
  importedNames : ∀ m ∈ src.modules, ∀ i ∈ m.imports, ∀ n ∈ i.types, ∀ p, n ≠ p ++ "Values"
  fieldNames : ∀ m n t, Field src m n t → ∀ p, typeName n ≠ p ++ "Values"
  /-- none of a component or alternative is that of another one of the module with `_` appended (the compiler appends `_` to C++ keywords and to names that clash), or one the compiler
  makes up. -/
  fieldEnds : ∀ m n t, Field src m n t → ∀ n' t', Field src m n' t' → typeName n ≠ typeName n' ++ "_"
  fieldMadeUp : ∀ m n t, Field src m n t → ¬ MadeUp (typeName n)
  /-- The components of a SEQUENCE or SET and the alternatives of a CHOICE have distinct names. -/
  sequence : ∀ m cs e, Occurs src m (.sequence cs e) → (cs.map fun c => typeName c.name).Nodup
  set : ∀ m cs e, Occurs src m (.set cs e) → (cs.map fun c => typeName c.name).Nodup
  choice : ∀ m as s, Occurs src m (.choice as s) → (as.map fun a => typeName a.name).Nodup
  /-- No alternative of a CHOICE has the name of the CHOICE, -/
  alternatives : ∀ m n as s a, Called src m n (.choice as s) → a ∈ as → typeName a.name ≠ n
  /-- no component written as SEQUENCE, SET or CHOICE that of the SEQUENCE or SET around it. -/
  sequenceNames : ∀ m n cs e c, Called src m n (.sequence cs e) → c ∈ cs → isStruct c.type = true → typeName c.name ≠ n
  setNames : ∀ m n cs e c, Called src m n (.set cs e) → c ∈ cs → isStruct c.type = true → typeName c.name ≠ n

/-- Sources that are compiled. -/
structure CompilableSource (src : Tree) : Prop extends CompilableSourceNames src where
  /-- There are no recursive types. -/
  recursion : ∀ m ∈ src.modules, ¬ ∃ n, Relation.TransGen (MentionedBy m.name m.assignments) n n

/-- Sources with recursive types that are compiled. -/
structure RCompilableSource (src : Tree) : Prop extends CompilableSourceNames src where
  /-- In definitions that are recursive or lead to such ones, a SEQUENCE OF, SET OF or ENUMERATED is referred to in mandatory components of SEQUENCE or SET only, -/
  lists : ∀ m ∈ src.modules, ∀ a ∈ m.assignments, ∀ t, a.body = .type t → LeadsToCycle m a.name → ∀ q ref ps, Hidden t (.defined q ref ps) →
    ∀ wm u, Core (qualify src) m (qualifyType src m.name (.defined q ref ps)) wm u → isList u = false ∧ u ≠ .leaf .enumerated
  /-- and ENUMERATED is not written there as the type of elements, or behind a tag. -/
  enums : ∀ m ∈ src.modules, ∀ a ∈ m.assignments, ∀ t, a.body = .type t → LeadsToCycle m a.name → ∀ u, t = u ∨ Inside t u →
    (∀ n s, u ≠ .seqOf n (.leaf .enumerated) s) ∧ (∀ n s, u ≠ .setOf n (.leaf .enumerated) s) ∧ ∀ c n k, Hidden t u → u ≠ .prefixed c n k (.leaf .enumerated)

theorem CompilableSource.forward {src : Tree} (h : CompilableSource src) : RCompilableSource src where
  toCompilableSourceNames := h.toCompilableSourceNames
  lists := fun m hm _ _ _ _ hl => absurd ⟨_, hl.choose_spec.2⟩ (h.recursion m hm)
  enums := fun m hm _ _ _ _ hl => absurd ⟨_, hl.choose_spec.2⟩ (h.recursion m hm)

end FastBer.Ast.Spec
