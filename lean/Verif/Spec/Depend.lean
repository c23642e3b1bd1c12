import Verif.Spec.Resolve
/-!
# What a definition uses, and in which order definitions have to be written
-/
namespace FastBer.Ast.Spec
open FastBer.Ast

/-- `Uses own look item t n`: the type `t`, written in module `own`, uses the definition of `n` of the same module,
as a type or as a DEFAULT value.  `look s`: what is kept with storage mode `s` is looked into.  `item u`: a name that is the
DEFAULT of a component of type `u` is an item of an enumeration, not a value of the module. -/
inductive Uses (own : Name) (look : Storage → Prop) (item : AType → Prop) : AType → Name → Prop where
  | reference {m : Option Name} {n : Name} {ps : List AType} :
      m = none ∨ m = some own → Uses own look item (.defined m n ps) n
  | choice {as : List Named} {s : Storage} {a : Named} {n : Name} :
      look s → a ∈ as → Uses own look item a.type n → Uses own look item (.choice as s) n
  | sequence {cs : List Comp} {e : Bool} {c : Comp} {n : Name} :
      c ∈ cs → (c.optional = true → look c.storage) → Uses own look item c.type n → Uses own look item (.sequence cs e) n
  | set {cs : List Comp} {e : Bool} {c : Comp} {n : Name} :
      c ∈ cs → (c.optional = true → look c.storage) → Uses own look item c.type n → Uses own look item (.set cs e) n
  | sequenceDefault {cs : List Comp} {e : Bool} {c : Comp} {v : Name} :
      c ∈ cs → c.default = some (.defined v) → ¬ item c.type → Uses own look item (.sequence cs e) v
  | setDefault {cs : List Comp} {e : Bool} {c : Comp} {v : Name} :
      c ∈ cs → c.default = some (.defined v) → ¬ item c.type → Uses own look item (.set cs e) v
  | seqOf {m : Option Name} {t : AType} {s : Storage} {n : Name} :
      look s → Uses own look item t n → Uses own look item (.seqOf m t s) n
  | setOf {m : Option Name} {t : AType} {s : Storage} {n : Name} :
      look s → Uses own look item t n → Uses own look item (.setOf m t s) n
  | prefixed {c : Cls} {k : Nat} {m : TagMode} {t : AType} {n : Name} :
      Uses own look item t n → Uses own look item (.prefixed c k m t) n

/-- A definition: a type, or a value with its type. -/
inductive BodyUses (own : Name) (look : Storage → Prop) (item : AType → Prop) : Body → Name → Prop where
  | type {t : AType} {n : Name} : Uses own look item t n → BodyUses own look item (.type t) n
  | valueType {t : AType} {v : Value} {n : Name} : Uses own look item t n → BodyUses own look item (.value t v) n
  | value {t : AType} {n : Name} : BodyUses own look item (.value t (.defined n)) n

/-- The type is an ENUMERATED or stands for one. -/
def EnumType (tree : Tree) (own : Name) (t : AType) : Prop :=
  t = .leaf .enumerated ∨ ∃ nm n m, TypeStandsFor tree own nm t n (.leaf .enumerated) m

/-- The definition mentions `n`. -/
def Mentions (own : Name) (b : Body) (n : Name) : Prop :=
  BodyUses own (fun _ => True) (fun t => t = .leaf .enumerated) b n

/-- The definition refers to `n`, as a type or as a value. -/
def Refs (tree : Tree) (own : Name) (b : Body) (n : Name) : Prop := BodyUses own (fun _ => True) (EnumType tree own) b n

/-- The C++ definition written for it is valid only after that of `n`: what is stored dynamically needs no
definition. -/
def Needs (tree : Tree) (own : Name) (b : Body) (n : Name) : Prop :=
  BodyUses own (fun s => s ≠ .dynamic) (EnumType tree own) b n

/-- `u` is written directly inside `t`. -/
inductive Child : AType → AType → Prop where
  | choice {as : List Named} {s : Storage} {a : Named} : a ∈ as → Child (.choice as s) a.type
  | sequence {cs : List Comp} {e : Bool} {c : Comp} : c ∈ cs → Child (.sequence cs e) c.type
  | set {cs : List Comp} {e : Bool} {c : Comp} : c ∈ cs → Child (.set cs e) c.type
  | seqOf {m : Option Name} {t : AType} {s : Storage} : Child (.seqOf m t s) t
  | setOf {m : Option Name} {t : AType} {s : Storage} : Child (.setOf m t s) t
  | prefixed {c : Cls} {k : Nat} {m : TagMode} {t : AType} : Child (.prefixed c k m t) t

/-- `u` is written somewhere inside `t`. -/
def Inside (t u : AType) : Prop := Relation.TransGen Child t u

/-- The type is a SET with a component whose DEFAULT is a name. -/
def SetWithDefaultName (t : AType) : Prop := ∃ cs e, t = .set cs e ∧ ∃ c ∈ cs, ∃ v, c.default = some (.defined v)

/-- No SET inside another type (or as the type of a value) has a component whose DEFAULT is a name. -/
def NoInnerSetDefaults (as : List Assignment) : Prop := ∀ a ∈ as,
  (∀ t, a.body = .type t → ∀ u, Inside t u → ¬ SetWithDefaultName u) ∧
  (∀ t v, a.body = .value t v → ∀ u, u = t ∨ Inside t u → ¬ SetWithDefaultName u)

/-- Every definition comes after all those it needs. -/
def InOrder (tree : Tree) (own : Name) (out : List Assignment) : Prop :=
  ∀ pre a post, out = pre ++ a :: post → ∀ n, Needs tree own a.body n → ∃ b ∈ pre, b.name = n

mutual
/-- The type without its storage modes. -/
def forget : AType → AType
  | .leaf k => .leaf k
  | .objField m c fs => .objField m c fs
  | .choice alts _ => .choice (forgetAlts alts) .static_
  | .sequence cs e => .sequence (forgetComps cs) e
  | .set cs e => .set (forgetComps cs) e
  | .seqOf n t _ => .seqOf n (forget t) .static_
  | .setOf n t _ => .setOf n (forget t) .static_
  | .prefixed c n k t => .prefixed c n k (forget t)
  | .defined m ref ps => .defined m ref ps
def forgetAlts : List Named → List Named
  | [] => []
  | .mk n t :: as => .mk n (forget t) :: forgetAlts as
def forgetComps : List Comp → List Comp
  | [] => []
  | .mk n t o d co _ :: cs => .mk n (forget t) o d co .static_ :: forgetComps cs
end

/-- The assignment without the storage modes of its type. -/
def forgetA (a : Assignment) : Assignment :=
  match a.body with
  | .type t => { a with body := .type (forget t) }
  | _ => a

/-- CHOICE, SET OF, SEQUENCE OF: recursion through such a definition is possible. -/
def Recursive : Body → Prop
  | .type (.choice _ _) => True
  | .type (.setOf _ _ _) => True
  | .type (.seqOf _ _ _) => True
  | _ => False

/-- The components of a SEQUENCE or SET definition. -/
def components : Body → Option (List Comp)
  | .type (.sequence cs _) => some cs
  | .type (.set cs _) => some cs
  | _ => none

/-- The definition of `u` cannot be written without that of `v`: through a component that is not merely
OPTIONAL, or through anything other than a SEQUENCE, SET, CHOICE or OF. -/
inductive HardUse (tree : Tree) (own : Name) (as : List Assignment) : Name → Name → Prop where
  | component {a : Assignment} {cs : List Comp} {c : Comp} {v : Name} :
      a ∈ as → components a.body = some cs → c ∈ cs → (c.optional = false ∨ c.default.isSome = true) →
      Mentions own (.type c.type) v → HardUse tree own as a.name v
  | default {a : Assignment} {cs : List Comp} {c : Comp} {v : Name} :
      a ∈ as → components a.body = some cs → c ∈ cs → c.default = some (.defined v) → ¬ EnumType tree own c.type →
      HardUse tree own as a.name v
  | other {a : Assignment} {v : Name} :
      a ∈ as → components a.body = none → ¬ Recursive a.body → Mentions own a.body v → HardUse tree own as a.name v

/-- The definition of `u` mentions `v`. -/
def MentionedBy (own : Name) (as : List Assignment) (u v : Name) : Prop := ∃ a ∈ as, a.name = u ∧ Mentions own a.body v

/-- Every reference inside a component of a SEQUENCE or SET definition is to a type of the module itself. -/
def LocalComponents (own : Name) (as : List Assignment) : Prop := ∀ a ∈ as, ∀ cs, components a.body = some cs →
  ∀ c ∈ cs, ∀ m n ps, (c.type = .defined m n ps ∨ Inside c.type (.defined m n ps)) → m = none ∨ m = some own

/-- No SET definition has a component whose DEFAULT is a name. -/
def NoSetDefaults (as : List Assignment) : Prop := ∀ a ∈ as, ∀ t, a.body = .type t → ¬ SetWithDefaultName t

/-- A cycle of definitions none of which can be written before the next. -/
def IllegalCycle (tree : Tree) (own : Name) (as : List Assignment) : Prop :=
  ∃ n, Relation.TransGen (HardUse tree own as) n n

end FastBer.Ast.Spec
