import Verif.Spec.Params
/-!
# What splitting nested structures must preserve

`Unfolds own defs t' t`: the type `t'`, with references to made up names of the own module replaced by what they are defined
to be in `defs`, is `t`.
-/
namespace FastBer.Ast.Spec
open FastBer.Ast

/-- A name the splitting may make up. -/
def MadeUp (n : Name) : Prop := ∃ k : Nat, n = "UnnamedSet" ++ toString k ∨ n = "UnnamedSequence" ++ toString k ∨
  n = "UnnamedEnum" ++ toString k ∨ n = "UnnamedChoice" ++ toString k

mutual
inductive Unfolds (own : Name) (defs : Name → Option Body) : AType → AType → Prop where
  | reference {n : Name} {t' t : AType} : MadeUp n → defs n = some (.type t') → Unfolds own defs t' t → Unfolds own defs (.defined (some own) n []) t
  | leaf (k : Builtin) : Unfolds own defs (.leaf k) (.leaf k)
  | objField (m : Option Name) (c : Name) (fs : List Name) : Unfolds own defs (.objField m c fs) (.objField m c fs)
  | same (m : Option Name) (ref : Name) (ps : List AType) : Unfolds own defs (.defined m ref ps) (.defined m ref ps)
  | choice {as' as : List Named} (s : Storage) : UnfoldsAlts own defs as' as → Unfolds own defs (.choice as' s) (.choice as s)
  | sequence {cs' cs : List Comp} (e : Bool) : UnfoldsComps own defs cs' cs → Unfolds own defs (.sequence cs' e) (.sequence cs e)
  | set {cs' cs : List Comp} (e : Bool) : UnfoldsComps own defs cs' cs → Unfolds own defs (.set cs' e) (.set cs e)
  | seqOf {t' t : AType} (n : Option Name) (s : Storage) : Unfolds own defs t' t → Unfolds own defs (.seqOf n t' s) (.seqOf n t s)
  | setOf {t' t : AType} (n : Option Name) (s : Storage) : Unfolds own defs t' t → Unfolds own defs (.setOf n t' s) (.setOf n t s)
  | prefixed {t' t : AType} (c : Cls) (k : Nat) (m : TagMode) : Unfolds own defs t' t →
      Unfolds own defs (.prefixed c k m t') (.prefixed c k m t)
inductive UnfoldsAlts (own : Name) (defs : Name → Option Body) : List Named → List Named → Prop where
  | nil : UnfoldsAlts own defs [] []
  | cons {n : Name} {t' t : AType} {as' as : List Named} : Unfolds own defs t' t → UnfoldsAlts own defs as' as →
      UnfoldsAlts own defs (.mk n t' :: as') (.mk n t :: as)
inductive UnfoldsComps (own : Name) (defs : Name → Option Body) : List Comp → List Comp → Prop where
  | nil : UnfoldsComps own defs [] []
  | cons {n : Name} {t' t : AType} {o : Bool} {d : Option Value} {co : Option AType} {s : Storage} {cs' cs : List Comp} :
      Unfolds own defs t' t → UnfoldsComps own defs cs' cs →
      UnfoldsComps own defs (.mk n t' o d co s :: cs') (.mk n t o d co s :: cs)
end

/-- The definition of that name among the assignments. -/
def definition (as : List Assignment) (n : Name) : Option Body := (as.find? (·.name == n)).map (·.body)

/-- The body of an assignment after splitting means what it meant before. -/
inductive UnfoldsBody (own : Name) (defs : Name → Option Body) : Body → Body → Prop where
  | type {t' t : AType} : Unfolds own defs t' t → UnfoldsBody own defs (.type t') (.type t)
  | other {b : Body} : (∀ t, b ≠ .type t) → UnfoldsBody own defs b b

/-- A type the C++ generator needs a name for. -/
def NeedsName (t : AType) : Prop :=
  (∃ cs e, t = .set cs e) ∨ (∃ cs e, t = .sequence cs e) ∨ t = .leaf .enumerated ∨ (∃ as s, t = .choice as s)

/-- A type with such a type directly after OF or after a tag. -/
def Nests (t : AType) : Prop := ∃ inner, NeedsName inner ∧
  ((∃ n s, t = .seqOf n inner s) ∨ (∃ n s, t = .setOf n inner s) ∨ (∃ c k m, t = .prefixed c k m inner))

end FastBer.Ast.Spec
