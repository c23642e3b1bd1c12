import Verif.Spec.Legal
/-!
# Versions of a schema

X.680 lets the author of a type with an extension marker add components and alternatives later on; programs made from the two versions are
to understand each other.  Nothing here refers to the compiler or to generated code.
-/
namespace FastBer.Ast.Spec
open FastBer.Ast

/-- Components that are all OPTIONAL or have a default value. -/
def MayBeLeftOut (ss : List Slot) : Prop := ∀ s ∈ ss, s.mayBeAbsent = true

/-- Components that are all absent. -/
def NothingIn (xs : List Val) : Prop := ∀ x ∈ xs, x = Val.absent

/-- Components: those of the old version, then, if there is an extension marker, further ones, of which `added` is true. -/
inductive LaterSlots (added : List Slot → Prop) (R : AType → AType → Prop) : Bool → List Slot → List Slot → Prop where
  | same (ext : Bool) : LaterSlots added R ext [] []
  | more {ss' : List Slot} : added ss' → LaterSlots added R true [] ss'
  | cons {ext : Bool} {b : Bool} {t t' : AType} {ss ss' : List Slot} : R t t' → LaterSlots added R ext ss ss' →
      LaterSlots added R ext (⟨b, t⟩ :: ss) (⟨b, t'⟩ :: ss')

/-- Alternatives: those of the old version, then further ones.  (Extension markers of CHOICEs are not in the syntax tree.) -/
inductive LaterEach (R : AType → AType → Prop) : List AType → List AType → Prop where
  | more (ts' : List AType) : LaterEach R [] ts'
  | cons {t t' : AType} {ts ts' : List AType} : R t t' → LaterEach R ts ts' → LaterEach R (t :: ts) (t' :: ts')

/-- For types that are neither tagged types nor references, if `R` is the relation between the types they consist of. -/
inductive LaterOf (added : List Slot → Prop) (R : Module → AType → Module → AType → Prop) : Module → AType → Module → AType → Prop where
  | leaf (mod mod' : Module) (k : Builtin) : LaterOf added R mod (.leaf k) mod' (.leaf k)
  | seqOf {mod mod' : Module} {n n' : Option Name} {t t' : AType} {s s' : Storage} :
      R mod t mod' t' → LaterOf added R mod (.seqOf n t s) mod' (.seqOf n' t' s')
  | setOf {mod mod' : Module} {n n' : Option Name} {t t' : AType} {s s' : Storage} :
      R mod t mod' t' → LaterOf added R mod (.setOf n t s) mod' (.setOf n' t' s')
  | sequence {mod mod' : Module} {cs cs' : List Comp} {ext : Bool} :
      LaterSlots added (fun t t' => R mod t mod' t') ext (slots mod cs) (slots mod' cs') → LaterOf added R mod (.sequence cs ext) mod' (.sequence cs' ext)
  | set {mod mod' : Module} {cs cs' : List Comp} {ext : Bool} :
      LaterSlots added (fun t t' => R mod t mod' t') ext (slots mod cs) (slots mod' cs') → LaterOf added R mod (.set cs ext) mod' (.set cs' ext)
  | choice {mod mod' : Module} {as as' : List Named} {s s' : Storage} :
      LaterEach (fun t t' => R mod t mod' t') (choices mod as) (choices mod' as') → LaterOf added R mod (.choice as s) mod' (.choice as' s')

/-- The types have the same tags and, under those, the structure `LaterOf` asks for. -/
def LaterStep (added : List Slot → Prop) (old new : Tree) (R : Module → AType → Module → AType → Prop) (mod : Module) (t : AType) (mod' : Module) (t' : AType) : Prop :=
  ∃ ts wm u wm' u', OwnTags old mod t ts ∧ OwnTags new mod' t' ts ∧ Core old mod t wm u ∧ Core new mod' t' wm' u' ∧ LaterOf added R wm u wm' u'

/-- `Later added old new mod t mod' t'`: the type `t'`, written in module `mod'` of the schema `new`, is a later version of the type `t` of module
`mod` of `old`: the two have the same tags and the same structure, and so have, at any depth, the types they consist of, except that components (of types with an extension marker) and alternatives have
been added behind the old ones.  `added`: what is allowed of the components that were added.  (Types may refer to themselves, so it is the largest such relation.) -/
def Later (added : List Slot → Prop) (old new : Tree) (mod : Module) (t : AType) (mod' : Module) (t' : AType) : Prop :=
  ∃ R : Module → AType → Module → AType → Prop, (∀ mod t mod' t', R mod t mod' t' → LaterStep added old new R mod t mod' t') ∧ R mod t mod' t'

mutual
/-- `Part dropped tree mod t x y`: `y` is the part of `x`, a value of a later version, that the type `t` has components for.  There is none if `x`
contains an alternative of a CHOICE that `t` does not have.  `dropped`: what holds of the values left out. -/
inductive Part (dropped : List Val → Prop) (tree : Tree) : Module → AType → Val → Val → Prop where
  | intro {mod wm : Module} {t u : AType} {x y : Val} : Core tree mod t wm u → PartOf dropped tree wm u x y → Part dropped tree mod t x y
/-- For types that are neither tagged types nor references. -/
inductive PartOf (dropped : List Val → Prop) (tree : Tree) : Module → AType → Val → Val → Prop where
  | leaf (mod : Module) (k : Builtin) (c : Bytes) : PartOf dropped tree mod (.leaf k) (.content c) (.content c)
  | seqOf {mod : Module} {n : Option Name} {t : AType} {s : Storage} {xs ys : List Val} :
      PartEach dropped tree mod t xs ys → PartOf dropped tree mod (.seqOf n t s) (.list xs) (.list ys)
  | setOf {mod : Module} {n : Option Name} {t : AType} {s : Storage} {xs ys : List Val} :
      PartEach dropped tree mod t xs ys → PartOf dropped tree mod (.setOf n t s) (.list xs) (.list ys)
  | sequence {mod : Module} {cs : List Comp} {ext : Bool} {xs ys : List Val} :
      PartSlots dropped tree mod (slots mod cs) xs ys → PartOf dropped tree mod (.sequence cs ext) (.struct xs) (.struct ys)
  | set {mod : Module} {cs : List Comp} {ext : Bool} {xs ys : List Val} :
      PartSlots dropped tree mod (slots mod cs) xs ys → PartOf dropped tree mod (.set cs ext) (.struct xs) (.struct ys)
  | choice {mod : Module} {as : List Named} {s : Storage} {i : Nat} {t : AType} {x y : Val} :
      (choices mod as)[i]? = some t → Part dropped tree mod t x y → PartOf dropped tree mod (.choice as s) (.alt i x) (.alt i y)
/-- Element by element. -/
inductive PartEach (dropped : List Val → Prop) (tree : Tree) : Module → AType → List Val → List Val → Prop where
  | nil (mod : Module) (t : AType) : PartEach dropped tree mod t [] []
  | cons {mod : Module} {t : AType} {x y : Val} {xs ys : List Val} :
      Part dropped tree mod t x y → PartEach dropped tree mod t xs ys → PartEach dropped tree mod t (x :: xs) (y :: ys)
/-- Component by component. -/
inductive PartSlots (dropped : List Val → Prop) (tree : Tree) : Module → List Slot → List Val → List Val → Prop where
  | nil (mod : Module) {xs : List Val} : dropped xs → PartSlots dropped tree mod [] xs []
  | mandatory {mod : Module} {t : AType} {ss : List Slot} {x y : Val} {xs ys : List Val} :
      Part dropped tree mod t x y → PartSlots dropped tree mod ss xs ys → PartSlots dropped tree mod (⟨false, t⟩ :: ss) (x :: xs) (y :: ys)
  | present {mod : Module} {t : AType} {ss : List Slot} {x y : Val} {xs ys : List Val} :
      Part dropped tree mod t x y → PartSlots dropped tree mod ss xs ys → PartSlots dropped tree mod (⟨true, t⟩ :: ss) (.present x :: xs) (.present y :: ys)
  | absent {mod : Module} {t : AType} {ss : List Slot} {xs ys : List Val} :
      PartSlots dropped tree mod ss xs ys → PartSlots dropped tree mod (⟨true, t⟩ :: ss) (.absent :: xs) (.absent :: ys)
end

end FastBer.Ast.Spec
