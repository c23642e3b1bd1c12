import Verif.Spec.Distinct
import Verif.Spec.X690
import Verif.Spec.Schema
/-!
# X.690: encodings of the values of an ASN.1 type

`Encodes r tree mod t x e`: the octets `e` are a (definite length) BER encoding of the value `x` of the type `t`, written in
module `mod` of `tree`.  Nothing here refers to the compiler or to the generated code; abstract values `Val` are those of
`Spec/Schema.lean`, types are ASN.1 syntax trees.
-/
namespace FastBer.Ast.Spec
open FastBer.Ast FastBer.Spec

/-- The classes by their numbers in identifier octets. -/
def classOf : Cls → Class
  | .universal => .universal
  | .application => .application
  | .contextSpecific => .contextSpecific
  | .private_ => .private_

/-- What is left open: which length fields and which contents octets of the simple types are allowed. -/
structure Rules where
  lengthField : Nat → Bytes → Prop
  contents : Builtin → Bytes → Prop

/-- X.690 8.1.3.3-8.1.3.5: a definite length field for `n` contents octets, short form or long form with up to `max`
further octets (X.690: 126), which may begin with zeros. -/
inductive LengthField (max : Nat) (n : Nat) : Bytes → Prop where
  | short : n < 128 → LengthField max n [UInt8.ofNat n]
  | long {ds : Bytes} : 1 ≤ ds.length → ds.length ≤ max → value256 ds = n →
      LengthField max n (UInt8.ofNat (128 + ds.length) :: ds)

/-- The type itself: not a tagged type, not a reference. -/
def isCore : AType → Bool
  | .prefixed _ _ _ _ => false
  | .defined _ _ _ => false
  | _ => true

/-- `Core tree mod t wm u`: without its tags, and following references, `t` of module `mod` is the type `u` written in
module `wm`. -/
inductive Core (tree : Tree) : Module → AType → Module → AType → Prop where
  | here {mod : Module} {t : AType} : isCore t = true → Core tree mod t mod t
  | prefixed {mod wm : Module} {c : Cls} {n : Nat} {k : TagMode} {t u : AType} :
      Core tree mod t wm u → Core tree mod (.prefixed c n k t) wm u
  | reference {mod m' wm : Module} {m : Option Name} {ref : Name} {ps : List AType} {t u : AType} :
      target tree mod m ref = some (m', t) → Core tree m' t wm u → Core tree mod (.defined m ref ps) wm u

/-- `OwnTags tree mod t ts`: the tags of the type, outermost first, without those of the alternatives if it is a CHOICE: an untagged
CHOICE has none (compare `Tags`, which includes those of the alternative chosen). -/
inductive OwnTags (tree : Tree) : Module → AType → List Tag → Prop where
  | leaf {mod : Module} {k : Builtin} {n : Nat} : universalNumber k = some n → OwnTags tree mod (.leaf k) [(.universal, n)]
  | sequence (mod : Module) (cs : List Comp) (e : Bool) : OwnTags tree mod (.sequence cs e) [(.universal, 16)]
  | seqOf (mod : Module) (n : Option Name) (t : AType) (s : Storage) : OwnTags tree mod (.seqOf n t s) [(.universal, 16)]
  | set (mod : Module) (cs : List Comp) (e : Bool) : OwnTags tree mod (.set cs e) [(.universal, 17)]
  | setOf (mod : Module) (n : Option Name) (t : AType) (s : Storage) : OwnTags tree mod (.setOf n t s) [(.universal, 17)]
  | choice (mod : Module) (as : List Named) (s : Storage) : OwnTags tree mod (.choice as s) []
  | explicit_ {mod : Module} {c : Cls} {n : Nat} {k : TagMode} {t : AType} {ts : List Tag} :
      ExplicitTag tree mod t k → OwnTags tree mod t ts → OwnTags tree mod (.prefixed c n k t) ((c, n) :: ts)
  | implicit {mod : Module} {c : Cls} {n : Nat} {k : TagMode} {t : AType} {x : Tag} {ts : List Tag} :
      ¬ ExplicitTag tree mod t k → OwnTags tree mod t (x :: ts) → OwnTags tree mod (.prefixed c n k t) ((c, n) :: ts)
  | reference {mod : Module} {m : Option Name} {ref : Name} {ps : List AType} {wm : Module} {t : AType} {ts : List Tag} :
      target tree mod m ref = some (wm, t) → OwnTags tree wm t ts → OwnTags tree mod (.defined m ref ps) ts

/-- X.690 8.1.1: identifier octets, length octets, contents octets. -/
def Element (r : Rules) (tag : Tag) (k : Construction) (c e : Bytes) : Prop :=
  ∃ l, r.lengthField c.length l ∧ e = identifierOctets (classOf tag.1) k tag.2 ++ l ++ c

/-- X.690 8.14: the contents with these tags around them, outermost first; `k` is the construction of the innermost
element.  Without any tag (CHOICE, 8.13) there is nothing around the contents. -/
def Wrapped (r : Rules) : List Tag → Construction → Bytes → Bytes → Prop
  | [], _, c, e => e = c
  | [tag], k, c, e => Element r tag k c e
  | tag :: ts, k, c, e => ∃ e', Wrapped r ts k c e' ∧ Element r tag .constructed e' e

/-- A component as far as encodings go: may it be absent, and its type. -/
structure Slot where
  mayBeAbsent : Bool
  type : AType

/-- Is the type written with a tag in front? -/
def hasTag : AType → Bool
  | .prefixed _ _ _ _ => true
  | _ => false

/-- X.680 25.7, 27.2, 29.2: in a module with AUTOMATIC TAGS, if none of the types in the list is written with a tag, they get the context-specific
tags 0, 1, 2, ….  -/
def autoTags (mod : Module) (ts : List AType) : List AType :=
  if mod.tagging = .automatic ∧ ts.all (fun t => !hasTag t) = true then
    ts.mapIdx fun i t => .prefixed .contextSpecific i .automatic t
  else ts

/-- The components of a SEQUENCE or SET, with the tags automatic tagging gives them. -/
def slots (mod : Module) (cs : List Comp) : List Slot :=
  cs.zipWith (fun c t => ⟨c.optional || c.default.isSome, t⟩) (autoTags mod (cs.map Comp.type))

/-- The alternatives of a CHOICE, with the tags automatic tagging gives them. -/
def choices (mod : Module) (as : List Named) : List AType := autoTags mod (as.map Named.type)

mutual
/-- The octets are an encoding of the value. -/
inductive Encodes (r : Rules) (tree : Tree) : Module → AType → Val → Bytes → Prop where
  | intro {mod wm : Module} {t u : AType} {ts : List Tag} {x : Val} {k : Construction} {c e : Bytes} :
      OwnTags tree mod t ts → Core tree mod t wm u → Contents r tree wm u x k c → Wrapped r ts k c e →
      Encodes r tree mod t x e
/-- Contents octets of a value of a type that is neither a tagged type nor a reference, and whether they are primitive or
constructed.  For a CHOICE: the encoding of the chosen alternative. -/
inductive Contents (r : Rules) (tree : Tree) : Module → AType → Val → Construction → Bytes → Prop where
  /-- X.690 8.2-8.8, 8.19, 8.23, 8.25: simple types, in primitive form. -/
  | leaf {mod : Module} {k : Builtin} {c : Bytes} : r.contents k c →
      Contents r tree mod (.leaf k) (.content c) .primitive c
  /-- X.690 8.10: the encodings of the elements in order. -/
  | seqOf {mod : Module} {n : Option Name} {t : AType} {s : Storage} {xs : List Val} {es : List Bytes} :
      EncodesEach r tree mod t xs es → Contents r tree mod (.seqOf n t s) (.list xs) .constructed es.flatten
  /-- X.690 8.12: the encodings of the elements in any order.  (The values are listed in the order of their encodings; lists that differ
  in the order only are the same SET OF value.) -/
  | setOf {mod : Module} {n : Option Name} {t : AType} {s : Storage} {xs : List Val} {es : List Bytes} :
      EncodesEach r tree mod t xs es → Contents r tree mod (.setOf n t s) (.list xs) .constructed es.flatten
  /-- X.690 8.9: the encodings of the components in order. -/
  | sequence {mod : Module} {cs : List Comp} {ext : Bool} {xs : List Val} {es : List Bytes} :
      EncodesSlots r tree mod (slots mod cs) xs es → Contents r tree mod (.sequence cs ext) (.struct xs) .constructed es.flatten
  /-- X.690 8.11: the encodings of the components in any order. -/
  | set {mod : Module} {cs : List Comp} {ext : Bool} {xs : List Val} {es es' : List Bytes} :
      EncodesSlots r tree mod (slots mod cs) xs es → es.Perm es' →
      Contents r tree mod (.set cs ext) (.struct xs) .constructed es'.flatten
  /-- X.690 8.13: the encoding of the chosen alternative. -/
  | choice {mod : Module} {as : List Named} {s : Storage} {i : Nat} {t : AType} {x : Val} {e : Bytes} :
      (choices mod as)[i]? = some t → Encodes r tree mod t x e → Contents r tree mod (.choice as s) (.alt i x) .constructed e
/-- One encoding for each value. -/
inductive EncodesEach (r : Rules) (tree : Tree) : Module → AType → List Val → List Bytes → Prop where
  | nil (mod : Module) (t : AType) : EncodesEach r tree mod t [] []
  | cons {mod : Module} {t : AType} {x : Val} {e : Bytes} {xs : List Val} {es : List Bytes} :
      Encodes r tree mod t x e → EncodesEach r tree mod t xs es → EncodesEach r tree mod t (x :: xs) (e :: es)
/-- The components; an absent one has no octets. -/
inductive EncodesSlots (r : Rules) (tree : Tree) : Module → List Slot → List Val → List Bytes → Prop where
  | nil (mod : Module) : EncodesSlots r tree mod [] [] []
  | mandatory {mod : Module} {t : AType} {ss : List Slot} {x : Val} {e : Bytes} {xs : List Val} {es : List Bytes} :
      Encodes r tree mod t x e → EncodesSlots r tree mod ss xs es → EncodesSlots r tree mod (⟨false, t⟩ :: ss) (x :: xs) (e :: es)
  | present {mod : Module} {t : AType} {ss : List Slot} {x : Val} {e : Bytes} {xs : List Val} {es : List Bytes} :
      Encodes r tree mod t x e → EncodesSlots r tree mod ss xs es →
      EncodesSlots r tree mod (⟨true, t⟩ :: ss) (.present x :: xs) (e :: es)
  | absent {mod : Module} {t : AType} {ss : List Slot} {xs : List Val} {es : List Bytes} :
      EncodesSlots r tree mod ss xs es → EncodesSlots r tree mod (⟨true, t⟩ :: ss) (.absent :: xs) ([] :: es)
end

/-! ## Values -/

mutual
/-- `Value contents tree mod t x`: `x` is a value of the type `t` of module `mod`; values of the simple types are given by
contents octets, of which `contents` are allowed. -/
inductive Value (contents : Builtin → Bytes → Prop) (tree : Tree) : Module → AType → Val → Prop where
  | intro {mod wm : Module} {t u : AType} {x : Val} : Core tree mod t wm u → ValueOf contents tree wm u x → Value contents tree mod t x
/-- Values of a type that is neither a tagged type nor a reference. -/
inductive ValueOf (contents : Builtin → Bytes → Prop) (tree : Tree) : Module → AType → Val → Prop where
  | leaf {mod : Module} {k : Builtin} {c : Bytes} : contents k c → ValueOf contents tree mod (.leaf k) (.content c)
  | seqOf {mod : Module} {n : Option Name} {t : AType} {s : Storage} {xs : List Val} :
      (∀ x, x ∈ xs → Value contents tree mod t x) → ValueOf contents tree mod (.seqOf n t s) (.list xs)
  | setOf {mod : Module} {n : Option Name} {t : AType} {s : Storage} {xs : List Val} :
      (∀ x, x ∈ xs → Value contents tree mod t x) → ValueOf contents tree mod (.setOf n t s) (.list xs)
  | sequence {mod : Module} {cs : List Comp} {ext : Bool} {xs : List Val} :
      ValueSlots contents tree mod (slots mod cs) xs → ValueOf contents tree mod (.sequence cs ext) (.struct xs)
  | set {mod : Module} {cs : List Comp} {ext : Bool} {xs : List Val} :
      ValueSlots contents tree mod (slots mod cs) xs → ValueOf contents tree mod (.set cs ext) (.struct xs)
  | choice {mod : Module} {as : List Named} {s : Storage} {i : Nat} {t : AType} {x : Val} :
      (choices mod as)[i]? = some t → Value contents tree mod t x → ValueOf contents tree mod (.choice as s) (.alt i x)
/-- Values of the components. -/
inductive ValueSlots (contents : Builtin → Bytes → Prop) (tree : Tree) : Module → List Slot → List Val → Prop where
  | nil (mod : Module) : ValueSlots contents tree mod [] []
  | mandatory {mod : Module} {t : AType} {ss : List Slot} {x : Val} {xs : List Val} :
      Value contents tree mod t x → ValueSlots contents tree mod ss xs → ValueSlots contents tree mod (⟨false, t⟩ :: ss) (x :: xs)
  | present {mod : Module} {t : AType} {ss : List Slot} {x : Val} {xs : List Val} :
      Value contents tree mod t x → ValueSlots contents tree mod ss xs → ValueSlots contents tree mod (⟨true, t⟩ :: ss) (.present x :: xs)
  | absent {mod : Module} {t : AType} {ss : List Slot} {xs : List Val} :
      ValueSlots contents tree mod ss xs → ValueSlots contents tree mod (⟨true, t⟩ :: ss) (.absent :: xs)
end

/-! ## Which types of a tree there are -/

/-- `Occurs tree mod t`: the type `t` is written in module `mod`: it is assigned to a name there or is part of such a type. -/
inductive Occurs (tree : Tree) : Module → AType → Prop where
  | assigned {mod : Module} {a : Assignment} {t : AType} :
      mod ∈ tree.modules → a ∈ mod.assignments → a.body = .type t → Occurs tree mod t
  | sequence {mod : Module} {cs : List Comp} {e : Bool} {c : Comp} : Occurs tree mod (.sequence cs e) → c ∈ cs → Occurs tree mod c.type
  | set {mod : Module} {cs : List Comp} {e : Bool} {c : Comp} : Occurs tree mod (.set cs e) → c ∈ cs → Occurs tree mod c.type
  | choice {mod : Module} {as : List Named} {s : Storage} {a : Named} : Occurs tree mod (.choice as s) → a ∈ as → Occurs tree mod a.type
  | seqOf {mod : Module} {n : Option Name} {t : AType} {s : Storage} : Occurs tree mod (.seqOf n t s) → Occurs tree mod t
  | setOf {mod : Module} {n : Option Name} {t : AType} {s : Storage} : Occurs tree mod (.setOf n t s) → Occurs tree mod t
  | prefixed {mod : Module} {c : Cls} {n : Nat} {k : TagMode} {t : AType} : Occurs tree mod (.prefixed c n k t) → Occurs tree mod t

/-- `Field tree mod n t`: a component or alternative `n` of type `t` is written in module `mod`. -/
inductive Field (tree : Tree) : Module → Name → AType → Prop where
  | sequence {mod : Module} {cs : List Comp} {e : Bool} {c : Comp} :
      Occurs tree mod (.sequence cs e) → c ∈ cs → Field tree mod c.name c.type
  | set {mod : Module} {cs : List Comp} {e : Bool} {c : Comp} : Occurs tree mod (.set cs e) → c ∈ cs → Field tree mod c.name c.type
  | choice {mod : Module} {as : List Named} {s : Storage} {a : Named} : Occurs tree mod (.choice as s) → a ∈ as → Field tree mod a.name a.type

end FastBer.Ast.Spec
