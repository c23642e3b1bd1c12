import Verif.Model.Ast
import Verif.Model.Lexer
/-!
# ASN.1 notation

What a sequence of lexical items means, after X.680 (references to its clauses), X.681 (classes), X.682 (constraints) and X.683 (parameters).
The meaning is a syntax tree (Model/Ast).  A reference is a list of characters, as in the lexer.

Constraints have no meaning: BER does not depend on them.  The syntax tree keeps no named numbers of INTEGER and BIT STRING types; those
of ENUMERATED types are in `EnumN`.  What the compiler does not read, or reads otherwise, is left out here: see the theorems
`C92_violated_*`.

`real` gives the value of a real number, as `std::stod`.
-/
namespace FastBer.Notation
open FastBer Ast Lexer

/-- A reserved word or a symbol. -/
abbrev kw (s : String) : Tok := .sym s

/-- A name. -/
abbrev nm (n : List Char) : Name := String.ofList n

/-- The text of a string. -/
abbrev txt (s : Bytes) : Name := String.ofList (chars s)

/-- The types that are just a name (X.680 clauses 18-46, character strings: table 8). -/
def simpleTypes : List (List String × Builtin) := [
  (["BOOLEAN"], .boolean), (["INTEGER"], .integer), (["BIT", "STRING"], .bitString), (["OCTET", "STRING"], .octetString), (["REAL"], .real),
  (["OBJECT", "IDENTIFIER"], .objectIdentifier), (["RELATIVE-OID"], .relativeOID), (["EXTERNAL"], .external),
  (["EMBEDDED", "PDV"], .embeddedPDV), (["RELATIVE-OID-IRI"], .relativeIRI), (["DATE"], .date), (["DATE-TIME"], .dateTime),
  (["DURATION"], .duration), (["TIME"], .time), (["TIME-OF-DAY"], .timeOfDay), (["GeneralizedTime"], .generalizedTime),
  (["UTCTime"], .utcTime), (["ObjectDescriptor"], .objectDescriptor), (["ANY"], .any),
  (["UTF8String"], .charString 12), (["NumericString"], .charString 18), (["PrintableString"], .charString 19),
  (["TeletexString"], .charString 20), (["T61String"], .t61String), (["VideotexString"], .charString 21), (["IA5String"], .charString 22),
  (["GraphicString"], .charString 25), (["VisibleString"], .charString 26), (["ISO646String"], .charString 26),
  (["GeneralString"], .charString 27), (["UniversalString"], .charString 28), (["CHARACTER", "STRING"], .charString 29),
  (["BMPString"], .charString 30)]

/-! ## Values -/

/-- INTEGER notation (19.9). -/
inductive IntN : List Tok → Int → Prop
  | number (i : Int) : IntN [.number i] i
  | negative (i : Int) : IntN [.negative i] i

/-- The value behind DEFAULT or in a constraint. -/
inductive SimpleN (real : Bytes → UInt64) : List Tok → Value → Prop
  | true_ : SimpleN real [kw "TRUE"] (.bool true)
  | false_ : SimpleN real [kw "FALSE"] (.bool false)
  | bits (s : Bytes) : SimpleN real [.bstring s] (.str (txt s))
  | hex (s : Bytes) : SimpleN real [.hstring s] (.str (txt s))
  | chars (s : Bytes) : SimpleN real [.cstring s] (.str (txt s))
  | reference (n : List Char) : SimpleN real [.lower n] (.defined (nm n))
  | int {w : List Tok} {i : Int} : IntN w i → SimpleN real w (.int i)
  | real (s : Bytes) : SimpleN real [.real s] (.real (real s))

/-- An item between braces: the arcs of an OBJECT IDENTIFIER (32.3). -/
inductive ItemN : List Tok → Value → Prop
  | int {w : List Tok} {i : Int} : IntN w i → ItemN w (.int i)
  | reference (n : List Char) : ItemN [.lower n] (.defined (nm n))
  | named (n : List Char) (i : Int) : ItemN [.lower n, kw "(", .number i, kw ")"] (.namedNumber (nm n) i)

/-- Items, with nothing between them. -/
inductive ItemsN : List Tok → List Value → Prop
  | one {w : List Tok} {v : Value} : ItemN w v → ItemsN w [v]
  | more {w w' : List Tok} {v : Value} {vs : List Value} : ItemsN w vs → ItemN w' v → ItemsN (w ++ w') (vs ++ [v])

/-- The value of a value assignment (17.7). -/
inductive ValueN (real : Bytes → UInt64) : List Tok → Value → Prop
  | bits (s : Bytes) : ValueN real [.bstring s] (.bits (txt s))
  | hex (s : Bytes) : ValueN real [.hstring s] (.hex (txt s))
  | chars (s : Bytes) : ValueN real [.cstring s] (.chars (txt s))
  | reference (n : List Char) : ValueN real [.lower n] (.defined (nm n))
  | int {w : List Tok} {i : Int} : IntN w i → ValueN real w (.int i)
  | real (s : Bytes) : ValueN real [.real s] (.real (real s))
  | items {w : List Tok} {vs : List Value} : ItemsN w vs → ValueN real (kw "{" :: (w ++ [kw "}"])) (.list vs)

/-! ## Parts of types -/

/-- Named numbers (19.1): `a(1), b(-2), c(d)`. -/
inductive NumbersN : List Tok → Prop
  | one {w : List Tok} {i : Int} (n : List Char) : IntN w i → NumbersN (.lower n :: kw "(" :: (w ++ [kw ")"]))
  | oneRef (n r : List Char) : NumbersN [.lower n, kw "(", .lower r, kw ")"]
  | more {w w' : List Tok} {i : Int} (n : List Char) : NumbersN w → IntN w' i → NumbersN (w ++ kw "," :: .lower n :: kw "(" :: (w' ++ [kw ")"]))
  | moreRef {w : List Tok} (n r : List Char) : NumbersN w → NumbersN (w ++ [kw ",", .lower n, kw "(", .lower r, kw ")"])

/-- Named bits (22.1). -/
inductive BitsN : List Tok → Prop
  | one (n : List Char) (i : Int) : BitsN [.lower n, kw "(", .number i, kw ")"]
  | oneRef (n r : List Char) : BitsN [.lower n, kw "(", .lower r, kw ")"]
  | more {w : List Tok} (n : List Char) (i : Int) : BitsN w → BitsN (w ++ [kw ",", .lower n, kw "(", .number i, kw ")"])
  | moreRef {w : List Tok} (n r : List Char) : BitsN w → BitsN (w ++ [kw ",", .lower n, kw "(", .lower r, kw ")"])

/-- An enumeration item (20.1). -/
inductive EnumItemN : List Tok → Name × Option Int → Prop
  | plain (n : List Char) : EnumItemN [.lower n] (nm n, none)
  | numbered {w : List Tok} {i : Int} (n : List Char) : IntN w i → EnumItemN (.lower n :: kw "(" :: (w ++ [kw ")"])) (nm n, some i)

inductive EnumItemsN : List Tok → List (Name × Option Int) → Prop
  | one {w : List Tok} {e : Name × Option Int} : EnumItemN w e → EnumItemsN w [e]
  | more {w w' : List Tok} {e : Name × Option Int} {es : List (Name × Option Int)} :
      EnumItemsN w es → EnumItemN w' e → EnumItemsN (w ++ kw "," :: w') (es ++ [e])

/-- What is between the braces of ENUMERATED (20.1): the items of the root and the additional ones. -/
inductive EnumN : List Tok → List (Name × Option Int) → List (Name × Option Int) → Prop
  | root {w : List Tok} {es : List (Name × Option Int)} : EnumItemsN w es → EnumN w es []
  | extensible {w : List Tok} {es : List (Name × Option Int)} : EnumItemsN w es → EnumN (w ++ [kw ",", kw "..."]) es []
  | extended {w w' : List Tok} {es es' : List (Name × Option Int)} : EnumItemsN w es → EnumItemsN w' es' →
      EnumN (w ++ kw "," :: kw "..." :: kw "," :: w') es es'

/-- The class of a tag (31.2.1). -/
inductive ClassN : List Tok → Cls → Prop
  | universal : ClassN [kw "UNIVERSAL"] .universal
  | application : ClassN [kw "APPLICATION"] .application
  | private_ : ClassN [kw "PRIVATE"] .private_
  | context : ClassN [] .contextSpecific

/-- What may be between a tag and the type (31.2.1); `automatic`: as the module says. -/
inductive TagModeN : List Tok → TagMode → Prop
  | default : TagModeN [] .automatic
  | implicit : TagModeN [kw "IMPLICIT"] .implicit
  | explicit_ : TagModeN [kw "EXPLICIT"] .explicit_

/-- `&Type`, `&value` (X.681 7). -/
inductive FieldNameN : List Tok → Name → Prop
  | type (n : List Char) : FieldNameN [.typeField n] (nm n)
  | value (n : List Char) : FieldNameN [.valueField n] (nm n)

/-- `@a.b, @c` (X.682 10.7). -/
inductive PathN : List Tok → Prop
  | one (n : List Char) : PathN [.lower n]
  | more {w : List Tok} (n : List Char) : PathN w → PathN (w ++ [kw ".", .lower n])

inductive PathsN : List Tok → Prop
  | one {w : List Tok} : PathN w → PathsN (kw "@" :: w)
  | more {w w' : List Tok} : PathsN w → PathN w' → PathsN (w ++ kw "," :: kw "@" :: w')

/-- A value in a constraint or an end of a range (51.4.1). -/
inductive LowerN (real : Bytes → UInt64) : List Tok → Prop
  | value {w : List Tok} {v : Value} : SimpleN real w v → LowerN real w
  | min : LowerN real [kw "MIN"]

inductive UpperN (real : Bytes → UInt64) : List Tok → Prop
  | value {w : List Tok} {v : Value} : SimpleN real w v → UpperN real w
  | max : UpperN real [kw "MAX"]

/-- PRESENT and the like (51.8.9). -/
inductive PresenceN : List Tok → Prop
  | nothing : PresenceN []
  | present : PresenceN [kw "PRESENT"]
  | absent : PresenceN [kw "ABSENT"]
  | optional : PresenceN [kw "OPTIONAL"]

/-! ## Types -/

/-- A component without its own OPTIONAL or DEFAULT. -/
abbrev required (n : Name) (t : AType) : Comp := .mk n t false none none .static_
abbrev optional (n : Name) (t : AType) : Comp := .mk n t true none none .static_
abbrev default (n : Name) (t : AType) (v : Value) : Comp := .mk n t false (some v) none .static_
/-- COMPONENTS OF: the other fields mean nothing. -/
abbrev componentsOf (t : AType) : Comp := .mk "" (.leaf .any) false none (some t) .static_

mutual

/-- Types (17.1).  `closed`: a constraint behind it constrains it (49.4: behind SEQUENCE OF and the like it constrains the type they end
with). -/
inductive TypeN (real : Bytes → UInt64) : (closed : Bool) → List Tok → AType → Prop
  | simple {ks : List String} {k : Builtin} : (ks, k) ∈ simpleTypes → TypeN real true (ks.map kw) (.leaf k)
  | null : TypeN real true [kw "NULL"] (.leaf .null)
  | namedNumbers {w : List Tok} : NumbersN w → TypeN real true (kw "INTEGER" :: kw "{" :: (w ++ [kw "}"])) (.leaf .integer)
  | namedBits {w : List Tok} : BitsN w → TypeN real true (kw "BIT" :: kw "STRING" :: kw "{" :: (w ++ [kw "}"])) (.leaf .bitString)
  | enumerated {w : List Tok} {es es' : List (Name × Option Int)} : EnumN w es es' →
      TypeN real true (kw "ENUMERATED" :: kw "{" :: (w ++ [kw "}"])) (.leaf .enumerated)
  | reference (n : List Char) : TypeN real true [.upper n] (.defined none (nm n) [])
  | external (m n : List Char) : TypeN real true [.upper m, kw ".", .upper n] (.defined (some (nm m)) (nm n) [])
  | parameterized {b : Bool} {w : List Tok} {t : AType} (n : List Char) : TypeN real b w t → w ≠ [kw "NULL"] →
      TypeN real true (.upper n :: kw "{" :: (w ++ [kw "}"])) (.defined none (nm n) [t])
  | field {w : List Tok} {f : Name} (n : List Char) : FieldNameN w f → TypeN real true (.upper n :: kw "." :: w) (.objField none (nm n) [f])
  | sequenceEmpty : TypeN real true [kw "SEQUENCE", kw "{", kw "}"] (.sequence [] false)
  | sequence {w : List Tok} {cs : List Comp} {ext : Bool} : ComponentsN real w cs ext →
      TypeN real true (kw "SEQUENCE" :: kw "{" :: (w ++ [kw "}"])) (.sequence cs ext)
  | setEmpty : TypeN real true [kw "SET", kw "{", kw "}"] (.set [] false)
  | set {w : List Tok} {cs : List Comp} {ext : Bool} : ComponentsN real w cs ext →
      TypeN real true (kw "SET" :: kw "{" :: (w ++ [kw "}"])) (.set cs ext)
  | choice {w : List Tok} {as : List Named} : AlternativesN real w as →
      TypeN real true (kw "CHOICE" :: kw "{" :: (w ++ [kw "}"])) (.choice as .static_)
  /-- `...` ends the alternatives -/
  | choiceExtensible {w : List Tok} {as : List Named} : AlternativesN real w as →
      TypeN real true (kw "CHOICE" :: kw "{" :: (w ++ [kw ",", kw "...", kw "}"])) (.choice as .static_)
  | sequenceOf {c w : List Tok} {n : Option Name} {t : AType} : SizeN real c → ElementN real w n t →
      TypeN real false (kw "SEQUENCE" :: (c ++ kw "OF" :: w)) (.seqOf n t .smallBuffer)
  | setOf {c w : List Tok} {n : Option Name} {t : AType} : SizeN real c → ElementN real w n t →
      TypeN real false (kw "SET" :: (c ++ kw "OF" :: w)) (.setOf n t .smallBuffer)
  | tagged {c m w : List Tok} {cls : Cls} {mode : TagMode} {b : Bool} {t : AType} (i : Nat) : ClassN c cls → i < 2 ^ 31 → TagModeN m mode →
      TypeN real b w t → TypeN real false (kw "[" :: (c ++ .number i :: kw "]" :: (m ++ w))) (.prefixed cls i mode t)
  | constrained {w c : List Tok} {t : AType} : TypeN real true w t → ConstraintN real c → TypeN real true (w ++ c) t

/-- The element type of SEQUENCE OF and SET OF, which may be named (26.1). -/
inductive ElementN (real : Bytes → UInt64) : List Tok → Option Name → AType → Prop
  | plain {b : Bool} {w : List Tok} {t : AType} : TypeN real b w t → ElementN real w none t
  | named {b : Bool} {w : List Tok} {t : AType} (n : List Char) : TypeN real b w t → ElementN real (.lower n :: w) (some (nm n)) t

/-- A constraint between SEQUENCE and OF (49.5). -/
inductive SizeN (real : Bytes → UInt64) : List Tok → Prop
  | nothing : SizeN real []
  | constraint {c : List Tok} : ConstraintN real c → SizeN real c
  | size {c : List Tok} : ConstraintN real c → SizeN real (kw "SIZE" :: c)

/-- One component (25.1). -/
inductive ComponentN (real : Bytes → UInt64) : List Tok → Comp → Prop
  | required {b : Bool} {w : List Tok} {t : AType} (n : List Char) : TypeN real b w t → ComponentN real (.lower n :: w) (required (nm n) t)
  | optional {b : Bool} {w : List Tok} {t : AType} (n : List Char) : TypeN real b w t →
      ComponentN real (.lower n :: (w ++ [kw "OPTIONAL"])) (optional (nm n) t)
  | default {b : Bool} {w w' : List Tok} {t : AType} {v : Value} (n : List Char) : TypeN real b w t → SimpleN real w' v →
      ComponentN real (.lower n :: (w ++ kw "DEFAULT" :: w')) (default (nm n) t v)
  | defaultNull {b : Bool} {w : List Tok} {t : AType} (n : List Char) : TypeN real b w t →
      ComponentN real (.lower n :: (w ++ [kw "DEFAULT", kw "NULL"])) (default (nm n) t .null)
  | componentsOf {b : Bool} {w : List Tok} {t : AType} : TypeN real b w t → ComponentN real (kw "COMPONENTS" :: kw "OF" :: w) (componentsOf t)

/-- Components with commas between them. -/
inductive ComponentListN (real : Bytes → UInt64) : List Tok → List Comp → Prop
  | one {w : List Tok} {c : Comp} : ComponentN real w c → ComponentListN real w [c]
  | more {w w' : List Tok} {c : Comp} {cs : List Comp} : ComponentListN real w cs → ComponentN real w' c →
      ComponentListN real (w ++ kw "," :: w') (cs ++ [c])

/-- What is between the braces of SEQUENCE and SET (25.1); the last index: there is an extension marker. -/
inductive ComponentsN (real : Bytes → UInt64) : List Tok → List Comp → Bool → Prop
  | root {w : List Tok} {cs : List Comp} : ComponentListN real w cs → ComponentsN real w cs false
  | extensible {w : List Tok} {cs : List Comp} : ComponentListN real w cs → ComponentsN real (w ++ [kw ",", kw "..."]) cs true
  | extended {w w' : List Tok} {cs cs' : List Comp} : ComponentListN real w cs → ComponentListN real w' cs' →
      ComponentsN real (w ++ kw "," :: kw "..." :: kw "," :: w') (cs ++ cs') true
  | extendedEnd {w w' : List Tok} {cs cs' : List Comp} : ComponentListN real w cs → ComponentListN real w' cs' →
      ComponentsN real (w ++ kw "," :: kw "..." :: kw "," :: (w' ++ [kw ",", kw "..."])) (cs ++ cs') true
  | noRoot {w : List Tok} {cs : List Comp} : ComponentListN real w cs → ComponentsN real (kw "..." :: kw "," :: w) cs true
  | noRootEnd {w : List Tok} {cs : List Comp} : ComponentListN real w cs →
      ComponentsN real (kw "..." :: kw "," :: (w ++ [kw ",", kw "..."])) cs true
  | empty : ComponentsN real [kw "..."] [] true
  | emptyEnd : ComponentsN real [kw "...", kw ",", kw "..."] [] true

/-- The alternatives of CHOICE (29.1). -/
inductive AlternativesN (real : Bytes → UInt64) : List Tok → List Named → Prop
  | one {b : Bool} {w : List Tok} {t : AType} (n : List Char) : TypeN real b w t → AlternativesN real (.lower n :: w) [.mk (nm n) t]
  | more {b : Bool} {w w' : List Tok} {t : AType} {as : List Named} (n : List Char) : AlternativesN real w as → TypeN real b w' t →
      AlternativesN real (w ++ kw "," :: .lower n :: w') (as ++ [.mk (nm n) t])

/-- Constraints (49.6, X.682). -/
inductive ConstraintN (real : Bytes → UInt64) : List Tok → Prop
  | subtype {w : List Tok} : SetsN real w → ConstraintN real (kw "(" :: (w ++ [kw ")"]))
  | contents {b : Bool} {w : List Tok} {t : AType} : TypeN real b w t → ConstraintN real (kw "(" :: kw "CONTAINING" :: (w ++ [kw ")"]))
  | user : ConstraintN real [kw "(", kw "CONSTRAINED", kw "BY", kw "{", kw "}", kw ")"]
  | table (n : List Char) : ConstraintN real [kw "(", kw "{", .upper n, kw "}", kw ")"]
  | tableAt {w : List Tok} (n : List Char) : PathsN w →
      ConstraintN real (kw "(" :: kw "{" :: .upper n :: kw "}" :: kw "{" :: (w ++ [kw "}", kw ")"]))

/-- Element sets (50.1). -/
inductive SetsN (real : Bytes → UInt64) : List Tok → Prop
  | root {w : List Tok} : SetN real 4 w → SetsN real w
  | extensible {w : List Tok} : SetN real 4 w → SetsN real (w ++ [kw ",", kw "..."])
  | extended {w w' : List Tok} : SetN real 4 w → SetN real 4 w' → SetsN real (w ++ kw "," :: kw "..." :: kw "," :: w')

/-- One element set (50.1): 0 elements, 1 with an exclusion, 2 intersections, 3 unions, 4 any. -/
inductive SetN (real : Bytes → UInt64) : Nat → List Tok → Prop
  | weaker {l : Nat} {w : List Tok} : SetN real l w → l < 4 → SetN real (l + 1) w
  | except {w w' : List Tok} : SetN real 0 w → SetN real 0 w' → SetN real 1 (w ++ kw "EXCEPT" :: w')
  | intersection {w w' : List Tok} : SetN real 2 w → SetN real 1 w' → SetN real 2 (w ++ kw "^" :: w')
  | intersectionWord {w w' : List Tok} : SetN real 2 w → SetN real 1 w' → SetN real 2 (w ++ kw "INTERSECTION" :: w')
  | union {w w' : List Tok} : SetN real 3 w → SetN real 2 w' → SetN real 3 (w ++ kw "|" :: w')
  | unionWord {w w' : List Tok} : SetN real 3 w → SetN real 2 w' → SetN real 3 (w ++ kw "UNION" :: w')
  | allExcept {w : List Tok} : SetN real 0 w → SetN real 4 (kw "ALL" :: kw "EXCEPT" :: w)
  | parentheses {w : List Tok} : SetsN real w → SetN real 0 (kw "(" :: (w ++ [kw ")"]))
  | value {w : List Tok} {v : Value} : SimpleN real w v → SetN real 0 w
  | range {w w' : List Tok} : LowerN real w → UpperN real w' → SetN real 0 (w ++ kw ".." :: w')
  | rangeOpen {w w' : List Tok} : LowerN real w → UpperN real w' → SetN real 0 (w ++ kw ".." :: kw "<" :: w')
  | size {c : List Tok} : ConstraintN real c → SetN real 0 (kw "SIZE" :: c)
  | alphabet {c : List Tok} : ConstraintN real c → SetN real 0 (kw "FROM" :: c)
  | component {c : List Tok} : ConstraintN real c → SetN real 0 (kw "WITH" :: kw "COMPONENT" :: c)
  | components {w : List Tok} : InnerN real w → SetN real 0 (kw "WITH" :: kw "COMPONENTS" :: kw "{" :: (w ++ [kw "}"]))
  | componentsPartial {w : List Tok} : InnerN real w →
      SetN real 0 (kw "WITH" :: kw "COMPONENTS" :: kw "{" :: kw "..." :: kw "," :: (w ++ [kw "}"]))

/-- Constraints on components (51.8.6). -/
inductive InnerN (real : Bytes → UInt64) : List Tok → Prop
  | one {w p : List Tok} (n : List Char) : OptConstraintN real w → PresenceN p → InnerN real (.lower n :: (w ++ p))
  | more {w p w' : List Tok} (n : List Char) : OptConstraintN real w → PresenceN p → InnerN real w' →
      InnerN real (.lower n :: (w ++ p) ++ kw "," :: w')

inductive OptConstraintN (real : Bytes → UInt64) : List Tok → Prop
  | nothing : OptConstraintN real []
  | constraint {c : List Tok} : ConstraintN real c → OptConstraintN real c

end

/-! ## Assignments and modules -/

/-- The parameters of a parameterized type (X.683 8.3): references only. -/
inductive ParametersN : List Tok → List Param → Prop
  | one (n : List Char) : ParametersN [.upper n] [⟨none, nm n⟩]
  | more {w : List Tok} {ps : List Param} (n : List Char) : ParametersN w ps → ParametersN (w ++ [kw ",", .upper n]) (ps ++ [⟨none, nm n⟩])

/-- A field of a class (X.681 9.4): an open type or a value of a fixed type. -/
inductive FieldN (real : Bytes → UInt64) : List Tok → ClassField → Prop
  | type (n : List Char) : FieldN real [.typeField n] ⟨nm n, none⟩
  | typeOptional (n : List Char) : FieldN real [.typeField n, kw "OPTIONAL"] ⟨nm n, none⟩
  | value {b : Bool} {w : List Tok} {t : AType} (n : List Char) : TypeN real b w t → FieldN real (.valueField n :: w) ⟨nm n, some t⟩
  | valueOptional {b : Bool} {w : List Tok} {t : AType} (n : List Char) : TypeN real b w t →
      FieldN real (.valueField n :: (w ++ [kw "OPTIONAL"])) ⟨nm n, some t⟩
  | valueUnique {b : Bool} {w : List Tok} {t : AType} (n : List Char) : TypeN real b w t →
      FieldN real (.valueField n :: (w ++ [kw "UNIQUE"])) ⟨nm n, some t⟩

inductive FieldsN (real : Bytes → UInt64) : List Tok → List ClassField → Prop
  | one {w : List Tok} {f : ClassField} : FieldN real w f → FieldsN real w [f]
  | more {w w' : List Tok} {f : ClassField} {fs : List ClassField} : FieldsN real w fs → FieldN real w' f →
      FieldsN real (w ++ kw "," :: w') (fs ++ [f])

/-- The words of a WITH SYNTAX clause (X.681 10.5): upper-case words, then a field, again and again.  Each has at least one word. -/
inductive LiteralN : List Tok → Prop
  | word (n : List Char) : LiteralN [.upper n]
  | identifier : LiteralN [kw "IDENTIFIER"]
  | by_ : LiteralN [kw "BY"]
  | with_ : LiteralN [kw "WITH"]

inductive LiteralsN : List Tok → Prop
  | one {w : List Tok} : LiteralN w → LiteralsN w
  | more {w w' : List Tok} : LiteralsN w → LiteralN w' → LiteralsN (w ++ w')

inductive SyntaxN : List Tok → Prop
  | one {w w' : List Tok} {f : Name} : LiteralsN w → FieldNameN w' f → SyntaxN (w ++ w')
  | more {w w' w'' : List Tok} {f : Name} : SyntaxN w → LiteralsN w' → FieldNameN w'' f → SyntaxN (w ++ (w' ++ w''))

/-- Assignments (13.1). -/
inductive AssignmentN (real : Bytes → UInt64) : List Tok → Assignment → Prop
  | type {b : Bool} {w : List Tok} {t : AType} (n : List Char) : TypeN real b w t →
      AssignmentN real (.upper n :: kw "::=" :: w) { name := nm n, body := .type t }
  | value {b : Bool} {w w' : List Tok} {t : AType} {v : Value} (n : List Char) : TypeN real b w t → ValueN real w' v →
      AssignmentN real (.lower n :: (w ++ kw "::=" :: w')) { name := nm n, body := .value t v }
  | parameterized {b : Bool} {p w : List Tok} {ps : List Param} {t : AType} (n : List Char) : ParametersN p ps → TypeN real b w t →
      AssignmentN real (.upper n :: kw "{" :: (p ++ kw "}" :: kw "::=" :: w)) { name := nm n, body := .type t, params := ps }
  | objectClass {w : List Tok} {fs : List ClassField} (n : List Char) : FieldsN real w fs →
      AssignmentN real (.upper n :: kw "::=" :: kw "CLASS" :: kw "{" :: (w ++ [kw "}"])) { name := nm n, body := .objectClass fs }
  | objectClassSyntax {w s : List Tok} {fs : List ClassField} (n : List Char) : FieldsN real w fs → SyntaxN s →
      AssignmentN real (.upper n :: kw "::=" :: kw "CLASS" :: kw "{" :: (w ++ kw "}" :: kw "WITH" :: kw "SYNTAX" :: kw "{" :: (s ++ [kw "}"])))
        { name := nm n, body := .objectClass fs }

inductive AssignmentsN (real : Bytes → UInt64) : List Tok → List Assignment → Prop
  | one {w : List Tok} {a : Assignment} : AssignmentN real w a → AssignmentsN real w [a]
  | more {w w' : List Tok} {a : Assignment} {as : List Assignment} : AssignmentN real w a → AssignmentsN real w' as →
      AssignmentsN real (w ++ w') (a :: as)

/-- Symbols of EXPORTS and IMPORTS (13.1): those of types, which begin with an upper-case letter, and those of values, which begin with a
lower-case letter. -/
inductive SymbolN : List Tok → List Name → List Name → Prop
  | type (c : Char) (n : List Char) : 'A' ≤ c → c ≤ 'Z' → SymbolN [.upper (c :: n)] [nm (c :: n)] []
  | parameterized (c : Char) (n : List Char) : 'A' ≤ c → c ≤ 'Z' → SymbolN [.upper (c :: n), kw "{", kw "}"] [nm (c :: n)] []
  | value (c : Char) (n : List Char) : 'a' ≤ c → c ≤ 'z' → SymbolN [.lower (c :: n)] [] [nm (c :: n)]

inductive SymbolsN : List Tok → List Name → List Name → Prop
  | one {w : List Tok} {ts vs : List Name} : SymbolN w ts vs → SymbolsN w ts vs
  | more {w w' : List Tok} {ts vs ts' vs' : List Name} : SymbolsN w ts vs → SymbolN w' ts' vs' → SymbolsN (w ++ kw "," :: w') (ts ++ ts') (vs ++ vs')

/-- Arcs of an object identifier that names a module (13.1, 32.3). -/
inductive ArcN : List Tok → Prop
  | name (n : List Char) : ArcN [.lower n]
  | number (i : Int) : ArcN [.number i]
  | named (n : List Char) (i : Int) : ArcN [.lower n, kw "(", .number i, kw ")"]

inductive ArcsN : List Tok → Prop
  | one {w : List Tok} : ArcN w → ArcsN w
  | more {w w' : List Tok} : ArcN w → ArcsN w' → ArcsN (w ++ w')

inductive OidN : List Tok → Prop
  | nothing : OidN []
  | arcs {w : List Tok} : ArcsN w → OidN (kw "{" :: (w ++ [kw "}"]))

/-- Imports from one module. -/
inductive ImportN : List Tok → Import → Prop
  | mk {w o : List Tok} {ts vs : List Name} (m : List Char) : SymbolsN w ts vs → OidN o →
      ImportN (w ++ kw "FROM" :: .upper m :: o) { module := nm m, types := ts, values := vs }

inductive ImportListN : List Tok → List Import → Prop
  | one {w : List Tok} {i : Import} : ImportN w i → ImportListN w [i]
  | more {w w' : List Tok} {i : Import} {is : List Import} : ImportListN w is → ImportN w' i → ImportListN (w ++ w') (is ++ [i])

inductive ImportsN : List Tok → List Import → Prop
  | nothing : ImportsN [] []
  | none_ : ImportsN [kw "IMPORTS", kw ";"] []
  | some_ {w : List Tok} {is : List Import} : ImportListN w is → ImportsN (kw "IMPORTS" :: (w ++ [kw ";"])) is

inductive ExportsN : List Tok → Prop
  | nothing : ExportsN []
  | all : ExportsN [kw "EXPORTS", kw "ALL", kw ";"]
  | none_ : ExportsN [kw "EXPORTS", kw ";"]
  | some_ {w : List Tok} {ts vs : List Name} : SymbolsN w ts vs → ExportsN (kw "EXPORTS" :: (w ++ [kw ";"]))

/-- The tagging environment (13.2). -/
inductive TagDefaultN : List Tok → TagMode → Prop
  | nothing : TagDefaultN [] .explicit_
  | explicit_ : TagDefaultN [kw "EXPLICIT", kw "TAGS"] .explicit_
  | implicit : TagDefaultN [kw "IMPLICIT", kw "TAGS"] .implicit
  | automatic : TagDefaultN [kw "AUTOMATIC", kw "TAGS"] .automatic

/-- Modules (13.1). -/
inductive ModuleN (real : Bytes → UInt64) : List Tok → Module → Prop
  | full {o g e i w : List Tok} {mode : TagMode} {is : List Import} {as : List Assignment} (n : List Char) : OidN o → TagDefaultN g mode →
      ExportsN e → ImportsN i is → AssignmentsN real w as →
      ModuleN real (.upper n :: (o ++ kw "DEFINITIONS" :: (g ++ kw "::=" :: kw "BEGIN" :: (e ++ (i ++ w) ++ [kw "END"])))) ⟨nm n, mode, is, as⟩
  | empty {o g : List Tok} {mode : TagMode} (n : List Char) : OidN o → TagDefaultN g mode →
      ModuleN real (.upper n :: (o ++ kw "DEFINITIONS" :: (g ++ [kw "::=", kw "BEGIN", kw "END"]))) ⟨nm n, mode, [], []⟩

/-- A file: one module after the other. -/
inductive FileN (real : Bytes → UInt64) : List Tok → List Module → Prop
  | one {w : List Tok} {m : Module} : ModuleN real w m → FileN real w [m]
  | more {w w' : List Tok} {m : Module} {ms : List Module} : ModuleN real w m → FileN real w' ms → FileN real (w ++ w') (m :: ms)

end FastBer.Notation
