import Verif.Spec.Notation
import Verif.Proofs.ParserProductions
/-!
# The parser reads ASN.1 notation

Every rule of Spec/Notation is a derivation in the grammar of Proofs/ParserGrammar.
-/
namespace FastBer.Parser
open FastBer Ast Lexer Notation

variable {stod : Bytes → UInt64}

theorem D.cast {x : Nat} {w w' : List Tok} {v : Val} (h : D stod x w v) (e : w = w') : D stod x w' v := e ▸ h

/-- Derived, with any value. -/
def DX (stod : Bytes → UInt64) (x : Nat) (w : List Tok) : Prop := ∃ v, D stod x w v

/-! ## Values -/

theorem read_int {w : List Tok} {i : Int} (h : IntN w i) : D stod Sym.SignedNumber w (.int i) := by
  cases h with
  | number => exact by_SignedNumber_1 i
  | negative => exact by_SignedNumber_2 i

theorem read_identifier (n : List Char) : D stod Sym.identifier [.lower n] (.str (nm n)) := by_identifier_1 n
theorem read_value_ref (n : List Char) : D stod Sym.valuereference [.lower n] (.str (nm n)) := by_valuereference_1 n
theorem read_type_ref (n : List Char) : D stod Sym.typereference [.upper n] (.str (nm n)) := by_typereference_1 n
theorem read_module_ref (n : List Char) : D stod Sym.modulereference [.upper n] (.str (nm n)) := by_modulereference_1 n
theorem read_defined (n : List Char) : D stod Sym.DefinedValue [.lower n] (.defined (nm n)) := by_DefinedValue_1 (read_value_ref n)

theorem read_simple {w : List Tok} {v : Value} (h : SimpleN stod w v) : D stod Sym.SingleValue w (.value v) := by
  cases h with
  | true_ => exact by_SingleValue_1 by_BooleanValue_1
  | false_ => exact by_SingleValue_1 by_BooleanValue_2
  | bits s => exact by_SingleValue_3 s
  | hex s => exact by_SingleValue_4 s
  | chars s => exact by_SingleValue_5 s
  | reference n => exact by_SingleValue_6 (read_defined n)
  | int h => exact by_SingleValue_7 (read_int h)
  | real s => exact by_SingleValue_8 s

theorem read_simple_c {w : List Tok} {v : Value} (h : SimpleN stod w v) : D stod Sym.SingleValue_c w (.value v) := by
  cases h with
  | true_ => exact by_SingleValue_c_1 by_BooleanValue_1
  | false_ => exact by_SingleValue_c_1 by_BooleanValue_2
  | bits s => exact by_SingleValue_c_2 s
  | hex s => exact by_SingleValue_c_3 s
  | chars s => exact by_SingleValue_c_4 s
  | reference n => exact by_SingleValue_c_5 (read_defined n)
  | int h => exact by_SingleValue_c_6 (read_int h)
  | real s => exact by_SingleValue_c_7 s

theorem read_item {w : List Tok} {v : Value} (h : ItemN w v) : D stod Sym.Value_item w (.value v) := by
  cases h with
  | int h => exact by_Value_item_1 (by_ValueWithoutTypeIdentifier_item_1 (read_int h))
  | reference n => exact by_Value_item_1 (by_ValueWithoutTypeIdentifier_item_2 (read_defined n))
  | named n i => exact by_Value_item_1 (by_ValueWithoutTypeIdentifier_item_3 n i)

theorem read_items {w : List Tok} {vs : List Value} (h : ItemsN w vs) : D stod Sym.SequenceOfValues w (.values vs) := by
  induction h with
  | one h => exact by_SequenceOfValues_1 (read_item h)
  | more _ h ih => exact by_SequenceOfValues_2 ih (read_item h)

theorem read_value {w : List Tok} {v : Value} (h : ValueN stod w v) : D stod Sym.Value w (.value v) := by
  cases h with
  | bits s => exact by_Value_1 (by_ValueWithoutTypeIdentifier_3 s)
  | hex s => exact by_Value_1 (by_ValueWithoutTypeIdentifier_4 s)
  | chars s => exact by_Value_1 (by_ValueWithoutTypeIdentifier_5 s)
  | reference n => exact by_Value_1 (by_ValueWithoutTypeIdentifier_6 (read_defined n))
  | int h => exact by_Value_1 (by_ValueWithoutTypeIdentifier_7 (read_int h))
  | real s => exact by_Value_1 (by_ValueWithoutTypeIdentifier_8 s)
  | items h => exact by_Value_1 (by_ValueWithoutTypeIdentifier_9 (read_items h))

/-! ## Parts of types -/

theorem read_number {w : List Tok} {i : Int} (n : List Char) (h : IntN w i) :
    D stod Sym.NamedNumber (.lower n :: kw "(" :: (w ++ [kw ")"])) (.num (nm n) i) :=
  by_NamedNumber_1 (read_identifier n) (read_int h)

theorem read_numbers {w : List Tok} (h : NumbersN w) : DX stod Sym.NamedNumberList w := by
  induction h with
  | one n h => exact ⟨_, by_NamedNumberList_1 (read_number n h)⟩
  | oneRef n r => exact ⟨_, by_NamedNumberList_1 (by_NamedNumber_2 (read_identifier n) (read_defined r))⟩
  | more n _ h ih => obtain ⟨_, ih⟩ := ih; exact ⟨_, by_NamedNumberList_2 ih (read_number n h)⟩
  | moreRef n r _ ih => obtain ⟨_, ih⟩ := ih; exact ⟨_, by_NamedNumberList_2 ih (by_NamedNumber_2 (read_identifier n) (read_defined r))⟩

theorem read_bits {w : List Tok} (h : BitsN w) : DX stod Sym.NamedBitList w := by
  induction h with
  | one n i => exact ⟨_, by_NamedBitList_1 (by_NamedBit_1 (read_identifier n) i)⟩
  | oneRef n r => exact ⟨_, by_NamedBitList_1 (by_NamedBit_2 (read_identifier n) (read_defined r))⟩
  | more n i _ ih => obtain ⟨_, ih⟩ := ih; exact ⟨_, by_NamedBitList_2 ih (by_NamedBit_1 (read_identifier n) i)⟩
  | moreRef n r _ ih => obtain ⟨_, ih⟩ := ih; exact ⟨_, by_NamedBitList_2 ih (by_NamedBit_2 (read_identifier n) (read_defined r))⟩

theorem read_enum_item {w : List Tok} {e : Name × Option Int} (h : EnumItemN w e) : D stod Sym.EnumerationItem w (.enumItem e.1 e.2) := by
  cases h with
  | plain n => exact by_EnumerationItem_1 (read_identifier n)
  | numbered n h => exact by_EnumerationItem_2 (read_number n h)

theorem read_enum_items {w : List Tok} {es : List (Name × Option Int)} (h : EnumItemsN w es) : D stod Sym.Enumeration w (.enums es false) := by
  induction h with
  | one h => exact by_Enumeration_1 (read_enum_item h)
  | more _ h ih => exact by_Enumeration_2 ih (read_enum_item h)

theorem read_no_exception : D stod Sym.ExceptionSpec [] .none := by_ExceptionSpec_1

/-- The items of ENUMERATED, root first. -/
theorem read_enum {w : List Tok} {es es' : List (Name × Option Int)} (h : EnumN w es es') :
    ∃ ext, D stod Sym.EnumeratedType (kw "ENUMERATED" :: kw "{" :: (w ++ [kw "}"])) (.enums (es ++ es') ext) := by
  cases h with
  | root h => exact ⟨false, by rw [List.append_nil]; exact by_EnumeratedType_1 (by_Enumerations_1 (read_enum_items h))⟩
  | extensible h =>
    exact ⟨true, by rw [List.append_nil]; exact by_EnumeratedType_1 (by_Enumerations_2 (read_enum_items h) read_no_exception)⟩
  | extended h h' => exact ⟨true, by_EnumeratedType_1 (by_Enumerations_3 (read_enum_items h) read_no_exception (read_enum_items h'))⟩

theorem read_class {c : List Tok} {cls : Cls} (h : ClassN c cls) : D stod Sym.Class c (.cls cls) := by
  cases h with
  | universal => exact by_Class_1
  | application => exact by_Class_2
  | private_ => exact by_Class_3
  | context => exact by_Class_4

theorem wrap32_small {i : Nat} (h : i < 2 ^ 31) : wrap32 (i : Int) = i := by
  unfold wrap32
  omega

theorem read_tag {c : List Tok} {cls : Cls} {i : Nat} (h : ClassN c cls) (hi : i < 2 ^ 31) :
    D stod Sym.Tag (kw "[" :: (c ++ [.number (i : Int), kw "]"])) (.tag cls i) := by
  have := by_Tag_1 (stod := stod) by_EncodingReference_1 (read_class h) (by_ClassNumber_1 (i : Int))
  rw [show (Val.int (i : Int)).asInt = i from rfl, wrap32_small hi] at this
  exact this

theorem read_field_name {w : List Tok} {f : Name} (h : FieldNameN w f) : D stod Sym.FieldName w (.str f) := by
  cases h with
  | type n => exact by_FieldName_1 n
  | value n => exact by_FieldName_2 n

theorem read_path {w : List Tok} (h : PathN w) : DX stod Sym.ComponentIdList w := by
  induction h with
  | one n => exact ⟨_, by_ComponentIdList_1 (read_identifier n)⟩
  | more n _ ih => obtain ⟨_, ih⟩ := ih; exact ⟨_, by_ComponentIdList_2 ih (read_identifier n)⟩

theorem read_paths {w : List Tok} (h : PathsN w) : DX stod Sym.AtNotationList w := by
  induction h with
  | one h => obtain ⟨_, h⟩ := read_path (stod := stod) h; exact ⟨_, by_AtNotationList_1 (by_AtNotation_1 h)⟩
  | more _ h ih =>
    obtain ⟨_, h⟩ := read_path (stod := stod) h
    obtain ⟨_, ih⟩ := ih
    exact ⟨_, by_AtNotationList_2 ih (by_AtNotation_1 h)⟩

theorem read_lower {w : List Tok} (h : LowerN stod w) : DX stod Sym.LowerEndpoint w := by
  cases h with
  | value h => exact ⟨_, by_LowerEndpoint_1 (by_LowerEndValue_1 (read_simple_c h))⟩
  | min => exact ⟨_, by_LowerEndpoint_1 by_LowerEndValue_2⟩

theorem read_upper {w : List Tok} (h : UpperN stod w) : DX stod Sym.UpperEndValue w := by
  cases h with
  | value h => exact ⟨_, by_UpperEndValue_1 (read_simple_c h)⟩
  | max => exact ⟨_, by_UpperEndValue_2⟩

theorem read_presence {w : List Tok} (h : PresenceN w) : DX stod Sym.PresenceConstraint w := by
  cases h with
  | nothing => exact ⟨_, by_PresenceConstraint_4⟩
  | present => exact ⟨_, by_PresenceConstraint_1⟩
  | absent => exact ⟨_, by_PresenceConstraint_2⟩
  | optional => exact ⟨_, by_PresenceConstraint_3⟩

/-! ## Types -/

/-- What a type is read as. -/
def ReadType (stod : Bytes → UInt64) (b : Bool) (w : List Tok) (t : AType) : Prop :=
  D stod Sym.Type_ w (.type t) ∧ (b = true → D stod Sym.Type_closed w (.type t)) ∧ (w ≠ [kw "NULL"] → D stod Sym.Type_arg w (.type t))

theorem of_builtin {w : List Tok} {t : AType} (h : D stod Sym.BuiltinType w (.type t)) : ReadType stod true w t :=
  ⟨by_Type_2 h, fun _ => by_Type_closed_2 h, fun _ => by_Type_arg_1 h⟩

theorem of_builtin_open {w : List Tok} {t : AType} (h : D stod Sym.BuiltinType_open w (.type t)) : ReadType stod false w t :=
  ⟨by_Type_3 h, (fun h => nomatch h), fun _ => by_Type_arg_2 h⟩

theorem of_defined {w : List Tok} {t : AType} (h : D stod Sym.DefinedType w (.type t)) : ReadType stod true w t :=
  ⟨by_Type_4 h, fun _ => by_Type_closed_3 h, fun _ => by_Type_arg_3 h⟩

theorem of_constrained {w : List Tok} {t : AType} (h : D stod Sym.ConstrainedType w (.type t)) : ReadType stod true w t :=
  ⟨by_Type_5 h, fun _ => by_Type_closed_4 h, fun _ => by_Type_arg_4 h⟩

theorem of_constrained_open {w : List Tok} {t : AType} (h : D stod Sym.ConstrainedType_open w (.type t)) : ReadType stod false w t :=
  ⟨by_Type_6 h, (fun h => nomatch h), fun _ => by_Type_arg_5 h⟩

theorem read_restricted {w : List Tok} {k : Nat} (h : D stod Sym.RestrictedCharacterStringType w (.type (.leaf (.charString k)))) :
    D stod Sym.BuiltinType w (.type (.leaf (.charString k))) := by_BuiltinType_4 (by_CharacterStringType_1 h)

theorem read_simple_type {ks : List String} {k : Builtin} (h : (ks, k) ∈ simpleTypes) : D stod Sym.BuiltinType (ks.map kw) (.type (.leaf k)) := by
  simp only [simpleTypes, List.mem_cons, Prod.mk.injEq, List.not_mem_nil, or_false] at h
  rcases h with ⟨rfl, rfl⟩ | ⟨rfl, rfl⟩ | ⟨rfl, rfl⟩ | ⟨rfl, rfl⟩ | ⟨rfl, rfl⟩ | ⟨rfl, rfl⟩ | ⟨rfl, rfl⟩ | ⟨rfl, rfl⟩ | ⟨rfl, rfl⟩ |
    ⟨rfl, rfl⟩ | ⟨rfl, rfl⟩ | ⟨rfl, rfl⟩ | ⟨rfl, rfl⟩ | ⟨rfl, rfl⟩ | ⟨rfl, rfl⟩ | ⟨rfl, rfl⟩ | ⟨rfl, rfl⟩ | ⟨rfl, rfl⟩ | ⟨rfl, rfl⟩ |
    ⟨rfl, rfl⟩ | ⟨rfl, rfl⟩ | ⟨rfl, rfl⟩ | ⟨rfl, rfl⟩ | ⟨rfl, rfl⟩ | ⟨rfl, rfl⟩ | ⟨rfl, rfl⟩ | ⟨rfl, rfl⟩ | ⟨rfl, rfl⟩ | ⟨rfl, rfl⟩ |
    ⟨rfl, rfl⟩ | ⟨rfl, rfl⟩ | ⟨rfl, rfl⟩ | ⟨rfl, rfl⟩
  · exact by_BuiltinType_3 by_BooleanType_1
  · exact by_BuiltinType_13 by_IntegerType_1
  · exact by_BuiltinType_2 by_BitStringType_1
  · exact by_BuiltinType_17 by_OctetStringType_1
  · exact by_BuiltinType_18 by_RealType_1
  · exact by_BuiltinType_16 by_ObjectIdentifierType_1
  · exact by_BuiltinType_20 by_RelativeOIDType_1
  · exact by_BuiltinType_11 by_ExternalType_1
  · exact by_BuiltinType_9 by_EmbeddedPDVType_1
  · exact by_BuiltinType_19 by_RelativeIRIType_1
  · exact by_BuiltinType_6 by_DateType_1
  · exact by_BuiltinType_7 by_DateTimeType_1
  · exact by_BuiltinType_8 by_DurationType_1
  · exact by_BuiltinType_23 by_TimeType_1
  · exact by_BuiltinType_24 by_TimeOfDayType_1
  · exact by_BuiltinType_12
  · exact by_BuiltinType_25
  · exact by_BuiltinType_15
  · exact by_BuiltinType_1
  · exact read_restricted by_RestrictedCharacterStringType_11
  · exact read_restricted by_RestrictedCharacterStringType_6
  · exact read_restricted by_RestrictedCharacterStringType_7
  · exact read_restricted by_RestrictedCharacterStringType_8
  · exact by_BuiltinType_4 (by_CharacterStringType_1 by_RestrictedCharacterStringType_9)
  · exact read_restricted by_RestrictedCharacterStringType_12
  · exact read_restricted by_RestrictedCharacterStringType_4
  · exact read_restricted by_RestrictedCharacterStringType_3
  · exact read_restricted by_RestrictedCharacterStringType_13
  · exact read_restricted by_RestrictedCharacterStringType_5
  · exact read_restricted by_RestrictedCharacterStringType_2
  · exact read_restricted by_RestrictedCharacterStringType_10
  · exact by_BuiltinType_4 (by_CharacterStringType_2 by_UnrestrictedCharacterStringType_1)
  · exact read_restricted by_RestrictedCharacterStringType_1

/-- What an element set of level `l` is. -/
def setSym (l : Nat) : Nat :=
  [Sym.Elements, Sym.IntersectionElements, Sym.Intersections, Sym.Unions].getD l Sym.ElementSetSpec

def ReadElement (stod : Bytes → UInt64) (w : List Tok) (n : Option Name) (t : AType) : Prop :=
  match n with
  | none => D stod Sym.Type_ w (.type t)
  | some n => D stod Sym.NamedType w (.named (.mk n t))

def ReadSize (stod : Bytes → UInt64) (c : List Tok) : Prop := c = [] ∨ DX stod Sym.Constraint c ∨ DX stod Sym.SizeConstraint c

theorem read_sequence_of {c w : List Tok} {n : Option Name} {t : AType} (hc : ReadSize stod c) (h : ReadElement stod w n t) :
    ReadType stod false (kw "SEQUENCE" :: (c ++ kw "OF" :: w)) (.seqOf n t .smallBuffer) := by
  cases n with
  | none =>
    rcases hc with rfl | ⟨_, hc⟩ | ⟨_, hc⟩
    · exact of_builtin_open (by_BuiltinType_open_1 (by_SequenceOfType_1 h))
    · exact of_constrained_open (by_ConstrainedType_open_1 (by_TypeWithConstraint_3 hc h))
    · exact of_constrained_open (by_ConstrainedType_open_1 (by_TypeWithConstraint_4 hc h))
  | some n =>
    rcases hc with rfl | ⟨_, hc⟩ | ⟨_, hc⟩
    · exact of_builtin_open (by_BuiltinType_open_1 (by_SequenceOfType_2 h))
    · exact of_constrained_open (by_ConstrainedType_open_1 (by_TypeWithConstraint_7 hc h))
    · exact of_constrained_open (by_ConstrainedType_open_1 (by_TypeWithConstraint_8 hc h))

theorem read_set_of {c w : List Tok} {n : Option Name} {t : AType} (hc : ReadSize stod c) (h : ReadElement stod w n t) :
    ReadType stod false (kw "SET" :: (c ++ kw "OF" :: w)) (.setOf n t .smallBuffer) := by
  cases n with
  | none =>
    rcases hc with rfl | ⟨_, hc⟩ | ⟨_, hc⟩
    · exact of_builtin_open (by_BuiltinType_open_2 (by_SetOfType_1 h))
    · exact of_constrained_open (by_ConstrainedType_open_1 (by_TypeWithConstraint_1 hc h))
    · exact of_constrained_open (by_ConstrainedType_open_1 (by_TypeWithConstraint_2 hc h))
  | some n =>
    rcases hc with rfl | ⟨_, hc⟩ | ⟨_, hc⟩
    · exact of_builtin_open (by_BuiltinType_open_2 (by_SetOfType_2 h))
    · exact of_constrained_open (by_ConstrainedType_open_1 (by_TypeWithConstraint_5 hc h))
    · exact of_constrained_open (by_ConstrainedType_open_1 (by_TypeWithConstraint_6 hc h))

theorem read_tagged {c m w : List Tok} {cls : Cls} {mode : TagMode} {b : Bool} {t : AType} {i : Nat} (hc : ClassN c cls) (hi : i < 2 ^ 31)
    (hm : TagModeN m mode) (h : ReadType stod b w t) :
    ReadType stod false (kw "[" :: (c ++ .number (i : Int) :: kw "]" :: (m ++ w))) (.prefixed cls i mode t) := by
  have ht := read_tag (stod := stod) hc hi
  refine of_builtin_open ?_
  cases hm with
  | default => exact (by_BuiltinType_open_3 (by_PrefixedType_1 (by_TaggedType_1 ht h.1))).cast (by simp)
  | implicit => exact (by_BuiltinType_open_3 (by_PrefixedType_1 (by_TaggedType_2 ht h.1))).cast (by simp)
  | explicit_ => exact (by_BuiltinType_open_3 (by_PrefixedType_1 (by_TaggedType_3 ht h.1))).cast (by simp)

theorem read_named {b : Bool} {w : List Tok} {t : AType} (n : List Char) (h : ReadType stod b w t) :
    D stod Sym.NamedType (.lower n :: w) (.named (.mk (nm n) t)) := by_NamedType_1 (read_identifier n) h.1

theorem read_subtype {w : List Tok} {v : Val} (h : D stod Sym.SubtypeElements w v) : DX stod (setSym 0) w := ⟨_, by_Elements_1 h⟩

theorem read_object_set (n : List Char) : D stod Sym.ObjectSet [kw "{", .upper n, kw "}"] .none := by
  exact by_ObjectSet_1 (by_ObjectSetSpec_1 (by_ElementSetSpec_set_1 (by_Unions_set_1 (by_Intersections_set_1 (by_IntersectionElements_set_1
    (by_Elements_set_1 (by_SubtypeElements_set_1 (by_SingleValue_set_1 n))))))))

theorem read_type {b : Bool} {w : List Tok} {t : AType} (h : TypeN stod b w t) : ReadType stod b w t := by
  refine TypeN.rec (real := stod)
    (motive_1 := fun b w t _ => ReadType stod b w t)
    (motive_2 := fun w n t _ => ReadElement stod w n t)
    (motive_3 := fun c _ => ReadSize stod c)
    (motive_4 := fun w c _ => D stod Sym.ComponentType w (.comp c))
    (motive_5 := fun w cs _ => D stod Sym.ComponentTypeList w (.comps cs))
    (motive_6 := fun w cs ext _ => D stod Sym.ComponentTypeLists w (.collection cs ext))
    (motive_7 := fun w as _ => D stod Sym.AlternativeTypeList w (.nameds as))
    (motive_8 := fun w _ => DX stod Sym.Constraint w)
    (motive_9 := fun w _ => DX stod Sym.ElementSetSpecs w)
    (motive_10 := fun l w _ => DX stod (setSym l) w)
    (motive_11 := fun w _ => DX stod Sym.TypeConstraints w)
    (motive_12 := fun w _ => DX stod Sym.ValueConstraint w)
    ?simple ?null ?namedNumbers ?namedBits ?enumerated ?reference ?external ?parameterized ?field ?sequenceEmpty ?sequence ?setEmpty ?set
    ?choice ?choiceExtensible ?sequenceOf ?setOf ?tagged ?constrained
    ?plain ?named ?nosize ?csize ?size ?required ?optional ?default ?defaultNull ?componentsOf
    ?cone ?cmore ?croot ?cextensible ?cextended ?cextendedEnd ?cnoRoot ?cnoRootEnd ?cempty ?cemptyEnd ?aone ?amore
    ?subtype ?contents ?user ?table ?tableAt ?sroot ?sextensible ?sextended
    ?weaker ?except ?intersection ?intersectionWord ?union ?unionWord ?allExcept ?parentheses ?value ?range ?rangeOpen ?esize ?alphabet
    ?component ?components ?componentsPartial ?ione ?imore ?onothing ?oconstraint h
  case simple => intro ks k h; exact of_builtin (read_simple_type h)
  case null => exact ⟨by_Type_1 (by_BuiltinType_null_1 by_NullType_1), fun _ => by_Type_closed_1 (by_BuiltinType_null_1 by_NullType_1),
    fun h => (h rfl).elim⟩
  case namedNumbers => intro w h; obtain ⟨_, h⟩ := read_numbers (stod := stod) h; exact of_builtin (by_BuiltinType_13 (by_IntegerType_2 h))
  case namedBits => intro w h; obtain ⟨_, h⟩ := read_bits (stod := stod) h; exact of_builtin (by_BuiltinType_2 (by_BitStringType_2 h))
  case enumerated => intro w es es' h; obtain ⟨_, h⟩ := read_enum (stod := stod) h; exact of_builtin (by_BuiltinType_10 h)
  case reference => intro n; exact of_defined (by_DefinedType_2 (read_type_ref n))
  case external => intro m n; exact of_defined (by_DefinedType_1 (by_ExternalTypeReference_1 (read_type_ref m) (read_type_ref n)))
  case parameterized =>
    intro b w t n _ hne h
    exact of_defined (by_DefinedType_3 (by_ParameterizedType_1 (by_SimpleDefinedType_1 (read_type_ref n))
      (by_ActualParameterList_1 (by_ActualParameter_1 (h.2.2 hne)))))
  case field =>
    intro w f n h
    exact of_builtin (by_BuiltinType_14 (by_ObjectClassFieldType_1 (read_type_ref n) (by_FieldNameList_1 (read_field_name h))))
  case sequenceEmpty => exact of_builtin (by_BuiltinType_21 by_SequenceType_1)
  case sequence => intro w cs ext _ h; exact of_builtin (by_BuiltinType_21 (by_SequenceType_2 h))
  case setEmpty => exact of_builtin (by_BuiltinType_22 by_SetType_1)
  case set => intro w cs ext _ h; exact of_builtin (by_BuiltinType_22 (by_SetType_2 h))
  case choice =>
    intro w as _ h
    exact of_builtin (by_BuiltinType_5 (by_ChoiceType_1 (by_AlternativeTypeLists_1 (by_RootAlternativeTypeList_1 h))))
  case choiceExtensible =>
    intro w as _ h
    exact of_builtin ((by_BuiltinType_5 (by_ChoiceType_1 (by_AlternativeTypeLists_1 (by_RootAlternativeTypeList_2 h)))).cast (by simp))
  case sequenceOf => intro c w n t _ _ hc h; exact read_sequence_of hc h
  case setOf => intro c w n t _ _ hc h; exact read_set_of hc h
  case tagged => intro c m w cls mode b t i hc hi hm _ h; exact read_tagged hc hi hm h
  case constrained => intro w c t _ _ h hc; obtain ⟨_, hc⟩ := hc; exact of_constrained (by_ConstrainedType_1 (h.2.1 rfl) hc)
  case plain => intro b w t _ h; exact h.1
  case named => intro b w t n _ h; exact read_named n h
  case nosize => exact Or.inl rfl
  case csize => intro c _ h; exact Or.inr (Or.inl h)
  case size => intro c _ h; obtain ⟨_, h⟩ := h; exact Or.inr (Or.inr ⟨_, by_SizeConstraint_1 h⟩)
  case required => intro b w t n _ h; exact by_ComponentType_1 (read_named n h)
  case optional => intro b w t n _ h; exact by_ComponentType_2 (read_named n h)
  case default => intro b w w' t v n _ hv h; exact by_ComponentType_3 (read_named n h) (read_simple hv)
  case defaultNull => intro b w t n _ h; exact by_ComponentType_3 (read_named n h) by_SingleValue_2
  case componentsOf => intro b w t _ h; exact by_ComponentType_4 h.1
  case cone => intro w c _ h; exact by_ComponentTypeList_1 h
  case cmore => intro w w' c cs _ _ h1 h2; exact by_ComponentTypeList_2 h1 h2
  case croot => intro w cs _ h; exact by_ComponentTypeLists_1 h
  case cextensible => intro w cs _ h; exact by_ComponentTypeLists_2 h read_no_exception
  case cextended => intro w w' cs cs' _ _ h1 h2; exact by_ComponentTypeLists_3 h1 read_no_exception h2
  case cextendedEnd => intro w w' cs cs' _ _ h1 h2; exact by_ComponentTypeLists_4 h1 read_no_exception h2
  case cnoRoot => intro w cs _ h; exact by_ComponentTypeLists_6 read_no_exception h
  case cnoRootEnd => intro w cs _ h; exact by_ComponentTypeLists_7 read_no_exception h
  case cempty => exact by_ComponentTypeLists_8 read_no_exception
  case cemptyEnd => exact by_ComponentTypeLists_9 read_no_exception
  case aone => intro b w t n _ h; exact by_AlternativeTypeList_1 (read_named n h)
  case amore => intro b w w' t as n _ _ h1 h2; exact by_AlternativeTypeList_2 h1 (read_named n h2)
  case subtype => intro w _ h; obtain ⟨_, h⟩ := h; exact ⟨_, by_Constraint_1 (by_ConstraintSpec_1 (by_SubtypeConstraint_1 h)) read_no_exception⟩
  case contents =>
    intro b w t _ h
    exact ⟨_, by_Constraint_1 (by_ConstraintSpec_2 (by_GeneralConstraint_1 (by_ContentsConstraint_1 h.1))) read_no_exception⟩
  case user =>
    exact ⟨_, by_Constraint_1 (by_ConstraintSpec_2 (by_GeneralConstraint_2 (by_UserDefinedConstraint_1 by_UserDefinedConstraintParameter_1)))
      read_no_exception⟩
  case table =>
    intro n
    exact ⟨_, by_Constraint_1 (by_ConstraintSpec_2 (by_GeneralConstraint_3 (by_TableConstraint_1 (read_object_set n)))) read_no_exception⟩
  case tableAt =>
    intro w n hw
    obtain ⟨_, hw⟩ := read_paths (stod := stod) hw
    exact ⟨_, (by_Constraint_1 (by_ConstraintSpec_2 (by_GeneralConstraint_3 (by_TableConstraint_2 (read_object_set n) hw)))
      read_no_exception).cast (by simp)⟩
  case sroot => intro w _ h; obtain ⟨_, h⟩ := h; exact ⟨_, by_ElementSetSpecs_1 h⟩
  case sextensible => intro w _ h; obtain ⟨_, h⟩ := h; exact ⟨_, by_ElementSetSpecs_2 h⟩
  case sextended => intro w w' _ _ h1 h2; obtain ⟨_, h1⟩ := h1; obtain ⟨_, h2⟩ := h2; exact ⟨_, by_ElementSetSpecs_3 h1 h2⟩
  case weaker =>
    intro l w _ hl h
    obtain ⟨_, h⟩ := h
    match l, hl, h with
    | 0, _, h => exact ⟨_, by_IntersectionElements_1 h⟩
    | 1, _, h => exact ⟨_, by_Intersections_1 h⟩
    | 2, _, h => exact ⟨_, by_Unions_1 h⟩
    | 3, _, h => exact ⟨_, by_ElementSetSpec_1 h⟩
    | n + 4, hl, _ => omega
  case except =>
    intro w w' _ _ h1 h2; obtain ⟨_, h1⟩ := h1; obtain ⟨_, h2⟩ := h2
    exact ⟨_, by_IntersectionElements_2 (by_Elems_1 h1) (by_Exclusions_1 h2)⟩
  case intersection =>
    intro w w' _ _ h1 h2; obtain ⟨_, h1⟩ := h1; obtain ⟨_, h2⟩ := h2
    exact ⟨_, by_Intersections_2 (by_IElems_1 h1) by_IntersectionMark_1 h2⟩
  case intersectionWord =>
    intro w w' _ _ h1 h2; obtain ⟨_, h1⟩ := h1; obtain ⟨_, h2⟩ := h2
    exact ⟨_, by_Intersections_2 (by_IElems_1 h1) by_IntersectionMark_2 h2⟩
  case union =>
    intro w w' _ _ h1 h2; obtain ⟨_, h1⟩ := h1; obtain ⟨_, h2⟩ := h2
    exact ⟨_, by_Unions_2 (by_UElems_1 h1) by_UnionMark_1 h2⟩
  case unionWord =>
    intro w w' _ _ h1 h2; obtain ⟨_, h1⟩ := h1; obtain ⟨_, h2⟩ := h2
    exact ⟨_, by_Unions_2 (by_UElems_1 h1) by_UnionMark_2 h2⟩
  case allExcept => intro w _ h; obtain ⟨_, h⟩ := h; exact ⟨_, by_ElementSetSpec_2 (by_Exclusions_1 h)⟩
  case parentheses => intro w _ h; obtain ⟨_, h⟩ := h; exact ⟨_, by_Elements_2 h⟩
  case value => intro w v h; exact read_subtype (by_SubtypeElements_1 (read_simple_c h))
  case range =>
    intro w w' h1 h2; obtain ⟨_, h1⟩ := read_lower h1; obtain ⟨_, h2⟩ := read_upper h2
    exact read_subtype (by_SubtypeElements_2 (by_ValueRange_1 h1 (by_UpperEndpoint_1 h2)))
  case rangeOpen =>
    intro w w' h1 h2; obtain ⟨_, h1⟩ := read_lower h1; obtain ⟨_, h2⟩ := read_upper h2
    exact read_subtype (by_SubtypeElements_2 (by_ValueRange_1 h1 (by_UpperEndpoint_2 h2)))
  case esize => intro c _ h; obtain ⟨_, h⟩ := h; exact read_subtype (by_SubtypeElements_4 (by_SizeConstraint_1 h))
  case alphabet => intro c _ h; obtain ⟨_, h⟩ := h; exact read_subtype (by_SubtypeElements_3 (by_PermittedAlphabet_1 h))
  case component =>
    intro c _ h; obtain ⟨_, h⟩ := h
    exact read_subtype (by_SubtypeElements_5 (by_InnerTypeConstraints_1 (by_SingleTypeConstraint_1 h)))
  case components =>
    intro w _ h; obtain ⟨_, h⟩ := h
    exact read_subtype (by_SubtypeElements_5 (by_InnerTypeConstraints_2 (by_MultipleTypeConstraints_3 h)))
  case componentsPartial =>
    intro w _ h; obtain ⟨_, h⟩ := h
    exact read_subtype (by_SubtypeElements_5 (by_InnerTypeConstraints_2 (by_MultipleTypeConstraints_2 h)))
  case ione =>
    intro w p n _ hp h; obtain ⟨_, h⟩ := h; obtain ⟨_, hp⟩ := read_presence (stod := stod) hp
    exact ⟨_, by_TypeConstraints_1 (by_NamedConstraint_1 (read_identifier n) (by_ComponentConstraint_1 h hp))⟩
  case imore =>
    intro w p w' n _ hp _ h h2; obtain ⟨_, h⟩ := h; obtain ⟨_, h2⟩ := h2; obtain ⟨_, hp⟩ := read_presence (stod := stod) hp
    exact ⟨_, by_TypeConstraints_2 (by_NamedConstraint_1 (read_identifier n) (by_ComponentConstraint_1 h hp)) h2⟩
  case onothing => exact ⟨_, by_ValueConstraint_2⟩
  case oconstraint => intro c _ h; obtain ⟨_, h⟩ := h; exact ⟨_, by_ValueConstraint_1 h⟩

/-! ## Assignments and modules -/

theorem read_parameters {w : List Tok} {ps : List Param} (h : ParametersN w ps) : D stod Sym.ParameterSeries w (.params ps) := by
  induction h with
  | one n => exact by_ParameterSeries_1 (by_Parameter_1 (by_Reference_type_1 (read_type_ref n)))
  | more n _ ih => exact by_ParameterSeries_2 ih (by_Parameter_1 (by_Reference_type_1 (read_type_ref n)))

theorem read_field {w : List Tok} {f : ClassField} (h : FieldN stod w f) : D stod Sym.FieldSpec w (.fields [f]) := by
  cases h with
  | type n => exact by_FieldSpec_1 (by_TypeFieldSpec_1 (by_OneOrManyTypeFieldReference_1 n) by_TypeOptionalitySpec_2)
  | typeOptional n => exact by_FieldSpec_1 (by_TypeFieldSpec_1 (by_OneOrManyTypeFieldReference_1 n) by_TypeOptionalitySpec_1)
  | value n h =>
    exact (by_FieldSpec_2 (by_FixedTypeValueFieldSpec_1 n (read_type h).1 by_OptionalUnique_3 by_ValueOptionalitySpec_1)).cast (by simp)
  | valueOptional n h =>
    exact (by_FieldSpec_2 (by_FixedTypeValueFieldSpec_1 n (read_type h).1 by_OptionalUnique_2 by_ValueOptionalitySpec_1)).cast (by simp)
  | valueUnique n h =>
    exact (by_FieldSpec_2 (by_FixedTypeValueFieldSpec_1 n (read_type h).1 by_OptionalUnique_1 by_ValueOptionalitySpec_1)).cast (by simp)

theorem read_fields {w : List Tok} {fs : List ClassField} (h : FieldsN stod w fs) : D stod Sym.FieldSpecList w (.fields fs) := by
  induction h with
  | one h => exact by_FieldSpecList_1 (read_field h)
  | more _ h ih => exact by_FieldSpecList_2 ih (read_field h)

theorem read_literal {w : List Tok} (h : LiteralN w) : DX stod Sym.Literal w := by
  cases h with
  | word n => exact ⟨_, by_Literal_1 (by_word_1 n)⟩
  | identifier => exact ⟨_, by_Literal_1 by_word_2⟩
  | by_ => exact ⟨_, by_Literal_1 by_word_3⟩
  | with_ => exact ⟨_, by_Literal_1 by_word_4⟩

theorem read_literals {w : List Tok} (h : LiteralsN w) : DX stod Sym.LiteralList w := by
  induction h with
  | one h => obtain ⟨_, h⟩ := read_literal (stod := stod) h; exact ⟨_, by_LiteralList_1 h⟩
  | more _ h ih => obtain ⟨_, h⟩ := read_literal (stod := stod) h; obtain ⟨_, ih⟩ := ih; exact ⟨_, by_LiteralList_2 ih h⟩

theorem read_syntax {w : List Tok} (h : SyntaxN w) : DX stod Sym.TokenOrGroupSpecList w := by
  induction h with
  | one h hf =>
    obtain ⟨_, h⟩ := read_literals (stod := stod) h
    exact ⟨_, by_TokenOrGroupSpecList_1 (by_TokenOrGroupSpec_1 (by_RequiredToken_1 h (read_field_name hf)))⟩
  | more _ h hf ih =>
    obtain ⟨_, h⟩ := read_literals (stod := stod) h
    obtain ⟨_, ih⟩ := ih
    exact ⟨_, by_TokenOrGroupSpecList_2 ih (by_TokenOrGroupSpec_1 (by_RequiredToken_1 h (read_field_name hf)))⟩

theorem read_assignment {w : List Tok} {a : Assignment} (h : AssignmentN stod w a) : D stod Sym.Assignment w (.assignment a) := by
  cases h with
  | type n h => exact by_Assignment_1 (by_TypeAssignment_1 (read_type_ref n) (read_type h).1)
  | value n h hv => exact by_Assignment_2 (by_ValueAssignment_1 (read_value_ref n) (read_type h).1 (read_value hv))
  | parameterized n hp h =>
    exact (by_Assignment_4 (by_ParameterizedAssignment_1 (by_ParameterizedTypeAssignment_1 (read_type_ref n) (by_ParameterList_1 (read_parameters hp))
      (read_type h).1))).cast (by simp)
  | objectClass n h =>
    exact by_Assignment_3 (by_ObjectClassAssignment_1 (read_type_ref n) (by_ObjectClass_1 (by_ObjectClassDefn_1 (read_fields h) by_WithSyntaxSpec_1)))
  | objectClassSyntax n h hs =>
    obtain ⟨_, hs⟩ := read_syntax (stod := stod) hs
    exact by_Assignment_3 (by_ObjectClassAssignment_1 (read_type_ref n) (by_ObjectClass_1 (by_ObjectClassDefn_1 (read_fields h)
      (by_WithSyntaxSpec_2 (by_SyntaxList_1 hs)))))

/-- The assignments of a module are kept in reverse. -/
theorem read_assignments {w : List Tok} {as : List Assignment} (h : AssignmentsN stod w as) :
    D stod Sym.AssignmentList w (.assignments as.reverse) := by
  induction h with
  | one h => exact by_AssignmentList_1 (read_assignment h)
  | more h _ ih =>
    rw [List.reverse_cons]
    exact by_AssignmentList_2 (read_assignment h) ih

theorem starts_upper {c : Char} {n : List Char} (h1 : 'A' ≤ c) (h2 : c ≤ 'Z') : startsUpper (nm (c :: n)) = true := by
  unfold startsUpper nm
  rw [String.toList_ofList]
  simp only [Bool.and_eq_true, decide_eq_true_eq]
  exact ⟨h1, h2⟩

theorem starts_lower {c : Char} {n : List Char} (h1 : 'a' ≤ c) : startsUpper (nm (c :: n)) = false := by
  unfold startsUpper nm
  rw [String.toList_ofList]
  simp only [Bool.and_eq_false_iff, decide_eq_false_iff_not]
  right
  intro h2
  exact absurd (Char.le_trans h1 h2) (by decide)

theorem read_symbol {w : List Tok} {ts vs : List Name} (h : SymbolN w ts vs) :
    ∃ r, D stod Sym.Symbol w (.str r) ∧ [r].filter startsUpper = ts ∧ ([r].filter fun r => !startsUpper r) = vs := by
  cases h with
  | type c n h1 h2 =>
    exact ⟨nm (c :: n), by_Symbol_1 (by_Reference_1 (read_type_ref _)), by rw [List.filter_cons_of_pos (starts_upper h1 h2)]; rfl,
      by rw [List.filter_cons_of_neg (by rw [starts_upper h1 h2]; decide)]; rfl⟩
  | parameterized c n h1 h2 =>
    exact ⟨nm (c :: n), by_Symbol_1 (by_Reference_2 (read_type_ref _)), by rw [List.filter_cons_of_pos (starts_upper h1 h2)]; rfl,
      by rw [List.filter_cons_of_neg (by rw [starts_upper h1 h2]; decide)]; rfl⟩
  | value c n h1 h2 =>
    exact ⟨nm (c :: n), by_Symbol_1 (by_Reference_3 (read_value_ref _)), by rw [List.filter_cons_of_neg (by rw [starts_lower h1]; decide)]; rfl,
      by rw [List.filter_cons_of_pos (by rw [starts_lower h1]; decide)]; rfl⟩

theorem read_symbols {w : List Tok} {ts vs : List Name} (h : SymbolsN w ts vs) :
    ∃ rs, D stod Sym.SymbolList w (.strs rs) ∧ rs.filter startsUpper = ts ∧ (rs.filter fun r => !startsUpper r) = vs := by
  induction h with
  | one h =>
    obtain ⟨r, h, e1, e2⟩ := read_symbol (stod := stod) h
    exact ⟨[r], by_SymbolList_1 h, e1, e2⟩
  | more _ h ih =>
    obtain ⟨r, h, e1, e2⟩ := read_symbol (stod := stod) h
    obtain ⟨rs, ih, e3, e4⟩ := ih
    exact ⟨rs ++ [r], by_SymbolList_2 ih h, by rw [List.filter_append, e1, e3], by rw [List.filter_append, e2, e4]⟩

theorem read_arc {w : List Tok} (h : ArcN w) : DX stod Sym.ObjIdComponents w ∧ DX stod Sym.DefinitiveObjIdComponent w := by
  cases h with
  | name n => exact ⟨⟨_, by_ObjIdComponents_1 (by_NameForm_1 (read_identifier n))⟩, ⟨_, by_DefinitiveObjIdComponent_1 (by_NameForm_1 (read_identifier n))⟩⟩
  | number i => exact ⟨⟨_, by_ObjIdComponents_2 (by_NumberForm_1 i)⟩, ⟨_, by_DefinitiveObjIdComponent_2 (by_DefinitiveNumberForm_1 i)⟩⟩
  | named n i => exact ⟨⟨_, by_ObjIdComponents_3 (by_NameAndNumberForm_1 (read_identifier n) (by_NumberForm_1 i))⟩,
      ⟨_, by_DefinitiveObjIdComponent_3 (by_DefinitiveNameAndNumberForm_1 (read_identifier n) (by_DefinitiveNumberForm_1 i))⟩⟩

theorem read_arcs {w : List Tok} (h : ArcsN w) : DX stod Sym.ObjIdComponentsList w ∧ DX stod Sym.DefinitiveObjIdComponentList w := by
  induction h with
  | one h =>
    obtain ⟨⟨_, h1⟩, ⟨_, h2⟩⟩ := read_arc (stod := stod) h
    exact ⟨⟨_, by_ObjIdComponentsList_1 h1⟩, ⟨_, by_DefinitiveObjIdComponentList_1 h2⟩⟩
  | more h _ ih =>
    obtain ⟨⟨_, h1⟩, ⟨_, h2⟩⟩ := read_arc (stod := stod) h
    obtain ⟨⟨_, h3⟩, ⟨_, h4⟩⟩ := ih
    exact ⟨⟨_, by_ObjIdComponentsList_2 h1 h3⟩, ⟨_, by_DefinitiveObjIdComponentList_2 h2 h4⟩⟩

theorem read_definitive {w : List Tok} (h : OidN w) : DX stod Sym.DefinitiveIdentification w := by
  cases h with
  | nothing => exact ⟨_, by_DefinitiveIdentification_1⟩
  | arcs h => obtain ⟨_, ⟨_, h⟩⟩ := read_arcs (stod := stod) h; exact ⟨_, by_DefinitiveIdentification_2 (by_DefinitiveOID_1 h)⟩

theorem read_import {w : List Tok} {i : Import} (h : ImportN w i) : D stod Sym.SymbolsFromModule w (.import_ i) := by
  cases h with
  | mk m h ho =>
    obtain ⟨rs, hs, e1, e2⟩ := read_symbols (stod := stod) h
    subst e1 e2
    show D stod Sym.SymbolsFromModule _ (.import_ (importOf (nm m) rs))
    cases ho with
    | nothing => exact by_SymbolsFromModule_1 hs (by_GlobalModuleReference_1 (read_module_ref m))
    | arcs ha =>
      obtain ⟨⟨_, ha⟩, _⟩ := read_arcs (stod := stod) ha
      exact by_SymbolsFromModule_1 hs (by_GlobalModuleReference_2 (read_module_ref m) (by_ObjectIdentifierValue_1 ha))

theorem read_import_list {w : List Tok} {is : List Import} (h : ImportListN w is) : D stod Sym.SymbolsFromModuleList w (.imports is) := by
  induction h with
  | one h => exact by_SymbolsFromModuleList_1 (read_import h)
  | more _ h ih => exact by_SymbolsFromModuleList_2 ih (read_import h)

theorem read_imports {w : List Tok} {is : List Import} (h : ImportsN w is) : D stod Sym.Imports w (.imports is) := by
  cases h with
  | nothing => exact by_Imports_2
  | none_ => exact by_Imports_1 by_SymbolsImported_2
  | some_ h => exact by_Imports_1 (by_SymbolsImported_1 (read_import_list h))

theorem read_exports {w : List Tok} (h : ExportsN w) : DX stod Sym.Exports w := by
  cases h with
  | nothing => exact ⟨_, by_Exports_3⟩
  | all => exact ⟨_, by_Exports_2⟩
  | none_ => exact ⟨_, by_Exports_1 by_SymbolsExported_2⟩
  | some_ h => obtain ⟨_, h, _⟩ := read_symbols (stod := stod) h; exact ⟨_, by_Exports_1 (by_SymbolsExported_1 h)⟩

theorem read_tag_default {w : List Tok} {m : TagMode} (h : TagDefaultN w m) : D stod Sym.TagDefault w (.mode m) := by
  cases h with
  | nothing => exact by_TagDefault_4
  | explicit_ => exact by_TagDefault_1
  | implicit => exact by_TagDefault_2
  | automatic => exact by_TagDefault_3

/-- A module as the parser keeps it: the last assignment first. -/
def kept (m : Module) : Module := { m with assignments := m.assignments.reverse }

theorem derives_module {o g b : List Tok} {vo : Val} {mode : TagMode} {is : List Import} {as : List Assignment} (n : List Char)
    (ho : D stod Sym.DefinitiveIdentification o vo) (hg : D stod Sym.TagDefault g (.mode mode)) (hb : D stod Sym.ModuleBody b (.module_ is as)) (st : St) :
    Derives stod Sym.ModuleDefinition (.upper n :: (o ++ kw "DEFINITIONS" :: (g ++ kw "::=" :: kw "BEGIN" :: (b ++ [kw "END"])))) st .none
      { st with modules := st.modules ++ [⟨nm n, mode, is, as⟩] } := by
  have h1 := by_ModuleIdentifier_1 (read_module_ref n) ho
  have hall : DAll stod [Sym.ModuleIdentifier, 51, Sym.EncodingReferenceDefault, Sym.TagDefault, Sym.ExtensionDefault, 121, 36, Sym.ModuleBody,
      Sym.EncodingControlSections, 56] _ _ :=
    .cons h1 (.tok tok51 (.cons by_EncodingReferenceDefault_1 (.cons hg (.cons by_ExtensionDefault_2 (.tok tok121 (.tok tok36 (.cons hb
      (.cons by_EncodingControlSections_1 (.tok tok56 .nil)))))))))
  have h2 := hall st
  have h3 : Derives stod Sym.ModuleDefinition _ st .none { st with modules := st.modules ++ [⟨nm n, mode, is, as⟩] } :=
    .rule (i := 3) (by decide) rfl h2 rfl
  exact h3

theorem read_module {w : List Tok} {m : Module} (h : ModuleN stod w m) (st : St) :
    Derives stod Sym.ModuleDefinition w st .none { st with modules := st.modules ++ [kept m] } := by
  cases h with
  | full n ho hg he hi h =>
    obtain ⟨_, ho⟩ := read_definitive (stod := stod) ho
    obtain ⟨_, he⟩ := read_exports (stod := stod) he
    exact derives_module n ho (read_tag_default hg) (by_ModuleBody_1 he (read_imports hi) (read_assignments h)) st
  | empty n ho hg =>
    obtain ⟨_, ho⟩ := read_definitive (stod := stod) ho
    exact derives_module n ho (read_tag_default hg) by_ModuleBody_2 st

theorem read_file {w : List Tok} {ms : List Module} (h : FileN stod w ms) : ∀ st,
    Derives stod Sym.ModuleDefinitionList w st .none { st with modules := st.modules ++ ms.map kept } := by
  induction h with
  | one h =>
    intro st
    have := DerivesAll.cons (read_module h st) (.nil _)
    rw [List.append_nil] at this
    exact .rule (i := 1) (by decide) rfl this rfl
  | @more w w' m ms h _ ih =>
    intro st
    have h1 := ih { st with modules := st.modules ++ [kept m] }
    have := DerivesAll.cons (read_module h st) (.cons h1 (.nil _))
    rw [List.append_nil] at this
    have e : st.modules ++ (m :: ms).map kept = st.modules ++ [kept m] ++ ms.map kept := by simp
    rw [e]
    exact .rule (i := 2) (by decide) rfl this rfl

end FastBer.Parser
