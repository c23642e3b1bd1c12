ModuleDefinitionList -> ModuleDefinition
ModuleDefinitionList -> ModuleDefinition ModuleDefinitionList
ModuleDefinition -> ModuleIdentifier DEFINITIONS EncodingReferenceDefault TagDefault ExtensionDefault DEFINED_AS BEGIN ModuleBody EncodingControlSections END
ModuleIdentifier -> modulereference DefinitiveIdentification
DefinitiveIdentification ->
DefinitiveIdentification -> DefinitiveOID
DefinitiveOID -> "{" DefinitiveObjIdComponentList "}"
DefinitiveObjIdComponentList -> DefinitiveObjIdComponent
DefinitiveObjIdComponentList -> DefinitiveObjIdComponent DefinitiveObjIdComponentList
DefinitiveObjIdComponent -> NameForm
DefinitiveObjIdComponent -> DefinitiveNumberForm
DefinitiveObjIdComponent -> DefinitiveNameAndNumberForm
DefinitiveNumberForm -> number
DefinitiveNameAndNumberForm -> identifier "(" DefinitiveNumberForm ")"
NameForm -> identifier
EncodingReferenceDefault ->
EncodingControlSections ->
TagDefault -> EXPLICIT TAGS
TagDefault -> IMPLICIT TAGS
TagDefault -> AUTOMATIC TAGS
TagDefault ->
ExtensionDefault -> EXTENSIBILITY IMPLIED
ExtensionDefault ->
ModuleBody -> Exports Imports AssignmentList
ModuleBody ->
Exports -> EXPORTS SymbolsExported ";"
Exports -> EXPORTS ALL ";"
Exports ->
SymbolsExported -> SymbolList
SymbolsExported ->
Imports -> IMPORTS SymbolsImported ";"
Imports ->
SymbolsImported -> SymbolsFromModuleList
SymbolsImported ->
SymbolsFromModuleList -> SymbolsFromModule
SymbolsFromModuleList -> SymbolsFromModuleList SymbolsFromModule
SymbolsFromModule -> SymbolList FROM GlobalModuleReference
GlobalModuleReference -> modulereference
GlobalModuleReference -> modulereference ObjectIdentifierValue
ObjectIdentifierValue -> "{" ObjIdComponentsList "}"
ObjIdComponentsList -> ObjIdComponents
ObjIdComponentsList -> ObjIdComponents ObjIdComponentsList
ObjIdComponents -> NameForm
ObjIdComponents -> NumberForm
ObjIdComponents -> NameAndNumberForm
NumberForm -> number
NameAndNumberForm -> identifier "(" NumberForm ")"
SymbolList -> Symbol
SymbolList -> SymbolList "," Symbol
Symbol -> Reference
Reference -> typereference
Reference -> typereference "{" "}"
Reference -> valuereference
Reference'type -> typereference
AssignmentList -> Assignment
AssignmentList -> Assignment AssignmentList
Assignment -> TypeAssignment
Assignment -> ValueAssignment
Assignment -> ObjectClassAssignment
Assignment -> ParameterizedAssignment
TypeAssignment -> typereference DEFINED_AS Type
ValueAssignment -> valuereference Type DEFINED_AS Value
ParameterizedAssignment -> ParameterizedTypeAssignment
ParameterizedTypeAssignment -> typereference ParameterList DEFINED_AS Type
ParameterList -> "{" ParameterSeries "}"
ParameterSeries -> Parameter
ParameterSeries -> ParameterSeries "," Parameter
Parameter -> Reference'type
ObjectClassAssignment -> typereference DEFINED_AS ObjectClass
ObjectClass -> ObjectClassDefn
ObjectClassDefn -> CLASS "{" FieldSpecList "}" WithSyntaxSpec
FieldSpecList -> FieldSpec
FieldSpecList -> FieldSpecList "," FieldSpec
FieldSpec -> TypeFieldSpec
FieldSpec -> FixedTypeValueFieldSpec
TypeFieldSpec -> OneOrManyTypeFieldReference TypeOptionalitySpec
OneOrManyTypeFieldReference -> typefieldreference
TypeOptionalitySpec -> OPTIONAL
TypeOptionalitySpec ->
FixedTypeValueFieldSpec -> valuefieldreference Type OptionalUnique ValueOptionalitySpec
OptionalUnique -> UNIQUE
OptionalUnique -> OPTIONAL
OptionalUnique ->
ValueOptionalitySpec ->
WithSyntaxSpec ->
WithSyntaxSpec -> WITH SYNTAX SyntaxList
SyntaxList -> "{" TokenOrGroupSpecList "}"
TokenOrGroupSpecList -> TokenOrGroupSpec
TokenOrGroupSpecList -> TokenOrGroupSpecList TokenOrGroupSpec
TokenOrGroupSpec -> RequiredToken
RequiredToken -> LiteralList FieldName
LiteralList -> Literal
LiteralList -> LiteralList Literal
Literal -> word
word -> GENERIC_IDENTIFIER_UPPERCASE
word -> IDENTIFIER
word -> BY
word -> WITH
Value -> ValueWithoutTypeIdentifier
ValueWithoutTypeIdentifier -> BooleanValue
ValueWithoutTypeIdentifier -> ASN_NULL
ValueWithoutTypeIdentifier -> bstring
ValueWithoutTypeIdentifier -> hstring
ValueWithoutTypeIdentifier -> cstring
ValueWithoutTypeIdentifier -> DefinedValue
ValueWithoutTypeIdentifier -> SignedNumber
ValueWithoutTypeIdentifier -> realnumber
ValueWithoutTypeIdentifier -> "{" SequenceOfValues "}"
SequenceOfValues -> Value'item
SequenceOfValues -> SequenceOfValues Value'item
Value'item -> ValueWithoutTypeIdentifier'item
ValueWithoutTypeIdentifier'item -> SignedNumber
ValueWithoutTypeIdentifier'item -> DefinedValue
ValueWithoutTypeIdentifier'item -> GENERIC_IDENTIFIER_LOWERCASE "(" number ")"
BooleanValue -> TRUE
BooleanValue -> FALSE
SignedNumber -> number
SignedNumber -> negativenumber
DefinedValue -> valuereference
typereference -> GENERIC_IDENTIFIER_UPPERCASE
identifier -> GENERIC_IDENTIFIER_LOWERCASE
valuereference -> GENERIC_IDENTIFIER_LOWERCASE
modulereference -> GENERIC_IDENTIFIER_UPPERCASE
Type -> BuiltinType'null
Type -> BuiltinType
Type -> BuiltinType'open
Type -> DefinedType
Type -> ConstrainedType
Type -> ConstrainedType'open
Type'arg -> BuiltinType
Type'arg -> BuiltinType'open
Type'arg -> DefinedType
Type'arg -> ConstrainedType
Type'arg -> ConstrainedType'open
Type'closed -> BuiltinType'null
Type'closed -> BuiltinType
Type'closed -> DefinedType
Type'closed -> ConstrainedType
ConstrainedType -> Type'closed Constraint
ConstrainedType'open -> TypeWithConstraint
TypeWithConstraint -> SET Constraint OF Type
TypeWithConstraint -> SET SizeConstraint OF Type
TypeWithConstraint -> SEQUENCE Constraint OF Type
TypeWithConstraint -> SEQUENCE SizeConstraint OF Type
TypeWithConstraint -> SET Constraint OF NamedType
TypeWithConstraint -> SET SizeConstraint OF NamedType
TypeWithConstraint -> SEQUENCE Constraint OF NamedType
TypeWithConstraint -> SEQUENCE SizeConstraint OF NamedType
DefinedType -> ExternalTypeReference
DefinedType -> typereference
DefinedType -> ParameterizedType
ExternalTypeReference -> typereference "." typereference
ParameterizedType -> SimpleDefinedType "{" ActualParameterList "}"
SimpleDefinedType -> typereference
ActualParameterList -> ActualParameter
ActualParameter -> Type'arg
BuiltinType -> ANY
BuiltinType -> BitStringType
BuiltinType -> BooleanType
BuiltinType -> CharacterStringType
BuiltinType -> ChoiceType
BuiltinType -> DateType
BuiltinType -> DateTimeType
BuiltinType -> DurationType
BuiltinType -> EmbeddedPDVType
BuiltinType -> EnumeratedType
BuiltinType -> ExternalType
BuiltinType -> GeneralizedTime
BuiltinType -> IntegerType
BuiltinType'null -> NullType
BuiltinType -> ObjectClassFieldType
BuiltinType -> ObjectDescriptor
BuiltinType -> ObjectIdentifierType
BuiltinType -> OctetStringType
BuiltinType -> RealType
BuiltinType -> RelativeIRIType
BuiltinType -> RelativeOIDType
BuiltinType -> SequenceType
BuiltinType -> SetType
BuiltinType'open -> SequenceOfType
BuiltinType'open -> SetOfType
BuiltinType'open -> PrefixedType
BuiltinType -> TimeType
BuiltinType -> TimeOfDayType
BuiltinType -> UTCTime
ObjectClassFieldType -> typereference "." FieldNameList
FieldNameList -> FieldName
FieldName -> typefieldreference
FieldName -> valuefieldreference
DateType -> DATE
DateTimeType -> DATE_TIME
DurationType -> DURATION
EmbeddedPDVType -> EMBEDDED PDV
ExternalType -> EXTERNAL
RelativeIRIType -> RELATIVE_OID_IRI
RelativeOIDType -> RELATIVE_OID
TimeType -> TIME
TimeOfDayType -> TIME_OF_DAY
BooleanType -> BOOLEAN
IntegerType -> INTEGER
IntegerType -> INTEGER "{" NamedNumberList "}"
NamedNumberList -> NamedNumber
NamedNumberList -> NamedNumberList "," NamedNumber
NamedNumber -> identifier "(" SignedNumber ")"
NamedNumber -> identifier "(" DefinedValue ")"
EnumeratedType -> ENUMERATED "{" Enumerations "}"
Enumerations -> Enumeration
Enumerations -> Enumeration "," ELIPSIS ExceptionSpec
Enumerations -> Enumeration "," ELIPSIS ExceptionSpec "," Enumeration
Enumeration -> EnumerationItem
Enumeration -> Enumeration "," EnumerationItem
EnumerationItem -> identifier
EnumerationItem -> NamedNumber
ExceptionSpec ->
RealType -> REAL
BitStringType -> BIT STRING
BitStringType -> BIT STRING "{" NamedBitList "}"
NamedBitList -> NamedBit
NamedBitList -> NamedBitList "," NamedBit
NamedBit -> identifier "(" number ")"
NamedBit -> identifier "(" DefinedValue ")"
OctetStringType -> OCTET STRING
NullType -> ASN_NULL
ObjectIdentifierType -> OBJECT IDENTIFIER
CharacterStringType -> RestrictedCharacterStringType
CharacterStringType -> UnrestrictedCharacterStringType
UnrestrictedCharacterStringType -> CHARACTER STRING
RestrictedCharacterStringType -> BMPString
RestrictedCharacterStringType -> GeneralString
RestrictedCharacterStringType -> GraphicString
RestrictedCharacterStringType -> IA5String
RestrictedCharacterStringType -> ISO646String
RestrictedCharacterStringType -> NumericString
RestrictedCharacterStringType -> PrintableString
RestrictedCharacterStringType -> TeletexString
RestrictedCharacterStringType -> T61String
RestrictedCharacterStringType -> UniversalString
RestrictedCharacterStringType -> UTF8String
RestrictedCharacterStringType -> VideotexString
RestrictedCharacterStringType -> VisibleString
SequenceType -> SEQUENCE "{" "}"
SequenceType -> SEQUENCE "{" ComponentTypeLists "}"
SetType -> SET "{" "}"
SetType -> SET "{" ComponentTypeLists "}"
ComponentTypeLists -> ComponentTypeList
ComponentTypeLists -> ComponentTypeList "," ELIPSIS ExceptionSpec
ComponentTypeLists -> ComponentTypeList "," ELIPSIS ExceptionSpec "," ComponentTypeList
ComponentTypeLists -> ComponentTypeList "," ELIPSIS ExceptionSpec "," ComponentTypeList "," ELIPSIS
ComponentTypeLists -> ComponentTypeList "," ELIPSIS ExceptionSpec "," ComponentTypeList "," ELIPSIS "," ComponentTypeList
ComponentTypeLists -> ELIPSIS ExceptionSpec "," ComponentTypeList
ComponentTypeLists -> ELIPSIS ExceptionSpec "," ComponentTypeList "," ELIPSIS
ComponentTypeLists -> ELIPSIS ExceptionSpec
ComponentTypeLists -> ELIPSIS ExceptionSpec "," ELIPSIS
ComponentTypeList -> ComponentType
ComponentTypeList -> ComponentTypeList "," ComponentType
ComponentType -> NamedType
ComponentType -> NamedType OPTIONAL
ComponentType -> NamedType DEFAULT SingleValue
ComponentType -> COMPONENTS OF Type
SingleValue -> BooleanValue
SingleValue -> ASN_NULL
SingleValue -> bstring
SingleValue -> hstring
SingleValue -> cstring
SingleValue -> DefinedValue
SingleValue -> SignedNumber
SingleValue -> realnumber
SingleValue'c -> BooleanValue
SingleValue'c -> bstring
SingleValue'c -> hstring
SingleValue'c -> cstring
SingleValue'c -> DefinedValue
SingleValue'c -> SignedNumber
SingleValue'c -> realnumber
NamedType -> identifier Type
SequenceOfType -> SEQUENCE OF Type
SequenceOfType -> SEQUENCE OF NamedType
SetOfType -> SET OF Type
SetOfType -> SET OF NamedType
ChoiceType -> CHOICE "{" AlternativeTypeLists "}"
AlternativeTypeLists -> RootAlternativeTypeList
RootAlternativeTypeList -> AlternativeTypeList
RootAlternativeTypeList -> AlternativeTypeList "," ELIPSIS
RootAlternativeTypeList -> AlternativeTypeList "," ELIPSIS "," AlternativeTypeList
AlternativeTypeList -> NamedType
AlternativeTypeList -> AlternativeTypeList "," NamedType
PrefixedType -> TaggedType
TaggedType -> Tag Type
TaggedType -> Tag IMPLICIT Type
TaggedType -> Tag EXPLICIT Type
Tag -> "[" EncodingReference Class ClassNumber "]"
EncodingReference ->
Class -> UNIVERSAL
Class -> APPLICATION
Class -> PRIVATE
Class ->
ClassNumber -> number
ClassNumber -> DefinedValue
Constraint -> "(" ConstraintSpec ExceptionSpec ")"
ConstraintSpec -> SubtypeConstraint
ConstraintSpec -> GeneralConstraint
GeneralConstraint -> ContentsConstraint
GeneralConstraint -> UserDefinedConstraint
GeneralConstraint -> TableConstraint
UserDefinedConstraint -> CONSTRAINED BY "{" UserDefinedConstraintParameter "}"
UserDefinedConstraintParameter ->
TableConstraint -> ObjectSet
TableConstraint -> ObjectSet "{" AtNotationList "}"
AtNotationList -> AtNotation
AtNotationList -> AtNotationList "," AtNotation
AtNotation -> "@" ComponentIdList
ComponentIdList -> identifier
ComponentIdList -> ComponentIdList "." identifier
ObjectSet -> "{" ObjectSetSpec "}"
ObjectSetSpec -> ElementSetSpec'set
ElementSetSpec'set -> Unions'set
Unions'set -> Intersections'set
Intersections'set -> IntersectionElements'set
IntersectionElements'set -> Elements'set
Elements'set -> SubtypeElements'set
SubtypeElements'set -> SingleValue'set
SingleValue'set -> GENERIC_IDENTIFIER_UPPERCASE
ContentsConstraint -> CONTAINING Type
SubtypeConstraint -> ElementSetSpecs
ElementSetSpecs -> ElementSetSpec
ElementSetSpecs -> ElementSetSpec "," ELIPSIS
ElementSetSpecs -> ElementSetSpec "," ELIPSIS "," ElementSetSpec
ElementSetSpec -> Unions
ElementSetSpec -> ALL Exclusions
Unions -> Intersections
Unions -> UElems UnionMark Intersections
UElems -> Unions
Intersections -> IntersectionElements
Intersections -> IElems IntersectionMark IntersectionElements
IElems -> Intersections
IntersectionElements -> Elements
IntersectionElements -> Elems Exclusions
Elems -> Elements
Exclusions -> EXCEPT Elements
UnionMark -> "|"
UnionMark -> UNION
IntersectionMark -> "^"
IntersectionMark -> INTERSECTION
Elements -> SubtypeElements
Elements -> "(" ElementSetSpecs ")"
SubtypeElements -> SingleValue'c
SubtypeElements -> ValueRange
SubtypeElements -> PermittedAlphabet
SubtypeElements -> SizeConstraint
SubtypeElements -> InnerTypeConstraints
ValueRange -> LowerEndpoint RANGE UpperEndpoint
LowerEndpoint -> LowerEndValue
UpperEndpoint -> UpperEndValue
UpperEndpoint -> "<" UpperEndValue
LowerEndValue -> SingleValue'c
LowerEndValue -> MIN
UpperEndValue -> SingleValue'c
UpperEndValue -> MAX
SizeConstraint -> SIZE Constraint
PermittedAlphabet -> FROM Constraint
InnerTypeConstraints -> WITH COMPONENT SingleTypeConstraint
InnerTypeConstraints -> WITH COMPONENTS MultipleTypeConstraints
SingleTypeConstraint -> Constraint
MultipleTypeConstraints -> "{" ELIPSIS "}"
MultipleTypeConstraints -> "{" ELIPSIS "," TypeConstraints "}"
MultipleTypeConstraints -> "{" TypeConstraints "}"
TypeConstraints -> NamedConstraint
TypeConstraints -> NamedConstraint "," TypeConstraints
NamedConstraint -> identifier ComponentConstraint
ComponentConstraint -> ValueConstraint PresenceConstraint
ValueConstraint -> Constraint
ValueConstraint ->
PresenceConstraint -> PRESENT
PresenceConstraint -> ABSENT
PresenceConstraint -> OPTIONAL
PresenceConstraint ->
