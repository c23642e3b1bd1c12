import Verif.Model.ParserValues
/-!
# The actions of the parser

This file is made by tools/parser_gen.py from src/compiler/asn_compiler.yacc and src/compiler/autogen_copy/asn_compiler.hpp.
One action for every rule of the grammar, in the order of bison's rule numbers.  Messages to `std::cerr` are left out.
-/
namespace FastBer.Parser
open FastBer Ast

/-- The actions of rules 0 to 23 (asn_compiler.yacc:327-391). -/
def actions0 (_ : Bytes → UInt64) : List Act := [
  sets fun _ => .none, -- 0
  sets fun _ => .none, -- 1
  -- 2 (327) ModuleDefinitionList: ModuleDefinition
  sets fun _ => .none,
  -- 3 (328) ModuleDefinitionList: ModuleDefinition ModuleDefinitionList
  sets fun _ => .none,
  -- 4 (331) ModuleDefinition: ModuleIdentifier DEFINITIONS EncodingReferenceDefault TagDefault ExtensionDefault DEFINED_AS BEGIN ModuleBody EncodingControlSections END
  fun v st => (.none, { st with modules := st.modules ++ [⟨(arg v 1).asStr, (arg v 4).asMode, (arg v 8).asModule.1, (arg v 8).asModule.2⟩] }),
  -- 5 (346) SyntaxList: "{" TokenOrGroupSpecList "}"
  sets fun _ => .none,
  -- 6 (349) DefinedObjectClass: ExternalObjectClassReference
  sets fun _ => .none,
  -- 7 (350) DefinedObjectClass: objectclassreference
  sets fun _ => .none,
  -- 8 (351) DefinedObjectClass: UsefulObjectClassReference
  sets fun _ => .none,
  -- 9 (354) ExternalObjectClassReference: modulereference "." objectclassreference
  sets fun _ => .none,
  -- 10 (357) UsefulObjectClassReference: TYPE_IDENTIFIER
  sets fun _ => .str "TYPE-IDENTIFIER",
  -- 11 (359) UsefulObjectClassReference: ABSTRACT_SYNTAX
  sets fun _ => .str "TYPE-IDENTIFIER",
  -- 12 (363) ObjectClassAssignment: typereference DEFINED_AS ObjectClass
  sets fun v => .assignment { name := (arg v 1).asStr, body := .objectClass (arg v 3).asFields },
  -- 13 (367) ObjectClass: DefinedObjectClass
  sets fun _ => .fields [],
  -- 14 (369) ObjectClass: ObjectClassDefn
  sets fun v => .fields (arg v 1).asFields,
  -- 15 (374) ObjectClassDefn: CLASS "{" FieldSpecList "}" WithSyntaxSpec
  sets fun v => .fields (arg v 3).asFields,
  -- 16 (378) FieldSpecList: FieldSpec
  sets fun v => .fields (arg v 1).asFields,
  -- 17 (380) FieldSpecList: FieldSpecList "," FieldSpec
  sets fun v => .fields ((arg v 1).asFields ++ (arg v 3).asFields),
  -- 18 (384) FieldSpec: TypeFieldSpec
  sets fun v => .fields (arg v 1).asFields,
  -- 19 (386) FieldSpec: FixedTypeValueFieldSpec
  sets fun v => .fields (arg v 1).asFields,
  -- 20 (388) FieldSpec: VariableTypeValueFieldSpec
  sets fun _ => .fields [],
  -- 21 (389) FieldSpec: FixedTypeValueSetFieldSpec
  sets fun _ => .fields [],
  -- 22 (390) FieldSpec: ObjectFieldSpec
  sets fun _ => .fields [],
  -- 23 (391) FieldSpec: ObjectSetFieldSpec
  sets fun _ => .fields []]

/-- The actions of rules 24 to 47 (asn_compiler.yacc:394-453). -/
def actions1 (_ : Bytes → UInt64) : List Act := [
  -- 24 (394) FieldName: typefieldreference
  sets fun v => .str (arg v 1).asStr,
  -- 25 (396) FieldName: valuefieldreference
  sets fun v => .str (arg v 1).asStr,
  -- 26 (404) FieldNameList: FieldName
  sets fun v => .strs [(arg v 1).asStr],
  -- 27 (406) FieldNameList: FieldNameList "." FieldName
  sets fun v => .strs ((arg v 1).asStrs ++ [(arg v 3).asStr]),
  -- 28 (410) TypeFieldSpec: OneOrManyTypeFieldReference TypeOptionalitySpec
  sets fun v => .fields ((arg v 1).asStrs.map fun n => ⟨n, none⟩),
  -- 29 (414) OneOrManyTypeFieldReference: typefieldreference
  sets fun v => .strs [(arg v 1).asStr],
  -- 30 (416) OneOrManyTypeFieldReference: OneOrManyTypeFieldReference typefieldreference
  sets fun v => .strs ((arg v 1).asStrs ++ [(arg v 2).asStr]),
  -- 31 (420) TypeOptionalitySpec: OPTIONAL
  sets fun _ => .none,
  -- 32 (421) TypeOptionalitySpec: DEFAULT Type
  sets fun _ => .none,
  -- 33 (422) TypeOptionalitySpec: 
  sets fun _ => .none,
  -- 34 (425) OptionalUnique: OPTIONAL
  sets fun _ => .none,
  -- 35 (426) OptionalUnique: UNIQUE
  sets fun _ => .none,
  -- 36 (427) OptionalUnique: 
  sets fun _ => .none,
  -- 37 (430) FixedTypeValueFieldSpec: valuefieldreference Type OptionalUnique ValueOptionalitySpec
  sets fun v => .fields [⟨(arg v 1).asStr, some (arg v 2).asType⟩],
  -- 38 (434) ValueOptionalitySpec: OPTIONAL
  sets fun _ => .none,
  -- 39 (435) ValueOptionalitySpec: DEFAULT SingleValue
  sets fun _ => .none,
  -- 40 (436) ValueOptionalitySpec: 
  sets fun _ => .none,
  -- 41 (439) VariableTypeValueFieldSpec: valuefieldreference FieldName OptionalUnique ValueOptionalitySpec
  sets fun _ => .none,
  -- 42 (442) FixedTypeValueSetFieldSpec: typefieldreference Type OptionalUnique ValueSetDefaultSpec
  sets fun _ => .none,
  -- 43 (445) ValueSetDefaultSpec: OPTIONAL
  sets fun _ => .none,
  -- 44 (446) ValueSetDefaultSpec: DEFAULT ValueSet
  sets fun _ => .none,
  -- 45 (447) ValueSetDefaultSpec: 
  sets fun _ => .none,
  -- 46 (450) ObjectFieldSpec: typefieldreference DefinedObjectClass ObjectOptionalitySpec
  sets fun _ => .none,
  -- 47 (453) ObjectOptionalitySpec: OPTIONAL
  sets fun _ => .none]

/-- The actions of rules 48 to 71 (asn_compiler.yacc:454-507). -/
def actions2 (_ : Bytes → UInt64) : List Act := [
  -- 48 (454) ObjectOptionalitySpec: DEFAULT Object
  sets fun _ => .none,
  -- 49 (455) ObjectOptionalitySpec: 
  sets fun _ => .none,
  -- 50 (458) ObjectSetFieldSpec: objectsetfieldreference DefinedObjectClass ObjectSetOptionalitySpec
  sets fun _ => .none,
  -- 51 (461) ObjectSetOptionalitySpec: OPTIONAL
  sets fun _ => .none,
  -- 52 (462) ObjectSetOptionalitySpec: DEFAULT
  sets fun _ => .none,
  -- 53 (463) ObjectSetOptionalitySpec: 
  sets fun _ => .none,
  -- 54 (469) WithSyntaxSpec: WITH SYNTAX SyntaxList
  sets fun _ => .none,
  -- 55 (470) WithSyntaxSpec: 
  sets fun _ => .none,
  -- 56 (473) TokenOrGroupSpecList: TokenOrGroupSpec
  sets fun _ => .none,
  -- 57 (474) TokenOrGroupSpecList: TokenOrGroupSpecList TokenOrGroupSpec
  sets fun _ => .none,
  -- 58 (477) TokenOrGroupSpec: RequiredToken
  sets fun _ => .none,
  -- 59 (478) TokenOrGroupSpec: OptionalGroup
  sets fun _ => .none,
  -- 60 (481) OptionalGroup: "[" TokenOrGroupSpecList "]"
  sets fun _ => .none,
  -- 61 (484) RequiredToken: LiteralList FieldName
  sets fun _ => .none,
  -- 62 (487) LiteralList: Literal
  sets fun _ => .none,
  -- 63 (488) LiteralList: LiteralList Literal
  sets fun _ => .none,
  -- 64 (489) LiteralList: 
  sets fun _ => .none,
  -- 65 (492) Literal: word
  sets fun _ => .none,
  -- 66 (493) Literal: ","
  sets fun _ => .none,
  -- 67 (496) DefinedObject: ExternalObjectReference
  sets fun _ => .none,
  -- 68 (497) DefinedObject: objectreference
  sets fun _ => .none,
  -- 69 (500) ExternalObjectReference: modulereference "." objectreference
  sets fun _ => .none,
  -- 70 (506) Object: DefinedObject
  sets fun _ => .none,
  -- 71 (507) Object: ObjectDefn
  sets fun _ => .none]

/-- The actions of rules 72 to 95 (asn_compiler.yacc:512-574). -/
def actions3 (_ : Bytes → UInt64) : List Act := [
  -- 72 (512) ObjectDefn: DefaultSyntax
  sets fun _ => .none,
  -- 73 (513) ObjectDefn: DefinedSyntax
  sets fun _ => .none,
  -- 74 (516) DefaultSyntax: "{" FieldSetting "," STAR "}"
  sets fun _ => .none,
  -- 75 (519) FieldSetting: FieldName Setting
  sets fun _ => .none,
  -- 76 (522) DefinedSyntax: "{" DefinedSyntaxList "}"
  sets fun _ => .none,
  -- 77 (525) DefinedSyntaxList: DefinedSyntaxToken
  sets fun _ => .none,
  -- 78 (526) DefinedSyntaxList: DefinedSyntaxList DefinedSyntaxToken
  sets fun _ => .none,
  -- 79 (529) DefinedSyntaxToken: Literal
  sets fun _ => .none,
  -- 80 (530) DefinedSyntaxToken: Setting
  sets fun _ => .none,
  -- 81 (533) Setting: Type
  sets fun _ => .none,
  -- 82 (534) Setting: Value
  sets fun _ => .none,
  -- 83 (538) DefinedObjectSet: ExternalObjectSetReference
  sets fun _ => .none,
  -- 84 (539) DefinedObjectSet: typereference
  sets fun _ => .none,
  -- 85 (542) ExternalObjectSetReference: modulereference "." typereference
  sets fun _ => .none,
  -- 86 (545) ObjectSetAssignment: typereference DefinedObjectSet DEFINED_AS ObjectSet
  sets fun v => .assignment { name := (arg v 1).asStr, body := .objectSet },
  -- 87 (549) ObjectSet: "{" ObjectSetSpec "}"
  sets fun _ => .none,
  -- 88 (552) ObjectSetSpec: ElementSetSpec
  sets fun _ => .none,
  -- 89 (553) ObjectSetSpec: ElementSetSpec "," ELIPSIS
  sets fun _ => .none,
  -- 90 (554) ObjectSetSpec: ELIPSIS
  sets fun _ => .none,
  -- 91 (555) ObjectSetSpec: ELIPSIS "," ElementSetSpec
  sets fun _ => .none,
  -- 92 (556) ObjectSetSpec: ElementSetSpec "," ELIPSIS "," ElementSetSpec
  sets fun _ => .none,
  -- 93 (565) ObjectClassFieldType: UsefulObjectClassReference "." FieldNameList
  sets fun v => .type (.objField none "" (arg v 3).asStrs),
  -- 94 (567) ObjectClassFieldType: typereference "." FieldNameList
  sets fun v => .type (.objField none (arg v 1).asStr (arg v 3).asStrs),
  -- 95 (574) ParameterizedAssignment: ParameterizedTypeAssignment
  sets fun v => .assignment (arg v 1).asAssignment]

/-- The actions of rules 96 to 119 (asn_compiler.yacc:576-689). -/
def actions4 (_ : Bytes → UInt64) : List Act := [
  -- 96 (576) ParameterizedAssignment: ParameterizedValueAssignment
  sets fun v => .assignment (arg v 1).asAssignment,
  -- 97 (578) ParameterizedAssignment: ParameterizedValueSetTypeAssignment
  sets fun v => .assignment (arg v 1).asAssignment,
  -- 98 (580) ParameterizedAssignment: ParameterizedObjectClassAssignment
  sets fun v => .assignment (arg v 1).asAssignment,
  -- 99 (587) ParameterizedTypeAssignment: typereference ParameterList DEFINED_AS Type
  sets fun v => .assignment { name := (arg v 1).asStr, body := .type (arg v 4).asType, params := (arg v 2).asParams },
  -- 100 (591) ParameterizedValueAssignment: valuereference ParameterList Type DEFINED_AS Value
  sets fun v => .assignment { name := (arg v 1).asStr, body := .value (.leaf .any) (.list []) },
  -- 101 (595) ParameterizedValueSetTypeAssignment: typereference ParameterList Type DEFINED_AS Value
  sets fun v => .assignment { name := (arg v 1).asStr, body := .value (.leaf .any) (.list []) },
  -- 102 (599) ParameterizedObjectClassAssignment: typereference ParameterList DEFINED_AS ObjectClass
  sets fun v => .assignment { name := (arg v 1).asStr, body := .objectClass [] },
  -- 103 (611) ParameterList: "{" ParameterSeries "}"
  sets fun v => .params (arg v 2).asParams,
  -- 104 (615) ParameterSeries: Parameter
  sets fun v => .params [(arg v 1).asParam],
  -- 105 (617) ParameterSeries: ParameterSeries "," Parameter
  sets fun v => .params ((arg v 1).asParams ++ [(arg v 3).asParam]),
  -- 106 (621) Parameter: ParamGovernor ":" Reference
  sets fun v => .param ⟨some (arg v 1).asType, (arg v 3).asStr⟩,
  -- 107 (623) Parameter: Reference
  sets fun v => .param ⟨none, (arg v 1).asStr⟩,
  -- 108 (627) ParamGovernor: Governor
  sets fun v => .type (arg v 1).asType,
  -- 109 (629) ParamGovernor: Reference
  sets fun v => .type (.defined none (arg v 1).asStr []),
  -- 110 (633) Governor: Type
  sets fun v => .type (arg v 1).asType,
  -- 111 (635) Governor: DefinedObjectClass
  sets fun _ => .type (.leaf .any),
  -- 112 (651) ReferencedObjects: DefinedObject
  sets fun _ => .none,
  -- 113 (663) TypeFromObject: ReferencedObjects "." FieldNameList
  sets fun _ => .none,
  -- 114 (672) InstanceOfType: INSTANCE OF DefinedObjectClass
  sets fun _ => .type (.leaf .instanceOf),
  -- 115 (680) SimpleDefinedType: ExternalTypeReference
  sets fun _ => .str "",
  -- 116 (681) SimpleDefinedType: typereference
  sets fun v => .str (arg v 1).asStr,
  -- 117 (685) SimpleDefinedValue: ExternalValueReference
  sets fun _ => .none,
  -- 118 (686) SimpleDefinedValue: valuereference
  sets fun _ => .none,
  -- 119 (689) GeneralConstraint: UserDefinedConstraint
  sets fun _ => .none]

/-- The actions of rules 120 to 143 (asn_compiler.yacc:690-743). -/
def actions5 (_ : Bytes → UInt64) : List Act := [
  -- 120 (690) GeneralConstraint: TableConstraint
  sets fun _ => .none,
  -- 121 (691) GeneralConstraint: ContentsConstraint
  sets fun _ => .none,
  -- 122 (694) UserDefinedConstraint: CONSTRAINED BY "{" UserDefinedConstraintParameter "}"
  sets fun _ => .none,
  -- 123 (699) UserDefinedConstraintParameter: Governor ":" Value
  sets fun _ => .none,
  -- 124 (700) UserDefinedConstraintParameter: Governor ":" Object
  sets fun _ => .none,
  -- 125 (701) UserDefinedConstraintParameter: DefinedObjectSet
  sets fun _ => .none,
  -- 126 (702) UserDefinedConstraintParameter: Type
  sets fun _ => .none,
  -- 127 (703) UserDefinedConstraintParameter: DefinedObjectClass
  sets fun _ => .none,
  -- 128 (704) UserDefinedConstraintParameter: ELIPSIS
  sets fun _ => .none,
  -- 129 (705) UserDefinedConstraintParameter: 
  sets fun _ => .none,
  -- 130 (708) TableConstraint: ObjectSet
  sets fun _ => .none,
  -- 131 (710) TableConstraint: ObjectSet "{" AtNotationList "}"
  sets fun _ => .none,
  -- 132 (714) AtNotationList: AtNotation
  sets fun _ => .none,
  -- 133 (715) AtNotationList: AtNotationList "," AtNotation
  sets fun _ => .none,
  -- 134 (718) AtNotation: "@" ComponentIdList
  sets fun _ => .none,
  -- 135 (719) AtNotation: "@" "." Level ComponentIdList
  sets fun _ => .none,
  -- 136 (722) Level: "." Level
  sets fun _ => .none,
  -- 137 (723) Level: 
  sets fun _ => .none,
  -- 138 (726) ComponentIdList: identifier
  sets fun _ => .none,
  -- 139 (727) ComponentIdList: ComponentIdList "." identifier
  sets fun _ => .none,
  -- 140 (730) ContentsConstraint: CONTAINING Type
  sets fun _ => .none,
  -- 141 (731) ContentsConstraint: ENCODED BY Value
  sets fun _ => .none,
  -- 142 (732) ContentsConstraint: CONTAINING Type ENCODED BY Value
  sets fun _ => .none,
  -- 143 (743) EncodingControlSections: 
  sets fun _ => .none]

/-- The actions of rules 144 to 167 (asn_compiler.yacc:751-811). -/
def actions6 (_ : Bytes → UInt64) : List Act := [
  -- 144 (751) ModuleIdentifier: modulereference DefinitiveIdentification
  sets fun v => .str (arg v 1).asStr,
  -- 145 (758) DefinitiveIdentification: DefinitiveOID
  sets fun _ => .none,
  -- 146 (759) DefinitiveIdentification: DefinitiveOIDandIRI
  sets fun _ => .none,
  -- 147 (760) DefinitiveIdentification: 
  sets fun _ => .none,
  -- 148 (763) DefinitiveOID: "{" DefinitiveObjIdComponentList "}"
  sets fun _ => .none,
  -- 149 (766) DefinitiveOIDandIRI: DefinitiveOID IRIValue
  sets fun _ => .none,
  -- 150 (770) DefinitiveObjIdComponentList: DefinitiveObjIdComponent
  sets fun _ => .none,
  -- 151 (771) DefinitiveObjIdComponentList: DefinitiveObjIdComponent DefinitiveObjIdComponentList
  sets fun _ => .none,
  -- 152 (775) DefinitiveObjIdComponent: NameForm
  sets fun _ => .none,
  -- 153 (776) DefinitiveObjIdComponent: DefinitiveNumberForm
  sets fun _ => .none,
  -- 154 (777) DefinitiveObjIdComponent: DefinitiveNameAndNumberForm
  sets fun _ => .none,
  -- 155 (780) DefinitiveNumberForm: number
  sets fun _ => .none,
  -- 156 (783) DefinitiveNameAndNumberForm: identifier "(" DefinitiveNumberForm ")"
  sets fun _ => .none,
  -- 157 (787) EncodingReferenceDefault: encodingreference INSTRUCTIONS
  sets fun _ => .none,
  -- 158 (788) EncodingReferenceDefault: 
  sets fun _ => .none,
  -- 159 (791) TagDefault: EXPLICIT TAGS
  sets fun _ => .mode .explicit_,
  -- 160 (793) TagDefault: IMPLICIT TAGS
  sets fun _ => .mode .implicit,
  -- 161 (795) TagDefault: AUTOMATIC TAGS
  sets fun _ => .mode .automatic,
  -- 162 (797) TagDefault: 
  sets fun _ => .mode .explicit_,
  -- 163 (801) ExtensionDefault: EXTENSIBILITY IMPLIED
  sets fun _ => .none,
  -- 164 (802) ExtensionDefault: 
  sets fun _ => .none,
  -- 165 (805) ModuleBody: Exports Imports AssignmentList
  sets fun v => .module_ (arg v 2).asImports (arg v 3).asAssignments,
  -- 166 (807) ModuleBody: 
  sets fun _ => .module_ [] [],
  -- 167 (811) Exports: EXPORTS SymbolsExported ";"
  sets fun _ => .none]

/-- The actions of rules 168 to 191 (asn_compiler.yacc:812-893). -/
def actions7 (_ : Bytes → UInt64) : List Act := [
  -- 168 (812) Exports: EXPORTS ALL ";"
  sets fun _ => .none,
  -- 169 (813) Exports: 
  sets fun _ => .none,
  -- 170 (816) SymbolsExported: SymbolList
  sets fun _ => .none,
  -- 171 (817) SymbolsExported: 
  sets fun _ => .none,
  -- 172 (820) Imports: IMPORTS SymbolsImported ";"
  sets fun v => .imports (arg v 2).asImports,
  -- 173 (822) Imports: 
  sets fun _ => .imports [],
  -- 174 (825) SymbolsImported: SymbolsFromModuleList
  sets fun v => .imports (arg v 1).asImports,
  -- 175 (827) SymbolsImported: 
  sets fun _ => .imports [],
  -- 176 (830) SymbolsFromModuleList: SymbolsFromModule
  sets fun v => .imports [(arg v 1).asImport],
  -- 177 (832) SymbolsFromModuleList: SymbolsFromModuleList SymbolsFromModule
  sets fun v => .imports ((arg v 1).asImports ++ [(arg v 2).asImport]),
  -- 178 (836) SymbolsFromModule: SymbolList FROM GlobalModuleReference
  sets fun v => .import_ (importOf (arg v 3).asStr (arg v 1).asStrs),
  -- 179 (852) GlobalModuleReference: modulereference
  sets fun v => .str (arg v 1).asStr,
  -- 180 (854) GlobalModuleReference: modulereference ObjectIdentifierValue
  sets fun v => .str (arg v 1).asStr,
  -- 181 (860) SymbolList: Symbol
  sets fun v => .strs [(arg v 1).asStr],
  -- 182 (862) SymbolList: SymbolList "," Symbol
  sets fun v => .strs ((arg v 1).asStrs ++ [(arg v 3).asStr]),
  -- 183 (866) Symbol: Reference
  sets fun v => .str (arg v 1).asStr,
  -- 184 (870) Reference: typereference
  sets fun v => .str (arg v 1).asStr,
  -- 185 (872) Reference: typereference "{" "}"
  sets fun v => .str (arg v 1).asStr,
  -- 186 (874) Reference: valuereference
  sets fun v => .str (arg v 1).asStr,
  -- 187 (883) AssignmentList: Assignment
  sets fun v => .assignments [(arg v 1).asAssignment],
  -- 188 (885) AssignmentList: Assignment AssignmentList
  sets fun v => .assignments ((arg v 2).asAssignments ++ [(arg v 1).asAssignment]),
  -- 189 (889) Assignment: TypeAssignment
  sets fun v => .assignment (arg v 1).asAssignment,
  -- 190 (891) Assignment: ValueAssignment
  sets fun v => .assignment (arg v 1).asAssignment,
  -- 191 (893) Assignment: ObjectClassAssignment
  sets fun v => .assignment (arg v 1).asAssignment]

/-- The actions of rules 192 to 215 (asn_compiler.yacc:895-994). -/
def actions8 (_ : Bytes → UInt64) : List Act := [
  -- 192 (895) Assignment: ValueSetTypeAssignment
  sets fun v => .assignment (arg v 1).asAssignment,
  -- 193 (898) Assignment: ObjectSetAssignment
  sets fun v => .assignment (arg v 1).asAssignment,
  -- 194 (900) Assignment: ParameterizedAssignment
  sets fun v => .assignment (arg v 1).asAssignment,
  -- 195 (904) DefinedType: ExternalTypeReference
  sets fun v => .type (arg v 1).asType,
  -- 196 (906) DefinedType: typereference
  sets fun v => .type (.defined none (arg v 1).asStr []),
  -- 197 (908) DefinedType: ParameterizedType
  sets fun v => .type (arg v 1).asType,
  -- 198 (914) DefinedValue: valuereference
  sets fun v => .defined (arg v 1).asStr,
  -- 199 (916) DefinedValue: ParameterizedValue
  sets fun _ => .defined "",
  -- 200 (919) ParameterizedType: SimpleDefinedType "{" ActualParameterList "}"
  sets fun v => .type (.defined none (arg v 1).asStr (arg v 3).asTypes),
  -- 201 (923) ParameterizedValue: SimpleDefinedValue "{" ActualParameterList "}"
  sets fun _ => .none,
  -- 202 (926) ActualParameterList: ActualParameter
  sets fun v => .types [(arg v 1).asType],
  -- 203 (928) ActualParameterList: ActualParameter "," ActualParameterList
  sets fun v => .types ((arg v 3).asTypes ++ [(arg v 1).asType]),
  -- 204 (932) ActualParameter: Type
  sets fun v => .type (arg v 1).asType,
  -- 205 (934) ActualParameter: ValueWithoutTypeIdentifier
  sets fun _ => .type (.leaf .any),
  -- 206 (937) ActualParameter: DefinedObjectClass
  sets fun _ => .type (.leaf .any),
  -- 207 (947) ExternalTypeReference: typereference "." typereference
  sets fun v => .type (.defined (some (arg v 1).asStr) (arg v 3).asStr []),
  -- 208 (951) ExternalValueReference: modulereference "." valuereference
  sets fun _ => .none,
  -- 209 (976) TypeAssignment: typereference DEFINED_AS Type
  sets fun v => .assignment { name := (arg v 1).asStr, body := .type (arg v 3).asType },
  -- 210 (980) ValueAssignment: valuereference Type DEFINED_AS Value
  sets fun v => .assignment { name := (arg v 1).asStr, body := .value (arg v 2).asType (arg v 4).asValue },
  -- 211 (984) ValueSetTypeAssignment: typereference Type DEFINED_AS ValueSet
  sets fun v => .assignment { name := (arg v 1).asStr, body := .type (arg v 2).asType },
  -- 212 (988) Type: BuiltinType
  sets fun v => .type (arg v 1).asType,
  -- 213 (990) Type: ConstrainedType
  sets fun v => .type (arg v 1).asType,
  -- 214 (992) Type: DefinedType
  sets fun v => .type (arg v 1).asType,
  -- 215 (994) Type: SelectionType
  sets fun _ => .type (.leaf .any)]

/-- The actions of rules 216 to 239 (asn_compiler.yacc:996-1023). -/
def actions9 (_ : Bytes → UInt64) : List Act := [
  -- 216 (996) Type: TypeFromObject
  sets fun _ => .type (.leaf .any),
  -- 217 (1001) BuiltinType: ANY
  sets fun _ => .type (.leaf .any),
  -- 218 (1002) BuiltinType: BitStringType
  sets fun v => .type (arg v 1).asType,
  -- 219 (1003) BuiltinType: BooleanType
  sets fun v => .type (arg v 1).asType,
  -- 220 (1004) BuiltinType: CharacterStringType
  sets fun v => .type (arg v 1).asType,
  -- 221 (1005) BuiltinType: ChoiceType
  sets fun v => .type (arg v 1).asType,
  -- 222 (1006) BuiltinType: DateType
  sets fun v => .type (arg v 1).asType,
  -- 223 (1007) BuiltinType: DateTimeType
  sets fun v => .type (arg v 1).asType,
  -- 224 (1008) BuiltinType: DurationType
  sets fun v => .type (arg v 1).asType,
  -- 225 (1009) BuiltinType: EmbeddedPDVType
  sets fun v => .type (arg v 1).asType,
  -- 226 (1010) BuiltinType: EnumeratedType
  sets fun v => .type (arg v 1).asType,
  -- 227 (1011) BuiltinType: ExternalType
  sets fun v => .type (arg v 1).asType,
  -- 228 (1012) BuiltinType: GeneralizedTime
  sets fun _ => .type (.leaf .generalizedTime),
  -- 229 (1013) BuiltinType: InstanceOfType
  sets fun v => .type (arg v 1).asType,
  -- 230 (1014) BuiltinType: IntegerType
  sets fun v => .type (arg v 1).asType,
  -- 231 (1015) BuiltinType: IRIType
  sets fun v => .type (arg v 1).asType,
  -- 232 (1016) BuiltinType: NullType
  sets fun v => .type (arg v 1).asType,
  -- 233 (1017) BuiltinType: ObjectClassFieldType
  sets fun v => .type (arg v 1).asType,
  -- 234 (1018) BuiltinType: ObjectDescriptor
  sets fun _ => .type (.leaf .objectDescriptor),
  -- 235 (1019) BuiltinType: ObjectIdentifierType
  sets fun v => .type (arg v 1).asType,
  -- 236 (1020) BuiltinType: OctetStringType
  sets fun v => .type (arg v 1).asType,
  -- 237 (1021) BuiltinType: RealType
  sets fun v => .type (arg v 1).asType,
  -- 238 (1022) BuiltinType: RelativeIRIType
  sets fun v => .type (arg v 1).asType,
  -- 239 (1023) BuiltinType: RelativeOIDType
  sets fun v => .type (arg v 1).asType]

/-- The actions of rules 240 to 263 (asn_compiler.yacc:1024-1065). -/
def actions10 (stod : Bytes → UInt64) : List Act := [
  -- 240 (1024) BuiltinType: SequenceType
  sets fun v => .type (arg v 1).asType,
  -- 241 (1025) BuiltinType: SequenceOfType
  sets fun v => .type (arg v 1).asType,
  -- 242 (1026) BuiltinType: SetType
  sets fun v => .type (arg v 1).asType,
  -- 243 (1027) BuiltinType: SetOfType
  sets fun v => .type (arg v 1).asType,
  -- 244 (1028) BuiltinType: PrefixedType
  sets fun v => .type (arg v 1).asType,
  -- 245 (1029) BuiltinType: TimeType
  sets fun v => .type (arg v 1).asType,
  -- 246 (1030) BuiltinType: TimeOfDayType
  sets fun v => .type (arg v 1).asType,
  -- 247 (1031) BuiltinType: UTCTime
  sets fun _ => .type (.leaf .utcTime),
  -- 248 (1034) NamedType: identifier Type
  sets fun v => .named (.mk (arg v 1).asStr (arg v 2).asType),
  -- 249 (1038) ValueWithoutTypeIdentifier: BooleanValue
  sets fun _ => .value (.list []),
  -- 250 (1040) ValueWithoutTypeIdentifier: IRIValue
  sets fun _ => .value (.list []),
  -- 251 (1042) ValueWithoutTypeIdentifier: ASN_NULL
  sets fun _ => .value (.list []),
  -- 252 (1044) ValueWithoutTypeIdentifier: TimeValue
  sets fun _ => .value (.list []),
  -- 253 (1046) ValueWithoutTypeIdentifier: bstring
  sets fun v => .value (.bits (arg v 1).asStr),
  -- 254 (1048) ValueWithoutTypeIdentifier: hstring
  sets fun v => .value (.hex (arg v 1).asStr),
  -- 255 (1050) ValueWithoutTypeIdentifier: cstring
  sets fun v => .value (.chars (arg v 1).asStr),
  -- 256 (1052) ValueWithoutTypeIdentifier: CONTAINING Value
  sets fun _ => .value (.list []),
  -- 257 (1054) ValueWithoutTypeIdentifier: DefinedValue
  sets fun v => .value (.defined (arg v 1).asDefined),
  -- 258 (1056) ValueWithoutTypeIdentifier: GENERIC_IDENTIFIER_LOWERCASE "(" number ")"
  sets fun v => .value (.namedNumber (arg v 1).asStr (arg v 3).asInt),
  -- 259 (1058) ValueWithoutTypeIdentifier: ":"
  sets fun _ => .value (.list []),
  -- 260 (1059) ValueWithoutTypeIdentifier: SignedNumber
  sets fun v => .value (.int (arg v 1).asInt),
  -- 261 (1061) ValueWithoutTypeIdentifier: realnumber
  sets fun v => .value (.real (stod (arg v 1).asReal)),
  -- 262 (1063) ValueWithoutTypeIdentifier: ObjectClassFieldType
  sets fun _ => .value (.list []),
  -- 263 (1065) ValueWithoutTypeIdentifier: Value COLON Value
  sets fun _ => .value (.list [])]

/-- The actions of rules 264 to 287 (asn_compiler.yacc:1069-1125). -/
def actions11 (_ : Bytes → UInt64) : List Act := [
  -- 264 (1069) ValueWithoutTypeIdentifier: valuereference "." typefieldreference
  sets fun _ => .value (.list []),
  -- 265 (1070) ValueWithoutTypeIdentifier: valuereference "." valuefieldreference
  sets fun _ => .value (.list []),
  -- 266 (1071) ValueWithoutTypeIdentifier: typefieldreference
  sets fun _ => .value (.list []),
  -- 267 (1072) ValueWithoutTypeIdentifier: valuefieldreference
  sets fun _ => .value (.list []),
  -- 268 (1073) ValueWithoutTypeIdentifier: "{" SequenceOfValues "}"
  sets fun v => .value (.list (arg v 2).asValues),
  -- 269 (1075) ValueWithoutTypeIdentifier: ValueChoice
  sets fun _ => .value (.list []),
  -- 270 (1077) ValueWithoutTypeIdentifier: OPTIONAL
  sets fun _ => .value (.list []),
  -- 271 (1079) ValueWithoutTypeIdentifier: ValueCommaListChoice
  sets fun _ => .value (.list []),
  -- 272 (1081) ValueWithoutTypeIdentifier: BY
  sets fun _ => .value (.list []),
  -- 273 (1083) ValueWithoutTypeIdentifier: WITH
  sets fun _ => .value (.list []),
  -- 274 (1088) Value: ValueWithoutTypeIdentifier
  sets fun v => .value (arg v 1).asValue,
  -- 275 (1090) Value: GENERIC_IDENTIFIER_UPPERCASE
  sets fun v => .value (.str (arg v 1).asStr),
  -- 276 (1092) Value: INTEGER
  sets fun _ => .value (.list []),
  -- 277 (1095) ValueCommaListChoice: Value "," Value
  sets fun _ => .none,
  -- 278 (1096) ValueCommaListChoice: ValueCommaListChoice "," Value
  sets fun _ => .none,
  -- 279 (1099) ValueChoice: Value VERTICAL_LINE Value
  sets fun _ => .none,
  -- 280 (1100) ValueChoice: ValueChoice VERTICAL_LINE Value
  sets fun _ => .none,
  -- 281 (1103) ValueSet: "{" ElementSetSpecs "}"
  sets fun _ => .none,
  -- 282 (1106) SequenceOfValues: Value
  sets fun v => .values [(arg v 1).asValue],
  -- 283 (1108) SequenceOfValues: SequenceOfValues Value
  sets fun v => .values ((arg v 1).asValues ++ [(arg v 2).asValue]),
  -- 284 (1116) BooleanType: BOOLEAN
  sets fun _ => .type (.leaf .boolean),
  -- 285 (1119) BooleanValue: TRUE
  sets fun _ => .bool true,
  -- 286 (1121) BooleanValue: FALSE
  sets fun _ => .bool false,
  -- 287 (1125) IntegerType: INTEGER
  sets fun _ => .type (.leaf .integer)]

/-- The actions of rules 288 to 311 (asn_compiler.yacc:1127-1210). -/
def actions12 (_ : Bytes → UInt64) : List Act := [
  -- 288 (1127) IntegerType: INTEGER "{" NamedNumberList "}"
  sets fun _ => .type (.leaf .integer),
  -- 289 (1131) NamedNumberList: NamedNumber
  sets fun v => .nums [(arg v 1).asNum],
  -- 290 (1133) NamedNumberList: NamedNumberList "," NamedNumber
  sets fun v => .nums ((arg v 1).asNums ++ [(arg v 3).asNum]),
  -- 291 (1137) NamedNumber: identifier "(" SignedNumber ")"
  sets fun v => .num (arg v 1).asStr (arg v 3).asInt,
  -- 292 (1139) NamedNumber: identifier "(" DefinedValue ")"
  sets fun v => .num (arg v 1).asStr 0,
  -- 293 (1143) SignedNumber: number
  sets fun v => .int (arg v 1).asInt,
  -- 294 (1145) SignedNumber: negativenumber
  sets fun v => .int (arg v 1).asInt,
  -- 295 (1149) EnumeratedType: ENUMERATED "{" Enumerations "}"
  sets fun v => arg v 3,
  -- 296 (1153) Enumerations: Enumeration
  sets fun v => .enums (arg v 1).asEnums false,
  -- 297 (1156) Enumerations: Enumeration "," ELIPSIS ExceptionSpec
  sets fun v => .enums (arg v 1).asEnums true,
  -- 298 (1159) Enumerations: Enumeration "," ELIPSIS ExceptionSpec "," Enumeration
  sets fun v => .enums ((arg v 1).asEnums ++ (arg v 6).asEnums) true,
  -- 299 (1163) Enumerations: ELIPSIS ExceptionSpec
  sets fun _ => .enums [] false,
  -- 300 (1166) Enumeration: EnumerationItem
  sets fun v => .enums [(arg v 1).asEnumItem] false,
  -- 301 (1168) Enumeration: Enumeration "," EnumerationItem
  sets fun v => .enums ((arg v 1).asEnums ++ [(arg v 3).asEnumItem]) false,
  -- 302 (1172) EnumerationItem: identifier
  sets fun v => .enumItem (arg v 1).asStr none,
  -- 303 (1174) EnumerationItem: NamedNumber
  sets fun v => .enumItem (arg v 1).asNum.1 (some (arg v 1).asNum.2),
  -- 304 (1182) RealType: REAL
  sets fun _ => .type (.leaf .real),
  -- 305 (1185) BitStringType: BIT STRING
  sets fun _ => .type (.leaf .bitString),
  -- 306 (1187) BitStringType: BIT STRING "{" NamedBitList "}"
  sets fun _ => .type (.leaf .bitString),
  -- 307 (1191) NamedBitList: NamedBit
  sets fun _ => .none,
  -- 308 (1192) NamedBitList: NamedBitList "," NamedBit
  sets fun _ => .none,
  -- 309 (1195) NamedBit: identifier "(" number ")"
  sets fun _ => .none,
  -- 310 (1196) NamedBit: identifier "(" DefinedValue ")"
  sets fun _ => .none,
  -- 311 (1210) OctetStringType: OCTET STRING
  sets fun _ => .type (.leaf .octetString)]

/-- The actions of rules 312 to 335 (asn_compiler.yacc:1213-1293). -/
def actions13 (_ : Bytes → UInt64) : List Act := [
  -- 312 (1213) NullType: ASN_NULL
  sets fun _ => .type (.leaf .null),
  -- 313 (1216) SequenceType: SEQUENCE "{" "}"
  sets fun _ => .type (.sequence [] false),
  -- 314 (1218) SequenceType: SEQUENCE "{" ComponentTypeLists "}"
  sets fun v => .type (.sequence (arg v 3).asCollection.1 (arg v 3).asCollection.2),
  -- 315 (1222) ComponentTypeLists: ComponentTypeList
  sets fun v => .collection (arg v 1).asComps false,
  -- 316 (1224) ComponentTypeLists: ComponentTypeList "," ELIPSIS ExceptionSpec
  sets fun v => .collection (arg v 1).asComps true,
  -- 317 (1227) ComponentTypeLists: ComponentTypeList "," ELIPSIS ExceptionSpec "," ComponentTypeList
  sets fun v => .collection ((arg v 1).asComps ++ (arg v 6).asComps) true,
  -- 318 (1231) ComponentTypeLists: ComponentTypeList "," ELIPSIS ExceptionSpec "," ComponentTypeList "," ELIPSIS
  sets fun v => .collection ((arg v 1).asComps ++ (arg v 6).asComps) true,
  -- 319 (1235) ComponentTypeLists: ComponentTypeList "," ELIPSIS ExceptionSpec "," ComponentTypeList "," ELIPSIS "," ComponentTypeList
  sets fun v => .collection ((arg v 1).asComps ++ (arg v 6).asComps ++ (arg v 10).asComps) true,
  -- 320 (1240) ComponentTypeLists: ELIPSIS ExceptionSpec "," ComponentTypeList
  sets fun v => .collection (arg v 4).asComps true,
  -- 321 (1243) ComponentTypeLists: ELIPSIS ExceptionSpec "," ComponentTypeList "," ELIPSIS
  sets fun v => .collection (arg v 4).asComps true,
  -- 322 (1246) ComponentTypeLists: ELIPSIS ExceptionSpec
  sets fun _ => .collection [] true,
  -- 323 (1249) ComponentTypeLists: ELIPSIS ExceptionSpec "," ELIPSIS
  sets fun _ => .collection [] true,
  -- 324 (1254) ComponentTypeList: ComponentType
  sets fun v => .comps [(arg v 1).asComp],
  -- 325 (1256) ComponentTypeList: ComponentTypeList "," ComponentType
  sets fun v => .comps ((arg v 1).asComps ++ [(arg v 3).asComp]),
  -- 326 (1260) ComponentType: Type
  anonComp false fun _ => none,
  -- 327 (1263) ComponentType: Type OPTIONAL
  anonComp true fun _ => none,
  -- 328 (1266) ComponentType: Type DEFAULT SingleValue
  anonComp false fun v => some (arg v 3).asValue,
  -- 329 (1269) ComponentType: NamedType
  sets fun v => .comp (.mk (arg v 1).asNamed.name (arg v 1).asNamed.type false none none .static_),
  -- 330 (1271) ComponentType: NamedType OPTIONAL
  sets fun v => .comp (.mk (arg v 1).asNamed.name (arg v 1).asNamed.type true none none .static_),
  -- 331 (1273) ComponentType: NamedType DEFAULT SingleValue
  sets fun v => .comp (.mk (arg v 1).asNamed.name (arg v 1).asNamed.type false (some (arg v 3).asValue) none .static_),
  -- 332 (1275) ComponentType: COMPONENTS OF Type
  sets fun v => .comp (.mk "" (.leaf .any) false none (some (arg v 3).asType) .static_),
  -- 333 (1287) SequenceOfType: SEQUENCE OF Type
  sets fun v => .type (.seqOf none (arg v 3).asType .smallBuffer),
  -- 334 (1289) SequenceOfType: SEQUENCE OF NamedType
  sets fun v => .type (.seqOf (some (arg v 3).asNamed.name) (arg v 3).asNamed.type .smallBuffer),
  -- 335 (1293) SetType: SET "{" "}"
  sets fun _ => .type (.set [] false)]

/-- The actions of rules 336 to 359 (asn_compiler.yacc:1295-1364). -/
def actions14 (_ : Bytes → UInt64) : List Act := [
  -- 336 (1295) SetType: SET "{" ComponentTypeLists "}"
  sets fun v => .type (.set (arg v 3).asCollection.1 (arg v 3).asCollection.2),
  -- 337 (1299) SetOfType: SET OF Type
  sets fun v => .type (.setOf none (arg v 3).asType .smallBuffer),
  -- 338 (1301) SetOfType: SET OF NamedType
  sets fun v => .type (.setOf (some (arg v 3).asNamed.name) (arg v 3).asNamed.type .smallBuffer),
  -- 339 (1305) ChoiceType: CHOICE "{" AlternativeTypeLists "}"
  sets fun v => .type (.choice (arg v 3).asNameds .static_),
  -- 340 (1309) AlternativeTypeLists: RootAlternativeTypeList
  sets fun v => .nameds (arg v 1).asNameds,
  -- 341 (1313) RootAlternativeTypeList: AlternativeTypeList
  sets fun v => .nameds (arg v 1).asNameds,
  -- 342 (1315) RootAlternativeTypeList: AlternativeTypeList "," ELIPSIS
  sets fun v => .nameds (arg v 1).asNameds,
  -- 343 (1317) RootAlternativeTypeList: AlternativeTypeList "," ELIPSIS "," AlternativeTypeList
  sets fun v => .nameds ((arg v 5).asNameds ++ (arg v 1).asNameds),
  -- 344 (1321) AlternativeTypeList: NamedType
  sets fun v => .nameds [(arg v 1).asNamed],
  -- 345 (1323) AlternativeTypeList: AlternativeTypeList "," NamedType
  sets fun v => .nameds ((arg v 1).asNameds ++ [(arg v 3).asNamed]),
  -- 346 (1330) SelectionType: identifier "<" Type
  sets fun _ => .none,
  -- 347 (1333) PrefixedType: TaggedType
  sets fun v => .type (arg v 1).asType,
  -- 348 (1337) TaggedType: Tag Type
  sets fun v => tagged (arg v 1).asTag .automatic (arg v 2).asType,
  -- 349 (1339) TaggedType: Tag IMPLICIT Type
  sets fun v => tagged (arg v 1).asTag .implicit (arg v 3).asType,
  -- 350 (1341) TaggedType: Tag EXPLICIT Type
  sets fun v => tagged (arg v 1).asTag .explicit_ (arg v 3).asType,
  -- 351 (1345) Tag: "[" EncodingReference Class ClassNumber "]"
  sets fun v => .tag (arg v 3).asCls (arg v 4).asInt,
  -- 352 (1349) EncodingReference: encodingreference ":"
  sets fun _ => .none,
  -- 353 (1350) EncodingReference: 
  sets fun _ => .none,
  -- 354 (1353) ClassNumber: number
  sets fun v => .int (wrap32 (arg v 1).asInt),
  -- 355 (1355) ClassNumber: DefinedValue
  sets fun _ => .int 0,
  -- 356 (1358) Class: UNIVERSAL
  sets fun _ => .cls .universal,
  -- 357 (1360) Class: APPLICATION
  sets fun _ => .cls .application,
  -- 358 (1362) Class: PRIVATE
  sets fun _ => .cls .private_,
  -- 359 (1364) Class: 
  sets fun _ => .cls .contextSpecific]

/-- The actions of rules 360 to 383 (asn_compiler.yacc:1374-1461). -/
def actions15 (_ : Bytes → UInt64) : List Act := [
  -- 360 (1374) ObjectIdentifierType: OBJECT IDENTIFIER
  sets fun _ => .type (.leaf .objectIdentifier),
  -- 361 (1377) ObjectIdentifierValue: "{" ObjIdComponentsList "}"
  sets fun v => .oids (arg v 2).asOids.reverse,
  -- 362 (1379) ObjectIdentifierValue: "{" DefinedValue ObjIdComponentsList "}"
  sets fun v => .oids (arg v 3).asOids.reverse,
  -- 363 (1383) ObjIdComponentsList: ObjIdComponents
  sets fun v => .oids [(arg v 1).asOid],
  -- 364 (1385) ObjIdComponentsList: ObjIdComponents ObjIdComponentsList
  sets fun v => .oids ((arg v 2).asOids ++ [(arg v 1).asOid]),
  -- 365 (1389) ObjIdComponents: NameForm
  sets fun v => let o := (arg v 1).asOid; .oid o.1 o.2,
  -- 366 (1391) ObjIdComponents: NumberForm
  sets fun v => let o := (arg v 1).asOid; .oid o.1 o.2,
  -- 367 (1393) ObjIdComponents: NameAndNumberForm
  sets fun v => let o := (arg v 1).asOid; .oid o.1 o.2,
  -- 368 (1397) NameForm: identifier
  sets fun v => .oid (some (arg v 1).asStr) none,
  -- 369 (1401) NumberForm: number
  sets fun v => .oid none (some (arg v 1).asInt),
  -- 370 (1403) NumberForm: DefinedValue
  sets fun _ => .oid none none,
  -- 371 (1406) NameAndNumberForm: identifier "(" NumberForm ")"
  sets fun v => .oid (some (arg v 1).asStr) (arg v 3).asOid.2,
  -- 372 (1410) RelativeOIDType: RELATIVE_OID
  sets fun _ => .type (.leaf .relativeOID),
  -- 373 (1422) IRIType: OID_IRI
  sets fun _ => .type (.leaf .iri),
  -- 374 (1425) IRIValue: "\"" FirstArcIdentifier SubsequentArcIdentifier "\""
  sets fun _ => .none,
  -- 375 (1431) FirstArcIdentifier: "/" ArcIdentifier
  sets fun _ => .none,
  -- 376 (1434) SubsequentArcIdentifier: "/" ArcIdentifier SubsequentArcIdentifier
  sets fun _ => .none,
  -- 377 (1435) SubsequentArcIdentifier: 
  sets fun _ => .none,
  -- 378 (1438) ArcIdentifier: integerUnicodeLabel
  sets fun _ => .none,
  -- 379 (1439) ArcIdentifier: non-integerUnicodeLabel
  sets fun _ => .none,
  -- 380 (1442) RelativeIRIType: RELATIVE_OID_IRI
  sets fun _ => .type (.leaf .relativeIRI),
  -- 381 (1448) EmbeddedPDVType: EMBEDDED PDV
  sets fun _ => .type (.leaf .embeddedPDV),
  -- 382 (1455) ExternalType: EXTERNAL
  sets fun _ => .type (.leaf .external),
  -- 383 (1461) TimeType: TIME
  sets fun _ => .type (.leaf .time)]

/-- The actions of rules 384 to 407 (asn_compiler.yacc:1464-1523). -/
def actions16 (_ : Bytes → UInt64) : List Act := [
  -- 384 (1464) TimeValue: tstring
  sets fun _ => .time "",
  -- 385 (1467) DateType: DATE
  sets fun _ => .type (.leaf .date),
  -- 386 (1470) TimeOfDayType: TIME_OF_DAY
  sets fun _ => .type (.leaf .timeOfDay),
  -- 387 (1473) DateTimeType: DATE_TIME
  sets fun _ => .type (.leaf .dateTime),
  -- 388 (1476) DurationType: DURATION
  sets fun _ => .type (.leaf .duration),
  -- 389 (1479) CharacterStringType: RestrictedCharacterStringType
  sets fun v => .type (arg v 1).asType,
  -- 390 (1481) CharacterStringType: UnrestrictedCharacterStringType
  sets fun v => .type (arg v 1).asType,
  -- 391 (1485) RestrictedCharacterStringType: BMPString
  sets fun _ => .type (.leaf (.charString 30)),
  -- 392 (1487) RestrictedCharacterStringType: GeneralString
  sets fun _ => .type (.leaf (.charString 27)),
  -- 393 (1489) RestrictedCharacterStringType: GraphicString
  sets fun _ => .type (.leaf (.charString 25)),
  -- 394 (1491) RestrictedCharacterStringType: IA5String
  sets fun _ => .type (.leaf (.charString 22)),
  -- 395 (1493) RestrictedCharacterStringType: ISO646String
  sets fun _ => .type (.leaf (.charString 26)),
  -- 396 (1495) RestrictedCharacterStringType: NumericString
  sets fun _ => .type (.leaf (.charString 18)),
  -- 397 (1497) RestrictedCharacterStringType: PrintableString
  sets fun _ => .type (.leaf (.charString 19)),
  -- 398 (1499) RestrictedCharacterStringType: TeletexString
  sets fun _ => .type (.leaf (.charString 20)),
  -- 399 (1501) RestrictedCharacterStringType: T61String
  sets fun _ => .type (.leaf .t61String),
  -- 400 (1503) RestrictedCharacterStringType: UniversalString
  sets fun _ => .type (.leaf (.charString 28)),
  -- 401 (1505) RestrictedCharacterStringType: UTF8String
  sets fun _ => .type (.leaf (.charString 12)),
  -- 402 (1507) RestrictedCharacterStringType: VideotexString
  sets fun _ => .type (.leaf (.charString 21)),
  -- 403 (1509) RestrictedCharacterStringType: VisibleString
  sets fun _ => .type (.leaf (.charString 26)),
  -- 404 (1513) UnrestrictedCharacterStringType: CHARACTER STRING
  sets fun _ => .type (.leaf (.charString 29)),
  -- 405 (1517) ConstrainedType: Type Constraint
  sets fun v => .type (arg v 1).asType,
  -- 406 (1519) ConstrainedType: TypeWithConstraint
  sets fun v => .type (arg v 1).asType,
  -- 407 (1523) TypeWithConstraint: SET Constraint OF Type
  sets fun v => .type (.setOf none (arg v 4).asType .smallBuffer)]

/-- The actions of rules 408 to 431 (asn_compiler.yacc:1525-1576). -/
def actions17 (_ : Bytes → UInt64) : List Act := [
  -- 408 (1525) TypeWithConstraint: SET SizeConstraint OF Type
  sets fun v => .type (.setOf none (arg v 4).asType .smallBuffer),
  -- 409 (1527) TypeWithConstraint: SEQUENCE Constraint OF Type
  sets fun v => .type (.seqOf none (arg v 4).asType .smallBuffer),
  -- 410 (1529) TypeWithConstraint: SEQUENCE SizeConstraint OF Type
  sets fun v => .type (.seqOf none (arg v 4).asType .smallBuffer),
  -- 411 (1531) TypeWithConstraint: SET Constraint OF NamedType
  sets fun v => .type (.setOf (some (arg v 4).asNamed.name) (arg v 4).asNamed.type .smallBuffer),
  -- 412 (1533) TypeWithConstraint: SET SizeConstraint OF NamedType
  sets fun v => .type (.setOf (some (arg v 4).asNamed.name) (arg v 4).asNamed.type .smallBuffer),
  -- 413 (1535) TypeWithConstraint: SEQUENCE Constraint OF NamedType
  sets fun v => .type (.seqOf (some (arg v 4).asNamed.name) (arg v 4).asNamed.type .smallBuffer),
  -- 414 (1537) TypeWithConstraint: SEQUENCE SizeConstraint OF NamedType
  sets fun v => .type (.seqOf (some (arg v 4).asNamed.name) (arg v 4).asNamed.type .smallBuffer),
  -- 415 (1541) Constraint: "(" ConstraintSpec ExceptionSpec ")"
  sets fun _ => .none,
  -- 416 (1545) ConstraintSpec: SubtypeConstraint
  sets fun _ => .none,
  -- 417 (1546) ConstraintSpec: GeneralConstraint
  sets fun _ => .none,
  -- 418 (1549) SubtypeConstraint: ElementSetSpecs
  sets fun _ => .none,
  -- 419 (1552) ElementSetSpecs: ElementSetSpec
  sets fun _ => .none,
  -- 420 (1553) ElementSetSpecs: ElementSetSpec "," ELIPSIS
  sets fun _ => .none,
  -- 421 (1554) ElementSetSpecs: ElementSetSpec "," ELIPSIS "," ElementSetSpec
  sets fun _ => .none,
  -- 422 (1557) ElementSetSpec: Unions
  sets fun _ => .none,
  -- 423 (1558) ElementSetSpec: ALL Exclusions
  sets fun _ => .none,
  -- 424 (1561) Unions: Intersections
  sets fun _ => .none,
  -- 425 (1562) Unions: UElems UnionMark Intersections
  sets fun _ => .none,
  -- 426 (1565) UElems: Unions
  sets fun _ => .none,
  -- 427 (1568) Intersections: IntersectionElements
  sets fun _ => .none,
  -- 428 (1569) Intersections: IElems IntersectionMark IntersectionElements
  sets fun _ => .none,
  -- 429 (1572) IElems: Intersections
  sets fun _ => .none,
  -- 430 (1575) IntersectionElements: Elements
  sets fun _ => .none,
  -- 431 (1576) IntersectionElements: Elems Exclusions
  sets fun _ => .none]

/-- The actions of rules 432 to 455 (asn_compiler.yacc:1579-1625). -/
def actions18 (_ : Bytes → UInt64) : List Act := [
  -- 432 (1579) Elems: Elements
  sets fun _ => .none,
  -- 433 (1582) Exclusions: EXCEPT Elements
  sets fun _ => .none,
  -- 434 (1585) UnionMark: "|"
  sets fun _ => .none,
  -- 435 (1586) UnionMark: UNION
  sets fun _ => .none,
  -- 436 (1589) IntersectionMark: "^"
  sets fun _ => .none,
  -- 437 (1590) IntersectionMark: INTERSECTION
  sets fun _ => .none,
  -- 438 (1593) Elements: SubtypeElements
  sets fun _ => .none,
  -- 439 (1595) Elements: "(" ElementSetSpecs ")"
  sets fun _ => .none,
  -- 440 (1598) SubtypeElements: SingleValue
  sets fun _ => .none,
  -- 441 (1599) SubtypeElements: ContainedSubtype
  sets fun _ => .none,
  -- 442 (1600) SubtypeElements: ValueRange
  sets fun _ => .none,
  -- 443 (1601) SubtypeElements: PermittedAlphabet
  sets fun _ => .none,
  -- 444 (1602) SubtypeElements: SizeConstraint
  sets fun _ => .none,
  -- 445 (1603) SubtypeElements: TypeConstraint
  sets fun _ => .none,
  -- 446 (1604) SubtypeElements: InnerTypeConstraints
  sets fun _ => .none,
  -- 447 (1605) SubtypeElements: PatternConstraint
  sets fun _ => .none,
  -- 448 (1606) SubtypeElements: PropertySettings
  sets fun _ => .none,
  -- 449 (1612) SingleValue: BooleanValue
  sets fun v => .value (.bool (arg v 1).asBool),
  -- 450 (1615) SingleValue: ASN_NULL
  sets fun _ => .value .null,
  -- 451 (1617) SingleValue: TimeValue
  sets fun v => .value (.time (arg v 1).asTime),
  -- 452 (1619) SingleValue: bstring
  sets fun v => .value (.str (arg v 1).asStr),
  -- 453 (1621) SingleValue: hstring
  sets fun v => .value (.str (arg v 1).asStr),
  -- 454 (1623) SingleValue: cstring
  sets fun v => .value (.str (arg v 1).asStr),
  -- 455 (1625) SingleValue: GENERIC_IDENTIFIER_UPPERCASE
  sets fun v => .value (.str (arg v 1).asStr)]

/-- The actions of rules 456 to 479 (asn_compiler.yacc:1627-1678). -/
def actions19 (stod : Bytes → UInt64) : List Act := [
  -- 456 (1627) SingleValue: DefinedValue
  sets fun v => .value (.defined (arg v 1).asDefined),
  -- 457 (1629) SingleValue: SignedNumber
  sets fun v => .value (.int (arg v 1).asInt),
  -- 458 (1631) SingleValue: realnumber
  sets fun v => .value (.real (stod (arg v 1).asReal)),
  -- 459 (1635) ContainedSubtype: Includes Type
  sets fun _ => .none,
  -- 460 (1638) Includes: INCLUDES
  sets fun _ => .none,
  -- 461 (1641) ValueRange: LowerEndpoint RANGE UpperEndpoint
  sets fun _ => .none,
  -- 462 (1644) LowerEndpoint: LowerEndValue
  sets fun _ => .none,
  -- 463 (1645) LowerEndpoint: LowerEndValue "<"
  sets fun _ => .none,
  -- 464 (1648) UpperEndpoint: UpperEndValue
  sets fun _ => .none,
  -- 465 (1649) UpperEndpoint: "<" UpperEndValue
  sets fun _ => .none,
  -- 466 (1652) LowerEndValue: SingleValue
  sets fun _ => .none,
  -- 467 (1653) LowerEndValue: MIN
  sets fun _ => .none,
  -- 468 (1656) UpperEndValue: SingleValue
  sets fun _ => .none,
  -- 469 (1657) UpperEndValue: MAX
  sets fun _ => .none,
  -- 470 (1660) SizeConstraint: SIZE Constraint
  sets fun _ => .none,
  -- 471 (1663) TypeConstraint: Type
  sets fun _ => .none,
  -- 472 (1666) PermittedAlphabet: FROM Constraint
  sets fun _ => .none,
  -- 473 (1669) InnerTypeConstraints: WITH COMPONENT SingleTypeConstraint
  sets fun _ => .none,
  -- 474 (1670) InnerTypeConstraints: WITH COMPONENTS MultipleTypeConstraints
  sets fun _ => .none,
  -- 475 (1673) SingleTypeConstraint: Constraint
  sets fun _ => .none,
  -- 476 (1676) MultipleTypeConstraints: 
  sets fun _ => .none,
  -- 477 (1676) MultipleTypeConstraints: "{" ELIPSIS "}"
  sets fun _ => .none,
  -- 478 (1677) MultipleTypeConstraints: "{" ELIPSIS "," TypeConstraints "}"
  sets fun _ => .none,
  -- 479 (1678) MultipleTypeConstraints: "{" TypeConstraints "}"
  sets fun _ => .none]

/-- The actions of rules 480 to 503 (asn_compiler.yacc:1681-1737). -/
def actions20 (_ : Bytes → UInt64) : List Act := [
  -- 480 (1681) TypeConstraints: NamedConstraint
  sets fun _ => .none,
  -- 481 (1682) TypeConstraints: NamedConstraint "," TypeConstraints
  sets fun _ => .none,
  -- 482 (1685) NamedConstraint: identifier ComponentConstraint
  sets fun _ => .none,
  -- 483 (1688) ComponentConstraint: ValueConstraint PresenceConstraint
  sets fun _ => .none,
  -- 484 (1691) ValueConstraint: Constraint
  sets fun _ => .none,
  -- 485 (1692) ValueConstraint: 
  sets fun _ => .none,
  -- 486 (1695) PresenceConstraint: PRESENT
  sets fun _ => .none,
  -- 487 (1696) PresenceConstraint: ABSENT
  sets fun _ => .none,
  -- 488 (1697) PresenceConstraint: OPTIONAL
  sets fun _ => .none,
  -- 489 (1698) PresenceConstraint: 
  sets fun _ => .none,
  -- 490 (1701) PatternConstraint: PATTERN Value
  sets fun _ => .none,
  -- 491 (1704) PropertySettings: SETTINGS simplestring
  sets fun _ => .none,
  -- 492 (1707) ExceptionSpec: "!" ExceptionIdentification
  sets fun _ => .none,
  -- 493 (1708) ExceptionSpec: 
  sets fun _ => .none,
  -- 494 (1711) ExceptionIdentification: SignedNumber
  sets fun _ => .none,
  -- 495 (1712) ExceptionIdentification: DefinedValue
  sets fun _ => .none,
  -- 496 (1713) ExceptionIdentification: Type ":" Value
  sets fun _ => .none,
  -- 497 (1716) typereference: GENERIC_IDENTIFIER_UPPERCASE
  sets fun v => .str (arg v 1).asStr,
  -- 498 (1720) identifier: GENERIC_IDENTIFIER_LOWERCASE
  sets fun v => .str (arg v 1).asStr,
  -- 499 (1724) valuereference: GENERIC_IDENTIFIER_LOWERCASE
  sets fun v => .str (arg v 1).asStr,
  -- 500 (1728) modulereference: GENERIC_IDENTIFIER_UPPERCASE
  sets fun v => .str (arg v 1).asStr,
  -- 501 (1732) objectclassreference: GENERIC_IDENTIFIER_UPPERCASE
  sets fun v => .str (arg v 1).asStr,
  -- 502 (1736) word: GENERIC_IDENTIFIER_UPPERCASE
  sets fun v => .str (arg v 1).asStr,
  -- 503 (1737) word: ABSENT
  sets fun _ => .str ""]

/-- The actions of rules 504 to 527 (asn_compiler.yacc:1738-1761). -/
def actions21 (_ : Bytes → UInt64) : List Act := [
  -- 504 (1738) word: ABSTRACT_SYNTAX
  sets fun _ => .str "",
  -- 505 (1739) word: ALL
  sets fun _ => .str "",
  -- 506 (1740) word: APPLICATION
  sets fun _ => .str "",
  -- 507 (1741) word: ASN_NULL
  sets fun _ => .str "",
  -- 508 (1742) word: AUTOMATIC
  sets fun _ => .str "",
  -- 509 (1743) word: BEGIN
  sets fun _ => .str "",
  -- 510 (1744) word: BIT
  sets fun _ => .str "",
  -- 511 (1745) word: BMPString
  sets fun _ => .str "",
  -- 512 (1746) word: BOOLEAN
  sets fun _ => .str "",
  -- 513 (1747) word: BY
  sets fun _ => .str "",
  -- 514 (1748) word: CHARACTER
  sets fun _ => .str "",
  -- 515 (1749) word: CHOICE
  sets fun _ => .str "",
  -- 516 (1750) word: CLASS
  sets fun _ => .str "",
  -- 517 (1751) word: COMPONENT
  sets fun _ => .str "",
  -- 518 (1752) word: COMPONENTS
  sets fun _ => .str "",
  -- 519 (1753) word: CONSTRAINED
  sets fun _ => .str "",
  -- 520 (1754) word: CONTAINING
  sets fun _ => .str "",
  -- 521 (1755) word: DATE
  sets fun _ => .str "",
  -- 522 (1756) word: DATE_TIME
  sets fun _ => .str "",
  -- 523 (1757) word: DEFAULT
  sets fun _ => .str "",
  -- 524 (1758) word: DEFINITIONS
  sets fun _ => .str "",
  -- 525 (1759) word: DURATION
  sets fun _ => .str "",
  -- 526 (1760) word: EMBEDDED
  sets fun _ => .str "",
  -- 527 (1761) word: ENCODED
  sets fun _ => .str ""]

/-- The actions of rules 528 to 551 (asn_compiler.yacc:1762-1785). -/
def actions22 (_ : Bytes → UInt64) : List Act := [
  -- 528 (1762) word: ENCODING_CONTROL
  sets fun _ => .str "",
  -- 529 (1763) word: END
  sets fun _ => .str "",
  -- 530 (1764) word: ENUMERATED
  sets fun _ => .str "",
  -- 531 (1765) word: EXCEPT
  sets fun _ => .str "",
  -- 532 (1766) word: EXPLICIT
  sets fun _ => .str "",
  -- 533 (1767) word: EXPORTS
  sets fun _ => .str "",
  -- 534 (1768) word: EXTENSIBILITY
  sets fun _ => .str "",
  -- 535 (1769) word: EXTERNAL
  sets fun _ => .str "",
  -- 536 (1770) word: FALSE
  sets fun _ => .str "",
  -- 537 (1771) word: FROM
  sets fun _ => .str "",
  -- 538 (1772) word: IDENTIFIER
  sets fun _ => .str "",
  -- 539 (1773) word: IMPLICIT
  sets fun _ => .str "",
  -- 540 (1774) word: IMPLIED
  sets fun _ => .str "",
  -- 541 (1775) word: IMPORTS
  sets fun _ => .str "",
  -- 542 (1776) word: INCLUDES
  sets fun _ => .str "",
  -- 543 (1777) word: INSTANCE
  sets fun _ => .str "",
  -- 544 (1778) word: INSTRUCTIONS
  sets fun _ => .str "",
  -- 545 (1779) word: INTEGER
  sets fun _ => .str "",
  -- 546 (1780) word: INTERSECTION
  sets fun _ => .str "",
  -- 547 (1781) word: MAX
  sets fun _ => .str "",
  -- 548 (1782) word: MIN
  sets fun _ => .str "",
  -- 549 (1783) word: MINUS_INFINITY
  sets fun _ => .str "",
  -- 550 (1784) word: NOT_A_NUMBER
  sets fun _ => .str "",
  -- 551 (1785) word: OBJECT
  sets fun _ => .str ""]

/-- The actions of rules 552 to 575 (asn_compiler.yacc:1786-1809). -/
def actions23 (_ : Bytes → UInt64) : List Act := [
  -- 552 (1786) word: OCTET
  sets fun _ => .str "",
  -- 553 (1787) word: OF
  sets fun _ => .str "",
  -- 554 (1788) word: OID_IRI
  sets fun _ => .str "",
  -- 555 (1789) word: OPTIONAL
  sets fun _ => .str "",
  -- 556 (1790) word: PATTERN
  sets fun _ => .str "",
  -- 557 (1791) word: PDV
  sets fun _ => .str "",
  -- 558 (1792) word: PLUS_INFINITY
  sets fun _ => .str "",
  -- 559 (1793) word: PRESENT
  sets fun _ => .str "",
  -- 560 (1794) word: PRIVATE
  sets fun _ => .str "",
  -- 561 (1795) word: REAL
  sets fun _ => .str "",
  -- 562 (1796) word: RELATIVE_OID
  sets fun _ => .str "",
  -- 563 (1797) word: RELATIVE_OID_IRI
  sets fun _ => .str "",
  -- 564 (1798) word: SEQUENCE
  sets fun _ => .str "",
  -- 565 (1799) word: SET
  sets fun _ => .str "",
  -- 566 (1800) word: SETTINGS
  sets fun _ => .str "",
  -- 567 (1801) word: SIZE
  sets fun _ => .str "",
  -- 568 (1802) word: STRING
  sets fun _ => .str "",
  -- 569 (1803) word: SYNTAX
  sets fun _ => .str "",
  -- 570 (1804) word: TAGS
  sets fun _ => .str "",
  -- 571 (1805) word: TIME
  sets fun _ => .str "",
  -- 572 (1806) word: TIME_OF_DAY
  sets fun _ => .str "",
  -- 573 (1807) word: TRUE
  sets fun _ => .str "",
  -- 574 (1808) word: TYPE_IDENTIFIER
  sets fun _ => .str "",
  -- 575 (1809) word: UNION
  sets fun _ => .str ""]

/-- The actions of rules 576 to 578 (asn_compiler.yacc:1810-1812). -/
def actions24 (_ : Bytes → UInt64) : List Act := [
  -- 576 (1810) word: UNIQUE
  sets fun _ => .str "",
  -- 577 (1811) word: UNIVERSAL
  sets fun _ => .str "",
  -- 578 (1812) word: WITH
  sets fun _ => .str ""]

/-- The action of rule `r` (autogen_copy/asn_compiler.hpp, `switch (yyn)` in `parse`).  `stod`: `std::stod`, which makes a `double` of the text of a
real number (asn_compiler.yacc:1933). -/
def action (stod : Bytes → UInt64) (r : Nat) : Act :=
  ([actions0 stod, actions1 stod, actions2 stod, actions3 stod, actions4 stod, actions5 stod, actions6 stod, actions7 stod, actions8 stod, actions9 stod, actions10 stod, actions11 stod, actions12 stod, actions13 stod, actions14 stod, actions15 stod, actions16 stod, actions17 stod, actions18 stod, actions19 stod, actions20 stod, actions21 stod, actions22 stod, actions23 stod, actions24 stod].getD (r / 24) []).getD (r % 24) (sets fun _ => .none)

end FastBer.Parser
