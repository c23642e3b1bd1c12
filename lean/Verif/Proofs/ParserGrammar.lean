import Verif.Model.Parser
/-!
# The notation the parser is shown to read

This file is made by tools/parser_gen.py from tools/parser_notation.txt, src/compiler/asn_compiler.yacc and src/compiler/autogen_copy/asn_compiler.hpp.

A grammar whose rules are rules of asn_compiler.yacc with some nonterminals split in two: `Type_closed`, for example, is a `Type` that does not
end with another type.  `productions` are its rules: the left-hand side, the number of the rule of asn_compiler.yacc, the right-hand side.
Symbols below 378 are those of bison, the others are listed in `refined`.
-/
namespace FastBer.Parser
open FastBer

namespace Sym
abbrev ModuleDefinitionList : Nat := 154
abbrev ModuleDefinition : Nat := 155
abbrev ModuleIdentifier : Nat := 228
abbrev DefinitiveIdentification : Nat := 229
abbrev DefinitiveOID : Nat := 230
abbrev DefinitiveObjIdComponentList : Nat := 232
abbrev DefinitiveObjIdComponent : Nat := 233
abbrev DefinitiveNumberForm : Nat := 234
abbrev DefinitiveNameAndNumberForm : Nat := 235
abbrev NameForm : Nat := 310
abbrev EncodingReferenceDefault : Nat := 236
abbrev EncodingControlSections : Nat := 227
abbrev TagDefault : Nat := 237
abbrev ExtensionDefault : Nat := 238
abbrev ModuleBody : Nat := 239
abbrev Exports : Nat := 240
abbrev SymbolsExported : Nat := 241
abbrev Imports : Nat := 242
abbrev SymbolsImported : Nat := 243
abbrev SymbolsFromModuleList : Nat := 244
abbrev SymbolsFromModule : Nat := 245
abbrev GlobalModuleReference : Nat := 246
abbrev ObjectIdentifierValue : Nat := 307
abbrev ObjIdComponentsList : Nat := 308
abbrev ObjIdComponents : Nat := 309
abbrev NumberForm : Nat := 311
abbrev NameAndNumberForm : Nat := 312
abbrev SymbolList : Nat := 247
abbrev Symbol : Nat := 248
abbrev Reference : Nat := 249
abbrev Reference_type : Nat := 378
abbrev AssignmentList : Nat := 250
abbrev Assignment : Nat := 251
abbrev TypeAssignment : Nat := 260
abbrev ValueAssignment : Nat := 261
abbrev ParameterizedAssignment : Nat := 203
abbrev ParameterizedTypeAssignment : Nat := 204
abbrev ParameterList : Nat := 208
abbrev ParameterSeries : Nat := 209
abbrev Parameter : Nat := 210
abbrev ObjectClassAssignment : Nat := 160
abbrev ObjectClass : Nat := 161
abbrev ObjectClassDefn : Nat := 162
abbrev FieldSpecList : Nat := 163
abbrev FieldSpec : Nat := 164
abbrev TypeFieldSpec : Nat := 167
abbrev OneOrManyTypeFieldReference : Nat := 168
abbrev TypeOptionalitySpec : Nat := 169
abbrev FixedTypeValueFieldSpec : Nat := 171
abbrev OptionalUnique : Nat := 170
abbrev ValueOptionalitySpec : Nat := 172
abbrev WithSyntaxSpec : Nat := 180
abbrev SyntaxList : Nat := 156
abbrev TokenOrGroupSpecList : Nat := 181
abbrev TokenOrGroupSpec : Nat := 182
abbrev RequiredToken : Nat := 184
abbrev LiteralList : Nat := 185
abbrev Literal : Nat := 186
abbrev word : Nat := 377
abbrev Value : Nat := 267
abbrev ValueWithoutTypeIdentifier : Nat := 266
abbrev SequenceOfValues : Nat := 271
abbrev Value_item : Nat := 379
abbrev ValueWithoutTypeIdentifier_item : Nat := 380
abbrev BooleanValue : Nat := 273
abbrev SignedNumber : Nat := 277
abbrev DefinedValue : Nat := 253
abbrev typereference : Nat := 372
abbrev identifier : Nat := 373
abbrev valuereference : Nat := 374
abbrev modulereference : Nat := 375
abbrev Type_ : Nat := 263
abbrev Type_arg : Nat := 381
abbrev Type_closed : Nat := 382
abbrev ConstrainedType : Nat := 331
abbrev ConstrainedType_open : Nat := 383
abbrev TypeWithConstraint : Nat := 332
abbrev DefinedType : Nat := 252
abbrev ExternalTypeReference : Nat := 258
abbrev ParameterizedType : Nat := 254
abbrev SimpleDefinedType : Nat := 216
abbrev ActualParameterList : Nat := 256
abbrev ActualParameter : Nat := 257
abbrev BuiltinType : Nat := 264
abbrev BuiltinType_null : Nat := 384
abbrev BuiltinType_open : Nat := 385
abbrev ObjectClassFieldType : Nat := 202
abbrev FieldNameList : Nat := 166
abbrev FieldName : Nat := 165
abbrev DateType : Nat := 324
abbrev DateTimeType : Nat := 326
abbrev DurationType : Nat := 327
abbrev EmbeddedPDVType : Nat := 320
abbrev ExternalType : Nat := 321
abbrev RelativeIRIType : Nat := 319
abbrev RelativeOIDType : Nat := 313
abbrev TimeType : Nat := 322
abbrev TimeOfDayType : Nat := 325
abbrev BooleanType : Nat := 272
abbrev IntegerType : Nat := 274
abbrev NamedNumberList : Nat := 275
abbrev NamedNumber : Nat := 276
abbrev EnumeratedType : Nat := 278
abbrev Enumerations : Nat := 279
abbrev Enumeration : Nat := 280
abbrev EnumerationItem : Nat := 281
abbrev ExceptionSpec : Nat := 370
abbrev RealType : Nat := 282
abbrev BitStringType : Nat := 283
abbrev NamedBitList : Nat := 284
abbrev NamedBit : Nat := 285
abbrev OctetStringType : Nat := 286
abbrev NullType : Nat := 287
abbrev ObjectIdentifierType : Nat := 306
abbrev CharacterStringType : Nat := 328
abbrev UnrestrictedCharacterStringType : Nat := 330
abbrev RestrictedCharacterStringType : Nat := 329
abbrev SequenceType : Nat := 288
abbrev SetType : Nat := 293
abbrev ComponentTypeLists : Nat := 289
abbrev ComponentTypeList : Nat := 290
abbrev ComponentType : Nat := 291
abbrev SingleValue : Nat := 349
abbrev SingleValue_c : Nat := 386
abbrev NamedType : Nat := 265
abbrev SequenceOfType : Nat := 292
abbrev SetOfType : Nat := 294
abbrev ChoiceType : Nat := 295
abbrev AlternativeTypeLists : Nat := 296
abbrev RootAlternativeTypeList : Nat := 297
abbrev AlternativeTypeList : Nat := 298
abbrev PrefixedType : Nat := 300
abbrev TaggedType : Nat := 301
abbrev Tag : Nat := 302
abbrev EncodingReference : Nat := 303
abbrev Class : Nat := 305
abbrev ClassNumber : Nat := 304
abbrev Constraint : Nat := 333
abbrev ConstraintSpec : Nat := 334
abbrev GeneralConstraint : Nat := 218
abbrev UserDefinedConstraint : Nat := 219
abbrev UserDefinedConstraintParameter : Nat := 220
abbrev TableConstraint : Nat := 221
abbrev AtNotationList : Nat := 222
abbrev AtNotation : Nat := 223
abbrev ComponentIdList : Nat := 225
abbrev ObjectSet : Nat := 200
abbrev ObjectSetSpec : Nat := 201
abbrev ElementSetSpec_set : Nat := 387
abbrev Unions_set : Nat := 388
abbrev Intersections_set : Nat := 389
abbrev IntersectionElements_set : Nat := 390
abbrev Elements_set : Nat := 391
abbrev SubtypeElements_set : Nat := 392
abbrev SingleValue_set : Nat := 393
abbrev ContentsConstraint : Nat := 226
abbrev SubtypeConstraint : Nat := 335
abbrev ElementSetSpecs : Nat := 336
abbrev ElementSetSpec : Nat := 337
abbrev Unions : Nat := 338
abbrev UElems : Nat := 339
abbrev Intersections : Nat := 340
abbrev IElems : Nat := 341
abbrev IntersectionElements : Nat := 342
abbrev Elems : Nat := 343
abbrev Exclusions : Nat := 344
abbrev UnionMark : Nat := 345
abbrev IntersectionMark : Nat := 346
abbrev Elements : Nat := 347
abbrev SubtypeElements : Nat := 348
abbrev ValueRange : Nat := 352
abbrev LowerEndpoint : Nat := 353
abbrev UpperEndpoint : Nat := 354
abbrev LowerEndValue : Nat := 355
abbrev UpperEndValue : Nat := 356
abbrev SizeConstraint : Nat := 357
abbrev PermittedAlphabet : Nat := 359
abbrev InnerTypeConstraints : Nat := 360
abbrev SingleTypeConstraint : Nat := 361
abbrev MultipleTypeConstraints : Nat := 362
abbrev TypeConstraints : Nat := 363
abbrev NamedConstraint : Nat := 364
abbrev ComponentConstraint : Nat := 365
abbrev ValueConstraint : Nat := 366
abbrev PresenceConstraint : Nat := 367
end Sym

/-- What the nonterminals from 378 are in asn_compiler.yacc. -/
def refined : List Nat := [249, 267, 266, 263, 263, 331, 264, 264, 349, 337, 338, 340, 342, 347, 348, 349]

/-- The symbol of asn_compiler.yacc. -/
def baseSym (x : Nat) : Nat := if x < 378 then x else refined.getD (x - 378) 0

def productions0 : List (Nat × Nat × List Nat) := [
   (153, 1, [154, 0]), (154, 2, [155]), (154, 3, [155, 154]), (155, 4, [228, 51, 236, 237, 238, 121, 36, 239, 227, 56]),
   (228, 144, [375, 229]), (229, 147, []), (229, 145, [230]), (230, 148, [124, 232, 125]), (232, 150, [233]), (232, 151, [233, 232]),
   (233, 152, [310]), (233, 153, [234]), (233, 154, [235]), (234, 155, [4]), (235, 156, [373, 126, 234, 127]), (310, 368, [373]),
   (236, 158, []), (227, 143, []), (237, 159, [59, 106]), (237, 160, [70, 106])]

def productions1 : List (Nat × Nat × List Nat) := [
   (237, 161, [35, 106]), (237, 162, []), (238, 163, [61, 71]), (238, 164, []), (239, 165, [240, 242, 250]), (239, 166, []),
   (240, 167, [60, 241, 142]), (240, 168, [60, 31, 142]), (240, 169, []), (241, 170, [247]), (241, 171, []), (242, 172, [72, 243, 142]),
   (242, 173, []), (243, 174, [244]), (243, 175, []), (244, 176, [245]), (244, 177, [244, 245]), (245, 178, [247, 64, 246]),
   (246, 179, [375]), (246, 180, [375, 307])]

def productions2 : List (Nat × Nat × List Nat) := [
   (307, 361, [124, 308, 125]), (308, 363, [309]), (308, 364, [309, 308]), (309, 365, [310]), (309, 366, [311]), (309, 367, [312]),
   (311, 369, [4]), (312, 371, [373, 126, 311, 127]), (247, 181, [248]), (247, 182, [247, 137, 248]), (248, 183, [249]), (249, 184, [372]),
   (249, 185, [372, 124, 125]), (249, 186, [374]), (378, 184, [372]), (250, 187, [251]), (250, 188, [251, 250]), (251, 189, [260]),
   (251, 190, [261]), (251, 191, [160])]

def productions3 : List (Nat × Nat × List Nat) := [
   (251, 194, [203]), (260, 209, [372, 121, 263]), (261, 210, [374, 263, 121, 267]), (203, 95, [204]), (204, 99, [372, 208, 121, 263]),
   (208, 103, [124, 209, 125]), (209, 104, [210]), (209, 105, [209, 137, 210]), (210, 107, [378]), (160, 12, [372, 121, 161]),
   (161, 14, [162]), (162, 15, [43, 124, 163, 125, 180]), (163, 16, [164]), (163, 17, [163, 137, 164]), (164, 18, [167]), (164, 19, [171]),
   (167, 28, [168, 169]), (168, 29, [24]), (169, 31, [89]), (169, 33, [])]

def productions4 : List (Nat × Nat × List Nat) := [
   (171, 37, [25, 263, 170, 172]), (170, 35, [113]), (170, 34, [89]), (170, 36, []), (172, 40, []), (180, 55, []),
   (180, 54, [120, 104, 156]), (156, 5, [124, 181, 125]), (181, 56, [182]), (181, 57, [181, 182]), (182, 58, [184]), (184, 61, [185, 165]),
   (185, 62, [186]), (185, 63, [185, 186]), (186, 65, [377]), (377, 502, [149]), (377, 538, [69]), (377, 513, [40]), (377, 578, [120]),
   (267, 274, [266])]

def productions5 : List (Nat × Nat × List Nat) := [
   (266, 249, [273]), (266, 251, [34]), (266, 253, [7]), (266, 254, [9]), (266, 255, [11]), (266, 257, [253]), (266, 260, [277]),
   (266, 261, [6]), (266, 268, [124, 271, 125]), (271, 282, [379]), (271, 283, [271, 379]), (379, 274, [380]), (380, 260, [277]),
   (380, 257, [253]), (380, 258, [150, 126, 4, 127]), (273, 285, [110]), (273, 286, [63]), (277, 293, [4]), (277, 294, [5]),
   (253, 198, [374])]

def productions6 : List (Nat × Nat × List Nat) := [
   (372, 497, [149]), (373, 498, [150]), (374, 499, [150]), (375, 500, [149]), (263, 212, [384]), (263, 212, [264]), (263, 212, [385]),
   (263, 214, [252]), (263, 213, [331]), (263, 213, [383]), (381, 212, [264]), (381, 212, [385]), (381, 214, [252]), (381, 213, [331]),
   (381, 213, [383]), (382, 212, [384]), (382, 212, [264]), (382, 214, [252]), (382, 213, [331]), (331, 405, [382, 333])]

def productions7 : List (Nat × Nat × List Nat) := [
   (383, 406, [332]), (332, 407, [100, 333, 87, 263]), (332, 408, [100, 357, 87, 263]), (332, 409, [99, 333, 87, 263]),
   (332, 410, [99, 357, 87, 263]), (332, 411, [100, 333, 87, 265]), (332, 412, [100, 357, 87, 265]), (332, 413, [99, 333, 87, 265]),
   (332, 414, [99, 357, 87, 265]), (252, 195, [258]), (252, 196, [372]), (252, 197, [254]), (258, 207, [372, 138, 372]),
   (254, 200, [216, 124, 256, 125]), (216, 116, [372]), (256, 202, [257]), (257, 204, [381]), (264, 217, [32]), (264, 218, [283]),
   (264, 219, [272])]

def productions8 : List (Nat × Nat × List Nat) := [
   (264, 220, [328]), (264, 221, [295]), (264, 222, [324]), (264, 223, [326]), (264, 224, [327]), (264, 225, [320]), (264, 226, [278]),
   (264, 227, [321]), (264, 228, [65]), (264, 230, [274]), (384, 232, [287]), (264, 233, [202]), (264, 234, [85]), (264, 235, [306]),
   (264, 236, [286]), (264, 237, [282]), (264, 238, [319]), (264, 239, [313]), (264, 240, [288]), (264, 242, [293])]

def productions9 : List (Nat × Nat × List Nat) := [
   (385, 241, [292]), (385, 243, [294]), (385, 244, [300]), (264, 245, [322]), (264, 246, [325]), (264, 247, [116]),
   (202, 94, [372, 138, 166]), (166, 26, [165]), (165, 24, [24]), (165, 25, [25]), (324, 385, [48]), (326, 387, [49]), (327, 388, [52]),
   (320, 381, [53, 91]), (321, 382, [62]), (319, 380, [98]), (313, 372, [97]), (322, 383, [108]), (325, 386, [109]), (272, 284, [39])]

def productions10 : List (Nat × Nat × List Nat) := [
   (274, 287, [76]), (274, 288, [76, 124, 275, 125]), (275, 289, [276]), (275, 290, [275, 137, 276]), (276, 291, [373, 126, 277, 127]),
   (276, 292, [373, 126, 253, 127]), (278, 295, [57, 124, 279, 125]), (279, 296, [280]), (279, 297, [280, 137, 122, 370]),
   (279, 298, [280, 137, 122, 370, 137, 280]), (280, 300, [281]), (280, 301, [280, 137, 281]), (281, 302, [373]), (281, 303, [276]),
   (370, 493, []), (282, 304, [96]), (283, 305, [37, 103]), (283, 306, [37, 103, 124, 284, 125]), (284, 307, [285]),
   (284, 308, [284, 137, 285])]

def productions11 : List (Nat × Nat × List Nat) := [
   (285, 309, [373, 126, 4, 127]), (285, 310, [373, 126, 253, 127]), (286, 311, [86, 103]), (287, 312, [34]), (306, 360, [84, 69]),
   (328, 389, [329]), (328, 390, [330]), (330, 404, [41, 103]), (329, 391, [38]), (329, 392, [66]), (329, 393, [67]), (329, 394, [68]),
   (329, 395, [78]), (329, 396, [83]), (329, 397, [94]), (329, 398, [107]), (329, 399, [105]), (329, 400, [115]), (329, 401, [117]),
   (329, 402, [118])]

def productions12 : List (Nat × Nat × List Nat) := [
   (329, 403, [119]), (288, 313, [99, 124, 125]), (288, 314, [99, 124, 289, 125]), (293, 335, [100, 124, 125]),
   (293, 336, [100, 124, 289, 125]), (289, 315, [290]), (289, 316, [290, 137, 122, 370]), (289, 317, [290, 137, 122, 370, 137, 290]),
   (289, 318, [290, 137, 122, 370, 137, 290, 137, 122]), (289, 319, [290, 137, 122, 370, 137, 290, 137, 122, 137, 290]),
   (289, 320, [122, 370, 137, 290]), (289, 321, [122, 370, 137, 290, 137, 122]), (289, 322, [122, 370]), (289, 323, [122, 370, 137, 122]),
   (290, 324, [291]), (290, 325, [290, 137, 291]), (291, 329, [265]), (291, 330, [265, 89]), (291, 331, [265, 50, 349]),
   (291, 332, [45, 87, 263])]

def productions13 : List (Nat × Nat × List Nat) := [
   (349, 449, [273]), (349, 450, [34]), (349, 452, [7]), (349, 453, [9]), (349, 454, [11]), (349, 456, [253]), (349, 457, [277]),
   (349, 458, [6]), (386, 449, [273]), (386, 452, [7]), (386, 453, [9]), (386, 454, [11]), (386, 456, [253]), (386, 457, [277]),
   (386, 458, [6]), (265, 248, [373, 263]), (292, 333, [99, 87, 263]), (292, 334, [99, 87, 265]), (294, 337, [100, 87, 263]),
   (294, 338, [100, 87, 265])]

def productions14 : List (Nat × Nat × List Nat) := [
   (295, 339, [42, 124, 296, 125]), (296, 340, [297]), (297, 341, [298]), (297, 342, [298, 137, 122]),
   (297, 343, [298, 137, 122, 137, 298]), (298, 344, [265]), (298, 345, [298, 137, 265]), (300, 347, [301]), (301, 348, [302, 263]),
   (301, 349, [302, 70, 263]), (301, 350, [302, 59, 263]), (302, 351, [128, 303, 305, 304, 129]), (303, 353, []), (305, 356, [114]),
   (305, 357, [33]), (305, 358, [95]), (305, 359, []), (304, 354, [4]), (304, 355, [253]), (333, 415, [126, 334, 370, 127])]

def productions15 : List (Nat × Nat × List Nat) := [
   (334, 416, [335]), (334, 417, [218]), (218, 121, [226]), (218, 119, [219]), (218, 120, [221]), (219, 122, [46, 40, 124, 220, 125]),
   (220, 129, []), (221, 130, [200]), (221, 131, [200, 124, 222, 125]), (222, 132, [223]), (222, 133, [222, 137, 223]),
   (223, 134, [144, 225]), (225, 138, [373]), (225, 139, [225, 138, 373]), (200, 87, [124, 201, 125]), (201, 88, [387]), (387, 422, [388]),
   (388, 424, [389]), (389, 427, [390]), (390, 430, [391])]

def productions16 : List (Nat × Nat × List Nat) := [
   (391, 438, [392]), (392, 440, [393]), (393, 455, [149]), (226, 140, [47, 263]), (335, 418, [336]), (336, 419, [337]),
   (336, 420, [337, 137, 122]), (336, 421, [337, 137, 122, 137, 337]), (337, 422, [338]), (337, 423, [31, 344]), (338, 424, [340]),
   (338, 425, [339, 345, 340]), (339, 426, [338]), (340, 427, [342]), (340, 428, [341, 346, 342]), (341, 429, [340]), (342, 430, [347]),
   (342, 431, [343, 344]), (343, 432, [347]), (344, 433, [58, 347])]

def productions17 : List (Nat × Nat × List Nat) := [
   (345, 434, [145]), (345, 435, [112]), (346, 436, [146]), (346, 437, [77]), (347, 438, [348]), (347, 439, [126, 336, 127]),
   (348, 440, [386]), (348, 442, [352]), (348, 443, [359]), (348, 444, [357]), (348, 446, [360]), (352, 461, [353, 123, 354]),
   (353, 462, [355]), (354, 464, [356]), (354, 465, [130, 356]), (355, 466, [386]), (355, 467, [80]), (356, 468, [386]), (356, 469, [79]),
   (357, 470, [102, 333])]

def productions18 : List (Nat × Nat × List Nat) := [
   (359, 472, [64, 333]), (360, 473, [120, 44, 361]), (360, 474, [120, 45, 362]), (361, 475, [333]), (362, 477, [124, 122, 125]),
   (362, 478, [124, 122, 137, 363, 125]), (362, 479, [124, 363, 125]), (363, 480, [364]), (363, 481, [364, 137, 363]),
   (364, 482, [373, 365]), (365, 483, [366, 367]), (366, 484, [333]), (366, 485, []), (367, 486, [93]), (367, 487, [29]), (367, 488, [89]),
   (367, 489, [])]

def productions : List (List (Nat × Nat × List Nat)) := [productions0, productions1, productions2, productions3, productions4, productions5, productions6, productions7, productions8,
   productions9, productions10, productions11, productions12, productions13, productions14, productions15, productions16, productions17,
   productions18]

/-- The number of rules. -/
def prodCount : Nat := 377

/-- Rule `i`: left-hand side, rule number, right-hand side. -/
def prod (i : Nat) : Option (Nat × Nat × List Nat) :=
  if i < prodCount then (productions.getD (i / 20) [])[i % 20]? else none

/-- The rules of nonterminal `x`, from 153. -/
def rulesOf (x : Nat) : List Nat := (rulesTable.getD ((x - 153) / 20) []).getD ((x - 153) % 20) []
where
  rulesTable : List (List (List Nat)) := [
   [[0], [1, 2], [3], [87], [], [], [], [69], [70], [71], [72, 73], [74, 75], [188, 189], [187], [76], [77], [78, 79], [81, 82, 83], [80],
    [84]],
   [[], [], [], [], [], [], [], [85, 86], [88, 89], [90], [], [91], [92, 93], [94], [], [], [], [], [], []],
   [[], [], [], [], [], [], [], [314], [315], [186], [63], [64], [], [], [], [65], [66, 67], [68], [], []],
   [[], [], [], [154], [], [302, 303, 304], [305], [306], [307, 308], [309, 310], [311], [], [312, 313], [323], [17], [4], [5, 6], [7], [],
    [8, 9]],
   [[10, 11, 12], [13], [14], [16], [18, 19, 20, 21], [22, 23], [24, 25], [26, 27, 28], [29, 30], [31, 32], [33, 34], [35, 36], [37],
    [38, 39], [48, 49], [50], [51, 52, 53], [55, 56], [57, 58, 59, 60], [149, 150, 151]],
   [[119], [153], [], [155], [156], [152], [], [61], [62], [], [124, 125, 126, 127, 128, 129],
    [157, 158, 159, 160, 161, 162, 163, 164, 165, 166, 167, 168, 169, 171, 172, 173, 174, 175, 176, 177, 178, 179, 183, 184, 185], [275],
    [100, 101, 102, 103, 104, 105, 106, 107, 108], [99], [], [], [], [109, 110], [199]],
   [[115, 116], [200, 201], [202, 203], [204, 205], [117, 118], [206], [207, 208, 209], [210, 211], [212, 213], [215], [216, 217],
    [218, 219], [220, 221], [222], [223], [241, 242], [245, 246, 247, 248, 249, 250, 251, 252, 253], [254, 255], [256, 257, 258, 259],
    [276, 277]],
   [[243, 244], [278, 279], [280], [281], [282, 283, 284], [285, 286], [], [287], [288, 289, 290], [291], [292], [297, 298],
    [293, 294, 295, 296], [224], [40], [41, 42], [43, 44, 45], [15], [46], [47]],
   [[196], [], [], [], [], [], [195], [193], [194], [197], [], [190], [198], [191], [192], [225, 226],
    [228, 229, 230, 231, 232, 233, 234, 235, 236, 237, 238, 239, 240], [227], [139], [141, 142, 143, 144, 145, 146, 147, 148]],
   [[299], [300, 301], [324], [325, 326, 327], [328, 329], [330, 331], [332], [333, 334], [335], [336, 337], [338], [339], [340, 341],
    [342, 343], [344, 345], [346, 347, 348, 349, 350], [260, 261, 262, 263, 264, 265, 266, 267], [], [], [351]],
   [[352], [353, 354], [355, 356], [357, 358], [359], [], [360], [361, 362], [363], [364, 365, 366], [367, 368], [369], [370], [371, 372],
    [373, 374, 375, 376], [], [], [214], [], [120]],
   [[121], [122], [123], [], [95, 96, 97, 98], [54], [111], [112, 113, 114], [130, 131, 132, 133, 134], [135, 136, 137, 138], [140], [170],
    [180, 181, 182], [268, 269, 270, 271, 272, 273, 274], [316], [317], [318], [319], [320], [321]],
   [[322]]]

/-- Terminals that may start nonterminal `x`, as a bit mask. -/
def firstOf (x : Nat) : Nat :=
  if x < 153 then 1 <<< x else firstMasks.getD ((firstTable.getD ((x - 153) / 20) []).getD ((x - 153) % 20) 0) 0
where
  firstMasks : List Nat := [
   0x0, 0x10, 0x30, 0x1000000, 0x2000000, 0x3000000, 0x400000000, 0x2000000000, 0x8000000000, 0x20000000000, 0x40000000000, 0x80000000000,
   0x400000000000, 0x800000000000, 0x1000000000000, 0x2000000000000, 0x10000000000000, 0x20000000000000, 0x200000000000000,
   0x400000000000000, 0x1000000000000000, 0x2000000000000000, 0x4000000000000000, 0x10000000000000000, 0x400800000800000000,
   0x1000000000000000000, 0x10000000000000000000, 0x1000000000000000000000, 0x4000000000000000000000, 0x20000000000000000000000,
   0x220000000000000020000000, 0x1000000000000000000000000, 0x2000000000000000000000000, 0x4000000000000000000000000,
   0x8000000000000000000000000, 0x10000000000000000000000000, 0x18000000000000000000000000, 0x40000000000000000000000000,
   0x1000000000000000000000000000, 0x2000000000000000000000000000, 0x4000000000008000000000000000, 0x20000020000000000000000000000,
   0x40000800000000000000200000000, 0xe80a004008401c0000004000000000, 0xe80a004008401c0000024000000000, 0x1000000000000000000000000000000,
   0x10000000000000000000000000000000, 0x10000000000000000000c00000000000, 0x40000000000000000000000000000000,
   0x40000000220000000000000020000000, 0x100000000000000000000000000000000, 0x100000018000000000000000000000000,
   0x1000000000000000000000000000000000000, 0x2000000010000000000000000000000000000, 0x4000000000000000020000000000000000000,
   0x20000000000000000000000000000000000000, 0x20000000f83a1f4078501e423306e100000000, 0x20000000f83a1f4078501e423306e500000000,
   0x20000001000000000000200000010000000000, 0x20000100f83a1f4078501e423306e500000000, 0x40000000000000000000000000000000000000,
   0x40000000000000000000000000000000000010, 0x40000000000000000000000000000000000030, 0x40000000000000000000000000200000000000,
   0x40000000004000000000008000000000000af0, 0x40000000004000000000008000000400000af0, 0x40000000004000000080008000000000000af0,
   0x40000000004000000100008000000000000af0, 0x40000001004040000100018000000000000af0, 0x40000004000000000000000000200000000000,
   0x40000010004000000000008000000400000af0, 0x40000041004040000100018000000000000af0, 0x40000041004040000100018000000080000af0,
   0x40000051004040000100018000c00080000af0, 0x40000400004000000080008000000000000af0, 0x60000000000000000000000000000000000000,
   0x60000000000000000001001000000000000000]
  firstTable : List (List Nat) := [
   [0, 55, 55, 46, 0, 0, 0, 55, 11, 11, 5, 5, 5, 5, 3, 3, 29, 41, 4, 0],
   [0, 0, 0, 0, 0, 0, 0, 45, 58, 58, 0, 58, 58, 58, 0, 0, 0, 0, 0, 0],
   [0, 0, 0, 0, 0, 0, 0, 46, 55, 55, 55, 55, 0, 0, 0, 46, 55, 55, 0, 0],
   [0, 0, 0, 55, 0, 47, 12, 0, 46, 52, 52, 0, 60, 13, 0, 55, 46, 46, 0, 61],
   [61, 1, 60, 0, 24, 21, 76, 20, 75, 25, 75, 75, 75, 55, 75, 75, 75, 75, 75, 55],
   [60, 55, 0, 59, 59, 55, 0, 55, 60, 0, 59, 56, 60, 70, 70, 0, 0, 0, 62, 8],
   [40, 26, 60, 60, 2, 18, 60, 60, 60, 31, 7, 60, 60, 28, 6, 34, 69, 63, 63, 34],
   [35, 35, 10, 60, 60, 60, 0, 50, 50, 50, 0, 61, 42, 27, 46, 61, 61, 60, 1, 60],
   [32, 0, 0, 0, 0, 0, 33, 17, 22, 38, 0, 14, 39, 15, 16, 44, 43, 9, 57, 36],
   [48, 73, 72, 72, 72, 71, 71, 71, 71, 71, 71, 19, 53, 54, 71, 68, 65, 0, 0, 67],
   [67, 74, 67, 66, 37, 0, 23, 45, 48, 46, 60, 60, 49, 48, 30, 0, 0, 0, 0, 55],
   [60, 60, 55, 0, 58, 55, 62, 62, 59, 57, 36, 6, 51, 64, 55, 55, 55, 55, 55, 55],
   [55]]

/-- Nonterminals that may be empty. -/
def nullable (x : Nat) : Bool := [169, 170, 172, 180, 220, 227, 229, 236, 237, 238, 239, 240, 241, 242, 243, 303, 305, 365, 366, 367, 370].contains x

end FastBer.Parser
