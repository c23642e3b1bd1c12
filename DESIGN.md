# fast_ber: formal model and proofs — design

## 1. Trusted base

* Lean 4.33.0's kernel; no axiom is added. Theorems may depend on `propext`,
  `Classical.choice` and `Quot.sound` only (checked by `#print axioms` through vcheck).
* No `native_decide`/`bv_decide`; finite facts about one octet are proved by kernel `decide`
  over the whole 256-element type (complete domain, not a sample).
* The correspondence between `/repo` C++ and the Lean model is by reading: every model
  definition carries the file and lines it models.  This is trusted, and is tested by the
  seeded-mutation log (`seeded/LOG.jsonl`).
* Model/ParserTables, ParserActions (and the proof data of Proofs/Parser*Check*) are written by
  `tools/parser_gen.py` from the text of `/repo`.  That the tables and actions in Lean are those of
  the C++ file is trusted as any other translation; everything proved about them is checked by the
  kernel and does not depend on the generator.
* Assumed about C++: size_t/int64_t are 64 bit, two's complement (memcpy of int64_t is little
  endian in `Integer.hpp`, as the code itself assumes), `absl::Span`, `InlinedVector`,
  `std::array`, `memcpy/memmove/reverse/copy` behave as documented; no allocation failure.

## 2. Style of the model

* A byte is `UInt8`; a span/vector is a `List UInt8`.
* `Exec α` is the result of running code: `ok a`, `ub` (undefined behaviour or access outside
  the span the code was given) or `loop` (never terminates).  "No UB"/"terminates" theorems are
  about this type; nothing in the model silently repairs an out-of-range access.
* `size_t` sums of attacker-controlled numbers are reduced mod 2^64 (decode side).  Encode-side
  sums (sizes of objects held in memory) are `Nat`: an object cannot be larger than the address space.
  Signed overflow (`Tag`) is `ub`.
* A function writing to a span takes the old buffer and returns the result and the new buffer, so
  "writes only inside", "does not touch the tail" are provable statements.
* Template parameters (identifiers) are ordinary arguments.
* Generated code (EncodeDecode.cpp) is modelled as the function the emitted C++ text denotes,
  parametrised by the schema (an inductive type of schemas, unbounded nesting).

### Validation against the repository (outside the proofs)

The model is executable.  Evaluated with `#eval` on scratch files (not part of the deliverable, and
no theorem rests on it) the modelled compiler reads and compiles the .asn files of /repo/testfiles
that /repo/test/CMakeLists.txt passes to it (circular.asn only with the forward declarations of
Model/Forward).  The encodings the modelled
generated code gives for the default objects of tags.asn, prefixed_types.asn and choice.asn are the
byte sequences /repo/test/generated expects, and the literals of RealTest.cpp are encoded and decoded
as that test says.  For the texts of pokemon.asn, circular.asn, tags.asn, set.asn, choice.asn and prefixed_types.asn this is
not only evaluated but proved: Props/SampleFile, CircularFile, TagsFile, SetFile, ChoiceFile and PrefixedFile derive the modules from the
literal text by the grammar and instantiate the text-level theorems with them (`C96_tags_file`: what
is written for every value, octet by octet; `C96_set_file_partial`: what sets are decoded from;
`C96_choice_file`: the octets and the round trip of each alternative;
`C96_prefixed_types_file`: the example of X.690 8.14, for every string).

## 3. Properties

Properties that hold are theorems with the full statement.  Properties the code violates are kept
in `properties.jsonl` in the form a user expects; for these a theorem `..._violated` gives a
concrete witness (negation) and a theorem `..._partial` proves the property under the exact
extra hypothesis.

| id | modelled | proof |
|---|---|---|
| C01-C05 | Extract.hpp, EncodeIdentifiers.hpp, Class/Construction.hpp | base-128 / base-256 induction |
| C06-C10 | BerView.hpp with mod 2^64 lengths and int64 tag overflow | case analysis, strong induction on content |
| C11 | EncodeHelpers.hpp incl. memmove | list algebra |
| C12-C19 | Integer/Boolean/Null/Enumerated + SmallFixedIdBerContainer | two's complement arithmetic; state machine invariant over op lists |
| C20-C23 | ObjectIdentifier.hpp | base-128 induction, loops as recursive functions |
| C24-C26 | StringImpl + FixedIdBerContainer | state machine invariant |
| C27-C29 | Real.hpp, binary form (for the decimal form see C86) | bit-field arithmetic on the 64-bit pattern |
| C30 | GeneralizedTime.hpp | bounds |
| C31-C48 | schema-indexed codec: SequenceOf, Optional, Default, generated SEQUENCE/SET/CHOICE | induction over schemas: every combinator preserves a `Lawful` predicate |
| C49-C51 | DynamicVariant/DynamicOptional over an explicit heap | heap invariant over op lists |
| C52, C59, C60, C74 | CompilerTypes.cpp (`santize_name`, reserved words), ValueAsString.cpp, CppGeneration | C++ literal lexer as specification; induction on the text; brace depth over command trees |
| C53, C54 | Dependencies.cpp, `resolve_dependencies`, `reorder_assignments` | invariants of the depth-first walk over an arbitrary reference graph |
| C55, C56 | `reorder_modules`, `check_duplicated_names` | same, over the import graph |
| C57, C58 | Identifier.cpp, the two `check_valid` | relational X.680 tagging specification, soundness and completeness by induction on the derivation / fuel |
| C61, C62, C75 | Parameters.cpp, `resolve_components_of`, `split_nested_structures` | specification as a relation between trees before and after; structural induction |
| C63 | ResolveType.cpp | least fixed point specification; fuel monotonicity; "loops" = no result for any fuel |
| C76-C78 | TypeAsString.cpp, GenerateChoice.cpp, EncodeDecode.cpp: declarations emitted (Model/Emit), their C++ meaning by scoped name lookup (Model/Cpp) as a `Ty` | X.690 encodings as a relation on ASN.1 syntax (Spec/Encoding); the generated `Ty` implements the ASN.1 type by induction over the type and the declarations emitted so far; then C31-C48 and C65. Circular schemas (Model/Forward): the output is a program of named types; each of its finite unfoldings implements the ASN.1 type up to the depth of the unfolding (Proofs/Forward*), and C90/C91 carry that to the functions themselves |
| C79 | same | Spec/Compilable states in terms of the names made up for C++ types that no scope gets a name twice and references point back; progress: first the emission settles for large fuel (Proofs/Settle, SettleEmit), then every declaration is accepted by the C++ model given the invariant of C76 (Proofs/RunEmit, RunType, RunModules); for circular schemas the same with forward declarations (`RCompilable`: only lists, enumerations and base classes must be declared before; Proofs/ForwardRun*), and default construction terminates if every assigned type has a value to begin with (Spec/Startable, Proofs/ForwardStart); violations as evaluations with symbolic fuel and library |
| C80 | ObjectClass.cpp (Model/ObjectClass) | relational specification of `C.&f` and an inductive "names a class"; the set computed by the loop is its least fixed point (growth + steadiness of the last round); termination by counting names |
| C81 | whole front end (Model/Pipeline, ObjectClass) | simulation between types of `qualify src` and of the output (Proofs/Sim): each pass yields corresponding references, encodings transport along the simulation; sources without parameters, COMPONENTS OF and information objects |
| C82 | whole compiler, from the parsed source (`compile`) | C76-C78 for the output of C81; the conditions on the output are derived from conditions on the source (Spec/SupportedSource, transported along the simulation in Proofs/{SimSupported,StoredSupported,SplitSupported}) |
| C83 | `Real::operator==` (Model/RealEq) | doubles as integer multiples of 2^-1074, IEEE rounding to 53 bits as a function on naturals; exact characterisation by divisibility (the subtraction of nearby doubles is exact) |
| C84 | BerContainer.hpp (Model/Packet) | invariant over an inductive set of histories: the view is the parse of the vector; exact results of assignment and resizing against `Spec.element` |
| C85 | Choice.hpp's own encode/decode templates and Any.hpp (Model/LibChoice) | the first alternative with the identifier decides (induction over the alternatives), then the laws of C31-C33, C44, C65 for that alternative |
| C86 | Real.cpp `decode_real_decimal`: the three regular expressions and the syntax of `absl::SimpleAtod`; the rounding of a decimal number to a double inside abseil is a parameter (Model/RealDecimal) | derivative matcher = language of the expression = ISO 6093 text (grammar in Spec/RealDecimal); then the conversion on each form |
| C87, C88 | asn_compiler.yacc `yylex`: the 128 re2c rules as regular expressions, the longest-match automaton that reads until no rule can go on, the tokens (Model/Regex, Model/Lexer) | derivatives; liveness of derivatives decides when the automaton stops; per item: the rule matches, no earlier rule does, no rule matches longer given the next one or two characters; induction over the text (Spec/Lexer) |
| C89 | src/util/BerView.cpp `operator<<`, src/view/view.cpp, the output operators of the types it uses (Model/Viewer); `std::isprint` of octets from 128 on and `absl::ParseTime` are parameters | mutual induction over the element tree against a JSON grammar (Spec/Json, Spec/Viewer); a JSON parser proved complete for the grammar gives uniqueness and the negative results; safety by induction over the length |
| C90, C91 | generated functions of recursive types (Model/Recursive): approximations by call depth, a call returns `a` if all large enough depths give `a` | values are those of the finite unfoldings (Spec/Recursive); encode/compare only look as deep as the object, decode as the input (`SameEnc`, `SameDec`); with that C31-C33, C44, C65 carry over from the unfoldings; that the compiler emits such types: Model/Forward, C90_generated_partial, C91_generated_partial |
| C92-C94, C96 | `asn1_parser::parse` with the tables of autogen_copy/asn_compiler.hpp and all semantic actions (Model/Parser*, generated by tools/parser_gen.py), `main` from the bytes of the files (Model/CompileText) | the meaning of notation is a set of inductive relations (Spec/Notation). Completeness: for every nonterminal a set of LALR states and look-aheads where it can be read, checked by the kernel state by state (Proofs/ParserCheck, ParserComplete), gives "what the grammar derives is parsed" for the conflict-free part of the grammar the notation uses (tools/parser_notation.txt). Soundness and termination: a valid-item abstraction and a rank of the reductions per state, checked by the kernel (ParserSafeCheck1-4). C96 adds that the order of assignments has no meaning (Proofs/Backwards) and C82 |
| C95 | the enum declaration (Model/Enum) and C++11 7.2 | X.680 20.3-20.6 as `Numbers` (Spec/Enum), shown to have one solution |
| C97 | the text written for values and DEFAULTs as a small expression language with the C++ reading of it (Model/Constants) | X.680 meaning of the notation (`Denotes`, Spec/Constants), with chains of references of types, of values and of imports; induction over modules and assignments with an invariant on the namespaces; false in general: `C97_violated_*` |
| C98 | the front end already modelled (`frontEnd`) | progress: conditions on the source alone (`Accepted`, `CompilableSource`), no pass ends with an error and the output is valid C++ (C79 applied to the output of the front end), also from the text of the files; well-founded order of assignments and of modules; recursive types too (`RCompilableSource`, C79 with forward declarations): what the last pass changes is on a cycle (C53), which only definitions that lead to a cycle of the source can be, and in those no list or enumeration is referred to where a forward declaration would be needed (Proofs/{StoredNames,HiddenRefs,ForwardOrder,StartableSim}); false in general: `C98_violated_*`. testfiles/circular.asn meets the conditions from its text on (Props/CircularFile) |
| C99 | `create_ostream_operators`, `create_helper_functions_impl`, `create_choice_helpers`, `operator<<` of SequenceOf, Optional, Default, Enumerated, Choice and the simple types (Model/Show); `os << double`, `std::isprint` of octets from 128 on and `absl::ParseTime` are parameters | mutual induction over the type against the JSON grammar of C89 and a description of values (Spec/Show), also read off the ASN.1 type (`Tells`) for compiled schemas and from the octets received; safety; equal objects have equal texts and, for types without CHOICE, conversely; `C99_violated_*` |
| C100 | Two syntax trees and `Later`, the relation between them (Spec/Evolve: the largest relation whose types have the same tags and structure, with components added at the end of types with an extension marker and alternatives added at the end, so that recursive types are included); the generated decoders of C78 and C96. Not: additions in front of a second root part | The decoder's view of an element it has no component for is a complete element (`good_any`), so SEQUENCE stops in front of it and SET skips it; induction on the C++ type along `Later` and `Part` (Proofs/Evolve) gives the unique reading; recursive types by unrolling to the size of the message as in C96 (Proofs/EvolveRecursive); the passes and the parser preserve `Later` and `Part` (Proofs/SimEvolve), so the theorems hold of the files and of two programs (Props/EvolveText); the other direction turns an encoding of the old version into one of the new version with absent additions and uses C78 |
| C101 | The two sample programs (Model/Sample) as functions of the team and of the file, over the type the compiler makes of the literal text of testfiles/pokemon.asn. Not: opening files and printing | The layout checker (Props/Layout) proves that the literal text is `Written`; the compiler is evaluated by the kernel (Props/SampleFile), the types are then concrete and C32, C34 and C65 give the round trip for all teams and the decision for all files |
| C64-C73 | see the property list | refinement against relational specifications |

Details of what is and is not modelled are in section 4, which grows with the model.

## 4. Model inventory

Paths relative to `/repo`; `inc` = `include/fast_ber`, `src` = `src/compiler`.

| Lean module | code | left out |
|---|---|---|
| Model/Header | inc/ber_types/{Class,Construction,Identifier}.hpp, inc/util/{Extract,EncodeIdentifiers}.hpp | printing |
| Model/View | inc/util/{BerView,EncodeHelpers,DecodeHelpers}.hpp | printing |
| Model/Prims | inc/util/SmallFixedIdBerContainer.hpp, inc/ber_types/{Integer,Boolean,Null,Enumerated}.hpp | big-endian hosts |
| Model/Container | inc/util/FixedIdBerContainer.hpp, inc/ber_types/StringImpl.hpp | arguments aliasing the container, allocation failure |
| Model/Packet | inc/util/BerContainer.hpp | arguments aliasing the container; `operator=(BerView)`, which is declared and never defined (a use does not link) |
| Model/Oid | inc/ber_types/ObjectIdentifier.hpp | — |
| Model/Real | inc/ber_types/Real.hpp | |
| Model/Regex | `std::regex_match`, re2c expressions | derivatives |
| Model/Lexer | src/compiler/asn_compiler.yacc:1817-1977 | the re2c semantics (longest match, first rule) is modelled, not the generated C++; compared with the generated code in src/compiler/autogen_copy/asn_compiler.hpp by an emulator on 84 000 random texts without a difference (tools/lexer_check, a test, not part of the proofs). Locations and `std::stod` left out |
| Model/ParserTables, ParserActions | autogen_copy/asn_compiler.hpp (all tables), src/asn_compiler.yacc (all actions), written by tools/parser_gen.py | messages to `std::cerr`; constraints and named numbers, which no pass uses |
| Model/ParserValues, Parser | the skeleton `asn1_parser::parse` of bison (default reductions, no error recovery: the grammar has no `error` token), `Context` | locations; the file is lexed before it is parsed (the lexer has no feedback from the parser); `std::stod` is a parameter; negative tag numbers become 0 (unreachable: the lexer makes no negative number there) |
| Model/CompileText | src/compiler_main/CompilerMain.cpp:209-283 | opening the files |
| Model/Enum | src/TypeAsString.cpp:396-411 | indentation |
| Model/Sample | sample/encode/main.cpp, sample/decode/main.cpp | file streams and console output; what is printed is the value returned |
| Model/Constants | src/ValueType.cpp, ValueAsString.cpp, compiler_main/CompilerMain.cpp:41-60, 79-100, TypeAsString.cpp:29-43 | decimal printing of doubles is a parameter; assertions; the tag written as a template argument |
| Model/RealDecimal | src/ber_types/Real.cpp, `absl::SimpleAtod` | `std::regex_match` by its language; which double abseil rounds a decimal number to is a parameter |
| Model/RealEq | inc/ber_types/Real.hpp:596-623 | rounding modes other than to nearest, extended precision (x87) |
| Model/Time | inc/ber_types/GeneralizedTime.hpp | calendar arithmetic (`absl::FormatTime`, `ParseTime`): parameters |
| Model/Viewer | src/util/BerView.cpp, src/view/view.cpp, `operator<<` of Class, UniversalTag, RuntimeId, Boolean, Integer, Null, ObjectIdentifier, StringImpl, GeneralizedTime | reading the file, stream errors and formatting flags, depth of the call stack |
| Model/Show | `operator<<` of generated types and of SequenceOf, Optional, Default, Choice, Enumerated, Real (GenerateHelpers.cpp:6-35, 98-146; GenerateChoice.cpp:265-271; ber_types) | that the operators are found where they are used; `os << double`; recursive types; the names of enumerators are not in the syntax trees, so a printed type carries them itself |
| Model/Schema, Api | src/EncodeDecode.cpp, GenerateHelpers.cpp as the functions the emitted text denotes; inc/ber_types/{SequenceOf,Optional,Default,Choice}.hpp | types are finite trees (recursive ASN.1 types: Model/Recursive) |
| Model/Recursive | the same generated functions for schemas with circular references (named types, ReorderAssignments.cpp:158-296 chooses their storage, DynamicVariant/DynamicOptional hold them) | the size of the call stack (calls nested at most `k` deep, for every `k`); — (that the compiler emits these declarations: Model/Forward) |
| Model/Forward, CompileForward | the emitted declarations with the forward declarations of all types before them (CompilerMain.cpp:32-35, 113-149, 181-205) | where C++ requires complete types is only checked for base classes of aliases; a type with a DEFAULT must not refer forward |
| Model/LibChoice | inc/ber_types/Choice.hpp:19-32, 524-686 and Any.hpp | constructors and assignment of the variant (C79), ANY inside generated types |
| Model/Members | inc/util/DecodeHelpers.hpp:27-33, Optional.hpp, Default.hpp iterator overloads | — |
| Model/Variant | inc/util/{DynamicVariant,DynamicOptional}.hpp over an explicit heap | allocation failure |
| Model/Ast | src/include/fast_ber/compiler/CompilerTypes.hpp | constraints, information objects' contents |
| Model/Modules, Depend | src/ReorderAssignments.cpp, Dependencies.cpp | — |
| Model/Resolve | src/ResolveType.cpp | — |
| Model/Identifier | src/Identifier.cpp, `check_valid` of TypeAsString.cpp | — |
| Model/Params | src/Parameters.cpp, two actions of asn_compiler.yacc | object class parameters |
| Model/ComponentsOf | src/ReorderAssignments.cpp:42-130 | — |
| Model/ObjectClass | src/ObjectClass.cpp | defined objects, value fields |
| Model/Pipeline | src/compiler_main/CompilerMain.cpp:264-283 | — |
| Model/Split | src/ReorderAssignments.cpp:356-473, 535-558 | — |
| Model/Cpp | what the emitted declarations mean to a C++ compiler; `TaggingInfo::name`, `Identifier::name` (CompilerTypes.hpp:612-667) | forward declarations, hence recursive types (Model/Forward has them); capture of library names; `DefaultValue` structs and comparisons of REALs/times are parameters (`Lib`) |
| Model/Emit | src/TypeAsString.cpp, GenerateChoice.cpp:8-47, EncodeDecode.cpp:14-24, 180-520 (identifiers), Visit.hpp, src/compiler_main/CompilerMain.cpp:38-205 | value assignments, helper functions |
| Model/Names | src/CompilerTypes.cpp:22-184, ValueAsString.cpp | — |
| Model/CodeBlock | src/CppGeneration.{hpp,cpp} | — |

Specifications: Spec/Encoding (X.690 encodings and values of ASN.1 types), Spec/Source (meaning of references in a parsed source, restrictions on sources), Spec/Supported,
Spec/SupportedSource, Spec/Accepted, Spec/CompilableSource, Spec/Legal, Spec/Evolve (versions of schemas), Spec/Compilable (restrictions on schemas), Spec/Check, Spec/CheckCompile
(computable sufficient conditions for them, proved right in Proofs/Check and Proofs/CheckCompile; used to show that concrete schemas meet the hypotheses), Spec/Fresh
(objects whose strings were assigned; contents octets the library has room for), and one per earlier area.

Not modelled at all: the CMake glue, logging, the benchmark programs.

The C++ compiler itself is part of the trusted base: the model says what the emitted program text
denotes, taking name lookup and overload resolution as read.

## 5. Findings

Places where the code does not do what a user relies on.  Each is a theorem (named) about the model.

Library
* Parsing: int64 overflow of long-form tags (C06_violated); header+content wraps size_t (C07_violated, C09_violated).
* INTEGER accepts empty content (C15_violated); ENUMERATED truncates to the underlying type (C19_truncation_violates).
* OBJECT IDENTIFIER: negative components (C21_violated), accessors (C22), first subidentifier ≥ 120 (C64_violated).
* Strings: shrinking resize across a header size change reads past the vector; stale bytes on growth (C25_*).
* Lexer (C87_violated_*): `"it's"` is the string `"it'` and more (a character class `['\"']` was meant to be a quotation mark); nested comments, VT and FF as line ends, PLUS-INFINITY, OID-IRI, ENCODING-CONTROL, white space in bstrings and hstrings, exponents; numbers of 2^63 or more throw; unknown characters are ignored.
* fast_ber_view (C89_violated_*): every ENUMERATED is printed as 0; a REAL is printed as nothing, times without quotation marks, quotation marks and backslashes without escapes, so the output is not JSON or says something else; INTEGERs of more than 8 octets are printed as 0, BOOLEANs of a wrong length as false; octets that are no element are dropped silently with exit code 0; empty and short times are read out of bounds.
* Printing generated types (C99_violated_*): the text of a CHOICE does not say which alternative it holds; an OPTIONAL NULL that is there looks like one that is not; quotation marks are not escaped; an ENUMERATED with an unknown number is `Invalid state!`; times are not quoted, and a time the decoder accepted but `absl::ParseTime` does not makes `operator<<` throw.
* Versions (C100_violated_*): an addition that is not OPTIONAL makes the new program refuse every message of the old one (testfiles/extension.asn has such); a SEQUENCE refuses additions between two parts of its root; an alternative added to an extensible CHOICE makes the old program refuse the whole message; EXTENSIBILITY IMPLIED is ignored, so that SETs refuse additions.
* Recursive types: the input decides how deep decoding recurses, about 10 octets per level, so an input of a few hundred kilobytes overflows the call stack (C91_violated_depth); a CHOICE whose first alternative leads back to itself has a default constructor that never returns (C90_violated_default).
* Parser (C92_violated_*): a tag number given by a reference becomes 0, one of 2^32 or more loses its upper bits; additional alternatives of a CHOICE come before the root, a second root of a SEQUENCE behind the additions (wrong AUTOMATIC TAGS); `TRUE` as an assigned value is an empty list; of several actual parameters one is left and it is ANY, a NULL parameter too; `M.T{X}` loses its name; `a < T` is ANY; EXTENSIBILITY IMPLIED does nothing; OID-IRI is a reference; `[[ ]]`, a second `...` of CHOICE, object sets and defaults in braces are syntax errors.
* Enumerations (C95_violated_*): an item without a number gets the number before it plus one, not the smallest free one: `{a(5), b}`, `{a, z(25), ..., d}`; in `{a, b(0)}` both are 0; a number given by a reference is 0.
* T61String is written as `fast_ber::T161String` (CompilerTypes.hpp:217), which does not exist; the library's T61String.hpp has the tag of VisibleString and is not included by All.hpp.
* Constants (C97_violated_*): TRUE and FALSE are refused; constants of BIT STRING are empty; names of arcs (`iso`) are 0; a reference to an OBJECT IDENTIFIER value is written as nothing; a value of a reference to a reference to OBJECT IDENTIFIER is refused; a value or an inline DEFAULT of an ENUMERATED names an enumeration that does not exist; a value of a SET OF type follows a null pointer; an imported string constant cannot initialise another.
* Accepting legal schemas (C98_violated_*): a DEFAULT cannot name an imported value; a value assignment cannot name an item of an ENUMERATED; a type that is recursive through a SEQUENCE OF written in place is refused; `Module.Type` is refused as the type of a component; for a recursive type with an OPTIONAL component (or alternative) that is a list or enumeration assigned later, invalid C++ is written (`KidsContained`, `OpValues` undeclared): `C98_violated_later_list`, `C98_violated_later_enum`.
* Lexer (C88_violated_*): a file whose last line is a comment without a line end, or that ends in an unfinished comment or string, is read behind its end; `"...\"` hides the closing mark.
* Decimal REALs (C86_violated_*): the form octet is not compared with the number (`01 "1.5"`, `00 "7"` are accepted); a lone form octet reads outside the contents (`&input[1]`).
* REAL: two-octet exponents misread (C28_violated), non-termination on `80 00 00 01` (C29_violated), 3-octet reals rejected.
* GeneralizedTime: `format()` reads past short content (C70_violated).
* SEQUENCE OF, extensible SET: infinite loops (C45_violated); CHOICE ignores the tag class (C43_violated);
  empty SET accepts any content (C42_violated_empty); untagged CHOICE on an invalid view is UB (C44_violated_*).
* DEFAULT: an explicitly encoded default is kept (C39_violated_after_decode); the iterator overload does not advance (C72_default_violated).
* DynamicVariant: four ways to lose storage safety (C49_*_violated), `<` is `==` (C50_lt_violated), assignment from an lvalue moves (C71_violated).

Compiler
* Actual parameter lists are reversed (C61_violated).
* COMPONENTS OF: expansions lost, silently dropped, undefined behaviour, wrong module scope (C62_*_violated).
* Tagging: middle explicit tags lost, extra `[UNIVERSAL 0]` around tagged CHOICE, AUTOMATIC TAGS (C57_violated_*).
* Ambiguous SEQUENCE accepted (C58_*_violated).
* References: cross-module cycles diverge, tagged references looked up in the wrong module (C63_*_violated).
* Ordering: nested SET defaults, enum defaults, foreign names (C53_violated, C54_*_violated).
* Duplicate module names / import cycles (C55_violated); made-up names clash with user names (C75_clash_violated).
* Names and literals: `xor-eq` (missing comma in the table), `_` collisions (C52_*), hex escapes (C59_*), quotes and backslashes (C74_*).
* Translation to C++ (C76_violated_*, C79_violated_*): tags in front of a SEQUENCE/SET/CHOICE are lost unless they are on a component or alternative (so
  `A ::= [APPLICATION 1] SEQUENCE {…}`, which `split_nested_structures` turns into a tagged reference, is encoded as a plain SEQUENCE); with AUTOMATIC TAGS optional components are
  never recognised and components that are references to structures get no tag; the type made up for a component captures references of other components; output that does
  not compile for references to tagged, imported or aliased SEQUENCE OF types, nested structures named like their parent, two components of an imported ENUMERATED.
* End to end (C82_violated_*): the lost tag above starting from the source; imported SEQUENCE OF types do not compile; imported parameterized types are rejected.
* REAL `==` (C83_violated_*): ±infinity is equal to every finite number (`inf <= epsilon * inf`); all numbers below 2^-53 are equal, whatever their signs; not transitive.
* BerContainer (C84_violated_*): shrinking across a header size reads behind the vector; resizing a packet with a long-form small tag destroys it; assigning an invalid container gives a "valid" one; a moved-from container still shows the other's memory; construction from content parses the content as a packet (overflow); `operator=(BerView)` has no definition.
* ANY (C85_violated_*): only eleven universal types are accepted (no SEQUENCE, UTF8String, ENUMERATED, IA5String, constructed strings or tagged elements); a GeneralizedTime or UTCTime comes back as a Date or Time, unequal to the original.  A tag on ANY is ignored: the compiler passes it as the unused template parameter `T`.
* Object classes (C80_violated_*): `C.&f` of an imported class is rejected; a field whose type is again a field is left in; references into other modules are looked up in the own one, so that types are lost or names of classes kept.
