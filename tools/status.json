{
 "C01": {
  "status": "proved",
  "note": "all classes, constructions, int64 tags, buffers, suffixes"
 },
 "C02": {
  "status": "proved",
  "note": "size, exact octets, minimality, frame"
 },
 "C03": {
  "status": "proved",
  "note": "all uint64 lengths and buffers"
 },
 "C04": {
  "status": "proved",
  "note": "extract_length = X.690 reader on arbitrary bytes"
 },
 "C05": {
  "status": "proved",
  "note": "header round trip"
 },
 "C06": {
  "status": "partial",
  "note": "false of the code (C06_violated: int64 tag overflow); the exact set of inputs with undefined behaviour is proved"
 },
 "C07": {
  "status": "partial",
  "note": "false of the code (C07_violated: header+content wraps size_t); proved whenever the sum does not wrap"
 },
 "C08": {
  "status": "proved",
  "note": "append, truncation and locality"
 },
 "C09": {
  "status": "partial",
  "note": "false of the code (C09_violated: zero-length child by wrap); proved for all tame content"
 },
 "C10": {
  "status": "proved",
  "note": ""
 },
 "C11": {
  "status": "proved",
  "note": "single and double identifiers"
 },
 "C12": {
  "status": "proved",
  "note": "all int64"
 },
 "C13": {
  "status": "proved",
  "note": ""
 },
 "C14": {
  "status": "proved",
  "note": ""
 },
 "C15": {
  "status": "partial",
  "note": "false of the code (C15_violated: empty content is accepted); the exact acceptance condition (0..8 octets) and unchanged-on-failure are proved for every input"
 },
 "C16": {
  "status": "proved",
  "note": "all operation sequences, arbitrary decode inputs"
 },
 "C17": {
  "status": "proved",
  "note": ""
 },
 "C18": {
  "status": "proved",
  "note": ""
 },
 "C19": {
  "status": "partial",
  "note": "false of the code (C19_truncation_violates: generated enums have int underlying type); proved for all values representable in the underlying type"
 },
 "C24": {
  "status": "proved",
  "note": "from any prior state, all identifiers; moved-from and self-aliasing excluded"
 },
 "C25": {
  "status": "partial",
  "note": "false of the code (C25_violated: shrinking across a header size change reads past the vector; C25_violated_growth: stale bytes); exact result proved in all other cases"
 },
 "C26": {
  "status": "partial",
  "note": "false of the code for wrapping lengths (C26_violated) and moved-from objects; proved for all histories with sane decode input"
 },
 "C20": {
  "status": "proved",
  "note": "all legal lists and buffers; the object-level assign inherits the resize restriction of C25 (C20_assign_partial)"
 },
 "C21": {
  "status": "partial",
  "note": "false of the code (C21_violated: negative first components are encoded; C21_violated_overflow); every other illegal list is proved rejected inside the buffer"
 },
 "C22": {
  "status": "partial",
  "note": "false of the code (index 1 reads the wrong octet or past the end, later indices always 0); number of components and index 0 proved"
 },
 "C23": {
  "status": "proved",
  "note": "exact result on arbitrary content"
 },
 "C64": {
  "status": "partial",
  "note": "false of the code (C64_violated); agrees with X.690 when the first octet is below 120"
 },
 "C31": {
  "status": "proved",
  "note": "all well-formed schemas and objects (unbounded nesting)"
 },
 "C32": {
  "status": "proved",
  "note": "all well-formed schemas and objects (unbounded nesting)"
 },
 "C34": {
  "status": "proved",
  "note": "all well-formed schemas and objects (unbounded nesting)"
 },
 "C35": {
  "status": "proved",
  "note": "all well-formed schemas and objects (unbounded nesting)"
 },
 "C36": {
  "status": "proved",
  "note": "all well-formed schemas and objects (unbounded nesting)"
 },
 "C46": {
  "status": "proved",
  "note": "all well-formed schemas and objects (unbounded nesting)"
 },
 "C33": {
  "status": "partial",
  "note": "false of the code in general (C33_violated: CHOICE ignores the tag class); proved for all well-formed schemas satisfying X.680 distinctness whose CHOICE labels have distinct numbers"
 },
 "C37": {
  "status": "partial",
  "note": "order, prior-state independence and child failure proved under the guard that excludes the UB cases"
 },
 "C38": {
  "status": "partial",
  "note": "both directions for SEQUENCE and SET; decode side under the unambiguity guard"
 },
 "C39": {
  "status": "partial",
  "note": "false of the code after decode (C39_violated_after_decode: an explicitly encoded default is stored)"
 },
 "C40": {
  "status": "partial",
  "note": "proved under the guard excluding UB schemas"
 },
 "C41": {
  "status": "partial",
  "note": "proved under X.680 distinctness"
 },
 "C42": {
  "status": "partial",
  "note": "false of the code: C42_violated_empty (empty SET accepts anything)"
 },
 "C43": {
  "status": "partial",
  "note": "false of the code: C43_violated (class ignored)"
 },
 "C44": {
  "status": "partial",
  "note": "false of the code: C44_violated_*; exact guard proved sufficient"
 },
 "C45": {
  "status": "partial",
  "note": "false of the code: C45_violated (infinite loop)"
 },
 "C47": {
  "status": "partial",
  "note": "false of the code: C47_violated (UB on truncated input)"
 },
 "C48": {
  "status": "partial",
  "note": "proved for unambiguous schemas"
 },
 "C65": {
  "status": "proved",
  "note": "sound and complete against the relational reading spec"
 },
 "C66": {
  "status": "partial",
  "note": "proved for every history whose decoded inputs avoid the undefined-behaviour cases of C06/C44 and for schemas without a mandatory untagged CHOICE in a SEQUENCE"
 },
 "C27": {
  "status": "proved",
  "note": "all identifiers of the special values, any buffer of at least one byte"
 },
 "C28": {
  "status": "partial",
  "note": "false of the code (C28_violated: two-octet exponents are misread, 2^200 becomes 2^52); the exact set of doubles that survive is proved (iff), also on objects"
 },
 "C29": {
  "status": "partial",
  "note": "false of the code (C29_violated: 80 00 00 01 spins for ever; C29_violated_decimal: a lone decimal form octet reads outside the contents); the exact set of contents on which it spins, and of those on which it reads outside, is proved"
 },
 "C67": {
  "status": "proved",
  "note": "every double, every buffer of at least ten bytes"
 },
 "C68": {
  "status": "partial",
  "note": "false of the code (C68_violated, C68_exponent_violated); proved for one-octet exponents and two-octet long-form exponents, when the decoder ends; decimal form in C86"
 },
 "C30": {
  "status": "proved",
  "note": "every accepted contents lies within the documented lengths/format"
 },
 "C69": {
  "status": "proved",
  "note": "universal, zone offset and local forms; text written as in X.680 46"
 },
 "C70": {
  "status": "partial",
  "note": "false of the code (C70_violated: 18 00 then format()); proved for contents left by a successful decode"
 },
 "C49": {
  "status": "partial",
  "note": "false of the code in four ways (C49_*_violated); proved for all histories without self copy-assignment, copies of moved-from variants, own-element assignment and throwing constructors in assignments/emplace<T>. Allocation failure not modelled"
 },
 "C50": {
  "status": "partial",
  "note": "==, !=, >, <=, >= proved for variants holding a value; < false (C50_lt_violated), valueless == throws (C50_valueless_violated)"
 },
 "C51": {
  "status": "proved",
  "note": "all histories; refinement to a value-level specification, deep copies, no leak"
 },
 "C71": {
  "status": "partial",
  "note": "false of the code (C71_violated); what does hold is proved"
 },
 "C72": {
  "status": "partial",
  "note": "false for DEFAULT members (C72_default_violated); proved for lists of plain and OPTIONAL members over sane contents"
 },
 "C73": {
  "status": "proved",
  "note": ""
 },
 "C52": {
  "status": "partial",
  "note": "false for xor-eq and for names with underscores (C52_*_violated); otherwise proved for all names"
 },
 "C55": {
  "status": "partial",
  "note": "false when a module name is repeated (C55_violated); proved for all modules with distinct names (and, for the cycle criterion, defined imports); termination proved for all inputs"
 },
 "C56": {
  "status": "proved",
  "note": ""
 },
 "C59": {
  "status": "partial",
  "note": "false in general (C59_*_violated); exact characterisation of the hex strings that keep their value"
 },
 "C60": {
  "status": "proved",
  "note": "for every command tree over CodeBlock/CodeScope whose lines are brace-balanced"
 },
 "C74": {
  "status": "partial",
  "note": "false for values with quotes or backslashes (C74_*_violated); exact characterisation proved"
 },
 "C63": {
  "status": "partial",
  "note": "false of the code (C63_terminates_violated: reference cycle across modules diverges; C63_module_violated: tagged references of another module are looked up in the wrong module). Proved: result, termination and error are exactly what the specification says when tagged unqualified references occur only in the calling module"
 },
 "C57": {
  "status": "partial",
  "note": "false of the code (C57_violated_triple: middle explicit tags are lost; C57_violated_choice: an explicitly tagged CHOICE gets an extra [UNIVERSAL 0]; C57_violated_automatic, C57_violated_automatic_choice: AUTOMATIC TAGS). Proved: for types that lead to something other than CHOICE/ANY the tags computed are the first and last X.680 prescribes, hence right for up to two tags; CHOICE identifiers and decoder labels are exactly the possible outermost tags"
 },
 "C58": {
  "status": "partial",
  "note": "false of the code (C58_sequence_violated, C58_sequence_choice_violated, C58_automatic_violated). Proved: SET and CHOICE checks accept exactly what X.680 allows in modules without AUTOMATIC TAGS and throw otherwise; the SEQUENCE check compares exactly neighbouring components that may be absent"
 },
 "C53": {
  "status": "partial",
  "note": "Permutation proved for all modules (C53_permutation). Order proved for modules without a nested SET that has a DEFAULT given by name (C53_order_partial); C53_violated shows the pass emits a wrong order otherwise. Dynamic storage only on cycles (C53_dynamic_partial)."
 },
 "C54": {
  "status": "partial",
  "note": "Undefined references and illegal cycles throw, and the pass terminates, provided no nested SET has a DEFAULT given by name and resolve_type terminates for the components with such defaults; converse (legal modules accepted) with side conditions. Violations of the unconditional statement exhibited: non-termination, undefined default accepted, legal modules rejected."
 },
 "C61": {
  "status": "partial",
  "note": "False as stated (C61_violated: the parser reverses argument lists, so templates with two or more parameters get swapped arguments). Proved: one-parameter templates (C61_one_partial), any number with the arguments reversed (C61_reversed_partial), whole trees (C61_tree_partial), trees without parameterized references (C61_unused_partial). Missing and false: COMPONENTS OF a parameter, parameterized references inside arguments."
 },
 "C62": {
  "status": "partial",
  "note": "False as stated (C62_violated, C62_lost_violated, C62_crash_violated, C62_scope_violated). C62_expands_partial proves it, with normal termination, for all trees meeting Expandable."
 },
 "C75": {
  "status": "proved",
  "note": "For modules whose names are distinct and not of the made-up form (UnnamedSet<n> etc.); C75_clash_violated shows that a user name of that form is rejected later."
 },
 "C76": {
  "status": "partial",
  "note": "Proved for all supported schemas (Spec/Supported: names, tags the compiler translates, restrictions for AUTOMATIC TAGS) and assigned types whose tags are not lost; the excluded schemas are shown to be mistranslated (C76_violated_*). Schemas with circular references: the *_recursive_partial theorems, for those whose types can be default constructed."
 },
 "C77": {
  "status": "partial",
  "note": "Proved for all supported, legal schemas and values that fit; see C76 for what is excluded and why. Schemas with circular references: the *_recursive_partial theorems, for those whose types can be default constructed."
 },
 "C78": {
  "status": "partial",
  "note": "Proved for all supported, legal schemas without mandatory untagged CHOICE in a SEQUENCE, and definite-length encodings; the excluded cases are violations (C76_violated_*, C44_violated_*). Schemas with circular references: the *_recursive_partial theorems, for those whose types can be default constructed."
 },
 "C79": {
  "status": "partial",
  "note": "Proved: for every supported, legal schema whose made-up C++ names do not clash within a scope (Spec/Compilable, with a proved computable checker) the emitted declarations are accepted by the C++ model and every assigned type gets a C++ type; for circular schemas with the forward declarations (C79_compiles_recursive_partial), and there all types can be default constructed if every assigned type has a value to begin with (C79_compiled_recursive). The full claim is false: five legal schemas whose output does not compile (C79_violated_*)."
 },
 "C81": {
  "status": "partial",
  "note": "Schemas without parameterized types, COMPONENTS OF and information objects (those passes alone: C61, C62)."
 },
 "C82": {
  "status": "partial",
  "note": "Proved from the parsed source through every pass of the compiler, the emitted declarations and the library, for sources without COMPONENTS OF and information objects (with parameterized types: C82_templates_partial, in terms of the expanded source) that meet Spec/SupportedSource and X.680's rules on tags. Missing, because false: the excluded sources (C82_violated_*, C76_violated_*, C79_violated_*). The C++ meaning of DEFAULT values is a parameter. Schemas with circular references: the *_recursive_partial theorems, for those whose types can be default constructed."
 },
 "C80": {
  "status": "partial",
  "note": "Termination (C80_terminates) and the exact condition for acceptance (C80_accepts) hold for all schemas with distinct names. Result: C80_result_partial for schemas that refer to other modules through imports, C80_complete_partial when field types use no fields; false otherwise (C80_violated_*)."
 },
 "C83": {
  "status": "partial",
  "note": "Exact characterisation of == in terms of value() (C83_equal_iff_partial: IEEE subtraction and multiplication modelled bit for bit), symmetric, reflexive except NaN, NaN never equal, agrees with the statement when the larger number is at least 1. The full statement is false (C83_violated: an infinity equals every number; all numbers below 2^-53 are equal; not transitive)."
 },
 "C84": {
  "status": "partial",
  "note": "Exact for construction, assignment, decoding, encoding, copying and round trips from any state; resizing exact for assigned packets, with undefined behaviour when it shrinks across a header size; histories exclude resizing packets with non-minimal identifier octets, assigning from invalid containers, reading moved-from ones, and views whose length overflows size_t (all shown to be violations)."
 },
 "C85": {
  "status": "partial",
  "note": "Encoding, round trip and an exact characterisation of decoding for every library CHOICE, on sane input (C44); false for ANY as stated: C85_violated_any, C85_violated_alternative."
 },
 "C86": {
  "status": "partial",
  "note": "false of the code: the form octet is not compared with the number (C86_violated_form) and a lone form octet reads outside the contents (C86_violated_empty). Proved: every ISO 6093 number in any of the three forms is read as the number it denotes whatever the form octet (C86_decode), everything else with a text is refused (C86_refuses), and the number is determined by the text (C86_unambiguous). The rounding of a decimal number to a double inside abseil is a parameter"
 },
 "C87": {
  "status": "partial",
  "note": "false of the code for some items of X.680: an apostrophe ends a cstring, comments do not nest, VT and FF do not end a comment, PLUS-INFINITY, OID-IRI and ENCODING-CONTROL are read as names, white space in bstrings and hstrings, exponents, numbers of 2^63 and above, unknown characters are ignored (C87_violated_*). Proved: every file made of the remaining items, white space and comments is read as these items (C87_lex), uniquely (C87_unique)"
 },
 "C88": {
  "status": "partial",
  "note": "false of the code: a file that ends within a comment or string is read behind its end (C88_violated_unterminated, C88_violated_backslash). Proved: termination on every file (C88_terminates), reads behind the end only if the file ends within a comment or string (C88_bounds), hence none for files of plain items (C88_text) and files that end with a line and have no quotes and no /* (C88_safe)"
 },
 "C89": {
  "status": "partial",
  "note": "Proved for all elements (any nesting and size, any octets behind) whose primitive parts are Showable, with isprint false above 127; uniqueness of the JSON value; exit code; safety for files without overflowing headers and without times shorter than 5 octets. The full statement is false of the code: C89_violated_* (REAL, ENUMERATED, times, quotation marks, long INTEGERs, BOOLEANs of wrong length, dropped octets, short times, isprint, wrapping lengths, OIDs from 2.40 on)."
 },
 "C90": {
  "status": "partial",
  "note": "Proved for all schemas whose definitions are well formed, default-constructible and unambiguous by tag number, and values whose times have 10 to 23 characters (as C33). Missing: types whose default constructor recurses (C90_violated_default), tags equal in number only (C33_violated), lengths from 2^64. That the compiler emits these types for circular schemas: C90_generated_partial."
 },
 "C91": {
  "status": "partial",
  "note": "Depth bound proved for every input. Returning and acceptance as in C44/C65: no mandatory component is an untagged CHOICE, no lengths or tag numbers near 2^64. With a stack of fixed size the claim is false (C91_violated_depth). For the types of a compiled schema: C91_generated_partial."
 },
 "C92": {
  "status": "proved",
  "note": "Every notation of Spec/Notation.lean is read as its meaning, tokens and files; C92_violated_* show legal notation outside it that is misread or rejected."
 },
 "C93": {
  "status": "proved",
  "note": "All tokens and all files; the only undefined behaviour is that of the lexer (C88)."
 },
 "C94": {
  "status": "proved",
  "note": "Relative to the grammar in asn_compiler.yacc, whose rules and actions the model takes from the source by tools/parser_gen.py."
 },
 "C95": {
  "status": "partial",
  "note": "Proved when no unnumbered item follows a numbered one; false otherwise (C95_violated_*)."
 },
 "C96": {
  "status": "partial",
  "note": "Proved under the conditions of TextCompiled and SourceAssigned; outside them it is false (C76, C79, C82, C92 _violated_ theorems). Schemas with circular references: the *_recursive_partial theorems, for those whose types can be default constructed."
 },
 "C97": {
  "status": "partial",
  "note": "Values of the forms in Kept and names of such values; the rest is refuted by C97_violated_*."
 },
 "C98": {
  "status": "partial",
  "note": "C98_frontEnd_partial: every pass of the front end ends without an error; C98_compiles_partial: the output is valid C++; C98_compiles_recursive_partial, C98_compiled_recursive_partial: the same with recursive types, whose C++ types can be default constructed; C98_text_*: the same from the text of the files; C98_templates_partial: with parameterized types; all under conditions stated on the source alone. Missing: COMPONENTS OF and object classes; legal sources outside the conditions that are refused or for which invalid C++ is written: C98_violated_*."
 },
 "C99": {
  "status": "partial",
  "note": "Proved for all types that are not recursive and all objects that hold a value: no undefined behaviour (C99_safe); equal objects are printed the same (C99_equal_objects); the text is JSON that tells the value, also for compiled schemas and for what is received (C99_json_partial, C99_compiled_partial, C99_received_partial) if text has no quotation marks or backslashes, enumerators are known and there are no times; how a REAL is shown is a parameter. Objects printed the same are equal (C99_tells_apart_partial) for types without CHOICE, OPTIONAL NULL, OBJECT IDENTIFIER, REAL and times and printable text. The English claim is false without these restrictions: C99_violated_*."
 },
 "C100": {
  "status": "partial",
  "note": "Proved for all types, recursive ones included (*_recursive), and versions that differ in components added at the end of types with an extension marker and alternatives added at the end: the old program decodes every message of the new one without unknown alternatives to exactly the part it knows (C100_forward_partial), and the new program every message of the old one if the additions may be absent (C100_backward_partial). False, with counterexamples: mandatory additions, additions in front of a second root part, EXTENSIBILITY IMPLIED; a message with an unknown alternative is refused as a whole. Also from the text of the files, and for two programs that talk to each other: what one writes, the other reads (C100_*_text_partial, C100_new_to_old_*, C100_old_to_new_*)."
 },
 "C101": {
  "status": "partial",
  "note": "C101_sample: the round trip for every team, from the literal text of testfiles/pokemon.asn through the whole compiler; C101_any_file_partial: every file, except those with tag numbers or lengths near 2^64 (Sane)"
 }
}