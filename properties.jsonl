{"id": "C01", "title": "Identifier octets round trip", "statement": "Identifier octets written by encode_identifier for a class, construction and tag number are read back by extract_class, extract_construction and extract_tag as the same class, construction and tag number, consuming exactly the number of octets written, whatever follows them in the buffer.", "quantifier": "all 4 classes, 2 constructions, every tag 0 <= t < 2^63, every output buffer content and every suffix", "why_tests_cant": "2^63 tag numbers and arbitrary surrounding bytes; tests cover a handful of tags", "anchors": ["include/fast_ber/util/EncodeIdentifiers.hpp: encode_tag, encode_identifier", "include/fast_ber/util/Extract.hpp: extract_tag, extract_class, extract_construction"]}
{"id": "C02", "title": "Identifier octets have the announced size and are minimal", "statement": "encode_identifier succeeds exactly when the tag is non-negative and the buffer has at least encoded_tag_length(tag) bytes, then returns encoded_tag_length(tag), never touches a byte after it, and uses the X.690 minimal form (short form iff tag <= 30, long form without a leading 0x80 octet).", "quantifier": "every tag in int64 (negative too) and every buffer of every size", "why_tests_cant": "boundaries at every power of 128 and all buffer sizes", "anchors": ["include/fast_ber/util/EncodeIdentifiers.hpp: encode_tag, encoded_tag_length, encode_identifier"]}
{"id": "C03", "title": "Length octets round trip, exact size, minimal", "statement": "encode_length(length) succeeds exactly when the buffer has at least encoded_length_length(length) bytes, returns that number, leaves later bytes untouched; extract_length reads the same length back consuming the same bytes; the form is the shortest definite form of X.690 8.1.3 (short form iff < 128, otherwise no leading zero octet).", "quantifier": "every 64-bit length, every buffer, every suffix", "why_tests_cant": "2^64 lengths times buffer sizes", "anchors": ["include/fast_ber/util/EncodeIdentifiers.hpp: encode_length, encoded_length_length", "include/fast_ber/util/Extract.hpp: extract_length"]}
{"id": "C04", "title": "extract_length is exactly the X.690 definite-length reader", "statement": "On arbitrary bytes extract_length returns 0 exactly when the field is empty, indefinite (0x80), longer than 8 octets or truncated; otherwise it returns the number of octets of the field and the big-endian value of those octets, independent of everything after them.", "quantifier": "all byte strings", "why_tests_cant": "arbitrary (malformed) input", "anchors": ["include/fast_ber/util/Extract.hpp: extract_length"]}
{"id": "C05", "title": "Header encode/parse round trip", "statement": "A header written by encode_header followed by the announced number of content bytes parses (BerView) to a valid view with the same class, construction, tag, content length, and content bytes, and its ber() is exactly header plus content, whatever follows.", "quantifier": "all classes, constructions, tags in [0,2^63), all contents shorter than 2^63, all suffixes", "why_tests_cant": "infinite input space", "anchors": ["include/fast_ber/util/EncodeIdentifiers.hpp: encode_header", "include/fast_ber/util/BerView.hpp: BerView::assign"]}
{"id": "C06", "title": "Parsing arbitrary bytes has no undefined behaviour", "statement": "Constructing a BerView over any byte span executes without undefined behaviour.", "quantifier": "all byte strings", "why_tests_cant": "adversarial input; holds only conditionally: a tag of ten or more continuation octets overflows int64 (negated + partial)", "anchors": ["include/fast_ber/util/BerView.hpp: BerView::assign", "include/fast_ber/util/Extract.hpp: extract_tag"]}
{"id": "C07", "title": "A valid view lies inside its buffer", "statement": "When a BerView reports is_valid, its header and content are sub-ranges of the span it was built from (content() and ber() can be read).", "quantifier": "all byte strings", "why_tests_cant": "length fields close to 2^64 wrap size_t; holds only without wrap (negated + partial)", "anchors": ["include/fast_ber/util/BerView.hpp: BerView::assign, content, ber"]}
{"id": "C08", "title": "Parsing is local", "statement": "Whether a span parses, and every accessor of the resulting view, depends only on the first ber_length() bytes: appending bytes changes nothing, and every strict truncation of them is rejected.", "quantifier": "all byte strings and suffixes/truncations", "why_tests_cant": "all splits of all inputs", "anchors": ["include/fast_ber/util/BerView.hpp: BerView::assign"]}
{"id": "C09", "title": "Child iteration terminates and tiles the content", "statement": "Iterating the children of a view by operator++ reaches the end after finitely many steps, every child is a non-empty valid view, children are contiguous, in order and non-overlapping, starting at the first content byte, and the iteration stops exactly at the first position where the rest does not parse.", "quantifier": "all contents", "why_tests_cant": "unbounded nesting/length; holds only without 2^64 wrap (negated: infinite iteration witness; partial)", "anchors": ["include/fast_ber/util/BerView.hpp: BerViewIterator::operator++, operator=="]}
{"id": "C10", "title": "Copying a view to a buffer", "statement": "BerView::encode succeeds iff the buffer can hold ber_length() bytes; then the first ber_length() bytes become ber() and the rest is unchanged; otherwise the buffer is unchanged.", "quantifier": "all views inside their buffer, all buffers", "why_tests_cant": "all sizes", "anchors": ["include/fast_ber/util/BerView.hpp: BerView::encode"]}
{"id": "C11", "title": "Wrapping content in a header", "statement": "wrap_with_ber_header on a buffer holding content at any offset succeeds iff header and content fit; then the buffer starts with the header for exactly that content length followed by the unmodified content, whether or not the content had to be moved, and the bytes after it are those the buffer had (or moved-over) outside the result.", "quantifier": "all buffers, offsets, content lengths, single and double identifiers", "why_tests_cant": "memmove overlap in both directions at each length-form boundary", "anchors": ["include/fast_ber/util/EncodeHelpers.hpp: wrap_with_ber_header, encode_header"]}
{"id": "C12", "title": "Integer content round trip", "statement": "encode_integer followed by decode_integer returns the original value for every int64.", "quantifier": "all int64 values and output buffers of at least 8 bytes", "why_tests_cant": "2^64 values", "anchors": ["include/fast_ber/ber_types/Integer.hpp: encode_integer, decode_integer"]}
{"id": "C13", "title": "Integer content octets are minimal", "statement": "encode_integer writes 1..8 octets, the two's complement big-endian representation, and the first nine bits are neither all zero nor all one (X.690 8.3.2); no shorter content decodes to the value.", "quantifier": "all int64 values", "why_tests_cant": "2^64 values", "anchors": ["include/fast_ber/ber_types/Integer.hpp: encode_integer"]}
{"id": "C14", "title": "Integer content decoding is two's complement", "statement": "decode_integer accepts exactly contents of 1..8 octets and returns their two's complement big-endian value (non-minimal contents included).", "quantifier": "all byte strings", "why_tests_cant": "all contents", "anchors": ["include/fast_ber/ber_types/Integer.hpp: decode_integer"]}
{"id": "C15", "title": "INTEGER rejects what it cannot represent", "statement": "Integer::decode succeeds exactly on a primitive element with the right identifier whose content is 1..8 octets; afterwards value() is the two's complement value; on failure the object keeps its value.", "quantifier": "all views, identifiers, previous states", "why_tests_cant": "arbitrary input; the zero-length case is accepted by the code (negated + partial)", "anchors": ["include/fast_ber/ber_types/Integer.hpp: Integer::decode, value", "include/fast_ber/util/SmallFixedIdBerContainer.hpp: decode_impl"]}
{"id": "C16", "title": "INTEGER object history", "statement": "After any finite sequence of assign, copy, cross-identifier assignment and decode operations, value() equals the value given by the last successful operation, encoded_length() is the size of the canonical encoding of the content, and encode produces the canonical header followed by that content.", "quantifier": "all operation sequences, all identifiers", "why_tests_cant": "unbounded histories", "anchors": ["include/fast_ber/ber_types/Integer.hpp", "include/fast_ber/util/SmallFixedIdBerContainer.hpp: assign_content, resize_content, set_content_length, encode"]}
{"id": "C17", "title": "BOOLEAN", "statement": "For any identifier: assign then value, and encode then decode give back the same boolean; true is encoded as 0xFF and false as 0x00; any non-zero content octet decodes to true; contents not of exactly one octet are rejected leaving the object unchanged; re-encoding a decoded BOOLEAN reproduces the content octet.", "quantifier": "all identifiers, all views, all content octets", "why_tests_cant": "all inputs", "anchors": ["include/fast_ber/ber_types/Boolean.hpp"]}
{"id": "C18", "title": "NULL", "statement": "Null::decode succeeds exactly on a primitive element with the right identifier and empty content, and encode/decode round trips for every identifier.", "quantifier": "all identifiers and views", "why_tests_cant": "all inputs", "anchors": ["include/fast_ber/ber_types/Null.hpp"]}
{"id": "C19", "title": "ENUMERATED", "statement": "For every enumeration value in int64 range assign/value/encode/decode round trip through the INTEGER content rules.", "quantifier": "all values and identifiers", "why_tests_cant": "2^64 values", "anchors": ["include/fast_ber/ber_types/Enumerated.hpp"]}
{"id": "C20", "title": "OBJECT IDENTIFIER round trip", "statement": "For every component list with first component 0..2, second 0..39 and later components in [0,2^63), encode_object_id succeeds when the buffer has encoded_object_id_length bytes and decode_object_id returns the same list.", "quantifier": "all component lists of all lengths >= 2", "why_tests_cant": "unbounded lists and values", "anchors": ["include/fast_ber/ber_types/ObjectIdentifier.hpp: encode_object_id, decode_object_id, encoded_object_id_length"]}
{"id": "C21", "title": "OBJECT IDENTIFIER validation", "statement": "encode_object_id fails, writing nothing outside the buffer, for every list that is not a legal OID (less than two components, first > 2, second > 39, negative components).", "quantifier": "all int64 lists, all buffers", "why_tests_cant": "unbounded lists; negative first/second component is accepted by the code (negated + partial)", "anchors": ["include/fast_ber/ber_types/ObjectIdentifier.hpp: encode_object_id"]}
{"id": "C22", "title": "OBJECT IDENTIFIER component accessors", "statement": "get_number_of_components and get_component_number agree with the decoded component list for every encoded OID.", "quantifier": "all OIDs and indexes", "why_tests_cant": "all inputs; component access is wrong in the code (negated + partial)", "anchors": ["include/fast_ber/ber_types/ObjectIdentifier.hpp: get_component_number, get_number_of_components"]}
{"id": "C23", "title": "OBJECT IDENTIFIER decoding is total and safe", "statement": "decode_object_id on arbitrary content never reads outside it, rejects only empty content, and yields get_number_of_components values, each the base-128 value modulo 2^64.", "quantifier": "all byte strings", "why_tests_cant": "arbitrary input", "anchors": ["include/fast_ber/ber_types/ObjectIdentifier.hpp: decode_object_id"]}
{"id": "C24", "title": "String content is what was assigned", "statement": "After assign(content) of any string/OCTET STRING type with any identifier, content()/size()/== give exactly that content, encoded_length() is header plus content, and encode then decode into another object gives an equal object.", "quantifier": "all contents below 2^63 bytes, all identifiers, previous states", "why_tests_cant": "header size boundaries at 128, 256, 65536, ... and double identifiers", "anchors": ["include/fast_ber/ber_types/StringImpl.hpp", "include/fast_ber/util/FixedIdBerContainer.hpp: assign_content, encode, decode"]}
{"id": "C25", "title": "String resize", "statement": "resize(n) keeps the first min(n, old size) bytes, zero-fills growth, and leaves a well-formed element of length n.", "quantifier": "all contents, all n, all identifiers", "why_tests_cant": "header-form boundaries; the code reads beyond the vector when shrinking over a boundary (negated + partial)", "anchors": ["include/fast_ber/util/FixedIdBerContainer.hpp: resize_content"]}
{"id": "C26", "title": "String container history", "statement": "After any finite sequence of construct, assign, copy, move-assign, decode and resize operations the container holds a well-formed element for its identifier and content() is inside its storage.", "quantifier": "all operation sequences", "why_tests_cant": "unbounded histories; broken by explicit-tag decode with trailing bytes (negated + partial)", "anchors": ["include/fast_ber/util/FixedIdBerContainer.hpp"]}
{"id": "C27", "title": "REAL special values", "statement": "The values +0, -0, +inf, -inf and NaN encode to the X.690 8.5.9 special contents and decode back.", "quantifier": "all identifiers, buffers", "why_tests_cant": "all buffers", "anchors": ["include/fast_ber/ber_types/Real.hpp: encode_real, decode_real"]}
{"id": "C28", "title": "REAL finite round trip", "statement": "Every finite double encodes and decodes back to the identical value.", "quantifier": "all finite doubles", "why_tests_cant": "2^64 values; false when the exponent needs two octets (negated + partial)", "anchors": ["include/fast_ber/ber_types/Real.hpp: encode_real, decode_real_binary"]}
{"id": "C29", "title": "REAL decoding terminates", "statement": "decode_real terminates on every content.", "quantifier": "all byte strings", "why_tests_cant": "arbitrary input; an infinite loop exists (negated + partial)", "anchors": ["include/fast_ber/ber_types/Real.hpp: decode_real_binary"]}
{"id": "C30", "title": "GeneralizedTime decode bounds", "statement": "A GeneralizedTime accepted by decode has a content of 10..23 characters, and reading its format never accesses bytes outside the content.", "quantifier": "all views", "why_tests_cant": "arbitrary input", "anchors": ["include/fast_ber/ber_types/GeneralizedTime.hpp"]}
{"id": "C31", "title": "encode length equals encoded_length", "statement": "For every schema built from the supported types and every value, a successful encode returns length == encoded_length(value).", "quantifier": "all schemas (any nesting depth), values, buffers", "why_tests_cant": "unbounded nesting; length-form boundaries at every level", "anchors": ["src/compiler/EncodeDecode.cpp: create_collection_encode_functions, create_choice_encode_functions", "include/fast_ber/ber_types/SequenceOf.hpp", "include/fast_ber/ber_types/Optional.hpp", "include/fast_ber/ber_types/Default.hpp"]}
{"id": "C32", "title": "encode succeeds exactly when the buffer is large enough", "statement": "For every schema and value, encode succeeds iff the buffer has at least encoded_length(value) bytes, never writes outside the buffer, and never modifies bytes at or beyond encoded_length(value) of the result.", "quantifier": "all schemas, values, buffers", "why_tests_cant": "intermediate header guesses and memmoves at every nesting level", "anchors": ["src/compiler/EncodeDecode.cpp", "include/fast_ber/util/EncodeHelpers.hpp", "include/fast_ber/ber_types/SequenceOf.hpp"]}
{"id": "C33", "title": "Schema round trip", "statement": "For every schema whose identifiers are unambiguous and every value, decoding the encoding (followed by any bytes) succeeds and gives an equal value.", "quantifier": "all schemas, values, suffixes", "why_tests_cant": "unbounded schemas and values", "anchors": ["src/compiler/EncodeDecode.cpp: create_collection_decode_functions, create_choice_decode_functions", "include/fast_ber/ber_types/SequenceOf.hpp"]}
{"id": "C34", "title": "Encoding is a single well-formed element", "statement": "The bytes produced by encode parse as one BER element (BerView valid, ber_length == encoded length) whose outer identifier is the type's identifier.", "quantifier": "all schemas (non-empty values) and values", "why_tests_cant": "unbounded", "anchors": ["src/compiler/EncodeDecode.cpp"]}
{"id": "C35", "title": "Encoding is injective and prefix free", "statement": "Two values of a schema with equal encodings are equal, and no encoding is a strict prefix of another.", "quantifier": "all schemas and pairs of values", "why_tests_cant": "pairs of unbounded values", "anchors": ["src/compiler/EncodeDecode.cpp"]}
{"id": "C36", "title": "Encoding is deterministic and independent of the buffer", "statement": "The bytes produced depend only on the value, not on the previous content or size of the buffer.", "quantifier": "all schemas, values, pairs of buffers", "why_tests_cant": "all buffers", "anchors": ["src/compiler/EncodeDecode.cpp"]}
{"id": "C37", "title": "SEQUENCE OF preserves number and order", "statement": "Decoding the encoding of a SEQUENCE OF/SET OF gives the same elements in the same order; decode clears previous content; a child that fails to decode makes the whole decode fail.", "quantifier": "all element types, lists, previous states", "why_tests_cant": "unbounded lists", "anchors": ["include/fast_ber/ber_types/SequenceOf.hpp"]}
{"id": "C38", "title": "OPTIONAL presence", "statement": "An absent optional component contributes no bytes and decodes as absent; a present one decodes as present with the same value; the previous state of the object does not matter.", "quantifier": "all schemas/values/previous states", "why_tests_cant": "all combinations", "anchors": ["include/fast_ber/ber_types/Optional.hpp", "src/compiler/EncodeDecode.cpp"]}
{"id": "C39", "title": "DEFAULT values", "statement": "A component equal to its default is not encoded and decodes as the default; any other value is encoded and restored.", "quantifier": "all schemas, defaults, values", "why_tests_cant": "all combinations", "anchors": ["include/fast_ber/ber_types/Default.hpp", "src/compiler/EncodeDecode.cpp"]}
{"id": "C40", "title": "Missing mandatory component rejected", "statement": "SEQUENCE and SET decode fail when a mandatory component is missing.", "quantifier": "all schemas and inputs", "why_tests_cant": "all inputs", "anchors": ["src/compiler/EncodeDecode.cpp: create_collection_decode_functions"]}
{"id": "C41", "title": "SET order independence", "statement": "A SET decodes to the same value from any permutation of its encoded components.", "quantifier": "all schemas, values, permutations", "why_tests_cant": "factorially many orders", "anchors": ["src/compiler/EncodeDecode.cpp: SET decode"]}
{"id": "C42", "title": "SET duplicates and unknown components", "statement": "SET decode fails when a component appears twice; fails on an unknown identifier unless the type is extensible, in which case unknown components are skipped.", "quantifier": "all schemas and inputs", "why_tests_cant": "all inputs", "anchors": ["src/compiler/EncodeDecode.cpp: SET decode"]}
{"id": "C43", "title": "CHOICE selects the alternative by identifier", "statement": "CHOICE decode selects the alternative whose identifier (class and tag) equals that of the element.", "quantifier": "all choices with pairwise different identifiers, all elements", "why_tests_cant": "all schemas; false when two alternatives share a tag number in different classes (negated + partial)", "anchors": ["src/compiler/EncodeDecode.cpp: create_choice_decode_functions"]}
{"id": "C44", "title": "Decoding arbitrary bytes has no undefined behaviour", "statement": "decode of any bytes into any schema never reads outside the input or dereferences null.", "quantifier": "all schemas, byte strings, previous states", "why_tests_cant": "adversarial input; false for CHOICE on invalid input and for wrapped lengths (negated + partial)", "anchors": ["src/compiler/EncodeDecode.cpp", "include/fast_ber/util/BerView.hpp"]}
{"id": "C45", "title": "Decoding terminates", "statement": "decode of any bytes into any schema terminates.", "quantifier": "all schemas and byte strings", "why_tests_cant": "adversarial input; false for wrapped lengths in SEQUENCE OF and extensible SET (negated + partial)", "anchors": ["include/fast_ber/ber_types/SequenceOf.hpp", "src/compiler/EncodeDecode.cpp"]}
{"id": "C46", "title": "Wrong identifier is rejected", "statement": "Decoding an element whose outer class, tag or construction differs from the type's never succeeds.", "quantifier": "all non-choice types and all inputs", "why_tests_cant": "all inputs", "anchors": ["include/fast_ber/util/DecodeHelpers.hpp: has_correct_header", "src/compiler/EncodeDecode.cpp"]}
{"id": "C47", "title": "Truncation is rejected", "statement": "Decoding any strict prefix of an encoding fails (no partial success).", "quantifier": "all schemas, values and truncation points", "why_tests_cant": "all crash points of a transfer", "anchors": ["include/fast_ber/util/BerView.hpp", "src/compiler/EncodeDecode.cpp"]}
{"id": "C48", "title": "Decode, re-encode, decode is stable", "statement": "If decode succeeds on some bytes, encoding the result and decoding again succeeds with an equal value.", "quantifier": "all schemas and byte strings", "why_tests_cant": "all (non canonical) inputs", "anchors": ["src/compiler/EncodeDecode.cpp", "include/fast_ber/util/FixedIdBerContainer.hpp"]}
{"id": "C49", "title": "Variant storage safety", "statement": "In any sequence of emplace, assign, copy, move, swap-by-move and destroy operations on DynamicVariant objects nothing is leaked, freed twice or used after free, and the visible alternative is the last one stored.", "quantifier": "all operation histories over any number of variants", "why_tests_cant": "unbounded histories; broken for self copy-assignment and copies of moved-from objects (negated + partial)", "anchors": ["include/fast_ber/util/DynamicVariant.hpp"]}
{"id": "C50", "title": "Variant comparison", "statement": "== and != are an equivalence; <, <=, >, >= order by index and then by value.", "quantifier": "all pairs of variants", "why_tests_cant": "all values; < is wrong in the code (negated + partial)", "anchors": ["include/fast_ber/util/DynamicVariant.hpp: operator<, LessThan"]}
{"id": "C51", "title": "DynamicOptional copies are deep", "statement": "A copy of a DynamicOptional equals the original, and later changes of either do not affect the other.", "quantifier": "all histories", "why_tests_cant": "unbounded histories", "anchors": ["include/fast_ber/util/DynamicOptional.hpp"]}
{"id": "C52", "title": "Name sanitising avoids reserved words", "statement": "santize_name maps every ASN.1 name to a C++ identifier that is not reserved, without '-', and distinct ASN.1 names of a scope stay distinct.", "quantifier": "all names", "why_tests_cant": "all strings; a missing comma in the keyword table and collisions break it (negated + partial)", "anchors": ["src/compiler/CompilerTypes.cpp: santize_name"]}
{"id": "C53", "title": "Assignments are emitted after their dependencies", "statement": "reorder_assignments outputs a permutation of the module's assignments in which every assignment comes after those it depends on, except for dependencies broken by dynamic storage; or throws.", "quantifier": "all modules", "why_tests_cant": "all dependency graphs", "anchors": ["src/compiler/ReorderAssignments.cpp: resolve_dependencies, reorder_assignments"]}
{"id": "C54", "title": "Undefined references and illegal cycles are rejected", "statement": "The compiler throws when a dependency is undefined or an illegal cycle exists, and terminates on every dependency graph.", "quantifier": "all modules", "why_tests_cant": "all graphs", "anchors": ["src/compiler/ReorderAssignments.cpp"]}
{"id": "C55", "title": "Modules are emitted after their imports", "statement": "reorder_modules yields a permutation with imports first, or throws for cyclic imports.", "quantifier": "all import graphs", "why_tests_cant": "all graphs", "anchors": ["src/compiler/ReorderAssignments.cpp: reorder_modules"]}
{"id": "C56", "title": "Duplicate names rejected", "statement": "check_duplicated_names throws exactly when two assignments of a module share a name.", "quantifier": "all modules", "why_tests_cant": "all lists", "anchors": ["src/compiler/ReorderAssignments.cpp: check_duplicated_names"]}
{"id": "C57", "title": "Tagging follows X.680", "statement": "The identifier computed for a tagged type is the one X.680 31.2 prescribes for every nesting of IMPLICIT/EXPLICIT tags and module tagging default.", "quantifier": "all tag nestings", "why_tests_cant": "unbounded nesting; nested explicit tags lose the inner outer tag (negated + partial)", "anchors": ["src/compiler/Identifier.cpp"]}
{"id": "C58", "title": "Ambiguous SEQUENCE/SET/CHOICE rejected", "statement": "A type accepted by the compiler's ambiguity checks decodes unambiguously.", "quantifier": "all types", "why_tests_cant": "all types; the SEQUENCE check is too weak (negated + partial)", "anchors": ["src/compiler/TypeAsString.cpp: check_valid", "src/compiler/Identifier.cpp"]}
{"id": "C59", "title": "Hex and bit string literals keep their value", "statement": "The C++ literal generated for an hstring/bstring denotes the same bytes.", "quantifier": "all literals", "why_tests_cant": "all strings; hex digits are emitted as decimal in octal escapes (negated + partial)", "anchors": ["src/compiler/ValueAsString.cpp"]}
{"id": "C60", "title": "Generated code has balanced scopes", "statement": "Every generated CodeBlock has balanced braces, with indentation equal to the nesting depth.", "quantifier": "all blocks", "why_tests_cant": "all nestings", "anchors": ["src/compiler/CppGeneration.cpp"]}
{"id": "C61", "title": "Parameter instantiation is complete substitution", "statement": "Resolving a parameterized reference replaces every occurrence of every parameter by the argument and nothing else.", "quantifier": "all types and arguments", "why_tests_cant": "unbounded types", "anchors": ["src/compiler/Parameters.cpp"]}
{"id": "C62", "title": "COMPONENTS OF expansion", "statement": "COMPONENTS OF is replaced, in place and in order, by the referenced type's components.", "quantifier": "all types", "why_tests_cant": "unbounded types", "anchors": ["src/compiler/ReorderAssignments.cpp: resolve_components_of"]}
{"id": "C63", "title": "Type reference resolution terminates", "statement": "resolve_type follows chains of references to the defining type and terminates.", "quantifier": "all modules", "why_tests_cant": "all graphs; cyclic definitions loop forever (negated + partial)", "anchors": ["src/compiler/ResolveType.cpp"]}
{"id": "C64", "title": "OBJECT IDENTIFIER decoding follows X.690 8.19", "statement": "decode_object_id of a well-formed OBJECT IDENTIFIER content returns the components X.690 8.19 assigns to it, including first arcs 2.n with n >= 40.", "quantifier": "every well-formed content", "why_tests_cant": "Ranges over all byte strings; the tests only use OIDs with small second arcs.", "anchors": ["include/fast_ber/ber_types/ObjectIdentifier.hpp: decode_object_id"]}
{"id": "C65", "title": "Decoding is exactly the reading relation", "statement": "For a generated type with distinct tags (X.680) and an input outside the undefined-behaviour cases of C06/C44/C45, decoding succeeds if and only if some value is readable from the input according to an independent relational description of the encoding, and then the object holds exactly such a value.", "quantifier": "every well-formed schema with distinct tags, every byte string without tag/length overflow, every previous object state", "why_tests_cant": "ranges over all schemas and all byte strings", "anchors": ["src/compiler/generate/EncodeDecode.cpp: create_collection_decode_functions, create_choice_decode_functions", "include/fast_ber/ber_types/SequenceOf.hpp: decode_sequence_of_impl", "include/fast_ber/ber_types/Choice.hpp"]}
{"id": "C66", "title": "Objects always hold a value", "statement": "After any sequence of public operations (construction, leaf and member assignment, list edits, setting/resetting OPTIONAL and DEFAULT members, choosing alternatives, successful or failed decodes) an object of a generated type holds a value of its type, and encoding it into a buffer of encoded_length bytes succeeds.", "quantifier": "every schema, every history of public operations", "why_tests_cant": "ranges over all schemas and all operation sequences", "anchors": ["include/fast_ber/ber_types/*.hpp", "src/compiler/generate/EncodeDecode.cpp"]}
{"id": "C67", "title": "REAL encoding denotes the value", "statement": "encode_real writes at most ten contents octets which, read by X.690 8.5, denote exactly the value of the double, and leaves the rest of the buffer unchanged.", "quantifier": "all 2^64 bit patterns, all buffers of at least ten bytes", "why_tests_cant": "2^64 doubles", "anchors": ["include/fast_ber/ber_types/Real.hpp: encode_real"]}
{"id": "C68", "title": "REAL binary decoding agrees with X.690", "statement": "Contents octets that denote a finite value in the X.690 8.5.7 binary form decode to that value truncated to a double.", "quantifier": "all contents octets", "why_tests_cant": "all byte strings; false in corner cases (negated + partial)", "anchors": ["include/fast_ber/ber_types/Real.hpp: decode_real_binary, check_real_binary"]}
{"id": "C69", "title": "GeneralizedTime text round trip", "statement": "After set_time with a civil time and a format (local, universal, or with a zone offset in range), the object's text is the ASN.1 GeneralizedTime text of that time, format() reports the format that was set and time() returns the time that was set.", "quantifier": "all valid civil dates and times with millisecond precision, all zone offsets representable as +-hhmm", "why_tests_cant": "all instants times all zone offsets", "anchors": ["include/fast_ber/ber_types/GeneralizedTime.hpp: set_time, format, time"]}
{"id": "C70", "title": "A GeneralizedTime is always readable", "statement": "format() and time() never read outside the contents of the object, whatever was decoded into it.", "quantifier": "all contents left in the object by any decode, successful or not", "why_tests_cant": "all byte strings; false for short contents (negated + partial)", "anchors": ["include/fast_ber/ber_types/GeneralizedTime.hpp: decode, format, time"]}
{"id": "C71", "title": "Assigning an element copies it", "statement": "Assigning an lvalue that another variant holds (x = get<i>(y)) gives x that value and leaves y and all other variables unchanged.", "quantifier": "all histories, all element types", "why_tests_cant": "unbounded histories; operator=(T&&) moves from lvalues (negated + partial)", "anchors": ["include/fast_ber/util/DynamicVariant.hpp: operator=(T&&)"]}
{"id": "C72", "title": "Hand-written member decoding agrees with generated decoding", "statement": "Calling decode(iterator, member) for each member of a SEQUENCE in turn does what the generated decoder does: it consumes the element of each member that is present and nothing else.", "quantifier": "all member lists, all previous states, all (sane) contents", "why_tests_cant": "all SEQUENCE shapes and byte strings; false for DEFAULT members, which do not advance the iterator (negated + partial)", "anchors": ["include/fast_ber/util/DecodeHelpers.hpp: decode(BerViewIterator&, T&)", "include/fast_ber/ber_types/Optional.hpp: decode(BerViewIterator&, Optional&)", "include/fast_ber/ber_types/Default.hpp: decode(BerViewIterator&, Default&)"]}
{"id": "C73", "title": "Optional and Default decoding forgets the past", "statement": "Optional<T>::decode and Default<T>::decode of a view give success with an empty member when there is no element, the decoded value when the element has T's identifier, and otherwise fail without change; the outcome never depends on what the member held before.", "quantifier": "all views, all previous states, all T", "why_tests_cant": "all element types and byte strings", "anchors": ["include/fast_ber/ber_types/Optional.hpp: Optional::decode", "include/fast_ber/ber_types/Default.hpp: Default::decode"]}
{"id": "C74", "title": "Character string values keep their characters", "statement": "The C++ literal generated for an ASN.1 cstring value denotes the same characters.", "quantifier": "all cstring values", "why_tests_cant": "the set of strings is infinite and the failing ones are rare in test schemas", "anchors": ["src/compiler/ValueAsString.cpp: value_as_string", "src/compiler/asn_compiler.yacc: cstring lexer rule"]}
{"id": "C75", "title": "Splitting nested definitions preserves meaning", "statement": "Giving nested SET, SEQUENCE, ENUMERATED and CHOICE types names of their own leaves every user definition, with those names replaced by their definitions, unchanged; names stay distinct; no nested structure is left where C++ needs a name.", "quantifier": "all modules, all types, any nesting depth", "why_tests_cant": "unbounded nesting and any number of definitions", "anchors": ["src/compiler/ReorderAssignments.cpp: find_nested_structs, split_nested_structures"]}
{"id": "C76", "title": "Generated encoders write X.690 encodings of the ASN.1 types", "statement": "For every type of a schema the compiler accepts, encode() of an object of the generated type writes a BER encoding, in the sense of X.690 applied to the ASN.1 definition (tags, tagging environment, references, components, alternatives), of the value the object holds; and every value of the ASN.1 type the library has room for can be held by an object.", "quantifier": "all schemas (any number of modules, any nesting), all their types, all values, all buffers that are large enough", "why_tests_cant": "ranges over all schemas and all values", "anchors": ["src/compiler/TypeAsString.cpp: create_type_assignment, type_as_string", "src/compiler/EncodeDecode.cpp: make_component_function", "src/compiler/GenerateChoice.cpp", "src/compiler/Identifier.cpp"]}
{"id": "C77", "title": "Round trip for every type of a schema", "statement": "Decoding what encode() wrote, with any octets after it, into any object of the generated type succeeds and yields the value of the ASN.1 type that was encoded; the two objects compare equal.", "quantifier": "all schemas, all their types, all values, all previous states of the target, all suffixes", "why_tests_cant": "ranges over all schemas and all values", "anchors": ["src/compiler/TypeAsString.cpp", "src/compiler/EncodeDecode.cpp"]}
{"id": "C78", "title": "Generated decoders read every definite-length X.690 encoding of the ASN.1 type", "statement": "Every BER encoding with definite lengths of a value of an ASN.1 type of the schema (lengths in any form, SET components in any order) is decoded by the generated type to that value.", "quantifier": "all schemas, all their types, all values, all their encodings, all suffixes, all previous states of the target", "why_tests_cant": "ranges over all schemas and all encodings", "anchors": ["src/compiler/TypeAsString.cpp", "src/compiler/EncodeDecode.cpp", "src/compiler/Identifier.cpp: outer_identifiers"]}
{"id": "C79", "title": "Output of the compiler is valid C++", "statement": "For every legal schema the compiler accepts, the C++ declarations it writes compile: names are declared before they are used, once, and mean what the schema means.", "quantifier": "all legal schemas", "why_tests_cant": "ranges over all schemas", "anchors": ["src/compiler/TypeAsString.cpp: create_type_assignment, create_collection_definition", "src/compiler/GenerateChoice.cpp: create_choice_definition", "src/compiler/include/fast_ber/compiler/Visit.hpp: visit_all_types"]}
{"id": "C80", "title": "Information object classes are replaced by the types of their fields", "statement": "Wherever a type uses a field of an information object class (C.&f), the compiler treats it as the type of that field; classes, further names for classes, and objects disappear, also from the imports; every other definition is kept unchanged; the compiler reports an error exactly when a reference or field does not exist, and always terminates.", "quantifier": "all schemas, with any number of modules, classes, aliases and imports", "why_tests_cant": "ranges over all schemas; the names of classes are a fixed point over arbitrarily long chains of aliases and imports", "anchors": ["src/compiler/ObjectClass.cpp: resolve_object_classes, get_object_class_names, remove_object_classes, object_class_to_concrete, create_concrete_type"]}
{"id": "C81", "title": "The passes of the compiler preserve the meaning of a schema", "statement": "Whenever the compiler accepts a schema, then after all its passes - resolving parameters, ordering modules, splitting imports and nested structures, ordering assignments - every type of the schema is still there under its name, has the same values, and every value has the same encodings, as in the schema where each reference means the type that its module assigns or imports under that name.", "quantifier": "all schemas, all types, values and encodings", "why_tests_cant": "ranges over all schemas and all octet strings", "anchors": ["src/compiler_main/CompilerMain.cpp: main", "src/compiler/ReorderAssignments.cpp: reorder_modules, split_imports, split_nested_structures, reorder_assignments", "src/compiler/Parameters.cpp: resolve_parameters", "src/compiler/ObjectClass.cpp: resolve_object_classes"]}
{"id": "C82", "title": "Compiled schemas encode and decode their types as X.690 says", "statement": "For every type assigned in a schema that the compiler accepts and whose output compiles there is a C++ type under its name; objects of it hold the values of the ASN.1 type as it is written in the source; encode() writes an X.690 encoding of the value held; what was encoded decodes again to the same value; and every X.690 encoding with definite lengths of a value of the type is decoded to that value, whatever the target held before.", "quantifier": "all schema sources, all assigned types, all values, all encodings, all previous contents of the target, all following octets", "why_tests_cant": "ranges over all schemas, values and octet strings; a test compiles one schema", "anchors": ["src/compiler_main/CompilerMain.cpp: main", "src/compiler/ReorderAssignments.cpp", "src/compiler/Parameters.cpp", "src/compiler/TypeAsString.cpp", "src/compiler/GenerateChoice.cpp", "src/compiler/EncodeDecode.cpp", "include/fast_ber/ber_types", "include/fast_ber/util"]}
{"id": "C83", "title": "Comparing REALs", "statement": "a == b on two Real objects ends whenever value() of both ends, and is true exactly when the two values agree up to rounding: infinities of the same sign, or numbers x, y with |x-y| <= 2^-52 max(|x|,|y|); NaN is equal to nothing. == is symmetric, and every value but NaN is equal to itself.", "quantifier": "every pair of objects, every pair of doubles (finite, infinite, NaN), every identifier and every decimal-form decoder", "why_tests_cant": "2^128 pairs of doubles; the answer depends on two IEEE roundings", "anchors": ["include/fast_ber/ber_types/Real.hpp: Real::operator==, Real::value"]}
{"id": "C84", "title": "Owned packets", "statement": "A BerContainer holds one BER packet of its own. After any history of construction, assignment of content (with or without identifier), decoding of views, resizing, copying and moving it is either invalid or its accessors (class, construction, tag, content, ber, encode) are those of the single element its octets form: the element that was assigned or decoded, with the content resized as asked. Copies are independent of their source, and a container that was encoded and decoded again is the same.", "quantifier": "every history of operations, every identifier, content, view and size", "why_tests_cant": "unbounded histories and sizes; the failing sizes and identifier forms are a thin subset", "anchors": ["include/fast_ber/util/BerContainer.hpp: BerContainer", "include/fast_ber/util/BerView.hpp: BerView::assign, MutableBerView"]}
{"id": "C85", "title": "The library's CHOICE and ANY", "statement": "For every Choice<Choices<Ts...>, Id> of the library, and Any in particular: encode writes exactly the encoding of the alternative held (inside the CHOICE's own tag if it has one) and succeeds exactly if the buffer has room; decode never runs into undefined behaviour, selects the alternative whose identifier has the class and tag number of the element, and succeeds exactly if the element is an encoding of a value of that alternative; so every value decodes back to the same alternative and value. Any holds any element.", "quantifier": "every list of alternative types, every own tag, every value, every input and every previous state", "why_tests_cant": "unbounded types, values and inputs; overlapping identifiers show only in particular combinations", "anchors": ["include/fast_ber/ber_types/Choice.hpp: encode_if, decode_if, encode_impl, decode_impl, encoded_length_impl", "include/fast_ber/ber_types/Any.hpp: Any"]}
{"id": "C86", "title": "Decimal REALs", "statement": "Contents octets of a REAL whose first octet is below 0x40 are taken for a number exactly when the octet names the ISO 6093 form NR1, NR2 or NR3 and the rest is a number in that form (leading spaces, sign, digits, one decimal mark . or , and exponent as the form prescribes), and value() is then that number, correctly signed and scaled, as converted by the C++ library; otherwise value() is 0.0. Reading stays inside the contents.", "quantifier": "all contents octets of any length; every conversion of a decimal number to a double", "why_tests_cant": "unbounded texts; the language of three regular expressions against the ISO 6093 grammar", "anchors": ["src/ber_types/Real.cpp: decode_real_decimal, g_iso_6093_nr1, g_iso_6093_nr2, g_iso_6093_nr3", "include/fast_ber/ber_types/Real.hpp: decode_real, Real::value"]}
{"id": "C87", "title": "Lexical items of a schema", "statement": "A schema file made of the lexical items of X.680 clause 12, white space and comments (reserved words, references, field names, numbers, real numbers, binary, hexadecimal and character strings, symbols), with no item running into the next, reaches the parser as exactly these items in this order; layout and comments make no difference.", "quantifier": "all files: every sequence of items of any number and length, every layout", "why_tests_cant": "unbounded texts; 128 regular expressions compete by longest match and order, with lookahead past the end of an item", "anchors": ["src/compiler/asn_compiler.yacc:1817-1977: yylex", "src/compiler/autogen_copy/asn_compiler.hpp: yylex"]}
{"id": "C88", "title": "The lexer on arbitrary files", "statement": "On every file the lexer terminates, and it reads no byte behind the NUL that ends the buffer.", "quantifier": "all byte sequences", "why_tests_cant": "unbounded inputs; out of bounds reads depend on what lies behind the buffer", "anchors": ["src/compiler/asn_compiler.yacc:1817-1977: yylex", "src/compiler_main/CompilerMain.cpp: context.cursor = buffer.c_str()"]}
{"id": "C89", "title": "The printed form of a BER element describes the element", "statement": "For every file that begins with a BER element, fast_ber_view (operator<< of BerView) prints a JSON text whose value is the class, tag, size and content of that element and, recursively and in order, of everything in it, and exits with 0; for a file that does not begin with an element it prints null and fails; on no file does it read outside the file or run for ever.", "quantifier": "all files, all nestings and sizes of elements, whatever follows the element", "why_tests_cant": "unbounded nesting and sizes; well-formedness of the output and absence of undefined behaviour must hold for every input", "anchors": ["src/util/BerView.cpp:6-129: operator<<", "src/view/view.cpp: main", "include/fast_ber/ber_types/StringImpl.hpp:155-166", "include/fast_ber/ber_types/GeneralizedTime.hpp:105-189"]}
{"id": "C90", "title": "Recursive types: values of any depth are constructed, encoded, compared and read back", "statement": "For every ASN.1 schema with circular references whose types are each well formed and default-constructible: default construction returns an object holding a value; an object that holds a value, however deeply nested, is encoded with exactly encoded_length octets (and refused by every smaller buffer), reading those octets back (followed by anything, into any object) gives the same value, and == says whether two values are equal.", "quantifier": "all sets of mutually recursive SEQUENCE, SET, SEQUENCE OF, CHOICE types, all values of any depth, all buffers, all target objects, all trailing octets", "why_tests_cant": "the schemas and the nesting depth of the values are unbounded", "anchors": ["include/fast_ber/util/DynamicVariant.hpp", "include/fast_ber/util/DynamicOptional.hpp", "src/compiler/ReorderAssignments.cpp:158-296", "src/compiler/EncodeDecode.cpp", "testfiles/circular.asn"]}
{"id": "C91", "title": "Recursive types: decoding any input returns, with recursion bounded by the length of the input", "statement": "For every such schema, decode of any input into any object returns with calls nested at most a constant times the input length deep, leaves the object holding a value, and succeeds exactly if the input begins with an encoding of a value of the type, in any BER form, that value being the one held. A bound that does not depend on the input would be needed for a finite stack; there is none.", "quantifier": "all sets of mutually recursive types, all inputs (without lengths or tag numbers near 2^64), all target objects", "why_tests_cant": "termination, call depth and the exact set of accepted inputs range over all inputs of all lengths", "anchors": ["src/compiler/EncodeDecode.cpp:180-520", "include/fast_ber/ber_types/SequenceOf.hpp", "include/fast_ber/ber_types/Optional.hpp:125-190", "testfiles/circular.asn"]}
{"id": "C92", "title": "The compiler reads ASN.1 notation as what it means", "statement": "A file whose lexical items are ASN.1 notation (X.680-X.683, as far as the compiler supports it) is accepted, and the modules, imports, types, components, alternatives, tags, defaults, values, parameters and classes in the syntax tree are those the notation denotes, independent of what was read before; notation has one meaning only.", "quantifier": "all token sequences derivable in the notation of Spec/Notation.lean, of any length and nesting, all files, all earlier state", "why_tests_cant": "the language is infinite: types, constraints and assignments nest without bound, and the tables bison made resolve 140 conflicts in ways only a proof over all sentences can justify", "anchors": ["src/compiler/asn_compiler.yacc", "src/compiler/autogen_copy/asn_compiler.hpp"]}
{"id": "C93", "title": "Parsing any input ends", "statement": "For every token sequence the parser accepts or rejects after at most 100 (n + 2) steps, never taking anything off an empty stack; for every list of files the compiler's front end either does so or reads behind the end of a file that has an unterminated last item.", "quantifier": "all token sequences, all byte files, all earlier state", "why_tests_cant": "termination and memory safety range over all inputs", "anchors": ["src/compiler/autogen_copy/asn_compiler.hpp: asn1_parser::parse", "src/compiler/asn_compiler.yacc:1817-1977"]}
{"id": "C94", "title": "The parser accepts nothing outside its grammar", "statement": "Every token sequence the parser accepts is derived by the grammar of asn_compiler.yacc, and the modules it returns are made by the semantic actions of that derivation.", "quantifier": "all token sequences, all earlier state", "why_tests_cant": "acceptance ranges over an infinite language, and the tables are generated with unresolved conflicts", "anchors": ["src/compiler/asn_compiler.yacc", "src/compiler/autogen_copy/asn_compiler.hpp"]}
{"id": "C95", "title": "Constants of generated enumerations have the numbers X.680 gives the items", "statement": "For every ENUMERATED type in which no item without a number follows one with a number (and no root number equals the position of an unnumbered root item), the generated C++ enumeration has one constant per item, in order, with the item's name and the number X.680 20.3-20.6 assigns; X.680 leaves no choice. Otherwise the numbers differ (counterexamples).", "quantifier": "all enumerations of any length, root and additional items, all numbers", "why_tests_cant": "the lists of items and their numbers are unbounded", "anchors": ["src/compiler/TypeAsString.cpp:396-411", "src/compiler/asn_compiler.yacc:1150-1176"]}
{"id": "C96", "title": "From the text of the modules to the octets", "statement": "For files in ASN.1 notation whose modules obey the listed restrictions, and which the compiler and the C++ compiler accept: every assigned type has a C++ type, whose encode writes an X.690 encoding of the value an object holds, whose decode reads back what was encoded and reads every definite-length encoding of every value; all of it said of the bytes of the files.", "quantifier": "all lists of files, all modules written in them, all values, all buffers, all target objects, all trailing octets", "why_tests_cant": "schemas, values and inputs are unbounded", "anchors": ["src/compiler_main/CompilerMain.cpp:209-283", "src/compiler/asn_compiler.yacc", "src/compiler/TypeAsString.cpp"]}
{"id": "C97", "title": "Constants have the value written in the schema", "statement": "For every value assignment of the schema and every DEFAULT of a component of a simple type, the compiler writes a C++ constant (or a function of the DefaultValue struct) that the C++ compiler accepts and that has the value X.680 gives to the notation: integers, octets of hexadecimal strings, characters of strings, numbers, arcs of object identifiers, items of enumerations, and names of other values, whether assigned in the module or imported.", "quantifier": "every parsed set of modules, every value assignment, every import of a value, every DEFAULT of a component of a simple type, every chain of references of types and of values", "why_tests_cant": "The value depends on the notation, on the chain of references from the type and from the value, on the order of the constants in the namespace and on what C++ accepts as an initialiser; tests of the project cover a handful of literals and never references between constants", "anchors": ["src/compiler/ValueType.cpp: value_type", "src/compiler/ValueAsString.cpp: value_as_string", "src/compiler_main/CompilerMain.cpp: create_assignment, create_imports", "src/compiler/TypeAsString.cpp: create_collection_definition"]}
{"id": "C98", "title": "Legal schemas are accepted", "statement": "For a set of modules that obeys the listed restrictions, in whatever order modules and assignments are written: resolving imports, tags, parameters and references, splitting nested types, and ordering assignments and modules all end without an error, and the C++ that is written is accepted by a C++ compiler: nothing is declared twice, too late or not at all.", "quantifier": "all sets of modules that obey the restrictions, all orders of modules and assignments, all depths of nesting and chains of references", "why_tests_cant": "The compiler throws from a dozen places, each reached by a search through the whole set of modules; tests only try schemas known to be accepted", "anchors": ["src/compiler_main/CompilerMain.cpp: compile", "src/compiler/ReorderAssignments.cpp", "src/compiler/ResolveType.cpp: resolve", "src/compiler/Dependencies.cpp", "src/compiler/ResolveParameterized.cpp", "src/compiler/SplitNestedStructures.cpp"]}
{"id": "C99", "title": "Printing a decoded object", "statement": "Writing an object of a generated type to a stream never has undefined behaviour, and the text is a JSON document that says what the object holds: the components of a SEQUENCE or SET by name and in order, the elements of a SEQUENCE OF, the name of an ENUMERATED, null for a missing OPTIONAL component, the default for a missing DEFAULT one. Objects that compare equal are printed the same, and objects that are printed the same compare equal.", "quantifier": "all schemas the compiler accepts, all values of their types, all objects that hold them (assigned or received)", "why_tests_cant": "Texts with quotation marks, unknown enumerators, nesting and combinations of missing components are unlimited; tests print a few objects and look at none of the results", "anchors": ["src/compiler/GenerateHelpers.cpp: create_ostream_operators, create_helper_functions_impl", "src/compiler/GenerateChoice.cpp: create_choice_helpers", "include/fast_ber/ber_types/SequenceOf.hpp: operator<<", "include/fast_ber/ber_types/Optional.hpp: operator<<", "include/fast_ber/ber_types/Default.hpp: operator<<", "include/fast_ber/ber_types/Enumerated.hpp: operator<<", "include/fast_ber/ber_types/Choice.hpp: OsVisitor"]}
{"id": "C100", "title": "Programs of different versions of a schema understand each other", "statement": "Components and alternatives may be added to types with an extension marker. A program generated from the older version decodes every message of the newer one that uses no alternative unknown to it, ignores the additional components wherever they are, and its object holds exactly the rest. A program generated from the newer version decodes every message of the older one; the object holds what was sent, and the additional components are absent (or have their defaults).", "quantifier": "all pairs of schemas one of which is a later version of the other, all values, all encodings with definite lengths, all prior states of the target objects, whatever follows the message", "why_tests_cant": "A test has one version of a schema; the later versions are not written yet, and any number of components of any types can be added at any depth", "anchors": ["include/fast_ber/util/DecodeHelpers.hpp", "src/compiler/EncodeDecode.cpp: create_collection_decode_functions", "src/compiler/asn_compiler.yacc: ComponentTypeLists, ExtensionDefault", "testfiles/extension.asn"]}
{"id": "C101", "title": "The sample programs exchange teams", "statement": "The two sample programs built from testfiles/pokemon.asn understand each other: whatever team the encoding program fills in (any names, any number of members, any enumerator values and weights), it ends successfully, and the decoding program, given the file it wrote, ends successfully and prints exactly that team. Given any other file the decoding program ends too; it prints a team only if the file starts with an encoding of a Team, and then that team, and otherwise reports a failure.", "quantifier": "all teams whose encoding fits in memory, and all files given to the decoding program (tag numbers and lengths not near 2^64)", "why_tests_cant": "Teams and files are unbounded; the statement joins the text of the ASN.1 file, the whole compiler, the generated types, the encoder, the decoder and the hand-written programs.", "anchors": ["sample/encode/main.cpp: main", "sample/decode/main.cpp: main", "testfiles/pokemon.asn"]}
